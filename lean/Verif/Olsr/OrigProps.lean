import Verif.Olsr.Originator
import Verif.Acl.Props

/-
C48: own messages are recognised across originator changes; the originator only changes to a better address.
-/
namespace Verif.Olsr
open Verif.Netaddr (Netaddr AF_INET AF_INET6 AF_UNSPEC unspec isInSubnet C18_in_subnet)

/-! ### former originators -/

/-- `a` is the current originator of its family -/
def Orig.Current (o : Orig) (a : Netaddr) : Prop := o.v4 = a ∨ o.v6 = a

/-- an entry keeps `a` until `t` at least -/
def Held (o : Orig) (a : Netaddr) (t : Nat) : Prop := (∃ e ∈ o.old, e.addr = a) ∧ ∀ e ∈ o.old, e.addr = a → e.due = none ∨ ∃ d, e.due = some d ∧ t ≤ d

theorem isLocal_iff (o : Orig) (a : Netaddr) : isLocal o a = true ↔ o.Current a ∨ ∃ e ∈ o.old, e.addr = a := by
  unfold isLocal Orig.Current getEntry
  by_cases h1 : o.v4 = a
  · simp [h1]
  · by_cases h2 : o.v6 = a
    · simp [h2]
    · simp [h1, h2]

theorem getEntry_none {o : Orig} {a : Netaddr} (h : getEntry o a = none) : ∀ e ∈ o.old, e.addr ≠ a := by
  unfold getEntry at h
  simpa using h

theorem getEntry_some {o : Orig} {a : Netaddr} {x : OrigEntry} (h : getEntry o a = some x) : x ∈ o.old ∧ x.addr = a := by
  unfold getEntry at h
  exact ⟨List.mem_of_find?_eq_some h, by simpa using List.find?_some h⟩

theorem remember_held {o : Orig} {a b : Netaddr} {hold t : Nat} {ok : Bool} (h : Held o a t) (ht : t ≤ o.now + hold) (hw : o.now + hold < 2 ^ 64 ∨ b ≠ a) : Held (remember o b hold ok) a t := by
  unfold remember
  cases hb : getEntry o b with
  | none =>
    cases ok with
    | false => exact h
    | true =>
      have hba : b ≠ a := by
        intro he
        subst he
        obtain ⟨e, h1, h2⟩ := h.1
        exact getEntry_none hb e h1 h2
      obtain ⟨e, h1, h2⟩ := h.1
      refine ⟨⟨e, List.mem_cons_of_mem _ h1, h2⟩, ?_⟩
      intro x hx hxa
      rcases List.mem_cons.1 hx with h | h'
      · subst h
        exact absurd hxa hba
      · exact h.2 x h' hxa
  | some y =>
    refine ⟨?_, ?_⟩
    · obtain ⟨e, h1, h2⟩ := h.1
      refine ⟨_, List.mem_map.2 ⟨e, h1, rfl⟩, ?_⟩
      split
      · exact h2
      · exact h2
    · intro x hx hxa
      obtain ⟨e, h1, h2⟩ := List.mem_map.1 hx
      by_cases hea : e.addr = b
      · rw [if_pos hea] at h2
        subst h2
        have hba : b = a := hea.symm.trans hxa
        show timerSet o.now hold = none ∨ _
        unfold timerSet
        by_cases h0 : hold = 0
        · left; rw [if_pos h0]
        · right
          rw [if_neg h0]
          refine ⟨_, rfl, ?_⟩
          rw [Nat.mod_eq_of_lt (hw.resolve_right fun h => h hba)]
          exact ht
      · rw [if_neg hea] at h2
        subst h2
        exact h.2 e h1 hxa

theorem remember_new {o : Orig} {a : Netaddr} {hold : Nat} (hw : o.now + hold < 2 ^ 64) : Held (remember o a hold true) a (o.now + hold) := by
  have ht : timerSet o.now hold = none ∨ ∃ d, timerSet o.now hold = some d ∧ o.now + hold ≤ d := by
    unfold timerSet
    by_cases h0 : hold = 0
    · left; rw [if_pos h0]
    · right; rw [if_neg h0]; exact ⟨_, rfl, by rw [Nat.mod_eq_of_lt hw]; exact Nat.le_refl _⟩
  unfold remember
  cases hb : getEntry o a with
  | none =>
    rw [if_pos rfl]
    refine ⟨⟨_, List.mem_cons_self, rfl⟩, ?_⟩
    intro x hx hxa
    rcases List.mem_cons.1 hx with h | h
    · subst h; exact ht
    · exact absurd hxa (getEntry_none hb x h)
  | some y =>
    obtain ⟨h1, h2⟩ := getEntry_some hb
    refine ⟨⟨_, List.mem_map.2 ⟨y, h1, rfl⟩, by rw [if_pos h2]; exact h2⟩, ?_⟩
    intro x hx hxa
    obtain ⟨e, h3, h4⟩ := List.mem_map.1 hx
    by_cases hea : e.addr = a
    · rw [if_pos hea] at h4
      subst h4
      exact ht
    · rw [if_neg hea] at h4
      subst h4
      exact absurd hxa hea

theorem removeEntry_held {o : Orig} {a b : Netaddr} {t : Nat} (h : Held o a t) (hb : b ≠ a) : Held (removeEntry o b) a t := by
  obtain ⟨⟨e, h1, h2⟩, h3⟩ := h
  refine ⟨⟨e, ?_, h2⟩, ?_⟩
  · show e ∈ o.old.filter _
    rw [List.mem_filter]
    exact ⟨h1, by simp only [decide_eq_true_eq]; rw [h2]; exact fun h => hb h.symm⟩
  · intro x hx hxa
    have hx : x ∈ o.old.filter _ := hx
    rw [List.mem_filter] at hx
    exact h3 x hx.1 hxa

theorem remember_now (o : Orig) (a : Netaddr) (hold : Nat) (ok : Bool) : (remember o a hold ok).now = o.now := by
  unfold remember
  split
  · rfl
  · cases ok <;> rfl

theorem setOriginator_now (o : Orig) (a : Netaddr) (hold : Nat) (ok : Bool) : (setOriginator o a hold ok).now = o.now := by
  unfold setOriginator removeEntry
  by_cases h1 : a.type = AF_INET
  · rw [if_pos h1]
    by_cases h2 : o.v4.type ≠ AF_UNSPEC
    · rw [if_pos h2]; exact remember_now _ _ _ _
    · rw [if_neg h2]
  · rw [if_neg h1]
    by_cases h3 : a.type = AF_INET6
    · rw [if_pos h3]
      by_cases h2 : o.v6.type ≠ AF_UNSPEC
      · rw [if_pos h2]; exact remember_now _ _ _ _
      · rw [if_neg h2]
    · rw [if_neg h3]

/-- an event other than setting `a` keeps the entry of `a` before its time -/
theorem held_step {o : Orig} {a : Netaddr} {t : Nat} {e : OrigEvent} (h : Held o a t) (hc : ¬ o.Current a) (hne : ∀ hold ok, e ≠ .set a hold ok) (ht : o.now < t) :
    Held (origStep o e) a t ∧ ¬ (origStep o e).Current a := by
  cases e with
  | wait ms => exact ⟨h, hc⟩
  | fire b =>
    have hcur : ∀ x, (Olsr.fire o x).v4 = o.v4 ∧ (Olsr.fire o x).v6 = o.v6 := by
      intro x
      unfold Olsr.fire removeEntry
      split
      · split <;> exact ⟨rfl, rfl⟩
      · exact ⟨rfl, rfl⟩
    refine ⟨?_, by unfold Orig.Current; rw [show origStep o (.fire b) = Olsr.fire o b from rfl, (hcur b).1, (hcur b).2]; exact hc⟩
    show Held (Olsr.fire o b) a t
    unfold Olsr.fire
    cases hb : getEntry o b with
    | none => exact h
    | some y =>
      obtain ⟨yaddr, due⟩ := y
      cases due with
      | none => exact h
      | some d =>
        dsimp only
        by_cases hd : d ≤ o.now
        · rw [if_pos hd]
          refine removeEntry_held h ?_
          intro hba
          subst hba
          obtain ⟨m1, m2⟩ := getEntry_some hb
          rcases h.2 _ m1 m2 with h' | ⟨d', h', hle⟩
          · cases h'
          · injection h' with h'
            omega
        · rw [if_neg hd]; exact h
  | set b hold ok =>
    have hba : b ≠ a := fun he => hne hold ok (by rw [he])
    have hc4 : o.v4 ≠ a := fun h => hc (.inl h)
    have hc6 : o.v6 ≠ a := fun h => hc (.inr h)
    have keep : ∀ {x : Netaddr}, x ≠ a → ∀ {hd : Nat} {k : Bool}, Held (remember o x hd k) a t := by
      intro x hx hd k
      by_cases hle : t ≤ o.now + hd
      · exact remember_held h hle (.inr hx)
      · have : Held o a t := h
        unfold remember
        cases hb : getEntry o x with
        | none =>
          cases k with
          | false => exact h
          | true =>
            obtain ⟨e, h1, h2⟩ := h.1
            refine ⟨⟨e, List.mem_cons_of_mem _ h1, h2⟩, ?_⟩
            intro y hy hya
            rcases List.mem_cons.1 hy with h' | h'
            · subst h'; exact absurd hya hx
            · exact h.2 y h' hya
        | some y =>
          refine ⟨?_, ?_⟩
          · obtain ⟨e, h1, h2⟩ := h.1
            exact ⟨_, List.mem_map.2 ⟨e, h1, rfl⟩, by split <;> exact h2⟩
          · intro z hz hza
            obtain ⟨e, h1, h2⟩ := List.mem_map.1 hz
            by_cases hea : e.addr = x
            · rw [if_pos hea] at h2
              subst h2
              exact absurd (hea.symm.trans hza) hx
            · rw [if_neg hea] at h2
              subst h2
              exact h.2 e h1 hza
    have cur : ∀ (x : Netaddr) (hd : Nat) (k : Bool), (remember o x hd k).v4 = o.v4 ∧ (remember o x hd k).v6 = o.v6 := by
      intro x hd k
      unfold remember
      split
      · exact ⟨rfl, rfl⟩
      · cases k <;> exact ⟨rfl, rfl⟩
    show Held (setOriginator o b hold ok) a t ∧ ¬ (setOriginator o b hold ok).Current a
    unfold setOriginator
    by_cases h1 : b.type = AF_INET
    · rw [if_pos h1]
      by_cases h2 : o.v4.type ≠ AF_UNSPEC
      · rw [if_pos h2]
        refine ⟨removeEntry_held (keep hc4) hba, ?_⟩
        rintro (h | h)
        · exact hba h
        · exact hc6 ((cur _ _ _).2.symm.trans h)
      · rw [if_neg h2]
        refine ⟨removeEntry_held h hba, ?_⟩
        rintro (h | h)
        · exact hba h
        · exact hc6 h
    · rw [if_neg h1]
      by_cases h3 : b.type = AF_INET6
      · rw [if_pos h3]
        by_cases h2 : o.v6.type ≠ AF_UNSPEC
        · rw [if_pos h2]
          refine ⟨removeEntry_held (keep hc6) hba, ?_⟩
          rintro (h | h)
          · exact hc4 ((cur _ _ _).1.symm.trans h)
          · exact hba h
        · rw [if_neg h2]
          refine ⟨removeEntry_held h hba, ?_⟩
          rintro (h | h)
          · exact hc4 h
          · exact hba h
      · rw [if_neg h3]
        exact ⟨h, hc⟩

theorem now_mono (o : Orig) (e : OrigEvent) : o.now ≤ (origStep o e).now := by
  cases e with
  | wait ms => exact Nat.le_add_right _ _
  | set a hold ok => exact Nat.le_of_eq (setOriginator_now o a hold ok).symm
  | fire a =>
    show o.now ≤ (Olsr.fire o a).now
    unfold Olsr.fire removeEntry
    split
    · split <;> exact Nat.le_refl _
    · exact Nat.le_refl _

theorem now_mono_run (es : List OrigEvent) (o : Orig) : o.now ≤ (origRun o es).now := by
  induction es generalizing o with
  | nil => exact Nat.le_refl _
  | cons e es ih => exact Nat.le_trans (now_mono o e) (ih _)

theorem held_run {a : Netaddr} {t : Nat} (es : List OrigEvent) {o : Orig} (h : Held o a t) (hc : ¬ o.Current a) (hne : ∀ hold ok, .set a hold ok ∉ es) (ht : (origRun o es).now < t) :
    Held (origRun o es) a t := by
  induction es generalizing o with
  | nil => exact h
  | cons e es ih =>
    have h0 : o.now < t := Nat.lt_of_le_of_lt (now_mono_run (e :: es) o) ht
    obtain ⟨h1, h2⟩ := held_step (e := e) h hc (fun hold ok he => hne hold ok (by rw [he]; simp)) h0
    exact ih h1 h2 (fun hold ok hm => hne hold ok (List.mem_cons_of_mem _ hm)) ht

/-- C48: the current originators are local -/
theorem C48_current (o : Orig) (a : Netaddr) (h : o.v4 = a ∨ o.v6 = a) : isLocal o a = true := (isLocal_iff o a).2 (.inl h)

theorem remembered (o : Orig) (a b : Netaddr) (hold : Nat) (es : List OrigEvent) (hf : (b.type = AF_INET ∧ o.v4 = a ∧ o.v6 ≠ a) ∨ (b.type = AF_INET6 ∧ o.v6 = a ∧ o.v4 ≠ a)) (ha : a.type ≠ AF_UNSPEC) (hab : a ≠ b)
    (hw : o.now + hold < 2 ^ 64) (hne : ∀ h ok, .set a h ok ∉ es) (ht : (origRun o (.set b hold true :: es)).now < o.now + hold) :
    isLocal (origRun o (.set b hold true :: es)) a = true := by
  have key : Held (setOriginator o b hold true) a (o.now + hold) ∧ ¬ (setOriginator o b hold true).Current a := by
    have cur : ∀ (x : Netaddr) (hd : Nat) (k : Bool), (remember o x hd k).v4 = o.v4 ∧ (remember o x hd k).v6 = o.v6 := by
      intro x hd k
      unfold remember
      split
      · exact ⟨rfl, rfl⟩
      · cases k <;> exact ⟨rfl, rfl⟩
    unfold setOriginator
    rcases hf with ⟨h1, h2, h3⟩ | ⟨h1, h2, h3⟩
    · rw [if_pos h1, h2, if_pos ha]
      refine ⟨removeEntry_held (remember_new hw) (fun h => hab h.symm), ?_⟩
      rintro (h | h)
      · exact hab h.symm
      · exact h3 ((cur _ _ _).2.symm.trans h)
    · rw [if_neg (by rw [h1]; decide), if_pos h1, h2, if_pos ha]
      refine ⟨removeEntry_held (remember_new hw) (fun h => hab h.symm), ?_⟩
      rintro (h | h)
      · exact h3 ((cur _ _ _).1.symm.trans h)
      · exact hab h.symm
  have := held_run es key.1 key.2 hne ht
  exact (isLocal_iff _ a).2 (.inr this.1)

/-- facts about all states of a history: the originators have their family, and all local addresses were set -/
structure Reach (o : Orig) (es : List OrigEvent) : Prop where
  v4 : o.v4 = unspec ∨ (o.v4.type = AF_INET ∧ ∃ hold ok, .set o.v4 hold ok ∈ es)
  v6 : o.v6 = unspec ∨ (o.v6.type = AF_INET6 ∧ ∃ hold ok, .set o.v6 hold ok ∈ es)
  old : ∀ e ∈ o.old, ∃ hold ok, .set e.addr hold ok ∈ es

theorem Reach.remember {o : Orig} {es : List OrigEvent} (h : Reach o es) {a : Netaddr} (ha : ∃ hold ok, .set a hold ok ∈ es) (hold : Nat) (ok : Bool) : Reach (remember o a hold ok) es := by
  unfold Olsr.remember
  split
  · refine ⟨h.v4, h.v6, ?_⟩
    intro e he
    obtain ⟨x, h1, h2⟩ := List.mem_map.1 he
    have : e.addr = x.addr := by
      by_cases hx : x.addr = a
      · rw [if_pos hx] at h2; rw [← h2]
      · rw [if_neg hx] at h2; rw [← h2]
    rw [this]
    exact h.old x h1
  · cases ok with
    | false => exact h
    | true =>
      refine ⟨h.v4, h.v6, ?_⟩
      intro e he
      rcases List.mem_cons.1 he with he | he
      · rw [he]; exact ha
      · exact h.old e he

theorem Reach.removeEntry {o : Orig} {es : List OrigEvent} (h : Reach o es) (a : Netaddr) : Reach (removeEntry o a) es :=
  ⟨h.v4, h.v6, fun e he => h.old e ((List.mem_filter.1 he).1)⟩

theorem Reach.mono {o : Orig} {es es' : List OrigEvent} (h : Reach o es) (hs : ∀ e ∈ es, e ∈ es') : Reach o es' :=
  ⟨h.v4.imp id fun ⟨h, a, b, c⟩ => ⟨h, a, b, hs _ c⟩, h.v6.imp id fun ⟨h, a, b, c⟩ => ⟨h, a, b, hs _ c⟩, fun e he => let ⟨a, b, c⟩ := h.old e he; ⟨a, b, hs _ c⟩⟩

theorem Reach.step {o : Orig} {es : List OrigEvent} (h : Reach o es) {e : OrigEvent} (he : e ∈ es) : Reach (origStep o e) es := by
  cases e with
  | wait ms => exact ⟨h.v4, h.v6, h.old⟩
  | fire a =>
    show Reach (Olsr.fire o a) es
    unfold Olsr.fire
    split
    · split
      · exact h.removeEntry a
      · exact h
    · exact h
  | set a hold ok =>
    show Reach (setOriginator o a hold ok) es
    unfold setOriginator
    by_cases h1 : a.type = AF_INET
    · rw [if_pos h1]
      apply Reach.removeEntry
      by_cases h2 : o.v4.type ≠ AF_UNSPEC
      · rw [if_pos h2]
        rcases h.v4 with hv | hv
        · rw [hv] at h2; exact absurd rfl h2
        · have r := h.remember hv.2 hold ok
          exact ⟨.inr ⟨h1, hold, ok, he⟩, r.v6, r.old⟩
      · rw [if_neg h2]
        exact ⟨.inr ⟨h1, hold, ok, he⟩, h.v6, h.old⟩
    · rw [if_neg h1]
      by_cases h3 : a.type = AF_INET6
      · rw [if_pos h3]
        apply Reach.removeEntry
        by_cases h2 : o.v6.type ≠ AF_UNSPEC
        · rw [if_pos h2]
          rcases h.v6 with hv | hv
          · rw [hv] at h2; exact absurd rfl h2
          · have r := h.remember hv.2 hold ok
            exact ⟨r.v4, .inr ⟨h3, hold, ok, he⟩, r.old⟩
        · rw [if_neg h2]
          exact ⟨h.v4, .inr ⟨h3, hold, ok, he⟩, h.old⟩
      · rw [if_neg h3]
        exact h

theorem reach_run (es : List OrigEvent) (now : Nat) : Reach (origRun (Orig.init now) es) es := by
  have : ∀ (l : List OrigEvent) (o : Orig), Reach o es → (∀ e ∈ l, e ∈ es) → Reach (origRun o l) es := by
    intro l
    induction l with
    | nil => exact fun o h _ => h
    | cons e l ih => exact fun o h hl => ih _ (h.step (hl e List.mem_cons_self)) fun x hx => hl x (List.mem_cons_of_mem _ hx)
  exact this es _ ⟨.inl rfl, .inl rfl, fun e he => (by cases he)⟩ fun _ h => h

/-- C48: an address is originator after some history; then it is replaced by an address `b` of its family with hold time
`hold` (memory suffices), and further events follow, none of which makes it the originator again (if one does,
`C48_current` applies, and this theorem from the time it is replaced again).  It is recognised until the hold time is over. -/
theorem C48_remembered (now : Nat) (pre es : List OrigEvent) (a b : Netaddr) (hold : Nat) (hcur : (origRun (Orig.init now) pre).v4 = a ∨ (origRun (Orig.init now) pre).v6 = a)
    (ha : a.type = AF_INET ∨ a.type = AF_INET6) (hb : b.type = a.type) (hab : a ≠ b) (hne : ∀ h ok, .set a h ok ∉ es)
    (hw : (origRun (Orig.init now) pre).now + hold < 2 ^ 64) (ht : (origRun (Orig.init now) (pre ++ .set b hold true :: es)).now < (origRun (Orig.init now) pre).now + hold) :
    isLocal (origRun (Orig.init now) (pre ++ .set b hold true :: es)) a = true := by
  have hr := reach_run pre now
  have hun : a ≠ unspec := by
    intro h
    rw [h] at ha
    revert ha
    decide
  have e : origRun (Orig.init now) (pre ++ .set b hold true :: es) = origRun (origRun (Orig.init now) pre) (.set b hold true :: es) := List.foldl_append
  rw [e] at ht ⊢
  have f4 : (origRun (Orig.init now) pre).v4 = a → a.type = AF_INET := fun h => by
    rcases hr.v4 with h' | h'
    · exact absurd (h.symm.trans h') hun
    · rw [← h]; exact h'.1
  have f6 : (origRun (Orig.init now) pre).v6 = a → a.type = AF_INET6 := fun h => by
    rcases hr.v6 with h' | h'
    · exact absurd (h.symm.trans h') hun
    · rw [← h]; exact h'.1
  have hne46 : AF_INET ≠ AF_INET6 := by decide
  refine remembered _ a b hold es ?_ (by rcases ha with h | h <;> rw [h] <;> decide) hab hw hne ht
  rcases hcur with h | h
  · exact .inl ⟨hb.trans (f4 h), h, fun h' => hne46 ((f4 h).symm.trans (f6 h'))⟩
  · exact .inr ⟨hb.trans (f6 h), h, fun h' => hne46 ((f4 h').symm.trans (f6 h))⟩

/-- C48: only own addresses are recognised: every local address was set as originator before (or is the unspecified
address, see `C48_unspec_counterexample`) -/
theorem C48_only_own (now : Nat) (es : List OrigEvent) (a : Netaddr) (ha : a ≠ unspec) (h : isLocal (origRun (Orig.init now) es) a = true) : ∃ hold ok, .set a hold ok ∈ es := by
  have hr := reach_run es now
  rcases (isLocal_iff _ _).1 h with (h' | h') | ⟨e, h1, h2⟩
  · rcases hr.v4 with h2 | h2
    · exact absurd (h'.symm.trans h2) ha
    · rw [← h']; exact h2.2
  · rcases hr.v6 with h2 | h2
    · exact absurd (h'.symm.trans h2) ha
    · rw [← h']; exact h2.2
  · rw [← h2]; exact hr.old e h1

/-- 10.0.0.n -/
def a4 (n : UInt8) : Netaddr := ⟨[10, 0, 0, n, 0, 0, 0, 0, 0, 0, 0, 0, 0, 0, 0, 0], AF_INET, 32⟩

example : ((origRun (Orig.init 5) [.set (a4 1) 600 true, .set (a4 2) 600 true, .wait 300, .set (a4 3) 600 true, .fire (a4 1), .wait 299, .fire (a4 1)]) |> fun o => [isLocal o (a4 1), isLocal o (a4 2), isLocal o (a4 3), isLocal o (a4 4)]) = [true, true, true, false] ∧
    isLocal (origRun (Orig.init 5) [.set (a4 1) 600 true, .set (a4 2) 600 true, .wait 600, .fire (a4 1)]) (a4 1) = false := by decide +kernel

/-- C48: an address is local only if it is the originator, or was replaced before and its hold time is not over or the timer has not fired yet:
once the timer of the entry fires after the hold time, the address is not local any more -/
theorem C48_forgotten (o : Orig) (a : Netaddr) (h : ¬ o.Current a) (hd : ∀ e ∈ o.old, e.addr = a → ∃ d, e.due = some d ∧ d ≤ o.now) : isLocal (origStep o (.fire a)) a = false := by
  show isLocal (Olsr.fire o a) a = false
  cases hl : isLocal (Olsr.fire o a) a with
  | false => rfl
  | true =>
    exfalso
    rw [isLocal_iff] at hl
    unfold Olsr.fire at hl
    cases hg : getEntry o a with
    | none =>
      rw [hg] at hl
      rcases hl with hl | ⟨e, he, hea⟩
      · exact h hl
      · exact getEntry_none hg e he hea
    | some y =>
      obtain ⟨yaddr, due⟩ := y
      obtain ⟨m1, m2⟩ := getEntry_some hg
      obtain ⟨d, hdue, hle⟩ := hd _ m1 m2
      have hdue : due = some d := hdue
      subst hdue
      rw [hg] at hl
      dsimp only at hl
      rw [if_pos hle] at hl
      rcases hl with hl | ⟨e, he, hea⟩
      · exact h hl
      · have he : e ∈ o.old.filter _ := he
        rw [List.mem_filter] at he
        have := he.2
        simp only [decide_eq_true_eq] at this
        exact this hea

example : (origRun (Orig.init 5) [.set (a4 1) 600 true, .set (a4 2) 600 true, .wait 600]).old.all (fun e => decide (e.addr = a4 1 ∧ e.due = some 605)) = true := by decide +kernel

/-- messages without originator count as own messages as long as one of the two families has no originator -/
theorem C48_unspec_counterexample : isLocal (origRun (Orig.init 5) [.set (a4 1) 600 true]) unspec = true := by decide +kernel

/-- if there is no memory for the entry the former originator is not recognised -/
theorem C48_memory_counterexample : isLocal (origRun (Orig.init 5) [.set (a4 1) 600 true, .set (a4 2) 600 false]) (a4 1) = false := by decide +kernel

/-! ### choice of the originator -/

/-- rank of an address: 0 if it is not to be used, link-local addresses below others, loopback above other interfaces -/
inductive Rank (acl : Acl.Acl) (af : UInt8) : Bool × Netaddr → Nat → Prop
  | family (x) : x.2.type ≠ af → Rank acl af x 0
  | rejected (x) : x.2.type = af → ¬ Acl.Accepted acl x.2 → Rank acl af x 0
  | linkLocal (x) : x.2.type = af → Acl.Accepted acl x.2 → (Acl.Covers IPV4_LINKLOCAL x.2 ∨ Acl.Covers IPV6_LINKLOCAL x.2) → Rank acl af x (if x.1 then 2 else 1)
  | routable (x) : x.2.type = af → Acl.Accepted acl x.2 → ¬ (Acl.Covers IPV4_LINKLOCAL x.2 ∨ Acl.Covers IPV6_LINKLOCAL x.2) → Rank acl af x (if x.1 then 4 else 3)

/-- rank as a number -/
def rank (acl : Acl.Acl) (af : UInt8) (x : Bool × Netaddr) : Nat :=
  if x.2.type = af then
    match addrPriority acl x.2 with
    | some 0 => 0
    | some 1 => if x.1 then 2 else 1
    | some _ => if x.1 then 4 else 3
    | none => 0
  else 0

theorem prio_spec {acl : Acl.Acl} {af : UInt8} {x : Bool × Netaddr} (haf : af = AF_INET ∨ af = AF_INET6) (he : Acl.Entries acl) (hx : x.2.WF) :
    Rank acl af x (rank acl af x) ∧ (x.2.type = af → ∃ p, addrPriority acl x.2 = some p ∧ p ≤ 2 ∧ rank acl af x = if p = 0 then 0 else 2 * p - 1 + if x.1 then 1 else 0) := by
  unfold rank
  by_cases ht : x.2.type = af
  · rw [if_pos ht]
    obtain ⟨r, h1, h2⟩ := Acl.C22_decision acl x.2 he hx
    unfold addrPriority
    rw [h1]
    cases r with
    | false =>
      dsimp only
      exact ⟨.rejected x ht (fun h => by have := h2.2 h; cases this), fun _ => ⟨0, rfl, by decide, rfl⟩⟩
    | true =>
      dsimp only
      have hacc := h2.1 rfl
      rcases haf with h | h
      · rw [if_pos (ht.trans h)]
        obtain ⟨q, q1, q2⟩ := C18_in_subnet IPV4_LINKLOCAL x.2 (by decide) hx (by decide)
        have hno : ¬ Acl.Covers IPV6_LINKLOCAL x.2 := by
          intro hc
          have := hc.1
          rw [ht, h] at this
          revert this
          decide
        rw [q1]
        cases q with
        | true => exact ⟨.linkLocal x ht hacc (.inl (q2.1 rfl)), fun _ => ⟨1, rfl, by decide, by cases x.1 <;> rfl⟩⟩
        | false =>
          refine ⟨.routable x ht hacc ?_, fun _ => ⟨2, rfl, by decide, by cases x.1 <;> rfl⟩⟩
          rintro (hc | hc)
          · have := q2.2 hc; cases this
          · exact hno hc
      · rw [if_neg (by rw [ht, h]; decide), if_pos (ht.trans h)]
        obtain ⟨q, q1, q2⟩ := C18_in_subnet IPV6_LINKLOCAL x.2 (by decide) hx (by decide)
        have hno : ¬ Acl.Covers IPV4_LINKLOCAL x.2 := by
          intro hc
          have := hc.1
          rw [ht, h] at this
          revert this
          decide
        rw [q1]
        cases q with
        | true => exact ⟨.linkLocal x ht hacc (.inr (q2.1 rfl)), fun _ => ⟨1, rfl, by decide, by cases x.1 <;> rfl⟩⟩
        | false =>
          refine ⟨.routable x ht hacc ?_, fun _ => ⟨2, rfl, by decide, by cases x.1 <;> rfl⟩⟩
          rintro (hc | hc)
          · exact hno hc
          · have := q2.2 hc; cases this
  · rw [if_neg ht]
    exact ⟨.family x ht, fun h => absurd h ht⟩

theorem Rank.unique {acl : Acl.Acl} {af : UInt8} {x : Bool × Netaddr} {r r' : Nat} (h : Rank acl af x r) (h' : Rank acl af x r') : r = r' := by
  cases h <;> cases h' <;> first | rfl | contradiction

/-- priority used by the code -/
def pr (r : Nat) : Nat := if r = 0 then 0 else 2 * r + 2

theorem chooseStep_spec {acl : Acl.Acl} {af : UInt8} {orig : Netaddr} {c : Choice} {x : Bool × Netaddr} (haf : af = AF_INET ∨ af = AF_INET6) (he : Acl.Entries acl) (hx : x.2.WF) :
    chooseStep acl af orig c x = some (if rank acl af x = 0 then c
      else
        let c := if orig = x.2 then { c with oldPrio := pr (rank acl af x) + 1 } else c
        if pr (rank acl af x) > c.oldPrio ∧ pr (rank acl af x) > c.newPrio then { c with best := x.2, newPrio := pr (rank acl af x) } else c) := by
  unfold chooseStep
  by_cases ht : x.2.type = af
  · rw [if_pos ht]
    obtain ⟨p, h1, h2, h3⟩ := (prio_spec haf he hx).2 ht
    rw [h1]
    dsimp only
    by_cases h0 : p = 0
    · rw [h0, if_pos rfl] at h3
      rw [if_pos (by omega), h3, if_pos rfl]
    · rw [if_neg h0] at h3
      have hr0 : rank acl af x ≠ 0 := by omega
      have hp4 : ¬ p * 4 = 0 := by omega
      rw [if_neg hp4, if_neg hr0]
      have hp : (if x.1 = true then p * 4 + 2 else p * 4) = pr (rank acl af x) := by
        unfold pr
        rw [if_neg hr0, h3]
        cases x.1
        · rw [if_neg (by decide), if_neg (by decide)]; omega
        · rw [if_pos rfl, if_pos rfl]; omega
      rw [hp]
      generalize (if orig = x.2 then ({ c with oldPrio := pr (rank acl af x) + 1 } : Choice) else c) = c'
      split <;> rfl
  · rw [if_neg ht]
    unfold rank
    rw [if_neg ht, if_pos rfl]

/-- state of the loop after the addresses `l` -/
structure Chosen (acl : Acl.Acl) (af : UInt8) (orig : Netaddr) (l : List (Bool × Netaddr)) (c : Choice) : Prop where
  old : c.oldPrio = 0 ∨ ∃ x ∈ l, x.2 = orig ∧ rank acl af x ≠ 0 ∧ c.oldPrio = pr (rank acl af x) + 1
  seen : ∀ x ∈ l, x.2 = orig → rank acl af x ≠ 0 → c.oldPrio ≠ 0
  new : c.newPrio = 0 ∨ ∃ x ∈ l, x.2 = c.best ∧ rank acl af x ≠ 0 ∧ c.newPrio = pr (rank acl af x)
  max : ∀ x ∈ l, pr (rank acl af x) ≤ c.oldPrio ∨ pr (rank acl af x) ≤ c.newPrio

theorem choose_run {acl : Acl.Acl} {af : UInt8} {orig : Netaddr} (haf : af = AF_INET ∨ af = AF_INET6) (he : Acl.Entries acl) : ∀ (l p : List (Bool × Netaddr)) (c : Choice),
    (∀ x ∈ p ++ l, x.2.WF) → (∀ x ∈ p ++ l, ∀ y ∈ p ++ l, x.2 = orig → y.2 = orig → rank acl af x = rank acl af y) → Chosen acl af orig p c →
    ∃ c', l.foldlM (chooseStep acl af orig) c = some c' ∧ Chosen acl af orig (p ++ l) c'
  | [], p, c, _, _, h => ⟨c, rfl, by rw [List.append_nil]; exact h⟩
  | x :: l, p, c, hw, ho, h => by
    rw [List.foldlM_cons, chooseStep_spec haf he (hw x (by simp))]
    have hw' : ∀ y ∈ (p ++ [x]) ++ l, y.2.WF := fun y hy => hw y (by simpa using hy)
    have ho' : ∀ y ∈ (p ++ [x]) ++ l, ∀ z ∈ (p ++ [x]) ++ l, y.2 = orig → z.2 = orig → rank acl af y = rank acl af z := fun y hy z hz => ho y (by simpa using hy) z (by simpa using hz)
    have hp0 : ∀ y, rank acl af y = 0 → pr (rank acl af y) = 0 := fun y hy => by rw [hy]; rfl
    have grow : ∀ {q : Bool × Netaddr → Prop}, (∃ y ∈ p, q y) → ∃ y ∈ p ++ [x], q y := fun ⟨y, h1, h2⟩ => ⟨y, by simp [h1], h2⟩
    have step : ∃ c1, some c1 = some (if rank acl af x = 0 then c
      else
        let c := if orig = x.2 then { c with oldPrio := pr (rank acl af x) + 1 } else c
        if pr (rank acl af x) > c.oldPrio ∧ pr (rank acl af x) > c.newPrio then { c with best := x.2, newPrio := pr (rank acl af x) } else c) ∧ Chosen acl af orig (p ++ [x]) c1 := by
      refine ⟨_, rfl, ?_⟩
      by_cases h0 : rank acl af x = 0
      · rw [if_pos h0]
        refine ⟨h.old.imp id grow, ?_, h.new.imp id grow, ?_⟩
        · intro y hy h1 h2
          rcases List.mem_append.1 hy with hy | hy
          · exact h.seen y hy h1 h2
          · rw [List.mem_singleton.1 hy] at h2
            exact absurd h0 h2
        · intro y hy
          rcases List.mem_append.1 hy with hy | hy
          · exact h.max y hy
          · rw [List.mem_singleton.1 hy, hp0 x h0]
            exact .inl (Nat.zero_le _)
      · rw [if_neg h0]
        have hpos : 0 < pr (rank acl af x) := by unfold pr; rw [if_neg h0]; omega
        by_cases hox : orig = x.2
        · rw [if_pos hox]
          dsimp only
          rw [if_neg (by omega)]
          refine ⟨.inr ⟨x, by simp, hox.symm, h0, rfl⟩, fun _ _ _ _ => Nat.succ_ne_zero _, h.new.imp id grow, ?_⟩
          intro y hy
          rcases List.mem_append.1 hy with hy | hy
          · rcases h.max y hy with h1 | h1
            · left
              show _ ≤ pr (rank acl af x) + 1
              rcases h.old with h2 | ⟨z, hz, h3, h4, h5⟩
              · omega
              · rw [h5, ho z (by simp [hz]) x (by simp) h3 hox.symm] at h1
                exact h1
            · exact .inr h1
          · left
            show _ ≤ pr (rank acl af x) + 1
            rw [List.mem_singleton.1 hy]
            omega
        · rw [if_neg hox]
          dsimp only
          have hseen : ∀ y ∈ p ++ [x], y.2 = orig → rank acl af y ≠ 0 → c.oldPrio ≠ 0 := by
            intro y hy h1 h2
            rcases List.mem_append.1 hy with hy | hy
            · exact h.seen y hy h1 h2
            · rw [List.mem_singleton.1 hy] at h1
              exact absurd h1.symm hox
          by_cases hb : pr (rank acl af x) > c.oldPrio ∧ pr (rank acl af x) > c.newPrio
          · rw [if_pos hb]
            refine ⟨h.old.imp id grow, hseen, .inr ⟨x, by simp, rfl, h0, rfl⟩, ?_⟩
            intro y hy
            show pr (rank acl af y) ≤ c.oldPrio ∨ pr (rank acl af y) ≤ pr (rank acl af x)
            rcases List.mem_append.1 hy with hy | hy
            · rcases h.max y hy with h1 | h1
              · exact .inl h1
              · exact .inr (by omega)
            · rw [List.mem_singleton.1 hy]
              exact .inr (Nat.le_refl _)
          · rw [if_neg hb]
            refine ⟨h.old.imp id grow, hseen, h.new.imp id grow, ?_⟩
            intro y hy
            rcases List.mem_append.1 hy with hy | hy
            · exact h.max y hy
            · rw [List.mem_singleton.1 hy]
              omega
    obtain ⟨c1, e1, h1⟩ := step
    rw [← e1]
    obtain ⟨c2, e2, h2⟩ := choose_run haf he l (p ++ [x]) c1 hw' ho' h1
    refine ⟨c2, e2, ?_⟩
    rw [List.append_assoc] at h2
    exact h2

/-- C48: the choice of a new originator.  `l`: loopback flag and address, for all addresses of all interfaces, where the
current originator has the same rank on all interfaces.  If a new address is chosen it has the highest rank of all
addresses, and a higher one than the current originator has; otherwise no address ranks higher than the current originator,
or no address can be used. -/
theorem C48_choice_partial (acl : Acl.Acl) (af : UInt8) (orig : Netaddr) (l : List (Bool × Netaddr)) (haf : af = AF_INET ∨ af = AF_INET6) (he : Acl.Entries acl) (hw : ∀ x ∈ l, x.2.WF)
    (ho : ∀ x ∈ l, ∀ y ∈ l, x.2 = orig → y.2 = orig → x.1 = y.1) :
    (∃ a x r, updateOriginator acl af orig l = some (some a) ∧ x ∈ l ∧ x.2 = a ∧ Rank acl af x r ∧ 0 < r ∧ (∀ y ∈ l, ∀ q, Rank acl af y q → q ≤ r) ∧ ∀ y ∈ l, y.2 = orig → ∀ q, Rank acl af y q → q < r) ∨
    (updateOriginator acl af orig l = some none ∧ ∀ y ∈ l, ∀ q, Rank acl af y q → q = 0 ∨ ∃ z ∈ l, z.2 = orig ∧ ∃ p, Rank acl af z p ∧ q ≤ p) := by
  have hr : ∀ x ∈ l, Rank acl af x (rank acl af x) := fun x hx => (prio_spec haf he (hw x hx)).1
  have ho' : ∀ x ∈ l, ∀ y ∈ l, x.2 = orig → y.2 = orig → rank acl af x = rank acl af y := by
    intro x hx y hy h1 h2
    have : x = y := Prod.ext (ho x hx y hy h1 h2) (h1.trans h2.symm)
    rw [this]
  obtain ⟨c, e, h⟩ := choose_run (orig := orig) haf he l [] ⟨0, 0, unspec⟩ (by simpa using hw) (by simpa using ho')
    ⟨.inl rfl, fun x hx => (by cases hx), .inl rfl, fun x hx => (by cases hx)⟩
  rw [List.nil_append] at h
  unfold updateOriginator
  rw [e]
  dsimp only
  have hpr : ∀ a b, pr a ≤ pr b → a ≤ b := by
    intro a b hab
    unfold pr at hab
    by_cases ha : a = 0
    · omega
    · by_cases hb : b = 0
      · rw [if_neg ha, if_pos hb] at hab; omega
      · rw [if_neg ha, if_neg hb] at hab; omega
  have hpr1 : ∀ a b, pr a ≤ pr b + 1 → b ≠ 0 → a ≤ b := by
    intro a b hab hb
    unfold pr at hab
    rw [if_neg hb] at hab
    by_cases ha : a = 0
    · omega
    · rw [if_neg ha] at hab; omega
  by_cases hn : c.newPrio > c.oldPrio
  · rw [if_pos hn]
    left
    rcases h.new with h0 | ⟨x, hx, hxb, hx0, hxp⟩
    · omega
    · refine ⟨c.best, x, rank acl af x, rfl, hx, hxb, hr x hx, by omega, ?_, ?_⟩
      · intro y hy q hq
        rw [hq.unique (hr y hy)]
        apply hpr
        rcases h.max y hy with h1 | h1 <;> omega
      · intro y hy hyo q hq
        rw [hq.unique (hr y hy)]
        by_cases h0 : rank acl af y = 0
        · omega
        · rcases h.old with h1 | ⟨z, hz, hzo, hz0, hzp⟩
          · exact absurd h1 (h.seen y hy hyo h0)
          · have hzy := ho' z hz y hy hzo hyo
            rw [hzy] at hzp
            have : ¬ pr (rank acl af x) ≤ pr (rank acl af y) := by omega
            rcases Nat.lt_or_ge (rank acl af y) (rank acl af x) with h' | h'
            · exact h'
            · exfalso
              apply this
              unfold pr
              rw [if_neg hx0, if_neg h0]
              omega
  · rw [if_neg hn]
    right
    refine ⟨rfl, ?_⟩
    intro y hy q hq
    rw [hq.unique (hr y hy)]
    by_cases h0 : rank acl af y = 0
    · exact .inl h0
    · right
      have hpos : 0 < pr (rank acl af y) := by unfold pr; rw [if_neg h0]; omega
      rcases h.old with h1 | ⟨z, hz, hzo, hz0, hzp⟩
      · rcases h.max y hy with h2 | h2 <;> omega
      · exact ⟨z, hz, hzo, _, hr z hz, hpr1 _ _ (by rcases h.max y hy with h2 | h2 <;> omega) hz0⟩

/-- accept everything -/
def aclAll : Acl.Acl := ⟨[], [], false, true⟩
/-- 169.254.0.n -/
def ll4 (n : UInt8) : Netaddr := ⟨[169, 254, 0, n, 0, 0, 0, 0, 0, 0, 0, 0, 0, 0, 0, 0], AF_INET, 32⟩

example : updateOriginator aclAll AF_INET (a4 1) [(false, ll4 1), (false, a4 1), (false, a4 2), (true, ll4 2)] = some none ∧
    updateOriginator aclAll AF_INET (a4 1) [(false, ll4 1), (false, a4 1), (false, a4 2), (true, a4 3)] = some (some (a4 3)) ∧
    updateOriginator aclAll AF_INET (a4 9) [(false, ll4 1), (false, a4 1), (false, a4 2)] = some (some (a4 1)) := by decide +kernel

/-- if the originator is an address of the loopback and also of another interface, it is replaced by another loopback
address that is not better -/
theorem C48_choice_counterexample : updateOriginator aclAll AF_INET (a4 1) [(true, a4 1), (true, a4 2), (false, a4 1)] = some none ∧
    updateOriginator aclAll AF_INET (a4 1) [(true, a4 2), (true, a4 1), (false, a4 1)] = some (some (a4 2)) := by decide +kernel

end Verif.Olsr
