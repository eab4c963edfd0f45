import Verif.RtSched.Spec
/-!
C230: changes lead to a recalculation of routes in time, and only then.  C231: the ANSN identifies the announced topology.
-/

namespace Verif.RtSched

/-! ## Logs -/

theorem snoc_split {α : Type} {l l1 l2 : List α} {e x : α} (h : l ++ [e] = l1 ++ x :: l2) :
    (l2 = [] ∧ l = l1 ∧ e = x) ∨ ∃ l3, l2 = l3 ++ [e] ∧ l = l1 ++ x :: l3 := by
  rcases List.eq_nil_or_concat l2 with rfl | ⟨l3, y, hy⟩
  · left
    have := List.append_inj' h rfl
    exact ⟨rfl, this.1, by simpa using this.2⟩
  · right
    rw [List.concat_eq_append] at hy
    subst hy
    rw [← List.cons_append, ← List.append_assoc] at h
    have := List.append_inj' h rfl
    have he : e = y := by simpa using this.2
    exact ⟨l3, by rw [he], this.1⟩

theorem waits_changed (d x : Nat) (l : List Ev) : Waits d (l ++ [.changed x]) ↔ x = d ∨ Waits d l := by
  constructor
  · rintro ⟨l1, l2, h, hr⟩
    rcases snoc_split h with ⟨_, _, e⟩ | ⟨l3, rfl, e⟩
    · injection e with e; exact Or.inl e
    · exact Or.inr ⟨l1, l3, e, fun t f ds hm => hr t f ds (List.mem_append_left _ hm)⟩
  · rintro (rfl | ⟨l1, l2, rfl, hr⟩)
    · exact ⟨l, [], rfl, fun _ _ _ hm => absurd hm List.not_mem_nil⟩
    · refine ⟨l1, l2 ++ [.changed x], by simp, fun t f ds hm => ?_⟩
      rcases List.mem_append.1 hm with hm | hm
      · exact hr t f ds hm
      · simp at hm

theorem waits_ran (d t : Nat) (f : Bool) (ds : List Nat) (l : List Ev) :
    Waits d (l ++ [.ran t f ds]) ↔ d ∉ ds ∧ Waits d l := by
  constructor
  · rintro ⟨l1, l2, h, hr⟩
    rcases snoc_split h with ⟨_, _, e⟩ | ⟨l3, rfl, e⟩
    · cases e
    · exact ⟨hr t f ds (by simp), l1, l3, e, fun t f ds hm => hr t f ds (List.mem_append_left _ hm)⟩
  · rintro ⟨hn, l1, l2, rfl, hr⟩
    refine ⟨l1, l2 ++ [.ran t f ds], by simp, fun t' f' ds' hm => ?_⟩
    rcases List.mem_append.1 hm with hm | hm
    · exact hr t' f' ds' hm
    · simp at hm; rw [hm.2.2]; exact hn

theorem waits_other (d : Nat) (e : Ev) (l : List Ev) (h1 : ∀ x, e ≠ .changed x) (h2 : ∀ t f ds, e ≠ .ran t f ds) :
    Waits d (l ++ [e]) ↔ Waits d l := by
  constructor
  · rintro ⟨l1, l2, h, hr⟩
    rcases snoc_split h with ⟨_, _, e'⟩ | ⟨l3, rfl, e'⟩
    · exact absurd e' (h1 _)
    · exact ⟨l1, l3, e', fun t f ds hm => hr t f ds (List.mem_append_left _ hm)⟩
  · rintro ⟨l1, l2, rfl, hr⟩
    refine ⟨l1, l2 ++ [e], by simp, fun t' f' ds' hm => ?_⟩
    rcases List.mem_append.1 hm with hm | hm
    · exact hr t' f' ds' hm
    · rw [List.mem_singleton] at hm; exact absurd hm.symm (h2 _ _ _)

theorem unannounced_announce (l : List Ev) : Unannounced (l ++ [.announce]) :=
  ⟨l, [], rfl, fun _ _ _ hm => absurd hm List.not_mem_nil⟩

theorem unannounced_ran (t : Nat) (f : Bool) (ds : List Nat) (l : List Ev) : ¬ Unannounced (l ++ [.ran t f ds]) := by
  rintro ⟨l1, l2, h, hr⟩
  rcases snoc_split h with ⟨_, _, e⟩ | ⟨l3, rfl, e⟩
  · cases e
  · exact hr t f ds (by simp)

theorem unannounced_other (e : Ev) (l : List Ev) (h1 : e ≠ .announce) (h2 : ∀ t f ds, e ≠ .ran t f ds) :
    Unannounced (l ++ [e]) ↔ Unannounced l := by
  constructor
  · rintro ⟨l1, l2, h, hr⟩
    rcases snoc_split h with ⟨_, _, e'⟩ | ⟨l3, rfl, e'⟩
    · exact absurd e' h1
    · exact ⟨l1, l3, e', fun t f ds hm => hr t f ds (List.mem_append_left _ hm)⟩
  · rintro ⟨l1, l2, rfl, hr⟩
    refine ⟨l1, l2 ++ [e], by simp, fun t' f' ds' hm => ?_⟩
    rcases List.mem_append.1 hm with hm | hm
    · exact hr t' f' ds' hm
    · rw [List.mem_singleton] at hm; exact absurd hm.symm (h2 _ _ _)

theorem clock_bounds (now first : Nat) : now + first < clock now first ∧ clock now first ≤ now + first + 100 := by
  unfold clock; omega

/-! ## Invariant -/

/-- A property of states that all elementary actions keep; every call is made of them. -/
structure Keeps (doms : List Nat) (P : St → Prop) : Prop where
  trigger : ∀ s, P s → P (trigger s)
  mark : ∀ s d, P s → P (mark s d)
  announce : ∀ s, P s → P (announce s)
  arm : ∀ s, P s → s.due ≠ none → P { s with trigger := true }
  forced : ∀ s, P s → s.shutdown = false → s.frozen = false → P (recalculate doms s true)
  idle : ∀ s, P s → s.shutdown = false → s.frozen = false → s.due = none → P (recalculate doms s false)
  wait : ∀ s t, P s → (∀ x, s.due = some x → max s.now t < x) → P { s with now := max s.now t }
  late : ∀ s t x, P s → s.due = some x → x ≤ max s.now t →
    (s.trigger = false → P { s with now := max s.now t, due := none }) ∧
    (s.trigger = true → (s.shutdown || s.frozen) = true → P { s with now := max s.now t, due := none, trigger := false }) ∧
    (s.trigger = true → (s.shutdown || s.frozen) = false →
      P (recalculate doms { s with now := max s.now t, due := none, trigger := false } false))
  tc : ∀ s, P s → P { s with log := s.log ++ [.tc s.ansn] }

theorem Keeps.force {doms : List Nat} {P : St → Prop} (h : Keeps doms P) {s : St} (hs : P s) (skip : Bool) : P (force doms s skip) := by
  unfold RtSched.force
  by_cases h1 : (s.shutdown || s.frozen) = true
  · rw [if_pos h1]; exact hs
  · rw [if_neg h1]
    have h2 : s.shutdown = false ∧ s.frozen = false := by simpa using h1
    by_cases h3 : s.due ≠ none ∧ skip = false
    · rw [if_pos h3]; exact h.arm s hs h3.1
    · rw [if_neg h3]
      cases skip with
      | true => exact h.forced s hs h2.1 h2.2
      | false => exact h.idle s hs h2.1 h2.2 (by simpa using h3)

theorem Keeps.walk {doms : List Nat} {P : St → Prop} (h : Keeps doms P) {s : St} (hs : P s) (t : Nat) : P (walk doms s t) := by
  unfold RtSched.walk
  dsimp only
  cases hd : s.due with
  | none =>
    have h2 := h.wait s t hs (by rw [hd]; intro x e; cases e)
    rw [hd] at h2
    exact h2
  | some x =>
    dsimp only
    by_cases hx : x ≤ max s.now t
    · rw [if_pos hx]
      obtain ⟨h1, h2, h3⟩ := h.late s t x hs hd hx
      unfold fire
      dsimp only
      cases ht : s.trigger with
      | false =>
        rw [if_neg (by simp)]
        have h1 := h1 ht
        rw [ht] at h1
        exact h1
      | true =>
        rw [if_pos rfl]
        unfold RtSched.force
        dsimp only
        by_cases h4 : (s.shutdown || s.frozen) = true
        · rw [if_pos h4]; exact h2 ht h4
        · rw [if_neg h4, if_neg (by simp)]
          exact h3 ht (by simpa using h4)
    · rw [if_neg hx]
      have h2 := h.wait s t hs (by rw [hd]; intro y e; injection e with e; omega)
      rw [hd] at h2
      exact h2

theorem foldl_keep {α : Type} {P : St → Prop} {f : St → α → St} (h : ∀ s a, P s → P (f s a)) (l : List α) :
    ∀ s, P s → P (l.foldl f s) := by
  induction l with
  | nil => intro s hs; exact hs
  | cons a l ih => intro s hs; exact ih _ (h s a hs)

theorem Keeps.domainChanged {doms : List Nat} {P : St → Prop} (h : Keeps doms P) {s : St} (hs : P s) (d : Option Nat) (a : Bool) :
    P (domainChanged doms s d a) := by
  unfold RtSched.domainChanged
  have h1 : P (if a then RtSched.announce s else s) := by
    cases a with
    | true => exact h.announce s hs
    | false => exact hs
  cases d with
  | some d => exact h.mark _ d h1
  | none => exact foldl_keep h.mark doms _ h1

theorem Keeps.nhdp {doms : List Nat} {P : St → Prop} (h : Keeps doms P) {s : St} (hs : P s) (d : Option Nat) :
    P (nhdpEvent doms s d) := by
  have h1 : ∀ s d, P s → P (nhdpEvent1 s d) := fun s d hs => h.mark _ d (h.announce s hs)
  cases d with
  | some d => exact h1 s d hs
  | none => exact foldl_keep h1 doms s hs

/-- Flags and log agree. -/
structure Inv (doms : List Nat) (s : St) : Prop where
  changed : ∀ d ∈ doms, (s.changed d = true ↔ Waits d s.log)
  upd : s.upd = true ↔ Unannounced s.log
  pending : s.frozen = false → s.shutdown = false → (∃ d ∈ doms, s.changed d = true) → s.trigger = true ∧ s.due ≠ none
  due : ∀ x, s.due = some x → s.now < x ∧ x ≤ s.now + 1100
  exact : ∀ l1 t f ds l2, s.log = l1 ++ .ran t f ds :: l2 → ∀ d, d ∈ ds ↔ d ∈ doms ∧ Waits d l1
  ansn : s.ansn < 65536

theorem inv_trigger {doms : List Nat} (s : St) (h : Inv doms s) : Inv doms (trigger s) := by
  refine ⟨h.changed, h.upd, fun _ _ _ => ⟨rfl, ?_⟩, ?_, h.exact, h.ansn⟩
  · unfold trigger; cases s.due <;> simp
  · intro x hx
    unfold trigger at hx ⊢
    cases hd : s.due with
    | none =>
      rw [hd] at hx
      injection hx with hx
      have := clock_bounds s.now 1
      dsimp only; omega
    | some y =>
      rw [hd] at hx
      injection hx with hx
      subst hx
      exact h.due y hd

theorem exact_other {doms : List Nat} {s : St} (h : Inv doms s) {e : Ev} (he : ∀ t f ds, e ≠ .ran t f ds) :
    ∀ l1 t f ds l2, s.log ++ [e] = l1 ++ .ran t f ds :: l2 → ∀ d, d ∈ ds ↔ d ∈ doms ∧ Waits d l1 := by
  intro l1 t f ds l2 hl
  rcases snoc_split hl with ⟨_, _, e'⟩ | ⟨l3, _, e'⟩
  · exact absurd e' (he _ _ _)
  · exact h.exact _ _ _ _ _ e'

theorem inv_mark {doms : List Nat} (s : St) (d : Nat) (h : Inv doms s) : Inv doms (mark s d) := by
  have ht : (mark s d).due ≠ none := by unfold mark trigger; cases s.due <;> simp
  refine ⟨?_, ?_, fun _ _ _ => ⟨rfl, ht⟩, ?_, exact_other h (by intros; simp), h.ansn⟩
  · intro x hx
    have h2 := waits_changed x d s.log
    show (if x = d then true else s.changed x) = true ↔ Waits x (s.log ++ [.changed d])
    rw [h2]
    by_cases e : x = d
    · simp [e]
    · rw [if_neg e, h.changed x hx]
      constructor
      · exact Or.inr
      · rintro (e' | e')
        · exact absurd e'.symm e
        · exact e'
  · show s.upd = true ↔ Unannounced (s.log ++ [.changed d])
    rw [unannounced_other _ _ (by simp) (by intros; simp)]
    exact h.upd
  · intro x hx
    exact (inv_trigger s h).due x hx

theorem inv_announce {doms : List Nat} (s : St) (h : Inv doms s) : Inv doms (announce s) := by
  refine ⟨?_, ?_, h.pending, h.due, exact_other h (by intros; simp), h.ansn⟩
  · intro x hx
    show s.changed x = true ↔ Waits x (s.log ++ [.announce])
    rw [waits_other _ _ _ (by intros; simp) (by intros; simp)]
    exact h.changed x hx
  · exact ⟨fun _ => unannounced_announce _, fun _ => rfl⟩

theorem inv_recalculate {doms : List Nat} (s : St) (f : Bool) (h : Inv doms s) : Inv doms (recalculate doms s f) := by
  refine ⟨?_, ?_, ?_, ?_, ?_, ?_⟩
  · intro x hx
    show (if x ∈ doms then false else s.changed x) = true ↔ Waits x (s.log ++ [.ran s.now f (doms.filter s.changed)])
    rw [if_pos hx, waits_ran]
    constructor
    · intro e; cases e
    · rintro ⟨h1, h2⟩
      exact absurd (List.mem_filter.2 ⟨hx, (h.changed x hx).2 h2⟩) h1
  · constructor
    · intro e; cases e
    · intro e; exact absurd e (unannounced_ran _ _ _ _)
  · rintro _ _ ⟨d, hd, e⟩
    have e : (if d ∈ doms then false else s.changed d) = true := e
    rw [if_pos hd] at e; cases e
  · intro x hx
    have hx : some (clock s.now rate) = some x := hx
    injection hx with hx
    have := clock_bounds s.now rate
    have hr : rate = 1000 := rfl
    show s.now < x ∧ x ≤ s.now + 1100
    omega
  · intro l1 t f' ds l2 hl
    rcases snoc_split (l := s.log) hl with ⟨_, e1, e2⟩ | ⟨l3, _, e'⟩
    · injection e2 with _ _ e2
      intro d
      rw [← e2, ← e1, List.mem_filter]
      constructor
      · rintro ⟨a, b⟩; exact ⟨a, (h.changed d a).1 b⟩
      · rintro ⟨a, b⟩; exact ⟨a, (h.changed d a).2 b⟩
    · exact h.exact _ _ _ _ _ e'
  · show (if s.upd = true then (s.ansn + 1) % 65536 else s.ansn) < 65536
    split
    · exact Nat.mod_lt _ (by decide)
    · exact h.ansn

theorem inv_keeps (doms : List Nat) : Keeps doms (Inv doms) where
  trigger := inv_trigger
  mark := inv_mark
  announce := inv_announce
  arm := fun s h hd => ⟨h.changed, h.upd, fun _ _ _ => ⟨rfl, hd⟩, h.due, h.exact, h.ansn⟩
  forced := fun s h _ _ => inv_recalculate s true h
  idle := fun s h _ _ _ => inv_recalculate s false h
  wait := fun s t h hw => ⟨h.changed, h.upd, h.pending, fun x hx => by
    have h1 := h.due x hx
    have h2 := hw x hx
    dsimp only
    omega, h.exact, h.ansn⟩
  late := fun s t x h hd hx => by
    have h0 : ∀ (b : Bool), (s.frozen = false → s.shutdown = false → ¬ ∃ d ∈ doms, s.changed d = true) →
        Inv doms { s with now := max s.now t, due := none, trigger := b } := fun b hno =>
      ⟨h.changed, h.upd, fun h1 h2 h3 => absurd h3 (hno h1 h2), (fun x hx => nomatch hx), h.exact, h.ansn⟩
    refine ⟨fun ht => ?_, fun ht hs => ?_, fun ht hs => ?_⟩
    · have h2 := h0 s.trigger fun h1 h2 h3 => by
        have h4 := (h.pending h1 h2 h3).1
        rw [ht] at h4; cases h4
      exact h2
    · refine h0 false fun h1 h2 => ?_
      rw [h1, h2] at hs; cases hs
    · -- the state before the recalculation need not keep the invariant about pending work
      have hi : Inv doms (recalculate doms { s with now := max s.now t } false) := by
        have h1 := h.due x hd
        have hI : Inv doms { s with due := some (max s.now t + 1), now := max s.now t } :=
          ⟨h.changed, h.upd, fun h1 h2 h3 => ⟨(h.pending h1 h2 h3).1, by simp⟩, fun y hy => by
            injection hy with hy; dsimp only; omega, h.exact, h.ansn⟩
        have h2 := inv_recalculate _ false hI
        exact ⟨h2.changed, h2.upd, h2.pending, h2.due, h2.exact, h2.ansn⟩
      refine ⟨hi.changed, hi.upd, fun _ _ h3 => ?_, hi.due, hi.exact, hi.ansn⟩
      obtain ⟨d, hd, e⟩ := h3
      have e : (if d ∈ doms then false else s.changed d) = true := e
      rw [if_pos hd] at e; cases e
  tc := fun s h => by
    refine ⟨fun x hx => ?_, ?_, h.pending, h.due, exact_other h (by intros; simp), h.ansn⟩
    · show s.changed x = true ↔ Waits x (s.log ++ [.tc s.ansn])
      rw [waits_other _ _ _ (by intros; simp) (by intros; simp)]
      exact h.changed x hx
    · show s.upd = true ↔ Unannounced (s.log ++ [.tc s.ansn])
      rw [unannounced_other _ _ (by simp) (by intros; simp)]
      exact h.upd

theorem inv_step {doms : List Nat} {s : St} (h : Inv doms s) (op : Op) : Inv doms (step doms s op) := by
  have k := inv_keeps doms
  cases op with
  | domainChanged d a => exact k.domainChanged h d a
  | nhdp d => exact k.nhdp h d
  | trigger => exact k.trigger s h
  | force skip => exact k.force h skip
  | walk t => exact k.walk h t
  | freeze b =>
    rw [step]; unfold freeze
    split
    · exact h
    · dsimp only
      cases b with
      | true => exact ⟨h.changed, h.upd, (fun e => nomatch e), h.due, h.exact, h.ansn⟩
      | false =>
        rw [if_neg (by simp)]
        have h2 := inv_trigger s h
        have hp : (trigger { s with frozen := false }).due ≠ none := by unfold RtSched.trigger; cases s.due <;> simp
        exact ⟨h2.changed, h2.upd, fun _ _ _ => ⟨rfl, hp⟩, h2.due, h2.exact, h2.ansn⟩
  | parameter d same routes =>
    rw [step]; unfold setParameter
    split
    · exact h
    · split
      · exact h
      · refine ⟨fun x hx => ?_, ?_, fun _ _ _ => ⟨rfl, by simp⟩, ?_, exact_other h (by intros; simp), h.ansn⟩
        · dsimp only
          rw [waits_other _ _ _ (by intros; simp) (by intros; simp)]
          exact h.changed x hx
        · dsimp only
          rw [unannounced_other _ _ (by simp) (by intros; simp)]
          exact h.upd
        · intro x hx
          injection hx with hx
          have := clock_bounds s.now 100
          dsimp only
          omega
  | increment k => exact ⟨h.changed, h.upd, h.pending, h.due, h.exact, Nat.mod_lt _ (by decide)⟩
  | shutdown => exact ⟨h.changed, h.upd, (fun _ e => nomatch e), h.due, h.exact, h.ansn⟩
  | tc => exact k.tc s h

theorem inv_run {doms : List Nat} (ops : List Op) : ∀ {s : St}, Inv doms s → Inv doms (run doms s ops) := by
  induction ops with
  | nil => intro s h; exact h
  | cons op l ih => intro s h; exact ih (inv_step h op)

theorem inv_start (doms : List Nat) (a : Nat) : Inv doms (start a) := by
  refine ⟨fun d _ => ⟨(fun e => nomatch e), ?_⟩, ⟨(fun e => nomatch e), ?_⟩, fun _ _ e => ?_, (fun x e => nomatch e), ?_, Nat.mod_lt _ (by decide)⟩
  · rintro ⟨l1, l2, e, _⟩; cases l1 <;> cases e
  · rintro ⟨l1, l2, e, _⟩; cases l1 <;> cases e
  · obtain ⟨d, _, e⟩ := e; cases e
  · intro l1 t f ds l2 e; cases l1 <;> cases e

/-! ## Exactness -/

/-- C230, no more and no less: after any calls, every recalculation covered exactly the domains that had changed since they were last
recalculated. -/
theorem C230_exact (doms : List Nat) (a : Nat) (ops : List Op) {l1 l2 : List Ev} {t : Nat} {f : Bool} {ds : List Nat}
    (h : (run doms (start a) ops).log = l1 ++ .ran t f ds :: l2) (d : Nat) : d ∈ ds ↔ d ∈ doms ∧ Waits d l1 :=
  (inv_run ops (inv_start doms a)).exact _ _ _ _ _ h d

/-! ## Deadline -/

theorem log_grows (doms : List Nat) (l : List Ev) : Keeps doms fun s => ∃ suf, s.log = l ++ suf where
  trigger := fun _ h => h
  mark := fun s d ⟨suf, h⟩ => ⟨suf ++ [.changed d], by show s.log ++ _ = _; rw [h, List.append_assoc]⟩
  announce := fun s ⟨suf, h⟩ => ⟨suf ++ [.announce], by show s.log ++ _ = _; rw [h, List.append_assoc]⟩
  arm := fun _ h _ => h
  forced := fun s ⟨suf, h⟩ _ _ => ⟨suf ++ [.ran s.now true (doms.filter s.changed)], by show s.log ++ _ = _; rw [h, List.append_assoc]⟩
  idle := fun s ⟨suf, h⟩ _ _ _ => ⟨suf ++ [.ran s.now false (doms.filter s.changed)], by show s.log ++ _ = _; rw [h, List.append_assoc]⟩
  wait := fun _ _ h _ => h
  late := fun s t x ⟨suf, h⟩ _ _ => ⟨fun _ => ⟨suf, h⟩, fun _ _ => ⟨suf, h⟩, fun _ _ =>
    ⟨suf ++ [.ran (max s.now t) false (doms.filter s.changed)], by show s.log ++ _ = _; rw [h, List.append_assoc]⟩⟩
  tc := fun s ⟨suf, h⟩ => ⟨suf ++ [.tc s.ansn], by show s.log ++ _ = _; rw [h, List.append_assoc]⟩

/-- Domain `d` was recalculated after `l`, or it still waits for the same timer. -/
def Wait (doms : List Nat) (d x : Nat) (l : List Ev) (s : St) : Prop :=
  (∃ suf, s.log = l ++ suf ∧ Recalculated d suf) ∨
  ((∃ suf, s.log = l ++ suf) ∧ s.frozen = false ∧ s.shutdown = false ∧ s.changed d = true ∧ s.trigger = true ∧ s.due = some x ∧ s.now < x)

theorem recalculated_append {d : Nat} {l1 l2 : List Ev} (h : Recalculated d l1) : Recalculated d (l1 ++ l2) := by
  obtain ⟨t, f, ds, hm, hd⟩ := h
  exact ⟨t, f, ds, List.mem_append_left _ hm, hd⟩

theorem wait_recalculate {doms : List Nat} {d : Nat} (hd : d ∈ doms) {l : List Ev} {s : St} {f : Bool} (hs : ∃ suf, s.log = l ++ suf)
    (hc : s.changed d = true) : ∃ suf, (recalculate doms s f).log = l ++ suf ∧ Recalculated d suf := by
  obtain ⟨suf, h⟩ := hs
  refine ⟨suf ++ [.ran s.now f (doms.filter s.changed)], ?_, s.now, f, doms.filter s.changed, by simp, List.mem_filter.2 ⟨hd, hc⟩⟩
  show s.log ++ _ = _
  rw [h, List.append_assoc]

theorem wait_log {d x : Nat} {doms : List Nat} {l : List Ev} {s s' : St} (e : Ev) (hl : s'.log = s.log ++ [e])
    (h : Wait doms d x l s) (hk : s'.frozen = s.frozen ∧ s'.shutdown = s.shutdown ∧ (s.changed d = true → s'.changed d = true) ∧
      (s.trigger = true → s'.trigger = true) ∧ (s.due = some x → s'.due = some x) ∧ s'.now = s.now) : Wait doms d x l s' := by
  obtain ⟨k1, k2, k3, k4, k5, k6⟩ := hk
  rcases h with ⟨suf, h1, h2⟩ | ⟨⟨suf, h1⟩, h2, h3, h4, h5, h6, h7⟩
  · exact Or.inl ⟨suf ++ [e], by rw [hl, h1, List.append_assoc], recalculated_append h2⟩
  · exact Or.inr ⟨⟨suf ++ [e], by rw [hl, h1, List.append_assoc]⟩, by rw [k1, h2], by rw [k2, h3], k3 h4, k4 h5, k5 h6, by rw [k6]; exact h7⟩

theorem wait_keeps {doms : List Nat} {d : Nat} (hd : d ∈ doms) (x : Nat) (l : List Ev) : Keeps doms (Wait doms d x l) where
  trigger := fun s h => by
    rcases h with h | ⟨h1, h2, h3, h4, h5, h6, h7⟩
    · exact Or.inl h
    · exact Or.inr ⟨h1, h2, h3, h4, rfl, by unfold RtSched.trigger; rw [h6], h7⟩
  mark := fun s y h => wait_log (.changed y) rfl h ⟨rfl, rfl, fun e => by
      show (if d = y then true else s.changed d) = true
      rw [e]; simp, fun _ => rfl, fun e => by unfold RtSched.mark RtSched.trigger; dsimp only; rw [e], rfl⟩
  announce := fun s h => wait_log .announce rfl h ⟨rfl, rfl, id, id, id, rfl⟩
  arm := fun s h _ => by
    rcases h with h | ⟨h1, h2, h3, h4, h5, h6, h7⟩
    · exact Or.inl h
    · exact Or.inr ⟨h1, h2, h3, h4, rfl, h6, h7⟩
  forced := fun s h _ _ => by
    rcases h with ⟨suf, h1, h2⟩ | ⟨h1, h2, h3, h4, _⟩
    · exact Or.inl ⟨suf ++ [.ran s.now true (doms.filter s.changed)],
        by show s.log ++ _ = _; rw [h1, List.append_assoc], recalculated_append h2⟩
    · exact Or.inl (wait_recalculate hd h1 h4)
  idle := fun s h _ _ _ => by
    rcases h with ⟨suf, h1, h2⟩ | ⟨h1, h2, h3, h4, _⟩
    · exact Or.inl ⟨suf ++ [.ran s.now false (doms.filter s.changed)],
        by show s.log ++ _ = _; rw [h1, List.append_assoc], recalculated_append h2⟩
    · exact Or.inl (wait_recalculate hd h1 h4)
  wait := fun s t h hw => by
    rcases h with h | ⟨h1, h2, h3, h4, h5, h6, h7⟩
    · exact Or.inl h
    · exact Or.inr ⟨h1, h2, h3, h4, h5, h6, hw x h6⟩
  late := fun s t y h hdue hy => by
    rcases h with ⟨suf, h1, h2⟩ | ⟨h1, h2, h3, h4, h5, _⟩
    · exact ⟨fun _ => Or.inl ⟨suf, h1, h2⟩, fun _ _ => Or.inl ⟨suf, h1, h2⟩, fun _ _ =>
        Or.inl ⟨suf ++ [.ran (max s.now t) false (doms.filter s.changed)],
          by show s.log ++ _ = _; rw [h1, List.append_assoc], recalculated_append h2⟩⟩
    · refine ⟨fun e => ?_, fun _ e => ?_, fun _ _ => ?_⟩
      · rw [h5] at e; cases e
      · rw [h2, h3] at e; cases e
      · exact Or.inl (wait_recalculate (s := { s with now := max s.now t, due := none, trigger := false }) hd h1 h4)
  tc := fun s h => wait_log (.tc s.ansn) rfl h ⟨rfl, rfl, id, id, id, rfl⟩

theorem wait_step {doms : List Nat} {d : Nat} (hd : d ∈ doms) {x : Nat} {l : List Ev} {s : St} (h : Wait doms d x l s) (op : Op)
    (hop : op.steady = true) : Wait doms d x l (step doms s op) := by
  have k := wait_keeps hd x l
  cases op with
  | domainChanged d a => exact k.domainChanged h d a
  | nhdp d => exact k.nhdp h d
  | trigger => exact k.trigger s h
  | force skip => exact k.force h skip
  | walk t => exact k.walk h t
  | freeze b => cases hop
  | parameter d same routes => cases hop
  | increment k => exact h
  | shutdown => cases hop
  | tc => exact k.tc s h

theorem wait_run {doms : List Nat} {d : Nat} (hd : d ∈ doms) {x : Nat} {l : List Ev} (ops : List Op) :
    ∀ {s : St}, Wait doms d x l s → (∀ op ∈ ops, op.steady = true) → Wait doms d x l (run doms s ops) := by
  induction ops with
  | nil => intro s h _; exact h
  | cons op ops ih =>
    intro s h ho
    exact ih (wait_step hd h op (ho op List.mem_cons_self)) fun o' h' => ho o' (List.mem_cons_of_mem _ h')

/-- C230, in time: when a domain waits for a recalculation and recalculations are not stopped, it is recalculated at the latest when the
main loop runs 1.1 seconds later, whatever else is reported in the meantime.  Changes of domain parameters restart the timer and are
excluded. -/
theorem C230_deadline_partial {doms : List Nat} {a : Nat} {before ops : List Op} {d : Nat} (hd : d ∈ doms)
    (hw : Waits d (run doms (start a) before).log) (hf : (run doms (start a) before).frozen = false)
    (hs : (run doms (start a) before).shutdown = false) (hops : ∀ op ∈ ops, op.steady = true)
    (ht : (run doms (start a) before).now + 1100 ≤ (run doms (run doms (start a) before) ops).now) :
    ∃ suf, (run doms (run doms (start a) before) ops).log = (run doms (start a) before).log ++ suf ∧ Recalculated d suf := by
  have h := inv_run before (inv_start doms a)
  generalize run doms (start a) before = s at *
  have hc := (h.changed d hd).2 hw
  obtain ⟨h1, h2⟩ := h.pending hf hs ⟨d, hd, hc⟩
  obtain ⟨x, hx⟩ := Option.ne_none_iff_exists'.1 h2
  have h3 := h.due x hx
  rcases wait_run hd ops (Or.inr ⟨⟨[], (List.append_nil _).symm⟩, hf, hs, hc, h1, hx, h3.1⟩) hops with h4 | ⟨_, _, _, _, _, _, h5⟩
  · exact h4
  · omega

/-! ## Rate -/

/-- Recalculations that were not forced keep their distance to all earlier ones. -/
structure Rate (s : St) : Prop where
  last : ∀ t f ds, .ran t f ds ∈ s.log → t ≤ s.now ∧ (t + 1000 ≤ s.now ∨ ∃ x, s.due = some x ∧ t + 1000 ≤ x)
  pairs : ∀ l1 t1 f1 ds1 l2 t2 ds2 l3, s.log = l1 ++ .ran t1 f1 ds1 :: (l2 ++ .ran t2 false ds2 :: l3) → t1 + 1000 ≤ t2

theorem rate_log {s s' : St} (e : Ev) (he : ∀ t f ds, e ≠ .ran t f ds) (hl : s'.log = s.log ++ [e]) (hn : s'.now = s.now)
    (hd : ∀ x, s.due = some x → s'.due = some x) (h : Rate s) : Rate s' := by
  refine ⟨fun t f ds hm => ?_, fun l1 t1 f1 ds1 l2 t2 ds2 l3 hh => ?_⟩
  · rw [hl] at hm
    rcases List.mem_append.1 hm with hm | hm
    · obtain ⟨h1, h2⟩ := h.last t f ds hm
      rw [hn]
      exact ⟨h1, h2.imp id fun ⟨x, hx, hy⟩ => ⟨x, hd x hx, hy⟩⟩
    · rw [List.mem_singleton] at hm; exact absurd hm.symm (he _ _ _)
  · rw [hl] at hh
    rw [← List.cons_append, ← List.append_assoc] at hh
    rcases snoc_split hh with ⟨_, _, e'⟩ | ⟨l4, _, e'⟩
    · exact absurd e' (he _ _ _)
    · exact h.pairs l1 t1 f1 ds1 l2 t2 ds2 l4 (by rw [e', List.append_assoc, List.cons_append])

theorem rate_recalculate {doms : List Nat} {s : St} {f : Bool} (h : Rate s)
    (hf : f = false → ∀ t f' ds, .ran t f' ds ∈ s.log → t + 1000 ≤ s.now) : Rate (recalculate doms s f) := by
  refine ⟨fun t f' ds hm => ?_, fun l1 t1 f1 ds1 l2 t2 ds2 l3 hh => ?_⟩
  · have hm : Ev.ran t f' ds ∈ s.log ++ [.ran s.now f (doms.filter s.changed)] := hm
    have hc := clock_bounds s.now rate
    have hr : rate = 1000 := rfl
    rcases List.mem_append.1 hm with hm | hm
    · obtain ⟨h1, h2⟩ := h.last t f' ds hm
      refine ⟨h1, Or.inr ⟨clock s.now rate, rfl, by omega⟩⟩
    · rw [List.mem_singleton] at hm
      injection hm with h1 h2 h3
      subst h1
      exact ⟨Nat.le_refl _, Or.inr ⟨clock s.now rate, rfl, by omega⟩⟩
  · have hh : s.log ++ [.ran s.now f (doms.filter s.changed)] = l1 ++ .ran t1 f1 ds1 :: (l2 ++ .ran t2 false ds2 :: l3) := hh
    rw [← List.cons_append, ← List.append_assoc] at hh
    rcases snoc_split hh with ⟨_, e1, e2⟩ | ⟨l4, _, e'⟩
    · injection e2 with e2 e3 e4
      rw [← e2]
      exact hf e3 t1 f1 ds1 (by rw [e1]; simp)
    · exact h.pairs l1 t1 f1 ds1 l2 t2 ds2 l4 (by rw [e', List.append_assoc, List.cons_append])

theorem rate_keeps (doms : List Nat) : Keeps doms Rate where
  trigger := fun s h => ⟨fun t f ds hm => by
    obtain ⟨h1, h2⟩ := h.last t f ds hm
    refine ⟨h1, h2.imp id ?_⟩
    rintro ⟨x, hx, hy⟩
    exact ⟨x, by unfold RtSched.trigger; rw [hx], hy⟩, h.pairs⟩
  mark := fun s d h => rate_log (.changed d) (by intros; simp) rfl rfl
    (fun x hx => by unfold RtSched.mark RtSched.trigger; dsimp only; rw [hx]) h
  announce := fun s h => rate_log .announce (by intros; simp) rfl rfl (fun _ hx => hx) h
  arm := fun s h _ => ⟨h.last, h.pairs⟩
  forced := fun s h _ _ => rate_recalculate h (fun e => nomatch e)
  idle := fun s h _ _ hd => rate_recalculate h fun _ t f ds hm => by
    rcases (h.last t f ds hm).2 with h2 | ⟨x, hx, _⟩
    · exact h2
    · rw [hd] at hx; cases hx
  wait := fun s t h hw => ⟨fun t' f ds hm => by
    obtain ⟨h1, h2⟩ := h.last t' f ds hm
    dsimp only
    refine ⟨by omega, ?_⟩
    rcases h2 with h2 | h2
    · exact Or.inl (by omega)
    · exact Or.inr h2, h.pairs⟩
  late := fun s t x h hd hx => by
    have h0 : ∀ t' f ds, .ran t' f ds ∈ s.log → t' + 1000 ≤ max s.now t := fun t' f ds hm => by
      rcases (h.last t' f ds hm).2 with h2 | ⟨y, hy, h3⟩
      · omega
      · rw [hd] at hy; injection hy with hy; omega
    have h1 : ∀ b, Rate { s with now := max s.now t, due := none, trigger := b } := fun b =>
      ⟨fun t' f ds hm => ⟨by have := h0 t' f ds hm; dsimp only; omega, Or.inl (h0 t' f ds hm)⟩, h.pairs⟩
    exact ⟨fun _ => h1 s.trigger, fun _ _ => h1 false, fun _ _ => rate_recalculate (h1 false) fun _ => h0⟩
  tc := fun s h => rate_log (.tc s.ansn) (by intros; simp) rfl rfl (fun _ hx => hx) h

theorem rate_step {doms : List Nat} {s : St} (h : Rate s) (op : Op) (hop : ∀ d a b, op ≠ .parameter d a b) : Rate (step doms s op) := by
  have k := rate_keeps doms
  cases op with
  | domainChanged d a => exact k.domainChanged h d a
  | nhdp d => exact k.nhdp h d
  | trigger => exact k.trigger s h
  | force skip => exact k.force h skip
  | walk t => exact k.walk h t
  | freeze b =>
    rw [step]; unfold freeze
    split
    · exact h
    · dsimp only
      split
      · exact ⟨h.last, h.pairs⟩
      · have h2 := k.trigger s h
        exact ⟨h2.last, h2.pairs⟩
  | parameter d same routes => exact absurd rfl (hop _ _ _)
  | increment k => exact ⟨h.last, h.pairs⟩
  | shutdown => exact ⟨h.last, h.pairs⟩
  | tc => exact k.tc s h

theorem rate_run {doms : List Nat} (ops : List Op) : ∀ {s : St}, Rate s → (∀ op ∈ ops, ∀ d a b, op ≠ .parameter d a b) →
    Rate (run doms s ops) := by
  induction ops with
  | nil => intro s h _; exact h
  | cons op ops ih =>
    intro s h ho
    exact ih (rate_step h op (ho op List.mem_cons_self)) fun o' h' => ho o' (List.mem_cons_of_mem _ h')

/-- C230, not too often: unless somebody asks to skip the waiting time, a recalculation happens at least one second after every earlier
one.  Changes of domain parameters restart the timer with a shorter time and are excluded. -/
theorem C230_rate_partial {doms : List Nat} {a : Nat} {ops : List Op} (hops : ∀ op ∈ ops, ∀ d x y, op ≠ .parameter d x y)
    {l1 l2 l3 : List Ev} {t1 t2 : Nat} {f1 : Bool} {ds1 ds2 : List Nat}
    (h : (run doms (start a) ops).log = l1 ++ .ran t1 f1 ds1 :: (l2 ++ .ran t2 false ds2 :: l3)) : t1 + 1000 ≤ t2 := by
  have h0 : Rate (start a) := ⟨fun t f ds hm => absurd hm List.not_mem_nil, fun l1 t1 f1 ds1 l2 t2 ds2 l3 e => by cases l1 <;> cases e⟩
  exact (rate_run ops h0 hops).pairs _ _ _ _ _ _ _ _ h

/-- A second recalculation 100 ms after the first one when parameters change. -/
theorem C230_rate_counterexample :
    (run [0] (start 7) [.nhdp (some 0), .walk 100, .parameter 0 false true, .walk 300]).log =
      [.announce, .changed 0, .ran 100 false [0], .flushed 0, .ran 300 false []] := by decide

example : (run [0, 1] (start 7) [.nhdp (some 0), .walk 50, .walk 100, .domainChanged none false, .walk 900, .walk 1200]).log =
    [.announce, .changed 0, .ran 100 false [0], .changed 0, .changed 1, .ran 1200 false [0, 1]] := by decide

/-- The hypotheses of `C230_deadline_partial` can be met: a change, another one, and time passes. -/
example : ∃ suf, (run [0, 1] (run [0, 1] (start 7) [.nhdp (some 0)]) [.domainChanged (some 1) true, .walk 1500]).log =
    (run [0, 1] (start 7) [.nhdp (some 0)]).log ++ suf ∧ Recalculated 0 suf :=
  C230_deadline_partial (by decide) ⟨[.announce], [], by decide, by simp⟩ (by decide) (by decide) (by decide) (by decide)

/-! ## Parameters of a domain -/

theorem quiet_keeps (doms : List Nat) (d : Nat) (l : List Ev) :
    ∀ s : St, (s.changed d = false ∧ ∃ suf, s.log = l ++ suf ∧ ¬ Recalculated d suf) → ∀ f : Bool,
      (recalculate doms s f).changed d = false ∧ ∃ suf, (recalculate doms s f).log = l ++ suf ∧ ¬ Recalculated d suf := by
  rintro s ⟨hc, suf, hl, hn⟩ f
  refine ⟨?_, suf ++ [.ran s.now f (doms.filter s.changed)], ?_, ?_⟩
  · show (if d ∈ doms then false else s.changed d) = false
    rw [hc]; simp
  · show s.log ++ _ = _
    rw [hl, List.append_assoc]
  · rintro ⟨t, f', ds, hm, hd⟩
    rcases List.mem_append.1 hm with hm | hm
    · exact hn ⟨t, f', ds, hm, hd⟩
    · simp at hm
      rw [hm.2.2, List.mem_filter, hc] at hd
      cases hd.2

/-- Nothing is known to be wrong with domain `d`, and it was not recalculated since `l`. -/
def Quiet (d : Nat) (l : List Ev) (s : St) : Prop := s.changed d = false ∧ ∃ suf, s.log = l ++ suf ∧ ¬ Recalculated d suf

theorem quiet_log {d : Nat} {l : List Ev} {s s' : St} (e : Ev) (he : ∀ t f ds, e ≠ .ran t f ds) (hl : s'.log = s.log ++ [e])
    (hc : s'.changed d = s.changed d) (h : Quiet d l s) : Quiet d l s' := by
  obtain ⟨h1, suf, h2, h3⟩ := h
  refine ⟨by rw [hc, h1], suf ++ [e], by rw [hl, h2, List.append_assoc], ?_⟩
  rintro ⟨t, f, ds, hm, hd⟩
  rcases List.mem_append.1 hm with hm | hm
  · exact h3 ⟨t, f, ds, hm, hd⟩
  · rw [List.mem_singleton] at hm; exact he _ _ _ hm.symm

theorem quiet_force {doms : List Nat} {d : Nat} {l : List Ev} {s : St} (h : Quiet d l s) (skip : Bool) : Quiet d l (force doms s skip) := by
  unfold force
  split
  · exact h
  · split
    · exact h
    · exact quiet_keeps doms d l s h skip

theorem quiet_step {doms : List Nat} {d : Nat} {l : List Ev} {s : St} (h : Quiet d l s) (op : Op) (hop : op.touches d = false) :
    Quiet d l (step doms s op) := by
  have hmark : ∀ (s : St) (x : Nat), x ≠ d → Quiet d l s → Quiet d l (mark s x) := fun s x hx h =>
    quiet_log (.changed x) (by intros; simp) rfl (by
      show (if d = x then true else s.changed d) = s.changed d
      rw [if_neg (Ne.symm hx)]) h
  have hann : ∀ s : St, Quiet d l s → Quiet d l (announce s) := fun s h => quiet_log .announce (by intros; simp) rfl rfl h
  cases op with
  | domainChanged x a =>
    cases x with
    | none => cases hop
    | some x =>
      have hx : x ≠ d := by simpa [Op.touches] using hop
      rw [step]; unfold domainChanged
      dsimp only
      cases a with
      | true => exact hmark _ x hx (hann s h)
      | false => exact hmark _ x hx h
  | nhdp x =>
    cases x with
    | none => cases hop
    | some x =>
      have hx : x ≠ d := by simpa [Op.touches] using hop
      exact hmark _ x hx (hann s h)
  | trigger => exact h
  | force skip => exact quiet_force h skip
  | walk t =>
    rw [step]; unfold walk
    dsimp only
    split
    · exact h
    · split
      · unfold fire
        dsimp only
        split
        · exact quiet_force (s := { s with now := max s.now t, due := none, trigger := false }) h false
        · exact h
      · exact h
  | freeze b =>
    rw [step]; unfold freeze
    split
    · exact h
    · dsimp only
      split <;> exact h
  | parameter x same routes =>
    rw [step]; unfold setParameter
    split
    · exact h
    · split
      · exact h
      · exact quiet_log (s := s) (.flushed x) (by intros; simp) rfl rfl h
  | increment k => exact h
  | shutdown => exact h
  | tc => exact quiet_log (.tc s.ansn) (by intros; simp) rfl rfl h

theorem quiet_run {doms : List Nat} {d : Nat} {l : List Ev} (ops : List Op) : ∀ {s : St}, Quiet d l s →
    (∀ op ∈ ops, op.touches d = false) → Quiet d l (run doms s ops) := by
  induction ops with
  | nil => intro s h _; exact h
  | cons op ops ih =>
    intro s h ho
    exact ih (quiet_step h op (ho op List.mem_cons_self)) fun o' h' => ho o' (List.mem_cons_of_mem _ h')

/-- C230, finding.  When the parameters of a domain change, its kernel routes are removed, even when routes are frozen, but the domain is
not marked as changed: it is not recalculated, whatever happens and however long one waits, until something else changes in this
domain. -/
theorem C230_parameter_counterexample {doms : List Nat} {a : Nat} {before : List Op} {d : Nat} (hd : d ∈ doms)
    (hw : ¬ Waits d (run doms (start a) before).log) {ops : List Op} (hops : ∀ op ∈ ops, op.touches d = false) :
    ∃ suf, (run doms (run doms (start a) before) (.parameter d false true :: ops)).log =
        (run doms (start a) before).log ++ .flushed d :: suf ∧ ¬ Recalculated d suf := by
  have h := inv_run before (inv_start doms a)
  generalize run doms (start a) before = s at *
  have hc : s.changed d = false := by
    by_cases e : s.changed d = true
    · exact absurd ((h.changed d hd).1 e) hw
    · simpa using e
  have hq : Quiet d (s.log ++ [.flushed d]) (step doms s (.parameter d false true)) :=
    ⟨hc, [], by simp [step, setParameter], by rintro ⟨_, _, _, hm, _⟩; exact absurd hm List.not_mem_nil⟩
  obtain ⟨_, suf, h2, h3⟩ := quiet_run (doms := doms) ops hq hops
  exact ⟨suf, by show (run doms (step doms s _) ops).log = _; rw [h2, List.append_assoc]; rfl, h3⟩

example : (run [0, 1] (start 7) [.nhdp (some 0), .walk 100, .parameter 0 false true, .walk 5000, .nhdp (some 1), .walk 9000]).log =
    [.announce, .changed 0, .ran 100 false [0], .flushed 0, .ran 5000 false [], .announce, .changed 1, .ran 9000 false [1]] := by
  decide

/-- Parameters of domain `d` change every 100 ms, `n` times from time `t` on. -/
def nervous (d : Nat) : Nat → Nat → List Op
  | _, 0 => []
  | t, n + 1 => .parameter d false true :: .walk (t + 100) :: nervous d (t + 100) n

/-- C230, finding.  Every change of the parameters restarts the timer: when they change every 100 ms nothing is recalculated any more,
whatever waits. -/
theorem C230_starve_counterexample (doms : List Nat) (d n : Nat) : ∀ (s : St),
    (run doms s (nervous d s.now n)).now = s.now + 100 * n ∧ runs (run doms s (nervous d s.now n)).log = runs s.log := by
  induction n with
  | zero => intro s; exact ⟨rfl, rfl⟩
  | succ n ih =>
    intro s
    have hc := clock_bounds s.now 100
    have hw : step doms (step doms s (.parameter d false true)) (.walk (s.now + 100)) =
        { s with now := s.now + 100, due := some (clock s.now 100), trigger := true, log := s.log ++ [.flushed d] } := by
      simp only [step, setParameter, walk, Bool.false_eq_true, if_false, reduceCtorEq]
      rw [if_neg (by omega), Nat.max_eq_right (by omega)]
    have e : run doms s (nervous d s.now (n + 1)) = run doms
        { s with now := s.now + 100, due := some (clock s.now 100), trigger := true, log := s.log ++ [.flushed d] } (nervous d (s.now + 100) n) := by
      rw [← hw]; rfl
    obtain ⟨h1, h2⟩ := ih { s with now := s.now + 100, due := some (clock s.now 100), trigger := true, log := s.log ++ [.flushed d] }
    dsimp only at h1 h2
    rw [e]
    refine ⟨by rw [h1]; omega, ?_⟩
    rw [h2]
    unfold runs
    rw [List.countP_append]
    rfl

/-! ## Answer set numbers -/

/-- Relation between two states without calls that change the ANSN from outside: `j` changes were announced, the ANSN went up by `k`. -/
def Went (s s' : St) : Prop :=
  s'.ansn < 65536 ∧ ∃ j k, version s'.log = version s.log + j ∧ runs s.log + k ≤ runs s'.log ∧ s'.ansn = (s.ansn + k) % 65536 ∧
    (j = 0 → s.upd = false → k = 0 ∧ s'.upd = false) ∧ (0 < j ∨ s.upd = true → 0 < k ∨ s'.upd = true)

theorem went_refl {s : St} (h : s.ansn < 65536) : Went s s :=
  ⟨h, 0, 0, rfl, Nat.le_refl _, (Nat.mod_eq_of_lt h).symm, fun _ e => ⟨rfl, e⟩, fun e => by
    rcases e with e | e
    · omega
    · exact Or.inr e⟩

theorem went_trans {a b c : St} (h1 : Went a b) (h2 : Went b c) : Went a c := by
  obtain ⟨_, j1, k1, v1, r1, n1, z1, p1⟩ := h1
  obtain ⟨hb, j2, k2, v2, r2, n2, z2, p2⟩ := h2
  refine ⟨hb, j1 + j2, k1 + k2, by omega, by omega, ?_, ?_, ?_⟩
  · rw [n2, n1]; omega
  · intro e1 e2
    obtain ⟨e3, e4⟩ := z1 (by omega) e2
    obtain ⟨e5, e6⟩ := z2 (by omega) e4
    exact ⟨by omega, e6⟩
  · intro e
    have : 0 < j2 ∨ (0 < j1 ∨ a.upd = true) := by
      rcases e with e | e
      · omega
      · exact Or.inr (Or.inr e)
    rcases this with e | e
    · rcases p2 (Or.inl e) with e | e
      · exact Or.inl (by omega)
      · exact Or.inr e
    · rcases p1 e with e | e
      · exact Or.inl (by omega)
      · rcases p2 (Or.inr e) with e | e
        · exact Or.inl (by omega)
        · exact Or.inr e

theorem version_snoc (l : List Ev) (e : Ev) : version (l ++ [e]) = version l + if e = .announce then 1 else 0 := by
  unfold version; rw [List.countP_append]; simp [List.countP_cons]

theorem runs_snoc (l : List Ev) (e : Ev) : runs (l ++ [e]) = runs l + match e with
    | .ran _ _ _ => 1
    | _ => 0 := by
  unfold runs; rw [List.countP_append]; cases e <;> simp [List.countP_cons]

/-- An action that does not touch ANSN and flag, and adds an ordinary entry to the log (or none). -/
theorem went_log {s s' : St} (h : s.ansn < 65536) (hl : s'.log = s.log ∨ ∃ e, s'.log = s.log ++ [e] ∧ e ≠ .announce) (ha : s'.ansn = s.ansn)
    (hu : s'.upd = s.upd) : Went s s' := by
  refine ⟨by rw [ha]; exact h, 0, 0, ?_, ?_, by rw [ha, Nat.add_zero, Nat.mod_eq_of_lt h], fun _ e => ⟨rfl, by rw [hu, e]⟩, fun e => ?_⟩
  · rcases hl with hl | ⟨e, hl, he⟩
    · rw [hl]; rfl
    · rw [hl, version_snoc, if_neg he]
  · rcases hl with hl | ⟨e, hl, he⟩
    · rw [hl]; exact Nat.le_refl _
    · rw [hl, runs_snoc]; omega
  · rcases e with e | e
    · omega
    · exact Or.inr (by rw [hu, e])

theorem went_announce {s : St} (h : s.ansn < 65536) : Went s (announce s) := by
  refine ⟨h, 1, 0, ?_, ?_, (Nat.mod_eq_of_lt h).symm, fun e => by omega, fun _ => Or.inr rfl⟩
  · show version (s.log ++ [.announce]) = _
    rw [version_snoc]; simp
  · show _ ≤ runs (s.log ++ [.announce])
    rw [runs_snoc]; omega

theorem went_recalculate {doms : List Nat} {s : St} (h : s.ansn < 65536) (f : Bool) : Went s (recalculate doms s f) := by
  have hv : version (s.log ++ [.ran s.now f (doms.filter s.changed)]) = version s.log := by rw [version_snoc]; simp
  have hr : runs (s.log ++ [.ran s.now f (doms.filter s.changed)]) = runs s.log + 1 := by rw [runs_snoc]
  cases hu : s.upd with
  | true =>
    refine ⟨?_, 0, 1, by show version (s.log ++ _) = _; omega, by show _ ≤ runs (s.log ++ _); omega, ?_, ?_, fun _ => Or.inl (by omega)⟩
    · show (if s.upd = true then (s.ansn + 1) % 65536 else s.ansn) < 65536
      rw [if_pos hu]; exact Nat.mod_lt _ (by decide)
    · show (if s.upd = true then (s.ansn + 1) % 65536 else s.ansn) = _
      rw [if_pos hu]
    · intro _ e; rw [hu] at e; cases e
  | false =>
    refine ⟨?_, 0, 0, by show version (s.log ++ _) = _; omega, by show _ ≤ runs (s.log ++ _); omega, ?_, fun _ _ => ⟨rfl, rfl⟩, ?_⟩
    · show (if s.upd = true then (s.ansn + 1) % 65536 else s.ansn) < 65536
      rw [if_neg (by simp [hu])]; exact h
    · show (if s.upd = true then (s.ansn + 1) % 65536 else s.ansn) = _
      rw [if_neg (by simp [hu]), Nat.add_zero, Nat.mod_eq_of_lt h]
    · intro e
      rcases e with e | e
      · omega
      · rw [hu] at e; cases e

theorem went_keeps (doms : List Nat) (s0 : St) : Keeps doms (Went s0) where
  trigger := fun s h => went_trans h (went_log h.1 (Or.inl rfl) rfl rfl)
  mark := fun s d h => went_trans h (went_log h.1 (Or.inr ⟨.changed d, rfl, by simp⟩) rfl rfl)
  announce := fun s h => went_trans h (went_announce h.1)
  arm := fun s h _ => went_trans h (went_log h.1 (Or.inl rfl) rfl rfl)
  forced := fun s h _ _ => went_trans h (went_recalculate h.1 true)
  idle := fun s h _ _ _ => went_trans h (went_recalculate h.1 false)
  wait := fun s t h _ => went_trans h (went_log h.1 (Or.inl rfl) rfl rfl)
  late := fun s t x h _ _ => by
    have h1 : Went s0 { s with now := max s.now t, due := none, trigger := false } := went_trans h (went_log h.1 (Or.inl rfl) rfl rfl)
    exact ⟨fun _ => went_trans h (went_log h.1 (Or.inl rfl) rfl rfl), fun _ _ => h1, fun _ _ => went_trans h1 (went_recalculate h1.1 false)⟩
  tc := fun s h => went_trans h (went_log h.1 (Or.inr ⟨.tc s.ansn, rfl, by simp⟩) rfl rfl)

theorem went_step {doms : List Nat} {s0 s : St} (h : Went s0 s) (op : Op) (hop : ∀ k, op ≠ .increment k) : Went s0 (step doms s op) := by
  have k := went_keeps doms s0
  cases op with
  | domainChanged d a => exact k.domainChanged h d a
  | nhdp d => exact k.nhdp h d
  | trigger => exact k.trigger s h
  | force skip => exact k.force h skip
  | walk t => exact k.walk h t
  | freeze b =>
    refine went_trans h (went_log h.1 (Or.inl ?_) ?_ ?_) <;>
    · rw [step]; unfold freeze
      split
      · rfl
      · dsimp only
        split <;> rfl
  | parameter d same routes =>
    rw [step]; unfold setParameter
    split
    · exact h
    · split
      · exact h
      · exact went_trans h (went_log h.1 (Or.inr ⟨.flushed d, rfl, by simp⟩) rfl rfl)
  | increment k => exact absurd rfl (hop k)
  | shutdown => exact went_trans h (went_log h.1 (Or.inl rfl) rfl rfl)
  | tc => exact k.tc s h

theorem went_run {doms : List Nat} {s0 : St} (ops : List Op) : ∀ {s : St}, Went s0 s → (∀ op ∈ ops, ∀ k, op ≠ .increment k) →
    Went s0 (run doms s ops) := by
  induction ops with
  | nil => intro s h _; exact h
  | cons op ops ih =>
    intro s h ho
    exact ih (went_step h op (ho op List.mem_cons_self)) fun o' h' => ho o' (List.mem_cons_of_mem _ h')

/-- C231, what holds: between two moments at which all announced changes were followed by a recalculation, less than 65536
recalculations apart, the ANSN is the same if and only if nothing announced changed. -/
theorem C231_settled_partial {doms : List Nat} {a : Nat} {before ops : List Op} (hops : ∀ op ∈ ops, ∀ k, op ≠ .increment k)
    (h1 : ¬ Unannounced (run doms (start a) before).log) (h2 : ¬ Unannounced (run doms (run doms (start a) before) ops).log)
    (hr : runs (run doms (run doms (start a) before) ops).log < runs (run doms (start a) before).log + 65536) :
    (run doms (run doms (start a) before) ops).ansn = (run doms (start a) before).ansn ↔
      version (run doms (run doms (start a) before) ops).log = version (run doms (start a) before).log := by
  have h := inv_run before (inv_start doms a)
  have h' := inv_run ops h
  generalize run doms (start a) before = s at *
  have hu : s.upd = false := by
    by_cases e : s.upd = true
    · exact absurd (h.upd.1 e) h1
    · simpa using e
  have hu' : (run doms s ops).upd = false := by
    by_cases e : (run doms s ops).upd = true
    · exact absurd (h'.upd.1 e) h2
    · simpa using e
  obtain ⟨_, j, k, hv, hk, hn, z, p⟩ := went_run (doms := doms) ops (went_refl h.ansn) hops
  have hs := h.ansn
  constructor
  · intro e
    by_cases hj : j = 0
    · omega
    · rcases p (Or.inl (by omega)) with hk0 | e'
      · rw [e] at hn; omega
      · rw [hu'] at e'; cases e'
  · intro e
    have hj : j = 0 := by omega
    obtain ⟨hk0, _⟩ := z hj hu
    rw [hn, hk0, Nat.add_zero, Nat.mod_eq_of_lt hs]

example : (run [0] (start 7) [.nhdp (some 0), .nhdp (some 0), .walk 100, .tc]).log =
    [.announce, .changed 0, .announce, .changed 0, .ran 100 false [0], .tc 8] := by decide

example : (run [0] (run [0] (start 65535) []) [.nhdp (some 0), .walk 100]).ansn ≠ (run [0] (start 65535) []).ansn := by decide

/-- C231, finding.  The ANSN changes only with the next recalculation: a TC that is sent right after a change has the new content with
the ANSN of the last TC before the change, in every state. -/
theorem C231_pending_counterexample (doms : List Nat) (s : St) (d : Nat) :
    (run doms s [.tc, .nhdp (some d), .tc]).log = s.log ++ [.tc s.ansn, .announce, .changed d, .tc s.ansn] := by
  simp [run, step, nhdpEvent, nhdpEvent1, mark, announce, trigger]

theorem stopped_force {doms : List Nat} {s : St} (h : (s.shutdown || s.frozen) = true) (skip : Bool) : force doms s skip = s := by
  unfold force
  rw [if_pos h]

/-- The ANSN is `a` and recalculations are stopped. -/
def Stopped (a : Nat) (s : St) : Prop := s.ansn = a ∧ (s.shutdown || s.frozen) = true

theorem stopped_keeps (doms : List Nat) (a : Nat) : Keeps doms (Stopped a) where
  trigger := fun _ h => h
  mark := fun _ _ h => h
  announce := fun _ h => h
  arm := fun _ h _ => h
  forced := fun s h h1 h2 => by have := h.2; rw [h1, h2] at this; cases this
  idle := fun s h h1 h2 _ => by have := h.2; rw [h1, h2] at this; cases this
  wait := fun _ _ h _ => h
  late := fun s t x h _ _ => ⟨fun _ => h, fun _ _ => h, fun _ e => by rw [h.2] at e; cases e⟩
  tc := fun _ h => h

/-- C231, finding.  While routes are frozen the ANSN never changes, although TCs with changing content are sent. -/
theorem C231_frozen_counterexample {doms : List Nat} (ops : List Op) : ∀ {s : St}, s.frozen = true →
    (∀ op ∈ ops, (∀ k, op ≠ .increment k) ∧ ∀ b, op ≠ .freeze b) → (run doms s ops).ansn = s.ansn := by
  intro s hf ho
  have main : ∀ (ops : List Op) (t : St), Stopped s.ansn t → (∀ op ∈ ops, (∀ k, op ≠ .increment k) ∧ ∀ b, op ≠ .freeze b) →
      Stopped s.ansn (run doms t ops) := by
    intro ops
    induction ops with
    | nil => intro t h _; exact h
    | cons op ops ih =>
      intro t h ho
      refine ih _ ?_ fun o' h' => ho o' (List.mem_cons_of_mem _ h')
      have k := stopped_keeps doms s.ansn
      obtain ⟨ho1, ho2⟩ := ho op List.mem_cons_self
      cases op with
      | domainChanged d a => exact k.domainChanged h d a
      | nhdp d => exact k.nhdp h d
      | trigger => exact h
      | force skip => exact k.force h skip
      | walk t => exact k.walk h t
      | freeze b => exact absurd rfl (ho2 b)
      | parameter d same routes =>
        rw [step]; unfold setParameter
        split
        · exact h
        · split <;> exact h
      | increment k => exact absurd rfl (ho1 k)
      | shutdown => exact ⟨h.1, rfl⟩
      | tc => exact h
  exact (main ops s ⟨rfl, by simp [hf]⟩ ho).1

example : (run [0] (start 7) [.freeze true, .tc, .nhdp (some 0), .walk 100, .walk 5000, .tc]).log =
    [.tc 7, .announce, .changed 0, .tc 7] := by decide

/-- After the end of a freeze the pending changes are recalculated and announced. -/
example : (run [0] (start 7) [.freeze true, .nhdp (some 0), .walk 5000, .freeze false, .walk 5200, .tc]).log =
    [.announce, .changed 0, .ran 5200 false [0], .tc 8] := by decide

end Verif.RtSched
