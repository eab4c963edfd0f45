import Verif.DlepDest.Lemmas

/-
C199: the radio and a router that answers every DESTINATION_UP and DESTINATION_DOWN in their order.
-/
namespace Verif.DlepDest

/-- a session and the messages the router has not answered yet, oldest first -/
structure Link where
  s : Sess
  pend : List Msg

/-- events of the layer2 database for the session, with the database at that time, and the answer of the router to the oldest message -/
inductive SEv where
  | added (db : Db) (dst : Bool) (n k : Key)
  | changed (db : Db) (dst : Bool) (k : Key)
  | removed (db : Db) (dst : Bool) (k : Key)
  | answer (db : Db)

/-- messages with an answer that the session wrote in a step -/
def asked (s s' : Sess) : List Msg :=
  (s'.out.drop s.out.length).filter fun m => match m with | .up _ | .down _ => true | _ => false

/-- one event; `none`: the radio crashes -/
def lstep (x : Link) : SEv → Option Link
  | .added db dst n k => some ⟨added db dst n k x.s, x.pend ++ asked x.s (added db dst n k x.s)⟩
  | .changed db dst k => some ⟨changed db dst k x.s, x.pend ++ asked x.s (changed db dst k x.s)⟩
  | .removed db dst k => some ⟨removed db dst k x.s, x.pend ++ asked x.s (removed db dst k x.s)⟩
  | .answer db =>
    match x.pend with
    | .up k :: p => (upAck db x.s k true).map fun s => ⟨s, p⟩
    | .down k :: p => (downAck x.s k true).map fun s => ⟨s, p⟩
    | _ => some x

def lrun (x : Link) : List SEv → Option Link
  | [] => some x
  | e :: l => (lstep x e).bind fun x => lrun x l

/-- no event concerns a destination with an unanswered message -/
def Waits (x : Link) : List SEv → Prop
  | [] => True
  | e :: l =>
    (match e with
      | .added _ _ _ k | .changed _ _ k | .removed _ _ k => ∀ m ∈ x.pend, m ≠ .up k ∧ m ≠ .down k
      | .answer _ => True) ∧ ∀ y, lstep x e = some y → Waits y l

/-- unanswered messages fit to the state of their destination, and there is only one for each -/
def Fits (x : Link) : Prop :=
  x.pend.Pairwise (fun a b => ∀ k, (a = .up k ∨ a = .down k) → b ≠ .up k ∧ b ≠ .down k) ∧
    ∀ m ∈ x.pend, (∃ k l, m = .up k ∧ x.s.locals k = some l ∧ l.state = .upSent) ∨ (∃ k l, m = .down k ∧ x.s.locals k = some l ∧ l.state = .downSent)

/-- what an event for the destination `k` does -/
structure Touch (s s' : Sess) (k : Key) : Prop where
  locals : ∀ j, j ≠ k → s'.locals j = s.locals j
  asked : asked s s' = [] ∨ (asked s s' = [.up k] ∧ ∃ l, s'.locals k = some l ∧ l.state = .upSent) ∨
    (asked s s' = [.down k] ∧ ∃ l, s'.locals k = some l ∧ l.state = .downSent)

theorem asked_self (s s' : Sess) (h : s'.out = s.out) : asked s s' = [] := by
  simp [asked, h]

theorem touch_refl (s : Sess) (k : Key) : Touch s s k := ⟨fun _ _ => rfl, Or.inl (asked_self s s rfl)⟩

theorem touch_up (db : Db) (s : Sess) (k : Key) (l l' : Local) (h : l'.state = .upSent) :
    Touch s ((gen db (s.set k (some l)) (.up k)).set k (some l')) k := by
  refine ⟨fun j hj => by rw [set_other _ _ _ _ hj, gen_locals, set_other _ _ _ _ hj], ?_⟩
  rcases gen_cases db (s.set k (some l)) (.up k) with e | e
  · left
    apply asked_self
    rw [set_out, e]
    rfl
  · right; left
    refine ⟨?_, l', by simp, h⟩
    unfold asked
    rw [set_out, e]
    simp

theorem touch_update (db : Db) (s : Sess) (k : Key) (l l' : Local) :
    Touch s ((gen db (s.set k (some l)) (.update k)).set k (some l')) k := by
  refine ⟨fun j hj => by rw [set_other _ _ _ _ hj, gen_locals, set_other _ _ _ _ hj], Or.inl ?_⟩
  rcases gen_cases db (s.set k (some l)) (.update k) with e | e
  · apply asked_self
    rw [set_out, e]
    rfl
  · unfold asked
    rw [set_out, e]
    simp

theorem touch_added (db : Db) (dst : Bool) (n k : Key) (s : Sess) : Touch s (added db dst n k s) k := by
  unfold added
  split
  · exact touch_refl s k
  · unfold addedTo
    split
    · exact touch_refl s k
    · exact touch_up _ _ _ _ _ rfl

theorem touch_changed (db : Db) (dst : Bool) (k : Key) (s : Sess) : Touch s (changed db dst k s) k := by
  unfold changed
  split
  · exact touch_refl s k
  · split
    · exact touch_refl s k
    · simp only
      split
      · exact ⟨fun j hj => set_other _ _ _ _ hj, Or.inl (asked_self _ _ rfl)⟩
      · exact touch_update _ _ _ _ _
      · exact touch_up _ _ _ _ _ rfl

theorem touch_removed (db : Db) (dst : Bool) (k : Key) (s : Sess) : Touch s (removed db dst k s) k := by
  unfold removed
  split
  · exact touch_refl s k
  · split
    · exact touch_refl s k
    · refine ⟨fun j hj => by rw [set_other _ _ _ _ hj, gen_locals], Or.inr (Or.inr ⟨?_, _, set_same _ _ _, rfl⟩)⟩
      unfold asked
      simp [gen]

theorem Touch.fits {x : Link} {s' : Sess} {k : Key} (t : Touch x.s s' k) (h : Fits x) (hw : ∀ m ∈ x.pend, m ≠ .up k ∧ m ≠ .down k) :
    Fits ⟨s', x.pend ++ Verif.DlepDest.asked x.s s'⟩ := by
  have old : ∀ m ∈ x.pend, (∃ j l, m = .up j ∧ s'.locals j = some l ∧ l.state = .upSent) ∨ (∃ j l, m = .down j ∧ s'.locals j = some l ∧ l.state = .downSent) := by
    intro m hm
    rcases h.2 m hm with ⟨j, l, rfl, h1, h2⟩ | ⟨j, l, rfl, h1, h2⟩
    · have hj : j ≠ k := fun e => (hw _ hm).1 (by rw [e])
      exact Or.inl ⟨j, l, rfl, (t.locals j hj).trans h1, h2⟩
    · have hj : j ≠ k := fun e => (hw _ hm).2 (by rw [e])
      exact Or.inr ⟨j, l, rfl, (t.locals j hj).trans h1, h2⟩
  rcases t.asked with e | ⟨e, l, h1, h2⟩ | ⟨e, l, h1, h2⟩
  · rw [e, List.append_nil]
    exact ⟨h.1, old⟩
  · rw [e]
    refine ⟨List.pairwise_append.2 ⟨h.1, List.pairwise_singleton _ _, ?_⟩, ?_⟩
    · intro a ha b hb j hj
      simp only [List.mem_singleton] at hb
      subst hb
      refine ⟨?_, fun e => (nomatch e)⟩
      intro e
      cases e
      rcases hj with hj | hj
      · exact (hw a ha).1 hj
      · exact (hw a ha).2 hj
    · intro m hm
      rcases List.mem_append.1 hm with hm | hm
      · exact old m hm
      · simp only [List.mem_singleton] at hm
        exact Or.inl ⟨k, l, hm, h1, h2⟩
  · rw [e]
    refine ⟨List.pairwise_append.2 ⟨h.1, List.pairwise_singleton _ _, ?_⟩, ?_⟩
    · intro a ha b hb j hj
      simp only [List.mem_singleton] at hb
      subst hb
      refine ⟨fun e => (nomatch e), ?_⟩
      intro e
      cases e
      rcases hj with hj | hj
      · exact (hw a ha).1 hj
      · exact (hw a ha).2 hj
    · intro m hm
      rcases List.mem_append.1 hm with hm | hm
      · exact old m hm
      · simp only [List.mem_singleton] at hm
        exact Or.inr ⟨k, l, hm, h1, h2⟩

theorem fits_drop {x : Link} {m : Msg} {p : List Msg} {k : Key} {s' : Sess} (h : Fits x) (hp : x.pend = m :: p) (hm : m = .up k ∨ m = .down k)
    (hs : ∀ j, j ≠ k → s'.locals j = x.s.locals j) : Fits ⟨s', p⟩ := by
  rw [Fits, hp] at h
  obtain ⟨h1, h2⟩ := h
  rw [List.pairwise_cons] at h1
  refine ⟨h1.2, ?_⟩
  intro b hb
  have hne := h1.1 b hb k hm
  rcases h2 b (List.mem_cons_of_mem _ hb) with ⟨j, l, rfl, h3, h4⟩ | ⟨j, l, rfl, h3, h4⟩
  · have hj : j ≠ k := fun e => hne.1 (by rw [e])
    exact Or.inl ⟨j, l, rfl, (hs j hj).trans h3, h4⟩
  · have hj : j ≠ k := fun e => hne.2 (by rw [e])
    exact Or.inr ⟨j, l, rfl, (hs j hj).trans h3, h4⟩

theorem upAck_ok {db : Db} {s : Sess} {k : Key} {l : Local} (h1 : s.locals k = some l) (h2 : l.state = .upSent) :
    ∃ s', upAck db s k true = some s' ∧ ∀ j, j ≠ k → s'.locals j = s.locals j := by
  unfold upAck
  simp only [if_true, h1, h2]
  split
  · exact ⟨_, rfl, fun j hj => by rw [set_other _ _ _ _ hj, gen_locals, set_other _ _ _ _ hj]⟩
  · exact ⟨_, rfl, fun j hj => set_other _ _ _ _ hj⟩

theorem downAck_ok {s : Sess} {k : Key} {l : Local} (h1 : s.locals k = some l) (h2 : l.state = .downSent) :
    ∃ s', downAck s k true = some s' ∧ ∀ j, j ≠ k → s'.locals j = s.locals j := by
  unfold downAck
  simp only [if_true, h1, h2]
  exact ⟨_, rfl, fun j hj => set_other _ _ _ _ hj⟩

theorem fits_step {x : Link} {e : SEv} {l : List SEv} (h : Fits x) (hw : Waits x (e :: l)) : ∃ y, lstep x e = some y ∧ Fits y := by
  cases e with
  | added db dst n k => exact ⟨_, rfl, (touch_added db dst n k x.s).fits h hw.1⟩
  | changed db dst k => exact ⟨_, rfl, (touch_changed db dst k x.s).fits h hw.1⟩
  | removed db dst k => exact ⟨_, rfl, (touch_removed db dst k x.s).fits h hw.1⟩
  | answer db =>
    simp only [lstep]
    split
    · rename_i k p hp
      rcases h.2 (.up k) (by rw [hp]; simp) with ⟨j, l, e, h1, h2⟩ | ⟨j, l, e, _, _⟩
      · cases e
        obtain ⟨s', hs', ho⟩ := upAck_ok (db := db) h1 h2
        rw [hs']
        exact ⟨_, rfl, fits_drop h hp (Or.inl rfl) ho⟩
      · cases e
    · rename_i k p hp
      rcases h.2 (.down k) (by rw [hp]; simp) with ⟨j, l, e, _, _⟩ | ⟨j, l, e, h1, h2⟩
      · cases e
      · cases e
        obtain ⟨s', hs', ho⟩ := downAck_ok h1 h2
        rw [hs']
        exact ⟨_, rfl, fits_drop h hp (Or.inr rfl) ho⟩
    · exact ⟨_, rfl, h⟩

/-- C199, the part that holds for a router that answers everything in order: as long as nothing happens to a destination while an answer for it is missing, and no answer is late, the radio does not crash,
and every answer meets the destination in the state it belongs to. Missing: events while an answer is missing (`C199_order_counterexample`). -/
theorem C199_waiting_partial (c : Cfg) (evs : List SEv) (hw : Waits ⟨{ cfg := c }, []⟩ evs) :
    ∃ x, lrun ⟨{ cfg := c }, []⟩ evs = some x ∧
      ∀ m ∈ x.pend, (∃ k l, m = .up k ∧ x.s.locals k = some l ∧ l.state = .upSent) ∨ (∃ k l, m = .down k ∧ x.s.locals k = some l ∧ l.state = .downSent) := by
  have h0 : Fits ⟨{ cfg := c }, []⟩ := ⟨List.Pairwise.nil, fun m hm => (nomatch hm)⟩
  generalize (⟨{ cfg := c }, []⟩ : Link) = x at h0 hw
  induction evs generalizing x with
  | nil => exact ⟨x, rfl, h0.2⟩
  | cons e l ih =>
    obtain ⟨y, hy, hf⟩ := fits_step h0 hw
    obtain ⟨z, hz, hr⟩ := ih y hf (hw.2 y hy)
    exact ⟨z, by simp only [lrun, hy, Option.bind_some, hz], hr⟩

def k1 : Key := ⟨1, []⟩

/-- a neighbor comes, is acknowledged, goes and is acknowledged -/
example : Waits ⟨{ cfg := ⟨true, true, 0⟩ }, []⟩ [.added [(k1, none)] false k1 k1, .answer [(k1, none)], .changed [(k1, none)] false k1, .removed [(k1, none)] false k1, .answer []] := by
  refine ⟨fun m hm => (nomatch hm), fun y hy => ?_⟩
  cases hy
  refine ⟨trivial, fun y hy => ?_⟩
  cases hy
  refine ⟨fun m hm => (nomatch hm), fun y hy => ?_⟩
  cases hy
  refine ⟨fun m hm => (nomatch hm), fun y hy => ?_⟩
  cases hy
  exact ⟨trivial, fun y hy => trivial⟩

example : (lrun ⟨{ cfg := ⟨true, true, 0⟩ }, []⟩ [.added [(k1, none)] false k1 k1, .answer [(k1, none)], .changed [(k1, none)] false k1, .removed [(k1, none)] false k1, .answer []]).map
    (fun x => (x.s.out, x.pend)) = some ([.up k1, .update k1, .down k1], []) := by decide +kernel

end Verif.DlepDest
