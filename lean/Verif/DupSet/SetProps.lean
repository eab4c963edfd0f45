import Verif.DupSet.Props

/-
C06 for whole duplicate sets: histories that mix operations on all keys.
-/
namespace Verif.DupSet

/-- an operation on a set -/
inductive SetOp
  | add (key : Key) (seqno vtime : Nat)
  | query (key : Key) (seqno : Nat)
  | expire (key : Key)

/-- one operation -/
def setStep (kind : Kind) (s : Set) : SetOp → Set
  | .add key seqno vtime => (entryAdd kind s key seqno vtime).2
  | .query key seqno => (entryTest kind s key seqno).2
  | .expire key => DupSet.expire s key

/-- a history -/
def setRun (kind : Kind) (s : Set) (ops : List SetOp) : Set := ops.foldl (setStep kind) s

/-- the accesses of a history to one key -/
def accesses (key : Key) : List SetOp → List Access
  | [] => []
  | .add k seqno _ :: ops => if k = key then (seqno, true) :: accesses key ops else accesses key ops
  | .query k seqno :: ops => if k = key then (seqno, false) :: accesses key ops else accesses key ops
  | .expire _ :: ops => accesses key ops

/-- entries that differ in the validity time only -/
def Same (e e' : Entry) : Prop := e.history = e'.history ∧ e.current = e'.current ∧ e.tooOld = e'.tooOld

theorem test_vtime (k : Kind) (e : Entry) (s v : Nat) (b : Bool) : test k { e with vtime := v } s b = ((test k e s b).1, { (test k e s b).2 with vtime := v }) := by
  simp only [test]
  split
  · rfl
  · split
    · split <;> rfl
    · split
      · split
        · rfl
        · split <;> rfl
      · split <;> rfl

theorem Same.eq {e e' : Entry} (h : Same e e') : e' = { e with vtime := e'.vtime } := by
  obtain ⟨h1, h2, h3⟩ := h
  cases e; cases e'
  simp_all

theorem Same.refl (e : Entry) : Same e e := ⟨rfl, rfl, rfl⟩
theorem Same.symm {e e' : Entry} (h : Same e e') : Same e' e := ⟨h.1.symm, h.2.1.symm, h.2.2.symm⟩
theorem Same.trans {a b c : Entry} (h : Same a b) (h' : Same b c) : Same a c := ⟨h.1.trans h'.1, h.2.1.trans h'.2.1, h.2.2.trans h'.2.2⟩

theorem Same.test {e e' : Entry} (h : Same e e') (k : Kind) (s : Nat) (b : Bool) : (test k e' s b).1 = (test k e s b).1 ∧ Same (test k e s b).2 (test k e' s b).2 := by
  rw [h.eq, test_vtime]
  exact ⟨rfl, rfl, rfl, rfl⟩

theorem Same.noReset (k : Kind) (h : List Access) {e e' : Entry} (hs : Same e e') : NoReset k e h → NoReset k e' h := by
  induction h generalizing e e' with
  | nil => exact fun _ => trivial
  | cons a h ih =>
    rintro ⟨h1, h2⟩
    refine ⟨?_, ih (hs.test k a.1 a.2).2 h2⟩
    rintro ⟨h3, h4⟩
    exact h1 ⟨(hs.test k a.1 a.2).1 ▸ h3, by rw [hs.2.1]; exact h4⟩

theorem Same.totalAdvance (k : Kind) (h : List Access) {e e' : Entry} (hs : Same e e') : totalAdvance k e' h = totalAdvance k e h := by
  induction h generalizing e e' with
  | nil => rfl
  | cons a h ih =>
    have h1 := (hs.test k a.1 a.2).2
    show forward k.size e'.current (step k e' a).current + _ = forward k.size e.current (step k e a).current + _
    rw [ih (e := step k e a) (e' := step k e' a) h1, ← hs.2.1]
    have : (step k e' a).current = (step k e a).current := h1.2.1.symm
    rw [this]

/-- an addition seen from the entry of its key -/
theorem add_own (kind : Kind) (s : Set) (key : Key) (seqno vtime : Nat) (e : Entry) (h : s key = some e) :
    (entryAdd kind s key seqno vtime).1 = (test kind e seqno true).1 ∧ ∃ e', (entryAdd kind s key seqno vtime).2 key = some e' ∧ Same (step kind e (seqno, true)) e' := by
  obtain ⟨h1, e', h2, h3, h4, h5, _⟩ := (C06_entry_add kind s key seqno vtime).2 e h
  exact ⟨h1, e', h2, h4.symm, h3.symm, h5.symm⟩

theorem setRun_own (kind : Kind) (key : Key) : ∀ (ops : List SetOp) (s : Set) (e e' : Entry), (.expire key ∉ ops) → s key = some e' → Same e e' →
    ∃ x, setRun kind s ops key = some x ∧ Same (run kind e (accesses key ops)) x
  | [], s, e, e', _, h, hs => ⟨e', h, hs⟩
  | op :: ops, s, e, e', hne, h, hs => by
    have hne' : .expire key ∉ ops := fun hm => hne (List.mem_cons_of_mem _ hm)
    show ∃ x, setRun kind (setStep kind s op) ops key = some x ∧ _
    cases op with
    | add k seqno v =>
      by_cases hk : k = key
      · subst hk
        obtain ⟨_, x, h1, h2⟩ := add_own kind s k seqno v e' h
        have := setRun_own kind k ops _ (step kind e (seqno, true)) x hne' h1 ((hs.test kind seqno true).2.trans h2)
        unfold accesses
        rw [if_pos rfl]
        exact this
      · unfold accesses
        rw [if_neg hk]
        exact setRun_own kind key ops _ e e' hne' (((C06_keys_independent kind s k key seqno v (fun h => hk h.symm)).1).trans h) hs
    | query k seqno =>
      by_cases hk : k = key
      · subst hk
        unfold accesses
        rw [if_pos rfl]
        refine setRun_own kind k ops _ (step kind e (seqno, false)) (test kind e' seqno false).2 hne' ?_ (hs.test kind seqno false).2
        show (entryTest kind s k seqno).2 k = _
        simp only [entryTest, h, Set.put, if_true]
      · unfold accesses
        rw [if_neg hk]
        exact setRun_own kind key ops _ e e' hne' (((C06_keys_independent kind s k key seqno 0 (fun h => hk h.symm)).2.1).trans h) hs
    | expire k =>
      have hk : key ≠ k := by
        intro he
        subst he
        exact hne List.mem_cons_self
      exact setRun_own kind key ops _ e e' hne' (((C06_keys_independent kind s k key 0 0 hk).2.2).trans h) hs

/-- the accesses of an entry to the sequence number of a key are those recorded in the history -/
theorem accesses_bound {kind : Kind} {key : Key} : ∀ {ops : List SetOp}, (∀ op ∈ ops, ∀ k s v, op = .add k s v ∨ op = .query k s → s < kind.size) → ∀ a ∈ accesses key ops, a.1 < kind.size
  | [], _, _, ha => by cases ha
  | op :: ops, h, a, ha => by
    have ih := accesses_bound (kind := kind) (key := key) (ops := ops) fun o ho => h o (List.mem_cons_of_mem _ ho)
    have h0 := h op List.mem_cons_self
    cases op with
    | add k s v =>
      unfold accesses at ha
      by_cases hk : k = key
      · rw [if_pos hk] at ha
        rcases List.mem_cons.1 ha with ha | ha
        · rw [ha]; exact h0 k s v (.inl rfl)
        · exact ih a ha
      · rw [if_neg hk] at ha
        exact ih a ha
    | query k s =>
      unfold accesses at ha
      by_cases hk : k = key
      · rw [if_pos hk] at ha
        rcases List.mem_cons.1 ha with ha | ha
        · rw [ha]; exact h0 k s 0 (.inr rfl)
        · exact ih a ha
      · rw [if_neg hk] at ha
        exact ih a ha
    | expire k => exact ih a ha

/-- C06: over all histories of a set.  A number was accepted for a key; operations on all keys follow, in which the entry of
the key does not expire, no restart of the sender is assumed for the key and its newest number moves on by less than half of
the number circle.  Then the same number is not accepted again for the key. -/
theorem C06_set_no_double_accept (kind : Kind) (s : Set) (key : Key) (seqno v v' : Nat) (ops : List SetOp) (e1 : Entry)
    (hcur : ∀ e, s key = some e → e.current < kind.size) (hs : seqno < kind.size) (hops : ∀ op ∈ ops, ∀ k s v, op = .add k s v ∨ op = .query k s → s < kind.size)
    (hnew : isNew (entryAdd kind s key seqno v).1 = true) (he1 : (entryAdd kind s key seqno v).2 key = some e1) (hexp : .expire key ∉ ops)
    (hquiet : NoReset kind e1 (accesses key ops ++ [(seqno, true)])) (hadv : 2 * (31 + totalAdvance kind e1 (accesses key ops)) ≤ kind.size) :
    isNew (entryAdd kind (setRun kind (entryAdd kind s key seqno v).2 ops) key seqno v').1 = false := by
  obtain ⟨x, hx, hsame⟩ := setRun_own kind key ops _ e1 e1 hexp he1 (Same.refl e1)
  rw [((C06_entry_add kind _ key seqno v').2 x hx).1, (hsame.test kind seqno true).1]
  have hb := accesses_bound (key := key) hops
  cases hk : s key with
  | none =>
    have e0 := (C06_entry_add kind s key seqno v).1 hk
    rw [e0] at he1
    have : e1 = ⟨1, seqno, 0, v⟩ := by
      simp only [Set.put, if_true] at he1
      injection he1 with h
      exact h.symm
    subst this
    exact C06_no_double_accept_first kind seqno v _ true hs hb hquiet (by omega)
  | some e =>
    obtain ⟨h1, e', h2, h3⟩ := add_own kind s key seqno v e hk
    rw [h2] at he1
    injection he1 with he1
    subst he1
    rw [h1] at hnew
    have key2 := C06_no_double_accept kind e seqno (accesses key ops) true (hcur e hk) hs hb hnew (h3.symm.noReset kind _ hquiet) (by rw [h3.symm.totalAdvance]; exact hadv)
    have hr : Same (run kind (step kind e (seqno, true)) (accesses key ops)) (run kind e' (accesses key ops)) := by
      have : ∀ (l : List Access) (a b : Entry), Same a b → Same (run kind a l) (run kind b l) := by
        intro l
        induction l with
        | nil => exact fun _ _ h => h
        | cons c l ih => exact fun a b h => ih _ _ (h.test kind c.1 c.2).2
      exact this _ _ _ h3
    rw [(hr.test kind seqno true).1]
    exact key2

example : isNew (entryAdd .b16 (fun _ => none) ⟨[1], 1⟩ 65535 5).1 = true ∧
    isNew (entryAdd .b16 (setRun .b16 (entryAdd .b16 (fun _ => none) ⟨[1], 1⟩ 65535 5).2 [.add ⟨[1], 1⟩ 3 5, .expire ⟨[2], 1⟩, .add ⟨[2], 1⟩ 65535 5]) ⟨[1], 1⟩ 65535 5).1 = false ∧
    isNew (entryAdd .b16 (setRun .b16 (entryAdd .b16 (fun _ => none) ⟨[1], 1⟩ 65535 5).2 [.add ⟨[1], 1⟩ 3 5, .expire ⟨[1], 1⟩]) ⟨[1], 1⟩ 65535 5).1 = true := by decide +kernel

end Verif.DupSet
