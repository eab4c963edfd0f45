import Verif.L2Gen.Model
/-
C238: the layer2 generator.
-/
namespace Verif.L2Gen

/-! ### Specification -/

/-- Balancing does not change the order of the elements. -/
def Keeps (rebal : Tree → Tree) : Prop := ∀ t, (rebal t).toList = t.toList

/-- Number of events while the generator is active; `a`: it is active in the beginning. -/
def fired : Bool → List Op → Nat
  | _, [] => 0
  | true, .event :: h => fired true h + 1
  | false, .event :: h => fired false h
  | _, .config on :: h => fired on h

/-- Number of events since the generator was switched on the last time (0 if it is off); `a`, `n`: whether it is on in the
beginning and for how many events. -/
def since : Bool → Nat → List Op → Nat
  | _, n, [] => n
  | true, n, .event :: h => since true (n + 1) h
  | false, _, .event :: h => since false 0 h
  | true, n, .config true :: h => since true n h
  | false, _, .config true :: h => since true 0 h
  | _, _, .config false :: h => since false 0 h

/-- A tree is usable for searching: everything that is in it is found. -/
def Searchable (t : Tree) : Prop := ∀ k ∈ t.toList, find k t = some k

/-- The link ids of the last `n` events, the last event first. -/
def lastIds (mac counter : Nat) : Nat → List Key
  | 0 => []
  | n + 1 => ⟨mac, 1, counter % 256⟩ :: lastIds mac (counter - 1) n

/-! ### Lemmas -/

theorem less_base {mac : Nat} {k : Key} (h : k.mac = mac ∧ k.len = 1) : less (base mac) k = true := by
  obtain ⟨h1, h2⟩ := h
  simp [less, base, h1, h2]

theorem find_base {mac : Nat} (t : Tree) (h : ∀ k ∈ t.toList, k.mac = mac ∧ k.len = 1) : find (base mac) t = none := by
  induction t with
  | leaf => rfl
  | node l k r ihl _ =>
    have hk := less_base (h k (by simp [Tree.toList]))
    simp only [find, hk]
    exact ihl (fun j hj => h j (by simp [Tree.toList, hj]))

theorem insert_base {mac : Nat} (t : Tree) (h : ∀ k ∈ t.toList, k.mac = mac ∧ k.len = 1) :
    (insert (base mac) t).toList = base mac :: t.toList := by
  induction t with
  | leaf => rfl
  | node l k r ihl _ =>
    have hk := less_base (h k (by simp [Tree.toList]))
    have := ihl (fun j hj => h j (by simp [Tree.toList, hj]))
    simp [insert, hk, Tree.toList, this]

theorem rename_list (x y : Key) (t : Tree) : (rename x y t).toList = t.toList.map (fun k => if k = x then y else k) := by
  induction t with
  | leaf => rfl
  | node l k r ihl ihr => simp [rename, Tree.toList, ihl, ihr]

theorem map_ne (x y : Key) (ks : List Key) (h : x ∉ ks) : ks.map (fun k => if k = x then y else k) = ks := by
  induction ks with
  | nil => rfl
  | cons a ks ih =>
    have ha : a ≠ x := fun e => h (by simp [e])
    simp [ha, ih (fun hx => h (List.mem_cons_of_mem _ hx))]

theorem lastIds_keys (mac : Nat) : ∀ n c, ∀ k ∈ lastIds mac c n, k.mac = mac ∧ k.len = 1 := by
  intro n
  induction n with
  | zero => intro c k hk; cases hk
  | succ n ih =>
    intro c k hk
    rcases List.mem_cons.1 hk with e | e
    · subst e; exact ⟨rfl, rfl⟩
    · exact ih _ k e

theorem lastIds_length (mac : Nat) : ∀ n c, (lastIds mac c n).length = n := by
  intro n
  induction n with
  | zero => intro c; rfl
  | succ n ih => intro c; simp [lastIds, ih]

/-- An event adds a neighbor at the beginning, whatever there is. -/
theorem event_list {rebal : Tree → Tree} (hr : Keeps rebal) (mac n : Nat) (s : State) (ha : s.active = true)
    (hl : s.tree.toList = lastIds mac s.counter n) :
    (event rebal mac s).active = true ∧ (event rebal mac s).counter = s.counter + 1 ∧
      (event rebal mac s).tree.toList = lastIds mac (s.counter + 1) (n + 1) := by
  have hk : ∀ k ∈ s.tree.toList, k.mac = mac ∧ k.len = 1 := by rw [hl]; exact lastIds_keys mac n _
  have hf := find_base s.tree hk
  have e : event rebal mac s = { s with
      counter := s.counter + 1,
      tree := rename (base mac) ⟨mac, 1, (s.counter + 1) % 256⟩ (rebal (insert (base mac) s.tree)) } := by
    simp [event, ha, hf]
  rw [e]
  refine ⟨ha, rfl, ?_⟩
  have hn : base mac ∉ s.tree.toList := fun h => by
    have := (hk _ h).2
    simp [base] at this
  show (rename _ _ _).toList = _
  rw [rename_list, hr, insert_base _ hk, List.map_cons, map_ne _ _ _ hn, hl]
  simp [lastIds]

theorem run_inv {rebal : Tree → Tree} (hr : Keeps rebal) (mac : Nat) (ops : List Op) : ∀ (s : State) (n : Nat),
    s.tree.toList = lastIds mac s.counter n → (s.active = false → n = 0) →
    (run rebal mac s ops).counter = s.counter + fired s.active ops ∧
      (run rebal mac s ops).tree.toList
        = lastIds mac (s.counter + fired s.active ops) (since s.active n ops) := by
  induction ops with
  | nil => intro s n h _; exact ⟨rfl, h⟩
  | cons o ops ih =>
    intro s n h h0
    show (run rebal mac (step rebal mac s o) ops).counter = _ ∧ (run rebal mac (step rebal mac s o) ops).tree.toList = _
    cases o with
    | event =>
      cases ha : s.active with
      | false =>
        have e : step rebal mac s .event = s := by simp [step, event, ha]
        have hn := h0 ha
        subst hn
        rw [e]
        have := ih s 0 h (fun _ => rfl)
        rw [ha] at this
        simpa [fired, since] using this
      | true =>
        have hev := event_list hr mac n s ha h
        have := ih (event rebal mac s) (n + 1) (by rw [hev.2.2, hev.2.1]) (fun h => by rw [hev.1] at h; cases h)
        rw [hev.1, hev.2.1] at this
        simp only [step, fired, since]
        have e : s.counter + 1 + fired true ops = s.counter + (fired true ops + 1) := by omega
        rw [e] at this
        exact this
    | config on =>
      cases ha : s.active <;> cases on
      · have e : step rebal mac s (.config false) = s := by simp [step, config, ha]
        have hn := h0 ha
        subst hn
        rw [e]
        have := ih s 0 h (fun _ => rfl)
        rw [ha] at this
        simpa [fired, since] using this
      · have e : step rebal mac s (.config true) = { s with active := true } := by simp [step, config, ha]
        have hn := h0 ha
        subst hn
        rw [e]
        have := ih { s with active := true } 0 h (fun h => nomatch h)
        simpa [fired, since] using this
      · have e : step rebal mac s (.config false) = { s with active := false, tree := .leaf } := by
          simp [step, config, ha]
        rw [e]
        have := ih { s with active := false, tree := .leaf } 0 rfl (fun _ => rfl)
        simpa [fired, since] using this
      · have e : step rebal mac s (.config true) = s := by simp [step, config, ha]
        rw [e]
        have := ih s n h h0
        rw [ha] at this
        simpa [fired, since] using this

/-! ### C238 -/

/-- The counter counts the events while the generator is active, beginning with 100. -/
theorem C238_counter {rebal : Tree → Tree} (hr : Keeps rebal) (mac : Nat) (ops : List Op) :
    (run rebal mac {} ops).counter = 100 + fired false ops :=
  (run_inv hr mac ops {} 0 rfl (fun _ => rfl)).1

/-- While the generator is not active, events do nothing. -/
theorem C238_idle (rebal : Tree → Tree) (mac : Nat) (s : State) (h : s.active = false) : event rebal mac s = s := by
  simp [event, h]

/-- Switching the generator off removes its neighbors. -/
theorem C238_off {rebal : Tree → Tree} (hr : Keeps rebal) (mac : Nat) (ops : List Op) :
    (config false (run rebal mac {} ops)).tree.toList = [] ∧ (config false (run rebal mac {} ops)).active = false := by
  cases ha : (run rebal mac {} ops).active with
  | true => simp [config, ha, Tree.toList]
  | false =>
    have hi := run_inv hr mac ops {} 0 rfl (fun _ => rfl)
    have hs : ∀ (ops : List Op) (s : State) (n : Nat), (s.active = false → n = 0) →
        (run rebal mac s ops).active = false → since s.active n ops = 0 := by
      intro ops
      induction ops with
      | nil => intro s n h0 hf; exact h0 hf
      | cons o ops ih =>
        intro s n h0 hf
        have hf' : (run rebal mac (step rebal mac s o) ops).active = false := hf
        cases o with
        | event =>
          have hact : (step rebal mac s .event).active = s.active := by
            simp only [step, event]
            split <;> rfl
          cases hs : s.active with
          | false =>
            have := ih _ 0 (fun _ => rfl) hf'
            rw [hact, hs] at this
            simpa [since] using this
          | true =>
            have := ih _ (n + 1) (fun h => by rw [hact, hs] at h; cases h) hf'
            rw [hact, hs] at this
            simpa [since] using this
        | config on =>
          have hact : (step rebal mac s (.config on)).active = on := by
            simp only [step, config]
            cases hs : s.active <;> cases on <;> simp [hs]
          cases hs : s.active <;> cases on
          all_goals
            simp only [since]
            first
              | (have := ih _ 0 (fun _ => rfl) hf'; rw [hact] at this; exact this)
              | (have := ih _ n (fun h => by rw [hact] at h; cases h) hf'; rw [hact] at this; exact this)
    have h0 := hs ops {} 0 (fun _ => rfl) ha
    simp [config, ha]
    have := hi.2
    simp only [h0] at this
    exact this

/-- The generator shall keep one neighbor with the configured address, whose link id is the counter. This is true for the first event
after it was switched on; what is missing are the further events. -/
theorem C238_one_partial {rebal : Tree → Tree} (hr : Keeps rebal) (mac : Nat) (ops : List Op)
    (h : since false 0 ops = 1) :
    (run rebal mac {} ops).tree.toList = [⟨mac, 1, (100 + fired false ops) % 256⟩] := by
  have := (run_inv hr mac ops {} 0 rfl (fun _ => rfl)).2
  simp only [h] at this
  simpa [lastIds] using this

/-- Every event adds a neighbor: the key in the tree was changed, so the neighbor is not found again. After `n` events there are `n`
neighbors with the same address. -/
theorem C238_grow_counterexample {rebal : Tree → Tree} (hr : Keeps rebal) (mac : Nat) (ops : List Op) :
    (run rebal mac {} ops).tree.toList.length = since false 0 ops ∧
      ∀ k ∈ (run rebal mac {} ops).tree.toList, k.mac = mac := by
  have := (run_inv hr mac ops {} 0 rfl (fun _ => rfl)).2
  simp only at this
  rw [this]
  exact ⟨lastIds_length .., fun k hk => (lastIds_keys mac _ _ k hk).1⟩

/-- After two events the tree is not in order any more, however it is balanced: it holds a neighbor that is not
found. -/
theorem C238_search_counterexample {rebal : Tree → Tree} (hr : Keeps rebal) (mac : Nat) :
    ¬ Searchable (run rebal mac {} [.config true, .event, .event]).tree := by
  have hl := (run_inv hr mac [.config true, .event, .event] {} 0 rfl (fun _ => rfl)).2
  have hl : (run rebal mac {} [.config true, .event, .event]).tree.toList = [⟨mac, 1, 102⟩, ⟨mac, 1, 101⟩] := by
    rw [hl]; rfl
  generalize (run rebal mac {} [.config true, .event, .event]).tree = t at hl
  intro hs
  have h1 := hs ⟨mac, 1, 101⟩ (by rw [hl]; simp)
  have h2 := hs ⟨mac, 1, 102⟩ (by rw [hl]; simp)
  have l1 : less ⟨mac, 1, 101⟩ ⟨mac, 1, 102⟩ = true := by simp [less]
  have l2 : less ⟨mac, 1, 102⟩ ⟨mac, 1, 101⟩ = false := by simp [less]
  have fm : ∀ (t : Tree) (x k : Key), find x t = some k → k ∈ t.toList := by
    intro t x k
    induction t with
    | leaf => intro h; cases h
    | node l j r ihl ihr =>
      intro h
      simp only [find] at h
      split at h
      · simp [Tree.toList, ihl h]
      · split at h
        · simp [Tree.toList, ihr h]
        · injection h with h; simp [Tree.toList, h]
  cases t with
  | leaf => cases hl
  | node l k r =>
    simp only [Tree.toList] at hl
    cases hll : l.toList with
    | nil =>
      rw [hll] at hl
      injection hl with e1 e2
      subst e1
      simp only [find, l1] at h1
      have := fm l _ _ h1
      rw [hll] at this
      cases this
    | cons a as =>
      rw [hll] at hl
      injection hl with e1 e2
      cases as with
      | nil =>
        injection e2 with e2 e3
        subst e2
        simp only [find, l1, l2] at h2
        have := fm r _ _ h2
        rw [e3] at this
        cases this
      | cons b bs =>
        injection e2 with _ e3
        have := congrArg List.length e3
        simp at this

/-! ### Examples -/

example : Keeps id := fun _ => rfl
example : since false 0 [.config true, .event, .config false, .event, .config true, .event] = 1 ∧
    fired false [.config true, .event, .config false, .event, .config true, .event] = 2 := by decide
example : (run id 7 {} [.config true, .event, .config false, .event, .config true, .event]).tree.toList = [⟨7, 1, 102⟩] := by
  decide +kernel
example : (run id 7 {} [.config true, .event, .event, .event]).tree.toList = [⟨7, 1, 103⟩, ⟨7, 1, 102⟩, ⟨7, 1, 101⟩] := by
  decide +kernel
example : find ⟨7, 1, 102⟩ (run id 7 {} [.config true, .event, .event]).tree = none := by decide +kernel

end Verif.L2Gen
