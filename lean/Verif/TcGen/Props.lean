import Verif.TcGen.Model
/-
C239: when TCs are generated.
-/
namespace Verif.TcGen

/-! ### Specification -/

/-- The firings of the timer so far, latest first: whether the router had something to advertise
(it was a multipoint relay or had attached networks). -/
inductive Reached : State → List Bool → Prop
  | start : Reached {} []
  | fired (s h p m l v4 v6) : Reached s h → s.timer = some p →
      Reached (step s (.fire m l v4 v6)).1 ((m || l) :: h)
  | other (s h e) : Reached s h → (∀ m l v4 v6, e ≠ .fire m l v4 v6) → Reached (step s e).1 h

/-- A TC is due: the router had something to advertise at one of the last `k + 1` firings, the present one included,
or there were at most `k` firings at all. -/
def Due (k : Nat) (h : List Bool) : Prop := true ∈ h.take (k + 1) ∨ h.length ≤ k

/-- The value in force: the override if there is one (not 0), otherwise the configured value. -/
def InForce (over cfg x : Nat) : Prop := (over ≠ 0 → x = over) ∧ (over = 0 → x = cfg)

/-- One message for each family with an originator, with these times. -/
def Messages (v4 v6 : Bool) (i v : Nat) : List Msg :=
  match v4, v6 with
  | false, false => []
  | true, false => [⟨false, i, v⟩]
  | false, true => [⟨true, i, v⟩]
  | true, true => [⟨false, i, v⟩, ⟨true, i, v⟩]

/-! ### Lemmas -/

/-- Firings without anything to advertise since the last one with. -/
def idle : List Bool → Nat
  | [] => 0
  | true :: _ => 0
  | false :: h => idle h + 1

theorem idle_le (h : List Bool) : idle h ≤ h.length := by
  induction h with
  | nil => simp [idle]
  | cons b h ih => cases b <;> simp [idle] ; omega

theorem due_iff (h : List Bool) : ∀ k, Due k h ↔ idle h ≤ k := by
  induction h with
  | nil => intro k; simp [Due, idle]
  | cons b h ih =>
    intro k
    cases b with
    | true => simp [Due, idle]
    | false =>
      cases k with
      | zero => simp [Due, idle]
      | succ k =>
        have := ih k
        simp only [Due] at this
        simp only [Due, idle, List.take_succ_cons, List.mem_cons, List.length_cons,
          Nat.add_le_add_iff_right, ← this]
        simp

theorem fire_count (s : State) (m l v4 v6 : Bool) :
    (fire s m l v4 v6).1.count = if m || l then 0 else (s.count + 1) % 2 ^ 64 := rfl

theorem other_count (s : State) (e : Event) (he : ∀ m l v4 v6, e ≠ .fire m l v4 v6) :
    (step s e).1.count = s.count := by
  cases e with
  | fire m l v4 v6 => exact absurd rfl (he m l v4 v6)
  | generate on => simp only [step, generate]; (repeat' split) <;> rfl
  | config ok i v f => simp only [step, config]; (repeat' split) <;> rfl
  | setInterval i => rfl
  | setValidity v => rfl
  | shutdown => rfl

theorem reached_count {s : State} {h : List Bool} (r : Reached s h) :
    h.length < 2 ^ 64 → s.count = idle h := by
  induction r with
  | start => intro _; rfl
  | fired s h p m l v4 v6 _ hp ih =>
    intro hl
    have hl' : h.length + 1 < 2 ^ 64 := hl
    have h1 := ih (by omega)
    have h2 := idle_le h
    simp only [step, hp, Option.isSome_some, if_true, fire_count]
    cases hb : (m || l) with
    | true => simp [idle]
    | false =>
      simp only [idle, h1]
      exact Nat.mod_eq_of_lt (by omega)
  | other s h e _ he ih => intro hl; rw [other_count s e he]; exact ih hl

theorem getInterval_inForce (s : State) : InForce s.overInterval s.cfgInterval (getInterval s) := by
  constructor <;> intro h <;> simp [getInterval, h]

theorem getValidity_inForce (s : State) : InForce s.overValidity s.cfgValidity (getValidity s) := by
  constructor <;> intro h <;> simp [getValidity, h]

theorem inForce_unique {o c x y : Nat} (hx : InForce o c x) (hy : InForce o c y) : x = y := by
  by_cases h : o = 0
  · rw [hx.2 h, hy.2 h]
  · rw [hx.1 h, hy.1 h]

theorem sendTc_eq (s : State) (v4 v6 : Bool) (hc : s.closed = false) :
    sendTc s v4 v6 = Messages v4 v6 (getInterval s) (getValidity s) := by
  cases v4 <;> cases v6 <;> simp [sendTc, hc, Messages]

/-! ### Theorems -/

/-- When the timer fires, TCs are sent exactly if one is due, one for each family with an originator, with the
interval and the validity in force. -/
theorem C239_sends (s : State) (h : List Bool) (p i v : Nat) (m l v4 v6 : Bool) (r : Reached s h)
    (hl : h.length + 1 < 2 ^ 64) (hp : s.timer = some p) (hc : s.closed = false)
    (hi : InForce s.overInterval s.cfgInterval i) (hv : InForce s.overValidity s.cfgValidity v) :
    (Due s.factor ((m || l) :: h) → (step s (.fire m l v4 v6)).2 = Messages v4 v6 i v) ∧
    (¬ Due s.factor ((m || l) :: h) → (step s (.fire m l v4 v6)).2 = []) := by
  have hcnt := reached_count (Reached.fired s h p m l v4 v6 r hp) (by simpa using hl)
  rw [inForce_unique hi (getInterval_inForce s), inForce_unique hv (getValidity_inForce s), due_iff]
  simp only [step, hp, Option.isSome_some, if_true] at hcnt ⊢
  rw [← hcnt]
  constructor
  · intro hd
    simp only [fire] at hd ⊢
    rw [if_pos hd]
    exact sendTc_eq _ v4 v6 hc
  · intro hd
    simp only [fire] at hd ⊢
    rw [if_neg hd]

/-- `n` firings without anything to advertise. -/
def quiet (n : Nat) : List Event := List.replicate n (.fire false false true false)

theorem quiet_aux (n : Nat) : ∀ s : State, s.timer.isSome = true → s.closed = false → s.count + n < 2 ^ 64 →
    (run s (quiet n)).2.length = min n (s.factor - s.count) := by
  induction n with
  | zero => intro s _ _ _; simp [quiet, run]
  | succ n ih =>
    intro s ht hc hn
    have hm : (s.count + 1) % 2 ^ 64 = s.count + 1 := Nat.mod_eq_of_lt (by omega)
    have e : run s (quiet (n + 1)) =
        ((run (step s (.fire false false true false)).1 (quiet n)).1,
          (step s (.fire false false true false)).2 ++ (run (step s (.fire false false true false)).1 (quiet n)).2) := rfl
    have h1 : (step s (.fire false false true false)).1 = { s with count := s.count + 1 } := by
      simp [step, ht, fire, hm]
    have h2 : (step s (.fire false false true false)).2.length = if s.count + 1 ≤ s.factor then 1 else 0 := by
      simp only [step, ht, if_true, fire, Bool.or_self, Bool.false_eq_true, if_false, hm]
      split <;> simp [sendTc, hc]
    have h3 := ih { s with count := s.count + 1 } ht hc (by show s.count + 1 + n < 2 ^ 64; omega)
    rw [e]
    simp only [List.length_append, h2, h1, h3]
    split <;> omega

/-- After the last firing with something to advertise, exactly as many further TCs follow as the configured factor
says (or as there are firings). -/
theorem C239_trailing (s : State) (p n : Nat) (m l v4 v6 : Bool) (hml : m = true ∨ l = true)
    (hp : s.timer = some p) (hc : s.closed = false) (hn : n < 2 ^ 64) :
    (run (step s (.fire m l v4 v6)).1 (quiet n)).2.length = min n s.factor := by
  have hb : (m || l) = true := by rcases hml with h | h <;> simp [h]
  have h1 : (step s (.fire m l v4 v6)).1 = { s with count := 0 } := by simp [step, hp, fire, hb]
  have h2 := quiet_aux n { s with count := 0 } (by simp [hp]) hc (by simpa using hn)
  rw [h1]
  exact h2

/-- After the generation is switched off nothing is sent until it is switched on again or the configuration changes. -/
theorem C239_off_partial (s : State) (es : List Event)
    (he : ∀ e ∈ es, e ≠ .generate true ∧ ∀ ok i v f, e ≠ .config ok i v f) :
    (run (step s (.generate false)).1 es).2 = [] := by
  have h0 : (step s (.generate false)).1.timer = none := by
    cases h : s.timer <;> simp [step, generate, h]
  generalize (step s (.generate false)).1 = t at h0
  induction es generalizing t with
  | nil => rfl
  | cons e es ih =>
    have h1 := he e (by simp)
    have hs : (step t e).1.timer = none ∧ (step t e).2 = [] := by
      cases e with
      | generate on =>
        cases on with
        | true => exact absurd rfl h1.1
        | false => simp [step, generate, h0]
      | config ok i v f => exact absurd rfl (h1.2 ok i v f)
      | fire m l v4 v6 => simp [step, h0]
      | setInterval i => exact ⟨h0, rfl⟩
      | setValidity v => exact ⟨h0, rfl⟩
      | shutdown => exact ⟨h0, rfl⟩
    simp only [run, hs.2, List.nil_append]
    exact ih (fun e h => he e (by simp [h])) _ hs.1

/-- The claim without the exception is false: any change of the configuration switches the generation on again. -/
theorem C239_off_counterexample (s : State) (i v f : Nat) (hi : i ≠ 0) (ho : s.overInterval = 0)
    (hc : s.closed = false) :
    (run s [.generate false, .config true i v f, .fire true false true false]).2 ≠ [] := by
  cases h : s.timer <;>
    simp [run, step, generate, config, timerSet, fire, sendTc, h, hi, ho, hc]

/-- After the shutdown has begun nothing is sent any more. -/
theorem C239_shutdown (s : State) (es : List Event) : (run (step s .shutdown).1 es).2 = [] := by
  have h0 : (step s .shutdown).1.closed = true := rfl
  generalize (step s .shutdown).1 = t at h0
  induction es generalizing t with
  | nil => rfl
  | cons e es ih =>
    have hs : (step t e).1.closed = true ∧ (step t e).2 = [] := by
      cases e with
      | generate on => simp only [step, generate]; (repeat' split) <;> exact ⟨h0, by trivial⟩
      | config ok i v f => simp only [step, config]; (repeat' split) <;> exact ⟨h0, by trivial⟩
      | fire m l v4 v6 =>
        simp only [step, fire]
        split
        · refine ⟨h0, ?_⟩
          simp [sendTc, h0]
        · exact ⟨h0, rfl⟩
      | setInterval i => exact ⟨h0, rfl⟩
      | setValidity v => exact ⟨h0, rfl⟩
      | shutdown => exact ⟨rfl, rfl⟩
    simp only [run, hs.2, List.nil_append]
    exact ih _ hs.1

/-- The setters return the value they replace and change nothing else; a value of 0 ends the override. -/
theorem C239_set (s : State) (x : Nat) :
    (setInterval s x).2 = s.overInterval ∧ (setValidity s x).2 = s.overValidity ∧
    (x ≠ 0 → getInterval (setInterval s x).1 = x ∧ getValidity (setValidity s x).1 = x) ∧
    getInterval (setInterval s 0).1 = s.cfgInterval ∧ getValidity (setValidity s 0).1 = s.cfgValidity ∧
    getValidity (setInterval s x).1 = getValidity s ∧ getInterval (setValidity s x).1 = getInterval s ∧
    (setInterval (setInterval s x).1 (setInterval s x).2).1 = s ∧
    (setValidity (setValidity s x).1 (setValidity s x).2).1 = s := by
  refine ⟨rfl, rfl, fun h => ?_, rfl, rfl, rfl, rfl, rfl, rfl⟩
  simp [getInterval, getValidity, setInterval, setValidity, h]

/-- Switching the generation off and on makes the interval in force the period of the timer. -/
theorem C239_restart (s : State) (i : Nat) (hi : InForce s.overInterval s.cfgInterval i) (h0 : i ≠ 0) :
    (run s [.generate false, .generate true]).1.timer = some i := by
  have e := inForce_unique hi (getInterval_inForce s)
  subst e
  have h1 : getInterval { s with timer := none } = getInterval s := rfl
  cases h : s.timer with
  | none =>
    simp [run, step, generate, h, timerSet, h0]
  | some p =>
    simp [run, step, generate, h, h1, timerSet, h0]

/-- As long as the interval is not overridden and the configuration can be converted, TCs are sent with the period
they announce. -/
theorem C239_period_partial (es : List Event) (p : Nat)
    (he : ∀ e ∈ es, (∀ i, e ≠ .setInterval i) ∧ ∀ i v f, e ≠ .config false i v f)
    (hp : (run {} es).1.timer = some p) : p = getInterval (run {} es).1 := by
  suffices H : ∀ (es : List Event) (t : State),
      (∀ e ∈ es, (∀ i, e ≠ .setInterval i) ∧ ∀ i v f, e ≠ .config false i v f) →
      t.overInterval = 0 → (∀ p, t.timer = some p → p = t.cfgInterval) →
      (run t es).1.overInterval = 0 ∧ ∀ p, (run t es).1.timer = some p → p = (run t es).1.cfgInterval by
    obtain ⟨h1, h2⟩ := H es {} he rfl (fun p h => nomatch h)
    rw [h2 p hp, getInterval, h1]
    rfl
  intro es
  induction es with
  | nil => intro t _ h1 h2; exact ⟨h1, h2⟩
  | cons e es ih =>
    intro t he h1 h2
    have h3 := he e (by simp)
    have hs : (step t e).1.overInterval = 0 ∧ ∀ p, (step t e).1.timer = some p → p = (step t e).1.cfgInterval := by
      cases e with
      | generate on =>
        simp only [step, generate]
        split
        · refine ⟨h1, fun p h => ?_⟩
          have hg : getInterval t = t.cfgInterval := by simp [getInterval, h1]
          simp only [timerSet, hg] at h
          split at h
          · exact nomatch h
          · exact (Option.some.inj h).symm
        · split
          · exact ⟨h1, fun p h => nomatch h⟩
          · exact ⟨h1, h2⟩
      | config ok i v f =>
        cases ok with
        | false => exact absurd rfl (h3.2 i v f)
        | true =>
          simp only [step, config, Bool.not_true, Bool.false_eq_true, if_false, h1, beq_self_eq_true, if_true]
          refine ⟨trivial, fun p h => ?_⟩
          simp only [timerSet] at h
          split at h
          · exact nomatch h
          · exact (Option.some.inj h).symm
      | fire m l v4 v6 =>
        simp only [step]
        split
        · exact ⟨h1, h2⟩
        · exact ⟨h1, h2⟩
      | setInterval i => exact absurd rfl (h3.1 i)
      | setValidity v => exact ⟨h1, h2⟩
      | shutdown => exact ⟨h1, h2⟩
    exact ih _ (fun e h => he e (by simp [h])) hs.1 hs.2

/-- With an override the claim is false: the running timer keeps its period, whatever interval is set, and the TCs
announce the new one. -/
theorem C239_period_counterexample (s : State) (p i : Nat) (hp : s.timer = some p) (hi : i ≠ 0) (hip : i ≠ p)
    (hc : s.closed = false) :
    let r := run s [.setInterval i, .fire true false true false]
    r.1.timer = some p ∧ ∃ m, r.2 = [m] ∧ m.interval = i ∧ m.interval ≠ p := by
  refine ⟨by simp [run, step, setInterval, fire, hp], ⟨false, i, getValidity s⟩, ?_, rfl, hip⟩
  simp [run, step, setInterval, fire, hp, sendTc, hc, getInterval, hi, getValidity]

/-- While the interval is overridden a change of the configuration leaves the timer alone: it neither changes its
period nor starts the generation. -/
theorem C239_override (s : State) (ok : Bool) (i v f : Nat) (ho : s.overInterval ≠ 0) :
    (step s (.config ok i v f)).1.timer = s.timer := by
  cases ok <;> simp [step, config, ho]

/-- A configuration which cannot be converted leaves the timer alone as well. -/
theorem C239_failed (s : State) (i v f : Nat) : (step s (.config false i v f)).1.timer = s.timer := rfl

/-- Switching the generation on while it runs changes nothing. -/
theorem C239_on (s : State) (p : Nat) (hp : s.timer = some p) : step s (.generate true) = (s, []) := by
  simp [step, generate, hp]

/-- The timer never runs with a period of 0. -/
theorem C239_positive (es : List Event) : (run {} es).1.timer ≠ some 0 := by
  have hset : ∀ i, timerSet i ≠ some 0 := by
    intro i h
    simp only [timerSet] at h
    split at h
    · exact nomatch h
    · exact absurd (Option.some.inj h) ‹_›
  suffices H : ∀ (es : List Event) (t : State), t.timer ≠ some 0 → (run t es).1.timer ≠ some 0 from
    H es {} (fun h => nomatch h)
  intro es
  induction es with
  | nil => intro t h; exact h
  | cons e es ih =>
    intro t h
    refine ih _ ?_
    cases e with
    | generate on =>
      simp only [step, generate]
      split
      · exact hset _
      · split
        · exact fun h => nomatch h
        · exact h
    | config ok i v f =>
      simp only [step, config]
      split
      · exact h
      · split
        · exact hset _
        · exact h
    | fire m l v4 v6 => simp only [step]; split <;> exact h
    | setInterval i => exact h
    | setValidity v => exact h
    | shutdown => exact h

/-! ### Examples -/

/-- A running router with factor 3. -/
def up : State := (step {} (.config true 5000 300000 3)).1

theorem up_reached : Reached up [] := Reached.other _ _ _ .start (by simp)

example : up.timer = some 5000 ∧ up.closed = false ∧ InForce up.overInterval up.cfgInterval 5000 ∧
    InForce up.overValidity up.cfgValidity 300000 := by
  refine ⟨rfl, rfl, ⟨fun h => absurd rfl h, fun _ => rfl⟩, ⟨fun h => absurd rfl h, fun _ => rfl⟩⟩

/-- A router that never has anything to advertise sends three TCs and is silent then. -/
example : (run up (quiet 6)).2.length = 3 := by decide +kernel

example : Reached (run up (quiet 2)).1 [false, false] :=
  .fired _ _ 5000 false false true false (.fired _ _ 5000 false false true false up_reached rfl) rfl

example : Due 3 [false, false, true, false] ∧ ¬ Due 3 [false, false, false, false, true] := by
  constructor
  · left; decide
  · rintro (h | h)
    · revert h; decide
    · revert h; decide

example : (run up [.fire true false true true]).2 = Messages true true 5000 300000 := by decide +kernel

example : (run (step up (.fire false true true false)).1 (quiet 7)).2.length = 3 := by decide +kernel

example : (run up [.generate false, .fire true true true true, .setInterval 7, .fire true true true true]).2 = [] := by
  decide +kernel

example : (run up [.generate false, .config true 5000 300000 3, .fire true true true false]).2.length = 1 := by
  decide +kernel

example : (run up [.shutdown, .fire true true true true, .generate true]).2 = [] := by decide +kernel

example : (run up [.setInterval 1000, .generate false, .generate true]).1.timer = some 1000 := by decide +kernel

example : (run {} [.config true 5000 300000 3, .generate false, .generate true, .config true 2000 9000 3]).1.timer
    = some 2000 := by decide +kernel

example : (run up [.setInterval 1000, .config true 2000 300000 3]).1.timer = some 5000 := by decide +kernel

example : (run up [.config false 100 100 1]).1.timer = some 5000 ∧ (run up [.generate true]).1 = up := by decide +kernel

/-- Switched on before the first configuration, the timer does not start. -/
example : (run {} [.generate true]).1.timer = none := by decide +kernel

end Verif.TcGen
