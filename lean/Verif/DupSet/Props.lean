import Verif.DupSet.Lemmas
/-
Property theorems for the duplicate set (C06 - C08).
-/
namespace Verif.DupSet

/-! ## Specification vocabulary -/

/-- `s` lies `j` steps behind `c` on the circle of `n` sequence numbers (without or with one
wrap-around). -/
def Behind (n s c j : Nat) : Prop := s + j = c ∨ s + j = c + n

/-- An access to an entry: the sequence number and whether it is recorded (`add`) or only
queried (`test`). -/
abbrev Access := Nat × Bool

/-- one access -/
def step (k : Kind) (e : Entry) (a : Access) : Entry := (test k e a.1 a.2).2

/-- the entry after a history of accesses -/
def run (k : Kind) (e : Entry) (h : List Access) : Entry := h.foldl (step k) e

/-- The window is re-synchronised by this access: a number at least 32 behind the newest one
is nevertheless declared newest. -/
def ResetAt (k : Kind) (e : Entry) (a : Access) : Prop :=
  (test k e a.1 a.2).1 = .newest ∧ ∃ j, 32 ≤ j ∧ 2 * j ≤ k.size ∧ Behind k.size a.1 e.current j

/-- no access of the history re-synchronises the window -/
def NoReset (k : Kind) : Entry → List Access → Prop
  | _, [] => True
  | e, a :: h => ¬ ResetAt k e a ∧ NoReset k (step k e a) h

/-- number of steps from `a` forward to `b` on the circle of `n` numbers -/
def forward (n a b : Nat) : Nat := if a ≤ b then b - a else b + n - a

/-- how far the newest number moved forward during the history (in steps on the circle) -/
def totalAdvance (k : Kind) : Entry → List Access → Nat
  | _, [] => 0
  | e, a :: h =>
    forward k.size e.current (step k e a).current + totalAdvance k (step k e a) h

/-! ## Step lemmas -/

theorem size_ge (k : Kind) : 256 ≤ k.size ∧ k.size % 2 = 0 := by
  cases k <;> simp [Kind.size]

/-- complete case analysis of an access in terms of positions on the circle -/
theorem test_cases (k : Kind) (e : Entry) (s : Nat) (b : Bool) (hs : s < k.size)
    (he : e.current < k.size) :
    (s = e.current ∧ test k e s b = (.current, e)) ∨
    (∃ j, 32 ≤ j ∧ 2 * j ≤ k.size ∧ Behind k.size s e.current j ∧ s ≠ e.current ∧
      ((e.tooOld < 8 ∧ test k e s b = (.tooOld, { e with tooOld := e.tooOld + 1 })) ∨
       (8 ≤ e.tooOld ∧
        test k e s b = (.newest, { e with history := 1, tooOld := 0, current := s })))) ∨
    (∃ j, 0 < j ∧ j ≤ 31 ∧ Behind k.size s e.current j ∧
      ((e.history.testBit j = true ∧ test k e s b = (.duplicate, { e with tooOld := 0 })) ∨
       (e.history.testBit j = false ∧ test k e s b = (.new,
          if b then { e with tooOld := 0, history := e.history ||| (1 <<< j) }
          else { e with tooOld := 0 })))) ∨
    (∃ j, 0 < j ∧ 2 * j < k.size ∧ Behind k.size e.current s j ∧
      test k e s b = (.newest, if b then
          ⟨if 32 ≤ j then 1 else (e.history <<< j) % 2 ^ 64 ||| 1, s, 0, e.vtime⟩
        else { e with tooOld := 0 })) := by
  obtain ⟨hd1, hd2, hd3⟩ := seqnoDifference_spec k s e.current hs he
  obtain ⟨hn1, hn2⟩ := size_ge k
  have hn64 : k.size ≤ 2 ^ 64 := by cases k <;> decide
  by_cases hc : s = e.current
  · left; exact ⟨hc, by simp [test, hc]⟩
  right
  generalize hdef : seqnoDifference k s e.current = d at *
  generalize hN : k.size = n at *
  have hd0 : d ≠ 0 := by
    rintro rfl
    apply hc
    rw [Int.add_zero] at hd1
    have : (e.current : Int) % n = e.current := Int.emod_eq_of_lt (by omega) (by omega)
    omega
  -- position facts
  have hpos : ((e.current : Int) + d = s) ∨ ((e.current : Int) + d = s + n) ∨
      ((e.current : Int) + d = s - n) := by
    have h3 := Int.emod_add_mul_ediv ((e.current : Int) + d) n
    rw [hd1] at h3
    have hq1 : ((e.current : Int) + d) / n < 2 := Int.ediv_lt_of_lt_mul (by omega) (by omega)
    have hq2 : -1 ≤ ((e.current : Int) + d) / n := Int.le_ediv_of_mul_le (by omega) (by omega)
    generalize ((e.current : Int) + d) / n = q at *
    have : q = -1 ∨ q = 0 ∨ q = 1 := by omega
    rcases this with rfl | rfl | rfl
    · right; right; omega
    · left; omega
    · right; left; omega
  have hbehind : d < 0 → Behind n s e.current (-d).toNat := by
    intro h; unfold Behind; omega
  have hahead : 0 < d → Behind n e.current s d.toNat := by
    intro h; unfold Behind; omega
  by_cases hlt : d < -31
  · left
    refine ⟨(-d).toNat, by omega, by omega, hbehind (by omega), hc, ?_⟩
    by_cases ht : e.tooOld < 8
    · left
      refine ⟨ht, ?_⟩
      have : ¬ e.tooOld + 1 > maximumTooOld := by simp [maximumTooOld]; omega
      simp [test, hc, hdef, hlt, this]
    · right
      refine ⟨by omega, ?_⟩
      have : e.tooOld + 1 > maximumTooOld := by simp [maximumTooOld]; omega
      simp [test, hc, hdef, hlt, this]
  · right
    by_cases hle : d ≤ 0
    · left
      refine ⟨(-d).toNat, by omega, by omega, hbehind (by omega), ?_⟩
      cases hb : e.history.testBit (-d).toNat
      · right
        refine ⟨rfl, ?_⟩
        have : ¬ (e.history &&& (1 <<< (-d).toNat) ≠ 0) := by
          rw [and_shift_ne_zero]; simp [hb]
        simp only [test, hc, hdef, hlt, hle, if_true, if_false, this]
        cases b <;> simp
      · left
        refine ⟨rfl, ?_⟩
        have : (e.history &&& (1 <<< (-d).toNat) ≠ 0) := by
          rw [and_shift_ne_zero]; exact hb
        simp only [test, hc, hdef, hlt, hle, if_true, if_false, this, ne_eq, not_false_eq_true]
    · right
      refine ⟨d.toNat, by omega, by omega, hahead (by omega), ?_⟩
      have h32 : (d ≥ 32) ↔ 32 ≤ d.toNat := by omega
      simp only [test, hc, hdef, hlt, hle, if_false, h32]
      cases b <;> simp


/-- `s` is remembered at distance `lag` behind the newest number -/
def Remembered (k : Kind) (e : Entry) (s lag : Nat) : Prop :=
  Behind k.size s e.current lag ∧ (lag < 32 → e.history.testBit lag = true)

theorem step_current_lt (k : Kind) (e : Entry) (a : Access) (hs : a.1 < k.size)
    (he : e.current < k.size) : (step k e a).current < k.size := by
  obtain ⟨s, b⟩ := a
  simp only [step]
  rcases test_cases k e s b hs he with ⟨_, h⟩ | ⟨j, _, _, _, _, ⟨_, h⟩ | ⟨_, h⟩⟩ |
    ⟨j, _, _, _, ⟨_, h⟩ | ⟨_, h⟩⟩ | ⟨j, _, _, _, h⟩ <;> rw [h] <;> try exact he
  · exact hs
  · cases b <;> exact he
  · cases b
    · exact he
    · exact hs

theorem remembered_step (k : Kind) (e : Entry) (a : Access) (s lag : Nat) (ha : a.1 < k.size)
    (he : e.current < k.size) (hr : Remembered k e s lag) (hnr : ¬ ResetAt k e a)
    (hs : s < k.size)
    (hb : 2 * (lag + totalAdvance k e [a]) ≤ k.size) :
    Remembered k (step k e a) s (lag + totalAdvance k e [a]) := by
  obtain ⟨x, b⟩ := a
  obtain ⟨hr1, hr2⟩ := hr
  simp only [totalAdvance, Nat.add_zero] at hb ⊢
  simp only [step] at hb ⊢
  have same : ∀ e' : Entry, e'.current = e.current → (∀ i, e.history.testBit i = true →
      e'.history.testBit i = true) → Remembered k e' s (lag + forward k.size e.current e'.current) := by
    intro e' hc hh
    rw [hc]
    simp only [forward, Nat.le_refl, if_true, Nat.sub_self, Nat.add_zero]
    exact ⟨by rw [hc]; exact hr1, fun h => hh _ (hr2 h)⟩
  rcases test_cases k e x b ha he with ⟨_, h⟩ | ⟨j, h1, h2, h3, _, ⟨_, h⟩ | ⟨_, h⟩⟩ |
    ⟨j, _, _, _, ⟨_, h⟩ | ⟨_, h⟩⟩ | ⟨j, hj0, hj1, hj2, h⟩ <;> rw [h] at hb ⊢
  · exact same _ rfl (fun _ h => h)
  · exact same _ rfl (fun _ h => h)
  · exact absurd ⟨by rw [h], j, h1, h2, h3⟩ hnr
  · exact same _ rfl (fun _ h => h)
  · cases b
    · exact same _ rfl (fun _ h => h)
    · simp only [if_true]
      refine same ⟨_, _, _, _⟩ rfl ?_
      intro i hi
      simp only
      rw [or_shift_testBit, hi]; rfl
  · cases b
    · exact same _ rfl (fun _ h => h)
    · simp only [if_true] at hb ⊢
      have hadv : forward k.size e.current x = j := by
        unfold Behind at hj2
        unfold forward
        simp only at ha
        split <;> omega
      rw [hadv] at hb ⊢
      refine ⟨?_, ?_⟩
      · simp only at ha ⊢
        unfold Behind at hr1 hj2 ⊢
        omega
      · intro hlt
        have h32 : ¬ 32 ≤ j := by omega
        simp only [h32, if_false]
        rw [shift_testBit _ _ _ (by omega)]
        have : lag + j - j = lag := by omega
        rw [this, hr2 (by omega)]
        simp

theorem remembered_run (k : Kind) (h : List Access) (e : Entry) (s lag : Nat)
    (hh : ∀ a ∈ h, a.1 < k.size) (he : e.current < k.size) (hs : s < k.size)
    (hr : Remembered k e s lag) (hnr : NoReset k e h)
    (hb : 2 * (lag + totalAdvance k e h) ≤ k.size) :
    Remembered k (run k e h) s (lag + totalAdvance k e h) := by
  induction h generalizing e lag with
  | nil => simpa [run, totalAdvance] using hr
  | cons a h ih =>
    have ha := hh a (by simp)
    have hsplit : totalAdvance k e (a :: h) = totalAdvance k e [a] + totalAdvance k (step k e a) h := by
      simp [totalAdvance]
    rw [hsplit] at hb ⊢
    have h1 := remembered_step k e a s lag ha he hr hnr.1 hs (by omega)
    have := ih (step k e a) (lag + totalAdvance k e [a]) (fun a h => hh a (by simp [h]))
      (step_current_lt k e a ha he) h1 hnr.2 (by omega)
    rw [← Nat.add_assoc]
    exact this

theorem run_current_lt (k : Kind) (h : List Access) (e : Entry)
    (hh : ∀ a ∈ h, a.1 < k.size) (he : e.current < k.size) : (run k e h).current < k.size := by
  induction h generalizing e with
  | nil => exact he
  | cons a h ih =>
    exact ih (step k e a) (fun a h => hh a (by simp [h])) (step_current_lt k e a (hh a (by simp)) he)

/-- a recorded number is remembered -/
theorem accepted_remembered (k : Kind) (e : Entry) (s : Nat) (hs : s < k.size)
    (he : e.current < k.size)
    (hnew : isNew (test k e s true).1 = true) :
    ∃ lag ≤ 31, Remembered k (step k e (s, true)) s lag := by
  simp only [step]
  rcases test_cases k e s true hs he with ⟨_, h⟩ | ⟨j, h1, h2, h3, _, ⟨_, h⟩ | ⟨_, h⟩⟩ |
    ⟨j, hj0, hj1, hj2, ⟨_, h⟩ | ⟨_, h⟩⟩ | ⟨j, hj0, hj1, hj2, h⟩ <;> rw [h] at hnew ⊢ <;>
    try (simp [isNew] at hnew; done)
  · exact ⟨0, by omega, Or.inl rfl, fun _ => Nat.testBit_one_zero⟩
  · refine ⟨j, hj1, hj2, fun _ => ?_⟩
    simp only [if_true]
    rw [or_shift_testBit]; simp
  · refine ⟨0, by omega, Or.inl rfl, fun _ => ?_⟩
    simp only [if_true]
    split
    · decide
    · rw [shift_testBit _ _ _ (by omega)]; simp

/-- a remembered number is not accepted again -/
theorem remembered_not_new (k : Kind) (e : Entry) (s lag : Nat) (b : Bool) (hs : s < k.size)
    (he : e.current < k.size) (hr : Remembered k e s lag) (hlag : 2 * lag ≤ k.size)
    (hnr : ¬ ResetAt k e (s, b)) : isNew (test k e s b).1 = false := by
  obtain ⟨hr1, hr2⟩ := hr
  obtain ⟨hn1, hn2⟩ := size_ge k
  rcases test_cases k e s b hs he with ⟨_, h⟩ | ⟨j, h1, h2, h3, _, ⟨_, h⟩ | ⟨_, h⟩⟩ |
    ⟨j, hj0, hj1, hj2, ⟨_, h⟩ | ⟨hb, h⟩⟩ | ⟨j, hj0, hj1, hj2, h⟩ <;> try (rw [h]; rfl)
  · exact absurd ⟨by rw [h], j, h1, h2, h3⟩ hnr
  · exfalso
    have : lag = j := by unfold Behind at hr1 hj2; omega
    subst this
    rw [hr2 (by omega)] at hb; cases hb
  · exfalso
    unfold Behind at hr1 hj2
    omega

/-! ## C06 -/

/-- C06: once a number was recorded as new, no later access reports it as new again (neither
`add` nor `test`), for every history of accesses in between, as long as the window was not
re-synchronised and did not advance by (nearly) half the sequence number space. -/
theorem C06_no_double_accept (k : Kind) (e : Entry) (s : Nat) (h : List Access) (b : Bool)
    (he : e.current < k.size) (hs : s < k.size) (hh : ∀ a ∈ h, a.1 < k.size)
    (hnew : isNew (test k e s true).1 = true)
    (hquiet : NoReset k (step k e (s, true)) (h ++ [(s, b)]))
    (hadv : 2 * (31 + totalAdvance k (step k e (s, true)) h) ≤ k.size) :
    isNew (test k (run k (step k e (s, true)) h) s b).1 = false := by
  obtain ⟨lag, hlag, hr⟩ := accepted_remembered k e s hs he hnew
  have he1 := step_current_lt k e (s, true) hs he
  have split : ∀ (l : List Access) (e : Entry), NoReset k e (l ++ [(s, b)]) →
      NoReset k e l ∧ ¬ ResetAt k (run k e l) (s, b) := by
    intro l
    induction l with
    | nil => intro e h; exact ⟨trivial, h.1⟩
    | cons a l ih => intro e h; exact ⟨⟨h.1, (ih _ h.2).1⟩, (ih _ h.2).2⟩
  obtain ⟨q1, q2⟩ := split h _ hquiet
  have hr' := remembered_run k h _ s lag hh he1 hs hr q1 (by omega)
  exact remembered_not_new k _ s _ b hs (run_current_lt k h _ hh he1) hr' (by omega) q2

/-- C06 (creation): the same holds for the number with which an entry was created. -/
theorem C06_no_double_accept_first (k : Kind) (s vtime : Nat) (h : List Access) (b : Bool)
    (hs : s < k.size) (hh : ∀ a ∈ h, a.1 < k.size)
    (hquiet : NoReset k ⟨1, s, 0, vtime⟩ (h ++ [(s, b)]))
    (hadv : 2 * totalAdvance k ⟨1, s, 0, vtime⟩ h ≤ k.size) :
    isNew (test k (run k ⟨1, s, 0, vtime⟩ h) s b).1 = false := by
  have split : ∀ (l : List Access) (e : Entry), NoReset k e (l ++ [(s, b)]) →
      NoReset k e l ∧ ¬ ResetAt k (run k e l) (s, b) := by
    intro l
    induction l with
    | nil => intro e h; exact ⟨trivial, h.1⟩
    | cons a l ih => intro e h; exact ⟨⟨h.1, (ih _ h.2).1⟩, (ih _ h.2).2⟩
  obtain ⟨q1, q2⟩ := split h _ hquiet
  have hr : Remembered k ⟨1, s, 0, vtime⟩ s 0 := ⟨Or.inl rfl, fun _ => Nat.testBit_one_zero⟩
  have hr' := remembered_run k h _ s 0 hh hs hs hr q1 (by omega)
  exact remembered_not_new k _ s _ b hs (run_current_lt k h ⟨1, s, 0, vtime⟩ hh hs) hr' (by omega) q2

/-- numbers that were recorded as new during a history, starting from `acc` -/
def recorded (k : Kind) : Entry → List Access → List Nat → List Nat
  | _, [], acc => acc
  | e, a :: h, acc =>
    recorded k (step k e a) h
      (if isNew (test k e a.1 a.2).1 && (a.2 || decide ((test k e a.1 a.2).2.current ≠ e.current))
       then a.1 :: acc else acc)

/-- every bit of the window belongs to a recorded number -/
def Explained (k : Kind) (e : Entry) (acc : List Nat) : Prop :=
  e.current ∈ acc ∧ ∀ j, j < 32 → e.history.testBit j = true →
    ∃ s ∈ acc, s < k.size ∧ Behind k.size s e.current j

theorem explained_step (k : Kind) (e : Entry) (a : Access) (acc : List Nat) (ha : a.1 < k.size)
    (he : e.current < k.size) (hx : Explained k e acc) :
    Explained k (step k e a)
      (if isNew (test k e a.1 a.2).1 && (a.2 || decide ((test k e a.1 a.2).2.current ≠ e.current))
       then a.1 :: acc else acc) := by
  obtain ⟨x, b⟩ := a
  simp only [step]
  simp only at ha
  obtain ⟨hx1, hx2⟩ := hx
  obtain ⟨hn1, hn2⟩ := size_ge k
  have more : ∀ j, j < 32 → e.history.testBit j = true →
      ∃ s ∈ x :: acc, s < k.size ∧ Behind k.size s e.current j := by
    intro j hj hb
    obtain ⟨s, h1, h2⟩ := hx2 j hj hb
    exact ⟨s, List.mem_cons_of_mem _ h1, h2⟩
  rcases test_cases k e x b ha he with ⟨_, h⟩ | ⟨j, h1, h2, h3, hne, ⟨_, h⟩ | ⟨_, h⟩⟩ |
    ⟨j, hj0, hj1, hj2, ⟨_, h⟩ | ⟨hb, h⟩⟩ | ⟨j, hj0, hj1, hj2, h⟩ <;> rw [h]
  · exact ⟨hx1, hx2⟩
  · exact ⟨hx1, hx2⟩
  · have : (isNew .newest && (b || decide (x ≠ e.current))) = true := by simp [isNew, hne]
    simp only [this, if_true]
    refine ⟨by simp, ?_⟩
    intro i hi hb
    rw [Nat.testBit_one_eq_true_iff_self_eq_zero] at hb
    subst hb
    exact ⟨x, by simp, ha, Or.inl rfl⟩
  · exact ⟨hx1, hx2⟩
  · cases b
    · simp only [Bool.false_eq_true, if_false, isNew, Bool.false_or, ne_eq, not_true_eq_false,
        decide_false, Bool.and_false]
      exact ⟨hx1, hx2⟩
    · simp only [if_true, isNew, Bool.true_or, Bool.and_true]
      refine ⟨List.mem_cons_of_mem _ hx1, ?_⟩
      intro i hi hbit
      rw [or_shift_testBit, Bool.or_eq_true, decide_eq_true_iff] at hbit
      rcases hbit with hbit | rfl
      · exact more i hi hbit
      · exact ⟨x, by simp, ha, hj2⟩
  · cases b
    · simp only [Bool.false_eq_true, if_false, isNew, Bool.false_or, ne_eq, not_true_eq_false,
        decide_false, Bool.and_false]
      exact ⟨hx1, hx2⟩
    · simp only [if_true, isNew, Bool.true_or, Bool.and_true]
      refine ⟨by simp, ?_⟩
      intro i hi hbit
      by_cases h32 : 32 ≤ j
      · simp only [h32, if_true] at hbit
        rw [Nat.testBit_one_eq_true_iff_self_eq_zero] at hbit
        subst hbit
        exact ⟨x, by simp, ha, Or.inl rfl⟩
      · simp only [h32, if_false] at hbit
        rw [shift_testBit _ _ _ (by omega), Bool.or_eq_true, Bool.and_eq_true,
          decide_eq_true_iff, decide_eq_true_iff] at hbit
        rcases hbit with ⟨h1, h2⟩ | rfl
        · obtain ⟨s, m1, m2, m3⟩ := more (i - j) (by omega) h2
          refine ⟨s, m1, m2, ?_⟩
          unfold Behind at *
          simp only
          omega
        · exact ⟨x, by simp, ha, Or.inl rfl⟩

/-- C06 (no false positives): whatever the history, a number is reported as duplicate or
current only if it was recorded earlier. -/
theorem C06_duplicate_was_recorded (k : Kind) (s0 vtime : Nat) (h : List Access) (s : Nat) (b : Bool)
    (hs0 : s0 < k.size) (hs : s < k.size) (hh : ∀ a ∈ h, a.1 < k.size)
    (hdup : (test k (run k ⟨1, s0, 0, vtime⟩ h) s b).1 = .duplicate ∨
            (test k (run k ⟨1, s0, 0, vtime⟩ h) s b).1 = .current) :
    s ∈ recorded k ⟨1, s0, 0, vtime⟩ h [s0] := by
  have key : ∀ (h : List Access) (e : Entry) (acc : List Nat), (∀ a ∈ h, a.1 < k.size) →
      e.current < k.size → Explained k e acc →
      Explained k (run k e h) (recorded k e h acc) := by
    intro h
    induction h with
    | nil => intro e acc _ _ hx; exact hx
    | cons a h ih =>
      intro e acc hh he hx
      have ha := hh a (by simp)
      exact ih _ _ (fun a h => hh a (by simp [h])) (step_current_lt k e a ha he)
        (explained_step k e a acc ha he hx)
  have hx0 : Explained k ⟨1, s0, 0, vtime⟩ [s0] := by
    refine ⟨by simp, ?_⟩
    intro j _ hb
    rw [Nat.testBit_one_eq_true_iff_self_eq_zero] at hb
    subst hb
    exact ⟨s0, by simp, hs0, Or.inl rfl⟩
  have hx := key h ⟨1, s0, 0, vtime⟩ [s0] hh hs0 hx0
  have hc := run_current_lt k h ⟨1, s0, 0, vtime⟩ hh hs0
  generalize run k ⟨1, s0, 0, vtime⟩ h = e at *
  obtain ⟨hn1, hn2⟩ := size_ge k
  rcases test_cases k e s b hs hc with ⟨h1, _⟩ | ⟨j, h1, h2, h3, hne, ⟨_, h⟩ | ⟨_, h⟩⟩ |
    ⟨j, hj0, hj1, hj2, ⟨hbit, h⟩ | ⟨hb, h⟩⟩ | ⟨j, hj0, hj1, hj2, h⟩
  · rw [h1]; exact hx.1
  · rw [h] at hdup; simp at hdup
  · rw [h] at hdup; simp at hdup
  · obtain ⟨s', m1, m2, m3⟩ := hx.2 j (by omega) hbit
    have : s' = s := by unfold Behind at hj2 m3; omega
    rw [← this]; exact m1
  · rw [h] at hdup; simp at hdup
  · rw [h] at hdup; simp at hdup

/-- C06 (window): a number inside the 32 entry window or ahead of it is never "too old";
a number ahead of the newest one is always the newest; a number 32 or more behind is never
reported as an ordinary new or duplicate number. -/
theorem C06_window_bounds (k : Kind) (e : Entry) (s j : Nat) (b : Bool) (hs : s < k.size)
    (he : e.current < k.size) :
    (Behind k.size s e.current j → j ≤ 31 → (test k e s b).1 ≠ .tooOld ∧ (test k e s b).1 ≠ .newest) ∧
    (Behind k.size e.current s j → 0 < j → 2 * j < k.size → (test k e s b).1 = .newest) ∧
    (Behind k.size s e.current j → 32 ≤ j → 2 * j ≤ k.size →
      (test k e s b).1 = .tooOld ∨ ((test k e s b).1 = .newest ∧ 8 ≤ e.tooOld)) := by
  obtain ⟨hn1, hn2⟩ := size_ge k
  rcases test_cases k e s b hs he with ⟨h1, h⟩ | ⟨j', h1, h2, h3, hne, ⟨_, h⟩ | ⟨_, h⟩⟩ |
    ⟨j', hj0, hj1, hj2, ⟨hbit, h⟩ | ⟨hb, h⟩⟩ | ⟨j', hj0, hj1, hj2, h⟩ <;> rw [h] <;>
    unfold Behind at * <;> refine ⟨?_, ?_, ?_⟩ <;> intros <;> simp <;> omega

/-! ### set level -/

/-- C06: an operation on one (originator, type) key never affects another key. -/
theorem C06_keys_independent (kind : Kind) (s : Set) (key key' : Key) (seqno vtime : Nat)
    (hne : key' ≠ key) :
    (entryAdd kind s key seqno vtime).2 key' = s key' ∧
    (entryTest kind s key seqno).2 key' = s key' ∧
    expire s key key' = s key' := by
  refine ⟨?_, ?_, ?_⟩
  · simp only [entryAdd, Set.put]
    cases s key <;> simp [hne]
  · simp only [entryTest]
    cases s key <;> simp [Set.put, hne]
  · simp [expire, Set.put, hne]

/-- C06: the first number of a key is accepted and recorded; later numbers follow the window
logic; the validity time is refreshed exactly when a number is accepted. -/
theorem C06_entry_add (kind : Kind) (s : Set) (key : Key) (seqno vtime : Nat) :
    (s key = none → entryAdd kind s key seqno vtime =
      (.first, s.put key (some ⟨1, seqno, 0, vtime⟩))) ∧
    (∀ e, s key = some e →
      (entryAdd kind s key seqno vtime).1 = (test kind e seqno true).1 ∧
      ∃ e', (entryAdd kind s key seqno vtime).2 key = some e' ∧
        e'.current = (step kind e (seqno, true)).current ∧
        e'.history = (step kind e (seqno, true)).history ∧
        e'.tooOld = (step kind e (seqno, true)).tooOld ∧
        e'.vtime = if isNew (test kind e seqno true).1 then vtime else e.vtime) := by
  constructor
  · intro h; simp [entryAdd, h, isNew]
  · intro e h
    refine ⟨by simp [entryAdd, h], ?_⟩
    have hv : (test kind e seqno true).2.vtime = e.vtime := by
      simp only [test]; split
      · rfl
      · split
        · split <;> rfl
        · split
          · split <;> rfl
          · simp
    simp only [entryAdd, h, Set.put, if_true]
    refine ⟨_, rfl, ?_⟩
    simp only [step]
    split <;> simp_all

/-- C06: after the entry of a key timed out the next number is accepted as first. -/
theorem C06_expired_key_is_first (kind : Kind) (s : Set) (key : Key) (seqno vtime : Nat) :
    (entryAdd kind (expire s key) key seqno vtime).1 = .first := by
  simp [entryAdd, expire, Set.put]

example : NoReset .b16 ⟨1, 65530, 0, 7⟩ [(65534, true), (2, true), (65530, true)] ∧
    2 * totalAdvance .b16 ⟨1, 65530, 0, 7⟩ [(65534, true), (2, true)] ≤ Kind.b16.size ∧
    (test .b16 (run .b16 ⟨1, 65530, 0, 7⟩ [(65534, true), (2, true)]) 65530 true).1 = .duplicate := by
  refine ⟨⟨?_, ?_, ?_, trivial⟩, by decide +kernel, by decide +kernel⟩
  · rintro ⟨_, j, h1, h2, h3⟩
    simp [Behind, Kind.size] at *; omega
  · rintro ⟨_, j, h1, h2, h3⟩
    have : (step .b16 ⟨1, 65530, 0, 7⟩ (65534, true)).current = 65534 := by decide +kernel
    rw [this] at h3
    simp [Behind, Kind.size] at *; omega
  · rintro ⟨h, _⟩
    revert h; decide +kernel

/-! ## C07 -/

/-- C07: a run of numbers outside the window (all at least 32 behind the stored newest number)
is rejected at most eight times; then the window is re-synchronised to the sender's new number:
from a counter value `c ≤ 8` exactly `8 - c` numbers are rejected and the next one becomes the
newest. -/
theorem C07_restart_recovery (k : Kind) (e : Entry) (l : List Nat) (s : Nat)
    (he : e.current < k.size) (hc : e.tooOld + l.length = 8)
    (hl : ∀ x ∈ s :: l, x < k.size ∧ ∃ j, 32 ≤ j ∧ 2 * j ≤ k.size ∧ Behind k.size x e.current j) :
    (∀ p q x, l = p ++ x :: q →
      (test k (run k e (p.map (·, true))) x true).1 = .tooOld) ∧
    (test k (run k e (l.map (·, true))) s true).1 = .newest ∧
    (run k e ((l ++ [s]).map (·, true))).current = s ∧
    (run k e ((l ++ [s]).map (·, true))).history = 1 ∧
    (run k e ((l ++ [s]).map (·, true))).tooOld = 0 := by
  have old : ∀ (e : Entry) (x : Nat), e.current < k.size → x < k.size →
      (∃ j, 32 ≤ j ∧ 2 * j ≤ k.size ∧ Behind k.size x e.current j) →
      (e.tooOld < 8 → test k e x true = (.tooOld, { e with tooOld := e.tooOld + 1 })) ∧
      (8 ≤ e.tooOld → test k e x true = (.newest, { e with history := 1, tooOld := 0, current := x })) := by
    intro e x he hx ⟨j, h1, h2, h3⟩
    obtain ⟨hn1, hn2⟩ := size_ge k
    rcases test_cases k e x true hx he with ⟨h4, h⟩ | ⟨j', h4, h5, h6, hne, ⟨h7, h⟩ | ⟨h7, h⟩⟩ |
      ⟨j', hj0, hj1, hj2, h⟩ | ⟨j', hj0, hj1, hj2, h⟩
    · exfalso; unfold Behind at *; omega
    · exact ⟨fun _ => h, fun _ => by omega⟩
    · exact ⟨fun _ => by omega, fun _ => h⟩
    · exfalso; unfold Behind at *; omega
    · exfalso; unfold Behind at *; omega
  have pre : ∀ (p : List Nat) (e : Entry), e.current < k.size → e.tooOld + p.length ≤ 8 →
      (∀ x ∈ p, x < k.size ∧ ∃ j, 32 ≤ j ∧ 2 * j ≤ k.size ∧ Behind k.size x e.current j) →
      run k e (p.map (·, true)) = { e with tooOld := e.tooOld + p.length } := by
    intro p
    induction p with
    | nil => intro e _ _ _; rfl
    | cons x p ih =>
      intro e he hc hp
      simp only [List.length_cons] at hc
      have hx := hp x (by simp)
      have := (old e x he hx.1 hx.2).1 (by omega)
      simp only [List.map_cons, run, List.foldl_cons, step, this]
      have h2 := ih { e with tooOld := e.tooOld + 1 } he (by simp only; omega)
        (fun y hy => hp y (by simp [hy]))
      unfold run at h2
      rw [h2]
      simp only [List.length_cons]
      congr 1
      omega
  have hall := pre l e he (by omega) (fun x hx => hl x (by simp [hx]))
  have hs := hl s (by simp)
  have hlast := (old { e with tooOld := e.tooOld + l.length } s he hs.1 hs.2).2 (by simp only; omega)
  refine ⟨?_, ?_, ?_⟩
  · intro p q x hpq
    have hlen : l.length = p.length + (q.length + 1) := by rw [hpq]; simp
    rw [pre p e he (by omega) (fun y hy => hl y (by simp [hpq, hy]))]
    have hx := hl x (by simp [hpq])
    rw [(old { e with tooOld := e.tooOld + p.length } x he hx.1 hx.2).1 (by simp only; omega)]
  · rw [hall, hlast]
  · have : run k e ((l ++ [s]).map (·, true)) =
        { e with history := 1, tooOld := 0, current := s } := by
      have h3 : run k e ((l ++ [s]).map (·, true)) = step k (run k e (l.map (·, true))) (s, true) := by
        simp [run]
      rw [h3, hall]
      simp only [step, hlast]
    rw [this]
    exact ⟨rfl, rfl, rfl⟩

/-- C07: the rejection counter never exceeds 8, for every history, so the bound above applies
in every reachable state. -/
theorem C07_counter_bounded (k : Kind) (h : List Access) (e : Entry) (he : e.tooOld ≤ 8) :
    (run k e h).tooOld ≤ 8 := by
  induction h generalizing e with
  | nil => exact he
  | cons a h ih =>
    apply ih
    obtain ⟨s, b⟩ := a
    simp only [step, test]
    split
    · exact he
    · split
      · split
        · exact Nat.zero_le _
        · rename_i h; simp [maximumTooOld] at h ⊢; omega
      · split
        · split
          · exact Nat.zero_le _
          · split <;> exact Nat.zero_le _
        · split <;> exact Nat.zero_le _

example : (run .b16 ⟨1, 20000, 3, 7⟩ ([100, 101, 102, 103, 104, 105].map (·, true))).current = 105 ∧
    (run .b16 ⟨1, 20000, 3, 7⟩ ([100, 101, 102, 103, 104].map (·, true))).current = 20000 := by
  decide +kernel

/-! ## C08 -/

/-- C08 is false of the code: a pure query can move the window, so a number that was only
queried is afterwards treated as already received. -/
theorem C08_query_changes_set_counterexample :
    ∃ (s : Set) (key : Key) (seqno : Nat),
      isNew (entryAdd .b16 s key seqno 5).1 = true ∧
      isNew (entryAdd .b16 (entryTest .b16 s key seqno).2 key seqno 5).1 = false := by
  refine ⟨fun _ => some ⟨1, 20000, 8, 5⟩, ⟨[1], 1⟩, 100, ?_, ?_⟩ <;> decide +kernel

/-- C08 (what holds): a query never changes the recorded window, unless it is the ninth number
in a row outside of the window. -/
theorem C08_query_keeps_window_partial (k : Kind) (e : Entry) (s : Nat) (hs : s < k.size)
    (he : e.current < k.size) (hnr : ¬ ResetAt k e (s, false)) :
    (step k e (s, false)).current = e.current ∧ (step k e (s, false)).history = e.history ∧
    (step k e (s, false)).vtime = e.vtime := by
  simp only [step]
  rcases test_cases k e s false hs he with ⟨_, h⟩ | ⟨j, h1, h2, h3, _, ⟨_, h⟩ | ⟨_, h⟩⟩ |
    ⟨j, _, _, _, ⟨_, h⟩ | ⟨_, h⟩⟩ | ⟨j, hj0, hj1, hj2, h⟩ <;> try (rw [h]; exact ⟨rfl, rfl, rfl⟩)
  exact absurd ⟨by rw [h], j, h1, h2, h3⟩ hnr

/-- C08 (what holds): and the query answer is exactly what adding the number would answer. -/
theorem C08_query_predicts_add (k : Kind) (e : Entry) (s : Nat) :
    (test k e s false).1 = (test k e s true).1 := by
  simp only [test]
  split
  · rfl
  · split
    · split <;> rfl
    · split
      · split <;> rfl
      · rfl

example : ¬ ResetAt .b16 ⟨5, 1000, 3, 7⟩ (900, false) := by
  rintro ⟨h, _⟩; revert h; decide +kernel

end Verif.DupSet
