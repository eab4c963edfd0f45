import Verif.Metric.DatModel

/-
Packet loss in the metric plugin: C86, C87.
-/
namespace Verif.Metric

/-! ### Specification -/

/-- share of received packets in 1/1000, rounded down -/
def share (received total : Nat) : Nat := 1000 * received / total

/-- cost of the loss in 1/1000 without hysteresis: the inverse of the share, at most 8; a link that loses 7/8 of its packets or more costs 8 -/
def freshCost (received total : Nat) : Nat := if total < 8 * received then 1000000 / share received total else 8000

/-! ### Lemmas -/

theorem tdiv_nat (a b : Nat) : ((a : Int)).tdiv (b : Int) = ((a / b : Nat) : Int) := by
  rw [Int.tdiv_eq_ediv_of_nonneg (by omega)]; exact (Int.natCast_ediv a b).symm

theorem i64_eq (x : Int) (h : -9223372036854775808 ≤ x) (h' : x ≤ 9223372036854775807) : i64? x = some x := if_pos ⟨h, h'⟩

theorem probe_eq (received total : Nat) (h : received < 2 ^ 29) :
    probe received total = if total ≠ 0 ∧ total < 8 * received then some ((share received total : Nat) : Int) else none := by
  unfold probe SUCCESS_RANGE
  have e : u32 (received * 8) = 8 * received := by unfold u32; omega
  rw [e]
  by_cases hc : total ≠ 0 ∧ total < 8 * received
  · rw [if_pos hc, if_pos hc]
    have : (1000 * (received : Int)) = ((1000 * received : Nat) : Int) := by omega
    rw [this, tdiv_nat]
    rfl
  · rw [if_neg hc, if_neg hc]

theorem share_bounds (received total : Nat) (_h0 : total ≠ 0) (h : total < 8 * received) (hle : received ≤ total) :
    125 ≤ share received total ∧ share received total ≤ 1000 := by
  unfold share
  constructor
  · exact (Nat.le_div_iff_mul_le (by omega)).mpr (by omega)
  · have : 1000 * received / total ≤ 1000 * total / total := Nat.div_le_div_right (by omega)
    rw [Nat.mul_div_cancel _ (by omega)] at this
    exact this

theorem fresh_bounds (received total : Nat) (h0 : total ≠ 0) (hle : received ≤ total) : 1000 ≤ freshCost received total ∧ freshCost received total ≤ 8000 := by
  unfold freshCost
  split
  · rename_i h
    obtain ⟨h1, h2⟩ := share_bounds received total h0 h hle
    constructor
    · exact (Nat.le_div_iff_mul_le (by omega)).mpr (by omega)
    · have : 1000000 / share received total ≤ 1000000 / 125 := Nat.div_le_div_left h1 (by omega)
      omega
  · omega

theorem hysteresis_cases (last loss : Int) : (hysteresis last loss = loss) ∨
    (hysteresis last loss = last ∧ 1000 < loss ∧ loss < 8000 ∧ last - 100 ≤ loss ∧ loss ≤ last + 100) := by
  unfold hysteresis SUCCESS_RANGE
  split
  · rename_i h; exact Or.inr ⟨rfl, by omega⟩
  · exact Or.inl rfl

theorem hysteresis_mono (last a b : Int) (hl : 1000 ≤ last) (hl' : last ≤ 8000) (h : a ≤ b) : hysteresis last a ≤ hysteresis last b := by
  unfold hysteresis SUCCESS_RANGE
  split <;> split <;> omega

/-- the cost of a link without layer-2 data and with linear exponent -/
theorem lossCost_linear (nb : Nat) (last : Int) (received total : Nat) (hr : received < 2 ^ 29) (hle : received ≤ total) (ht : total ≠ 0) :
    lossCost .linear nb last received total none none =
      if total < 8 * received then some (hysteresis last (freshCost received total : Nat), hysteresis last (freshCost received total : Nat))
      else some (8000, last) := by
  unfold lossCost points pointProbe
  rw [probe_eq _ _ hr]
  by_cases hc : total < 8 * received
  · rw [if_pos ⟨ht, hc⟩, if_pos hc]
    obtain ⟨h1, h2⟩ := share_bounds received total ht hc hle
    have e : freshCost received total = 1000000 / share received total := if_pos hc
    rw [e]
    generalize share received total = s at *
    dsimp only
    unfold addPoint
    dsimp only
    rw [i64_eq _ (by omega) (by omega)]
    simp only [Option.map_some, Option.bind_some, pointBcLoss, pointRlq, Nat.zero_add, exponentOf, Nat.sub_self, power]
    rw [if_neg (by omega)]
    have e1 : ((0 : Int) + (s : Int)).tdiv ((1 : Nat) : Int) = (s : Int) := by
      rw [Int.zero_add, tdiv_nat, Nat.div_one]
    rw [e1]
    rw [if_neg (by omega)]
    have e2 : (1000 * 1000 : Int).tdiv (s : Int) = ((1000000 / s : Nat) : Int) := tdiv_nat 1000000 s
    rw [e2]
  · rw [if_neg (fun h => hc h.2), if_neg hc]
    simp [SUCCESS_RANGE, pointBcLoss, pointRlq]

/-! ### C86 -/

/-- C86: without layer-2 data and with the linear exponent the cost of the loss lies between 1 and 8 and differs by at most 0.1 from the
inverse of the share of received packets; the remembered value stays in the range as well. -/
theorem C86_cost_partial (nb : Nat) (last : Int) (received total : Nat) (hr : received < 2 ^ 29) (hle : received ≤ total) (ht : total ≠ 0)
    (hl : 1000 ≤ last) (hl' : last ≤ 8000) :
    ∃ cost last', lossCost .linear nb last received total none none = some (cost, last') ∧ 1000 ≤ cost ∧ cost ≤ 8000 ∧
      1000 ≤ last' ∧ last' ≤ 8000 ∧ cost - freshCost received total ≤ 100 ∧ freshCost received total - cost ≤ 100 := by
  rw [lossCost_linear nb last received total hr hle ht]
  obtain ⟨h1, h2⟩ := fresh_bounds received total ht hle
  by_cases hc : total < 8 * received
  · rw [if_pos hc]
    refine ⟨_, _, rfl, ?_⟩
    rcases hysteresis_cases last (freshCost received total : Nat) with h | ⟨h, h3⟩ <;> rw [h] <;> omega
  · rw [if_neg hc]
    refine ⟨_, _, rfl, ?_⟩
    have : freshCost received total = 8000 := if_neg hc
    omega

/-- C86: a link that receives at least as many of the packets never costs more. -/
theorem C86_monotone_partial (nb : Nat) (last : Int) (r r' total : Nat) (hr : r < 2 ^ 29) (hle : r ≤ total) (ht : total ≠ 0) (hrr : r' ≤ r)
    (hl : 1000 ≤ last) (hl' : last ≤ 8000) (a b a' b' : Int)
    (h : lossCost .linear nb last r total none none = some (a, b)) (h' : lossCost .linear nb last r' total none none = some (a', b')) :
    a ≤ a' := by
  rw [lossCost_linear nb last r total hr hle ht] at h
  rw [lossCost_linear nb last r' total (by omega) (by omega) ht] at h'
  obtain ⟨h1, h2⟩ := fresh_bounds r total ht hle
  obtain ⟨h1', h2'⟩ := fresh_bounds r' total ht (by omega)
  by_cases hc : total < 8 * r
  · rw [if_pos hc] at h
    cases h
    by_cases hc' : total < 8 * r'
    · rw [if_pos hc'] at h'
      cases h'
      apply hysteresis_mono _ _ _ hl hl'
      obtain ⟨g1, g2⟩ := share_bounds r' total ht hc' (by omega)
      have e : freshCost r total = 1000000 / share r total := if_pos hc
      have e' : freshCost r' total = 1000000 / share r' total := if_pos hc'
      have hs : share r' total ≤ share r total := Nat.div_le_div_right (by omega)
      have := Nat.div_le_div_left hs (show 0 < share r' total by omega) (a := 1000000)
      omega
    · rw [if_neg hc'] at h'
      cases h'
      rcases hysteresis_cases last (freshCost r total : Nat) with h | ⟨h, h3⟩ <;> rw [h] <;> omega
  · rw [if_neg hc] at h
    rw [if_neg (by omega)] at h'
    cases h; cases h'
    omega

/-- C86 is false for the other exponents: with the quadratic one a link that receives 13 of 100 packets costs more than seven times as much as a
link that receives 12; it is also far above 8. -/
theorem C86_monotone_counterexample :
    lossCost .quadratic 0 8000 13 100 none none = some (62500, 62500) ∧ lossCost .quadratic 0 8000 12 100 none none = some (8000, 8000) ∧
    lossCost .cubic 0 8000 18 100 none none = some (1000000, 1000000) ∧ lossCost .cubic 0 8000 17 100 none none = some (8000, 8000) := by
  decide +kernel

/-- C86 is false with layer-2 data: a quality of 0.001 reported for the link gives the cost 1000, a quality of 0 only 8. -/
theorem C86_layer2_counterexample :
    lossCost .linear 0 8000 0 32 none (some 1) = some (1000000, 1000000) ∧ lossCost .linear 0 8000 0 32 none (some 0) = some (8000, 8000) := by
  decide +kernel

theorem hysteresis_stable (last x : Int) : hysteresis (hysteresis last x) x = hysteresis last x := by
  rcases hysteresis_cases last x with h | ⟨h, h1⟩
  · rw [h]; unfold hysteresis; split <;> rfl
  · rw [h, h]

/-- C86: the cost is stable: a second sample with the same data gives the same cost and remembers the same value, for all exponents and with
any layer-2 data. -/
theorem C86_stable (e : Exponent) (nb : Nat) (last : Int) (received total : Nat) (bc rlq : Option Int) (cost last' : Int)
    (h : lossCost e nb last received total bc rlq = some (cost, last')) : lossCost e nb last' received total bc rlq = some (cost, last') := by
  unfold lossCost at h ⊢
  cases hp : points received total bc rlq with
  | none => rw [hp] at h; cases h
  | some q =>
    obtain ⟨sum, n⟩ := q
    rw [hp] at h
    dsimp only at h ⊢
    by_cases hn : n = 0
    · rw [if_pos hn] at h ⊢; cases h; rfl
    · rw [if_neg hn] at h ⊢
      cases hw : power (exponentOf e nb - 1) (sum.tdiv n) with
      | none => rw [hw] at h; cases h
      | some s =>
        rw [hw] at h
        dsimp only at h ⊢
        by_cases h0 : s = 0
        · rw [if_pos h0] at h ⊢; cases h; rfl
        · rw [if_neg h0] at h ⊢
          cases h
          rw [hysteresis_stable]

example : lossCost .linear 0 8000 28 32 none none = some (1142, 1142) := by decide +kernel
example : lossCost .linear 0 1142 27 32 none none = some (1142, 1142) := by decide +kernel
example : lossCost .linear 0 1142 24 32 none none = some (1333, 1333) := by decide +kernel

/-! ### C87 -/

/-- `s`/1000 to the power `e` in 1/1000, rounded down -/
def specPower (s e : Nat) : Nat := s ^ e / 1000 ^ (e - 1)

/-- C87: the linear and the quadratic exponent. -/
theorem C87_exponent_partial (s nb : Nat) (h : s ≤ 1000) :
    power (exponentOf .linear nb - 1) (s : Int) = some ((specPower s 1 : Nat) : Int) ∧
    power (exponentOf .quadratic nb - 1) (s : Int) = some ((specPower s 2 : Nat) : Int) := by
  constructor
  · simp [exponentOf, power, specPower]
  · have h1 : s * s ≤ 1000 * 1000 := Nat.mul_le_mul h h
    simp only [exponentOf, Nat.add_one_sub_one, power, specPower]
    have e : (s : Int) * (s : Int) = ((s * s : Nat) : Int) := (Int.natCast_mul _ _).symm
    rw [e, i64_eq _ (by omega) (by omega)]
    dsimp only
    have e2 : (((s * s : Nat) : Int)).tdiv 1000 = ((s * s / 1000 : Nat) : Int) := tdiv_nat (s * s) 1000
    rw [e2, Nat.pow_two, Nat.pow_one]

/-- C87 is false for the cubic exponent: the loop squares the result again. Half of the packets gives 1/16 instead of 1/8. -/
theorem C87_cubic_counterexample :
    power (exponentOf .cubic 0 - 1) 500 = some 62 ∧ specPower 500 3 = 125 ∧ specPower 500 4 = 62 := by decide +kernel

/-- C87: what the loop does in general: with `n` rounds it computes the power 2^n, rounded down in each round. -/
theorem C87_loop (n : Nat) : ∀ s : Nat, s ≤ 1000 → ∃ r : Nat, power n (s : Int) = some (r : Int) ∧ r ≤ s ∧ r * 1000 ^ (2 ^ n - 1) ≤ s ^ 2 ^ n := by
  induction n with
  | zero => intro s _; exact ⟨s, rfl, Nat.le_refl _, by simp⟩
  | succ n ih =>
    intro s h
    have h1 : s * s ≤ 1000 * 1000 := Nat.mul_le_mul h h
    have h2 : s * s ≤ 1000 * s := Nat.mul_le_mul_right _ h
    obtain ⟨r, g1, g2, g3⟩ := ih (s * s / 1000) (by omega)
    refine ⟨r, ?_, by omega, ?_⟩
    · unfold power
      have e : (s : Int) * (s : Int) = ((s * s : Nat) : Int) := (Int.natCast_mul _ _).symm
      rw [e, i64_eq _ (by omega) (by omega)]
      dsimp only
      have e2 : (((s * s : Nat) : Int)).tdiv 1000 = ((s * s / 1000 : Nat) : Int) := tdiv_nat (s * s) 1000
      rw [e2, g1]
    · have hp : 0 < 2 ^ n := Nat.pow_pos (by omega)
      have e : 2 ^ (n + 1) - 1 = (2 ^ n - 1) + 2 ^ n := by rw [Nat.pow_succ]; omega
      calc r * 1000 ^ (2 ^ (n + 1) - 1) = r * 1000 ^ (2 ^ n - 1) * 1000 ^ 2 ^ n := by rw [e, Nat.pow_add, Nat.mul_assoc]
        _ ≤ (s * s / 1000) ^ 2 ^ n * 1000 ^ 2 ^ n := Nat.mul_le_mul_right _ g3
        _ = (s * s / 1000 * 1000) ^ 2 ^ n := (Nat.mul_pow _ _ _).symm
        _ ≤ (s * s) ^ 2 ^ n := Nat.pow_le_pow_left (Nat.div_mul_le_self _ _) _
        _ = s ^ 2 ^ (n + 1) := by rw [← Nat.pow_two, ← Nat.pow_mul, Nat.pow_succ, Nat.mul_comm]

end Verif.Metric
