import Verif.Codec.Model
/-
Helper lemmas for the codec properties.
-/
namespace Verif.Codec

theorem timeDecode_formula (c : Nat) (h0 : 0 < c) (h1 : c < 255) :
    timeDecode c = (1000 + 125 * (c % 8)) * 2 ^ (c / 8) / 1024 := by
  have : ∀ c, c < 255 → 0 < c →
      timeDecode c = (1000 + 125 * (c % 8)) * 2 ^ (c / 8) / 1024 := by decide +kernel
  exact this c h1 h0

theorem timeDecode_step : ∀ c, c < 255 → timeDecode c ≤ timeDecode (c + 1) := by decide +kernel

theorem timeDecode_mono {c d : Nat} (h : c ≤ d) (hd : d ≤ 255) : timeDecode c ≤ timeDecode d := by
  induction d with
  | zero => have : c = 0 := by omega
            subst this; exact Nat.le_refl _
  | succ n ih =>
    by_cases hc : c = n + 1
    · subst hc; exact Nat.le_refl _
    · exact Nat.le_trans (ih (by omega) (by omega)) (timeDecode_step n (by omega))

theorem timeDecode_high : ∀ k, k < 22 → ∀ a, a < 8 → (a + 8 * k ≠ 175) →
    timeDecode (a + (10 + k) * 8) = (1000 + 125 * a) * 2 ^ k := by decide +kernel

theorem timeHalve_spec (fuel d b : Nat) (h : d ≤ 1875 * 2 ^ fuel) :
    ∃ k, (timeHalve fuel d b).2 = b + k ∧ (timeHalve fuel d b).1 ≤ 1875 ∧
      d ≤ (timeHalve fuel d b).1 * 2 ^ k ∧ (timeHalve fuel d b).1 * 2 ^ k < d + 2 ^ k ∧
      (k = 0 ∨ ∃ j, k = j + 1 ∧ 1875 * 2 ^ j < d) := by
  induction fuel generalizing d b with
  | zero => exact ⟨0, by simp [timeHalve]; omega⟩
  | succ n ih =>
    unfold timeHalve
    by_cases hd : d > 1875
    · simp only [hd, if_true]
      obtain ⟨k, h1, h2, h3, h4, h5⟩ := ih ((d + 1) / 2) (b + 1) (by
        rw [Nat.pow_succ] at h; omega)
      refine ⟨k + 1, by omega, h2, ?_, ?_, ?_⟩
      · rw [Nat.pow_succ, ← Nat.mul_assoc]; omega
      · rw [Nat.pow_succ, ← Nat.mul_assoc]; omega
      · right
        rcases h5 with h5 | ⟨j, h5, h6⟩
        · subst h5; exact ⟨0, rfl, by omega⟩
        · exact ⟨j + 1, by omega, by rw [Nat.pow_succ]; omega⟩
    · simp only [hd, if_false]
      exact ⟨0, by simp; omega⟩

theorem timeEncode_low : ∀ t, t < 1000 → 0 < t →
    timeEncode t < 256 ∧ t ≤ timeDecode (timeEncode t) ∧ 0 < timeEncode t ∧
      timeDecode (timeEncode t - 1) < t := by decide +kernel

theorem timeEncode_high (t : Nat) (h0 : 1000 ≤ t) (h1 : t ≤ timeMax) :
    timeEncode t < 256 ∧ t ≤ timeDecode (timeEncode t) ∧ 0 < timeEncode t ∧
      timeDecode (timeEncode t - 1) < t := by
  obtain ⟨k, hk, hd, hle, hlt, hmin⟩ := timeHalve_spec 64 t 10 (by simp [timeMax] at h1; omega)
  have hE : timeEncode t = (((timeHalve 64 t 10).1 + (2 ^ 64 - 1000) + 124) % 2 ^ 64 / 125
      + (timeHalve 64 t 10).2 * 8) % 256 := by
    unfold timeEncode
    have a1 : ¬ t < timeMin := by simp [timeMin]; omega
    have a2 : ¬ t > timeMax := by omega
    simp [a1, a2, h0]
  generalize (timeHalve 64 t 10).1 = d at *
  rw [hk] at hE
  have hk22 : k < 22 := by
    rcases Nat.lt_or_ge k 22 with h | h
    · exact h
    · exfalso
      simp [timeMax] at h1
      rcases hmin with h | ⟨j, hj, h⟩
      · omega
      · have : 2 ^ 21 ≤ 2 ^ j := Nat.pow_le_pow_right (by omega) (by omega)
        omega
  have hd2 : 938 ≤ d := by
    rcases hmin with h | h
    · subst h; omega
    · obtain ⟨j, hj, h⟩ := h
      subst hj
      have h3 : 1875 * 2 ^ j < (d * 2) * 2 ^ j := by
        rw [Nat.pow_succ, ← Nat.mul_assoc, Nat.mul_right_comm] at hle
        omega
      have := Nat.lt_of_mul_lt_mul_right h3
      omega
  generalize ha : (d + (2 ^ 64 - 1000) + 124) % 2 ^ 64 / 125 = a at hE
  have ha' : a = (d - 876) / 125 := by omega
  have ha8 : a < 8 := by omega
  have hE' : timeEncode t = a + (10 + k) * 8 := by omega
  have hne : a + 8 * k ≠ 175 := by
    intro hc
    have hk : k = 21 := by omega
    have ha7 : a = 7 := by omega
    subst hk
    simp [timeMax] at h1
    omega
  refine ⟨by omega, ?_, by omega, ?_⟩
  · rw [hE', timeDecode_high k hk22 a ha8 hne]
    refine Nat.le_trans hle ?_
    exact Nat.mul_le_mul_right _ (by omega)
  · rw [hE']
    rcases Nat.eq_zero_or_pos a with h | h
    · rw [h]
      rcases Nat.eq_zero_or_pos k with hk0 | hk0
      · subst hk0
        have : timeDecode 79 = 937 := by decide +kernel
        rw [show 0 + (10 + 0) * 8 - 1 = 79 from rfl]
        omega
      · have : 0 + (10 + k) * 8 - 1 = 7 + (10 + (k - 1)) * 8 := by omega
        rw [this, timeDecode_high (k - 1) (by omega) 7 (by omega) (by omega)]
        rcases hmin with hm | ⟨j, hj, hm⟩
        · omega
        · subst hj
          simp only [Nat.add_sub_cancel]
          omega
    · have : a + (10 + k) * 8 - 1 = (a - 1) + (10 + k) * 8 := by omega
      rw [this, timeDecode_high k hk22 (a - 1) (by omega) (by omega)]
      have h2 : 1000 + 125 * (a - 1) + 1 ≤ d := by omega
      have := Nat.mul_le_mul_right (2 ^ k) h2
      rw [Nat.add_mul] at this
      omega

theorem timeEncode_spec (t : Nat) (h0 : 0 < t) (h1 : t ≤ timeMax) :
    timeEncode t < 256 ∧ t ≤ timeDecode (timeEncode t) ∧ 0 < timeEncode t ∧
      timeDecode (timeEncode t - 1) < t := by
  rcases Nat.lt_or_ge t 1000 with h | h
  · exact timeEncode_low t h h0
  · exact timeEncode_high t h h1

/-! ### metric -/

theorem metricHalve_spec (fuel d b : Nat) (h : d ≤ 512 * 2 ^ fuel) :
    ∃ k, (metricHalve fuel d b).2 = b + k ∧ (metricHalve fuel d b).1 ≤ 512 ∧
      d ≤ (metricHalve fuel d b).1 * 2 ^ k ∧ (metricHalve fuel d b).1 * 2 ^ k < d + 2 ^ k ∧
      (k = 0 ∨ ∃ j, k = j + 1 ∧ 512 * 2 ^ j < d) := by
  induction fuel generalizing d b with
  | zero => exact ⟨0, by simp [metricHalve]; omega⟩
  | succ n ih =>
    unfold metricHalve
    by_cases hd : d > 512
    · simp only [hd, if_true]
      obtain ⟨k, h1, h2, h3, h4, h5⟩ := ih ((d + 1) / 2) (b + 1) (by
        rw [Nat.pow_succ] at h; omega)
      refine ⟨k + 1, by omega, h2, ?_, ?_, ?_⟩
      · rw [Nat.pow_succ, ← Nat.mul_assoc]; omega
      · rw [Nat.pow_succ, ← Nat.mul_assoc]; omega
      · right
        rcases h5 with h5 | ⟨j, h5, h6⟩
        · subst h5; exact ⟨0, rfl, by omega⟩
        · exact ⟨j + 1, by omega, by rw [Nat.pow_succ]; omega⟩
    · simp only [hd, if_false]
      exact ⟨0, by simp; omega⟩

/-- the encoder in closed form: `m + 256` is covered by `257 + b` units of `2^a`, and by
no smaller combination -/
theorem metricEncode_spec (m : Nat) (h0 : 0 < m) (h1 : m ≤ metricMax) :
    ∃ a b, metricEncode m = some ⟨a, b⟩ ∧ a < 16 ∧ b < 256 ∧
      m + 256 ≤ (257 + b) * 2 ^ a ∧ (256 + b) * 2 ^ a < m + 256 := by
  have hm : m ≤ 16776960 := by simpa [metricMax] using h1
  obtain ⟨k, hk, hd, hle, hlt, hmin⟩ := metricHalve_spec 32 (m + 256) 0 (by omega)
  have hE : metricEncode m = some ⟨(metricHalve 32 (m + 256) 0).2 % 256,
      ((metricHalve 32 (m + 256) 0).1 + (2 ^ 32 - 257)) % 2 ^ 32 % 256⟩ := by
    unfold metricEncode
    have a1 : ¬ (m < metricMin ∨ m ≥ metricInfinite) := by simp [metricMin, metricInfinite]; omega
    have a2 : ¬ m > metricMax := by omega
    simp [a1, a2]
  generalize (metricHalve 32 (m + 256) 0).1 = d at *
  rw [hk] at hE
  have hp : 0 < 2 ^ k := Nat.pow_pos (by omega)
  have hk16 : k < 16 := by
    rcases Nat.lt_or_ge k 16 with h | h
    · exact h
    · exfalso
      rcases hmin with h | ⟨j, hj, h⟩
      · omega
      · have : 2 ^ 15 ≤ 2 ^ j := Nat.pow_le_pow_right (by omega) (by omega)
        omega
  have hd2 : 257 ≤ d := by
    rcases hmin with h | h
    · subst h; omega
    · obtain ⟨j, hj, h⟩ := h
      subst hj
      have h3 : 512 * 2 ^ j < (d * 2) * 2 ^ j := by
        rw [Nat.pow_succ, ← Nat.mul_assoc, Nat.mul_right_comm] at hle
        omega
      have := Nat.lt_of_mul_lt_mul_right h3
      omega
  refine ⟨k, d - 257, ?_, hk16, by omega, ?_, ?_⟩
  · have e1 : (0 + k) % 256 = k := by omega
    have e2 : (d + (2 ^ 32 - 257)) % 2 ^ 32 % 256 = d - 257 := by omega
    rw [hE, e1, e2]
  · rw [Nat.add_sub_cancel' hd2]; exact hle
  · have : (256 + (d - 257)) + 1 = d := by omega
    have h4 : (256 + (d - 257)) * 2 ^ k + 2 ^ k = d * 2 ^ k := by
      rw [← Nat.succ_mul]; congr 1
    omega

theorem metricDecode_eq (a b : Nat) (ha : a < 16) :
    metricDecode ⟨a, b⟩ + 256 = (257 + b) * 2 ^ a := by
  unfold metricDecode
  rw [Nat.shiftLeft_eq, Nat.mod_eq_of_lt ha]
  have : 0 < 2 ^ a := Nat.pow_pos (by omega)
  have : (257 + b) * 1 ≤ (257 + b) * 2 ^ a := Nat.mul_le_mul_left _ this
  simp only
  omega

end Verif.Codec
