import Verif.Netaddr.Model
/-
Helper lemmas for network addresses: comparison and bits.
-/
namespace Verif.Netaddr

/-! ### comparison -/

theorem memcmp_swap (a b : List UInt8) : memcmp b a = - memcmp a b := by
  induction a generalizing b with
  | nil => cases b <;> rfl
  | cons x xs ih =>
    cases b with
    | nil => rfl
    | cons y ys =>
      simp only [memcmp]
      by_cases h1 : x < y
      · have h2 : ¬ y < x := by
          rw [UInt8.lt_iff_toNat_lt] at *; omega
        simp [h1, h2]
      · by_cases h2 : y < x
        · simp [h1, h2]
        · simp [h1, h2, ih]

theorem memcmp_zero (a b : List UInt8) (h : a.length = b.length) : memcmp a b = 0 ↔ a = b := by
  induction a generalizing b with
  | nil =>
    cases b with
    | nil => simp [memcmp]
    | cons _ _ => simp at h
  | cons x xs ih =>
    cases b with
    | nil => simp at h
    | cons y ys =>
      simp only [List.length_cons, Nat.add_right_cancel_iff] at h
      simp only [memcmp, List.cons.injEq]
      by_cases h1 : x < y
      · have : x ≠ y := by rintro rfl; rw [UInt8.lt_iff_toNat_lt] at h1; omega
        simp [h1, this]
      · by_cases h2 : y < x
        · have : x ≠ y := by rintro rfl; rw [UInt8.lt_iff_toNat_lt] at h2; omega
          simp [h1, h2, this]
        · have : x = y := by
            rw [UInt8.lt_iff_toNat_lt] at *
            apply UInt8.toNat_inj.1; omega
          simp [this, ih ys h]

theorem memcmp_trans (a b c : List UInt8) (h1 : a.length = b.length) (h2 : b.length = c.length)
    (hab : memcmp a b ≤ 0) (hbc : memcmp b c ≤ 0) : memcmp a c ≤ 0 := by
  induction a generalizing b c with
  | nil =>
    cases c with
    | nil => simp [memcmp]
    | cons _ _ => simp [memcmp]
  | cons x xs ih =>
    cases b with
    | nil => simp at h1
    | cons y ys =>
      cases c with
      | nil => simp at h2
      | cons z zs =>
        simp only [List.length_cons, Nat.add_right_cancel_iff] at h1 h2
        simp only [memcmp, UInt8.lt_iff_toNat_lt] at *
        by_cases c1 : x.toNat < z.toNat
        · simp [c1]
        · by_cases c2 : y.toNat < x.toNat
          · have : ¬ x.toNat < y.toNat := by omega
            simp [this, c2] at hab
          · by_cases c3 : z.toNat < y.toNat
            · have : ¬ y.toNat < z.toNat := by omega
              simp [this, c3] at hbc
            · have e1 : ¬ x.toNat < y.toNat := by omega
              have e2 : ¬ y.toNat < z.toNat := by omega
              have e3 : ¬ z.toNat < x.toNat := by omega
              simp only [e1, c2, if_false] at hab
              simp only [e2, c3, if_false] at hbc
              simp only [c1, e3, if_false]
              exact ih ys zs h1 h2 hab hbc

theorem strcasecmp_swap (a b : List UInt8) : strcasecmp b a = - strcasecmp a b := by
  induction a generalizing b with
  | nil => cases b <;> rfl
  | cons x xs ih =>
    cases b with
    | nil => rfl
    | cons y ys =>
      simp only [strcasecmp]
      by_cases h1 : toLower x < toLower y
      · have h2 : ¬ toLower y < toLower x := by
          rw [UInt8.lt_iff_toNat_lt] at *; omega
        simp [h1, h2]
      · by_cases h2 : toLower y < toLower x
        · simp [h1, h2]
        · simp [h1, h2, ih]

theorem strcasecmp_zero (a b : List UInt8) : strcasecmp a b = 0 ↔ a.map toLower = b.map toLower := by
  induction a generalizing b with
  | nil => cases b <;> simp [strcasecmp]
  | cons x xs ih =>
    cases b with
    | nil => simp [strcasecmp]
    | cons y ys =>
      simp only [strcasecmp, List.map_cons, List.cons.injEq]
      by_cases h1 : toLower x < toLower y
      · have : toLower x ≠ toLower y := by
          intro h; rw [h, UInt8.lt_iff_toNat_lt] at h1; omega
        simp [h1, this]
      · by_cases h2 : toLower y < toLower x
        · have : toLower x ≠ toLower y := by
            intro h; rw [h, UInt8.lt_iff_toNat_lt] at h2; omega
          simp [h1, h2, this]
        · have : toLower x = toLower y := by
            rw [UInt8.lt_iff_toNat_lt] at *
            apply UInt8.toNat_inj.1; omega
          rw [if_neg h1, if_neg h2]
          simp only [this, true_and]
          exact ih ys

theorem strcasecmp_trans (a b c : List UInt8)
    (hab : strcasecmp a b ≤ 0) (hbc : strcasecmp b c ≤ 0) : strcasecmp a c ≤ 0 := by
  induction a generalizing b c with
  | nil => cases c <;> simp [strcasecmp]
  | cons x xs ih =>
    cases b with
    | nil => simp [strcasecmp] at hab
    | cons y ys =>
      cases c with
      | nil => simp [strcasecmp] at hbc
      | cons z zs =>
        simp only [strcasecmp, UInt8.lt_iff_toNat_lt] at *
        by_cases c1 : (toLower x).toNat < (toLower z).toNat
        · simp [c1]
        · by_cases c2 : (toLower y).toNat < (toLower x).toNat
          · have : ¬ (toLower x).toNat < (toLower y).toNat := by omega
            simp [this, c2] at hab
          · by_cases c3 : (toLower z).toNat < (toLower y).toNat
            · have : ¬ (toLower y).toNat < (toLower z).toNat := by omega
              simp [this, c3] at hbc
            · have e1 : ¬ (toLower x).toNat < (toLower y).toNat := by omega
              have e2 : ¬ (toLower y).toNat < (toLower z).toNat := by omega
              have e3 : ¬ (toLower z).toNat < (toLower x).toNat := by omega
              simp only [e1, c2, if_false] at hab
              simp only [e2, c3, if_false] at hbc
              simp only [c1, e3, if_false]
              exact ih ys zs hab hbc

/-! ### bits -/

/-- bit `i` of a byte string, counted from the most significant bit of the first byte -/
def bit (l : List UInt8) (i : Nat) : Bool := (l.getD (i / 8) 0).toNat.testBit (7 - i % 8)

theorem bit_append (a b : List UInt8) (i : Nat) :
    bit (a ++ b) i = if i < 8 * a.length then bit a i else bit b (i - 8 * a.length) := by
  unfold bit
  by_cases h : i < 8 * a.length
  · rw [if_pos h]
    have : i / 8 < a.length := by omega
    simp [List.getD, List.getElem?_append_left this]
  · rw [if_neg h]
    have h1 : a.length ≤ i / 8 := by omega
    have h2 : (i - 8 * a.length) / 8 = i / 8 - a.length := by omega
    have h3 : (i - 8 * a.length) % 8 = i % 8 := by omega
    simp [List.getD, List.getElem?_append_right h1, h2, h3]

theorem bit_take (a : List UInt8) (n i : Nat) (h : i < 8 * n) : bit (a.take n) i = bit a i := by
  unfold bit
  have : i / 8 < n := by omega
  simp [List.getD, this]

theorem bit_drop (a : List UInt8) (n i : Nat) : bit (a.drop n) i = bit a (8 * n + i) := by
  unfold bit
  have h1 : (8 * n + i) / 8 = n + i / 8 := by omega
  have h2 : (8 * n + i) % 8 = i % 8 := by omega
  simp [List.getD, h1, h2]

theorem bit_zeros (n i : Nat) : bit (List.replicate n 0) i = false := by
  unfold bit
  simp only [List.getD, List.getElem?_replicate]
  split <;> simp

theorem bit_single (x : UInt8) (i : Nat) (h : i < 8) : bit [x] i = x.toNat.testBit (7 - i) := by
  unfold bit
  have h1 : i / 8 = 0 := by omega
  have h2 : i % 8 = i := by omega
  simp [h1, h2]

theorem testBit_big (x : UInt8) (j : Nat) (h : 8 ≤ j) : x.toNat.testBit j = false := by
  apply Nat.testBit_lt_two_pow
  have h1 := x.toNat_lt
  have h2 : 2 ^ 8 ≤ 2 ^ j := Nat.pow_le_pow_right (by omega) h
  omega

theorem byte_ext (x y : UInt8) (h : ∀ j, j < 8 → x.toNat.testBit j = y.toNat.testBit j) : x = y := by
  apply UInt8.toNat_inj.1
  apply Nat.eq_of_testBit_eq
  intro j
  by_cases hj : j < 8
  · exact h j hj
  · rw [testBit_big x j (by omega), testBit_big y j (by omega)]

theorem take_eq_iff (a b : List UInt8) (n : Nat) (ha : n ≤ a.length) (hb : n ≤ b.length) :
    a.take n = b.take n ↔ ∀ i, i < 8 * n → bit a i = bit b i := by
  constructor
  · intro h i hi
    rw [← bit_take a n i hi, ← bit_take b n i hi, h]
  · intro h
    apply List.ext_getElem
    · simp; omega
    · intro k h1 h2
      simp only [List.length_take] at h1 h2
      rw [List.getElem_take, List.getElem_take]
      apply byte_ext
      intro j hj
      have := h (8 * k + (7 - j)) (by omega)
      unfold bit at this
      rw [show (8 * k + (7 - j)) / 8 = k by omega, show 7 - (8 * k + (7 - j)) % 8 = j by omega] at this
      simpa [List.getD, List.getElem?_eq_getElem (show k < a.length by omega),
        List.getElem?_eq_getElem (show k < b.length by omega)] using this

theorem shift_eq_iff (x y : UInt8) (k : Nat) (hk : k ≤ 8) :
    x.toNat >>> (8 - k) = y.toNat >>> (8 - k) ↔
      ∀ j, j < k → x.toNat.testBit (7 - j) = y.toNat.testBit (7 - j) := by
  constructor
  · intro h j hj
    have := congrArg (fun n => n.testBit (k - 1 - j)) h
    simp only [Nat.testBit_shiftRight] at this
    rwa [show 8 - k + (k - 1 - j) = 7 - j by omega] at this
  · intro h
    apply Nat.eq_of_testBit_eq
    intro j
    rw [Nat.testBit_shiftRight, Nat.testBit_shiftRight]
    by_cases hj : 8 - k + j < 8
    · have := h (7 - (8 - k + j)) (by omega)
      rwa [show 7 - (7 - (8 - k + j)) = 8 - k + j by omega] at this
    · rw [testBit_big x _ (by omega), testBit_big y _ (by omega)]

theorem bit_at (a : List UInt8) (n j : Nat) (x : UInt8) (h : a[n]? = some x) (hj : j < 8) :
    bit a (8 * n + j) = x.toNat.testBit (7 - j) := by
  unfold bit
  rw [show (8 * n + j) / 8 = n by omega, show (8 * n + j) % 8 = j by omega]
  simp [List.getD, h]

theorem mask_bit (k j : Nat) (hk : k < 8) (hj : j < 8) :
    (MASK.getD k 0).toNat.testBit (7 - j) = decide (j < k) := by
  have : ∀ k j : Fin 8, (MASK.getD k.val 0).toNat.testBit (7 - j.val) = decide (j.val < k.val) := by
    decide +kernel
  exact this ⟨k, hk⟩ ⟨j, hj⟩

theorem mask2_bit (k j : Nat) (hk : k < 8) (hj : j < 8) :
    (UInt8.ofNat (255 >>> k)).toNat.testBit (7 - j) = decide (k ≤ j) := by
  have : ∀ k j : Fin 8, (UInt8.ofNat (255 >>> k.val)).toNat.testBit (7 - j.val) = decide (k.val ≤ j.val) := by
    decide +kernel
  exact this ⟨k, hk⟩ ⟨j, hj⟩

theorem not_mask2_bit (k j : Nat) (hk : k < 8) (hj : j < 8) :
    (~~~ UInt8.ofNat (255 >>> k)).toNat.testBit (7 - j) = decide (j < k) := by
  have : ∀ k j : Fin 8, (~~~ UInt8.ofNat (255 >>> k.val)).toNat.testBit (7 - j.val) = decide (j.val < k.val) := by
    decide +kernel
  exact this ⟨k, hk⟩ ⟨j, hj⟩

theorem and_bit (x y : UInt8) (j : Nat) :
    (x &&& y).toNat.testBit j = (x.toNat.testBit j && y.toNat.testBit j) := by
  rw [UInt8.toNat_and, Nat.testBit_and]

theorem or_bit (x y : UInt8) (j : Nat) :
    (x ||| y).toNat.testBit j = (x.toNat.testBit j || y.toNat.testBit j) := by
  rw [UInt8.toNat_or, Nat.testBit_or]

end Verif.Netaddr
