import Verif.Bits.Model
namespace Verif.Bits

/-! ### bitmap -/

theorem and63 (n : Nat) : n &&& 63 = n % 64 := Nat.and_two_pow_sub_one_eq_mod n 6
theorem and7 (n : Nat) : n &&& 7 = n % 8 := Nat.and_two_pow_sub_one_eq_mod n 3

theorem maskOf_getLsbD (bit : Fin 256) (i : Nat) :
    (maskOf bit).getLsbD i = decide (i = bit.val % 64) := by
  unfold maskOf
  rw [and63]
  have : bit.val % 64 < 64 := by omega
  rw [BitVec.getLsbD_shiftLeft]
  by_cases h : i = bit.val % 64
  · subst h; simp; omega
  · by_cases hi : i < 64 <;> by_cases hlt : i < bit.val % 64 <;> simp [h, hi, hlt]
    omega

theorem and_mask_ne_zero (w : BitVec 64) (bit : Fin 256) :
    ((w &&& maskOf bit) != 0#64) = w.getLsbD (bit.val % 64) := by
  have h64 : bit.val % 64 < 64 := by omega
  rw [Bool.eq_iff_iff, bne_iff_ne, ne_eq]
  constructor
  · intro h
    rcases hb : w.getLsbD (bit.val % 64) with _ | _
    · exfalso; apply h
      apply BitVec.eq_of_getLsbD_eq
      intro i hi
      rw [BitVec.getLsbD_and, maskOf_getLsbD]
      by_cases hc : i = bit.val % 64
      · subst hc; simp [hb]
      · simp [hc]
    · rfl
  · intro h h0
    have := congrArg (fun x => x.getLsbD (bit.val % 64)) h0
    simp [BitVec.getLsbD_and, maskOf_getLsbD, h] at this

theorem bitmapGet_eq (m : Bitmap) (bit : Fin 256) :
    bitmapGet m bit = (m (wordOf bit)).getLsbD (bit.val % 64) := and_mask_ne_zero _ _

theorem wordOf_val (bit : Fin 256) : (wordOf bit).val = bit.val / 64 := by
  simp [wordOf, Nat.shiftRight_eq_div_pow]

/-- the position of bit `i` of word `w` -/
def posOf (w : Fin 4) (i : Nat) (hi : i < 64) : Fin 256 := ⟨w.val * 64 + i, by omega⟩

theorem wordOf_posOf (w : Fin 4) (i : Nat) (hi : i < 64) : wordOf (posOf w i hi) = w := by
  apply Fin.ext; rw [wordOf_val]; simp only [posOf]; omega

theorem pos_mod (w : Fin 4) (i : Nat) (hi : i < 64) : (posOf w i hi).val % 64 = i := by
  simp only [posOf]; omega

/-! ### bitstream -/

/-- bit `i` of a byte buffer, most significant bit of byte 0 first -/
def bitAt (buf : List (BitVec 8)) (i : Nat) : Bool :=
  match buf[i / 8]? with
  | some b => b.getLsbD (7 - i % 8)
  | none => false

theorem readLoop_spec (buf : List (BitVec 8)) (n offset result : Nat)
    (h : offset + n < buf.length) (c : Nat) (hc : c + 8 * n ≤ 64)
    (hr : ∀ j, result.testBit j = true → j < c) :
    ∃ r, readLoop buf n offset result = some r ∧
      ∀ j, r.testBit j = if j < 8 * n then bitAt buf (8 * (offset + n + 1) - 1 - j)
        else result.testBit (j - 8 * n) := by
  induction n generalizing offset result c with
  | zero => exact ⟨result, rfl, by simp⟩
  | succ n ih =>
    have hlt : offset + 1 < buf.length := by omega
    unfold readLoop
    rw [List.getElem?_eq_getElem hlt]
    simp only [Option.bind_eq_bind, Option.bind_some]
    have hbits : ∀ j, ((result <<< 8) % 2 ^ 64 ||| (buf[offset + 1]).toNat).testBit j =
        if j < 8 then (buf[offset + 1]).getLsbD j else result.testBit (j - 8) := by
      intro j
      rw [Nat.testBit_or, Nat.testBit_mod_two_pow, Nat.testBit_shiftLeft]
      rw [show (buf[offset + 1]).toNat.testBit j = (buf[offset + 1]).getLsbD j from rfl]
      by_cases hj : j < 8
      · have : ¬ (8 ≤ j) := by omega
        rw [decide_eq_false (show ¬ j ≥ 8 from this)]
        simp [hj]
      · have h1 : (buf[offset + 1]).getLsbD j = false := BitVec.getLsbD_of_ge _ _ (by omega)
        have h2 : 8 ≤ j := by omega
        rw [h1]
        by_cases hj64 : j < 64
        · simp [hj, hj64, h2]
        · have h3 : result.testBit (j - 8) = false := by
            rcases hb : result.testBit (j - 8) with _ | _
            · rfl
            · have := hr _ hb; omega
          simp [hj, hj64, h3]
    obtain ⟨r, hr1, hr2⟩ := ih (offset + 1) _ (by omega) (c + 8) (by omega) (by
      intro j hj
      rw [hbits] at hj
      by_cases h8 : j < 8
      · omega
      · simp only [h8, if_false] at hj
        have := hr _ hj
        omega)
    refine ⟨r, hr1, ?_⟩
    intro j
    rw [hr2 j, hbits]
    by_cases h1 : j < 8 * n
    · have h2 : j < 8 * (n + 1) := by omega
      simp only [h1, h2, if_true]
      congr 1; omega
    · simp only [h1, if_false]
      by_cases h2 : j < 8 * (n + 1)
      · have h3 : j - 8 * n < 8 := by omega
        simp only [h2, h3, if_true]
        unfold bitAt
        have e1 : (8 * (offset + (n + 1) + 1) - 1 - j) / 8 = offset + 1 := by omega
        have e2 : 7 - (8 * (offset + (n + 1) + 1) - 1 - j) % 8 = j - 8 * n := by omega
        rw [e1, e2, List.getElem?_eq_getElem hlt]
      · have h3 : ¬ j - 8 * n < 8 := by omega
        simp only [h2, h3, if_false]
        congr 1

theorem writeLoop_spec (buf : List (BitVec 8)) (offset size src : Nat)
    (h : offset + size ≤ buf.length) :
    ∃ buf', writeLoop buf offset size src = some buf' ∧ buf'.length = buf.length ∧
      ∀ i, bitAt buf' i = (bitAt buf i ||
        (decide (8 * offset ≤ i ∧ i < 8 * (offset + size)) &&
          src.testBit (8 * (offset + size) - 1 - i))) := by
  induction size generalizing buf src with
  | zero =>
    refine ⟨buf, rfl, rfl, ?_⟩
    intro i
    have : ¬ (8 * offset ≤ i ∧ i < 8 * (offset + 0)) := by omega
    rw [decide_eq_false this]; simp
  | succ n ih =>
    have hlt : offset + n < buf.length := by omega
    unfold writeLoop
    rw [List.getElem?_eq_getElem hlt]
    simp only [Option.bind_eq_bind, Option.bind_some]
    obtain ⟨buf', h1, h2, h3⟩ := ih
      (buf.set (offset + n) (buf[offset + n] ||| BitVec.ofNat 8 (src &&& 0xFF))) (src >>> 8)
      (by simp; omega)
    refine ⟨buf', h1, by simpa using h2, ?_⟩
    intro i
    rw [h3 i]
    have hset : bitAt (buf.set (offset + n) (buf[offset + n] ||| BitVec.ofNat 8 (src &&& 0xFF))) i =
        (bitAt buf i || (decide (i / 8 = offset + n) && src.testBit (7 - i % 8))) := by
      unfold bitAt
      by_cases hi : i / 8 = offset + n
      · rw [hi, List.getElem?_set_self hlt, List.getElem?_eq_getElem hlt]
        simp only [decide_true, Bool.true_and]
        rw [BitVec.getLsbD_or, BitVec.getLsbD_ofNat, Nat.testBit_and]
        have : Nat.testBit 0xFF (7 - i % 8) = true := by
          have : ∀ m, m < 8 → Nat.testBit 0xFF (7 - m) = true := by decide
          exact this _ (by omega)
        rw [this]
        have h8 : 7 - i % 8 < 8 := by omega
        simp [h8]
      · rw [List.getElem?_set_ne (by omega)]
        simp [hi]
    rw [hset, Nat.testBit_shiftRight, Bool.or_assoc]
    congr 1
    by_cases hi : i / 8 = offset + n
    · have a1 : ¬ (8 * offset ≤ i ∧ i < 8 * (offset + n)) := by omega
      have a2 : (8 * offset ≤ i ∧ i < 8 * (offset + (n + 1))) := by omega
      have a3 : 7 - i % 8 = 8 * (offset + (n + 1)) - 1 - i := by omega
      rw [decide_eq_true hi, decide_eq_false a1, decide_eq_true a2, a3]; simp
    · by_cases a1 : (8 * offset ≤ i ∧ i < 8 * (offset + n))
      · have a2 : (8 * offset ≤ i ∧ i < 8 * (offset + (n + 1))) := by omega
        have a3 : 8 + (8 * (offset + n) - 1 - i) = 8 * (offset + (n + 1)) - 1 - i := by omega
        rw [decide_eq_false hi, decide_eq_true a1, decide_eq_true a2, a3]; simp
      · have a2 : ¬ (8 * offset ≤ i ∧ i < 8 * (offset + (n + 1))) := by omega
        rw [decide_eq_false hi, decide_eq_false a1, decide_eq_false a2]; simp

end Verif.Bits
