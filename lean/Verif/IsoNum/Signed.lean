import Verif.IsoNum.Props
/-!
C234: signed numbers survive printing and reading.
-/

namespace Verif.IsoNum

/-- `isonumber_from_s64`, isonumber.c:89-115, before the unit is appended: a minus sign and the absolute value; the absolute value of the
smallest number is 2^63.  The size of the buffer is not modelled. -/
def signedText (number : Int) (scaling : Nat) (raw : Bool) : Option Txt :=
  if number = -9223372036854775808 then (numberText 9223372036854775808 scaling raw).map ([45] ++ ·)
  else if number < 0 then (numberText (-number).toNat scaling raw).map ([45] ++ ·)
  else numberText number.toNat scaling raw

theorem digitByte {d : Nat} (h : d < 10) : isDigit (UInt8.ofNat d.digitChar.toNat) = true ∧ digitVal (UInt8.ofNat d.digitChar.toNat) = d := by
  have : ∀ d : Fin 10, isDigit (UInt8.ofNat d.val.digitChar.toNat) = true ∧ digitVal (UInt8.ofNat d.val.digitChar.toNat) = d.val := by decide
  exact this ⟨d, h⟩

theorem decText_eq (n : Nat) : decText n = if n < 10 then [UInt8.ofNat n.digitChar.toNat]
    else decText (n / 10) ++ [UInt8.ofNat (n % 10).digitChar.toNat] := by
  unfold decText
  by_cases h : n < 10
  · rw [if_pos h, Nat.toDigits_of_lt_base h]; rfl
  · rw [if_neg h, Nat.toDigits_of_base_le (by decide) (by omega), List.map_append]; rfl

theorem decText_spec (n : Nat) : decText n ≠ [] ∧ Digits (decText n) ∧ decVal (decText n) = n := by
  induction n using Nat.strongRecOn with
  | _ n ih =>
    rw [decText_eq]
    by_cases h : n < 10
    · rw [if_pos h]
      refine ⟨by simp, fun c hc => ?_, ?_⟩
      · rw [List.mem_singleton] at hc; rw [hc]; exact (isDigit_iff _).1 (digitByte h).1
      · have := (digitByte h).2
        simp [decVal, this]
    · rw [if_neg h]
      obtain ⟨_, h2, h3⟩ := ih (n / 10) (by omega)
      have hd := digitByte (d := n % 10) (by omega)
      refine ⟨by simp, fun c hc => ?_, ?_⟩
      · rcases List.mem_append.1 hc with hc | hc
        · exact h2 c hc
        · rw [List.mem_singleton] at hc; rw [hc]; exact (isDigit_iff _).1 hd.1
      · rw [decVal_append, h3]
        have : decVal [UInt8.ofNat (n % 10).digitChar.toNat] = n % 10 := by simp [decVal, hd.2]
        rw [this]
        simp only [List.length_cons, List.length_nil]
        omega

theorem raw_one (n : Nat) : numberText n 1 true = some (decText n) := by
  rw [C57_raw n 1 (by decide) (by decide)]
  have h0 : n % 1 * 1000 / 1 = 0 := by omega
  unfold fixed3
  rw [h0, Nat.div_one]
  have : ((([0 / 100, 0 / 10 % 10, 0 % 10] : List Nat).reverse.dropWhile (· = 0)).reverse.map (fun d => UInt8.ofNat (48 + d))) = [] := by decide
  dsimp only
  rw [this]
  simp

/-- C234: the printed text of an unsigned 64 bit number is read as this number. -/
theorem C234_unsigned (n : Nat) (h : n < 2 ^ 64) : ∃ t, numberText n 1 true = some t ∧ toU64 t 1 = .ok n := by
  obtain ⟨h1, h2, h3⟩ := decText_spec n
  refine ⟨_, raw_one n, ?_⟩
  rw [C16_whole_exact _ 1 h1 h2 (by decide), h3, Nat.mul_one, if_pos h]

/-- C234: the printed text of a signed 64 bit number is read as this number, the smallest one included. -/
theorem C234_signed (n : Int) (h1 : -(2 ^ 63) ≤ n) (h2 : n < 2 ^ 63) : ∃ t, signedText n 1 true = some t ∧ toS64 t 1 = .ok n := by
  unfold signedText
  by_cases hm : n = -9223372036854775808
  · rw [if_pos hm, raw_one]
    refine ⟨_, rfl, ?_⟩
    obtain ⟨g1, g2, g3⟩ := decText_spec 9223372036854775808
    have hu := C16_whole_exact _ 1 g1 g2 (by decide)
    rw [g3] at hu
    unfold toS64
    have hh : (([45] ++ decText 9223372036854775808 : Txt).head? == some 45) = true := rfl
    have ht : ([45] ++ decText 9223372036854775808 : Txt).tail = decText 9223372036854775808 := rfl
    simp only [hh, if_true, ht, hu]
    subst hm
    decide
  · rw [if_neg hm]
    by_cases hn : n < 0
    · rw [if_pos hn, raw_one]
      obtain ⟨g1, g2, g3⟩ := decText_spec (-n).toNat
      refine ⟨_, rfl, ?_⟩
      have := C16_signed_partial (decText (-n).toNat) true 1 g1 g2 (by decide) (by rw [g3]; omega)
      rw [g3] at this
      rw [if_pos rfl, if_pos rfl] at this
      rw [this]
      congr 1
      omega
    · rw [if_neg hn, raw_one]
      obtain ⟨g1, g2, g3⟩ := decText_spec n.toNat
      refine ⟨_, rfl, ?_⟩
      have := C16_signed_partial (decText n.toNat) false 1 g1 g2 (by decide) (by rw [g3]; omega)
      rw [g3] at this
      simp only [Bool.false_eq_true, if_false, List.nil_append] at this
      rw [this]
      congr 1
      omega

/-- C234: the text of a negative number is a minus sign and the text of its absolute value, for every scaling and both styles. -/
theorem C234_minus (n : Nat) (h : 0 < n) (scaling : Nat) (raw : Bool) :
    signedText (-(n : Int)) scaling raw = (numberText n scaling raw).map (45 :: ·) := by
  unfold signedText
  by_cases hm : -(n : Int) = -9223372036854775808
  · rw [if_pos hm]
    have : n = 9223372036854775808 := by omega
    rw [this]; rfl
  · rw [if_neg hm, if_pos (by omega)]
    have : (- -(n : Int)).toNat = n := by omega
    rw [this]; rfl

theorem C234_plus (n : Nat) (scaling : Nat) (raw : Bool) : signedText n scaling raw = numberText n scaling raw := by
  unfold signedText
  rw [if_neg (by omega), if_neg (by omega)]; rfl

/-- "-120k", and the text of the smallest number -/
example : signedText (-120000) 1 false = some [45, 49, 50, 48, 107] ∧
    signedText (-9223372036854775808) 1 true =
      some [45, 57, 50, 50, 51, 51, 55, 50, 48, 51, 54, 56, 53, 52, 55, 55, 53, 56, 48, 56] := by decide +kernel

/-- C234 is false for texts with a prefix: digits are cut off.  1234567 is printed as "1.234M". -/
theorem C234_prefix_counterexample :
    numberText 1234567 1 false = some [49, 46, 50, 51, 52, 77] ∧ toU64 [49, 46, 50, 51, 52, 77] 1 ≠ .ok 1234567 := by decide +kernel

end Verif.IsoNum
