import Verif.IsoNum.Lemmas
/-
Property theorems for numbers with ISO prefixes (C16 parsing, C57 printing).
-/
namespace Verif.IsoNum

/-! ## Specification -/

/-- a text of decimal digits -/
def Digits (t : Txt) : Prop := ∀ c ∈ t, 48 ≤ c ∧ c ≤ 57

/-- power of thousand of a prefix letter: k, M, G, T, P, E -/
def thousand (c : UInt8) : Option Nat :=
  if c = 107 then some 1 else if c = 77 then some 2 else if c = 71 then some 3
  else if c = 84 then some 4 else if c = 80 then some 5 else if c = 69 then some 6 else none

/-- a number as written by a user: whole digits, optional fraction, spaces, optional prefix -/
structure Written where
  whole : Txt
  frac : Option Txt
  spaces : Nat
  pre : Option UInt8

def Written.text (w : Written) : Txt :=
  w.whole ++ (match w.frac with | none => [] | some f => [46] ++ f) ++ List.replicate w.spaces 32
    ++ w.pre.toList

def Written.Valid (w : Written) : Prop :=
  w.whole ≠ [] ∧ Digits w.whole ∧ (∀ f, w.frac = some f → Digits f) ∧
  (∀ c, w.pre = some c → thousand c ≠ none)

/-- all digits as one whole number; the written value is `mantissa * 1000^exponent / 10^places` -/
def Written.mantissa (w : Written) : Nat := decVal (w.whole ++ w.frac.getD [])
def Written.places (w : Written) : Nat := (w.frac.getD []).length
def Written.exponent (w : Written) : Nat := (w.pre.bind thousand).getD 0

/-! ## Lemmas -/

theorem isDigit_iff (c : UInt8) : isDigit c = true ↔ 48 ≤ c ∧ c ≤ 57 := by
  simp [isDigit]

theorem thousand_spec (c : UInt8) (p : Nat) (h : thousand c = some p) :
    prefixIndex c = some p ∧ c ≠ 32 ∧ isDigit c = false ∧ c ≠ 46 := by
  have key : ∀ c : Fin 256, ∀ p, thousand (UInt8.ofNat c.val) = some p →
      prefixIndex (UInt8.ofNat c.val) = some p ∧ UInt8.ofNat c.val ≠ 32 ∧
      isDigit (UInt8.ofNat c.val) = false ∧ UInt8.ofNat c.val ≠ 46 := by
    have : ∀ c : Fin 256, (thousand (UInt8.ofNat c.val)).all (fun p =>
      decide (prefixIndex (UInt8.ofNat c.val) = some p ∧ UInt8.ofNat c.val ≠ 32 ∧
      isDigit (UInt8.ofNat c.val) = false ∧ UInt8.ofNat c.val ≠ 46)) = true := by decide +kernel
    intro c p hp
    have := this c
    rw [hp] at this
    simpa using this
  have := key ⟨c.toNat, c.toNat_lt⟩ p
  simp only [UInt8.ofNat_toNat] at this
  exact this h

/-! ## C16 -/

/-- C16: a plain whole number is multiplied exactly, or an error is returned if the product does not
fit - for every digit string and every scaling factor. -/
theorem C16_whole_exact (ds : Txt) (scaling : Nat) (hne : ds ≠ []) (hd : Digits ds) (hs : 0 < scaling) :
    toU64 ds scaling =
      if decVal ds * scaling < 2 ^ 64 then .ok (decVal ds * scaling) else .err := by
  have hd' : ∀ c ∈ ds, isDigit c = true := fun c hc => (isDigit_iff c).2 (hd c hc)
  have := strtoull_digits ds [] hne hd' (by simp)
  rw [List.append_nil] at this
  have hW : 2 ^ 64 = W := rfl
  unfold toU64
  rw [this, hW]
  by_cases hbig : decVal ds ≥ W
  · rw [if_pos hbig, if_neg]
    have := Nat.le_mul_of_pos_right (decVal ds) hs
    omega
  · rw [if_neg hbig]
    simp only [if_true, if_neg (show scaling ≠ 0 by omega)]
    by_cases h : decVal ds * scaling < W
    · rw [if_pos h, if_neg, Nat.mod_eq_of_lt h]
      rw [Nat.not_lt, Nat.le_div_iff_mul_le hs]
      omega
    · rw [if_neg h, if_pos]
      show (W - 1) / scaling < decVal ds
      rw [Nat.div_lt_iff_lt_mul hs]
      omega

example : Digits [52, 50] ∧ decVal [52, 50] = 42 ∧ toU64 [52, 50] 1000 = .ok 42000 :=
  ⟨by unfold Digits; decide, by decide, by decide +kernel⟩

/-- C16: a number with fraction and prefix yields the exact scaled value (rounded down), provided
that no intermediate product exceeds 64 bit and that the fraction is not longer than the precision
that is left (`places ≤ s + 3 exponent`, or less than three places, or no scaling).
Missing for the full property: see the counterexamples below. -/
theorem C16_scaled_partial (w : Written) (s : Nat) (hv : w.Valid)
    (hwrap : w.mantissa * 10 ^ (s - w.places) * 1000 ^ w.exponent * 10 ^ s < 2 ^ 64)
    (hp : w.places ≤ 19) (hs : s ≤ 19)
    (hprec : w.places ≤ s + 3 * w.exponent ∨ w.places < 3 ∨ s = 0) :
    toU64 w.text (10 ^ s) = .ok (w.mantissa * 1000 ^ w.exponent * 10 ^ s / 10 ^ w.places) := by
  obtain ⟨whole, frac, spaces, pre⟩ := w
  obtain ⟨hne, hwd, hfd, hpre⟩ := hv
  simp only [Written.mantissa, Written.places, Written.exponent, Written.text] at *
  have hW : 2 ^ 64 = W := rfl
  rw [hW] at hwrap
  have hpos : ∀ n : Nat, 0 < 10 ^ n := fun n => Nat.pow_pos (by omega)
  have hpos3 : ∀ n : Nat, 0 < 1000 ^ n := fun n => Nat.pow_pos (by omega)
  have hlt19 : ∀ n, n ≤ 19 → 10 ^ n < W := fun n hn => by
    have h1 : 10 ^ n ≤ 10 ^ 19 := Nat.pow_le_pow_right (by omega) hn
    have h2 : 10 ^ 19 < W := by decide
    omega
  -- tail behind the fraction
  generalize htail : List.replicate spaces 32 ++ pre.toList = tail
  have htailDig : ∀ c, tail.head? = some c → isDigit c = false := by
    intro c hc
    rw [← htail] at hc
    cases spaces with
    | zero =>
      cases pre with
      | none => simp at hc
      | some x =>
        simp at hc; subst hc
        cases ht : thousand x with
        | none => exact absurd ht (hpre x rfl)
        | some p => exact (thousand_spec x p ht).2.2.1
    | succ k => simp [List.replicate_succ] at hc; subst hc; decide
  have htailDot : tail.head? ≠ some 46 := by
    intro hc
    rw [← htail] at hc
    cases spaces with
    | zero =>
      cases pre with
      | none => simp at hc
      | some x =>
        simp at hc; subst hc
        cases ht : thousand 46 with
        | none => exact absurd ht (hpre 46 rfl)
        | some p => exact (thousand_spec 46 p ht).2.2.2 rfl
    | succ k => simp [List.replicate_succ] at hc
  -- the factor found behind the spaces
  have hfactor : tail.dropWhile (· == 32) = pre.toList := by
    rw [← htail]
    apply dropWhile_spaces
    cases pre with
    | none => simp
    | some x =>
      cases ht : thousand x with
      | none => exact absurd ht (hpre x rfl)
      | some p =>
        have := (thousand_spec x p ht).2.1
        simpa using this
  have hfac : (if pre.toList = [] then some 1
        else if pre.toList.length ≠ 1 then none
        else (prefixIndex (pre.toList.headD 0)).map (fun p => 1000 ^ p))
      = some (1000 ^ ((pre.bind thousand).getD 0)) := by
    cases pre with
    | none => simp
    | some x =>
      cases ht : thousand x with
      | none => exact absurd ht (hpre x rfl)
      | some p =>
        have := (thousand_spec x p ht).1
        simp [ht, this]
  generalize he : (pre.bind thousand).getD 0 = e at *
  have hwd' : ∀ c ∈ whole, isDigit c = true := fun c hc => (isDigit_iff c).2 (hwd c hc)
  -- common part: after the fraction
  have common : ∀ (M d : Nat), M * 10 ^ (s - d) * 1000 ^ e * 10 ^ s < W → d ≤ 19 →
      (d ≤ s + 3 * e ∨ d < 3 ∨ s = 0) →
      (match scaleUp (10 ^ s) 65 M (10 ^ d) with
      | none => Result.hang
      | some (num, fs) =>
        match some (1000 ^ e) with
        | none => .err
        | some factor =>
          let d := scaleDown (10 ^ s) 7 num factor fs
          if d.1 > (W - 1) / d.2.1 then .err
          else if d.2.2 = 0 then .ub
          else .ok (d.1 * d.2.1 % W * (10 ^ s) % W / d.2.2))
        = .ok (M * 1000 ^ e * 10 ^ s / 10 ^ d) := by
    intro M d hM hd hx
    have b0 : M * 10 ^ (s - d) < W := by
      have h1 := Nat.le_mul_of_pos_right (M * 10 ^ (s - d)) (hpos3 e)
      have h2 := Nat.le_mul_of_pos_right (M * 10 ^ (s - d) * 1000 ^ e) (hpos s)
      omega
    rw [scaleUp_pow s 65 d M (by omega) (by omega) (hlt19 s hs) b0]
    simp only
    obtain ⟨num', p', d', r1, r2, r3⟩ := scaleDown_pow s 7 (M * 10 ^ (s - d)) e (max d s) (by omega)
      (by omega)
    rw [r1]
    simp only
    have hq := hpos3 p'
    have hall : num' * 1000 ^ p' * 10 ^ s < W :=
      Nat.lt_of_le_of_lt (Nat.mul_le_mul_right _ r2) hM
    have hall2 : num' * 1000 ^ p' < W := by
      have h2 := Nat.le_mul_of_pos_right (num' * 1000 ^ p') (hpos s)
      omega
    rw [if_neg, if_neg (show (10 : Nat) ^ d' ≠ 0 from Nat.ne_of_gt (hpos d')), Nat.mod_eq_of_lt hall2,
      Nat.mod_eq_of_lt hall, r3]
    · congr 1
      by_cases hds : d ≤ s
      · rw [show max d s = s by omega, Nat.mul_div_cancel _ (hpos s)]
        have : 10 ^ s = 10 ^ (s - d) * 10 ^ d := by rw [← Nat.pow_add]; congr 1; omega
        rw [this, ← Nat.mul_assoc, Nat.mul_div_cancel _ (hpos d), Nat.mul_right_comm]
      · rw [show max d s = d by omega, show s - d = 0 by omega]
        simp
    · rw [Nat.not_lt, Nat.le_div_iff_mul_le hq]
      omega
  unfold toU64
  cases frac with
  | none =>
    simp only [Option.getD_none, List.append_nil, List.length_nil, Nat.sub_zero, Nat.pow_zero,
      Nat.div_one] at *
    rw [List.append_assoc, htail]
    have b0 : decVal whole < W := by
      have h1 := Nat.le_mul_of_pos_right (decVal whole * 10 ^ s) (hpos3 e)
      have h2 := Nat.le_mul_of_pos_right (decVal whole * 10 ^ s * 1000 ^ e) (hpos s)
      have h3 := Nat.le_mul_of_pos_right (decVal whole) (hpos s)
      omega
    rw [strtoull_digits whole tail hne hwd' htailDig, if_neg (by omega)]
    simp only
    by_cases ht : tail = []
    · -- plain number
      have hpn : pre.toList = [] := by rw [← hfactor, ht]; rfl
      have he0 : e = 0 := by
        have : pre = none := by cases pre <;> simp_all
        rw [← he, this]; rfl
      subst he0
      have h3 : decVal whole * 10 ^ s < W := by
        have h2 := Nat.le_mul_of_pos_right (decVal whole * 10 ^ s * 1000 ^ 0) (hpos s)
        simp only [Nat.pow_zero, Nat.mul_one] at h2 hwrap
        omega
      rw [if_pos ht, if_neg (Nat.ne_of_gt (hpos s)), if_neg, Nat.mod_eq_of_lt h3]
      · simp
      · rw [Nat.not_lt, Nat.le_div_iff_mul_le (hpos s)]
        omega
    · have hdot : (tail.head? == some 46) = false := by
        rw [beq_eq_false_iff_ne]; exact htailDot
      rw [if_neg ht]
      simp only [hdot, Bool.false_eq_true, if_false, hfactor, hfac]
      have := common (decVal whole) 0 (by simpa using hwrap) (by omega) (by omega)
      simp only [Nat.pow_zero, Nat.div_one] at this
      exact this
  | some f =>
    simp only [Option.getD_some] at *
    have hfd' : ∀ c ∈ f, isDigit c = true := fun c hc => (isDigit_iff c).2 (hfd f rfl c hc)
    have b0 : decVal (whole ++ f) < W := by
      have h1 := Nat.le_mul_of_pos_right (decVal (whole ++ f) * 10 ^ (s - f.length)) (hpos3 e)
      have h2 := Nat.le_mul_of_pos_right (decVal (whole ++ f) * 10 ^ (s - f.length) * 1000 ^ e) (hpos s)
      have h3 := Nat.le_mul_of_pos_right (decVal (whole ++ f)) (hpos (s - f.length))
      omega
    have b1 := b0
    rw [decVal_append] at b1
    have b2 : decVal whole < W := by
      have := Nat.le_mul_of_pos_right (decVal whole) (hpos f.length)
      omega
    have hre : whole ++ ([46] ++ f) ++ List.replicate spaces 32 ++ pre.toList
        = whole ++ (46 :: (f ++ tail)) := by
      rw [← htail]; simp
    rw [hre, strtoull_digits whole (46 :: (f ++ tail)) hne hwd' (by simp; decide), if_neg (by omega)]
    simp only [reduceCtorEq, if_false, List.head?_cons, beq_self_eq_true, if_true, List.tail_cons]
    rw [fracLoop_digits f tail hfd' htailDig (decVal whole) 1 (by omega) b1
      (by rw [Nat.one_mul]; exact hlt19 _ hp)]
    simp only [hfactor, hfac, Nat.one_mul, ← decVal_append]
    exact common _ _ hwrap hp hprec

/-- "1.5 G" with three decimals of precision -/
example :
    let w : Written := ⟨[49], some [53], 1, some 71⟩
    w.text = [49, 46, 53, 32, 71] ∧ thousand 71 = some 3 ∧ w.mantissa = 15 ∧ w.places = 1 ∧
    w.mantissa * 10 ^ (3 - w.places) * 1000 ^ w.exponent * 10 ^ 3 < 2 ^ 64 ∧
    toU64 w.text 1000 = .ok 1500000000000 := by decide +kernel

/-- C16 is false: digits of the fraction are lost ("1.2345" scaled by 1000 yields 1200 and not 1234) -/
theorem C16_precision_counterexample :
    let w : Written := ⟨[49], some [50, 51, 52, 53], 0, none⟩
    w.text = [49, 46, 50, 51, 52, 53] ∧ w.mantissa * 1000 ^ w.exponent * 1000 / 10 ^ w.places = 1234 ∧
    toU64 w.text 1000 = .ok 1200 := by decide +kernel

/-- C16 is false: "20000000000000.0" scaled by 1000 fits into 64 bit but is wrapped silently. -/
theorem C16_wrap_counterexample :
    let w : Written := ⟨[50] ++ List.replicate 13 48, some [48], 0, none⟩
    w.mantissa * 1000 ^ w.exponent * 1000 / 10 ^ w.places = 20000000000000000 ∧
    toU64 w.text 1000 = .ok 1553255926290448 := by decide +kernel

/-- C16 is false: a fraction of twenty digits wraps ("1.99999999999999999999" scaled by 1000 yields
2142 instead of 1999), and a fraction of 64 digits makes the parser loop for ever. -/
theorem C16_long_fraction_counterexample :
    toU64 (Written.text ⟨[49], some (List.replicate 20 57), 0, none⟩) 1000 = .ok 2142 ∧
    toU64 (Written.text ⟨[49], some (List.replicate 64 48), 0, none⟩) 1 = .hang := by decide +kernel

/-- C16 is false: the unsigned parser accepts a negative number. -/
theorem C16_negative_counterexample : toU64 [45, 49] 1 = .ok (2 ^ 64 - 1) := by decide +kernel

/-- C16, signed: a whole number with optional minus sign is exact if its product fits. -/
theorem C16_signed_partial (ds : Txt) (neg : Bool) (scaling : Nat) (hne : ds ≠ []) (hd : Digits ds)
    (hs : 0 < scaling) (h : decVal ds * scaling < 2 ^ 63) :
    toS64 ((if neg then [45] else []) ++ ds) scaling =
      .ok (if neg then - ((decVal ds * scaling : Nat) : Int) else (decVal ds * scaling : Nat)) := by
  have h64 : decVal ds * scaling < 2 ^ 64 := by omega
  have hu := C16_whole_exact ds scaling hne hd hs
  rw [if_pos h64] at hu
  have hW2 : W / 2 = 2 ^ 63 := by decide
  have h45 : (ds.head? == some 45) = false := by
    cases ds with
    | nil => exact absurd rfl hne
    | cons c cs =>
      have := (isDigit_iff c).2 (hd c (by simp))
      have := isDigit_not c 45 this (by decide)
      simpa using this
  unfold toS64
  cases neg with
  | true =>
    simp only [if_true, List.cons_append, List.nil_append, List.head?_cons, beq_self_eq_true,
      List.tail_cons, hu, toSigned, hW2]
    rw [if_neg (by omega), if_pos h]
  | false =>
    simp only [Bool.false_eq_true, if_false, List.nil_append, h45, hu, toSigned, hW2]
    rw [if_pos h]

/-- C16 is false for the signed parser: numbers of at least 2^63 are wrapped to negative ones. -/
theorem C16_signed_counterexample :
    toS64 [57, 50, 50, 51, 51, 55, 50, 48, 51, 54, 56, 53, 52, 55, 55, 53, 56, 48, 56] 1
      = .ok (-(2 ^ 63 : Nat)) := by decide +kernel

/-- C16: a letter that is no prefix, or more than one byte behind the number, is rejected for every
number and scaling of a power of ten. -/
theorem C16_garbage_rejected (w : Written) (s : Nat) (garbage : Txt) (hv : w.Valid)
    (hpre : w.pre = none) (hlen : w.frac = none) (hs : s ≤ 19)
    (hd : w.mantissa * 10 ^ s < 2 ^ 64)
    (hg : ∃ c cs, garbage = c :: cs ∧ ¬ (48 ≤ c ∧ c ≤ 57) ∧ c ≠ 46 ∧ c ≠ 32 ∧
      (cs ≠ [] ∨ thousand c = none)) :
    toU64 (w.text ++ garbage) (10 ^ s) = .err := by
  obtain ⟨whole, frac, spaces, pre⟩ := w
  obtain ⟨hne, hwd, hfd, _⟩ := hv
  obtain ⟨c, cs, rfl, hc1, hc2, hc3, hc4⟩ := hg
  simp only at hpre hlen
  subst hpre hlen
  simp only [Written.mantissa, Written.text, Option.getD_none, List.append_nil, Option.toList_none] at *
  have hW : 2 ^ 64 = W := rfl
  rw [hW] at hd
  have hpos : ∀ n : Nat, 0 < 10 ^ n := fun n => Nat.pow_pos (by omega)
  have hlt19 : 10 ^ s < W := by
    have h1 : 10 ^ s ≤ 10 ^ 19 := Nat.pow_le_pow_right (by omega) hs
    have h2 : 10 ^ 19 < W := by decide
    omega
  have hwd' : ∀ c ∈ whole, isDigit c = true := fun c hc => (isDigit_iff c).2 (hwd c hc)
  have hdig : isDigit c = false := by
    have := isDigit_iff c
    cases h : isDigit c with
    | false => rfl
    | true => exact absurd (this.1 h) hc1
  have hthead : ∀ x, (List.replicate spaces 32 ++ c :: cs).head? = some x → isDigit x = false ∧ x ≠ 46 := by
    intro x hx
    cases spaces with
    | zero => simp at hx; subst hx; exact ⟨hdig, hc2⟩
    | succ k => simp [List.replicate_succ] at hx; subst hx; decide
  have b0 : decVal whole < W := by
    have := Nat.le_mul_of_pos_right (decVal whole) (hpos s)
    omega
  unfold toU64
  rw [List.append_assoc, strtoull_digits whole _ hne hwd' (fun x hx => (hthead x hx).1), if_neg (by omega)]
  simp only
  have hdot : ((List.replicate spaces 32 ++ c :: cs).head? == some 46) = false := by
    rw [beq_eq_false_iff_ne]
    intro h
    exact (hthead 46 h).2 rfl
  rw [if_neg (by simp)]
  simp only [hdot, Bool.false_eq_true, if_false]
  have hsu := scaleUp_pow s 65 0 (decVal whole) (by omega) (by omega) hlt19 (by simpa using hd)
  rw [Nat.pow_zero] at hsu
  rw [hsu, dropWhile_spaces spaces (c :: cs) (by simpa using hc3)]
  simp only [reduceCtorEq, if_false, List.length_cons, List.headD_cons]
  by_cases hcs : cs = []
  · subst hcs
    have hth : thousand c = none := by
      rcases hc4 with h | h
      · exact absurd rfl h
      · exact h
    have hpi : prefixIndex c = none := by
      have key : ∀ x : Fin 256, thousand (UInt8.ofNat x.val) = none → UInt8.ofNat x.val ≠ 32 →
          prefixIndex (UInt8.ofNat x.val) = none := by decide +kernel
      have := key ⟨c.toNat, c.toNat_lt⟩
      simp only [UInt8.ofNat_toNat] at this
      exact this hth hc3
    simp [hpi]
  · simp [hcs]

/-- "5 x" is rejected -/
example : toU64 [53, 32, 120] 1000 = .err := by decide +kernel

/-! ## C57 -/

/-- `n / s` as a decimal text: whole part and up to three digits behind the point, cut off (not
rounded) and without trailing zeros; no point if nothing is left behind it -/
def fixed3 (n s : Nat) : Txt :=
  let t := n % s * 1000 / s
  let digits := ((([t / 100, t / 10 % 10, t % 10].reverse).dropWhile (· = 0)).reverse).map
    (fun d => UInt8.ofNat (48 + d))
  decText (n / s) ++ (if digits = [] then [] else [46] ++ digits)

theorem stripZeros_digits (a b c : Nat) (ha : a < 10) (hb : b < 10) (hc : c < 10) :
    stripZeros [UInt8.ofNat (48 + a), UInt8.ofNat (48 + b), UInt8.ofNat (48 + c)]
      = ((([a, b, c].reverse).dropWhile (· = 0)).reverse).map (fun d => UInt8.ofNat (48 + d)) := by
  have d1 := digit_ne a ha
  have d2 := digit_ne b hb
  have d3 := digit_ne c hc
  unfold stripZeros
  simp only [List.reverse_cons, List.reverse_nil, List.nil_append, List.cons_append,
    List.dropWhile_cons, d1, d2, d3, List.dropWhile_nil]
  by_cases h3 : c = 0 <;> by_cases h2 : b = 0 <;> by_cases h1 : a = 0 <;> simp [h1, h2, h3]

theorem fixed3_eq (n s : Nat) (hs : 0 < s) (h10 : 10 * s ≤ W) :
    ∃ frac, fracDigits s 3 n [] 0 = some frac ∧
      decText (n / s) ++ (if frac = [] then [] else [46] ++ frac) = fixed3 n s := by
  have h := fracDigits_eq s n hs h10
  have ht : n % s * 1000 / s < 1000 := by
    rw [Nat.div_lt_iff_lt_mul hs]
    have := Nat.mod_lt n hs
    omega
  refine ⟨_, h, ?_⟩
  rw [stripZeros_digits _ _ _ (by omega) (by omega) (by omega)]
  rfl

/-- C57: raw output is the quotient with at most three digits behind the point, for every number and
every scaling factor below 2^64 / 10. -/
theorem C57_raw (n scaling : Nat) (hs : 0 < scaling) (h10 : 10 * scaling ≤ 2 ^ 64) :
    numberText n scaling true = some (fixed3 n scaling) := by
  obtain ⟨frac, e1, e2⟩ := fixed3_eq n scaling hs h10
  unfold numberText
  rw [if_neg (by omega)]
  simp only [if_true, e1, Bool.not_true, Bool.false_and, Bool.false_eq_true, if_false,
    List.append_nil, e2]

/-- C57: a number of at least one unit is printed with the unique prefix that leaves one to three
digits in front of the point. -/
theorem C57_large (n scaling : Nat) (hs : 0 < scaling) (hn : n < 2 ^ 64) (hle : scaling ≤ n)
    (h10 : ∀ k, scaling * 1000 ^ k ≤ n → 10 * (scaling * 1000 ^ k) ≤ 2 ^ 64) :
    ∃ k, k ≤ 6 ∧ 1 ≤ n / (scaling * 1000 ^ k) ∧ n / (scaling * 1000 ^ k) < 1000 ∧
      numberText n scaling false = some (fixed3 n (scaling * 1000 ^ k)
        ++ (([[], [107], [77], [71], [84], [80], [69]] : List Txt)[k]?).getD []) := by
  have hW : 2 ^ 64 = W := rfl
  have hbig : n < scaling * 1000 ^ 8 := by
    have h1 := Nat.mul_le_mul_right (1000 ^ 8) hs
    have h2 : W < 1000 ^ 8 := by decide
    omega
  obtain ⟨k, e1, e2, e3⟩ := scaleLarge_spec n hn 7 scaling 0 hs hbig hle
  have hk : k ≤ 6 := by
    apply Decidable.byContradiction
    intro hk
    have h1 : 1000 ^ 7 ≤ 1000 ^ k := Nat.pow_le_pow_right (by omega) (by omega)
    have h2 : 1000 ^ k ≤ scaling * 1000 ^ k := Nat.le_mul_of_pos_left _ hs
    have h3 : W < 1000 ^ 7 := by decide
    omega
  have hpos : 0 < scaling * 1000 ^ k := Nat.mul_pos hs (Nat.pow_pos (by omega))
  refine ⟨k, hk, Nat.div_pos e2 hpos, e3, ?_⟩
  obtain ⟨frac, f1, f2⟩ := fixed3_eq n _ hpos (h10 k e2)
  unfold numberText
  rw [if_neg (by omega)]
  simp only [Bool.false_eq_true, if_false, ge_iff_le, hle, decide_true, if_true, e1, f1, f2,
    Bool.not_false, Bool.true_and, Nat.zero_add]
  congr 2
  have : k = 0 ∨ k = 1 ∨ k = 2 ∨ k = 3 ∨ k = 4 ∨ k = 5 ∨ k = 6 := by omega
  rcases this with rfl | rfl | rfl | rfl | rfl | rfl | rfl <;> rfl

/-- C57: a number of less than one unit is printed with the first of the prefixes m, u, n, p, f, a
that makes it at least one (or with the smallest one the scaling factor allows). -/
theorem C57_small (n scaling : Nat) (hlt : n < scaling) (h10 : 10 * scaling ≤ 2 ^ 64) :
    ∃ k, k ≤ 6 ∧ (scaling / 1000 ^ k ≤ n ∨ scaling / 1000 ^ k < 1000) ∧
      (∀ j, j < k → n < scaling / 1000 ^ j) ∧
      numberText n scaling false = some (fixed3 n (scaling / 1000 ^ k)
        ++ (([[], [109], [117], [110], [112], [102], [97]] : List Txt)[k]?).getD []) := by
  have hW : 2 ^ 64 = W := rfl
  have hbig : scaling < 1000 ^ 7 := by
    have h2 : W < 1000 ^ 7 := by decide
    omega
  obtain ⟨k, e1, e2, e3, e4, e5⟩ := scaleSmall_spec n 7 scaling 0 hlt hbig
  have hk : k ≤ 6 := by
    apply Decidable.byContradiction
    intro hk
    have : k = 7 := by omega
    subst this
    rw [Nat.div_eq_of_lt hbig] at e4
    omega
  refine ⟨k, hk, e3, e5, ?_⟩
  have h10k : 10 * (scaling / 1000 ^ k) ≤ W := by
    have := Nat.div_le_self scaling (1000 ^ k)
    omega
  obtain ⟨frac, f1, f2⟩ := fixed3_eq n _ e4 h10k
  unfold numberText
  rw [if_neg (by omega)]
  have hnle : ¬ scaling ≤ n := by omega
  simp only [Bool.false_eq_true, if_false, ge_iff_le, hnle, decide_false, e1, f1, f2,
    Bool.not_false, Bool.true_and, Nat.zero_add]
  congr 2
  have : k = 0 ∨ k = 1 ∨ k = 2 ∨ k = 3 ∨ k = 4 ∨ k = 5 ∨ k = 6 := by omega
  rcases this with rfl | rfl | rfl | rfl | rfl | rfl | rfl <;> rfl

/-- 123456 is printed as "123.456k"; 1500 thousandths as "1.5"; 20 thousandths as "20m" -/
example : numberText 123456 1 false = some [49, 50, 51, 46, 52, 53, 54, 107] ∧
    numberText 1500 1000 false = some [49, 46, 53] ∧
    numberText 20 1000 false = some [50, 48, 109] ∧
    (∀ k, 1 * 1000 ^ k ≤ 123456 → 10 * (1 * 1000 ^ k) ≤ 2 ^ 64) := by
  refine ⟨by decide +kernel, by decide +kernel, by decide +kernel, fun k hk => ?_⟩
  omega

end Verif.IsoNum
