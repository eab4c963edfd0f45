import Verif.IsoNum.Model
/-
Helper lemmas for the number conversions.
-/
namespace Verif.IsoNum

theorem decVal_foldl (ds : Txt) (a : Nat) :
    ds.foldl (fun a c => a * 10 + digitVal c) a = a * 10 ^ ds.length + decVal ds := by
  unfold decVal
  induction ds generalizing a with
  | nil => simp
  | cons c cs ih =>
    simp only [List.foldl_cons, List.length_cons]
    rw [ih, ih (0 * 10 + digitVal c), Nat.pow_succ]
    generalize 10 ^ cs.length = P
    rw [Nat.add_mul, Nat.zero_mul, Nat.zero_add, Nat.mul_assoc, Nat.mul_comm 10 P]
    omega

theorem decVal_append (a b : Txt) : decVal (a ++ b) = decVal a * 10 ^ b.length + decVal b := by
  rw [decVal, List.foldl_append, decVal_foldl]
  rfl

theorem isDigit_not_space (c : UInt8) (h : isDigit c = true) : isSpace c = false := by
  simp only [isDigit, isSpace, Bool.and_eq_true, decide_eq_true_eq, UInt8.le_iff_toNat_le] at *
  have : c ≠ 32 := by rintro rfl; simp at h
  simp only [Bool.or_eq_false_iff, beq_eq_false_iff_ne, ne_eq, this, not_false_eq_true,
    true_and, Bool.and_eq_false_iff, decide_eq_false_iff_not]
  have h48 : (48 : UInt8).toNat = 48 := rfl
  have h13 : (13 : UInt8).toNat = 13 := rfl
  omega

theorem isDigit_not (c d : UInt8) (h : isDigit c = true) (hd : isDigit d = false) : c ≠ d := by
  rintro rfl; simp [h] at hd

theorem takeWhile_digits (ds rest : Txt) (hd : ∀ c ∈ ds, isDigit c = true)
    (hr : ∀ c, rest.head? = some c → isDigit c = false) :
    (ds ++ rest).takeWhile isDigit = ds ∧ (ds ++ rest).dropWhile isDigit = rest := by
  induction ds with
  | nil =>
    cases rest with
    | nil => simp
    | cons c cs => simp [hr c rfl]
  | cons c cs ih =>
    have := ih (fun x hx => hd x (List.mem_cons_of_mem _ hx))
    have hc := hd c (by simp)
    simp [hc, this]

theorem strtoull_digits (ds rest : Txt) (hne : ds ≠ []) (hd : ∀ c ∈ ds, isDigit c = true)
    (hr : ∀ c, rest.head? = some c → isDigit c = false) :
    strtoull (ds ++ rest) = (if decVal ds ≥ W then none else some (decVal ds), rest) := by
  obtain ⟨h1, h2⟩ := takeWhile_digits ds rest hd hr
  cases ds with
  | nil => exact absurd rfl hne
  | cons c cs =>
    have hc := hd c (by simp)
    have hs := isDigit_not_space c hc
    have h45 : (c == 45) = false := by
      rw [beq_eq_false_iff_ne]; exact isDigit_not c 45 hc (by decide)
    have h43 : (c == 43) = false := by
      rw [beq_eq_false_iff_ne]; exact isDigit_not c 43 hc (by decide)
    have hw : (c :: cs ++ rest).dropWhile isSpace = c :: cs ++ rest := by
      simp [hs]
    unfold strtoull
    simp only [hw]
    have e1 : ((c :: cs ++ rest).head? == some 45) = false := by
      simpa using h45
    have e2 : ((c :: cs ++ rest).head? == some 43) = false := by
      simpa using h43
    simp only [e1, e2, Bool.or_self, Bool.false_eq_true, if_false, h1, h2, hne]
    split <;> rfl

theorem fracLoop_digits (f rest : Txt) (hd : ∀ c ∈ f, isDigit c = true)
    (hr : ∀ c, rest.head? = some c → isDigit c = false) (num fs : Nat) (hfs : 0 < fs)
    (h1 : num * 10 ^ f.length + decVal f < W) (h2 : fs * 10 ^ f.length < W) :
    fracLoop (f ++ rest) num fs = (rest, num * 10 ^ f.length + decVal f, fs * 10 ^ f.length) := by
  induction f generalizing num fs with
  | nil =>
    cases rest with
    | nil => simp [fracLoop, decVal]
    | cons c cs => simp [fracLoop, hr c rfl, decVal]
  | cons c cs ih =>
    have hc := hd c (by simp)
    have e : decVal (c :: cs) = digitVal c * 10 ^ cs.length + decVal cs := by
      rw [show c :: cs = [c] ++ cs from rfl, decVal_append]; simp [decVal]
    rw [e, List.length_cons, Nat.pow_succ] at h1
    rw [List.length_cons, Nat.pow_succ] at h2
    have hP : 0 < 10 ^ cs.length := Nat.pow_pos (by omega)
    have key : num * (10 ^ cs.length * 10) + (digitVal c * 10 ^ cs.length + decVal cs)
        = (num * 10 + digitVal c) * 10 ^ cs.length + decVal cs := by
      rw [Nat.add_mul, Nat.mul_assoc, Nat.mul_comm 10]; omega
    have key2 : fs * (10 ^ cs.length * 10) = fs * 10 * 10 ^ cs.length := by
      rw [Nat.mul_assoc, Nat.mul_comm 10]
    rw [key] at h1
    rw [key2] at h2
    have b1 : num * 10 + digitVal c < W := by
      have := Nat.le_mul_of_pos_right (num * 10 + digitVal c) hP
      omega
    have b2 : fs * 10 < W := by
      have := Nat.le_mul_of_pos_right (fs * 10) hP
      omega
    rw [List.cons_append, fracLoop, if_pos hc, Nat.mod_eq_of_lt (show num * 10 < W by omega),
      Nat.mod_eq_of_lt b1, Nat.mod_eq_of_lt b2,
      ih (fun x hx => hd x (List.mem_cons_of_mem _ hx)) _ _ (by omega) h1 h2]
    rw [e, List.length_cons, Nat.pow_succ, key, key2]

theorem scaleUp_pow (s : Nat) : ∀ (n a num : Nat), s < n + a → 0 < n → 10 ^ s < W →
    num * 10 ^ (s - a) < W →
    scaleUp (10 ^ s) n num (10 ^ a) = some (num * 10 ^ (s - a), 10 ^ (max a s)) := by
  intro n
  induction n with
  | zero =>
    intro a num h h0
    omega
  | succ n ih =>
    intro a num h _ h1 h2
    rw [scaleUp]
    by_cases hlt : a < s
    · have hp : 10 ^ a < 10 ^ s := Nat.pow_lt_pow_right (by omega) hlt
      have hp2 : 10 ^ (a + 1) ≤ 10 ^ s := Nat.pow_le_pow_right (by omega) hlt
      rw [if_pos hp]
      have e : s - a = (s - (a + 1)) + 1 := by omega
      have key : num * 10 ^ (s - a) = num * 10 * 10 ^ (s - (a + 1)) := by
        rw [e, Nat.pow_succ, Nat.mul_assoc, Nat.mul_comm 10]
      rw [key] at h2 ⊢
      have b : num * 10 < W := by
        have := Nat.le_mul_of_pos_right (num * 10) (show 0 < 10 ^ (s - (a + 1)) from Nat.pow_pos (by omega))
        omega
      rw [Nat.mod_eq_of_lt b, ← Nat.pow_succ, Nat.mod_eq_of_lt (by omega),
        ih (a + 1) (num * 10) (by omega) (by omega) h1 h2]
      congr 3
      omega
    · have hp : ¬ 10 ^ a < 10 ^ s := by
        have := Nat.pow_le_pow_right (show 0 < 10 by omega) (show s ≤ a by omega)
        omega
      rw [if_neg hp, show s - a = 0 by omega, show max a s = a by omega]
      simp

theorem pow1000 (p : Nat) : 1000 ^ (p + 1) / 1000 = 1000 ^ p := by
  rw [Nat.pow_succ, Nat.mul_div_cancel _ (by omega)]

theorem scaleDown_pow (s : Nat) : ∀ (n num p d : Nat), d < 3 * n + 3 →
    (d ≤ s + 3 * p ∨ d < 3 ∨ s = 0) →
    ∃ num' p' d', scaleDown (10 ^ s) n num (1000 ^ p) (10 ^ d) = (num', 1000 ^ p', 10 ^ d') ∧
      num' * 1000 ^ p' ≤ num * 1000 ^ p ∧
      num' * 1000 ^ p' * 10 ^ s / 10 ^ d' = num * 1000 ^ p * 10 ^ s / 10 ^ d := by
  intro n
  induction n with
  | zero =>
    intro num p d hd hx
    exact ⟨num, p, d, rfl, Nat.le_refl _, rfl⟩
  | succ n ih =>
    intro num p d hd hx
    rw [scaleDown]
    by_cases hc : 10 ^ d > 10 ^ s ∧ 10 ^ d ≥ 1000
    · rw [if_pos hc]
      have h1 : s < d := (Nat.pow_lt_pow_iff_right (by omega)).1 hc.1
      have h2 : 3 ≤ d := by
        have : 10 ^ 3 ≤ 10 ^ d := hc.2
        exact (Nat.pow_le_pow_iff_right (by omega)).1 this
      obtain ⟨e, rfl⟩ : ∃ e, d = e + 3 := ⟨d - 3, by omega⟩
      have hdiv : 10 ^ (e + 3) / 1000 = 10 ^ e := by
        rw [Nat.pow_add, show (10 : Nat) ^ 3 = 1000 from rfl, Nat.mul_div_cancel _ (by omega)]
      have hpow : 10 ^ (e + 3) = 10 ^ e * 1000 := by rw [Nat.pow_add]
      rw [hdiv]
      cases p with
      | zero =>
        have hs : s = 0 := by omega
        subst hs
        rw [if_neg (by simp)]
        obtain ⟨num', p', d', r1, r2, r3⟩ := ih (num / 1000) 0 e (by omega) (by omega)
        refine ⟨num', p', d', r1, ?_, ?_⟩
        · have := Nat.div_le_self num 1000
          simp only [Nat.pow_zero, Nat.mul_one] at r2 ⊢
          omega
        · rw [r3, hpow]
          simp only [Nat.pow_zero, Nat.mul_one]
          rw [Nat.div_div_eq_div_mul, Nat.mul_comm]
      | succ p =>
        have hf : 1000 ^ (p + 1) > 1 := Nat.one_lt_pow (by omega) (by omega)
        rw [if_pos hf, pow1000]
        obtain ⟨num', p', d', r1, r2, r3⟩ := ih num p e (by omega) (by omega)
        refine ⟨num', p', d', r1, ?_, ?_⟩
        · refine Nat.le_trans r2 (Nat.mul_le_mul_left _ (Nat.pow_le_pow_right (by omega) (by omega)))
        · rw [r3, hpow, Nat.pow_succ]
          rw [show num * (1000 ^ p * 1000) * 10 ^ s = num * 1000 ^ p * 10 ^ s * 1000 by
            rw [← Nat.mul_assoc, Nat.mul_right_comm]]
          rw [Nat.mul_div_mul_right _ _ (by omega)]
    · rw [if_neg hc]
      exact ⟨num, p, d, rfl, Nat.le_refl _, rfl⟩

theorem dropWhile_spaces (k : Nat) (t : Txt) (h : t.head? ≠ some 32) :
    (List.replicate k 32 ++ t).dropWhile (· == (32 : UInt8)) = t := by
  induction k with
  | zero =>
    cases t with
    | nil => rfl
    | cons c cs =>
      have : (c == 32) = false := by simpa using h
      simp [this]
  | succ k ih => simpa [List.replicate_succ] using ih

/-! ### output -/

/-- text of a fraction of three digits without trailing zeros -/
def stripZeros (l : Txt) : Txt := (l.reverse.dropWhile (· == 48)).reverse

theorem digit_ne (q : Nat) (h : q < 10) : (UInt8.ofNat (48 + q) == 48) = decide (q = 0) := by
  have : ∀ q : Fin 10, (UInt8.ofNat (48 + q.val) == 48) = decide (q.val = 0) := by decide
  exact this ⟨q, h⟩

theorem fracDigits_eq (S n : Nat) (hS : 0 < S) (h10 : 10 * S ≤ W) :
    let t := n % S * 1000 / S
    fracDigits S 3 n [] 0 = some (stripZeros
      [UInt8.ofNat (48 + t / 100), UInt8.ofNat (48 + t / 10 % 10), UInt8.ofNat (48 + t % 10)]) := by
  intro t
  have hn0 : n % S < S := Nat.mod_lt _ hS
  -- the three digits
  generalize hN : n % S = n0 at hn0
  have hq1 := Nat.div_add_mod (n0 * 10) S
  generalize e1 : n0 * 10 / S = q1 at hq1
  generalize f1 : n0 * 10 % S = r1 at hq1
  have hr1 : r1 < S := by rw [← f1]; exact Nat.mod_lt _ hS
  have hq2 := Nat.div_add_mod (r1 * 10) S
  generalize e2 : r1 * 10 / S = q2 at hq2
  generalize f2 : r1 * 10 % S = r2 at hq2
  have hr2 : r2 < S := by rw [← f2]; exact Nat.mod_lt _ hS
  have hq3 := Nat.div_add_mod (r2 * 10) S
  generalize e3 : r2 * 10 / S = q3 at hq3
  generalize f3 : r2 * 10 % S = r3 at hq3
  have hr3 : r3 < S := by rw [← f3]; exact Nat.mod_lt _ hS
  have b1 : q1 < 10 := by rw [← e1]; exact (Nat.div_lt_iff_lt_mul hS).2 (by omega)
  have b2 : q2 < 10 := by rw [← e2]; exact (Nat.div_lt_iff_lt_mul hS).2 (by omega)
  have b3 : q3 < 10 := by rw [← e3]; exact (Nat.div_lt_iff_lt_mul hS).2 (by omega)
  have ht : t = q1 * 100 + q2 * 10 + q3 := by
    show n % S * 1000 / S = _
    rw [hN]
    have : n0 * 1000 = r3 + S * (q1 * 100 + q2 * 10 + q3) := by
      rw [Nat.mul_add, Nat.mul_add, ← Nat.mul_assoc, ← Nat.mul_assoc]
      generalize S * q1 = A at *
      generalize S * q2 = B at *
      generalize S * q3 = C at *
      omega
    rw [this, Nat.add_mul_div_left _ _ hS, Nat.div_eq_of_lt hr3, Nat.zero_add]
  have t1 : t / 100 = q1 := by omega
  have t2 : t / 10 % 10 = q2 := by omega
  have t3 : t % 10 = q3 := by omega
  rw [t1, t2, t3]
  clear t1 t2 t3 ht t
  have d1 := digit_ne q1 b1
  have d2 := digit_ne q2 b2
  have d3 := digit_ne q3 b3
  have w1 : n0 * 10 % W = n0 * 10 := Nat.mod_eq_of_lt (by omega)
  have w2 : r1 * 10 % W = r1 * 10 := Nat.mod_eq_of_lt (by omega)
  have w3 : r2 * 10 % W = r2 * 10 := Nat.mod_eq_of_lt (by omega)
  have z0 : n0 = 0 → q1 = 0 ∧ r1 = 0 := by
    rintro rfl; rw [← e1, ← f1]; simp
  have z1 : r1 = 0 → q2 = 0 ∧ r2 = 0 := by
    intro h; rw [← e2, ← f2, h]; simp
  have z2 : r2 = 0 → q3 = 0 := by
    intro h; rw [← e3, h]; simp
  have g1 : ¬ q1 ≥ 10 := by omega
  have g2 : ¬ q2 ≥ 10 := by omega
  have g3 : ¬ q3 ≥ 10 := by omega
  rw [fracDigits]
  simp only [hN, w1, e1, if_neg g1]
  rw [fracDigits]
  simp only [f1, w2, e2, if_neg g2]
  rw [fracDigits]
  simp only [f2, w3, e3, if_neg g3]
  rw [fracDigits]
  simp only [f3]
  clear hN w1 e1 f1 w2 e2 f2 w3 e3 f3 hq1 hq2 hq3 hr1 hr2 hr3 hn0 g1 g2 g3 b1 b2 b3
  generalize UInt8.ofNat (48 + q1) = X1 at *
  generalize UInt8.ofNat (48 + q2) = X2 at *
  generalize UInt8.ofNat (48 + q3) = X3 at *
  have hif : ∀ x : Option Txt, (if r3 = 0 then x else x) = x := by intro x; simp
  rw [hif]
  by_cases c0 : n0 = 0
  · obtain ⟨rfl, rfl⟩ := z0 c0
    obtain ⟨rfl, rfl⟩ := z1 rfl
    obtain rfl := z2 rfl
    simp [c0, stripZeros, d1, d2, d3]
  by_cases c1 : r1 = 0
  · obtain ⟨rfl, rfl⟩ := z1 c1
    obtain rfl := z2 rfl
    by_cases y1 : q1 = 0 <;> simp [c0, c1, y1, stripZeros, d1, d2, d3]
  by_cases c2 : r2 = 0
  · obtain rfl := z2 c2
    by_cases y1 : q1 = 0 <;> by_cases y2 : q2 = 0 <;>
      simp [c0, c1, c2, y1, y2, stripZeros, d1, d2, d3]
  by_cases y1 : q1 = 0 <;> by_cases y2 : q2 = 0 <;> by_cases y3 : q3 = 0 <;>
    simp [c0, c1, c2, y1, y2, y3, stripZeros, d1, d2, d3]

theorem scaleLarge_spec (number : Nat) (hn : number < W) : ∀ (f S idx : Nat), 0 < S →
    number < S * 1000 ^ (f + 1) → S ≤ number →
    ∃ k, scaleLarge number f S idx = (S * 1000 ^ k, idx + k) ∧ S * 1000 ^ k ≤ number ∧
      number / (S * 1000 ^ k) < 1000 := by
  intro f
  induction f with
  | zero =>
    intro S idx hS hb hle
    refine ⟨0, by simp [scaleLarge], by simpa using hle, ?_⟩
    simp only [Nat.pow_zero, Nat.mul_one]
    rw [Nat.div_lt_iff_lt_mul hS]
    omega
  | succ f ih =>
    intro S idx hS hb hle
    rw [scaleLarge]
    by_cases hc : number / 1000 ≥ S
    · rw [if_pos hc]
      have hle2 : S * 1000 ≤ number := by omega
      rw [Nat.mod_eq_of_lt (by omega)]
      have hb2 : number < S * 1000 * 1000 ^ (f + 1) := by
        rw [Nat.mul_assoc, Nat.mul_comm 1000, ← Nat.pow_succ]; exact hb
      obtain ⟨k, e1, e2, e3⟩ := ih (S * 1000) (idx + 1) (by omega) hb2 hle2
      have e : S * 1000 ^ (k + 1) = S * 1000 * 1000 ^ k := by
        rw [Nat.pow_succ, Nat.mul_comm (1000 ^ k), ← Nat.mul_assoc]
      refine ⟨k + 1, ?_, ?_, ?_⟩
      · rw [e1, e]; congr 1; omega
      · rw [e]; exact e2
      · rw [e]; exact e3
    · rw [if_neg hc]
      refine ⟨0, by simp, by simpa using hle, ?_⟩
      simp only [Nat.pow_zero, Nat.mul_one]
      rw [Nat.div_lt_iff_lt_mul hS]
      omega

theorem scaleSmall_spec (number : Nat) : ∀ (f S idx : Nat), number < S → S < 1000 ^ f → 
    ∃ k, scaleSmall number f S idx = (S / 1000 ^ k, idx + k) ∧ k ≤ f ∧
      (S / 1000 ^ k ≤ number ∨ S / 1000 ^ k < 1000) ∧ 0 < S / 1000 ^ k ∧
      (∀ j, j < k → number < S / 1000 ^ j) := by
  intro f
  induction f with
  | zero =>
    intro S idx hS hb
    simp at hb; omega
  | succ f ih =>
    intro S idx hS hb
    rw [scaleSmall]
    by_cases hc : S ≥ 1000
    · rw [if_pos ⟨hS, hc⟩]
      have hpos : 0 < S / 1000 := Nat.div_pos hc (by omega)
      by_cases hlt : number < S / 1000
      · have hb2 : S / 1000 < 1000 ^ f := by
          rw [Nat.div_lt_iff_lt_mul (by omega), ← Nat.pow_succ]; exact hb
        obtain ⟨k, e1, e2, e3, e4, e5⟩ := ih (S / 1000) (idx + 1) hlt hb2
        have e : ∀ k, S / 1000 ^ (k + 1) = S / 1000 / 1000 ^ k := by
          intro k
          rw [Nat.pow_succ, Nat.mul_comm, Nat.div_div_eq_div_mul]
        refine ⟨k + 1, ?_, by omega, ?_, ?_, ?_⟩
        · rw [e1, e]; congr 1; omega
        · rw [e]; exact e3
        · rw [e]; exact e4
        · intro j hj
          cases j with
          | zero => simpa using hS
          | succ j => rw [e]; exact e5 j (by omega)
      · refine ⟨1, ?_, by omega, Or.inl (by simpa using hlt), by simpa using hpos, ?_⟩
        · cases f with
          | zero => simp [scaleSmall]
          | succ f => rw [scaleSmall, if_neg (by omega)]
        · intro j hj
          obtain rfl : j = 0 := by omega
          simpa using hS
    · rw [if_neg (by omega)]
      refine ⟨0, by simp, by omega, Or.inr (by simpa using hc),
        by simp only [Nat.pow_zero, Nat.div_one]; omega, by omega⟩

end Verif.IsoNum
