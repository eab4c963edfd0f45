import Verif.DupSet.Model
namespace Verif.DupSet

/-- number of distinct sequence numbers of a set type -/
def Kind.size : Kind → Nat
  | .b8 => 2 ^ 8 | .b16 => 2 ^ 16 | .b32 => 2 ^ 32 | .b64 => 2 ^ 64

theorem seqnoDifference_spec (k : Kind) (s1 s2 : Nat) (h1 : s1 < k.size) (h2 : s2 < k.size) :
    ((s2 : Int) + seqnoDifference k s1 s2) % k.size = s1 ∧
    -(k.size / 2 : Int) ≤ seqnoDifference k s1 s2 ∧ seqnoDifference k s1 s2 < k.size / 2 := by
  cases k with
  | b8 =>
    simp only [Kind.size] at h1 h2 ⊢
    have : ∀ n, n &&& 255 = n % 2 ^ 8 := fun n => Nat.and_two_pow_sub_one_eq_mod n 8
    simp only [seqnoDifference, Kind.mask, Kind.limit, Kind.offset, this]
    simp only [ne_eq, reduceCtorEq, not_false_eq_true, if_true]
    split <;> omega
  | b16 =>
    simp only [Kind.size] at h1 h2 ⊢
    have : ∀ n, n &&& 65535 = n % 2 ^ 16 := fun n => Nat.and_two_pow_sub_one_eq_mod n 16
    simp only [seqnoDifference, Kind.mask, Kind.limit, Kind.offset, this]
    simp only [ne_eq, reduceCtorEq, not_false_eq_true, if_true]
    split <;> omega
  | b32 =>
    simp only [Kind.size] at h1 h2 ⊢
    have : ∀ n, n &&& 4294967295 = n % 2 ^ 32 := fun n => Nat.and_two_pow_sub_one_eq_mod n 32
    simp only [seqnoDifference, Kind.mask, Kind.limit, Kind.offset, this]
    simp only [ne_eq, reduceCtorEq, not_false_eq_true, if_true]
    split <;> omega
  | b64 =>
    simp only [Kind.size] at h1 h2 ⊢
    simp only [seqnoDifference, Kind.mask, toInt64]
    simp only [ne_eq, not_true_eq_false, if_false]
    split <;> omega

theorem and_shift_ne_zero (h n : Nat) : (h &&& (1 <<< n) ≠ 0) ↔ h.testBit n = true := by
  rw [Nat.one_shiftLeft]
  constructor
  · intro hne
    rcases hb : h.testBit n with _ | _
    · exfalso
      apply hne
      apply Nat.eq_of_testBit_eq
      intro i
      rw [Nat.testBit_and, Nat.testBit_two_pow, Nat.zero_testBit]
      by_cases hi : n = i
      · subst hi; simp [hb]
      · simp [hi]
    · rfl
  · intro hb h0
    have := congrArg (fun x => x.testBit n) h0
    simp [Nat.testBit_and, hb] at this

theorem or_shift_testBit (h n i : Nat) :
    (h ||| (1 <<< n)).testBit i = (h.testBit i || decide (n = i)) := by
  rw [Nat.testBit_or, Nat.one_shiftLeft, Nat.testBit_two_pow]

theorem shift_testBit (h d i : Nat) (hi : i < 64) :
    ((h <<< d) % 2 ^ 64 ||| 1).testBit i
      = ((decide (d ≤ i) && h.testBit (i - d)) || decide (i = 0)) := by
  rw [Nat.testBit_or, Nat.testBit_mod_two_pow, Nat.testBit_shiftLeft]
  have : (1 : Nat).testBit i = decide (i = 0) := by
    rw [Bool.eq_iff_iff, Nat.testBit_one_eq_true_iff_self_eq_zero, decide_eq_true_iff]
  rw [this]; simp [hi]

end Verif.DupSet
