import Verif.Dlep.Tlvs
import Verif.Dlep.Lemmas

/-! Lemmas about the values of TLVs. -/

namespace Verif.Dlep

open Spec Verif.Netaddr

theorem beN_length (k n : Nat) : (beN k n).length = k := by
  induction k with
  | zero => rfl
  | succ k ih => simp [beN, ih]

theorem foldl_be (l : Bytes) : ∀ a : Nat, l.foldl (fun a b => a * 256 + b.toNat) a = a * 256 ^ l.length + beNum l := by
  induction l with
  | nil => intro a; simp [beNum]
  | cons b l ih =>
    intro a
    simp only [beNum, List.foldl_cons, List.length_cons]
    rw [ih, ih (0 * 256 + b.toNat)]
    rw [Nat.pow_succ]
    simp only [Nat.zero_mul, Nat.zero_add, Nat.add_mul]
    rw [Nat.mul_assoc, Nat.mul_comm (256 : Nat) (256 ^ l.length)]
    omega

theorem beNum_cons (b : UInt8) (l : Bytes) : beNum (b :: l) = b.toNat * 256 ^ l.length + beNum l := by
  have := foldl_be l (0 * 256 + b.toNat)
  simp only [Nat.zero_mul, Nat.zero_add] at this
  simp only [beNum, List.foldl_cons, Nat.zero_mul, Nat.zero_add]
  exact this

theorem beNum_beN (k : Nat) : ∀ n : Nat, beNum (beN k n) = n % 256 ^ k := by
  induction k with
  | zero => intro n; simp [beN, beNum, Nat.mod_one]
  | succ k ih =>
    intro n
    rw [beN, beNum_cons, ih, beN_length]
    have : (n / 256 ^ k % 256).toUInt8.toNat = n / 256 ^ k % 256 := by
      simp only [Nat.toUInt8, UInt8.toNat_ofNat']
      omega
    rw [this, Nat.pow_succ]
    have h := Nat.mod_mul (x := n) (a := 256 ^ k) (b := 256)
    rw [h, Nat.mul_comm]
    omega

theorem addTlv_one (w : Writer) {t : Nat} {v : Bytes} (ht : t < 65536) (hv : v.length < 65536) :
    addTlv w t v v.length = some { w with out := w.out ++ one (t, v) } := by
  simp only [addTlv]
  rw [Nat.mod_eq_of_lt hv, if_neg (by omega), Nat.mod_eq_of_lt ht, List.take_of_length_le (Nat.le_refl _)]
  simp [one]

theorem addTlv_eq (w : Writer) {t n : Nat} {v : Bytes} (ht : t < 65536) (hv : n < 65536) (hn : v.length = n) :
    addTlv w t v n = some { w with out := w.out ++ one (t, v) } := by
  subst hn
  exact addTlv_one w ht hv

theorem addTlv_take (w : Writer) {t n : Nat} {v : Bytes} (ht : t < 65536) (hv : n < 65536) (hn : n ≤ v.length) :
    addTlv w t v n = some { w with out := w.out ++ one (t, v.take n) } := by
  simp only [addTlv]
  rw [Nat.mod_eq_of_lt hv, if_neg (by omega), Nat.mod_eq_of_lt ht]
  simp [one, Nat.min_eq_left hn]

theorem addTlv2_one (w : Writer) {t : Nat} {f : UInt8} {v : Bytes} (ht : t < 65536) (hv : v.length + 1 < 65536) :
    addTlv2 w t [f] 1 v v.length = some { w with out := w.out ++ one (t, f :: v) } := by
  simp only [addTlv2]
  rw [Nat.mod_eq_of_lt (show v.length < 65536 by omega), if_neg (by simp), Nat.mod_eq_of_lt ht,
    Nat.mod_eq_of_lt (show 1 < 65536 by omega), Nat.mod_eq_of_lt (show 1 + v.length < 65536 by omega)]
  simp [one, Nat.add_comm]

theorem cut_all {v : Bytes} {n : Nat} (h : v.length = n) : cut v 0 n = some v := by
  subst h
  simp [cut]

theorem store_short {b : Bytes} (h : b.length ≤ 16) : store b = some (b ++ List.replicate (16 - b.length) 0) := by
  unfold store
  rw [if_pos h]

end Verif.Dlep
