import Verif.Writer.Model
import Verif.Reader.Parse

/-! Lemmas about written TLVs and address blocks. -/
namespace Verif.Writer
open Verif.Reader (Bytes S R Tlv getU8 getU16 parseTlv parseIndex parseLength tlvValue getU8_cons)

theorem lo_toNat (n : Nat) : (lo n).toNat = n % 256 := by simp [lo]
theorem hi_toNat {n : Nat} (h : n < 65536) : (hi n).toNat = n / 256 := by
  simp [hi]
  omega

theorem getU8_c {b : UInt8} {r : Bytes} : getU8 ⟨b :: r, Verif.Reader.OKAY⟩ = (b, ⟨r, Verif.Reader.OKAY⟩) := getU8_cons

/-! ### TLVs in general -/

/-- indices of a TLV: none, one, a range -/
inductive Idx
  | all
  | one (i : UInt8)
  | range (i j : UInt8)

def Idx.flag : Idx → UInt8
  | .all => 0
  | .one _ => 0x40
  | .range _ _ => 0x20

def Idx.bytes : Idx → Bytes
  | .all => []
  | .one i => [i]
  | .range i j => [i, j]

/-- first and last index, in a block of `n` addresses (0: not an address block) -/
def Idx.first : Idx → UInt8
  | .all => 0
  | .one i => i
  | .range i _ => i

def Idx.last (n : UInt8) : Idx → UInt8
  | .all => n - 1
  | .one i => i
  | .range _ j => j

def lenFlag (n : Nat) : UInt8 := if n > 255 then 0x18 else if n > 0 then 0x10 else 0

def lenBytes (n : Nat) : Bytes := if n > 255 then [hi n, lo n] else if n > 0 then [lo n] else []

def extFlag (ext : UInt8) : UInt8 := if ext ≠ 0 then 0x80 else 0

/-- flags of an encoded TLV -/
def encFlags (ext : UInt8) (idx : Idx) (multi : Bool) (n : Nat) : UInt8 :=
  extFlag ext ||| idx.flag ||| lenFlag n ||| (if multi then 0x04 else 0)

/-- an encoded TLV -/
def enc (type ext : UInt8) (idx : Idx) (multi : Bool) (value : Bytes) : Bytes :=
  type :: encFlags ext idx multi value.length :: ((if ext ≠ 0 then [ext] else []) ++ (idx.bytes ++ (lenBytes value.length ++ value)))

theorem idxFlag_cases (idx : Idx) : idx.flag = 0 ∨ idx.flag = 0x40 ∨ idx.flag = 0x20 := by
  cases idx <;> simp [Idx.flag]

theorem lenFlag_cases (n : Nat) : lenFlag n = 0 ∨ lenFlag n = 0x10 ∨ lenFlag n = 0x18 := by
  unfold lenFlag
  split
  · simp
  · split <;> simp

theorem encFlags_and (ext : UInt8) (idx : Idx) (multi : Bool) (n : Nat) :
    encFlags ext idx multi n &&& 0x80 = extFlag ext ∧ encFlags ext idx multi n &&& 0x60 = idx.flag ∧
    encFlags ext idx multi n &&& 0x18 = lenFlag n ∧ encFlags ext idx multi n &&& 0x04 = (if multi then 0x04 else 0) := by
  unfold encFlags
  have h1 : extFlag ext = 0 ∨ extFlag ext = 0x80 := by unfold extFlag; split <;> simp
  rcases h1 with h1 | h1 <;> rcases idxFlag_cases idx with h2 | h2 | h2 <;> rcases lenFlag_cases n with h3 | h3 | h3 <;>
    cases multi <;> rw [h1, h2, h3] <;> decide

/-- an encoded TLV is parsed to what was encoded -/
theorem parseTlv_enc (id : Nat) (type ext : UInt8) (idx : Idx) (multi : Bool) (value rest : Bytes) (n : UInt8)
    (hlen : value.length ≤ 65535) (hidx : n > 0 → idx.first < n ∧ idx.last n < n) :
    parseTlv id (enc type ext idx multi value ++ rest) n =
      match tlvValue (encFlags ext idx multi value.length) idx.first (idx.last n) value.length with
      | .ub u => .ub u
      | .err e => .err e
      | .ok (len, m) => .ok (⟨id, type, encFlags ext idx multi value.length, ext, len, idx.first, idx.last n, value, m, []⟩, rest) := by
  obtain ⟨f1, f2, f3, _⟩ := encFlags_and ext idx multi value.length
  unfold parseTlv enc
  simp only [List.cons_append, getU8_c]
  generalize encFlags ext idx multi value.length = flags at f1 f2 f3
  -- extended type
  have he : ∀ x : Bytes, (if flags &&& 0x80 ≠ 0 then getU8 ⟨(if ext ≠ 0 then [ext] else []) ++ x, Verif.Reader.OKAY⟩
      else (0, ⟨(if ext ≠ 0 then [ext] else []) ++ x, Verif.Reader.OKAY⟩)) = (ext, ⟨x, Verif.Reader.OKAY⟩) := by
    intro x
    rw [f1]
    unfold extFlag
    by_cases h : ext = 0
    · simp [h]
    · simp [h, getU8_c]
  simp only [List.append_assoc]
  rw [he]
  -- index
  have hi' : ∀ x : Bytes, parseIndex flags n ⟨idx.bytes ++ x, Verif.Reader.OKAY⟩ = some (idx.first, idx.last n, ⟨x, Verif.Reader.OKAY⟩) := by
    intro x
    unfold parseIndex
    simp only [f2]
    cases idx with
    | all => rfl
    | one i => simp [Idx.flag, Idx.bytes, Idx.first, Idx.last, getU8_c]
    | range i j => simp [Idx.flag, Idx.bytes, Idx.first, Idx.last, getU8_c]
  simp only [hi']
  rw [if_neg (by
    rintro ⟨hn, h⟩
    have := hidx hn
    rcases h with h | h
    · exact absurd this.1 (UInt8.not_lt.2 h)
    · exact absurd this.2 (UInt8.not_lt.2 h))]
  have hl : ∀ x : Bytes, parseLength flags ⟨lenBytes value.length ++ x, Verif.Reader.OKAY⟩ = some (value.length, ⟨x, Verif.Reader.OKAY⟩) := by
    intro x
    unfold parseLength
    simp only [f3]
    unfold lenFlag lenBytes
    split
    · rename_i h
      have h1 := hi_toNat (n := value.length) (by omega)
      have h2 := lo_toNat value.length
      simp only [List.cons_append, List.nil_append]
      rw [if_neg (by decide), if_neg (by decide), if_pos (by decide)]
      simp only [getU16, getU8_c, h1, h2]
      congr 2
      omega
    · split
      · have h2 := lo_toNat value.length
        simp only [List.cons_append, List.nil_append]
        rw [if_neg (by decide), if_pos (by decide)]
        simp only [getU8_c, h2]
        congr 2
        omega
      · rw [if_pos (by decide)]
        have : value.length = 0 := by omega
        simp [this]
  simp only [hl]
  rw [if_neg (by simp), if_neg (by simp)]
  simp only [List.take_left, List.drop_left]
  cases tlvValue flags idx.first (idx.last n) value.length with
  | ok x => rfl
  | err e => rfl
  | ub u => rfl

theorem tlvValue_single {flags i j : UInt8} {n : Nat} (h : flags &&& 0x04 = 0) : tlvValue flags i j n = .ok (n, false) := by
  unfold tlvValue
  simp only [h, ne_eq, not_true, decide_false]
  by_cases hn : n = 0
  · simp [hn]
  · simp [hn]

/-! ### message and packet TLVs -/

theorem writeTlv_enc (type ext : UInt8) (value : Bytes) : writeTlv type ext 0 255 value = enc type ext .all false value := by
  unfold writeTlv enc
  have h1 : ext > 0 ↔ ext ≠ 0 := by
    constructor
    · rintro h rfl
      exact absurd h (by decide)
    · intro h
      rw [gt_iff_lt, UInt8.lt_iff_toNat_lt]
      have : ext.toNat ≠ 0 := fun h' => h (UInt8.toNat_inj.1 h')
      simpa using Nat.pos_of_ne_zero this
  have hf : tlvFlags ext 0 255 value.length = encFlags ext .all false value.length := by
    unfold tlvFlags encFlags extFlag lenFlag Idx.flag
    simp only [h1]
    rw [if_neg (show ¬ ((0 : UInt8) = 255) by decide), if_neg (show ¬ ((0 : UInt8) > 0 ∨ (255 : UInt8) < 255) by decide)]
    by_cases he : ext = 0 <;> by_cases hl : value.length > 255
    · rw [if_neg (by simpa using he), if_pos hl, if_pos (by omega), if_pos hl]; decide
    · rw [if_neg (by simpa using he), if_neg hl, if_neg hl]
      by_cases h0 : value.length > 0 <;> simp [h0]
    · rw [if_pos he, if_pos hl, if_pos (by omega), if_pos hl]; decide
    · rw [if_pos he, if_neg hl, if_neg hl]
      by_cases h0 : value.length > 0 <;> simp [h0]
  rw [hf, if_neg (show ¬ ((0 : UInt8) > 0 ∨ (255 : UInt8) < 255) by decide)]
  simp only [List.append_nil, List.cons_append, List.nil_append, Idx.bytes, List.append_assoc]
  congr 3
  unfold lenBytes
  by_cases hl : value.length > 255
  · rw [if_pos hl, if_pos (by omega), if_pos hl]
    rfl
  · rw [if_neg hl, if_neg hl]
    by_cases h0 : value.length > 0
    · rw [if_pos h0, if_pos h0]
      rfl
    · rw [if_neg h0, if_neg h0]
      have : value = [] := List.length_eq_zero_iff.1 (by omega)
      simp [this]

theorem writeTlv_length (type ext : UInt8) (value : Bytes) :
    (writeTlv type ext 0 255 value).length = calcTlvSize (ext ≠ 0) value.length := by
  rw [writeTlv_enc]
  unfold enc calcTlvSize Idx.bytes lenBytes
  by_cases he : ext = 0 <;> by_cases hl : value.length > 255 <;> by_cases h0 : value.length > 0 <;>
    simp [he, hl, h0] <;> omega

/-- the TLV read from a written one -/
def readTlv (id : Nat) (type ext : UInt8) (value : Bytes) : Tlv :=
  ⟨id, type, encFlags ext .all false value.length, ext, value.length, 0, 255, value, false, []⟩

theorem parseTlv_write (id : Nat) (type ext : UInt8) (value rest : Bytes) (h : value.length ≤ 65535) :
    parseTlv id (writeTlv type ext 0 255 value ++ rest) 0 = .ok (readTlv id type ext value, rest) := by
  rw [writeTlv_enc, parseTlv_enc id type ext .all false value rest 0 h (by intro h; exact absurd h (by decide)), tlvValue_single]
  · rfl
  · exact (encFlags_and ext .all false value.length).2.2.2

end Verif.Writer
