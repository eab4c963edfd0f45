import Verif.CfgBin.Model
import Verif.Acl.Props
import Verif.IsoNum.Props
import Verif.Bits.Props
import Verif.Str.Props
/-
C110: a validated text, choice, boolean or number is stored with its value.
C111: a validated address, access control list or bit field is stored with its meaning.
-/
namespace Verif.CfgBin
open Verif.Netaddr (Netaddr strcasecmp lowerCase)
open Verif.NetText (Inet6 fromString)
open Verif.Acl (SameWord)

/-! ### Specification -/

/-- the memory holds the text as a C string -/
def Holds (mem : List UInt8) (t : Txt) : Prop := mem.take t.length = t ∧ mem[t.length]? = some 0

/-- `x` is the first position of `choices` with a text equal to `v` up to case -/
def ChosenAt (v : Txt) (choices : List Txt) (x : Nat) : Prop :=
  (∃ c, choices[x]? = some c ∧ SameWord v c) ∧ ∀ y c, y < x → choices[y]? = some c → ¬ SameWord v c

/-- a decimal number with an optional minus sign -/
def Decimal (v : Txt) (n : Int) : Prop :=
  ∃ (neg : Bool) (ds : Txt), v = (if neg then [45] else []) ++ ds ∧ ds ≠ [] ∧ IsoNum.Digits ds ∧
    n = if neg then - (IsoNum.decVal ds : Int) else IsoNum.decVal ds

/-! ### Lemmas -/

theorem same_iff (a b : Txt) : strcasecmp a b = 0 ↔ SameWord a b := by
  unfold SameWord
  rw [show lowerCase = Netaddr.toLower from funext Netaddr.lowerCase_eq]
  exact Netaddr.strcasecmp_zero a b

theorem strlen_zero {d : List UInt8} {n : Nat} (h : Str.strlenAt d 0 = some n) : d[n]? = some 0 := by
  unfold Str.strlenAt at h
  rw [List.drop_zero] at h
  obtain ⟨h1, h2, _⟩ := List.findIdx?_eq_some_iff_getElem.1 h
  rw [List.getElem?_eq_getElem h1]
  simpa using h2

theorem choiceFrom_spec (v : Txt) : ∀ (choices : List Txt) (i : Int), 0 ≤ i →
    (choiceFrom v i choices = -1 ∧ ∀ c ∈ choices, ¬ SameWord v c) ∨
    (∃ x : Nat, choiceFrom v i choices = i + x ∧ ChosenAt v choices x) := by
  intro choices
  induction choices with
  | nil => intro i _; exact Or.inl ⟨rfl, by simp⟩
  | cons c cs ih =>
    intro i hi
    unfold choiceFrom
    by_cases h : strcasecmp v c = 0
    · rw [if_pos h]
      right
      exact ⟨0, by simp, ⟨c, rfl, (same_iff _ _).1 h⟩, fun y c hy => absurd hy (by omega)⟩
    · rw [if_neg h]
      have hn : ¬ SameWord v c := fun hs => h ((same_iff _ _).2 hs)
      rcases ih (i + 1) (by omega) with ⟨h1, h2⟩ | ⟨x, h1, ⟨d, h2, h3⟩, h4⟩
      · left
        refine ⟨h1, ?_⟩
        intro d hd
        rcases List.mem_cons.1 hd with rfl | hd
        · exact hn
        · exact h2 d hd
      · right
        refine ⟨x + 1, by rw [h1]; push_cast; omega, ⟨d, by simpa using h2, h3⟩, ?_⟩
        intro y e hy he
        cases y with
        | zero =>
          simp only [List.getElem?_cons_zero, Option.some.injEq] at he
          rw [← he]; exact hn
        | succ y => exact h4 y e (by omega) (by simpa using he)

theorem chosenAt_mem {v choices x} (h : ChosenAt v choices x) : ∃ c ∈ choices, SameWord v c := by
  obtain ⟨⟨c, h1, h2⟩, _⟩ := h
  exact ⟨c, List.mem_of_getElem? h1, h2⟩

theorem scaling_eq : ∀ n, n ≤ 19 → scaling n = 10 ^ n := by
  decide +kernel

theorem wrap32_id (i : Int) (h1 : - 2 ^ 31 ≤ i) (h2 : i < 2 ^ 31) : wrap32 i = i := by
  unfold wrap32
  rw [Int.bmod_def]
  split <;> omega

/-! ### C110 -/

/-- **C110** (texts): a text shorter than the target array is stored completely and terminated, and
nothing behind the array is changed. -/
theorem C110_string_partial (mem : List UInt8) (v : Txt) (size : Nat) (h0 : (0 : UInt8) ∉ v)
    (hm : size ≤ mem.length) (hv : v.length < size) :
    validateStrlen v size = true ∧
    ∃ m, tobinStrarray false mem [v] size = some (some m) ∧ m.length = mem.length ∧
      m.drop size = mem.drop size ∧ Holds m v := by
  obtain ⟨d, h1, h2, h3, h4, h5⟩ := Str.C56_copy mem v size (by omega) hm h0
  refine ⟨by simp [validateStrlen]; omega, d, ?_, h2, h3, ?_⟩
  · simp [tobinStrarray, listGuard, first, h1]
    omega
  · have e : min v.length (size - 1) = v.length := by omega
    rw [e] at h4 h5
    refine ⟨by rw [h5, List.take_of_length_le (by omega)], ?_⟩
    exact strlen_zero h4

/-- **C110** is false for a text of exactly the size of the array: it passes the validation, the
conversion reports success, but the last character is lost. -/
theorem C110_string_counterexample (mem : List UInt8) (v : Txt) (size : Nat) (h0 : (0 : UInt8) ∉ v)
    (hm : size ≤ mem.length) (hs : 0 < size) (hv : v.length = size) :
    validateStrlen v size = true ∧
    ∃ m, tobinStrarray false mem [v] size = some (some m) ∧ Holds m v.dropLast ∧ ¬ Holds m v := by
  obtain ⟨d, h1, h2, h3, h4, h5⟩ := Str.C56_copy mem v size (by omega) hm h0
  have e : min v.length (size - 1) = v.length - 1 := by omega
  rw [e] at h4 h5
  have hz : d[v.length - 1]? = some 0 := strlen_zero h4
  refine ⟨by simp [validateStrlen]; omega, d, ?_, ⟨?_, ?_⟩, ?_⟩
  · simp [tobinStrarray, listGuard, first, h1]
    omega
  · rw [List.length_dropLast, h5, List.dropLast_eq_take, ← hv]
  · rw [List.length_dropLast]; exact hz
  · rintro ⟨h6, _⟩
    apply h0
    have : v[v.length - 1]? = some 0 := by
      have hz2 : (d.take v.length)[v.length - 1]? = some 0 := by
        rw [List.getElem?_take_of_lt (by omega)]
        exact hz
      rw [h6] at hz2
      exact hz2
    exact List.mem_of_getElem? this

/-- **C110** (printable texts): the validator accepts exactly the texts within the length whose
characters are printable ASCII or of the upper half (except 255). -/
theorem C110_printable (v : Txt) (len : Nat) :
    validatePrintable v len = true ↔
      v.length ≤ len ∧ ∀ c ∈ v, 32 ≤ c.toNat ∧ c.toNat ≠ 127 ∧ c.toNat ≠ 255 := by
  have hc : ∀ c, charIsPrintable c = true ↔ 32 ≤ c.toNat ∧ c.toNat ≠ 127 ∧ c.toNat ≠ 255 := by
    intro c
    simp only [charIsPrintable, Bool.not_eq_true', Bool.or_eq_false_iff, decide_eq_false_iff_not,
      UInt8.lt_iff_toNat_lt, beq_eq_false_iff_ne, ne_eq, UInt8.toNat_inj.symm]
    simp only [show (32 : UInt8).toNat = 32 from rfl, show (127 : UInt8).toNat = 127 from rfl,
      show (255 : UInt8).toNat = 255 from rfl]
    omega
  have hp : ∀ v, isPrintable v = true ↔ ∀ c ∈ v, charIsPrintable c = true := by
    intro v
    induction v with
    | nil => simp [isPrintable]
    | cons c cs ih =>
      unfold isPrintable
      cases h : charIsPrintable c <;> simp [h, ih]
  unfold validatePrintable
  have : (∀ c ∈ v, 32 ≤ c.toNat ∧ c.toNat ≠ 127 ∧ c.toNat ≠ 255) ↔ isPrintable v = true := by
    rw [hp]; simp only [hc]
  rw [this]
  unfold validateStrlen
  by_cases h : v.length ≤ len
  · cases hv : isPrintable v <;> simp [h, Nat.not_lt.2 h]
  · simp [h, Nat.not_le.1 h]

/-- **C110** (choices): a value is accepted exactly if it is one of the choices up to case, and then
the position of the first such choice is stored. -/
theorem C110_choice (v : Txt) (choices : List Txt) :
    (validateChoice v choices = true ↔ ∃ c ∈ choices, SameWord v c) ∧
    (validateChoice v choices = true →
      ∃ x : Nat, tobinChoice false [v] choices = some x ∧ ChosenAt v choices x) := by
  have h := choiceFrom_spec v choices 0 (by omega)
  have e : validateChoice v choices = true ↔ choiceFrom v 0 choices ≥ 0 := by
    simp [validateChoice, choiceIndex]
  rw [e]
  rcases h with ⟨h1, h2⟩ | ⟨x, h1, h2⟩
  · refine ⟨⟨fun h => absurd h (by rw [h1]; omega), fun ⟨c, hc, hs⟩ => absurd hs (h2 c hc)⟩,
      fun h => absurd h (by rw [h1]; omega)⟩
  · refine ⟨⟨fun _ => chosenAt_mem h2, fun _ => by rw [h1]; omega⟩, fun _ => ⟨x, ?_, h2⟩⟩
    simp [tobinChoice, listGuard, choiceIndex, first, h1]

/-- **C110** is false without validation: a value that is no choice is converted successfully, into
the position -1. -/
theorem C110_unknown_choice_counterexample (v : Txt) (choices : List Txt)
    (h : ∀ c ∈ choices, ¬ SameWord v c) : tobinChoice false [v] choices = some (-1) := by
  rcases choiceFrom_spec v choices 0 (by omega) with ⟨h1, _⟩ | ⟨x, _, h2⟩
  · simp [tobinChoice, listGuard, choiceIndex, first, h1]
  · obtain ⟨c, hc, hs⟩ := chosenAt_mem h2
    exact absurd hs (h c hc)

/-- **C110** (booleans): exactly the eight words (up to case) are accepted; the first four are stored
as true, the other four as false. -/
theorem C110_bool (v : Txt) :
    (validateChoice v boolAll = true ↔
      ∃ w ∈ ["true", "1", "on", "yes", "false", "0", "off", "no"], SameWord v w.toUTF8.toList) ∧
    (validateChoice v boolAll = true → ∃ b, tobinBool false [v] = some b ∧
      (b = true ↔ ∃ w ∈ ["true", "1", "on", "yes"], SameWord v w.toUTF8.toList) ∧
      (b = false ↔ ∃ w ∈ ["false", "0", "off", "no"], SameWord v w.toUTF8.toList)) := by
  have eAll : boolAll = (["true", "1", "on", "yes", "false", "0", "off", "no"] : List String).map
      (fun w => w.toUTF8.toList) := by decide +kernel
  have eTrue : boolTrue = (["true", "1", "on", "yes"] : List String).map
      (fun w => w.toUTF8.toList) := by decide +kernel
  have h1 := (C110_choice v boolAll).1
  have h2 := (C110_choice v boolTrue).1
  have hb : getBool v = true ↔ ∃ w ∈ (["true", "1", "on", "yes"] : List String), SameWord v w.toUTF8.toList := by
    show validateChoice v boolTrue = true ↔ _
    rw [h2, eTrue]
    simp only [List.mem_map]
    constructor
    · rintro ⟨c, ⟨w, hw, rfl⟩, hs⟩; exact ⟨w, hw, hs⟩
    · rintro ⟨w, hw, hs⟩; exact ⟨_, ⟨w, hw, rfl⟩, hs⟩
  have ha : validateChoice v boolAll = true ↔
      ∃ w ∈ (["true", "1", "on", "yes", "false", "0", "off", "no"] : List String), SameWord v w.toUTF8.toList := by
    rw [h1, eAll]
    simp only [List.mem_map]
    constructor
    · rintro ⟨c, ⟨w, hw, rfl⟩, hs⟩; exact ⟨w, hw, hs⟩
    · rintro ⟨w, hw, hs⟩; exact ⟨_, ⟨w, hw, rfl⟩, hs⟩
  have hdis : ∀ w ∈ (["true", "1", "on", "yes"] : List String), ∀ u ∈ (["false", "0", "off", "no"] : List String),
      ¬ SameWord w.toUTF8.toList u.toUTF8.toList := by decide +kernel
  refine ⟨ha, fun hv => ⟨getBool v, by simp [tobinBool, listGuard, first], hb, ?_⟩⟩
  have hv := ha.1 hv
  constructor
  · intro hf
    obtain ⟨w, hw, hs⟩ := hv
    have hcase : w ∈ (["true", "1", "on", "yes"] : List String) ∨ w ∈ (["false", "0", "off", "no"] : List String) := by
      exact List.mem_append.1 (show w ∈ (["true", "1", "on", "yes"] ++ ["false", "0", "off", "no"] : List String) from hw)
    rcases hcase with h | h
    · exact absurd (hb.2 ⟨w, h, hs⟩) (by simp [hf])
    · exact ⟨w, h, hs⟩
  · rintro ⟨u, hu, hs⟩
    cases hg : getBool v with
    | false => rfl
    | true =>
      obtain ⟨w, hw, hs'⟩ := hb.1 hg
      exact absurd (hs'.symm.trans hs) (hdis w hw u hu)

/-- **C110** (numbers): a whole decimal number is accepted exactly if it lies in the configured range
(in units of the last fractional digit), and it is stored with its value if the range fits into the
target. -/
theorem C110_int_partial (v : Txt) (n : Int) (min max : Int) (fraction size : Nat) (hv : Decimal v n)
    (hf : fraction ≤ 19) (hn : n.natAbs * 10 ^ fraction < 2 ^ 63)
    (hsize : size = 8 ∨ (size = 4 ∧ - 2 ^ 31 ≤ min ∧ max < 2 ^ 31)) :
    (validateInt v min max fraction = some true ↔ min ≤ n * 10 ^ fraction ∧ n * 10 ^ fraction ≤ max) ∧
    validateInt v min max fraction ≠ none ∧
    (validateInt v min max fraction = some true →
      tobinInt false size [v] fraction size = some (some (n * 10 ^ fraction))) := by
  obtain ⟨neg, ds, rfl, hne, hd, rfl⟩ := hv
  have hpos : 0 < 10 ^ fraction := Nat.pow_pos (by omega)
  have hlt : IsoNum.decVal ds * 10 ^ fraction < 2 ^ 63 := by
    have : (if neg = true then - (IsoNum.decVal ds : Int) else (IsoNum.decVal ds : Int)).natAbs = IsoNum.decVal ds := by
      cases neg <;> simp
    rw [this] at hn; exact hn
  have hs := IsoNum.C16_signed_partial ds neg (10 ^ fraction) hne hd hpos hlt
  have hval : (if neg = true then - ((IsoNum.decVal ds * 10 ^ fraction : Nat) : Int)
      else ((IsoNum.decVal ds * 10 ^ fraction : Nat) : Int)) =
      (if neg = true then - (IsoNum.decVal ds : Int) else (IsoNum.decVal ds : Int)) * 10 ^ fraction := by
    cases neg <;> simp [Int.neg_mul]
  rw [hval] at hs
  generalize (if neg = true then - (IsoNum.decVal ds : Int) else (IsoNum.decVal ds : Int)) * 10 ^ fraction = x at *
  generalize (if neg = true then [45] else []) ++ ds = t at *
  have hvi : validateInt t min max fraction =
      some (if x < min then false else if x > max then false else true) := by
    unfold validateInt
    rw [scaling_eq _ hf, hs]
  rw [hvi]
  have hrange : (some (if x < min then false else if x > max then false else true) = some true) ↔ min ≤ x ∧ x ≤ max := by
    by_cases h1 : x < min
    · simp [h1]; omega
    · by_cases h2 : x > max
      · rw [if_neg h1, if_pos h2]; simp only [Option.some.injEq, Bool.false_eq_true, false_iff]; omega
      · rw [if_neg h1, if_neg h2]; simp only [true_iff]; omega
  refine ⟨hrange, by simp, fun h => ?_⟩
  have hr := hrange.1 h
  unfold tobinInt
  simp only [listGuard, Bool.false_and, Bool.false_eq_true, if_false, first, List.headD_cons]
  rw [if_neg (by simp), scaling_eq _ hf, hs]
  dsimp only
  rcases hsize with rfl | ⟨rfl, h1, h2⟩
  · rfl
  · rw [if_pos rfl, wrap32_id x (by omega) (by omega)]

/-- **C110** (numbers in any notation): a number that passed the validation is converted
successfully, and the stored number is the validated one, inside the configured range, if the range
fits into the target. -/
theorem C110_int_range (v : Txt) (min max : Int) (fraction size : Nat)
    (hsize : size = 8 ∨ (size = 4 ∧ - 2 ^ 31 ≤ min ∧ max < 2 ^ 31))
    (h : validateInt v min max fraction = some true) :
    ∃ x, tobinInt false size [v] fraction size = some (some x) ∧ min ≤ x ∧ x ≤ max := by
  unfold validateInt at h
  unfold tobinInt
  simp only [listGuard, Bool.false_and, Bool.false_eq_true, if_false, first, List.headD_cons]
  rw [if_neg (by simp)]
  cases hs : IsoNum.toS64 v (scaling fraction) with
  | ok x =>
    rw [hs] at h
    dsimp only at h ⊢
    by_cases h1 : x < min
    · simp [h1] at h
    · by_cases h2 : x > max
      · simp [h1, h2] at h
      · refine ⟨x, ?_, by omega, by omega⟩
        rcases hsize with rfl | ⟨rfl, h3, h4⟩
        · rfl
        · rw [if_pos rfl, wrap32_id x (by omega) (by omega)]
  | err => rw [hs] at h; simp at h
  | ub => rw [hs] at h; simp at h
  | hang => rw [hs] at h; simp at h

/-- **C110** is false if the configured range exceeds a target of four bytes: the check against the
size of the target only prints a message, 4294967301 is accepted and stored as 5. -/
theorem C110_truncated_counterexample :
    validateInt "4294967301".toUTF8.toList 0 (2 ^ 40) 0 = some true ∧
    tobinInt false 4 ["4294967301".toUTF8.toList] 0 4 = some (some 5) := by decide +kernel

/-- **C110** is false for the parameter "window" of `simple_security` (simple_security.c:150-151): one
argument too many in the macro makes its range 0 to 1 (`false` to `1`), so that its own default, 100,
is refused when it is configured. -/
theorem C110_window_counterexample :
    validateInt "100".toUTF8.toList 0 1 0 = some false ∧
    tobinInt false 4 ["100".toUTF8.toList] 0 4 = some (some 100) := by decide +kernel

/-- **C110** (lists): no entry declared as a list can be converted by a scalar converter, even if the
list contains a single value: the comparison forgets the terminating zero. -/
theorem C110_single_list_counterexample (v : Txt) (mem : List UInt8) (choices : List Txt)
    (size binSize fraction intSize : Nat) (I : Inet6) :
    tobinStrarray true mem [v] size = some none ∧ tobinChoice true [v] choices = none ∧
    tobinBool true [v] = none ∧ tobinInt true binSize [v] fraction intSize = some none ∧
    tobinNetaddr I true [v] = none := by
  have : listGuard true [v] = true := by simp [listGuard, first, byteLength]
  simp [tobinStrarray, tobinChoice, tobinBool, tobinInt, tobinNetaddr, this]

example : tobinStrarray false (List.replicate 6 7) [[101, 116, 104, 48]] 5
    = some (some [101, 116, 104, 48, 0, 7]) := by decide +kernel
example : validateStrlen [101, 116, 104, 48] 4 = true ∧
    tobinStrarray false (List.replicate 6 7) [[101, 116, 104, 48]] 4
    = some (some [101, 116, 104, 0, 7, 7]) := by decide +kernel
example : tobinChoice false [[79, 78]] boolAll = some 2 ∧ tobinBool false [[79, 78]] = some true := by
  decide +kernel
example : Decimal [45, 49, 50] (-12) := ⟨true, [49, 50], rfl, by simp, by unfold IsoNum.Digits; decide, by decide⟩
example : tobinInt false 4 [[45, 49, 50]] 3 4 = some (some (-12000)) := by decide +kernel

/-! ### C111 -/

/-- the address may be used: family and prefix are allowed -/
def Allowed (pre : Bool) (afs : List UInt8) (a : Netaddr) : Prop :=
  a.type ∈ afs ∧ a.prefixLen.toNat ≤ Netaddr.maxPrefix a ∧ (pre = false → a.prefixLen.toNat = Netaddr.maxPrefix a)

theorem validateNetaddr_iff (I : Inet6) (pre : Bool) (afs : List UInt8) (v : Txt) :
    validateNetaddr I pre afs v = true ↔ ∃ a, fromString I v = some a ∧ Allowed pre afs a := by
  unfold validateNetaddr
  cases h : fromString I v with
  | none => simp
  | some a =>
    dsimp only
    simp only [Option.some.injEq, exists_eq_left', Allowed]
    by_cases h1 : a.prefixLen.toNat > Netaddr.maxPrefix a
    · rw [if_pos h1]; simp; intro _; omega
    · rw [if_neg h1]
      have hany : (afs.any (fun f => f == a.type)) = true ↔ a.type ∈ afs := by
        simp [List.any_eq_true]
      cases pre with
      | true => simp [hany]; intro _; omega
      | false =>
        by_cases h2 : a.prefixLen.toNat = Netaddr.maxPrefix a
        · simp [h2, hany]
        · simp [h2]

/-- **C111** (addresses): a text is accepted exactly if it denotes an address with an allowed family
and prefix, and then this address is stored. -/
theorem C111_netaddr (I : Inet6) (pre : Bool) (afs : List UInt8) (v : Txt) :
    validateNetaddr I pre afs v = true ↔
      ∃ a, fromString I v = some a ∧ Allowed pre afs a ∧ tobinNetaddr I false [v] = some a := by
  rw [validateNetaddr_iff]
  constructor
  · rintro ⟨a, h1, h2⟩; exact ⟨a, h1, h2, by simp [tobinNetaddr, listGuard, first, h1]⟩
  · rintro ⟨a, h1, h2, _⟩; exact ⟨a, h1, h2⟩

theorem keyword_iff (acl : Acl.Acl) (v : Txt) : Acl.handleKeywords acl v = none ↔ Acl.isEntry v = true := by
  have z : ∀ n, strcasecmp v n = 0 ↔ SameWord v n := fun n => same_iff v n
  have e1 : Acl.wDefaultAccept = Acl.DEFAULT_ACCEPT := by decide +kernel
  have e2 : Acl.wDefaultReject = Acl.DEFAULT_REJECT := by decide +kernel
  have e3 : Acl.wFirstAccept = Acl.FIRST_ACCEPT := by decide +kernel
  have e4 : Acl.wFirstReject = Acl.FIRST_REJECT := by decide +kernel
  unfold Acl.handleKeywords Acl.isEntry Acl.isOrderWord Acl.isDefaultWord
  rw [e1, e2, e3, e4]
  simp only [z]
  by_cases h1 : SameWord v Acl.DEFAULT_ACCEPT <;> by_cases h2 : SameWord v Acl.DEFAULT_REJECT <;>
    by_cases h3 : SameWord v Acl.FIRST_ACCEPT <;> by_cases h4 : SameWord v Acl.FIRST_REJECT <;>
    simp [h1, h2, h3, h4]

theorem validateAcl_iff (I : Inet6) (pre : Bool) (afs : List UInt8) (v : Txt) :
    validateAcl I pre afs v = true ↔
      Acl.isEntry v = false ∨ ∃ a, fromString I (Acl.entryText v) = some a ∧ Allowed pre afs a := by
  unfold validateAcl
  cases h : Acl.handleKeywords {} v with
  | some x =>
    have : Acl.isEntry v = false := by
      cases he : Acl.isEntry v with
      | false => rfl
      | true => rw [(keyword_iff {} v).2 he] at h; cases h
    simp [this]
  | none =>
    have : Acl.isEntry v = true := (keyword_iff {} v).1 h
    rw [this]
    simp only [Bool.true_eq_false, false_or]
    rw [← validateNetaddr_iff]
    unfold Acl.entryText
    by_cases h1 : v.head? = some 45 ∨ v.head? = some 43
    · rw [if_pos h1, if_pos (h1.symm)]
      cases v <;> simp
    · rw [if_neg h1, if_neg (fun h => h1 h.symm)]

theorem mapM_some {α β} (f : α → Option β) : ∀ (l : List α), (∀ x ∈ l, ∃ y, f x = some y) →
    ∃ r, l.mapM f = some r ∧ ∀ y ∈ r, ∃ x ∈ l, f x = some y := by
  intro l
  induction l with
  | nil => intro _; exact ⟨[], by simp, by simp⟩
  | cons x xs ih =>
    intro h
    obtain ⟨y, hy⟩ := h x (by simp)
    obtain ⟨r, hr, hm⟩ := ih (fun z hz => h z (by simp [hz]))
    refine ⟨y :: r, by simp [List.mapM_cons, hy, hr], ?_⟩
    intro z hz
    rcases List.mem_cons.1 hz with rfl | hz
    · exact ⟨x, by simp, hy⟩
    · obtain ⟨w, hw, e⟩ := hm z hz
      exact ⟨w, by simp [hw], e⟩

/-- **C111** (access control lists): if every value of the list passed the validation then the
conversion succeeds, the stored list is the one the values mean, and every entry has an allowed
family and prefix. -/
theorem C111_acl (I : Inet6) (pre : Bool) (afs : List UInt8) (vs : List Txt)
    (h : ∀ v ∈ vs, validateAcl I pre afs v = true) :
    ∃ acl, tobinAcl I vs = .ok acl ∧ Acl.meaning I vs = some acl ∧
      ∀ a, a ∈ acl.accept ∨ a ∈ acl.reject → Allowed pre afs a := by
  have hent : ∀ w ∈ vs.filter Acl.isEntry, ∃ a, fromString I (Acl.entryText w) = some a ∧ Allowed pre afs a := by
    intro w hw
    rw [List.mem_filter] at hw
    rcases (validateAcl_iff I pre afs w).1 (h w hw.1) with h1 | h1
    · rw [h1] at hw; simp at hw
    · exact h1
  obtain ⟨r1, e1, m1⟩ := mapM_some (fun w => fromString I (Acl.entryText w))
    ((vs.filter Acl.isEntry).filter (fun w => !Acl.isReject w))
    (fun w hw => by obtain ⟨a, ha, _⟩ := hent w (List.mem_filter.1 hw).1; exact ⟨a, ha⟩)
  obtain ⟨r2, e2, m2⟩ := mapM_some (fun w => fromString I (Acl.entryText w))
    ((vs.filter Acl.isEntry).filter Acl.isReject)
    (fun w hw => by obtain ⟨a, ha, _⟩ := hent w (List.mem_filter.1 hw).1; exact ⟨a, ha⟩)
  have hmean : ∃ acl, Acl.meaning I vs = some acl ∧ acl.accept = r1 ∧ acl.reject = r2 := by
    unfold Acl.meaning
    simp only [e1, e2]
    exact ⟨_, rfl, rfl, rfl⟩
  obtain ⟨acl, h1, h2, h3⟩ := hmean
  refine ⟨acl, ?_, h1, ?_⟩
  · unfold tobinAcl
    rw [Acl.C22_configuration, h1]
  · rintro a (ha | ha)
    · rw [h2] at ha
      obtain ⟨w, hw, e⟩ := m1 a ha
      obtain ⟨a', e', al⟩ := hent w (List.mem_filter.1 hw).1
      rw [e'] at e; cases e; exact al
    · rw [h3] at ha
      obtain ⟨w, hw, e⟩ := m2 a ha
      obtain ⟨a', e', al⟩ := hent w (List.mem_filter.1 hw).1
      rw [e'] at e; cases e; exact al

/-- what a value of a bit field says -/
inductive Item where
  | all | none
  | on (n : Fin 256)
  | off (n : Fin 256)
deriving DecidableEq

/-- the texts of the items: the words in any case, decimal numbers up to 255, a minus sign in front
of the number switches it off -/
inductive Denotes : Txt → Item → Prop
  | all (v) : SameWord v "all".toUTF8.toList → Denotes v .all
  | none (v) : SameWord v "none".toUTF8.toList → Denotes v .none
  | on (ds) (n : Fin 256) : ds ≠ [] → IsoNum.Digits ds → IsoNum.decVal ds = n.val → Denotes ds (.on n)
  | off (ds) (n : Fin 256) : ds ≠ [] → IsoNum.Digits ds → IsoNum.decVal ds = n.val → Denotes (45 :: ds) (.off n)

/-- what an item says about bit `i` -/
def Item.says (i : Fin 256) : Item → Option Bool
  | .all => some true
  | .none => some false
  | .on n => if n = i then some true else Option.none
  | .off n => if n = i then some false else Option.none

theorem strtol_digits (ds : Txt) (hne : ds ≠ []) (hd : IsoNum.Digits ds) (hv : IsoNum.decVal ds ≤ 255) :
    strtol ds = ((IsoNum.decVal ds : Int), false, []) ∧
    strtol (45 :: ds) = (- (IsoNum.decVal ds : Int), false, []) := by
  have hd' : ∀ c ∈ ds, IsoNum.isDigit c = true := fun c hc => (IsoNum.isDigit_iff c).2 (hd c hc)
  obtain ⟨c, cs, rfl⟩ := List.exists_cons_of_ne_nil hne
  have hc := hd c (by simp)
  have hsp : IsoNum.isSpace c = false := by
    have h1 : 48 ≤ c.toNat := by have := hc.1; rw [UInt8.le_iff_toNat_le] at this; exact this
    simp only [IsoNum.isSpace, Bool.or_eq_false_iff, beq_eq_false_iff_ne, ne_eq, Bool.and_eq_false_iff,
      decide_eq_false_iff_not, UInt8.le_iff_toNat_le]
    constructor
    · rintro rfl; simp at h1
    · right; simp only [show (13 : UInt8).toNat = 13 from rfl]; omega
  have h45 : c ≠ 45 := by rintro rfl; exact absurd hc.1 (by decide)
  have h43 : c ≠ 43 := by rintro rfl; exact absurd hc.1 (by decide)
  have htw : (c :: cs).takeWhile IsoNum.isDigit = c :: cs := by
    have : ∀ l : Txt, (∀ c ∈ l, IsoNum.isDigit c = true) → l.takeWhile IsoNum.isDigit = l := by
      intro l
      induction l with
      | nil => intro _; rfl
      | cons x xs ih => intro h; rw [List.takeWhile_cons, h x (by simp), if_pos rfl, ih (fun c hc => h c (by simp [hc]))]
    exact this _ hd'
  constructor
  · unfold strtol
    simp only [List.dropWhile_cons, hsp, Bool.false_eq_true, if_false, List.head?_cons]
    have : (some c == some (45 : UInt8)) = false := by simp [h45]
    have h2 : (some c == some (43 : UInt8)) = false := by simp [h43]
    simp only [this, h2, Bool.or_self, Bool.false_eq_true, if_false, htw]
    rw [if_neg (by simp), if_neg (by omega), if_neg (by omega)]
    simp
  · unfold strtol
    have : IsoNum.isSpace 45 = false := by decide
    simp only [List.dropWhile_cons, this, Bool.false_eq_true, if_false, List.head?_cons, List.tail_cons]
    simp only [beq_self_eq_true, Bool.true_or, if_true, htw]
    rw [if_neg (by simp), if_neg (by omega), if_neg (by omega)]
    simp

theorem toBit_fin (n : Fin 256) : toBit (wrap32 (n.val : Int)) = n := by
  have : wrap32 (n.val : Int) = n.val := wrap32_id _ (by omega) (by have := n.isLt; omega)
  rw [this]
  apply Fin.ext
  show ((n.val : Int) % 256).toNat = n.val
  have := n.isLt
  omega

/-- a number is none of the two words -/
theorem digits_word (ds : Txt) (hne : ds ≠ []) (hd : IsoNum.Digits ds) (w : Txt)
    (hw : ∃ c cs, w = c :: cs ∧ 97 ≤ c.toNat ∧ c.toNat ≤ 122) :
    strcasecmp ds w ≠ 0 ∧ strcasecmp (45 :: ds) w ≠ 0 := by
  obtain ⟨e, es, rfl, h1, h2⟩ := hw
  obtain ⟨c, cs, rfl⟩ := List.exists_cons_of_ne_nil hne
  have hc := hd c (by simp)
  have hc2 : c.toNat ≤ 57 := by have := hc.2; rw [UInt8.le_iff_toNat_le] at this; exact this
  have lowId : ∀ x : UInt8, ¬ (65 ≤ x.toNat ∧ x.toNat ≤ 90) → Netaddr.toLower x = x := by
    intro x hx
    unfold Netaddr.toLower
    rw [if_neg]
    simpa [UInt8.le_iff_toNat_le] using hx
  constructor
  · intro h
    rw [Netaddr.strcasecmp_zero] at h
    simp only [List.map_cons, List.cons.injEq] at h
    rw [lowId c (by omega), lowId e (by omega)] at h
    rw [h.1] at hc2; omega
  · intro h
    rw [Netaddr.strcasecmp_zero] at h
    simp only [List.map_cons, List.cons.injEq] at h
    rw [lowId 45 (by decide), lowId e (by omega)] at h
    rw [← h.1] at h1; exact absurd h1 (by decide)

theorem bitmapStep_spec (m : Bits.Bitmap) (v : Txt) (it : Item) (h : Denotes v it) (i : Fin 256) :
    Bits.bitmapGet (bitmapStep m v) i = (it.says i).getD (Bits.bitmapGet m i) ∧
    validateBitmap v = true := by
  have eAll : "all".toUTF8.toList = wAll := by decide +kernel
  have eNone : "none".toUTF8.toList = wNone := by decide +kernel
  cases h with
  | all v h =>
    rw [eAll] at h
    have h := (same_iff _ _).2 h
    refine ⟨?_, by simp [validateBitmap, h]⟩
    unfold bitmapStep
    rw [if_pos h, (Bits.C09_empty_full i).2]
    rfl
  | none v h =>
    rw [eNone] at h
    have h := (same_iff _ _).2 h
    refine ⟨?_, by simp [validateBitmap, h]⟩
    have hn : strcasecmp v wAll ≠ 0 := by
      intro h'
      rw [same_iff] at h h'
      have : SameWord wAll wNone := h'.symm.trans h
      exact absurd this (by decide +kernel)
    unfold bitmapStep
    rw [if_neg hn, if_pos h, (Bits.C09_empty_full i).1]
    rfl
  | on _ n hne hd hv =>
    have h1 := (digits_word v hne hd wAll ⟨97, _, rfl, by decide, by decide⟩).1
    have h2 := (digits_word v hne hd wNone ⟨110, _, rfl, by decide, by decide⟩).1
    have hs := (strtol_digits v hne hd (by have := n.isLt; omega)).1
    rw [hv] at hs
    have hw : wrap32 (n.val : Int) = n.val := wrap32_id _ (by omega) (by have := n.isLt; omega)
    have h45 : v.head? ≠ some 45 := by
      intro h
      obtain ⟨c, cs, rfl⟩ := List.exists_cons_of_ne_nil hne
      simp only [List.head?_cons, Option.some.injEq] at h
      exact absurd (hd c (by simp)).1 (by rw [h]; decide)
    constructor
    · unfold bitmapStep
      rw [if_neg h1, if_neg h2, if_neg h45, hs]
      dsimp only
      rw [if_pos rfl, toBit_fin, Bits.C09_set]
      unfold Item.says
      by_cases hi : n = i
      · simp [hi]
      · have hi2 : ¬ i = n := fun h => hi h.symm
        simp [hi, hi2]
    · unfold validateBitmap
      rw [if_neg (by simp [h1, h2]), hs]
      dsimp only
      rw [hw, if_neg]
      have := n.isLt
      simp
      omega
  | off ds n hne hd hv =>
    have h1 := (digits_word ds hne hd wAll ⟨97, _, rfl, by decide, by decide⟩).2
    have h2 := (digits_word ds hne hd wNone ⟨110, _, rfl, by decide, by decide⟩).2
    have hs := (strtol_digits ds hne hd (by have := n.isLt; omega))
    rw [hv] at hs
    constructor
    · unfold bitmapStep
      rw [if_neg h1, if_neg h2, if_pos (by simp), List.tail_cons, hs.1]
      dsimp only
      rw [if_pos rfl, toBit_fin, Bits.C09_reset]
      unfold Item.says
      by_cases hi : n = i
      · simp [hi]
      · have hi2 : ¬ i = n := fun h => hi h.symm
        simp [hi, hi2]
    · unfold validateBitmap
      rw [if_neg (by simp [h1, h2]), hs.2]
      dsimp only
      have hlt := n.isLt
      rw [wrap32_id _ (by omega) (by omega), if_neg]
      simp
      omega

/-- pairwise -/
inductive AllDenote : List Txt → List Item → Prop
  | nil : AllDenote [] []
  | cons {v it vs its} : Denotes v it → AllDenote vs its → AllDenote (v :: vs) (it :: its)

/-- **C111** (bit fields): for every list of items in their regular notation the validation accepts
every value, and a bit is set exactly if the last item that says something about it switches it
on. -/
theorem C111_bitmap_partial (vs : List Txt) (its : List Item) (h : AllDenote vs its) :
    (∀ v ∈ vs, validateBitmap v = true) ∧
    ∀ i, Bits.bitmapGet (tobinBitmap vs) i = ((its.filterMap (Item.says i)).getLast?).getD false := by
  have key : (∀ v ∈ vs, validateBitmap v = true) ∧
      ∀ (m : Bits.Bitmap) (i : Fin 256), Bits.bitmapGet (vs.foldl bitmapStep m) i
        = ((its.filterMap (Item.says i)).getLast?).getD (Bits.bitmapGet m i) := by
    induction h with
    | nil => exact ⟨by simp, fun m i => rfl⟩
    | @cons v it vs its hd _ ih =>
      constructor
      · intro w hw
        rcases List.mem_cons.1 hw with rfl | hw
        · exact (bitmapStep_spec (fun _ => 0#64) _ it hd 0).2
        · exact ih.1 w hw
      · intro m i
        rw [List.foldl_cons, ih.2, (bitmapStep_spec m v it hd i).1, List.filterMap_cons]
        cases hs : it.says i with
        | none => rfl
        | some b =>
          dsimp only
          cases hl : List.filterMap (Item.says i) its with
          | nil => rfl
          | cons x xs => simp [List.getLast?_cons]
  refine ⟨key.1, fun i => ?_⟩
  unfold tobinBitmap
  rw [key.2, (Bits.C09_empty_full i).1]

/-- texts the validation of a bit field item accepts: "all", "none", the empty text, and a number of type `long` with optional white space
and sign in front, which is between -255 and 255 modulo 2^32 -/
def BitText (v : Txt) : Prop :=
  SameWord v wAll ∨ SameWord v wNone ∨ v = [] ∨
  ∃ (sp sign ds : Txt) (n k : Int), v = sp ++ sign ++ ds ∧ (∀ c ∈ sp, IsoNum.isSpace c = true) ∧ ds ≠ [] ∧ IsoNum.Digits ds ∧
    ((sign = [] ∧ n = IsoNum.decVal ds) ∨ (sign = [43] ∧ n = IsoNum.decVal ds) ∨ (sign = [45] ∧ n = -(IsoNum.decVal ds : Int))) ∧
    - 2 ^ 63 ≤ n ∧ n < 2 ^ 63 ∧ -255 ≤ n - k * 2 ^ 32 ∧ n - k * 2 ^ 32 ≤ 255

theorem wrap32_range (n : Int) : (-255 ≤ wrap32 n ∧ wrap32 n ≤ 255) ↔ ∃ k : Int, -255 ≤ n - k * 2 ^ 32 ∧ n - k * 2 ^ 32 ≤ 255 := by
  unfold wrap32
  have h1 : Int.bmod n (2 ^ 32) = n % 2 ^ 32 ∨ Int.bmod n (2 ^ 32) = n % 2 ^ 32 - 2 ^ 32 := by
    rw [Int.bmod_def]
    split
    · exact .inl rfl
    · exact .inr rfl
  have h2 : -(2 ^ 31) ≤ Int.bmod n (2 ^ 32) ∧ Int.bmod n (2 ^ 32) < 2 ^ 31 := by
    have a := Int.le_bmod (x := n) (m := 2 ^ 32) (by decide)
    have b := Int.bmod_lt (x := n) (m := 2 ^ 32) (by decide)
    omega
  constructor
  · intro h
    rcases h1 with h1 | h1
    · exact ⟨n / 2 ^ 32, by omega, by omega⟩
    · exact ⟨n / 2 ^ 32 + 1, by omega, by omega⟩
  · rintro ⟨k, h3, h4⟩
    omega

theorem takeWhile_all {p : UInt8 → Bool} (l : Txt) (h : ∀ c ∈ l, p c = true) : l.takeWhile p = l := by
  induction l with
  | nil => rfl
  | cons x xs ih => rw [List.takeWhile_cons, h x (by simp), if_pos rfl, ih (fun c hc => h c (by simp [hc]))]

theorem dropWhile_all {p : UInt8 → Bool} (l m : Txt) (h : ∀ c ∈ l, p c = true) : (l ++ m).dropWhile p = m.dropWhile p := by
  induction l with
  | nil => rfl
  | cons x xs ih => rw [List.cons_append, List.dropWhile_cons, h x (by simp), if_pos rfl, ih (fun c hc => h c (by simp [hc]))]

theorem takeWhile_prop {p : UInt8 → Bool} (l : Txt) : ∀ c ∈ l.takeWhile p, p c = true := by
  induction l with
  | nil => exact fun _ h => (nomatch h)
  | cons x xs ih =>
    intro c hc
    rw [List.takeWhile_cons] at hc
    split at hc
    · rcases List.mem_cons.1 hc with rfl | hc
      · assumption
      · exact ih c hc
    · cases hc

theorem digit_noSpace {c : UInt8} (hc : 48 ≤ c ∧ c ≤ 57) : IsoNum.isSpace c = false ∧ c ≠ 45 ∧ c ≠ 43 := by
  have h1 : 48 ≤ c.toNat := by have := hc.1; rw [UInt8.le_iff_toNat_le] at this; exact this
  refine ⟨?_, ?_, ?_⟩
  · simp only [IsoNum.isSpace, Bool.or_eq_false_iff, beq_eq_false_iff_ne, ne_eq, Bool.and_eq_false_iff,
      decide_eq_false_iff_not, UInt8.le_iff_toNat_le]
    constructor
    · rintro rfl; simp at h1
    · right; simp only [show (13 : UInt8).toNat = 13 from rfl]; omega
  · rintro rfl; exact absurd hc.1 (by decide)
  · rintro rfl; exact absurd hc.1 (by decide)

/-- **C111** (bit fields): exactly these texts are accepted. -/
theorem C111_bitmap_accepted (v : Txt) : validateBitmap v = true ↔ BitText v := by
  unfold validateBitmap BitText
  by_cases hw : strcasecmp v wAll = 0 ∨ strcasecmp v wNone = 0
  · rw [if_pos hw]
    rw [same_iff, same_iff] at hw
    constructor
    · intro _
      rcases hw with h | h
      · exact .inl h
      · exact .inr (.inl h)
    · exact fun _ => rfl
  · rw [if_neg hw]
    rw [same_iff, same_iff] at hw
    have hw1 : ¬SameWord v wAll := fun h => hw (.inl h)
    have hw2 : ¬SameWord v wNone := fun h => hw (.inr h)
    dsimp only
    constructor
    · intro h
      refine .inr (.inr ?_)
      have hc : ¬((strtol v).2.1 = true ∨ (strtol v).2.2 ≠ [] ∨ wrap32 (strtol v).1 < -255 ∨ wrap32 (strtol v).1 > 255) := by
        intro hc
        rw [if_pos hc] at h
        cases h
      have c1 : (strtol v).2.1 = false := by
        cases hb : (strtol v).2.1
        · rfl
        · exact absurd (.inl hb) hc
      have c2 : (strtol v).2.2 = [] := Classical.byContradiction fun hb => hc (.inr (.inl hb))
      have c3 : -255 ≤ wrap32 (strtol v).1 ∧ wrap32 (strtol v).1 ≤ 255 :=
        ⟨Classical.byContradiction fun hb => hc (.inr (.inr (.inl (by omega)))), Classical.byContradiction fun hb => hc (.inr (.inr (.inr (by omega))))⟩
      clear hc h
      have hv : v = v.takeWhile IsoNum.isSpace ++ v.dropWhile IsoNum.isSpace := List.takeWhile_append_dropWhile.symm
      unfold strtol at c1 c2 c3
      dsimp only at c1 c2 c3
      generalize ht : v.dropWhile IsoNum.isSpace = t at *
      generalize hu : (if (t.head? == some 45 || t.head? == some 43) = true then t.tail else t) = u at *
      by_cases hds : u.takeWhile IsoNum.isDigit = []
      · rw [if_pos hds] at c2
        exact .inl c2
      right
      rw [if_neg hds] at c1 c2 c3
      have hdig : IsoNum.Digits (u.takeWhile IsoNum.isDigit) := fun c hc => (IsoNum.isDigit_iff c).1 (takeWhile_prop u c hc)
      generalize hn : (if (t.head? == some 45) = true then -(IsoNum.decVal (u.takeWhile IsoNum.isDigit) : Int)
        else (IsoNum.decVal (u.takeWhile IsoNum.isDigit) : Int)) = n at *
      by_cases h1 : n > 2 ^ 63 - 1
      · rw [if_pos h1] at c1; cases c1
      rw [if_neg h1] at c1 c2 c3
      by_cases h2 : n < - 2 ^ 63
      · rw [if_pos h2] at c1; cases c1
      rw [if_neg h2] at c1 c2 c3
      dsimp only at c2 c3
      obtain ⟨k, k1, k2⟩ := (wrap32_range n).1 c3
      have hud : u.takeWhile IsoNum.isDigit = u := by
        have hl := List.drop_eq_nil_iff.1 c2
        have hp := List.takeWhile_prefix (p := IsoNum.isDigit) (l := u)
        exact hp.eq_of_length_le hl
      rw [hud] at hds hdig hn
      have hsp := takeWhile_prop (p := IsoNum.isSpace) v
      cases t with
      | nil =>
        rw [if_neg (by decide)] at hu
        exact absurd hu.symm hds
      | cons c t =>
        by_cases h45 : c = 45
        · subst h45
          have e1 : (((45 : UInt8) :: t).head? == some 45 || ((45 : UInt8) :: t).head? == some 43) = true := rfl
          have e2 : (((45 : UInt8) :: t).head? == some 45) = true := rfl
          rw [if_pos e1] at hu
          rw [if_pos e2] at hn
          rw [List.tail_cons] at hu
          subst hu
          exact ⟨v.takeWhile IsoNum.isSpace, [45], t, n, k, by rw [List.append_assoc]; exact hv, hsp, hds, hdig, .inr (.inr ⟨rfl, hn.symm⟩), by omega, by omega, k1, k2⟩
        · by_cases h43 : c = 43
          · subst h43
            have e1 : (((43 : UInt8) :: t).head? == some 45 || ((43 : UInt8) :: t).head? == some 43) = true := rfl
            have e2 : ¬(((43 : UInt8) :: t).head? == some 45) = true := by simp
            rw [if_pos e1] at hu
            rw [if_neg e2] at hn
            rw [List.tail_cons] at hu
            subst hu
            exact ⟨v.takeWhile IsoNum.isSpace, [43], t, n, k, by rw [List.append_assoc]; exact hv, hsp, hds, hdig, .inr (.inl ⟨rfl, hn.symm⟩), by omega, by omega, k1, k2⟩
          · have e1 : ¬((c :: t).head? == some 45 || (c :: t).head? == some 43) = true := by simp [h45, h43]
            have e2 : ¬((c :: t).head? == some 45) = true := by simp [h45]
            rw [if_neg e1] at hu
            rw [if_neg e2] at hn
            subst hu
            exact ⟨v.takeWhile IsoNum.isSpace, [], c :: t, n, k, by rw [List.append_nil]; exact hv, hsp, hds, hdig, .inl ⟨rfl, hn.symm⟩, by omega, by omega, k1, k2⟩
    · rintro (h | h | rfl | ⟨sp, sign, ds, n, k, rfl, hsp, hne, hd, hsign, n1, n2, k1, k2⟩)
      · exact absurd h hw1
      · exact absurd h hw2
      · decide
      · have hr := (wrap32_range n).2 ⟨k, k1, k2⟩
        have htw : ds.takeWhile IsoNum.isDigit = ds := takeWhile_all ds fun c hc => (IsoNum.isDigit_iff c).2 (hd c hc)
        have hst : strtol (sp ++ sign ++ ds) = (n, false, []) := by
          unfold strtol
          rw [List.append_assoc, dropWhile_all _ _ hsp]
          obtain ⟨c, cs, rfl⟩ := List.exists_cons_of_ne_nil hne
          obtain ⟨d1, d2, d3⟩ := digit_noSpace (hd c (by simp))
          rcases hsign with ⟨rfl, hn⟩ | ⟨rfl, hn⟩ | ⟨rfl, hn⟩
          · have e : ([] ++ c :: cs : Txt).dropWhile IsoNum.isSpace = c :: cs := by rw [List.nil_append, List.dropWhile_cons, d1]; rfl
            dsimp only
            rw [e]
            have e1 : ¬((c :: cs).head? == some 45 || (c :: cs).head? == some 43) = true := by simp [d2, d3]
            have e2 : ¬((c :: cs).head? == some 45) = true := by simp [d2]
            rw [if_neg e1, if_neg e2, htw, if_neg hne, ← hn, if_neg (by omega), if_neg (by omega), List.drop_length]
          · have e : ([43] ++ c :: cs : Txt).dropWhile IsoNum.isSpace = 43 :: c :: cs := rfl
            dsimp only
            rw [e]
            have e1 : (((43 : UInt8) :: c :: cs).head? == some 45 || ((43 : UInt8) :: c :: cs).head? == some 43) = true := rfl
            have e2 : ¬(((43 : UInt8) :: c :: cs).head? == some 45) = true := by simp
            rw [if_pos e1, if_neg e2, List.tail_cons, htw, if_neg hne, ← hn, if_neg (by omega), if_neg (by omega), List.drop_length]
          · have e : ([45] ++ c :: cs : Txt).dropWhile IsoNum.isSpace = 45 :: c :: cs := rfl
            dsimp only
            rw [e]
            have e1 : (((45 : UInt8) :: c :: cs).head? == some 45 || ((45 : UInt8) :: c :: cs).head? == some 43) = true := rfl
            have e2 : (((45 : UInt8) :: c :: cs).head? == some 45) = true := rfl
            rw [if_pos e1, if_pos e2, List.tail_cons, htw, if_neg hne, ← hn, if_neg (by omega), if_neg (by omega), List.drop_length]
        rw [hst, if_neg]
        dsimp only
        rintro (h | h | h | h)
        · cases h
        · exact h rfl
        · omega
        · omega

example : BitText [43, 50, 53, 53] ∧ validateBitmap [50, 53, 54] = false ∧ validateBitmap [53, 120] = false := by
  refine ⟨.inr (.inr (.inr ⟨[], [43], [50, 53, 53], 255, 0, rfl, (fun _ h => nomatch h), by decide, ?_, .inr (.inl ⟨rfl, rfl⟩), by decide, by decide, by decide, by decide⟩)),
    by decide +kernel, by decide +kernel⟩
  unfold IsoNum.Digits
  decide

/-- **C111** is false for other texts: an empty value is accepted and switches bit 0 on, a number
beyond 32 bit is accepted modulo 2^32, and a negative number behind a blank is accepted and switches
another bit on instead of off. -/
theorem C111_bitmap_counterexample :
    (validateBitmap [] = true ∧ Bits.bitmapGet (tobinBitmap [[]]) 0 = true) ∧
    (validateBitmap "4294967301".toUTF8.toList = true ∧
      Bits.bitmapGet (tobinBitmap ["4294967301".toUTF8.toList]) 5 = true) ∧
    (validateBitmap " -5".toUTF8.toList = true ∧
      Bits.bitmapGet (tobinBitmap ["all".toUTF8.toList, " -5".toUTF8.toList]) 5 = true ∧
      Bits.bitmapGet (tobinBitmap [" -5".toUTF8.toList]) 251 = true) := by decide +kernel

/-- **C111** (lists of texts): the list is stored unchanged, or empty if its first text is empty. -/
theorem C111_stringlist_partial (v : Txt) (vs : List Txt) :
    (v ≠ [] → tobinStringlist (v :: vs) = v :: vs) ∧ (v = [] → tobinStringlist (v :: vs) = []) := by
  constructor <;> intro h <;> simp [tobinStringlist, first, h]

example : AllDenote ["ALL".toUTF8.toList, [45, 48, 48, 55], [55], [45, 50, 48, 48]]
    [.all, .off 7, .on 7, .off 200] :=
  .cons (.all _ (by decide +kernel))
    (.cons (.off [48, 48, 55] 7 (by simp) (by unfold IsoNum.Digits; decide) (by decide))
      (.cons (.on [55] 7 (by simp) (by unfold IsoNum.Digits; decide) (by decide))
        (.cons (.off [50, 48, 48] 200 (by simp) (by unfold IsoNum.Digits; decide) (by decide)) .nil)))
example : validateNetaddr NetText.demo true [2] "10.1.0.0/16".toUTF8.toList = true ∧
    validateNetaddr NetText.demo false [2] "10.1.0.0/16".toUTF8.toList = false := by decide +kernel
example : ∀ v ∈ ["first_reject".toUTF8.toList, "-10.1.0.0/16".toUTF8.toList, "10.0.0.0/8".toUTF8.toList],
    validateAcl NetText.demo true [2] v = true := by decide +kernel

end Verif.CfgBin
