import Verif.Str.Model
import Verif.IsoNum.Model
import Verif.Acl.Model
import Verif.Bits.Model
/-
Model of the value validators `src/libconfig/cfg_validate.c`, the binary converters
`src/libconfig/cfg_tobin.c` and their schema wrappers `src/libconfig/cfg_schema.c:463-579, 682-836`.

A configuration value is a text (list of non-zero bytes), a list entry a non-empty list of texts.
Error messages are not modelled.
-/
namespace Verif.CfgBin
open Verif.Netaddr (Netaddr strcasecmp)
open Verif.NetText (Inet6 fromString)

abbrev Txt := List UInt8

/-! ### strings -/

/-- `cfg_validate_strlen`, cfg_validate.c:94-105 -/
def validateStrlen (value : Txt) (len : Nat) : Bool := ! decide (value.length > len)

/-- `str_char_is_printable`, include/oonf/libcommon/string.h:124-128 -/
def charIsPrintable (c : UInt8) : Bool := !(c < 32 || c == 127 || c == 255)

/-- `str_is_printable`, src/libcommon/string.c:289-302 -/
def isPrintable : Txt → Bool
  | [] => true
  | c :: cs => if !charIsPrintable c then false else isPrintable cs

/-- `cfg_validate_printable`, cfg_validate.c:68-83 -/
def validatePrintable (value : Txt) (len : Nat) : Bool :=
  if !validateStrlen value len then false else if !isPrintable value then false else true

/-- `strarray_get_first_c` of a non-empty array -/
def first (values : List Txt) : Txt := values.headD []

/-- `value->length` of a string array: every text is stored with a terminating zero -/
def byteLength (values : List Txt) : Nat := (values.map (fun v => v.length + 1)).sum

/-- the guard of the scalar schema converters, cfg_schema.c:684-687 (the same lines at 701, 719, 737,
755, 799 and 830): `true` = conversion refused -/
def listGuard (isList : Bool) (values : List Txt) : Bool :=
  isList && decide ((first values).length < byteLength values)

/-- `cfg_schema_tobin_strarray` with `cfg_tobin_strarray`, cfg_schema.c:699-706 and
cfg_tobin.c:56-68: `mem` is the target of `bin_size` bytes, `none` in the result = -1.  The outer
option is `none` if the copy leaves the target. -/
def tobinStrarray (isList : Bool) (mem : List UInt8) (values : List Txt) (arraySize : Nat) :
    Option (Option (List UInt8)) :=
  if listGuard isList values then some none
  else if mem.length < arraySize then some none
  else
    match Str.strscpy mem (first values) arraySize with
    | none => none
    | some m => some (some m)

/-! ### choices and booleans -/

/-- `cfg_get_choice_index`, cfg.c:187-198, from index `i` on -/
def choiceFrom (key : Txt) : Int → List Txt → Int
  | _, [] => -1
  | i, c :: cs => if strcasecmp key c = 0 then i else choiceFrom key (i + 1) cs

/-- `cfg_get_choice_index`, cfg.c:187-198 -/
def choiceIndex (key : Txt) (choices : List Txt) : Int := choiceFrom key 0 choices

/-- `cfg_validate_choice`, cfg_validate.c:118-132 -/
def validateChoice (value : Txt) (choices : List Txt) : Bool := decide (choiceIndex value choices ≥ 0)

/-- `cfg_schema_tobin_choice` with `cfg_tobin_choice`, cfg_schema.c:717-725 and cfg_tobin.c:82-95,
for a target of the size of an `int` -/
def tobinChoice (isList : Bool) (values : List Txt) (choices : List Txt) : Option Int :=
  if listGuard isList values then none else some (choiceIndex (first values) choices)

/-- `CFGLIST_BOOL_TRUE` and `CFGLIST_BOOL`, cfg_schema.c:77-80 and include/oonf/libconfig/cfg_schema.h:1325-1328 -/
def boolTrue : List Txt := [[116, 114, 117, 101], [49], [111, 110], [121, 101, 115]]
def boolAll : List Txt :=
  [[116, 114, 117, 101], [49], [111, 110], [121, 101, 115], [102, 97, 108, 115, 101], [48], [111, 102, 102], [110, 111]]

/-- `cfg_get_bool`, include/oonf/libconfig/cfg.h:108-111 -/
def getBool (value : Txt) : Bool := decide (choiceIndex value boolTrue ≥ 0)

/-- `cfg_schema_tobin_bool` with `cfg_tobin_bool`, cfg_schema.c:797-804 and cfg_tobin.c:231-243 -/
def tobinBool (isList : Bool) (values : List Txt) : Option Bool :=
  if listGuard isList values then none else some (getBool (first values))

/-! ### integers -/

/-- `for (j = 0, scaling = 1; j < fraction; j++, scaling*=10);` on 64 bit, cfg_validate.c:153 and
cfg_tobin.c:117 -/
def scaling : Nat → Nat
  | 0 => 1
  | n + 1 => scaling n * 10 % IsoNum.W

/-- `cfg_validate_int`, cfg_validate.c:146-196.  The check against the size of the target
(lines 171-179) only prints a message.  `none`: the number parser divides by zero or does not
terminate. -/
def validateInt (value : Txt) (min max : Int) (fraction : Nat) : Option Bool :=
  match IsoNum.toS64 value (scaling fraction) with
  | .ok i => some (if i < min then false else if i > max then false else true)
  | .err => some false
  | .ub => none
  | .hang => none

/-- conversion of a 64 bit number to `int32_t` -/
def wrap32 (i : Int) : Int := Int.bmod i (2 ^ 32)

/-- `cfg_schema_tobin_int` with `cfg_tobin_int`, cfg_schema.c:735-743 and cfg_tobin.c:107-133: the
stored number, inner `none` = -1, outer `none` as in `validateInt` -/
def tobinInt (isList : Bool) (binSize : Nat) (values : List Txt) (fraction intSize : Nat) :
    Option (Option Int) :=
  if listGuard isList values then some none
  else if binSize ≠ intSize then some none
  else
    match IsoNum.toS64 (first values) (scaling fraction) with
    | .ok i => some (if intSize = 4 then some (wrap32 i) else if intSize = 8 then some i else none)
    | .err => some none
    | .ub => none
    | .hang => none

/-! ### addresses and access control lists -/

/-- `cfg_validate_netaddr`, cfg_validate.c:209-254.  `afs` is the array `af_types`; a negative filler
never equals a family, it is left out here. -/
def validateNetaddr (I : Inet6) (pre : Bool) (afs : List UInt8) (value : Txt) : Bool :=
  match fromString I value with
  | none => false
  | some addr =>
    if addr.prefixLen.toNat > Netaddr.maxPrefix addr then false
    else if !pre && addr.prefixLen.toNat != Netaddr.maxPrefix addr then false
    else afs.any (fun f => f == addr.type)

/-- `cfg_schema_tobin_netaddr` with `cfg_tobin_netaddr`, cfg_schema.c:753-760 and cfg_tobin.c:143-154 -/
def tobinNetaddr (I : Inet6) (isList : Bool) (values : List Txt) : Option Netaddr :=
  if listGuard isList values then none else fromString I (first values)

/-- `cfg_validate_acl`, cfg_validate.c:267-281 -/
def validateAcl (I : Inet6) (pre : Bool) (afs : List UInt8) (value : Txt) : Bool :=
  match Acl.handleKeywords {} value with
  | some _ => true
  | none =>
    if value.head? = some 43 ∨ value.head? = some 45 then validateNetaddr I pre afs value.tail
    else validateNetaddr I pre afs value

/-- `cfg_schema_tobin_acl` with `cfg_tobin_acl`, cfg_schema.c:770-773 and cfg_tobin.c:164-176 -/
def tobinAcl (I : Inet6) (values : List Txt) : Acl.Out := Acl.fromStrarray I values

/-! ### bit fields -/

/-- `strtol(s, &end, 10)` of the C library (ISO C 7.22.1.4): value, `errno` set, rest of the text -/
def strtol (s : Txt) : Int × Bool × Txt :=
  let t := s.dropWhile IsoNum.isSpace
  let neg := t.head? == some 45
  let u := if t.head? == some 45 || t.head? == some 43 then t.tail else t
  let ds := u.takeWhile IsoNum.isDigit
  if ds = [] then (0, false, s)
  else
    let v : Int := if neg then - (IsoNum.decVal ds : Int) else IsoNum.decVal ds
    if v > 2 ^ 63 - 1 then (2 ^ 63 - 1, true, u.drop ds.length)
    else if v < - 2 ^ 63 then (- 2 ^ 63, true, u.drop ds.length)
    else (v, false, u.drop ds.length)

/-- "all" and "none", include/oonf/libcommon/bitmap256.h:52-55 -/
def wAll : Txt := [97, 108, 108]
def wNone : Txt := [110, 111, 110, 101]

/-- `cfg_validate_bitmap256`, cfg_validate.c:291-311 -/
def validateBitmap (value : Txt) : Bool :=
  if strcasecmp value wAll = 0 ∨ strcasecmp value wNone = 0 then true
  else
    let r := strtol value
    let num := wrap32 r.1
    if r.2.1 = true ∨ r.2.2 ≠ [] ∨ num < -255 ∨ num > 255 then false else true

/-- conversion of an `int` to the `uint8_t` argument of `bitmap256_set` -/
def toBit (i : Int) : Fin 256 := ⟨(i % 256).toNat, by omega⟩

/-- one step of the loop of `cfg_tobin_bitmap256`, cfg_tobin.c:199-219 -/
def bitmapStep (m : Bits.Bitmap) (ptr : Txt) : Bits.Bitmap :=
  if strcasecmp ptr wAll = 0 then fun _ => BitVec.allOnes 64
  else if strcasecmp ptr wNone = 0 then fun _ => 0#64
  else if ptr.head? = some 45 then
    let r := strtol ptr.tail
    if r.2.1 = false then Bits.bitmapReset m (toBit (wrap32 r.1)) else m
  else
    let r := strtol ptr
    if r.2.1 = false then Bits.bitmapSet m (toBit (wrap32 r.1)) else m

/-- `cfg_tobin_bitmap256`, cfg_tobin.c:186-221, for a target of the right size -/
def tobinBitmap (values : List Txt) : Bits.Bitmap := values.foldl bitmapStep (fun _ => 0#64)

/-! ### lists of texts -/

/-- `cfg_tobin_stringlist`, cfg_tobin.c:253-268 -/
def tobinStringlist (values : List Txt) : List Txt := if first values = [] then [] else values

/-! ### tokens -/

/-- result of the loop of `cfg_validate_tokens` -/
inductive VLoop where
  /-- read behind the array of entries -/
  | fault
  /-- a token is not valid -/
  | reject
  /-- the remaining entries and the position in the text -/
  | done (es : List (Txt → Bool)) (ptr : Option Txt)

/-- the loop of `cfg_validate_tokens`, cfg_validate.c:348-355; an entry is its validator -/
def vloop : List (Txt → Bool) → Nat → Option Txt → VLoop
  | es, 0, ptr => .done es ptr
  | [], _ + 1, _ => .fault
  | e :: es, n + 1, ptr =>
    let r := Str.strCpyNextWord 256 ptr
    if e r.1 then vloop es n r.2 else .reject

/-- `cfg_validate_tokens`, cfg_validate.c:324-366: `none` if memory behind the array of entries is
used or a validator is called with NULL.  The value has less than 2^32 words. -/
def validateTokens (entries : List (Txt → Bool)) (optional : Nat) (custom : Option (Txt → Bool))
    (value : Txt) : Option Bool :=
  let count := Str.strCountWords value
  if count < (entries.length + IsoNum.W - optional) % IsoNum.W then some false
  else
    match vloop entries ((count + 2 ^ 32 - 1) % 2 ^ 32) (some value) with
    | .fault => none
    | .reject => some false
    | .done [] _ => none
    | .done (_ :: _) none => none
    | .done (e :: _) (some ptr) =>
      if !e ptr then some false
      else
        match custom with
        | none => some true
        | some f => some (f value)

/-- an entry of the token list: converter (result `true` = success) and default -/
structure Token where
  conv : Txt → Bool
  dflt : Txt

/-- text for one entry and the position behind it, cfg_tobin.c:294-301 -/
def nextParam (e : Token) : Option Txt → Txt × Option Txt
  | none => (e.dflt, none)
  | some s => Str.strCpyNextWord 256 (some s)

/-- the loop of `cfg_tobin_tokens`, cfg_tobin.c:293-308, over all entries except the last from index
`i` on; result: the position in the text and which text was given to which entry, `none` = -1 -/
def tloop : Nat → List Token → Option Txt → Option (Option Txt × List (Nat × Txt))
  | _, [], next => some (next, [])
  | i, e :: es, next =>
    let r := nextParam e next
    if !e.conv r.1 then none
    else
      match tloop (i + 1) es r.2 with
      | none => none
      | some (n, l) => some (n, (i, r.1) :: l)

/-- `cfg_tobin_tokens`, cfg_tobin.c:280-328, for at least one entry, every entry with a converter and
no customizer: which text was given to which entry, `none` = -1 -/
def tobinTokens (entries : List Token) (value : Txt) : Option (List (Nat × Txt)) :=
  match tloop 0 entries.dropLast (some value) with
  | none => none
  | some (none, l) => some l
  | some (some rest, l) =>
    match entries.getLast? with
    | none => none
    | some e => if !e.conv rest then none else some (l ++ [(entries.length - 1, rest)])

end Verif.CfgBin
