/-
Model of `src/libcommon/string.c` and `include/oonf/libcommon/string.h`:
hexadecimal conversion, string arrays, word splitting and bounded copy.
C strings are lists of non-zero bytes (the terminating zero is not part of the list).
-/
namespace Verif.Str

/-! ## hexadecimal text -/

/-- the table `HEX` of `strhex_from_bin`, string.c:315 -/
def hexLower : List UInt8 := "0123456789abcdef".toUTF8.toList
/-- the table `HEX` of `_hexchar_to_value`, string.c:558, with its terminating zero byte that
`strchr` also matches -/
def hexTable : List UInt8 := "0123456789abcdefABCDEF".toUTF8.toList ++ [0]

/-- the loop of `strhex_from_bin`, string.c:321-324 -/
def hexLoop : List UInt8 → List UInt8
  | [] => []
  | b :: bs => hexLower.getD (b >>> 4).toNat 0 :: hexLower.getD (b &&& 0x0f).toNat 0 :: hexLoop bs

/-- `strhex_from_bin`, string.c:313-327.  `none` is the error return; the result is the text, its
terminating zero is written too, so the call touches `length + 1` bytes of the buffer. -/
def strhexFromBin (bufferLen : Nat) (src : List UInt8) : Option (List UInt8) :=
  if bufferLen < src.length * 2 + 1 then none else some (hexLoop src)

/-- `_hexchar_to_value`, string.c:557-572.  `none` = -1. -/
def hexcharToValue (c : UInt8) : Option Nat :=
  match hexTable.findIdx? (· == c) with
  | none => none
  | some value => some (if value ≥ 16 then value - 6 else value)

/-- the loop of `strhex_to_bin`, string.c:344-353: bytes written to the buffer and whether the
loop reached the end of the text.  Called with an even number of characters only. -/
def unhexLoop : List UInt8 → List UInt8 × Bool
  | c1 :: c2 :: cs =>
    match hexcharToValue c1, hexcharToValue c2 with
    | some v1, some v2 =>
      let (bs, ok) := unhexLoop cs
      (UInt8.ofNat (v1 <<< 4 ||| v2) :: bs, ok)
    | _, _ => ([], false)
  | _ => ([], true)

/-- `strhex_to_bin`, string.c:336-354: bytes written to the buffer, and the success flag. -/
def strhexToBin (bufferLen : Nat) (src : List UInt8) : List UInt8 × Bool :=
  if src.length % 2 ≠ 0 ∨ bufferLen < src.length / 2 then ([], false) else unhexLoop src

/-! ## string arrays -/

/-- `STRARRAY_MEMSIZE`, string.c:59-62 with `STRARRAY_BLOCKSIZE = 64` (string.h:59); the bit mask
is written as rounding down to a multiple of 64 -/
def memsize (size : Nat) : Nat := (size + 63) / 64 * 64

/-- `struct strarray`, string.h:78-84.  `value` is the allocated memory block (`none` = NULL). -/
structure Arr where
  value : Option (List UInt8)
  length : Nat
deriving DecidableEq, Repr

/-- `strarray_init`, string.h:219-221 -/
def Arr.init : Arr := ⟨none, 0⟩

/-- `realloc(ptr, n)`: keeps the common prefix, new bytes are unspecified (`junk`) -/
def realloc (junk : UInt8) (value : Option (List UInt8)) (n : Nat) : List UInt8 :=
  let old := value.getD []
  old.take n ++ List.replicate (n - old.length) junk

/-- `memcpy(block + off, data, |data|)`; `none` if it would leave the block -/
def writeAt (block : List UInt8) (off : Nat) (data : List UInt8) : Option (List UInt8) :=
  if off + data.length ≤ block.length then
    some (block.take off ++ data ++ block.drop (off + data.length))
  else none

/-- reading `n` bytes at `off`; `none` if it would leave the block -/
def readAt (block : List UInt8) (off n : Nat) : Option (List UInt8) :=
  if off + n ≤ block.length then some ((block.drop off).take n) else none

/-- `strlen(block + off)`; `none` if there is no zero byte inside the block -/
def strlenAt (block : List UInt8) (off : Nat) : Option Nat :=
  (block.drop off).findIdx? (· == 0)

/-- outcome: value, error return (out of memory) or undefined behaviour -/
inductive Out (α : Type) | ok (a : α) | err | ub
deriving DecidableEq, Repr

/-- `strarray_copy`, string.c:363-383 (`mem` = allocation succeeds) -/
def arrCopy (mem : Bool) (junk : UInt8) (dst src : Arr) : Out Arr :=
  match src.value with
  | none => .ok Arr.init
  | some sv =>
    if src.length = 0 then .ok Arr.init
    else if !mem then .err
    else
      let block := memsize src.length
      let ptr := realloc junk dst.value block
      match readAt sv 0 src.length with
      | none => .ub
      | some bytes =>
        match writeAt ptr 0 bytes with
        | none => .ub
        | some ptr =>
          match writeAt ptr src.length (List.replicate (block - src.length) 0) with
          | none => .ub
          | some ptr => .ok ⟨some ptr, src.length⟩

/-- `strarray_append`, string.c:392-410 -/
def arrAppend (mem : Bool) (junk : UInt8) (a : Arr) (string : List UInt8) : Out Arr :=
  let length := string.length + 1
  let newLength := a.length + length
  if !mem then .err
  else
    match writeAt (realloc junk a.value (memsize newLength)) a.length (string ++ [0]) with
    | none => .ub
    | some ptr => .ok ⟨some ptr, newLength⟩

/-- `strarray_prepend`, string.c:419-437 -/
def arrPrepend (mem : Bool) (junk : UInt8) (a : Arr) (string : List UInt8) : Out Arr :=
  let length := string.length + 1
  let newLength := a.length + length
  if !mem then .err
  else
    let ptr := realloc junk a.value (memsize newLength)
    match readAt ptr 0 a.length with
    | none => .ub
    | some old =>
      match writeAt ptr length old with
      | none => .ub
      | some ptr =>
        match writeAt ptr 0 (string ++ [0]) with
        | none => .ub
        | some ptr => .ok ⟨some ptr, newLength⟩

/-- `strarray_remove_ext`, string.c:445-477.  `element` is the offset of the element inside the
array; `shrink` tells whether the block is reallocated (`resize` set and `realloc` succeeds). -/
def arrRemove (shrink : Bool) (junk : UInt8) (a : Arr) (element : Nat) : Out Arr :=
  match a.value with
  | none => .ub
  | some block =>
    match strlenAt block element with
    | none => .ub
    | some l =>
      let len := l + 1
      if len = a.length then .ok Arr.init
      else if a.length < len then .ub
      else
        let newLength := a.length - len
        let moved :=
          if element ≤ newLength then
            match readAt block (element + len) (newLength - element) with
            | none => none
            | some rest => writeAt block element rest
          else some block
        match moved with
        | none => .ub
        | some block =>
          if shrink then .ok ⟨some (realloc junk (some block) (memsize newLength)), newLength⟩
          else .ok ⟨some block, newLength⟩

/-- `strarray_for_each_element`, string.h:355-357: offsets of the visited elements.
`fuel` is at least the number of bytes left (each step advances by at least one). -/
def forEach (block : List UInt8) (length : Nat) : Nat → Nat → Out (List Nat)
  | 0, ptr => if ptr < length then .ub else .ok []
  | fuel + 1, ptr =>
    if ptr < length then
      match strlenAt block ptr with
      | none => .ub
      | some l =>
        match forEach block length fuel (ptr + (l + 1)) with
        | .ok ps => .ok (ptr :: ps)
        | .err => .err
        | .ub => .ub
    else .ok []

/-- offsets visited by a loop over the array -/
def arrElements (a : Arr) : Out (List Nat) :=
  match a.value with
  | none => .ok []
  | some block => forEach block a.length a.length 0

/-- `strarray_get_count`, string.c:483-492 -/
def arrCount (a : Arr) : Out Nat :=
  match arrElements a with
  | .ok ps => .ok ps.length
  | .err => .err
  | .ub => .ub

/-- `strarray_get`, string.c:499-511: offset of the string, or NULL.  The early return inside the
loop is expressed by indexing the list of visited offsets. -/
def arrGet (a : Arr) (idx : Nat) : Out (Option Nat) :=
  match arrElements a with
  | .ok ps => .ok ps[idx]?
  | .err => .err
  | .ub => .ub

/-- the C string at an offset of the array -/
def stringAt (a : Arr) (off : Nat) : Option (List UInt8) := do
  let block ← a.value
  let l ← strlenAt block off
  some ((block.drop off).take l)

/-- `memcmp` on two byte lists of the same length: sign of the first difference -/
def memcmp : List UInt8 → List UInt8 → Int
  | a :: as, b :: bs => if a < b then -1 else if b < a then 1 else memcmp as bs
  | _, _ => 0

/-- `strarray_cmp`, string.c:520-549 (only the sign of `memcmp` is modelled) -/
def arrCmp (a1 a2 : Arr) : Out Int :=
  match a1.value, a2.value with
  | none, none => .ok 0
  | none, some _ => .ok (-1)
  | some _, none => .ok 1
  | some b1, some b2 =>
    let minLen := if a1.length > a2.length then a2.length else a1.length
    match readAt b1 0 minLen, readAt b2 0 minLen with
    | some m1, some m2 =>
      let result := memcmp m1 m2
      if result = 0 then
        if a1.length > a2.length then .ok 1
        else if a1.length < a2.length then .ok (-1)
        else .ok result
      else .ok result
    | _, _ => .ub

/-! ## words -/

/-- `isblank` in the C locale -/
def isBlank (c : UInt8) : Bool := c == 32 || c == 9
/-- `tolower` in the C locale -/
def toLower (c : UInt8) : UInt8 := if 65 ≤ c ∧ c ≤ 90 then c + 32 else c

/-- `while (isblank(*p)) p++` -/
def skipBlank (s : List UInt8) : List UInt8 := s.dropWhile isBlank

/-- the comparison loop of `str_hasnextword`, string.c:160-163: remaining word and buffer -/
def hasWordLoop : List UInt8 → List UInt8 → List UInt8 × List UInt8
  | w :: ws, b :: bs =>
    if !isBlank b && toLower w == toLower b then hasWordLoop ws bs else (w :: ws, b :: bs)
  | ws, bs => (ws, bs)

/-- `str_hasnextword`, string.c:149-173: `none` = NULL, otherwise the rest of the buffer -/
def strHasNextWord (buffer word : List UInt8) : Option (List UInt8) :=
  let (w, b) := hasWordLoop word (skipBlank buffer)
  match w, b with
  | [], [] => some []
  | [], c :: cs => if isBlank c then some (skipBlank (c :: cs)) else none
  | _, _ => none

/-- the copy loop of `str_cpynextword`, string.c:200-203; `n` is `len - 1` -/
def cpyLoop : Nat → List UInt8 → List UInt8 × List UInt8
  | n + 1, c :: cs =>
    if isBlank c then ([], c :: cs)
    else
      let (d, rest) := cpyLoop n cs
      (c :: d, rest)
  | _, s => ([], s)

/-- `str_cpynextword`, string.c:184-219 for a buffer of `len ≥ 1` bytes: copied word and the
returned pointer (`none` = NULL).  A NULL source copies the empty word. -/
def strCpyNextWord (len : Nat) (src : Option (List UInt8)) : List UInt8 × Option (List UInt8) :=
  match src with
  | none => ([], none)
  | some s =>
    let (d, rest) := cpyLoop (len - 1) (skipBlank s)
    let rest := skipBlank rest
    (d, if rest = [] then none else some rest)

/-- `str_skipnextword`, string.c:227-256 -/
def strSkipNextWord (s : List UInt8) : Option (List UInt8) :=
  let s := skipBlank s
  let s := s.dropWhile (fun c => !isBlank c)
  let s := skipBlank s
  if s = [] then none else some s

/-- the loop of `str_countwords`, string.c:272-277; `fuel` ≥ number of characters -/
def countLoop : Nat → Option (List UInt8) → Nat
  | 0, _ => 0
  | fuel + 1, src =>
    match src with
    | none => 0
    | some s => if s = [] then 0 else 1 + countLoop fuel (strSkipNextWord s)

/-- `str_countwords`, string.c:262-280 -/
def strCountWords (src : List UInt8) : Nat := countLoop (src.length + 1) (some (skipBlank src))

/-! ## bounded copy -/

/-- `strncpy(dest, src, n)`: copies at most `n` bytes and fills the rest of the `n` bytes with
zeros; `dest` is the target block, `none` if it would leave the block -/
def strncpy (dest : List UInt8) (off : Nat) (src : List UInt8) (n : Nat) : Option (List UInt8) :=
  writeAt dest off (src.take n ++ List.replicate (n - src.length) 0)

/-- `strscpy(dest + off, src, size)`, string.c:73-84, for non-NULL arguments -/
def strscpyAt (dest : List UInt8) (off : Nat) (src : List UInt8) (size : Nat) : Option (List UInt8) :=
  if size = 0 then some dest
  else do
    let d ← strncpy dest off src (size - 1)
    writeAt d (off + (size - 1)) [0]

/-- `strscpy`, string.c:73-84 -/
def strscpy (dest : List UInt8) (src : List UInt8) (size : Nat) : Option (List UInt8) :=
  strscpyAt dest 0 src size

/-- `strscat`, string.c:98-112 -/
def strscat (dest : List UInt8) (src : List UInt8) (size : Nat) : Option (List UInt8) :=
  if size = 0 ∨ src = [] then some dest
  else do
    let l ← strlenAt dest 0
    if l < size then strscpyAt dest l src (size - l) else some dest

end Verif.Str
