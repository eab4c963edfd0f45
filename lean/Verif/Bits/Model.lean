/-
Model of `bitmap256` and `bitstream` of libcommon.
-/
namespace Verif.Bits

/-! ## bitmap256 -/

/-- `struct bitmap256`, include/oonf/libcommon/bitmap256.h:60-63: four 64 bit words. -/
abbrev Bitmap := Fin 4 → BitVec 64

/-- word index `bit >> 6` of an 8 bit position -/
def wordOf (bit : Fin 256) : Fin 4 := ⟨bit.val >>> 6, by
  have := bit.isLt; rw [Nat.shiftRight_eq_div_pow]; omega⟩
/-- mask `1ull << (bit & 63ull)` -/
def maskOf (bit : Fin 256) : BitVec 64 := 1#64 <<< (bit.val &&& 63)

/-- `bitmap256_get`, bitmap256.h:73-76 -/
def bitmapGet (m : Bitmap) (bit : Fin 256) : Bool := (m (wordOf bit) &&& maskOf bit) != 0#64
/-- `bitmap256_set`, bitmap256.h:83-86 -/
def bitmapSet (m : Bitmap) (bit : Fin 256) : Bitmap :=
  fun i => if i = wordOf bit then m i ||| maskOf bit else m i
/-- `bitmap256_reset`, bitmap256.h:93-96 -/
def bitmapReset (m : Bitmap) (bit : Fin 256) : Bitmap :=
  fun i => if i = wordOf bit then m i &&& ~~~(maskOf bit) else m i
/-- loop of `bitmap256_is_subset`, src/libcommon/bitmap256.c:60-65, over the word indices -/
def subsetLoop (set subset : Bitmap) : List (Fin 4) → Bool
  | [] => true
  | i :: is => if set i ≠ (set i ||| subset i) then false else subsetLoop set subset is
/-- `bitmap256_is_subset`, src/libcommon/bitmap256.c:56-66 -/
def bitmapIsSubset (set subset : Bitmap) : Bool := subsetLoop set subset [0, 1, 2, 3]

/-! ## bitstream -/

/-- `struct bitstream_w` / `struct bitstream_r`, include/oonf/libcommon/bitstream.h: buffer
bytes and bit position.  `length` of the C struct is `buf.length`. -/
structure Stream where
  buf : List (BitVec 8)
  bitOffset : Nat
deriving DecidableEq, Repr

/-- outcome of a stream operation: `ub` is an access outside the buffer -/
inductive Out (α : Type) | ok (a : α) | err | ub
deriving DecidableEq, Repr

/-- `bitstream_w_init` / `bitstream_r_init`, src/libcommon/bitstream.c:20-24, 140-146 -/
def wInit (bytes : Nat) : Stream := ⟨List.replicate bytes 0#8, 0⟩
def rInit (buf : List (BitVec 8)) : Stream := ⟨buf, 0⟩

/-- `while (size > 1)` loop of `bitstream_r_read`, bitstream.c:102-107; first argument is
`size - 1`.  `none` = read outside the buffer. -/
def readLoop (buf : List (BitVec 8)) : Nat → Nat → Nat → Option Nat
  | 0, _, result => some result
  | n + 1, offset, result => do
    let b ← buf[offset + 1]?
    readLoop buf n (offset + 1) ((result <<< 8) % 2 ^ 64 ||| b.toNat)

/-- `bitstream_r_read`, bitstream.c:59-115.  Returns the value and the advanced stream. -/
def rRead (s : Stream) (bits : Int) : Out (Nat × Stream) :=
  if bits ≤ 0 then .ok (0, s)
  else if bits > 56 then .err
  else
    let bits := bits.toNat
    let bitStart := s.bitOffset
    let bitEnd := bitStart + bits
    let offset := bitStart / 8
    let size := (bitEnd + 7) / 8 - offset
    if offset + size > s.buf.length then .err
    else
      match s.buf[offset]? with
      | none => .ub
      | some b0 =>
        let result := if bitStart &&& 7 ≠ 0 then b0.toNat &&& (0xFF >>> (bitStart &&& 7)) else b0.toNat
        match readLoop s.buf (size - 1) offset result with
        | none => .ub
        | some result =>
          let result := if bitEnd &&& 7 ≠ 0 then result >>> (8 - (bitEnd &&& 7)) else result
          .ok (result, { s with bitOffset := s.bitOffset + bits })

/-- `bitstream_r_pad` / `bitstream_w_pad`, bitstream.c:122-130, 239-247 -/
def pad (s : Stream) : Stream :=
  let bits := s.bitOffset &&& 7
  if bits ≠ 0 then { s with bitOffset := s.bitOffset - bits + 8 } else s

/-- `while (size > 0)` loop of `bitstream_w_write`, bitstream.c:224-229.
`none` = write outside the buffer. -/
def writeLoop (buf : List (BitVec 8)) (offset : Nat) : Nat → Nat → Option (List (BitVec 8))
  | 0, _ => some buf
  | size + 1, src => do
    let b ← buf[offset + size]?
    writeLoop (buf.set (offset + size) (b ||| BitVec.ofNat 8 (src &&& 0xFF))) offset size (src >>> 8)

/-- `bitstream_w_write`, bitstream.c:182-232.  `bit_start`/`bit_end` are `uint32_t`.
`none` value of the loop is undefined behaviour. -/
def wWrite (s : Stream) (src : Nat) (bits : Int) : Out Stream :=
  if bits ≤ 0 then .ok s
  else if bits > 56 then .err
  else
    let bits := bits.toNat
    let bitStart := s.bitOffset % 2 ^ 32
    let bitEnd := (bitStart + bits) % 2 ^ 32
    let offset := bitStart / 8
    let size := (bitEnd + 7) % 2 ^ 32 / 8 - offset
    if offset + size > s.buf.length then .err
    else
      let src := src &&& (1 <<< bits - 1)
      let src := if bitEnd &&& 7 ≠ 0 then (src <<< (8 - (bitEnd &&& 7))) % 2 ^ 64 else src
      match writeLoop s.buf offset size src with
      | none => .ub
      | some buf => .ok ⟨buf, s.bitOffset + bits⟩

/-- `bitstream_w_memcpy`, bitstream.c:156-173: note that the stream position is only padded,
the copied bytes are *not* skipped (line 171 updates a local variable). -/
def wMemcpy (s : Stream) (src : List (BitVec 8)) : Out Stream :=
  let s := pad s
  let offset := s.bitOffset / 8
  if offset + src.length > s.buf.length then .err
  else .ok { s with buf := s.buf.take offset ++ src ++ s.buf.drop (offset + src.length) }

/-- `bitstream_r_memcpy`, bitstream.c:34-50 -/
def rMemcpy (s : Stream) (bytes : Nat) : Out (List (BitVec 8) × Stream) :=
  let s := pad s
  let offset := s.bitOffset / 8
  if offset + bytes > s.buf.length then .err
  else .ok ((s.buf.drop offset).take bytes, { s with bitOffset := s.bitOffset + bytes * 8 })

end Verif.Bits
