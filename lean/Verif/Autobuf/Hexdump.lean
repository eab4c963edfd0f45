/-
Hexadecimal dumps: /repo/src/libcommon/autobuf.c:309-360.
-/
namespace Verif.Autobuf.Hexdump

/-- A digit as `%x` prints it. -/
def hexDigit (n : Nat) : Char := if n < 10 then Char.ofNat (48 + n) else Char.ofNat (87 + n)

/-- `%02x` of a byte. -/
def hex2 (b : UInt8) : List Char := [hexDigit (b.toNat / 16), hexDigit (b.toNat % 16)]

/-- `%zx`. -/
def hexNum (n : Nat) : List Char :=
  if n < 16 then [hexDigit n] else hexNum (n / 16) ++ [hexDigit (n % 16)]
termination_by n
decreasing_by omega

/-- `%04zx`: at least four digits, filled with zeros. -/
def hex4 (n : Nat) : List Char := List.replicate (4 - (hexNum n).length) '0' ++ hexNum n

/-- One turn of the first loop of `_print_hexline`, autobuf.c:339-349. -/
def cell (l : List UInt8) (i : Nat) : List Char :=
  (if i % 4 = 0 then [' '] else []) ++ (match l[i]? with | some b => hex2 b | none => [' ', ' '])

/-- One turn of the second loop, autobuf.c:351-359. -/
def glyph (b : UInt8) : Char := if 32 ≤ b.toNat ∧ b.toNat < 127 then Char.ofNat b.toNat else '.'

/-- `_print_hexline`, autobuf.c:335-360. -/
def hexline (l : List UInt8) : List Char :=
  (List.range 32).flatMap (cell l) ++ [' '] ++ l.map glyph

/-- The loop of `abuf_hexdump`, autobuf.c:310-326, from offset `j` on, with the bytes that are left. What happens
without memory is in Model.lean; here is the text that is appended. -/
def dumpFrom (pre : List Char) (j : Nat) (buf : List UInt8) : List Char :=
  if buf = [] then []
  else pre ++ hex4 j ++ [':'] ++ hexline (buf.take 32) ++ ['\n'] ++ dumpFrom pre (j + 32) (buf.drop 32)
termination_by buf.length
decreasing_by
  rename_i h
  have : buf.length ≠ 0 := fun e => h (List.length_eq_zero_iff.mp e)
  simp only [List.length_drop]; omega

/-- `abuf_hexdump`. -/
def hexdump (pre : List Char) (buf : List UInt8) : List Char := dumpFrom pre 0 buf

end Verif.Autobuf.Hexdump
