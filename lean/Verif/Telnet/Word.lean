/-
Names of telnet commands: the comparator of the command tree.
Source: `/repo/src/base/oonf_telnet.c`, lines 277-302.

Bytes are natural numbers below 256.  A C string is the list of its bytes without the terminating
NUL; the list itself contains no NUL (`cstr` in `Line.lean` makes sure of that).
-/
namespace Verif.Telnet

/-- Bytes of a C string. -/
abbrev Bytes := List Nat

/-- Value of a `char` when converted to `int` (`oonf_telnet.c:291`); `char` is signed on the
platforms the project is built for. -/
def chr (b : Nat) : Int := if b < 128 then b else (b : Int) - 256

/-- `_avl_comp_strcmdword` (`oonf_telnet.c:283-302`): the difference it returns, and whether it has
read the byte behind the terminating NUL of its first argument.  When both strings end together,
`*txt1++ != 0` (line 296) moves `txt1` behind the NUL before the loop is left, and line 298 reads
`*txt1` there; the value read has no influence, as `diff` is 0 already.  If one string ends or has
a blank where the other has another byte, the loop is left with the difference of the two bytes,
which lines 298-300 replace by 0 if one of them is a blank and the other the NUL. -/
def cmpWord : Bytes → Bytes → Int × Bool
  | [], [] => (0, true)
  | [], b :: _ => if b = 32 then (0, false) else (0 - chr b, false)
  | a :: _, [] => if a = 32 then (0, false) else (chr a - 0, false)
  | a :: s, b :: t =>
    if chr a - chr b ≠ 0 then (chr a - chr b, false)
    else if a = 32 then (0, false)
    else cmpWord s t

end Verif.Telnet
