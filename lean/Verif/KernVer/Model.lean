/-
Which kernel is running: /repo/src/base/os_linux/os_system_linux.c:184-226 and its use in
/repo/src/base/os_linux/os_routing_linux.c:181-190.
-/
namespace Verif.KernVer

/-- `isspace` in the C locale. -/
def isSpace (c : Char) : Bool :=
  c == ' ' || c == '\t' || c == '\n' || c == '\r' || c.toNat == 11 || c.toNat == 12

/-- `isdigit`. -/
def isDigit (c : Char) : Bool := decide (48 ≤ c.toNat) && decide (c.toNat ≤ 57)

/-- The number read from a sequence of digits. -/
def readDigits (ds : List Char) : Nat := ds.foldl (fun n c => 10 * n + (c.toNat - 48)) 0

/-- The sign `strtol` accepts. -/
def sign : List Char → Bool × List Char
  | '-' :: r => (true, r)
  | '+' :: r => (false, r)
  | r => (false, r)

/-- `strtol(s, &next, 10)`: the number, limited to the range of a 64 bit `long`, and the rest of the
text. Without digits the result is 0 and the rest is the whole text. -/
def strtol (s : List Char) : Int × List Char :=
  let p := sign (s.dropWhile isSpace)
  let ds := p.2.takeWhile isDigit
  if ds.isEmpty then (0, s)
  else
    (if p.1 then max (-(readDigits ds : Int)) (-(2 ^ 63)) else min (readDigits ds : Int) (2 ^ 63 - 1),
      p.2.dropWhile isDigit)

/-- The conversion of a `long` to an `int` (the lower 32 bits), as gcc does it. -/
def toInt (x : Int) : Int := (x + 2 ^ 31) % 2 ^ 32 - 2 ^ 31

/-- `os_system_linux_is_minimal_kernel`, os_system_linux.c:184-226. `release` is the `release` field of
`struct utsname`, `none` if `uname` fails. The warnings are left out. -/
def isMinimal (release : Option (List Char)) (v1 v2 v3 : Int) : Bool :=
  match release with
  | none => false
  | some s =>
    let first := strtol s
    if toInt first.1 > v1 then true
    else if toInt first.1 < v1 then false
    else match first.2 with
      | '.' :: r2 =>
        let second := strtol r2
        if toInt second.1 > v2 then true
        else if toInt second.1 < v2 then false
        else match second.2 with
          | '.' :: r3 => decide (toInt (strtol r3).1 ≥ v3)
          | _ => false
      | _ => false

/-- `os_routing_linux_supports_source_specific`, os_routing_linux.c:181-190, with the flag set in
`_init`, os_routing_linux.c:158. -/
def supportsSourceSpecific (release : Option (List Char)) (ipv4 : Bool) : Bool :=
  if ipv4 then false else isMinimal release 3 11 0

end Verif.KernVer
