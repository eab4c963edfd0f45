/-
Model of `src/libcommon/isonumber.c`: decimal numbers with a fraction and an ISO prefix.
Strings are lists of non-zero bytes; 64 bit unsigned integers are natural numbers below 2^64 with
every arithmetic result reduced explicitly.
-/
namespace Verif.IsoNum

abbrev Txt := List UInt8

/-- 2^64 -/
def W : Nat := 18446744073709551616

inductive Result where
  /-- return value 0 with the stored number -/
  | ok (v : Nat)
  /-- return value -1 -/
  | err
  /-- division by zero -/
  | ub
  /-- endless loop -/
  | hang
deriving DecidableEq, Repr

def isDigit (c : UInt8) : Bool := 48 ≤ c && c ≤ 57

def digitVal (c : UInt8) : Nat := c.toNat - 48

/-- `isspace` of the C locale -/
def isSpace (c : UInt8) : Bool := c == 32 || (9 ≤ c && c ≤ 13)

/-- value of a text of decimal digits -/
def decVal (ds : Txt) : Nat := ds.foldl (fun a c => a * 10 + digitVal c) 0

/-- `strtoull(iso, &next, 10)` of the C library (ISO C 7.22.1.4): optional white space, optional
sign, digits.  Result: the converted value (`none`: `errno` is set to ERANGE) and the rest of the
text.  Without any digit nothing is consumed and the value is 0. -/
def strtoull (s : Txt) : Option Nat × Txt :=
  let t := s.dropWhile isSpace
  let neg := t.head? == some 45
  let u := if t.head? == some 45 || t.head? == some 43 then t.tail else t
  let ds := u.takeWhile isDigit
  let rest := u.dropWhile isDigit
  if ds = [] then (some 0, s)
  else if decVal ds ≥ W then (none, rest)
  else (some (if neg then (W - decVal ds) % W else decVal ds), rest)

/-- the fraction loop of `isonumber_to_u64`, isonumber.c:180-186 -/
def fracLoop : Txt → Nat → Nat → Txt × Nat × Nat
  | [], num, fs => ([], num, fs)
  | c :: cs, num, fs =>
    if isDigit c then fracLoop cs ((num * 10 % W + digitVal c) % W) (fs * 10 % W)
    else (c :: cs, num, fs)

/-- `while (fraction_scale < scaling)`, isonumber.c:188-191.  64 multiplications by ten modulo 2^64
yield 0 for ever, so running out of 65 steps means that the loop does not terminate. -/
def scaleUp (scaling : Nat) : Nat → Nat → Nat → Option (Nat × Nat)
  | 0, _, _ => none
  | n + 1, num, fs =>
    if fs < scaling then scaleUp scaling n (num * 10 % W) (fs * 10 % W) else some (num, fs)

/-- position of a prefix in `" kMGTPE"` (isonumber.c:157, 206) -/
def prefixIndex (c : UInt8) : Option Nat :=
  [32, 107, 77, 71, 84, 80, 69].findIdx? (· == c)

/-- `while (fraction_scale > scaling && fraction_scale >= 1000)`, isonumber.c:218-226.  Seven rounds
are enough because 1000^7 > 2^64. -/
def scaleDown (scaling : Nat) : Nat → Nat → Nat → Nat → Nat × Nat × Nat
  | 0, num, factor, fs => (num, factor, fs)
  | n + 1, num, factor, fs =>
    if fs > scaling ∧ fs ≥ 1000 then
      if factor > 1 then scaleDown scaling n num (factor / 1000) (fs / 1000)
      else scaleDown scaling n (num / 1000) factor (fs / 1000)
    else (num, factor, fs)

/-- `isonumber_to_u64`, isonumber.c:155-234 -/
def toU64 (iso : Txt) (scaling : Nat) : Result :=
  match strtoull iso with
  | (none, _) => .err
  | (some num, next) =>
    if next = [] then
      if scaling = 0 then .ub
      else if num > (W - 1) / scaling then .err
      else .ok (num * scaling % W)
    else
      let r := if next.head? == some 46 then fracLoop next.tail num 1 else (next, num, 1)
      match scaleUp scaling 65 r.2.1 r.2.2 with
      | none => .hang
      | some (num, fs) =>
        let next := r.1.dropWhile (· == 32)
        -- lines 198-216
        let factor : Option Nat :=
          if next = [] then some 1
          else if next.length ≠ 1 then none
          else (prefixIndex (next.headD 0)).map (fun p => 1000 ^ p)
        match factor with
        | none => .err
        | some factor =>
          let d := scaleDown scaling 7 num factor fs
          if d.1 > (W - 1) / d.2.1 then .err
          else if d.2.2 = 0 then .ub
          else .ok (d.1 * d.2.1 % W * scaling % W / d.2.2)

/-- result of `isonumber_to_s64` -/
inductive SResult where
  | ok (v : Int)
  | err | ub | hang
deriving DecidableEq, Repr

/-- conversion of an unsigned to a signed 64 bit number (two's complement) -/
def toSigned (v : Nat) : Int := if v < W / 2 then (v : Int) else (v : Int) - W

/-- `isonumber_to_s64`, isonumber.c:124-145.  The negation of the smallest number wraps (as compiled
for two's complement machines). -/
def toS64 (iso : Txt) (scaling : Nat) : SResult :=
  let neg := iso.head? == some 45
  match toU64 (if neg then iso.tail else iso) scaling with
  | .ok v =>
    if neg then .ok (if v = W / 2 then toSigned v else - toSigned v) else .ok (toSigned v)
  | .err => .err
  | .ub => .ub
  | .hang => .hang

/-! ### Output -/

/-- decimal text of a number (`%PRIu64`) -/
def decText (n : Nat) : Txt := (Nat.toDigits 10 n).map (fun c => UInt8.ofNat c.toNat)

/-- scaling loop for large numbers, isonumber.c:262-268: new scaling and index of the prefix.
`fuel` bounds the rounds; the prefix text has seven characters. -/
def scaleLarge (number : Nat) : Nat → Nat → Nat → Nat × Nat
  | 0, scaling, idx => (scaling, idx)
  | f + 1, scaling, idx =>
    if number / 1000 ≥ scaling then scaleLarge number f (scaling * 1000 % W) (idx + 1)
    else (scaling, idx)

/-- scaling loop for small numbers, isonumber.c:269-275 -/
def scaleSmall (number : Nat) : Nat → Nat → Nat → Nat × Nat
  | 0, scaling, idx => (scaling, idx)
  | f + 1, scaling, idx =>
    if number < scaling ∧ scaling ≥ 1000 then scaleSmall number f (scaling / 1000) (idx + 1)
    else (scaling, idx)

/-- fraction loop, isonumber.c:290-306: appends at most `fraction` digits to `out` (all digits
written so far behind the point) and keeps in `keep` how many of them count (everything behind the
last digit different from zero is cut off).  `none`: the error return of line 299. -/
def fracDigits (scaling : Nat) : Nat → Nat → Txt → Nat → Option Txt
  | fraction, n, out, keep =>
    let n := n % scaling
    if n = 0 then some (out.take keep)
    else
      match fraction with
      | 0 => some (out.take keep)
      | fraction + 1 =>
        let n := n * 10 % W
        let print := n / scaling
        if print ≥ 10 then none
        else
          let out := out ++ [UInt8.ofNat (48 + print)]
          fracDigits scaling fraction n out (if print ≠ 0 then out.length else keep)

/-- the number and its prefix as written by `_isonumber_u64_to_string`, isonumber.c:248-311, before
the unit is appended (`none`: NULL result or, for scaling 0, division by zero).  The decimal point is
part of the kept text only if a digit different from zero follows. -/
def numberText (number scaling : Nat) (raw : Bool) : Option Txt :=
  if scaling = 0 then none
  else
    let large : Bool := number ≥ scaling
    let si :=
      if raw then (scaling, 0)
      else if large then scaleLarge number 7 scaling 0
      else scaleSmall number 7 scaling 0
    let symbols : Txt := if large then [32, 107, 77, 71, 84, 80, 69] else [32, 109, 117, 110, 112, 102, 97]
    match fracDigits si.1 3 number [] 0 with
    | none => none
    | some frac =>
      some (decText (number / si.1) ++ (if frac = [] then [] else [46] ++ frac)
        ++ (if !raw && symbols[si.2]? != some 32 then (symbols[si.2]?).toList else []))

end Verif.IsoNum
