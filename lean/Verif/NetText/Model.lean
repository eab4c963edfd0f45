import Verif.Netaddr.Model
import Verif.IsoNum.Model
/-
Model of the text conversion of network addresses in `src/libcommon/netaddr.c`.
C strings are lists of non-zero bytes.
-/
namespace Verif.NetText
open Verif.Netaddr
open Verif.IsoNum (isSpace isDigit decVal decText strtoull W)

abbrev Txt := List UInt8

/-- The C library functions `inet_ntop` and `inet_pton` for IPv6, which are not part of the
repository: they are parameters of the model (`none` = not a valid address). -/
structure Inet6 where
  ntop : List UInt8 → Txt
  pton : Txt → Option (List UInt8)

/-! ### output -/

/-- the table `hex` of `_mac_to_string`, netaddr.c:981 -/
def hexDigit (n : Nat) : UInt8 := UInt8.ofNat (if n < 10 then 48 + n else 87 + n)

/-- `_mac_to_string`, netaddr.c:979-1016: text written into a buffer of `size` bytes; `sep = 0`
means no separator.  The separator behind the last octet is overwritten by the terminating zero. -/
def macToString (sep : UInt8) : Nat → List UInt8 → Txt
  | _, [] => []
  | size, b :: bs =>
    if size < 3 then []
    else
      let rest := macToString sep (size - 2 - (if sep ≠ 0 then 1 else 0)) bs
      [hexDigit (b.toNat >>> 4), hexDigit (b.toNat &&& 15)]
        ++ (if rest = [] ∨ sep = 0 then rest else sep :: rest)

/-- the loop of `_uuid_to_string`, netaddr.c:1042-1055 for the remaining groups -/
def uuidGroups : Nat → List Nat → List UInt8 → Txt
  | _, [], _ => []
  | size, [g], src => macToString 0 size (src.take (g / 2))
  | size, g :: gs, src =>
    macToString 0 size (src.take (g / 2)) ++ [45] ++ uuidGroups (size - g - 1) gs (src.drop (g / 2))

/-- `max_group_len`, netaddr.c:1028 -/
def uuidLens : List Nat := [8, 4, 4, 4, 12]

/-- `inet_ntop(AF_INET, ...)` of the C library -/
def ntop4 (a : List UInt8) : Txt :=
  decText (a.getD 0 0).toNat ++ [46] ++ decText (a.getD 1 0).toNat ++ [46]
    ++ decText (a.getD 2 0).toNat ++ [46] ++ decText (a.getD 3 0).toNat

/-- size of `struct netaddr_str`, netaddr.h:152-155: `INET6_ADDRSTRLEN` (46) + 16 -/
def strSize : Nat := 62

/-- `netaddr_to_prefixstring`, netaddr.c:521-558, for a non-NULL address -/
def toPrefixString (I : Inet6) (src : Netaddr) (forceprefix : Bool) : Txt :=
  let result : Option Txt :=
    if src.type = AF_INET then some (ntop4 src.addr)
    else if src.type = AF_INET6 then some (I.ntop src.addr)
    else if src.type = AF_MAC48 then some (macToString 58 strSize (src.addr.take 6))
    else if src.type = AF_EUI64 then some (macToString 45 strSize (src.addr.take 8))
    else if src.type = AF_UUID then some (uuidGroups strSize uuidLens src.addr)
    else none
  match result with
  | none => [45]
  | some text =>
    if forceprefix || decide (src.prefixLen.toNat < maxPrefix src) then
      text ++ [47] ++ decText src.prefixLen.toNat
    else text

/-! ### input -/

/-- `_read_hexdigit`, netaddr.c:1159-1170 -/
def readHexdigit (c : UInt8) : Option Nat :=
  if 48 ≤ c ∧ c ≤ 57 then some (c.toNat - 48)
  else if 97 ≤ c ∧ c ≤ 102 then some (c.toNat - 97 + 10)
  else if 65 ≤ c ∧ c ≤ 70 then some (c.toNat - 65 + 10)
  else none

/-- `_bin_from_hex`, netaddr.c:1068-1100: bytes written and number of bytes left in the target
(`none` = error) -/
def binFromHex (sep : UInt8) : Nat → Txt → Option (List UInt8 × Nat)
  | 0, _ => none
  | n + 1, src =>
    match src with
    | [] => none
    | c :: cs =>
      match readHexdigit c with
      | none => none
      | some num =>
        let d2 : Option Nat := match cs with | [] => none | c2 :: _ => readHexdigit c2
        let byte := UInt8.ofNat (match d2 with | some d => (num <<< 4) + d | none => num)
        let rest := match d2 with | some _ => cs.tail | none => cs
        if rest = [] then some ([byte], n)
        else if sep ≠ 0 then
          if rest.head? = some sep then
            (binFromHex sep n rest.tail).map (fun r => (byte :: r.1, r.2))
          else none
        else (binFromHex sep n rest).map (fun r => (byte :: r.1, r.2))

/-- the loop of `_uuid_from_string`, netaddr.c:1128-1151; `cur` is `current_group` -/
def uuidParse : List Nat → Txt → Option (List UInt8)
  | [], _ => some []
  | g :: gs, cur =>
    let group := cur.takeWhile (· != 45)
    let next : Option Txt := if group.length = cur.length then none else some (cur.drop (group.length + 1))
    if next = none ∧ gs ≠ [] then none
    else if group.length ≠ g then none
    else
      match binFromHex 0 (g / 2) group with
      | some (bytes, 0) => (uuidParse gs (next.getD [])).map (bytes ++ ·)
      | _ => none

/-- `_uuid_from_string`, netaddr.c:1108-1152 -/
def uuidFromString (src : Txt) : Option (List UInt8) :=
  if src.length > 36 then none else uuidParse uuidLens src

/-- text split at the points -/
def splitPoints : Txt → List Txt
  | [] => [[]]
  | c :: cs =>
    if c = 46 then [] :: splitPoints cs
    else
      match splitPoints cs with
      | [] => [[c]]
      | p :: ps => (c :: p) :: ps

/-- one octet of `inet_pton(AF_INET, ...)`: decimal digits without leading zero, at most 255 -/
def octet (t : Txt) : Option UInt8 :=
  if t ≠ [] ∧ t.all isDigit ∧ (t.length = 1 ∨ t.head? ≠ some 48) ∧ decVal t ≤ 255 then
    some (UInt8.ofNat (decVal t)) else none

/-- `inet_pton(AF_INET, ...)` of the C library -/
def pton4 (t : Txt) : Option (List UInt8) :=
  match splitPoints t with
  | [a, b, c, d] =>
    match octet a, octet b, octet c, octet d with
    | some a, some b, some c, some d => some [a, b, c, d]
    | _, _, _, _ => none
  | _ => none

/-- `has_coloncolon` of the scan loop, netaddr.c:612-636; `last` is `last_was_colon` -/
def hasColonColon : Bool → Txt → Bool
  | _, [] => false
  | last, c :: cs => (c == 58 && last) || hasColonColon (c == 58) cs

/-- a byte the scan loop accepts as part of the address, netaddr.c:612 -/
def isAddrChar (c : UInt8) : Bool := !isSpace c && c != 47

/-- `str_trim`, string.c:119-140 -/
def trim (s : Txt) : Txt := ((s.dropWhile isSpace).reverse.dropWhile isSpace).reverse

/-- lines 660-700 of `netaddr_from_string`: family, maximum prefix length and address bytes -/
def classify (I : Inet6) (t : Txt) : Option (UInt8 × Nat × List UInt8) :=
  let colons := t.count 58
  let minuses := t.count 45
  let cc := hasColonColon false t
  let point := t.contains 46
  let pad (l : List UInt8) := l ++ List.replicate (16 - l.length) (0 : UInt8)
  if (colons = 5 ∨ minuses = 5) ∧ (colons = 0 ∨ minuses = 0) ∧ !point ∧ !cc then
    match binFromHex (if colons > 0 then 58 else 45) 6 t with
    | some (b, 0) => some (AF_MAC48, 48, pad b)
    | _ => none
  else if colons = 0 ∧ !point ∧ minuses = 7 then
    match binFromHex 45 8 t with
    | some (b, 0) => some (AF_EUI64, 64, pad b)
    | _ => none
  else if colons = 0 ∧ point ∧ minuses = 0 then
    (pton4 t).map (fun b => (AF_INET, 32, pad b))
  else if (cc ∨ colons = 7) ∧ minuses = 0 then
    (I.pton t).map (fun b => (AF_INET6, 128, b))
  else if minuses = 4 ∧ colons = 0 ∧ !point then
    (uuidFromString t).map (fun b => (AF_UUID, 128, b))
  else none

/-- conversion of an `unsigned long` to `int` -/
def toInt (v : Nat) : Int := if v % 2 ^ 32 < 2 ^ 31 then (v % 2 ^ 32 : Nat) else (v % 2 ^ 32 : Nat) - 2 ^ 32

/-- `(int)strtoul(ptr2, &ptr3, 10)` with the check for trailing text, netaddr.c:652-657.
`unsigned long` has 64 bit; in case of an overflow the result is `ULONG_MAX`, i.e. -1. -/
def numericPrefix (t : Txt) : Int :=
  match strtoull t with
  | (v, rest) => if rest ≠ [] then -1 else match v with | some v => toInt v | none => -1

/-- `_subnetmask_to_prefixlen`, netaddr.c:1179-1201, on a text -/
def maskPrefix (t : Txt) : Int :=
  match pton4 t with
  | some b => subnetmaskToPrefixlen (b.foldl (fun n x => n * 256 + x.toNat) 0)
  | none => -1

/-- `_known_prefixes`, netaddr.c:142-152 with the constants of lines 70-96 -/
def knownPrefixes : List (Txt × Netaddr) :=
  [([97, 110, 121, 52], ⟨List.replicate 16 0, AF_INET, 0⟩),
   ([97, 110, 121, 54], ⟨List.replicate 16 0, AF_INET6, 0⟩),
   ([108, 105, 110, 107, 108, 111, 99, 97, 108, 52], ⟨[169, 254] ++ List.replicate 14 0, AF_INET, 16⟩),
   ([108, 105, 110, 107, 108, 111, 99, 97, 108, 54], ⟨[0xfe, 0x80] ++ List.replicate 14 0, AF_INET6, 10⟩),
   ([117, 108, 97], ⟨[0xfc] ++ List.replicate 15 0, AF_INET6, 7⟩)]

/-- the text behind the separator, netaddr.c:638-643 -/
def afterSep (rest : Txt) : Txt :=
  let r1 := rest.dropWhile isSpace
  (if r1.head? = some 47 then r1.tail else r1).dropWhile isSpace

/-- `netaddr_from_string` behind the scan loop, netaddr.c:637-714; `head` is the address text, `rest`
the text where the scan stopped and `ptr2` the text of the prefix length -/
def parseParts (I : Inet6) (head rest ptr2 : Txt) : Option Netaddr :=
  if rest ≠ [] ∧ ptr2 = [] then none
  else
    let num : Int := if rest = [] then -1 else numericPrefix ptr2
    match classify I head with
    | none => none
    | some (t, max, addr) =>
      let num : Int := if t = AF_INET ∧ ptr2 ≠ [] ∧ num = -1 then maskPrefix ptr2 else num
      if ptr2 ≠ [] then
        if num < 0 ∨ num > max then none
        else some ⟨addr, t, UInt8.ofNat num.toNat⟩
      else some ⟨addr, t, UInt8.ofNat max⟩

/-- `netaddr_from_string`, netaddr.c:567-714 (`none` = error return) -/
def fromString (I : Inet6) (src : Txt) : Option Netaddr :=
  if src = [45] then some unspec
  else
    match knownPrefixes.find? (fun e => strcasecmp src e.1 == 0) with
    | some e => some e.2
    | none =>
      let buf := trim (src.take (strSize - 1))
      let rest := buf.dropWhile isAddrChar
      parseParts I (buf.takeWhile isAddrChar) rest (afterSep rest)

end Verif.NetText
