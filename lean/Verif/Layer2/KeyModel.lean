import Verif.Layer2.Model
import Verif.NetText.Model
import Verif.Str.Model
/-
Keys of layer-2 neighbors: generation of link ids and the text form
(`src/base/oonf_layer2.c:771-814` and `1402-1484`).
-/
namespace Verif.Layer2
open Verif.Netaddr
open Verif.NetText (Txt Inet6 toPrefixString fromString strSize)
open Verif.Str (strhexFromBin strhexToBin strscpy)

/-! ### link ids -/

/-- what is used of an originator: `lid` and `lid_index`, oonf_layer2.h:205-208 -/
structure LidOrigin where
  lid : Bool
  index : Nat
deriving DecidableEq, Repr

/-- `_lid_tree`: the next id (`uint32_t`) of each MAC address, oonf_layer2.h:602-609 -/
abbrev Lids := List (Netaddr × Nat)

/-- the next id of a MAC address, oonf_layer2.c:785-795 (a new entry starts with 1) -/
def Lids.next (l : Lids) (mac : Netaddr) : Nat :=
  match l.find? (fun e => e.1 == mac) with
  | some e => e.2
  | none => 1

/-- the entry of a MAC address after `lid->next_id++` -/
def Lids.bump (l : Lids) (mac : Netaddr) : Lids :=
  (mac, (l.next mac + 1) % 2 ^ 32) :: l.filter (fun e => e.1 != mac)

/-- the link id field: `htonl(next_id)` in the first four bytes, then the first byte is replaced,
oonf_layer2.c:805-811 -/
def lidBytes (index next : Nat) : List UInt8 :=
  [UInt8.ofNat (index % 256), UInt8.ofNat (next / 65536 % 256), UInt8.ofNat (next / 256 % 256),
   UInt8.ofNat (next % 256)] ++ List.replicate 12 0

/-- `oonf_layer2_neigh_generate_lid`, oonf_layer2.c:771-814 (the allocation does not fail);
`none` = error return -/
def generateLid (l : Lids) (o : LidOrigin) (mac : Netaddr) : Option (Lids × Key) :=
  if !o.lid then none
  else if !isMac mac then none
  else some (l.bump mac, ⟨mac, 4, lidBytes o.index (l.next mac)⟩)

/-- a sequence of requests: the results of all calls -/
def generateAll : Lids → List (LidOrigin × Netaddr) → List (Option Key)
  | _, [] => []
  | l, (o, mac) :: rs =>
    match generateLid l o mac with
    | none => none :: generateAll l rs
    | some (l', k) => some k :: generateAll l' rs

/-! ### text form -/

/-- size of `union oonf_layer2_neigh_key_str`, oonf_layer2.h:518-521 -/
def keyStrSize : Nat := strSize + 5 + 16 * 2

/-- `oonf_layer2_neigh_key_to_string`, oonf_layer2.c:1402-1437, for a non-NULL key; `none` if the
link id does not fit (the text then ends with the comma) -/
def keyToString (I : Inet6) (k : Key) (showMac : Bool) : Option Txt :=
  if !isMac k.addr then some [45]
  else
    let text := if showMac then toPrefixString I k.addr false else []
    if k.lidLen = 0 then some text
    else
      let text := if showMac then text ++ [44] else text
      (strhexFromBin (keyStrSize - text.length) (k.linkId.take k.lidLen)).map (text ++ ·)

/-- result of the parser: a key, an error code, or a write behind the end of a local buffer -/
inductive Parsed
  | ok (k : Key)
  | error (code : Int)
  | fault
deriving DecidableEq, Repr

/-- the second half of `oonf_layer2_neigh_key_from_string`, oonf_layer2.c:1473-1483 -/
def keyFinish (I : Inet6) (addr : Txt) (lid : List UInt8) : Parsed :=
  match fromString I addr with
  | none => .error (-3)
  | some a =>
    if !isMac a then .error (-4) else .ok ⟨a, lid.length, lid ++ List.replicate (16 - lid.length) 0⟩

/-- `oonf_layer2_neigh_key_from_string`, oonf_layer2.c:1445-1484; `junk` is the content of the
uninitialised buffer `nbuf` -/
def keyFromString (I : Inet6) (junk : UInt8) (string : Txt) : Parsed :=
  match string.findIdx? (· == 44) with
  | none => keyFinish I string []
  | some len =>
    if len > strSize then .error (-1)
    else
      match strscpy (List.replicate strSize junk) string (len + 1) with
      | none => .fault
      | some nbuf =>
        match strhexToBin 16 (string.drop (len + 1)) with
        | (_, false) => .error (-2)
        | (lid, true) => keyFinish I (nbuf.takeWhile (· != 0)) lid

end Verif.Layer2
