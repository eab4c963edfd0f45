import Verif.Str.Model
/-
The telnet command `route`: /repo/src/generic/remotecontrol/remotecontrol.c.
-/
namespace Verif.Log.Route
open Str

/-- Address families as far as the command looks at them; `other` is what `netaddr_from_string`
accepts besides (MAC addresses, `-`). -/
inductive Fam where
  | v4 | v6 | other
deriving DecidableEq, Repr

/-- An address or prefix. -/
structure Addr where
  fam : Fam
  val : Nat
deriving DecidableEq, Repr

/-- The functions the command uses: `netaddr_from_string` (C21; `none` is an error), `atoi`,
`if_nametoindex` (0 for unknown interfaces). -/
structure Env where
  addr : List UInt8 → Option Addr
  num : List UInt8 → Int
  dev : List UInt8 → Nat

/-- `struct os_route_parameter`, os_routing.h:162-189, without the type (which the command leaves
undefined); `none` is AF_UNSPEC. -/
structure Params where
  fam : Option Fam := none
  srcIp : Option Addr := none
  gw : Option Addr := none
  dst : Option Addr := none
  srcPrefix : Option Addr := none
  table : Nat := 0
  proto : Nat := 0
  metric : Int := -1
  dev : Nat := 0
deriving DecidableEq, Repr

/-- The parameters in the order of the comparisons, remotecontrol.c:566-627. -/
inductive Key where
  | srcIp | gw | dst | srcPrefix | table | proto | metric | dev | ipv6
deriving DecidableEq, Repr

/-- Their names, and the order of comparison. -/
def keys : List (Key × List UInt8) :=
  [(.srcIp, [115, 114, 99, 45, 105, 112]), (.gw, [103, 119]), (.dst, [100, 115, 116]),
   (.srcPrefix, [115, 114, 99, 45, 112, 114, 101, 102, 105, 120]), (.table, [116, 97, 98, 108, 101]),
   (.proto, [112, 114, 111, 116, 111]), (.metric, [109, 101, 116, 114, 105, 99]), (.dev, [105, 102]),
   (.ipv6, [105, 112, 118, 54])]

/-- The first of the names which is the next word, and the text behind it. -/
def findKey {κ : Type} (ks : List (κ × List UInt8)) (p : List UInt8) : Option (κ × List UInt8) :=
  ks.findSome? fun k => (strHasNextWord p k.2).map fun r => (k.1, r)

/-- An assignment to an `unsigned char`. -/
def byte (i : Int) : Nat := (i % 256).toNat

/-- An address of IPv4 or IPv6. -/
def ip (e : Env) (w : List UInt8) : Option Addr :=
  match e.addr w with
  | some a => if a.fam = .other then none else some a
  | none => none

/-- The effect of a parameter, remotecontrol.c:566-622; `none` is an error message. The word behind
`metric` is written to the table. -/
def put (e : Env) (r : Params) (k : Key) (w : List UInt8) : Option Params :=
  match k with
  | .srcIp => (ip e w).map fun a => { r with srcIp := some a, fam := some a.fam }
  | .gw => (ip e w).map fun a => { r with gw := some a, fam := some a.fam }
  | .dst => (ip e w).map fun a => { r with dst := some a, fam := some a.fam }
  | .srcPrefix => (ip e w).map fun a => { r with srcPrefix := some a, fam := some a.fam }
  | .table => some { r with table := byte (e.num w) }
  | .proto => some { r with proto := byte (e.num w) }
  | .metric => some { r with table := byte (e.num w) }
  | .dev => some { r with dev := e.dev w }
  | .ipv6 => some { r with fam := some .v6 }

/-- The loop over the parameters, remotecontrol.c:565-632; words are copied into a buffer of 62
bytes (netaddr.h:152-155). `fuel` is at least the length of the text. -/
def params (e : Env) : Nat → Option (List UInt8) → Params → Option Params
  | 0, _, r => some r
  | fuel + 1, ptr, r =>
    match ptr with
    | none => some r
    | some p =>
      if p = [] then some r
      else
        match findKey keys p with
        | none => none
        | some (.ipv6, next) => (put e r .ipv6 []).bind (params e fuel (some next))
        | some (k, next) =>
          (put e r k (strCpyNextWord 62 (some next)).1).bind (params e fuel (strCpyNextWord 62 (some next)).2)

/-- Subcommands. -/
inductive Cmd where
  | add | del | get
deriving DecidableEq, Repr

/-- Their names, remotecontrol.c:553-561. -/
def cmds : List (Cmd × List UInt8) := [(.add, [97, 100, 100]), (.del, [100, 101, 108]), (.get, [103, 101, 116])]

/-- The checks, remotecontrol.c:633-652. -/
def checked (c : Cmd) (r : Params) : Option Params :=
  if c ≠ .get ∧ r.dev = 0 then none
  else if c ≠ .get ∧ r.dst = none then none
  else if (∃ a, r.srcIp = some a ∧ r.fam ≠ some a.fam) ∨ (∃ a, r.gw = some a ∧ r.fam ≠ some a.fam) ∨
      (∃ a, r.dst = some a ∧ r.fam ≠ some a.fam) then none
  else some (if r.fam = none then { r with fam := some .v4 } else r)

/-- `_cb_handle_route`, remotecontrol.c:542-682: the request for the kernel, or none. -/
def request (e : Env) (p : List UInt8) : Option (Cmd × Params) :=
  match findKey cmds p with
  | none => none
  | some (c, next) => (params e (next.length + 1) (some next) {}).bind fun r => (checked c r).map fun r => (c, r)

end Verif.Log.Route
