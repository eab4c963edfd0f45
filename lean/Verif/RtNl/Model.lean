import Verif.Netlink.Attr
/-
Messages for routes: src/base/os_linux/os_routing_linux.c:203-271 (`os_routing_linux_set`), 385-480 (`_routing_set`), 490-563
(`_routing_parse_nlmsg`), 572-605 (`_match_routes`).

Simplifications: numbers are stored with the least significant byte first; the place of `struct nlmsghdr` in front of a message holds 16
zeros, `nlmsg_type` and `nlmsg_flags` are returned apart; a metric is a 32 bit pattern (`NOMETRIC` is -1); addresses are IPv4, IPv6 or
unspecified.
-/
namespace Verif.RtNl
open Verif.Netlink

/-- `AF_INET`, `AF_INET6` -/
def INET : Nat := 2
def INET6 : Nat := 10

def zeros (n : Nat) : List UInt8 := List.replicate n 0

/-- `struct netaddr`: `_type`, the 16 bytes of `_addr`, `_prefix_len` -/
structure NA where
  fam : Nat
  addr : List UInt8
  plen : Nat
deriving DecidableEq, Repr

/-- an address with `_type` AF_UNSPEC, as in `OS_ROUTE_WILDCARD`, os_routing_linux.c:125-138 -/
def none' : NA := ⟨0, zeros 16, 0⟩

/-- `NETADDR_IPV4_ANY`, `NETADDR_IPV6_ANY` with a prefix length -/
def any (fam plen : Nat) : NA := ⟨fam, zeros 16, plen⟩

/-- `netaddr_get_maxprefix` -/
def maxplen (fam : Nat) : Nat := if fam = INET then 32 else if fam = INET6 then 128 else 0

/-- the bytes given to `os_system_linux_netlink_addreq`, os_system_linux.h:164-167 -/
def binary (a : NA) : List UInt8 := a.addr.take (maxplen a.fam / 8)

/-- `netaddr_from_binary_prefix` with an address family, netaddr.c:163-200; `none`: it writes behind the object -/
def fromBinary (data : List UInt8) (fam plen : Nat) : Option NA :=
  if data.length > 16 then none
  else some ⟨fam, data ++ zeros (16 - data.length), if plen = 255 then data.length * 8 else plen⟩

def NOMETRIC : Nat := 4294967295

/-- `struct os_route_parameter`, os_routing.h:162-189; `type` is 0 for OS_ROUTE_UNDEFINED to 9 for OS_ROUTE_NAT -/
structure Rt where
  family : Nat := 0
  type : Nat := 0
  dst : NA := none'
  src : NA := none'
  gw : NA := none'
  srcIp : NA := none'
  metric : Nat := NOMETRIC
  table : Nat := 0
  protocol : Nat := 0
  ifIndex : Nat := 0
deriving DecidableEq, Repr

/-- `_type_translation`, os_routing_linux.c:104-107: OONF and linux types -/
def types : List (Nat × Nat) := [(1, 1), (2, 2), (3, 3), (4, 5), (5, 9), (6, 7), (7, 8), (8, 6), (9, 10)]

/-- a 32 bit number in memory -/
def le32 (n : Nat) : List UInt8 := [UInt8.ofNat n, UInt8.ofNat (n / 256), UInt8.ofNat (n / 65536), UInt8.ofNat (n / 16777216)]

/-- the address family of the message, os_routing_linux.c:389-408; `none`: -1 -/
def family (r : Rt) : Option Nat :=
  let step (f : Option Nat) (a : NA) : Option Nat := f.bind fun f => if a.fam = 0 then some f else if f ≠ 0 ∧ f ≠ a.fam then none else some a.fam
  (step (step (some (if r.dst.fam ≠ 0 then r.dst.fam else r.family)) r.gw) r.srcIp).map fun f => if f = 0 then INET else f

/-- is there a source prefix in the message, os_routing_linux.c:455 -/
def specific (r : Rt) : Bool := r.src.fam = INET6 && r.src.plen ≠ 0

/-- `struct rtmsg`, os_routing_linux.c:410-427, 438, 447, 456: the flag is RTNH_F_ONLINK -/
def rtmsg (r : Rt) (fam scope : Nat) : List UInt8 :=
  [UInt8.ofNat fam, UInt8.ofNat (if r.dst.fam ≠ 0 then r.dst.plen else 0), UInt8.ofNat (if specific r then r.src.plen else 0), 0, UInt8.ofNat r.table,
    UInt8.ofNat r.protocol, UInt8.ofNat scope, UInt8.ofNat ((types.lookup r.type).getD 1)] ++ le32 (if r.gw.fam ≠ 0 then 4 else 0)

/-- an attribute that may be left out -/
def opt (c : Bool) (type : Nat) (data : List UInt8) : List (Nat × List UInt8) := if c then [(type, data)] else []

/-- the attributes, os_routing_linux.c:429-478: RTA_PREFSRC, RTA_GATEWAY, RTA_DST, RTA_SRC, RTA_PRIORITY, RTA_OIF -/
def attributes (r : Rt) : List (Nat × List UInt8) :=
  opt (r.srcIp.fam ≠ 0) 7 (binary r.srcIp) ++ opt (r.gw.fam ≠ 0) 5 (binary r.gw) ++ opt (r.dst.fam ≠ 0) 1 (binary r.dst) ++
    opt (specific r) 2 (binary r.src) ++ opt (r.metric ≠ NOMETRIC) 6 (le32 r.metric) ++ opt (r.ifIndex ≠ 0) 4 (le32 r.ifIndex)

/-- `_routing_set`, os_routing_linux.c:385-480 -/
def build (r : Rt) (scope : Nat) : Option (List UInt8) := (family r).bind fun f => addAll (zeros 16 ++ rtmsg r f scope) (attributes r)

/-- `nlmsg_type`, `nlmsg_flags` and the bytes -/
structure Msg where
  type : Nat
  flags : Nat
  bytes : List UInt8
deriving DecidableEq, Repr

/-- the fields that are not used for a removal, os_routing_linux.c:231-244 -/
def forRemoval (r : Rt) (similar : Bool) : Rt := { r with protocol := 0, srcIp := none', ifIndex := if similar then 0 else r.ifIndex }

/-- the gateway of an IPv4 host, os_routing_linux.c:246-250 -/
def withGateway (r : Rt) : Rt := if r.gw.fam = 0 ∧ r.dst.fam = INET ∧ r.dst.plen = 32 then { r with gw := r.dst } else r

/-- the message of `os_routing_linux_set`, os_routing_linux.c:203-271: RTM_NEWROUTE is 24, RTM_DELROUTE 25; the flags are NLM_F_REQUEST (1),
NLM_F_CREATE (0x400) and NLM_F_REPLACE (0x100); RT_SCOPE_UNIVERSE is 0, RT_SCOPE_NOWHERE 255 -/
def request (r : Rt) (set similar : Bool) : Option Msg :=
  if set then (build (withGateway r) 0).map fun b => ⟨24, 0x501, b⟩
  else (build (withGateway (forRemoval r similar)) (if similar then 255 else 0)).map fun b => ⟨25, 1, b⟩

/-- an attribute in `_routing_parse_nlmsg`, os_routing_linux.c:529-555; `none`: it writes behind an object. (The two numbers are read without
a test of the length of the attribute; missing bytes are taken as an attribute with the value 0.) -/
def parseAttr (fam dlen slen : Nat) (r : Option Rt) (a : Nat × List UInt8) : Option Rt :=
  r.bind fun r =>
    if a.1 = 7 then (fromBinary a.2 fam 255).map fun x => { r with srcIp := x }
    else if a.1 = 5 then (fromBinary a.2 fam 255).map fun x => { r with gw := x }
    else if a.1 = 1 then (fromBinary a.2 fam dlen).map fun x => { r with dst := x }
    else if a.1 = 2 then (fromBinary a.2 fam slen).map fun x => { r with src := x }
    else if a.1 = 6 then some { r with metric := rd32 a.2 }
    else if a.1 = 4 then some { r with ifIndex := rd32 a.2 }
    else some r

/-- a byte of a message -/
def byte (m : List UInt8) (i : Nat) : Nat := (m.getD i 0).toNat

/-- results of `_routing_parse_nlmsg` -/
inductive Parsed where
  | overflow
  | ignored
  | route (r : Rt)
deriving DecidableEq, Repr

/-- the OONF type for a linux type, os_routing_linux.c:517-528 -/
def typeOf (t : Nat) : Option Nat := (types.find? fun x => x.2 = t).map (·.1)

/-- the missing destination, os_routing_linux.c:557-561 -/
def defaultDst (dlen : Nat) (r : Rt) : Rt := if r.dst.fam = 0 then { r with dst := any r.family dlen } else r

/-- `_routing_parse_nlmsg`, os_routing_linux.c:490-563: RTM_F_CLONED is 0x200; the results -1, 1 and 2 are `ignored` -/
def parse (m : List UInt8) : Parsed :=
  if rd32 (m.drop 24) / 512 % 2 = 1 then .ignored
  else if byte m 16 ≠ INET ∧ byte m 16 ≠ INET6 then .ignored
  else match typeOf (byte m 23) with
    | none => .ignored
    | some t =>
      match (readAttrs (m.drop 28)).foldl (parseAttr (byte m 16) (byte m 17) (byte m 18))
          (some { family := byte m 16, type := t, protocol := byte m 21, table := byte m 20 }) with
      | none => .overflow
      | some r => .route (defaultDst (byte m 17) r)

/-- `_match_routes`, os_routing_linux.c:572-605 -/
def matches' (f r : Rt) : Bool :=
  if f.family ≠ 0 ∧ f.family ≠ r.family then false
  else if f.srcIp.fam ≠ 0 ∧ f.srcIp ≠ r.srcIp then false
  else if f.type ≠ 0 ∧ f.type ≠ r.type then false
  else if f.gw.fam ≠ 0 ∧ f.gw ≠ r.gw then false
  else if f.dst.fam ≠ 0 ∧ f.dst ≠ r.dst then false
  else if f.src.fam ≠ 0 ∧ f.src ≠ r.src then false
  else if f.metric ≠ NOMETRIC ∧ f.metric ≠ r.metric then false
  else if f.table ≠ 0 ∧ f.table ≠ r.table then false
  else if f.protocol ≠ 0 ∧ f.protocol ≠ r.protocol then false
  else f.ifIndex = 0 || f.ifIndex = r.ifIndex

end Verif.RtNl
