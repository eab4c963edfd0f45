/-
Managed UDP sockets: /repo/src/base/oonf_packet_socket.c:250-330 and 515-740.
-/
namespace Verif.Packet

/-- An IPv4 or IPv6 address; `group`: it lies in the multicast prefix of its family. -/
structure Addr where
  val : Nat
  group : Bool
deriving DecidableEq, Repr

/-- The contents of `union netaddr_socket` made by `netaddr_socket_init`: address (`none`: AF_UNSPEC),
port, interface. -/
structure Loc where
  addr : Option Addr
  port : Nat
  scope : Nat
deriving DecidableEq, Repr

/-- `struct oonf_packet_socket` and what was told to the kernel: whether the socket is open, its local
address (which stays when it is closed), the interface, `protocol`, and for the kernel socket: raw
or UDP, IP protocol, DSCP, options for sending multicast (loop, TTL), membership of the group. -/
structure PSock where
  opened : Bool := false
  loc : Loc := ⟨none, 0, 0⟩
  iface : Nat := 0
  proto : Nat := 0
  raw : Bool := false
  kproto : Nat := 0
  dscp : Nat := 0
  mcast : Option (Bool × Nat) := none
  member : Bool := false
deriving DecidableEq, Repr

/-- `struct oonf_packet_managed_config` for one address family. `proto` is 0 without `rawip`. -/
structure Cfg where
  port : Nat
  mcPort : Nat
  group : Option Addr
  dscp : Nat
  loop : Bool
  ttl : Nat
  proto : Nat
deriving DecidableEq, Repr

/-- `struct os_interface`: index and loopback flag; the interface `any` has index 0. -/
structure Iface where
  index : Nat
  loopback : Bool
deriving DecidableEq, Repr

/-- The rest of the world during a call: the address chosen for the unicast socket
(oonf_packet_socket.c:573-589, the same choice as in C155), which is `none` if the interface is down
or has no address that fits; whether opening the unicast and the multicast socket succeeds. -/
structure Sys where
  bind : Option Addr
  okUni : Bool
  okMc : Bool
deriving DecidableEq, Repr

/-- Results of `_apply_managed_socket`: 1, 0, -1. -/
inductive Res where
  | kept | fresh | failed
deriving DecidableEq, Repr

/-- `oonf_packet_remove`, oonf_packet_socket.c:186-195. -/
def closed (s : PSock) : PSock := { s with opened := false }

/-- A newly opened socket: `oonf_packet_add` and `oonf_packet_raw_add`, oonf_packet_socket.c:131-160:
`protocol` is only written for raw sockets, and for these 0 is passed to the kernel as protocol. -/
def newSock (s : PSock) (l : Loc) (i : Iface) (c : Cfg) : PSock where
  opened := true
  loc := l
  iface := i.index
  proto := if c.proto = 0 then s.proto else c.proto
  raw := c.proto != 0
  kproto := 0
  dscp := c.dscp
  mcast := none
  member := false

/-- `_apply_managed_socket`, oonf_packet_socket.c:674-737. The interface is up (it is not called
otherwise), `netaddr_socket_init` does not fail for IPv4 and IPv6, setting DSCP does not fail. -/
def applySock (s : PSock) (l : Loc) (i : Iface) (c : Cfg) (ok : Bool) : PSock × Res :=
  if s.opened = true ∧ i.index = s.iface ∧ l = s.loc ∧ c.proto = s.proto then (s, .kept)
  else if ok then (newSock s l i c, .fresh)
  else (closed s, .failed)

/-- The unicast and the multicast socket of a family. -/
structure Pair where
  uni : PSock := {}
  mc : PSock := {}
deriving DecidableEq, Repr

/-- The multicast address in use, oonf_packet_socket.c:596-599. -/
def groupOf (c : Cfg) (i : Iface) (b : Addr) : Option Addr :=
  if i.loopback = true ∧ c.group.isSome then some b else c.group

/-- The port for multicast, oonf_packet_socket.c:567-570. -/
def mcPortOf (c : Cfg) : Nat := if c.mcPort = 0 then c.port else c.mcPort

/-- The unicast half, oonf_packet_socket.c:605-621. -/
def applyUni (u : PSock) (c : Cfg) (i : Iface) (b : Addr) (real : Bool) (ok : Bool) : PSock × Res :=
  match applySock u ⟨some b, c.port, i.index⟩ i c ok with
  | (u, .fresh) => (if real then { u with mcast := some (c.loop, c.ttl) } else u, .fresh)
  | (u, .failed) => (closed u, .failed)
  | r => r

/-- The results of both halves with a multicast group, oonf_packet_socket.c:605-641. -/
def combine (u m : PSock × Res) : Pair × Bool × Bool :=
  match m.2 with
  | .fresh => (⟨u.1, { m.1 with member := true }⟩, true, u.2 != .failed)
  | .failed => (⟨closed u.1, m.1⟩, u.2 == .fresh, false)
  | .kept => (⟨u.1, m.1⟩, u.2 == .fresh, u.2 != .failed)

/-- `_apply_managed_socketpair`, oonf_packet_socket.c:556-654: new sockets, `changed`, and whether 0 is
returned. -/
def applyPair (p : Pair) (c : Cfg) (i : Iface) (y : Sys) : Pair × Bool × Bool :=
  match y.bind with
  | none => (⟨closed p.uni, closed p.mc⟩, false, true)
  | some b =>
    let g := groupOf c i b
    let real := g.any (·.group)
    let u := applyUni p.uni c i b real y.okUni
    if real then combine u (applySock p.mc ⟨g, mcPortOf c, i.index⟩ i c y.okMc)
    else
      (⟨u.1, { closed p.mc with loc := ⟨g, if g.isSome then mcPortOf c else 0, if g.isSome then i.index else 0⟩ }⟩,
        u.2 == .fresh, u.2 != .failed)

/-- `oonf_packet_apply_managed` again and again for one family, as long as `changed` is reported: this
is what `_cb_interface_changed` does, oonf_rfc5444.c:1440-1455, up to a depth of recursion. -/
def settle : Nat → Pair → Cfg → Iface → Sys → Option Pair
  | 0, _, _, _, _ => none
  | n + 1, p, c, i, y =>
    let r := applyPair p c i y
    if r.2.1 then settle n r.1 c i y else some r.1

/-- Configurations of a pair of sockets, newest first. -/
def history : List (Cfg × Iface × Sys) → Pair
  | [] => {}
  | (c, i, y) :: h => (applyPair (history h) c i y).1

/-! ## The interface -/

/-- The listener: the configured name (`none`: empty), the interface the listener belongs to, and
whether the name of the listener is no longer the configured one. -/
structure Listener where
  config : Option Nat := none
  on : Option (Option Nat) := none
  stuck : Bool := false
deriving DecidableEq, Repr

/-- The part of `oonf_packet_apply_managed` for the interface, oonf_packet_socket.c:296-312, with
`os_interface_linux_add`, os_interface_linux.c:305-339: for an empty name, the pointer to the
configured name is replaced by one to the name of the interface `any` (`on = some none`). -/
def listen (l : Listener) (name : Option Nat) : Listener :=
  if l.config ≠ name ∨ l.on = none then
    let n := if l.stuck then none else name
    ⟨name, some n, l.stuck || n.isNone⟩
  else { l with config := name }

/-- Names of successive configurations, newest first. -/
def listens : List (Option Nat) → Listener
  | [] => {}
  | n :: ns => listen (listens ns) n

end Verif.Packet
