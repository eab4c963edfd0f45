/-
Sending through managed UDP sockets: /repo/src/base/oonf_packet_socket.c:330-403, and the callers in
/repo/src/base/oonf_rfc5444.c:870-930 and 1121-1171.
-/
namespace Verif.Packet.Out

/-- Address families. -/
inductive Fam where
  | unspec | v4 | v6 | other
deriving DecidableEq, Repr

/-- A destination, `union netaddr_socket`. -/
structure To where
  fam : Fam
  addr : Nat
  port : Nat
deriving DecidableEq, Repr

/-- The answer of `sendto` to a datagram that is not empty: it is on its way; EINTR, EAGAIN or
EWOULDBLOCK; EPERM; EBADF; another error. -/
inductive Kern where
  | sent | again | perm | badf | err
deriving DecidableEq, Repr

/-- A UDP socket: whether it is registered at the scheduler, datagrams that wait, and datagrams the kernel
accepted. The bytes of the queue are in Verif.Packet.Queue. -/
structure USock where
  opened : Bool := false
  backlog : List (To × Nat) := []
  wire : List (To × Nat) := []
deriving DecidableEq, Repr

/-- `struct oonf_packet_managed`: the unicast sockets and `local_socket` of the multicast sockets, which is
where multicasts are sent to. -/
structure Managed where
  s4 : USock := {}
  s6 : USock := {}
  mc4 : To := ⟨.unspec, 0, 0⟩
  mc6 : To := ⟨.unspec, 0, 0⟩
deriving DecidableEq, Repr

/-- `oonf_packet_send`, oonf_packet_socket.c:207-247: the socket, the result, and whether `errno` is EBADF. -/
def pktSend (s : USock) (to : To) (d : Nat) (k : Kern) : USock × Int × Bool :=
  match s.backlog, k with
  | [], .sent => ({ s with wire := s.wire ++ [(to, d)] }, 0, false)
  | [], .perm => (s, -1, false)
  | [], .badf => (s, -1, true)
  | [], .err => (s, -1, false)
  | b, _ => ({ s with backlog := b ++ [(to, d)] }, 0, false)

/-- `oonf_packet_remove`, oonf_packet_socket.c:194-204: the queue is lost. -/
def remove (s : USock) : USock := if s.opened then { s with opened := false, backlog := [] } else s

/-- The two attempts to send, oonf_packet_socket.c:350-359. -/
def attempts (m : Managed) (to : To) (d : Nat) (k : Kern) : Managed × Int × Bool :=
  let r4 := if m.s4.opened && to.fam == .v4 then
      let p := pktSend m.s4 to d k
      ({ m with s4 := p.1 }, p.2.1, p.2.2)
    else (m, 1, false)
  if r4.1.s6.opened && to.fam == .v6 then
    let p := pktSend r4.1.s6 to d k
    ({ r4.1 with s6 := p.1 }, p.2.1, r4.2.2 || p.2.2)
  else r4

/-- `oonf_packet_send_managed`, oonf_packet_socket.c:339-381. `apply` is `_apply_managed`, see
Verif.Packet.Managed. `errno` is not changed by logging. -/
def sendManaged (apply : Managed → Managed) (m : Managed) (to : To) (d : Nat) (k : Kern) : Managed × Int :=
  if to.fam = .unspec then (m, 0)
  else
    let r := attempts m to d k
    if r.2.2 then
      let m' := if to.fam = .v4 then { r.1 with s4 := remove r.1.s4 } else { r.1 with s6 := remove r.1.s6 }
      (apply m', r.2.1)
    else (r.1, r.2.1)

/-- `oonf_packet_send_managed_multicast`, oonf_packet_socket.c:394-403. -/
def sendMulticast (apply : Managed → Managed) (m : Managed) (d : Nat) (af : Fam) (k : Kern) : Managed × Int :=
  if af = .v4 then sendManaged apply m m.mc4 d k
  else if af = .v6 then sendManaged apply m m.mc6 d k
  else (m, 1)

/-- `oonf_rfc5444_send_target_data` and `_cb_send_unicast_packet`, `_cb_send_multicast_packet`,
oonf_rfc5444.c:877-899, 1121-1171. `multicast`: the target is the multicast target of its interface. The results are
not looked at. -/
def sendTarget (apply : Managed → Managed) (blocked multicast : Bool) (m : Managed) (dst : To) (d : Nat) (k : Kern) :
    Managed :=
  if blocked then m
  else if multicast then (sendMulticast apply m d dst.fam k).1
  else (sendManaged apply m dst d k).1

/-- `oonf_rfc5444_send_interface_data`, oonf_rfc5444.c:908-929. `group`: the destination lies in 224.0.0.0/4 or
ff00::/8. -/
def sendInterface (apply : Managed → Managed) (blocked group : Bool) (m : Managed) (dst : To) (d : Nat) (k : Kern) :
    Managed :=
  if blocked then m
  else if group then (sendMulticast apply m d dst.fam k).1
  else (sendManaged apply m dst d k).1

end Verif.Packet.Out
