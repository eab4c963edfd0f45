import Verif.Dlep.Model

/-!
# Discovery of DLEP peers by UDP

Source: `/repo/src/generic/dlep/dlep_interface.c`, `ext_base_proto/proto_router.c`.  Sockets are numbers.  What
`dlep_session_process_buffer` does with a datagram is an arbitrary function of the payload.
-/

namespace Verif.Dlep

/-- `DLEP_RFC8175_PREFIX`: "DLEP" -/
def PREFIX : Bytes := [68, 76, 69, 80]

/-- `enum dlep_if_udp_mode`, dlep_interface.h -/
inductive UdpMode where
  | none | single | always
deriving DecidableEq, Repr

/-- part of `struct dlep_if`: `session.remote_socket` (`none`: unspecified) and `udp_out` -/
structure Udp where
  remote : Option Nat
  out : Bytes
deriving DecidableEq, Repr

/-- what the session makes of a datagram: `none` for a negative result, otherwise the number of handled bytes; what was
added to the output; whether the session is to be killed -/
structure Handled where
  processed : Option Nat
  output : Bytes
  kill : Bool
deriving DecidableEq, Repr

/-- the interface before the first datagram, dlep_if_add, dlep_interface.c:82-108 -/
def udpStart : Udp := ⟨none, PREFIX⟩

/-- the switch over `udp_mode`, dlep_interface.c:193-203 and 275-285 -/
def udpEnabled (mode : UdpMode) (sessions : Nat) : Bool :=
  match mode with
  | .none => false
  | .single => !(0 < sessions : Bool)
  | .always => true

/-- `_cb_receive_udp`, dlep_interface.c:183-256: the state, and the datagrams which are sent -/
def receiveUdp (mode : UdpMode) (sessions self : Nat) (handler : Bytes → Handled) (u : Udp) (sender : Nat) (packet : Bytes) :
    Udp × List (Nat × Bytes) :=
  if udpEnabled mode sessions = false then (u, [])
  else if packet.length < PREFIX.length then (u, [])
  else if sender = self then (u, [])
  else if packet.take PREFIX.length ≠ PREFIX then (u, [])
  else
    let payload := packet.drop PREFIX.length
    let r := handler payload
    let u : Udp := ⟨some sender, u.out ++ r.output⟩
    match r.processed with
    | none => (u, [])
    | some n =>
      if r.kill then (u, [])
      else if n < payload.length then (u, [])
      else if PREFIX.length < u.out.length then (⟨none, PREFIX⟩, [(sender, u.out)])
      else ({ u with remote := none }, [])

/-- `_cb_send_multicast`, dlep_interface.c:263-300; the result: what is sent -/
def sendMulticast (mode : UdpMode) (sessions : Nat) (u : Udp) : Udp × List Bytes :=
  if u.out.length ≤ PREFIX.length ∨ u.remote ≠ none then (u, [])
  else if udpEnabled mode sessions = false then (u, [])
  else ({ u with out := PREFIX }, [u.out])

/-- `_cb_create_peer_discovery`, proto_router.c:232-245; `signal`: the bytes of Peer Discovery -/
def discoveryTick (mode : UdpMode) (sessions : Nat) (signal : Bytes) (u : Udp) : Udp × List Bytes :=
  let (u, a) := sendMulticast mode sessions { u with out := u.out ++ signal }
  let (u, b) := sendMulticast mode sessions { u with out := u.out ++ signal }
  (u, a ++ b)

/-- several ticks: the state, and everything which is sent -/
def discoveryTicks (mode : UdpMode) (sessions : Nat) (signal : Bytes) : Nat → Udp → Udp × List Bytes
  | 0, u => (u, [])
  | n + 1, u =>
    let r := discoveryTick mode sessions signal u
    let q := discoveryTicks mode sessions signal n r.1
    (q.1, r.2 ++ q.2)

end Verif.Dlep
