import Verif.Dlep.Model

/-!
# DLEP sessions: framing of messages and restriction of message types

Model of `dlep_session_process_signal`, `dlep_session_process_buffer`, `dlep_session_process_tcp`,
`_send_terminate` and `dlep_session_terminate` (src/generic/dlep/dlep_session.c), of the handlers of Session
Termination and its acknowledgement (src/generic/dlep/ext_base_proto/proto.c) and of the input side of
`_cb_parse_connection` (src/base/oonf_stream_socket.c:753-819).

Simplifications:
* Parser (area Dlep, C136) and handlers of the extensions are a parameter `Handler`: any function from the
  restriction, the state of the application, the type and the payload.
* The socket is always ready to write: what is in the output buffer at the end of a round is sent.
* The output buffer does not fail.
-/

namespace Verif.Dlep

/-- `DLEP_KEEP_RESTRICTION`, dlep_iana.h:118 -/
def KEEP : Int := -3
/-- `DLEP_KILL_SESSION`, dlep_iana.h:121 -/
def KILL : Int := -2
/-- `DLEP_ALL_SIGNALS`, dlep_iana.h:124 -/
def ALL : Int := -1
/-- `DLEP_IS_UDP_SIGNAL`, dlep_iana.h:127 -/
def UDP : Int := 65536
/-- `DLEP_SESSION_TERMINATION`, dlep_iana.h:151 -/
def TERMINATION : Int := 5
/-- `DLEP_SESSION_TERMINATION_ACK`, dlep_iana.h:154 -/
def TERMINATION_ACK : Int := 6
/-- `DLEP_UDP_PEER_DISCOVERY`, dlep_iana.h:133 -/
def DISCOVERY : Int := 1 + UDP
/-- `DLEP_UDP_PEER_OFFER`, dlep_iana.h:136 -/
def OFFER : Int := 2 + UDP

/-- result of `_process_tlvs`: okay, `DLEP_NEW_PARSER_TERMINDATED` or another error -/
inductive PRes where
  | okay
  | terminated
  | error
deriving DecidableEq, Repr

/-- effects of `_process_tlvs`: the fields `restrict_signal` and `next_restrict_signal`, the application, the bytes
appended to the output buffer, the result -/
structure HRes (α : Type) where
  restrict : Int
  next : Int
  app : α
  out : Bytes
  res : PRes
deriving DecidableEq, Repr

/-- parser and handlers of a session.  `term` is the message written by
`dlep_session_generate_signal_status(DLEP_SESSION_TERMINATION)`. -/
structure Handler (α : Type) where
  run : Int → α → Int → Bytes → HRes α
  term : α → Bytes

/-- the state of a session -/
structure St (α : Type) where
  restrict : Int
  app : α
deriving DecidableEq, Repr

variable {α : Type}

/-- `_send_terminate`, dlep_session.c:828-836 -/
def sendTerminate (h : Handler α) (s : St α) : St α × Bytes :=
  if s.restrict ≠ DISCOVERY ∧ s.restrict ≠ OFFER then ({ s with restrict := TERMINATION_ACK }, h.term s.app)
  else (s, [])

/-- the part of `dlep_session_process_signal` behind the framing, dlep_session.c:421-445: new state, bytes written,
and whether the result is positive -/
def message (h : Handler α) (s : St α) (type : Int) (payload : Bytes) : St α × Bytes × Bool :=
  if s.restrict ≠ ALL ∧ s.restrict ≠ type then (s, [], false)
  else
    let r := h.run s.restrict s.app type payload
    let s' : St α := ⟨r.restrict, r.app⟩
    match r.res with
    | .terminated => (s', r.out, false)
    | .error =>
      let t := sendTerminate h s'
      (t.1, r.out ++ t.2, true)
    | .okay => (if r.next ≠ KEEP then { s' with restrict := r.next } else s', r.out, true)

/-- `dlep_session_process_signal`, dlep_session.c:372-446: the result is zero (incomplete), negative (error) or the
number of bytes -/
def processSignal (h : Handler α) (s : St α) (buffer : Bytes) (udp : Bool) : St α × Bytes × Int :=
  match buffer with
  | t1 :: t0 :: l1 :: l0 :: rest =>
    let type : Int := if udp then num16 t1 t0 + UDP else num16 t1 t0
    let len := num16 l1 l0
    if rest.length < len then (s, [], 0)
    else
      let m := message h s type (rest.take len)
      (m.1, m.2.1, if m.2.2 then len + 4 else -1)
  | _ => (s, [], 0)

/-- `dlep_session_process_buffer`, dlep_session.c:330-362; `fuel` bounds the number of rounds -/
def processBuffer (h : Handler α) (udp : Bool) : Nat → St α → Bytes → Int → Bytes → St α × Bytes × Int
  | 0, s, _, offset, out => (s, out, offset)
  | fuel + 1, s, buffer, offset, out =>
    if buffer.length = 0 then (s, out, offset)
    else
      let r := processSignal h s buffer udp
      if r.2.2 ≤ 0 then (if r.2.2 < 0 then (r.1, out ++ r.2.1, r.2.2) else (r.1, out ++ r.2.1, offset))
      else if r.1.restrict = KILL then (r.1, out ++ r.2.1, offset)
      else processBuffer h udp fuel r.1 (buffer.drop r.2.2.toNat) (offset + r.2.2) (out ++ r.2.1)

/-- a TCP connection with its session; `sent` is what the peer gets -/
structure Conn (α : Type) where
  st : St α
  inb : Bytes := []
  sent : Bytes := []
  closed : Bool := false
deriving DecidableEq, Repr

/-- the stream socket reads a block of bytes: oonf_stream_socket.c:753-819 and `dlep_session_process_tcp`,
dlep_session.c:285-320 (with a connection which is closed, the bytes not sent are lost) -/
def Conn.receive (h : Handler α) (limit : Nat) (c : Conn α) (block : Bytes) : Conn α :=
  if c.closed then c
  else
    let inb := c.inb ++ block
    if limit < inb.length then { c with inb, closed := true }
    else
      let r := processBuffer h false (inb.length + 1) c.st inb 0 []
      if r.2.2 < 0 ∨ r.1.restrict = KILL then { c with st := r.1, inb, closed := true }
      else { st := r.1, inb := inb.drop r.2.2.toNat, sent := c.sent ++ r.2.1, closed := false }

/-- one block after the other -/
def Conn.feed (h : Handler α) (limit : Nat) (c : Conn α) (blocks : List Bytes) : Conn α :=
  blocks.foldl (Conn.receive h limit) c

/-- the limit of the input buffer, dlep_router_session.c:142 and dlep_radio_interface.c:192 -/
def LIMIT : Nat := 4096

/-- largest block of one read, oonf_stream_socket.c:710 -/
def BLOCK : Nat := 1024

/-- `_process_tlvs` with the handlers of `dlep_base_proto_process_session_termination` and
`dlep_base_proto_process_session_termination_ack` (proto.c:515-535); parser and checks (`parse`) and the other
handlers are arbitrary; `ack` is the acknowledgement -/
def baseRun (parse : α → Int → Bytes → Bool) (ack : Bytes) (other : Int → α → Int → Bytes → HRes α) (restrict : Int)
    (a : α) (type : Int) (payload : Bytes) : HRes α :=
  if parse a type payload = false then ⟨restrict, KEEP, a, [], .error⟩
  else if type = TERMINATION then ⟨restrict, KEEP, a, ack, .okay⟩
  else if type = TERMINATION_ACK then ⟨KILL, KEEP, a, [], .okay⟩
  else other restrict a type payload

/-- `dlep_session_terminate`, dlep_session.c:217-224 -/
def terminate (h : Handler α) (s : St α) : St α × Bytes :=
  ({ s with restrict := TERMINATION_ACK }, if s.restrict ≠ ALL then h.term s.app else [])

/-- `_cb_remote_heartbeat`, proto.c:584-608: the timer for heartbeats of the peer expires; true: the session is ended -/
def heartbeat (h : Handler α) (s : St α) : St α × Bytes × Bool :=
  if s.restrict = TERMINATION_ACK then (s, [], true)
  else
    let t := terminate h s
    (t.1, t.2, false)

end Verif.Dlep
