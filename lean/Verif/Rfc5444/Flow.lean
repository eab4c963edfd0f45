/-
Model of the outgoing side of one target: packet numbers and aggregation in `src/base/oonf_rfc5444.c` with packet handling of
`src/librfc5444/rfc5444_pkt_generator.c` and `rfc5444_msg_generator.c`, and the message sequence number of a protocol.
-/
namespace Verif.Rfc5444

/-- a message in the buffer of a target: identity, size, time it was put there -/
structure Msg where
  id : Nat
  size : Nat
  born : Nat
deriving DecidableEq, Repr

/-- a packet handed to `sendPacket`: sequence number if any, messages, time -/
structure Packet where
  seq : Option Nat
  msgs : List Msg
  sent : Nat
deriving DecidableEq, Repr

/-- `struct oonf_rfc5444_target` with `struct rfc5444_writer_target` and the fields of interface and protocol it uses.  `begun`: header of the
packet in the buffer (`none`: `_is_flushed`), `pend`: messages of the buffer, `own`/`all`: `_pktseqno_refcount` of target and protocol, `out`:
packets handed to `sendPacket`, newest first.  No packet TLVs and no packet postprocessors. -/
structure Dest where
  now : Nat
  max : Nat
  agg : Nat
  over : Nat := 0
  seq : Nat
  own : Nat := 0
  all : Nat := 0
  begun : Option (Option Nat) := none
  pend : List Msg := []
  timer : Option Nat := none
  out : List Packet := []
deriving DecidableEq, Repr

/-- bytes of messages, `_bin_msgs_size` -/
def bytes (ms : List Msg) : Nat := (ms.map (·.size)).sum

/-- `_pkt.header`, rfc5444_pkt_generator.c:277-291 -/
def hdr (s : Option Nat) : Nat := if s.isSome then 5 else 3

/-- `_rfc5444_writer_begin_packet`, rfc5444_pkt_generator.c:62-102, with `_cb_add_seqno`, oonf_rfc5444.c:1338-1353 -/
def begin_ (d : Dest) : Dest :=
  if d.own > 0 ∨ d.all > 0 then { d with seq := (d.seq + 1) % 65536, begun := some (some ((d.seq + 1) % 65536)) }
  else { d with begun := some none }

/-- the packet with header `s` leaves, rfc5444_pkt_generator.c:131-199 -/
def send (d : Dest) (s : Option Nat) : Dest :=
  { d with out := ⟨s, d.pend, d.now⟩ :: d.out, pend := [], begun := none }

/-- `rfc5444_writer_flush`, rfc5444_pkt_generator.c:112-199 -/
def flush (d : Dest) (force : Bool) : Dest :=
  match d.begun with
  | some s => send d s
  | none =>
    if force then
      let d := begin_ d
      send d (d.begun.getD none)
    else d

/-- `_cb_msggen_notifier`, oonf_rfc5444.c:1197-1211: `overwrite_aggregation_interval` is read, but not used -/
def notify (d : Dest) : Dest := if d.timer = none then { d with timer := some (d.now + d.agg) } else d

def begunHdr (d : Dest) : Nat := hdr (d.begun.getD none)

/-- the message is appended to the packet -/
def append (d : Dest) (id size : Nat) : Dest := notify { d with pend := d.pend ++ [⟨id, size, d.now⟩] }

/-- start a packet if there is none -/
def ready (d : Dest) : Dest := if d.begun = none then begin_ d else d

/-- a message of this router: `rfc5444_writer_create_message`, rfc5444_msg_generator.c:180-183, and `_finalize_message_fragment`,
rfc5444_msg_generator.c:1495-1568, for this target -/
def create (d : Dest) (id size : Nat) : Dest :=
  let d := ready d
  let d := if begunHdr d + bytes d.pend + size > d.max then begin_ (flush d false) else d
  append d id size

/-- a message the providers did not want: rfc5444_msg_generator.c:180-183 and 207-215 -/
def refuse (d : Dest) : Dest := ready d

/-- `rfc5444_writer_forward_msg`, rfc5444_msg_generator.c:474-523 and 566-618, for this target without forwarding processors -/
def forward (d : Dest) (id size : Nat) : Dest :=
  let d := if d.begun ≠ none ∧ begunHdr d + bytes d.pend + size > d.max then flush d false else d
  let d := ready d
  if begunHdr d + bytes d.pend + size > d.max then d else append d id size

/-- `_cb_aggregation_event`, oonf_rfc5444.c:1360-1367, when the timer (started once) fires -/
def tick (d : Dest) : Dest :=
  match d.timer with
  | none => d
  | some t => if t ≤ d.now then flush { d with timer := none } false else d

/-- what happens to a target -/
inductive Ev
  | create (id size : Nat)
  | forward (id size : Nat)
  | refuse
  | tick
  | force
  | wait (dt : Nat)
  | needOwn
  | dropOwn
  | needAll
  | dropAll
  | setAgg (v : Nat)
  | recreate (rnd : Nat)
deriving DecidableEq, Repr

/-- `needOwn` … `dropAll`: include/oonf/base/oonf_rfc5444.h:366-400; `setAgg`: `oonf_rfc5444_interface_set_aggregation`, oonf_rfc5444.c:798-805;
`recreate`: the multicast target is replaced by a new one, `oonf_rfc5444_reconfigure_interface`, oonf_rfc5444.c:738-760, with `_create_target`,
oonf_rfc5444.c:973-1013, and `_destroy_target`; `force`: simple_security.c:400 -/
def step (d : Dest) : Ev → Dest
  | .create id size => create d id size
  | .forward id size => forward d id size
  | .refuse => refuse d
  | .tick => tick d
  | .force => flush d true
  | .wait dt => { d with now := d.now + dt }
  | .needOwn => { d with own := d.own + 1 }
  | .dropOwn => { d with own := d.own - 1 }
  | .needAll => { d with all := d.all + 1 }
  | .dropAll => { d with all := d.all - 1 }
  | .setAgg v => { d with over := v }
  | .recreate rnd => { d with seq := rnd % 65536, own := 0, begun := none, pend := [], timer := none }

/-- all events, newest first -/
def run (d : Dest) : List Ev → Dest
  | [] => d
  | e :: es => step (run d es) e

/-! ## Message sequence numbers -/

/-- a use of the message sequence number of a protocol, or a new interface with the random number drawn for it -/
inductive NoEv
  | next
  | newIf (rnd : Nat)
deriving DecidableEq, Repr

/-- `_msg_seqno` and the numbers handed out, newest first: `oonf_rfc5444_get_next_message_seqno`, oonf_rfc5444.h:416-421, and
`oonf_rfc5444_add_interface`, oonf_rfc5444.c:603-604 -/
def numbers (s : Nat) : List NoEv → Nat × List Nat
  | [] => (s, [])
  | .next :: es => let (c, ns) := numbers s es; ((c + 1) % 65536, ((c + 1) % 65536) :: ns)
  | .newIf rnd :: es => let (_, ns) := numbers s es; (rnd % 65536, ns)

end Verif.Rfc5444
