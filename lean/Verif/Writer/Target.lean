import Verif.Writer.Model

/-
Model of the packets of one target (`src/librfc5444/rfc5444_pkt_generator.c`, and the parts of
`src/librfc5444/rfc5444_msg_generator.c` that put messages into packets).

Modelled for one target; post-processors and forwarding processors are not registered (their lists are empty), so
`processor_preallocation` and `transformer_overhead` are 0.  The callbacks that add packet TLVs are lists of requests.
-/
namespace Verif.Writer
open Verif.Reader (Bytes)

/-- calls of `rfc5444_writer_add_packettlv` and `rfc5444_writer_allocate_packettlv` -/
inductive PktReq
  | add (type ext : UInt8) (value : Bytes)
  | alloc (hasExt : Bool) (length : Nat)
deriving DecidableEq, Repr

/-- what the callbacks do when a packet is started: `has_seqno` and the packet TLVs -/
structure Begin where
  seqno : Bool
  tlvs : List PktReq
deriving DecidableEq, Repr

/-- what the callbacks do when a packet is finished: the packet TLVs that are set, and the sequence number -/
structure Finish where
  tlvs : List (UInt8 × UInt8 × Bytes)
  seqno : Nat
deriving DecidableEq, Repr

/-- `struct rfc5444_writer_target`, rfc5444_writer.h:256-304: `_pkt`, `_has_seqno`, `_is_flushed`, `_bin_msgs_size` -/
structure Target where
  size : Nat
  pkt : Data
  hasSeqno : Bool
  flushed : Bool
  msgs : Nat
deriving DecidableEq, Repr

/-- a target after registration, rfc5444_writer.c:541-546 -/
def Target.new (buffer : Bytes) : Target := ⟨buffer.length, ⟨buffer, 0, 0, 0, 0, buffer.length⟩, false, true, 0⟩

/-- a request of a packet handler, rfc5444_pkt_generator.c:204-247 -/
def request (d : Data) : PktReq → Option Data
  | .add type ext value => (add d type ext value).map Prod.snd
  | .alloc hasExt length => some (allocate d hasExt length).2

/-- all requests -/
def requests : Data → List PktReq → Option Data
  | d, [] => some d
  | d, r :: rs =>
    match request d r with
    | none => none
    | some d => requests d rs

/-- `_rfc5444_writer_begin_packet`, rfc5444_pkt_generator.c:62-102, and `rfc5444_writer_set_pkt_header`, 276-292 -/
def beginPacket (t : Target) (b : Begin) : Option Target :=
  match requests { init t.pkt t.size with header := if b.seqno then 5 else 3 } b.tlvs with
  | none => none
  | some d => some { t with pkt := d, hasSeqno := b.seqno, flushed := false }

/-- the TLVs set by the handlers -/
def setTlvs : Data → List (UInt8 × UInt8 × Bytes) → Option Data
  | d, [] => some d
  | d, (type, ext, value) :: l =>
    match setTlv d type ext value with
    | none => none
    | some (_, d) => setTlvs d l

/-- the header of a packet, rfc5444_pkt_generator.c:315-335; `len` is the size of the TLVs -/
def pktHeader (seqno : Option Nat) (len : Nat) : Bytes :=
  [(if seqno.isSome then 0x08 else 0) ||| (if len > 0 then 0x04 else 0)] ++ seqBytes seqno ++ (if len > 0 then [hi len, lo len] else [])

/-- `rfc5444_writer_flush`, rfc5444_pkt_generator.c:111-202, for a target that is not flushed: the packet sent -/
def finishPacket (t : Target) (f : Finish) : Option (Target × Bytes) :=
  match setTlvs t.pkt f.tlvs with
  | none => none
  | some d =>
    match store d.buffer 0 (pktHeader (if t.hasSeqno then some f.seqno else none) (d.added + d.set)) with
    | none => none
    | some b =>
      let len := 1 + (if t.hasSeqno then 2 else 0) + (if d.added + d.set > 0 then 2 else 0)
      if d.header + d.added + d.allocated + t.msgs > b.length then none
      else
        match store b (len + d.added + d.set) ((b.drop (d.header + d.added + d.allocated)).take t.msgs) with
        | none => none
        | some b =>
          some ({ t with pkt := { d with buffer := b, set := 0 }, msgs := 0, flushed := true },
            b.take (len + d.added + d.set + t.msgs))

/-- `rfc5444_writer_flush`, rfc5444_pkt_generator.c:111-202: the packets sent -/
def flush (t : Target) (force : Bool) (b : Begin) (f : Finish) : Option (Target × List Bytes) :=
  if t.flushed then
    if force then
      match beginPacket t b with
      | none => none
      | some t => (finishPacket t f).map fun r => (r.1, [r.2])
    else some (t, [])
  else (finishPacket t f).map fun r => (r.1, [r.2])

/-- a message is copied behind the messages of the packet, rfc5444_msg_generator.c:1547-1566 and 581-613 -/
def append (t : Target) (m : Bytes) : Option Target :=
  match store t.pkt.buffer (t.pkt.header + t.pkt.added + t.pkt.allocated + t.msgs) m with
  | none => none
  | some b => some { t with pkt := { t.pkt with buffer := b }, msgs := t.msgs + m.length }

/-- a generated message is put into the packet, rfc5444_msg_generator.c:200-207, 1496-1513 and 1547-1566; `b` are the
handlers for the first packet started, `b'` for the second -/
def addMessage (t : Target) (m : Bytes) (b b' : Begin) (f : Finish) : Option (Target × List Bytes) :=
  match (if t.flushed then beginPacket t b else some t) with
  | none => none
  | some t =>
    if t.pkt.header + t.pkt.added + t.pkt.set + t.msgs + m.length > t.pkt.max then
      match finishPacket t f with
      | none => none
      | some (t, p) =>
        match beginPacket t b' with
        | none => none
        | some t => (append t m).map fun t => (t, [p])
    else (append t m).map fun t => (t, [])

/-- `FW_MESSAGE_TOO_LONG`, rfc5444_context.h:121 -/
def FW_MESSAGE_TOO_LONG : Int := -14

/-- `max`, the space left in the packet, rfc5444_msg_generator.c:494-495 -/
def room (t : Target) : Nat := t.pkt.max - (t.pkt.header + t.pkt.added + t.pkt.allocated + t.msgs)

/-- step 1 of `rfc5444_writer_forward_msg` for a target, rfc5444_msg_generator.c:480-515: a full packet is flushed; the
result is false if the message is too long.  A header that alone is larger than the packet (`max` wraps) is not
modelled. -/
def makeRoom (t : Target) (len : Nat) (b : Begin) (f : Finish) : Option (Bool × Target × List Bytes) :=
  match (if !t.flushed && decide (len > room t) then (finishPacket t f).map fun r => (r.1, [r.2]) else some (t, [])) with
  | none => none
  | some (t, sent) =>
    match (if t.flushed then beginPacket t b else some t) with
    | none => none
    | some t => some (decide (len ≤ room t), t, sent)

/-- size of the static buffer `_msg_buffer`, rfc5444_msg_generator.c:96 and rfc5444_writer.h:88 -/
def MAX_MESSAGE_SIZE : Nat := 1225

/-- `rfc5444_writer_forward_msg`, rfc5444_msg_generator.c:451-622, for one target; line 525 copies `len` bytes into
`_msg_buffer` (the bytes are not used without processors) -/
def forward (t : Target) (m : Bytes) (b : Begin) (f : Finish) : Option (Int × Target × List Bytes) :=
  match makeRoom t m.length b f with
  | none => none
  | some (false, t, sent) => some (FW_MESSAGE_TOO_LONG, t, sent)
  | some (true, t, sent) =>
    if m.length > MAX_MESSAGE_SIZE then none
    else
    match forwardMsg m with
    | none => some (OKAY, t, sent)
    | some m' => (append t m').map fun t => (OKAY, t, sent)

end Verif.Writer
