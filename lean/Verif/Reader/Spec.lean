import Verif.Reader.Model

/-
What the properties C31 to C34 talk about, in terms of bytes of the packet and of the history of callbacks.
-/
namespace Verif.Reader

/-! ### flags -/

/-- the TLV at the begin of `b` has a value, is a multivalue TLV, and its range of indices is empty modulo
256: either no index field although it belongs to no address (`n = 0` addresses), or a start index one
above the stop index -/
def EmptyRange (n : UInt8) (b : Bytes) : Prop :=
  ∃ type flags x, b = type :: flags :: x ∧ flags &&& 0x14 = 0x14 ∧
    ((flags &&& 0x60 = 0 ∧ n = 0) ∨
     (flags &&& 0x60 = 0x20 ∧ ∃ i j y, (if flags &&& 0x80 ≠ 0 then x.drop 1 else x) = i :: j :: y ∧ i = j + 1))

/-- length of the head of an address block with these flags, `x` are the bytes behind the flags -/
def headLen (flags : UInt8) (x : Bytes) : Nat :=
  if flags &&& 0x80 ≠ 0 then (x.getD 0 0).toNat else 0

/-- position of the length of the tail in `x` -/
def tailPos (flags : UInt8) (x : Bytes) : Nat := if flags &&& 0x80 ≠ 0 then 1 + headLen flags x else 0

/-- length of the tail of an address block with these flags, `x` are the bytes behind the flags -/
def tailLen (flags : UInt8) (x : Bytes) : Nat :=
  if flags &&& 0x60 ≠ 0 then (x.getD (tailPos flags x) 0).toNat else 0

/-- somewhere in `b` is the begin of an address block whose head and tail together are longer than an address -/
def BadBlock (b : Bytes) (addrLen : Nat) : Prop :=
  ∃ num flags x, (num :: flags :: x) <:+: b ∧ flags &&& 0x60 ≠ 0 ∧ addrLen < headLen flags x + tailLen flags x

/-- a message (the second byte contains the length of its addresses) with such an address block -/
def BadMessage (m : Bytes) : Prop := ∃ type flags y, m = type :: flags :: y ∧ BadBlock y ((flags &&& 0x0f) + 1).toNat

/-! ### messages -/

/-- the size field of a message -/
def sizeField : Bytes → Option Nat
  | _ :: _ :: a :: b :: _ => some (a.toNat * 256 + b.toNat)
  | _ => none

/-- the only packets that lead to undefined behaviour: a multivalue TLV with an empty range of indices, an
address block with a single prefix length that reaches up to the end of the packet, a message with an address
block whose head and tail together are longer than an address -/
def Hazard (buf : Bytes) : Ub → Prop
  | .div => ∃ n b, b <:+: buf ∧ EmptyRange n b
  | .read => ∃ num flags x, (num :: flags :: x) <:+ buf ∧ flags &&& 0x18 = 0x10
  | .copy => ∃ start size, start <:+ buf ∧ sizeField start = some size ∧ BadMessage (start.take size)
  | .loop => False

/-- `b` is the concatenation of messages, each as long as its size field says -/
inductive Split : Bytes → List Bytes → Prop
  | nil : Split [] []
  | cons {m rest ms} : sizeField m = some m.length → Split rest ms → Split (m ++ rest) (m :: ms)

/-- a message that is accepted when it is parsed alone and all allocations succeed -/
def WellFormed (m : Bytes) : Prop :=
  sizeField m = some m.length ∧ ∀ k, ∃ msg k', parseMessage (fun _ => true) k m = .ok (msg, k')

/-! ### history of callbacks -/

/-- message (number) an event belongs to -/
def Ctx.message : Ctx → Option Nat
  | .pkt => none
  | .msg m => some m
  | .addr m _ _ _ _ => some m

/-- the same packet, message or address -/
def Ctx.Same : Ctx → Ctx → Prop
  | .pkt, .pkt => True
  | .msg m, .msg m' => m = m'
  | .addr m b i _ _, .addr m' b' i' _ _ => m = m' ∧ b = b' ∧ i = i'
  | _, _ => False

def Ctx.IsAddr : Ctx → Prop
  | .addr .. => True
  | _ => False

def Kind.IsFin : Kind → Prop
  | .fin _ => True
  | _ => False

def Kind.IsForward : Kind → Prop
  | .forward .. => True
  | _ => False

def Kind.IsTlvs : Kind → Prop
  | .tlv .. | .block _ | .failed _ => True
  | _ => False

/-- the TLVs a callback gets to see -/
def Kind.tlvs : Kind → List Tlv
  | .tlv t _ => [t]
  | .block m => m.flatten
  | .failed m => m.flatten
  | _ => []

/-- the callback sees TLV number `tid` of the block -/
def Event.Sees (e : Event) (tid : Nat) : Prop := ∃ t ∈ e.kind.tlvs, t.id = tid

/-- first TLV of the entries flagged with `drop` -/
def Picked (m : List (List Tlv)) (drops : List Nat) (tid : Nat) : Prop :=
  ∃ i t ts, m[i]? = some (t :: ts) ∧ i ∈ drops ∧ t.id = tid

/-- the callback drops TLV number `tid` of the block -/
def Event.Drops (e : Event) (tid : Nat) : Prop :=
  e.r.res = DROP_TLV ∧
    match e.kind with
    | .tlv t _ => t.id = tid
    | .block m => Picked m e.r.drops tid
    | .failed m => Picked m e.r.drops tid
    | _ => False

/-- index of the address a callback is called for, 0 for packets and messages -/
def Ctx.index : Ctx → Nat
  | .addr _ _ i _ _ => i
  | _ => 0

/-- what a callback gets to see lies in the received packet `buf`: the value of a TLV has as many bytes as
its length says, and all TLVs belong to the index the callback is called for -/
structure Event.Valid (buf : Bytes) (e : Event) : Prop where
  value : ∀ t v, e.kind = .tlv t v → v.length = t.length ∧ v <:+: buf
  range : ∀ t ∈ e.kind.tlvs, t.index1.toNat ≤ e.ctx.index ∧ e.ctx.index ≤ t.index2.toNat ∧
    (valueAt t e.ctx.index).length = t.length ∧ valueAt t e.ctx.index <:+: buf

/-- the callback drops nothing beyond the TLVs or the address it is called for -/
def Event.Mild (e : Event) : Prop :=
  e.r.res = OKAY ∨ (e.r.res = DROP_TLV ∧ e.kind.IsTlvs) ∨ (e.r.res = DROP_ADDRESS ∧ e.ctx.IsAddr)

/-- scope of the decisions of the earlier event `e` on the later event `e'` -/
structure InScope (e e' : Event) : Prop where
  /-- a dropped TLV is not seen again for the same packet, message or address -/
  tlv : ∀ tid, e.Drops tid → e.ctx.Same e'.ctx → ¬ e'.Sees tid
  /-- for a dropped address only the end callback of the same consumer follows -/
  addr : e.ctx.IsAddr → e.r.res = DROP_ADDRESS → e.ctx.Same e'.ctx → ¬ e.kind.IsFin ∧ e'.kind.IsFin ∧ e'.cid = e.cid
  /-- for a dropped message only end callbacks follow, and forwarding if it is still allowed -/
  msg : e.ctx.message ≠ none → ¬ e.kind.IsForward → e.r.res = DROP_MESSAGE → e.ctx.message = e'.ctx.message → e'.kind.IsFin
  fwd : e.ctx.message ≠ none → ¬ e.kind.IsForward → e.r.res = DROP_MSG_BUT_FORWARD → e.ctx.message = e'.ctx.message →
    e'.kind.IsFin ∨ e'.kind.IsForward
  /-- for a dropped packet only end callbacks follow -/
  pkt : ¬ e.kind.IsForward → e.r.res = DROP_PACKET → e'.kind.IsFin

/-- in its turn `ev` (with the earlier history `log`) consumer `cid` was told about the start of an address,
unless the address was dropped before -/
def Started (cid : Nat) (ctx : Ctx) (ev log : List Event) : Prop :=
  (∃ e ∈ ev, ctx.Same e.ctx ∧ e.cid = cid ∧ e.kind = .start) ∨
    ∃ e ∈ log, ctx.IsAddr ∧ ctx.Same e.ctx ∧ e.r.res = DROP_ADDRESS

/-- in its turn `ev` (with the earlier history `log`) consumer `cid` was given TLV number `tid`, unless the
TLV or the address was dropped before, or the consumer itself dropped the address -/
def Delivered (cid : Nat) (ctx : Ctx) (tid : Nat) (ev log : List Event) : Prop :=
  (∃ e ∈ ev, ctx.Same e.ctx ∧ e.cid = cid ∧ ∃ t v, e.kind = .tlv t v ∧ t.id = tid) ∨
    (∃ e ∈ log, ctx.Same e.ctx ∧ e.Drops tid) ∨
    ∃ e ∈ ev ++ log, ctx.IsAddr ∧ ctx.Same e.ctx ∧ e.r.res = DROP_ADDRESS

/-- TLV number `tid` of a block is for index `j` -/
def HasTlv (tlvs : List Tlv) (tid j : Nat) : Prop :=
  ∃ t ∈ tlvs, t.id = tid ∧ t.index1.toNat ≤ j ∧ j ≤ t.index2.toNat

/-- the address `i` of block `blk` of message `m` -/
def addrCtx (m blk i : Nat) : Ctx := .addr m blk i [] 0

/-- in a history (newest first) every event respects the decisions of the earlier ones -/
def LogOk (log : List Event) : Prop := log.Pairwise (fun e' e => InScope e e')

/-- what a consumer gets in its turn `ev` -/
structure Turn (c : Consumer) (m : Nat) (tlvs : List Tlv) (blocks : List Block) (log ev : List Event) : Prop where
  cid : ∀ e ∈ ev, e.cid = c.id ∧ e.ctx.message = some m ∧ (e.ctx.IsAddr ↔ c.addrblock = true)
  msgStart : c.addrblock = false → c.hasStart = true → Started c.id (.msg m) ev log
  msgTlv : c.addrblock = false → c.hasTlv = true → ∀ tid, HasTlv tlvs tid 0 → Delivered c.id (.msg m) tid ev log
  addrStart : c.addrblock = true → c.hasStart = true → ∀ (k : Nat) (b : Block), blocks[k]? = some b → ∀ j < b.num.toNat,
    Started c.id (addrCtx m k j) ev log
  addrTlv : c.addrblock = true → c.hasTlv = true → ∀ (k : Nat) (b : Block), blocks[k]? = some b → ∀ j < b.num.toNat,
    ∀ tid, HasTlv b.tlvs tid j → Delivered c.id (addrCtx m k j) tid ev log

/-- what a packet consumer gets in its turn `ev` -/
structure PktTurn (c : Consumer) (tlvs : List Tlv) (log ev : List Event) : Prop where
  cid : ∀ e ∈ ev, e.cid = c.id ∧ e.ctx = .pkt
  start : c.hasStart = true → Started c.id .pkt ev log
  tlv : c.hasTlv = true → ∀ tid, HasTlv tlvs tid 0 → Delivered c.id .pkt tid ev log

/-- the consumer wants messages of this type -/
def Consumer.wants (c : Consumer) (h : Hdr) : Prop := c.dflt = true ∨ c.msgId = h.type

/-- the forwarding callback, as a test -/
def Kind.isForward : Kind → Bool
  | .forward .. => true
  | _ => false

/-- the callbacks of message number `m` of the packet -/
structure MsgEvents (env : Env) (cs : List Consumer) (m : Nat) (msg : Msg) (bytes : Bytes) (log ev : List Event) : Prop where
  ctx : ∀ e ∈ ev, e.ctx.message = some m
  valid : ∀ e ∈ ev, e.Valid bytes
  ok : LogOk (ev ++ log)
  turns : (∀ e ∈ ev, ¬ e.kind.IsForward → e.Mild) → ∀ c ∈ cs, c.wants msg.hdr →
    ∃ ev0 ev1 ev2, ev = ev2 ++ (ev1 ++ ev0) ∧ Turn c m msg.tlvs msg.blocks (ev0 ++ log) ev1 ∧
      (c.addrblock = false → c.hasEnd = true → ∃ e ∈ ev2, e.cid = c.id ∧ e.ctx = .msg m ∧ e.kind.IsFin)
  fwd : ∀ e ∈ ev, ∀ h b, e.kind = .forward h b → h = msg.hdr ∧ b = bytes ∧ e.ctx = .msg m ∧ env.hasForward = true ∧
    (∃ l, msg.hdr.hoplimit = some l ∧ 1 < l) ∧
    ∀ e' ∈ ev, ¬ e'.kind.IsForward → (e'.r.res ≠ DROP_MESSAGE ∧ e'.r.res ≠ DROP_PACKET) ∧ e'.r.noFwd = false
  fwdIf : env.hasForward = true → (∃ l, msg.hdr.hoplimit = some l ∧ 1 < l) →
    (∀ e ∈ ev, ¬ e.kind.IsForward → (e.Mild ∨ e.r.res = DROP_MSG_BUT_FORWARD) ∧ e.r.noFwd = false) →
    ∃ e ∈ ev, e.kind = .forward msg.hdr bytes
  fwdOne : (ev.filter fun e => e.kind.isForward).length ≤ 1

/-- codes of parse errors, rfc5444_context.h:82-145 -/
def Code (e : Int) : Prop := -20 ≤ e ∧ e < 0

instance (e : Int) : Decidable (Code e) := inferInstanceAs (Decidable (_ ∧ _))

/-- the messages `ms`, numbered from `m` on, are parsed each on its own (`k` counts the allocations) and handled
one after the other, with the earlier history `log` -/
inductive Visits (env : Env) (cs : List Consumer) : Nat → Nat → List Bytes → List Event → List Event → Prop
  | nil (m k : Nat) (log : List Event) : Visits env cs m k [] log []
  | cons {m k k' : Nat} {b : Bytes} {bs : List Bytes} {log ev ev' : List Event} {msg : Msg} :
    parseMessage env.mem k b = .ok (msg, k') → MsgEvents env cs m msg b log ev → Visits env cs (m + 1) k' bs (ev ++ log) ev' →
    Visits env cs m k (b :: bs) log (ev' ++ ev)

end Verif.Reader
