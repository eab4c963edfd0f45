import Verif.Reader.Model

/-
Model of the RFC 5444 writer: TLVs (`src/librfc5444/rfc5444_tlv_writer.c`), address blocks and message forwarding
(`src/librfc5444/rfc5444_msg_generator.c`), built with DEBUG_CLEANUP false.

A pointer into a buffer that moves forward while bytes are written is the list of the bytes written.  Buffers are
lists of bytes whose length is the size of the buffer; a write that leaves the buffer is the outcome `none`.
`size_t` values are natural numbers (differences that can be negative are marked).
-/
namespace Verif.Writer
open Verif.Reader (Bytes)

/-- the low byte of a number, `x & 255` -/
def lo (n : Nat) : UInt8 := UInt8.ofNat n
/-- `x >> 8`, stored in a byte -/
def hi (n : Nat) : UInt8 := UInt8.ofNat (n / 256)

/-- `_calc_tlv_size`, rfc5444_tlv_writer.c:166-181 -/
def calcTlvSize (hasExt : Bool) (length : Nat) : Nat :=
  2 + (if hasExt then 1 else 0) + length + (if length > 255 then 2 else if length > 0 then 1 else 0)

/-- flags of a TLV, rfc5444_tlv_writer.c:197-213 -/
def tlvFlags (ext idx1 idx2 : UInt8) (length : Nat) : UInt8 :=
  (if ext > 0 then 0x80 else 0) ||| (if idx1 = idx2 then 0x40 else if idx1 > 0 ∨ idx2 < 255 then 0x20 else 0) |||
  (if length > 255 then 0x08 else 0) ||| (if length > 0 then 0x10 else 0)

/-- `_write_tlv`, rfc5444_tlv_writer.c:194-232: the bytes written -/
def writeTlv (type ext idx1 idx2 : UInt8) (value : Bytes) : Bytes :=
  [type, tlvFlags ext idx1 idx2 value.length] ++
  (if ext ≠ 0 then [ext] else []) ++
  (if idx1 > 0 ∨ idx2 < 255 then idx1 :: (if idx1 ≠ idx2 then [idx2] else []) else []) ++
  (if value.length > 255 then [hi value.length] else []) ++
  (if value.length > 0 then lo value.length :: value else [])

/-- `struct rfc5444_tlv_writer_data`, rfc5444_tlv_writer.h:54-72; `buffer` has the size of the allocated memory -/
structure Data where
  buffer : Bytes
  header : Nat
  added : Nat
  allocated : Nat
  set : Nat
  max : Nat
deriving DecidableEq, Repr

/-- `memcpy(&buf[off], src, src.length)` -/
def store (buf : Bytes) (off : Nat) (src : Bytes) : Option Bytes :=
  if off + src.length ≤ buf.length then some (buf.take off ++ src ++ buf.drop (off + src.length)) else none

def OKAY : Int := 0
/-- rfc5444_context.h:115 -/
def MTU_TOO_SMALL : Int := -12

/-- `_rfc5444_tlv_writer_init`, rfc5444_tlv_writer.c:66-77 -/
def init (d : Data) (max : Nat) : Data := { d with header := 0, added := 0, allocated := 0, set := 0, max := max }

/-- `_rfc5444_tlv_writer_add`, rfc5444_tlv_writer.c:90-105 -/
def add (d : Data) (type ext : UInt8) (value : Bytes) : Option (Int × Data) :=
  let s := calcTlvSize (ext ≠ 0) value.length
  if d.header + d.added + d.allocated + s > d.max then some (MTU_TOO_SMALL, d)
  else
    match store d.buffer (d.header + d.added) (writeTlv type ext 0 255 value) with
    | none => none
    | some b => some (OKAY, { d with buffer := b, added := d.added + s })

/-- `_rfc5444_tlv_writer_allocate`, rfc5444_tlv_writer.c:116-128 -/
def allocate (d : Data) (hasExt : Bool) (length : Nat) : Int × Data :=
  let s := calcTlvSize hasExt length
  if d.header + d.added + d.allocated + s > d.max then (MTU_TOO_SMALL, d)
  else (OKAY, { d with allocated := d.allocated + s })

/-- `_rfc5444_tlv_writer_set`, rfc5444_tlv_writer.c:142-158 (`allocated` is never less than `set`) -/
def setTlv (d : Data) (type ext : UInt8) (value : Bytes) : Option (Int × Data) :=
  let s := calcTlvSize (ext ≠ 0) value.length
  if d.allocated - d.set < s then some (MTU_TOO_SMALL, d)
  else
    match store d.buffer (d.header + d.added + d.set) (writeTlv type ext 0 255 value) with
    | none => none
    | some b => some (OKAY, { d with buffer := b, set := d.set + s })

/-! ### address blocks -/

/-- an address and its prefix length -/
structure Addr where
  bytes : Bytes
  plen : UInt8
deriving DecidableEq, Repr

/-- the inner loop of the calculation of the tail, rfc5444_msg_generator.c:1267-1272: number of equal bytes at the
end of both addresses, at most `n` -/
def commonTail (n : Nat) (a b : Bytes) : Nat := go n 0 (a.reverse) (b.reverse)
where
  go : Nat → Nat → Bytes → Bytes → Nat
  | 0, k, _, _ => k
  | n + 1, k, x :: xs, y :: ys => if x = y then go n (k + 1) xs ys else k
  | _ + 1, k, _, _ => k

/-- length of the tail, rfc5444_msg_generator.c:1258-1273 -/
def tailLength (start : Bytes) : Nat → List Addr → Nat
  | n, [] => n
  | n, a :: as => if n = 0 then 0 else tailLength start (commonTail n start a.bytes) as

/-- head and tail of an address block, rfc5444_msg_generator.c:1251-1281: head and tail are used only for blocks with
more than one address -/
def headTail (addrLen headLen : Nat) (as : List Addr) : Nat × Nat :=
  match as with
  | a :: _ :: _ => (headLen, tailLength a.bytes (addrLen - headLen - 1) as)
  | _ => (0, 0)

/-- the address block without its TLVs, rfc5444_msg_generator.c:1283-1333; `headLen` and `multi` are
`_block_headlen` and `_block_multiple_prefixlen` of the first address -/
def writeBlock (addrLen headLen : Nat) (multi : Bool) (as : List Addr) : Bytes :=
  let (h, t) := headTail addrLen headLen as
  let first := (as.map Addr.bytes).headD []
  let plen := (as.map Addr.plen).headD 0
  let tail := first.drop (addrLen - t)
  let zero := t > 0 ∧ tail.all (· = 0)
  let flags : UInt8 := (if h > 0 then 0x80 else 0) ||| (if t > 0 then if zero then 0x20 else 0x40 else 0) |||
    (if multi then 0x08 else if plen.toNat ≠ addrLen * 8 then 0x10 else 0)
  [lo as.length, flags] ++
  (if h > 0 then lo h :: first.take h else []) ++
  (if t > 0 then lo t :: (if zero then [] else tail) else []) ++
  as.flatMap (fun a => (a.bytes.drop h).take (addrLen - h - t)) ++
  (if multi then as.map Addr.plen else if plen.toNat ≠ addrLen * 8 then [plen] else [])

/-! ### message header -/

/-- the fields of a message header: type, address length, and the optional fields (`has_*` of `struct
rfc5444_writer_message`, rfc5444_writer.h:329-351) -/
structure MsgHdr where
  type : UInt8
  addrLen : Nat
  orig : Option Bytes
  hoplimit : Option UInt8
  hopcount : Option UInt8
  seqno : Option Nat
deriving DecidableEq, Repr

/-- `_msg.header`, set by `rfc5444_writer_set_msg_header`, rfc5444_msg_generator.c:707-721 -/
def MsgHdr.size (h : MsgHdr) : Nat :=
  6 + (if h.orig.isSome then h.addrLen else 0) + (if h.hoplimit.isSome then 1 else 0) + (if h.hopcount.isSome then 1 else 0) +
  (if h.seqno.isSome then 2 else 0)

/-- flags and address length, rfc5444_msg_generator.c:1379-1404 -/
def MsgHdr.flags (h : MsgHdr) : UInt8 :=
  lo (h.addrLen - 1) ||| (if h.orig.isSome then 0x80 else 0) ||| (if h.hoplimit.isSome then 0x40 else 0) |||
  (if h.hopcount.isSome then 0x20 else 0) ||| (if h.seqno.isSome then 0x10 else 0)

/-- a 16 bit field that may be missing -/
def seqBytes : Option Nat → Bytes
  | none => []
  | some x => [hi x, lo x]

/-- `_write_msgheader`, rfc5444_msg_generator.c:1370-1410: `tlvs` and `addrs` are the sizes of the message TLVs and of
the address blocks -/
def writeMsgHeader (h : MsgHdr) (tlvs addrs : Nat) : Bytes :=
  let total := (h.size + tlvs + addrs) % 65536
  [h.type, h.flags, hi total, lo total] ++
  (h.orig.getD []).take h.addrLen ++
  h.hoplimit.toList ++
  h.hopcount.toList ++
  seqBytes h.seqno ++
  [hi (tlvs % 65536), lo (tlvs % 65536)]

/-- the message handed to the targets, rfc5444_msg_generator.c:1518-1528: header and message TLVs are followed
by the address blocks (the space reserved for TLVs that were not set is left out) -/
def writeMessage (h : MsgHdr) (tlvs addrs : Bytes) : Bytes := writeMsgHeader h tlvs.length addrs.length ++ tlvs ++ addrs

/-! ### forwarding -/

/-- positions of the hop limit and the hop count, rfc5444_msg_generator.c:540-562 -/
def hopFields (msg : Bytes) : Option Nat × Option Nat :=
  let flags := msg.getD 1 0
  let cnt := 4 + (if flags &&& 0x80 ≠ 0 then ((flags &&& 0x0f) + 1).toNat else 0)
  let hl := if flags &&& 0x40 ≠ 0 then some cnt else none
  let cnt := if flags &&& 0x40 ≠ 0 then cnt + 1 else cnt
  let hc := if flags &&& 0x20 ≠ 0 then some cnt else none
  (hl, hc)

/-- add to a byte if there is one -/
def change (f : UInt8 → UInt8) (b : Bytes) : Option Nat → Bytes
  | none => b
  | some i => b.modify i f

/-- the hop limit is used up, rfc5444_msg_generator.c:564-567 -/
def expired (msg : Bytes) : Option Nat → Bool
  | some i => msg.getD i 0 ≤ 1
  | none => false

/-- the message written to the packet buffer of a target, rfc5444_msg_generator.c:564-613, without forwarding
processors; `none`: not forwarded -/
def forwardMsg (msg : Bytes) : Option Bytes :=
  let (hl, hc) := hopFields msg
  if expired msg hl then none
  else
    let p := (msg.set 2 (hi msg.length)).set 3 (lo msg.length)
    some (change (· + 1) (change (· - 1) p hl) hc)

end Verif.Writer
