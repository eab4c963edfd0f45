import Verif.Icv.Model

/-!
# Specification: what is covered by a signature

The wire format of messages and packets (RFC 5444) as far as a signature is concerned: header, TLVs, and the
rest as opaque bytes.  RFC 7182: the signature covers the data without all ICV TLVs and with hop limit and hop
count set to zero.
-/

namespace Verif.Icv

/-- a message or packet TLV without index fields: `extra` are the three low bits of the flags, the value has a
one byte (`false`) or a two byte (`true`) length field -/
structure Tlv where
  type : UInt8
  extra : UInt8
  ext : Option UInt8
  value : Option (Bool × Bytes)
deriving DecidableEq, Repr

def Tlv.flags (t : Tlv) : UInt8 :=
  t.extra + (if t.ext.isSome then 0x80 else 0) +
    (match t.value with
     | none => 0
     | some (false, _) => 0x10
     | some (true, _) => 0x18)

def Tlv.enc (t : Tlv) : Bytes :=
  t.type :: t.flags :: (t.ext.toList ++
    (match t.value with
     | none => []
     | some (false, v) => v.length.toUInt8 :: v
     | some (true, v) => be16 v.length ++ v))

structure Tlv.Wf (t : Tlv) : Prop where
  extra : t.extra < 8
  short : ∀ v, t.value = some (false, v) → v.length ≤ 255
  long : ∀ v, t.value = some (true, v) → v.length ≤ 65530

def encTlvs (l : List Tlv) : Bytes := l.flatMap Tlv.enc

/-- the TLVs covered by a signature -/
def covered (l : List Tlv) : List Tlv := l.filter (fun t => t.type != 5)

/-- a message -/
structure Msg where
  type : UInt8
  flags : UInt8
  orig : Bytes
  limit : Option UInt8
  count : Option UInt8
  seq : Bytes
  tlvs : List Tlv
  body : Bytes
deriving DecidableEq, Repr

/-- the header fields between size and TLV block -/
def Msg.fields (m : Msg) : Bytes := m.orig ++ m.limit.toList ++ m.count.toList ++ m.seq

def Msg.size (m : Msg) : Nat := 4 + m.fields.length + 2 + (encTlvs m.tlvs).length + m.body.length

def Msg.enc (m : Msg) : Bytes :=
  m.type :: m.flags :: (be16 m.size ++ m.fields ++ be16 (encTlvs m.tlvs).length ++ encTlvs m.tlvs ++ m.body)

/-- the flags tell which fields are present -/
structure Msg.Wf (m : Msg) : Prop where
  orig : m.orig.length = if m.flags &&& 0x80 ≠ 0 then (m.flags &&& 0x0f).toNat + 1 else 0
  limit : m.limit.isSome = decide (m.flags &&& 0x40 ≠ 0)
  count : m.count.isSome = decide (m.flags &&& 0x20 ≠ 0)
  seq : m.seq.length = if m.flags &&& 0x10 ≠ 0 then 2 else 0
  tlvs : ∀ t ∈ m.tlvs, t.Wf
  size : m.size < 65536

/-- what a signature covers: no ICV TLVs, hop limit and hop count zero -/
def Msg.norm (m : Msg) : Msg :=
  { m with limit := m.limit.map (fun _ => 0), count := m.count.map (fun _ => 0), tlvs := covered m.tlvs }

/-- a packet: `first` is the first byte (version and flags), `tlvs` the TLV block if there is one -/
structure Pkt where
  first : UInt8
  seq : Bytes
  tlvs : Option (List Tlv)
  body : Bytes
deriving DecidableEq, Repr

def Pkt.enc (p : Pkt) : Bytes :=
  p.first :: (p.seq ++
    (match p.tlvs with
     | none => []
     | some l => be16 (encTlvs l).length ++ encTlvs l) ++ p.body)

structure Pkt.Wf (p : Pkt) : Prop where
  seq : p.seq.length = if p.first &&& 0x08 ≠ 0 then 2 else 0
  block : p.tlvs.isSome = decide (p.first &&& 0x04 ≠ 0)
  tlvs : ∀ l, p.tlvs = some l → ∀ t ∈ l, t.Wf
  size : p.enc.length < 65536

/-- what a signature covers: no ICV TLVs, and no TLV block if there are no other TLVs -/
def Pkt.norm (p : Pkt) : Pkt :=
  match p.tlvs with
  | none => p
  | some l => if covered l = [] then { p with first := p.first &&& 0xfb, tlvs := none } else { p with tlvs := some (covered l) }

end Verif.Icv
