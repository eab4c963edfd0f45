import Verif.Reader.Model

/-!
# RFC 7182 signatures of messages and packets

Model of src/crypto/rfc5444_signature/rfc5444_signature.c (check of incoming and creation of outgoing
signatures), of the signature functions of src/crypto/rfc7182_provider/rfc7182_provider.c and of the key-id
callback of src/crypto/sharedkey_sig/sharedkey_sig.c.

Simplifications:
* The fields `has_origaddr`, `has_hoplimit`, … of the reader context and of the writer's message are read
  from the flags byte of the message (area Reader: they are set from it in rfc5444_reader.c:1105-1130; the
  writer sets the flags from them).
* Hash and encryption are an arbitrary function from the data to be signed to the signature.
* Logging is left out.
-/

namespace Verif.Icv

abbrev Bytes := List UInt8

/-- outcome of a piece of code: a result, an access outside the memory to be read or to be written, the use
of a null pointer, an endless loop -/
inductive Out (α : Type) where
  | ok (a : α)
  | read
  | write
  | null
  | hang
deriving DecidableEq, Repr

/-- `RFC5444_MAX_PACKET_SIZE`, include/oonf/librfc5444/rfc5444_writer.h:82: the size of
`_static_message_buffer`, rfc5444_signature.c:126, and of `_incoming_buffer`, oonf_rfc5444.c:247 -/
def CAP : Nat := 1472

/-- `RFC7182_MSGTLV_ICV` = `RFC7182_PKTTLV_ICV`, rfc5444_iana.h:99,130 -/
def ICV : UInt8 := 5

/-- a 16-bit number as two bytes (`x / 256`, `x & 255`) -/
def be16 (n : Nat) : Bytes := [(n / 256).toUInt8, (n % 256).toUInt8]

/-- length of the header before the TLV block and the positions of hop limit and hop count -/
structure Layout where
  hdr : Nat
  limit : Option Nat
  count : Option Nat
deriving DecidableEq, Repr

/-- the header of a message or packet, rfc5444_signature.c:576-613 (`_remove_signature_data`) and 448-485
(`_cb_add_signature`) -/
def layout (pkt : Bool) (mem : Bytes) : Layout :=
  if pkt then
    if mem.headD 0 &&& 0x08 ≠ 0 then ⟨3, none, none⟩ else ⟨1, none, none⟩
  else
    let f := mem.tail.headD 0
    let a := if f &&& 0x80 ≠ 0 then 4 + ((f &&& 0x0f).toNat + 1) else 4
    let b := if f &&& 0x40 ≠ 0 then a + 1 else a
    let c := if f &&& 0x20 ≠ 0 then b + 1 else b
    ⟨if f &&& 0x10 ≠ 0 then c + 2 else c, if f &&& 0x40 ≠ 0 then some a else none, if f &&& 0x20 ≠ 0 then some b else none⟩

/-- write a zero at an optional position -/
def zeroAt (p : Option Nat) (l : Bytes) : Bytes :=
  match p with
  | none => l
  | some i => l.set i 0

/-- length of the TLV at `src_ptr` as computed by `_remove_signature_data`, rfc5444_signature.c:640-656;
`none` is a read behind the memory -/
def tlvLen : Bytes → Option Nat
  | _ :: f :: r =>
    let e := if f &&& 0x80 ≠ 0 then 1 else 0
    if f &&& 0x10 = 0 then some (2 + e)
    else if f &&& 0x08 ≠ 0 then
      match r.drop e with
      | a :: b :: _ => some ((2 + e + (256 * a.toNat + b.toNat) + 2) % 65536)
      | _ => none
    else
      match r.drop e with
      | a :: _ => some (2 + e + a.toNat + 1)
      | _ => none
  | _ => none

/-- the loop over the TLVs, rfc5444_signature.c:636-668, with the 16-bit variables `len` and `blocklen`.
`room` is the size of the destination, `base` the bytes in front of the copied TLVs `out`, `pos` the distance
of `src_ptr` from the start of the message.  Result: `blocklen`, the copied TLVs, `pos`, the bytes at
`src_ptr`. -/
def skim (room base : Nat) : Nat → Nat → Nat → Nat → Bytes → Bytes → Out (Nat × Bytes × Nat × Bytes)
  | 0, _, _, _, _, _ => .hang
  | fuel + 1, len, block, pos, out, rest =>
    if len = 0 then .ok (block, out, pos, rest)
    else
      match tlvLen rest with
      | none => .read
      | some 0 => .hang
      | some n =>
        if rest.length < n then .read
        else if rest.headD 0 = ICV then
          skim room base fuel ((len + 65536 - n) % 65536) ((block + 65536 - n) % 65536) (pos + n) out (rest.drop n)
        else if room < base + out.length + n then .write
        else skim room base fuel ((len + 65536 - n) % 65536) block (pos + n) (out ++ rest.take n) (rest.drop n)

/-- the end of `_remove_signature_data`, rfc5444_signature.c:670-695; `hd` is the copied header, `pos` and
`rest` as in `skim` -/
def finish (room : Nat) (pkt : Bool) (size : Nat) (hd : Bytes) (r : Nat × Bytes × Nat × Bytes) : Out Bytes :=
  let (block, out, pos, rest) := r
  let front : Bytes :=
    if 0 < block ∨ pkt = false then hd ++ be16 block ++ out
    else (hd.set 0 (hd.headD 0 &&& 0xfb)) ++ out
  let n := (size + 65536 - pos % 65536) % 65536
  if rest.length < n then .read
  else if room < front.length + n then .write
  else
    let d := front ++ rest.take n
    .ok (if pkt then d else (d.set 2 (d.length / 256).toUInt8).set 3 (d.length % 256).toUInt8)

/-- `_remove_signature_data`, rfc5444_signature.c:566-697: `mem` are the bytes from the start of the message
(or packet) up to the end of the received packet, `size` the size of the message (or packet), `room` the free
bytes of the destination buffer -/
def removeSig (room : Nat) (pkt : Bool) (mem : Bytes) (size : Nat) : Out Bytes :=
  let l := layout pkt mem
  if mem.length < l.hdr + 2 then .read
  else if room < l.hdr then .write
  else
    let hd := zeroAt l.count (zeroAt l.limit (mem.take l.hdr))
    let r := mem.drop l.hdr
    let block := 256 * (r.headD 0).toNat + (r.tail.headD 0).toNat
    let rest := r.drop 2
    match skim room (l.hdr + 2) (rest.length + 1) block block (l.hdr + 2) [] rest with
    | .ok x => finish room pkt size hd x
    | .read => .read
    | .write => .write
    | .null => .null
    | .hang => .hang

/-- `enum rfc5444_sigid_check` -/
inductive IdCheck where
  | okay
  | ignore
  | drop
deriving DecidableEq, Repr

/-- `struct rfc5444_signature` as used for incoming data: key, flags, the callbacks `is_matching_signature`
for the type of the message and `verify_id`, and the validation function of its hash/crypt pair (`none`: one
of the pointers is NULL) -/
structure Sig where
  hash : UInt8
  crypt : UInt8
  srcSpec : Bool
  dropInvalid : Bool
  matching : Bool
  verifyId : Bytes → IdCheck
  validate : Option (Bytes → Bytes → Bool)

/-- an ICV TLV as handed to the consumer: type extension and value (`single_value`, `length`) -/
structure IcvTlv where
  ext : UInt8
  value : Bytes
deriving DecidableEq, Repr

/-- `key_id_len`, rfc5444_signature.c:286 -/
def IcvTlv.kidLen (t : IcvTlv) : Nat := (t.value.getD 2 0).toNat

/-- the key-id of the TLV -/
def IcvTlv.kid (t : IcvTlv) : Bytes := (t.value.drop 3).take t.kidLen

/-- the signature value of the TLV -/
def IcvTlv.icv (t : IcvTlv) : Bytes := t.value.drop (3 + t.kidLen)

/-- the TLVs which are looked at, rfc5444_signature.c:273-293 -/
def IcvTlv.usable (t : IcvTlv) : Bool :=
  (t.ext == 1 || t.ext == 2) && decide (4 ≤ t.value.length) && decide (3 + t.kidLen < t.value.length)

/-- what is put in front of the data, rfc5444_signature.c:296-309 -/
def pre (src : Bytes) (t : IcvTlv) : Bytes := (if t.ext = 2 then src else []) ++ t.value.take (3 + t.kidLen)

/-- one round of the loop over the signatures with the key of the TLV, rfc5444_signature.c:315-346; the
result is the new value of `verified`, or `none` if the data has to be dropped -/
def sigStep (t : IcvTlv) (data : Bytes) (s : Sig) (v : Bool) : Out (Option Bool) :=
  if ¬ (s.hash = t.value.getD 0 0 ∧ s.crypt = t.value.getD 1 0) then .ok (some v)
  else if s.matching = false then .ok (some v)
  else if (t.ext == 2) ≠ s.srcSpec then .ok (some v)
  else
    match s.verifyId t.kid with
    | .ignore => .ok (some v)
    | .drop => .ok none
    | .okay =>
      match s.validate with
      | none => .null
      | some f => .ok (some (f t.icv data))

/-- the loop over the signatures, rfc5444_signature.c:314-347 -/
def sigLoop (t : IcvTlv) (data : Bytes) : List (Sig × Bool) → Out (Option (List (Sig × Bool)))
  | [] => .ok (some [])
  | (s, v) :: l =>
    match sigStep t data s v with
    | .ok none => .ok none
    | .ok (some v') =>
      match sigLoop t data l with
      | .ok none => .ok none
      | .ok (some l') => .ok (some ((s, v') :: l'))
      | .read => .read
      | .write => .write
      | .null => .null
      | .hang => .hang
    | .read => .read
    | .write => .write
    | .null => .null
    | .hang => .hang

/-- the loop over the TLVs, rfc5444_signature.c:272-348 -/
def tlvLoop (src : Bytes) (pkt : Bool) (mem : Bytes) (size : Nat) : List IcvTlv → List (Sig × Bool) → Out (Option (List (Sig × Bool)))
  | [], st => .ok (some st)
  | t :: ts, st =>
    if t.usable = false then tlvLoop src pkt mem size ts st
    else if CAP < (pre src t).length then .write
    else
      match removeSig (CAP - (pre src t).length) pkt mem size with
      | .ok d =>
        match sigLoop t (pre src t ++ d) st with
        | .ok none => .ok none
        | .ok (some st') => tlvLoop src pkt mem size ts st'
        | .read => .read
        | .write => .write
        | .null => .null
        | .hang => .hang
      | .read => .read
      | .write => .write
      | .null => .null
      | .hang => .hang

/-- `_cb_signature_tlv`, rfc5444_signature.c:226-363: `true` is `RFC5444_OKAY`, `false` a drop.  `tlvs` are
the ICV TLVs of the message (or packet) as chained by the reader, `sigs` the tree of signatures. -/
def checkSig (src : Bytes) (pkt : Bool) (mem : Bytes) (size : Nat) (tlvs : List IcvTlv) (sigs : List Sig) : Out Bool :=
  if sigs.any (fun s => s.matching) = false then .ok true
  else
    match tlvLoop src pkt mem size tlvs (sigs.map (fun s => (s, false))) with
    | .ok none => .ok false
    | .ok (some st) => .ok (st.all (fun p => p.2 || !(p.1.dropInvalid && p.1.matching)))
    | .read => .read
    | .write => .write
    | .null => .null
    | .hang => .hang

/-- the packet consumer is called only for packets with a TLV block, rfc5444_reader.c:189,219-222 -/
def checkPacket (src : Bytes) (mem : Bytes) (tlvs : List IcvTlv) (sigs : List Sig) : Out Bool :=
  if mem.headD 0 &&& 0x04 ≠ 0 then checkSig src true mem mem.length tlvs sigs else .ok true

/-- `_cb_verify_id` of the shared-key signatures, sharedkey_sig.c:269-285 (`id` without terminating zero) -/
def sharedId (id : Bytes) (kid : Bytes) : IdCheck := if kid = id then .okay else .drop

/-- `_cb_validate_by_sign`, rfc7182_provider.c:270-302.  The function returns a `bool`: the `-1` of the two
error cases is converted to `true`. -/
def validateBySign (sign : Bytes → Option Bytes) (icv data : Bytes) : Bool :=
  match sign data with
  | none => true
  | some s => if s.length ≠ icv.length then true else s == icv

/-- a signature as used for outgoing data: key, flags, key-id, signing function with its key,
`getSignSize` -/
structure Signer where
  hash : UInt8
  crypt : UInt8
  srcSpec : Bool
  kid : Bytes
  sign : Bytes → Option Bytes
  signSize : Nat

/-- the bytes in front of the data in `_static_message_buffer`, rfc5444_signature.c:409-434 -/
def signPre (s : Signer) (src : Bytes) : Bytes :=
  (if s.srcSpec then src else []) ++ (s.hash :: s.crypt :: s.kid.length.toUInt8 :: s.kid)

/-- the signature TLV, rfc5444_signature.c:489-497,525-553 -/
def icvTlv (s : Signer) (icv : Bytes) : Bytes :=
  let v := s.hash :: s.crypt :: s.kid.length.toUInt8 :: (s.kid ++ icv)
  let ext : UInt8 := if s.srcSpec then 2 else 1
  if 255 < v.length then ICV :: 0x98 :: ext :: (be16 v.length ++ v)
  else ICV :: 0x90 :: ext :: v.length.toUInt8 :: v

/-- the data with the signature TLV inserted, rfc5444_signature.c:499-560 -/
def insertIcv (pkt : Bool) (data tlv : Bytes) : Bytes :=
  let h := (layout pkt data).hdr
  if pkt ∧ data.headD 0 &&& 0x04 = 0 then
    (data.take h).set 0 (data.headD 0 ||| 0x04) ++ be16 tlv.length ++ tlv ++ data.drop h
  else
    let r := data.drop h
    let block := 256 * (r.headD 0).toNat + (r.tail.headD 0).toNat + tlv.length
    let d := data.take h ++ be16 block ++ tlv ++ r.drop 2
    if pkt then d else (d.set 2 (d.length / 256).toUInt8).set 3 (d.length % 256).toUInt8

/-- `_cb_add_signature`, rfc5444_signature.c:374-565 for a local address `src`; `none` is an error (the data
is not sent) -/
def addSig (s : Signer) (src : Bytes) (pkt : Bool) (data : Bytes) : Out (Option Bytes) :=
  let l := layout pkt data
  let p := signPre s src
  if CAP < p.length + data.length then .write
  else
    match s.sign (p ++ zeroAt l.count (zeroAt l.limit data)) with
    | none => .ok none
    | some icv => if s.signSize < icv.length then .ok none else .ok (some (insertIcv pkt data (icvTlv s icv)))

/-- space reserved by the writer for the signature, rfc5444_signature.c:771 -/
def reserved (s : Signer) : Nat := s.signSize

end Verif.Icv
