import Verif.Writer.Packet
import Verif.Writer.Create
import Verif.Writer.Forward

/-! Properties of the RFC 5444 writer. -/
namespace Verif.Writer
open Verif.Reader (Bytes Hdr S Tlv Block Msg parseTlv parseTlvblock parseHeader parseMessage blockLoop)

/-! ### C35: TLVs -/

/-- **C35**: a written TLV is read back with its type, extension and value, whatever follows it. -/
theorem C35_tlv_read_back (id : Nat) (type ext : UInt8) (value rest : Bytes) (h : value.length ≤ 65535) :
    ∃ t, parseTlv id (writeTlv type ext 0 255 value ++ rest) 0 = .ok (t, rest) ∧
      t.type = type ∧ t.ext = ext ∧ t.value = value ∧ t.length = value.length :=
  ⟨_, parseTlv_write id type ext value rest h, rfl, rfl, rfl, rfl⟩

/-- **C35**: the size calculated in advance is the size written. -/
theorem C35_size (type ext : UInt8) (value : Bytes) : (writeTlv type ext 0 255 value).length = calcTlvSize (ext ≠ 0) value.length :=
  writeTlv_length type ext value

/-- **C35**: a block of written TLVs is read back as the same TLVs (the reader sorts them by type). -/
theorem C35_block (l : List ATlv) (rest : Bytes) (k : Nat) (h : (writeMsgTlvs l).length ≤ 65535) :
    ∃ ts, parseTlvblock (fun _ => true) k ([hi (writeMsgTlvs l).length, lo (writeMsgTlvs l).length] ++ (writeMsgTlvs l ++ rest)) 0 = .ok (ts, rest, k + l.length) ∧
      (ts.map fun t => (⟨t.type, t.ext, t.value⟩ : ATlv)).Perm l := by
  obtain ⟨ts, l', r1, r2, r3, r4⟩ := parseTlvblock_write (mem := fun _ => true) (w := fun t : ATlv => writeTlv t.type t.ext 0 255 t.value)
    (Q := fun x t => tlvOf t = x) (n := 0) (fun _ => rfl) rest l (by
      intro t ht
      refine ⟨by unfold writeTlv; simp, fun id rest => ⟨_, parseTlv_write id t.type t.ext t.value rest ?_, rfl⟩⟩
      have := value_le_flat ht
      omega) k h
  refine ⟨l', r2, ?_⟩
  have hp := pairs_map r1
  rw [← hp]
  exact r3.map _

/-- a buffer holds exactly these TLVs behind the header -/
def Holds (d : Data) (added set : List ATlv) : Prop := DInv d added set

/-- **C35**: adding a TLV either puts it behind the TLVs in the buffer, or reports that there is not enough space and
changes nothing; the buffer is never left.  It is refused only if it does not fit. -/
theorem C35_add {d : Data} {l : List ATlv} (h : Holds d l []) (t : ATlv) :
    (d.header + d.added + d.allocated + (writeTlv t.type t.ext 0 255 t.value).length ≤ d.max →
      ∃ d', add d t.type t.ext t.value = some (OKAY, d') ∧ Holds d' (l ++ [t]) []) ∧
    (d.max < d.header + d.added + d.allocated + (writeTlv t.type t.ext 0 255 t.value).length → add d t.type t.ext t.value = some (MTU_TOO_SMALL, d)) := by
  obtain ⟨r, d', h1, _, _, _, h2⟩ := add_spec h t
  rw [writeTlv_length]
  constructor
  · intro hl
    rcases h2 with ⟨rfl, h2⟩ | ⟨rfl, rfl⟩
    · exact ⟨d', h1, h2⟩
    · unfold add at h1
      dsimp only at h1
      rw [if_neg (by omega)] at h1
      split at h1 <;> simp [OKAY, MTU_TOO_SMALL] at h1
  · intro hl
    unfold add
    dsimp only
    rw [if_pos (by omega)]

/-- **C35**: setting a TLV in reserved space: within the reservation it is put behind the others, otherwise refused
without any change; bytes behind the reserved space never change. -/
theorem C35_set {d : Data} {l s : List ATlv} (h : Holds d l s) (t : ATlv) :
    ∃ r d', setTlv d t.type t.ext t.value = some (r, d') ∧ ((r = OKAY ∧ Holds d' l (s ++ [t])) ∨ (r = MTU_TOO_SMALL ∧ d' = d)) ∧
      (r = OKAY ↔ (writeMsgTlvs s).length + (writeTlv t.type t.ext 0 255 t.value).length ≤ d.allocated) ∧
      d'.buffer.drop (d.header + d.added + d.allocated) = d.buffer.drop (d.header + d.added + d.allocated) := by
  obtain ⟨r, d', h1, _, _, _, _, h3, h2⟩ := set_spec h t
  refine ⟨r, d', h1, h2, ?_, ?_⟩
  · rw [writeTlv_length, ← h.set]
    have := h.set_le
    unfold setTlv at h1
    dsimp only at h1
    split at h1
    · cases h1
      simp only [OKAY, MTU_TOO_SMALL]
      constructor
      · intro h; cases h
      · intro; omega
    · split at h1
      · cases h1
      · cases h1
        simp only [true_iff]
        omega
  · have := h3 (d'.buffer.length + d.buffer.length)
    unfold slice at this
    rwa [List.take_of_length_le (by rw [List.length_drop]; omega), List.take_of_length_le (by rw [List.length_drop]; omega)] at this

example : ∃ t, parseTlv 0 (writeTlv 7 3 0 255 (List.replicate 300 5) ++ [1, 2]) 0 = .ok (t, [1, 2]) ∧ t.length = 300 ∧ t.ext = 3 := by
  obtain ⟨t, h1, h2, h3, h4, h5⟩ := C35_tlv_read_back 0 7 3 (List.replicate 300 5) [1, 2] (by rw [List.length_replicate]; omega)
  exact ⟨t, h1, by rw [h5, List.length_replicate], h3⟩

example : (writeTlv 7 0 0 255 (List.replicate 256 5)).length = 2 + 2 + 256 ∧ (writeTlv 7 0 0 255 (List.replicate 255 5)).length = 2 + 1 + 255 ∧
    (writeTlv 7 1 0 255 []).length = 3 := by decide +kernel

example : Holds ⟨List.replicate 20 0, 3, 0, 0, 0, 20⟩ [] [] :=
  ⟨by decide, by decide, by decide, rfl, rfl, rfl⟩

/-! ### C36, C60: address blocks -/

/-- what the reader finds in address blocks: address bytes, prefix length and TLVs of every address -/
def readBlocks (addrLen : Nat) (bytes : Bytes) : Option (List (Option Bytes × Option UInt8 × List ATlv)) :=
  match blockLoop (fun _ => true) false (lo addrLen) (bytes.length + 1) 0 bytes [] with
  | .ok (blocks, _) => some (blocks.flatMap (seen addrLen))
  | _ => none

/-- the address blocks of the first fragment of a message with these addresses: the number of addresses and the bytes -/
def fragment (addrLen : Nat) (max : Int) (as : List WAddr) : Option (Nat × Bytes) :=
  match feed addrLen max 0 none as (Sess.start fresh) with
  | none => none
  | some (n, _, s) => (writeFragment addrLen (as.take n) s).map fun b => (n, b)

/-- **C36, C60** (part): the address blocks of a fragment are read back as the addresses, prefix lengths and address
TLVs that were added, in the same order.
Missing: fragments with more than 255 addresses and addresses with the same bytes next to each other (counterexamples
below); several TLVs of the same type at one address (counterexample below); mandatory addresses in a second or later
fragment, whose `_block_*` fields are left over from the fragment before. -/
theorem C36_partial {addrLen : Nat} {max : Int} {as : List WAddr} (hlen : 0 < addrLen ∧ addrLen ≤ 16)
    (hbytes : ∀ a ∈ as, a.addr.bytes.length = addrLen)
    (htlvs : ∀ a ∈ as, a.tlvs.Pairwise fun t u => t.type.toNat * 256 + t.ext.toNat < u.type.toNat * 256 + u.ext.toNat)
    (hdiff : ∀ k (h : k + 1 < as.length), as[k].addr.bytes ≠ as[k + 1].addr.bytes) :
    ∃ n bytes, fragment addrLen max as = some (n, bytes) ∧ n ≤ as.length ∧
      (n ≤ 255 → bytes.length ≤ 65535 →
        readBlocks addrLen bytes = some ((as.take n).map fun a => (some a.addr.bytes, some a.addr.plen, a.tlvs))) := by
  obtain ⟨n, over, s, h1, h2, h3, bytes, h4, h5⟩ := fragment_read (max := max) hlen hbytes (fun a ha => htlvs a ha) hdiff
  unfold fragment
  rw [h1]
  dsimp only
  rw [h4]
  refine ⟨n, bytes, rfl, h2, ?_⟩
  intro hn hb
  obtain ⟨blocks, k', b1, b2⟩ := h5 hn hb (fun _ => true) false 0 (bytes.length + 1) (fun _ => rfl) (by omega)
  unfold readBlocks
  rw [b1]
  dsimp only
  rw [b2]
  rfl

/-- **C60** (part): the same for the TLVs alone: the `i`-th address has exactly its own TLVs. -/
theorem C60_partial {addrLen : Nat} {max : Int} {as : List WAddr} (hlen : 0 < addrLen ∧ addrLen ≤ 16)
    (hbytes : ∀ a ∈ as, a.addr.bytes.length = addrLen)
    (htlvs : ∀ a ∈ as, a.tlvs.Pairwise fun t u => t.type.toNat * 256 + t.ext.toNat < u.type.toNat * 256 + u.ext.toNat)
    (hdiff : ∀ k (h : k + 1 < as.length), as[k].addr.bytes ≠ as[k + 1].addr.bytes) :
    ∃ n bytes, fragment addrLen max as = some (n, bytes) ∧
      (n ≤ 255 → bytes.length ≤ 65535 → ∃ r, readBlocks addrLen bytes = some r ∧ r.length = n ∧
        ∀ i, i < n → ∃ a x, as[i]? = some a ∧ r[i]? = some x ∧ x.1 = some a.addr.bytes ∧ x.2.2 = a.tlvs) := by
  obtain ⟨n, bytes, h1, h2, h3⟩ := C36_partial (max := max) hlen hbytes htlvs hdiff
  refine ⟨n, bytes, h1, fun hn hb => ⟨_, h3 hn hb, by simp; omega, ?_⟩⟩
  intro i hi
  have hi' : i < as.length := by omega
  refine ⟨as[i], (some as[i].addr.bytes, some as[i].addr.plen, as[i].tlvs), List.getElem?_eq_getElem hi', ?_, rfl, rfl⟩
  rw [List.getElem?_map, List.getElem?_take_of_lt hi, List.getElem?_eq_getElem hi']
  rfl

/-- three addresses, two blocks, shared and separate values -/
def sample : List WAddr :=
  [⟨⟨[10, 0, 0, 1], 32⟩, [⟨3, 0, [1]⟩, ⟨7, 1, [5, 6]⟩]⟩, ⟨⟨[10, 0, 0, 2], 24⟩, [⟨3, 0, [1]⟩, ⟨7, 1, [5, 7]⟩]⟩, ⟨⟨[192, 168, 1, 1], 32⟩, []⟩]

example : (∀ a ∈ sample, a.addr.bytes.length = 4) ∧ (∀ a ∈ sample, a.tlvs.Pairwise fun t u => t.type.toNat * 256 + t.ext.toNat < u.type.toNat * 256 + u.ext.toNat) ∧
    (∀ k (h : k + 1 < sample.length), sample[k].addr.bytes ≠ sample[k + 1].addr.bytes) ∧
    ((fragment 4 1000 sample).bind fun r => readBlocks 4 r.2) = some (sample.map fun a => (some a.addr.bytes, some a.addr.plen, a.tlvs)) := by
  refine ⟨by decide, by decide, ?_, by decide +kernel⟩
  intro k hk
  have : k = 0 ∨ k = 1 := by simp [sample] at hk; omega
  rcases this with rfl | rfl <;> simp [sample]

/-- 256 addresses that are best put into one block -/
def many : List WAddr := (List.range 256).map fun k => ⟨⟨[10, UInt8.ofNat (k % 2), 0, UInt8.ofNat k], 32⟩, []⟩

/-- **C36** fails for long lists: the limit of 255 addresses is checked for some head length only, the block written can
have 256 addresses, its number of addresses wraps to 0, and the reader rejects it. -/
theorem C36_counterexample_count : ((fragment 4 10000 many).map fun r => (r.1, r.2.head?, (readBlocks 4 r.2).isNone)) = some (256, some 0, true) := by
  decide +kernel

/-- **C36** fails for two addresses that differ only in the prefix length: the common head is the whole address, the
array of compression states (16 entries) is read behind its end. -/
theorem C36_counterexample_same_bytes :
    fragment 16 10000 [⟨⟨List.replicate 16 1, 128⟩, []⟩, ⟨⟨List.replicate 16 1, 64⟩, []⟩] = none := by
  decide +kernel

/-- **C60** fails for several TLVs of the same type at one address: values are compared with the first TLV of that type
of the address before, but stored together with the last one. -/
theorem C60_counterexample :
    ((fragment 4 1000 [⟨⟨[10, 0, 0, 1], 32⟩, [⟨7, 0, [1]⟩, ⟨7, 0, [2]⟩]⟩, ⟨⟨[10, 0, 0, 2], 32⟩, [⟨7, 0, [1]⟩, ⟨7, 0, [2]⟩]⟩]).bind fun r => readBlocks 4 r.2) =
      some [(some [10, 0, 0, 1], some 32, [⟨7, 0, [1]⟩, ⟨7, 0, [2]⟩]), (some [10, 0, 0, 2], some 32, [⟨7, 0, [2]⟩, ⟨7, 0, [2]⟩])] := by
  decide +kernel

/-! ### C61: messages -/

/-- **C61** (part): a message with its header, message TLVs and address blocks is read back, whatever follows it.
Missing: as for C36, and messages of more than 65535 bytes. -/
theorem C61_partial {h : MsgHdr} {max : Int} {tlvs : List ATlv} {as : List WAddr} (more : Bytes) (k : Nat)
    (hlen : 0 < h.addrLen ∧ h.addrLen ≤ 16) (horig : ∀ o, h.orig = some o → o.length = h.addrLen) (hseq : ∀ x, h.seqno = some x → x < 65536)
    (hbytes : ∀ a ∈ as, a.addr.bytes.length = h.addrLen)
    (htlvs : ∀ a ∈ as, a.tlvs.Pairwise fun t u => t.type.toNat * 256 + t.ext.toNat < u.type.toNat * 256 + u.ext.toNat)
    (hdiff : ∀ k (h : k + 1 < as.length), as[k].addr.bytes ≠ as[k + 1].addr.bytes) :
    ∃ n bytes, fragment h.addrLen max as = some (n, bytes) ∧
      (n ≤ 255 → (writeMessage h (writeMsgTlvs tlvs) bytes).length ≤ 65535 →
        ∃ m k', parseMessage (fun _ => true) k (writeMessage h (writeMsgTlvs tlvs) bytes ++ more) = .ok (m, k') ∧
          m.hdr.type = h.type ∧ m.hdr.addrLen.toNat = h.addrLen ∧ m.hdr.size = (writeMessage h (writeMsgTlvs tlvs) bytes).length ∧
          m.hdr.orig = h.orig ∧ m.hdr.hoplimit = h.hoplimit ∧ m.hdr.hopcount = h.hopcount ∧ m.hdr.seqno = h.seqno ∧
          (m.tlvs.map fun t => (⟨t.type, t.ext, t.value⟩ : ATlv)).Perm tlvs ∧
          m.blocks.flatMap (seen h.addrLen) = (as.take n).map fun a => (some a.addr.bytes, some a.addr.plen, a.tlvs)) := by
  obtain ⟨n, over, s, h1, h2, h3, bytes, h4, h5⟩ := fragment_read (max := max) hlen hbytes (fun a ha => htlvs a ha) hdiff
  refine ⟨n, bytes, by unfold fragment; rw [h1]; dsimp only; rw [h4]; rfl, ?_⟩
  intro hn hl
  have hok : h.Ok := ⟨hlen, horig, hseq⟩
  obtain ⟨e1, _⟩ := writeMessage_eq h (writeMsgTlvs tlvs) bytes hl hok
  have hb : bytes.length ≤ 65535 := by omega
  obtain ⟨m, k', p1, p2, p3, _, p4⟩ := parseMessage_write hok tlvs bytes more (fun _ => true) (fun _ => rfl) k hl
    (P := fun blocks => blocks.flatMap (seen h.addrLen) = (as.take n).map given)
    (fun more k fuel hf => h5 hn hb (fun _ => true) more k fuel (fun _ => rfl) hf)
  refine ⟨m, k', p1, ?_, ?_, ?_, ?_, ?_, ?_, ?_, p3, p4⟩ <;> rw [p2]
  · rfl
  · show (lo h.addrLen).toNat = _
    rw [lo_toNat]
    omega
  all_goals rfl

example : ∃ bytes m k', fragment 4 1000 sample = some (3, bytes) ∧
    parseMessage (fun _ => true) 0 (writeMessage ⟨1, 4, some [1, 2, 3, 4], some 255, none, some 4660⟩ (writeMsgTlvs [⟨9, 0, [1]⟩, ⟨0, 2, []⟩]) bytes ++ [1, 2]) = .ok (m, k') ∧
    m.hdr.seqno = some 4660 ∧ m.blocks.flatMap (seen 4) = sample.map fun a => (some a.addr.bytes, some a.addr.plen, a.tlvs) := by
  have hd : ∀ k (h : k + 1 < sample.length), sample[k].addr.bytes ≠ sample[k + 1].addr.bytes := by
    intro k hk
    have : k = 0 ∨ k = 1 := by simp [sample] at hk; omega
    rcases this with rfl | rfl <;> simp [sample]
  obtain ⟨n, bytes, h1, h2⟩ := C61_partial (h := ⟨1, 4, some [1, 2, 3, 4], some 255, none, some 4660⟩) (max := 1000) (tlvs := [⟨9, 0, [1]⟩, ⟨0, 2, []⟩]) (as := sample) [1, 2] 0
    (by decide) (by intro o ho; cases ho; rfl) (by intro o ho; cases ho; decide) (by decide) (by decide) hd
  have hv : ((fragment 4 1000 sample).map fun r => (r.1, r.2.length)) = some (3, 35) := by decide +kernel
  have h1' : fragment 4 1000 sample = some (n, bytes) := h1
  rw [h1'] at hv
  simp only [Option.map_some, Option.some.injEq, Prod.mk.injEq] at hv
  obtain ⟨rfl, hv⟩ := hv
  have hlen : (writeMessage ⟨1, 4, some [1, 2, 3, 4], some 255, none, some 4660⟩ (writeMsgTlvs [⟨9, 0, [1]⟩, ⟨0, 2, []⟩]) bytes).length ≤ 65535 := by
    unfold writeMessage
    simp only [List.length_append, hv]
    have : (writeMsgHeader ⟨1, 4, some [1, 2, 3, 4], some 255, none, some 4660⟩ (writeMsgTlvs [⟨9, 0, [1]⟩, ⟨0, 2, []⟩]).length 35).length = 13 := by decide
    have h' : (writeMsgTlvs [⟨9, 0, [1]⟩, ⟨0, 2, []⟩]).length = 7 := by decide
    omega
  obtain ⟨m, k', p1, _, _, _, _, _, _, p2, _, p3⟩ := h2 (by decide) hlen
  exact ⟨bytes, m, k', h1, p1, p2, p3⟩

/-! ### C37: packets -/

/-- what the reader finds in a packet: packet TLVs and the bytes of the messages -/
def readPacket (p : Bytes) : Option (List ATlv × Bytes) :=
  match Verif.Reader.parsePacket (fun _ => true) p with
  | .ok (_, ts, rest, _) => some (ts.map fun t => (⟨t.type, t.ext, t.value⟩ : ATlv), rest)
  | _ => none

/-- `Carries size ps q`: the packets `ps` are not larger than `size`, can be read, and the messages in them are `q` -/
inductive Carries (size : Nat) : List Bytes → Bytes → Prop
  | nil : Carries size [] []
  | cons {p : Bytes} {ps : List Bytes} {tlvs : List ATlv} {q qs : Bytes} : p.length ≤ size → readPacket p = some (tlvs, q) → Carries size ps qs →
      Carries size (p :: ps) (q ++ qs)

/-- a packet is read back with its packet TLVs (sorted) and its messages -/
theorem C37_packet_read_back (seqno : Option Nat) (tlvs : List ATlv) (msgs : Bytes) (h : (packetBytes seqno tlvs msgs).length ≤ 65535) :
    ∃ ts, readPacket (packetBytes seqno tlvs msgs) = some (ts, msgs) ∧ ts.Perm tlvs := by
  have hl : (writeMsgTlvs tlvs).length ≤ 65535 := by
    unfold packetBytes at h
    simp only [List.length_append] at h
    omega
  obtain ⟨ts, r1, r2⟩ := C35_block tlvs msgs 0 hl
  obtain ⟨first, rest, e1, e2, e3, e4⟩ : ∃ first rest, packetBytes seqno tlvs msgs = first :: rest ∧ first.toNat / 16 = 0 ∧
      ((first &&& 0x08 = 0 ∧ rest = (if 0 < (writeMsgTlvs tlvs).length then [hi (writeMsgTlvs tlvs).length, lo (writeMsgTlvs tlvs).length] else []) ++ writeMsgTlvs tlvs ++ msgs) ∨
        (first &&& 0x08 ≠ 0 ∧ ∃ x y, rest = x :: y :: ((if 0 < (writeMsgTlvs tlvs).length then [hi (writeMsgTlvs tlvs).length, lo (writeMsgTlvs tlvs).length] else []) ++ writeMsgTlvs tlvs ++ msgs))) ∧
      (first &&& 0x04 ≠ 0 ↔ 0 < (writeMsgTlvs tlvs).length) := by
    unfold packetBytes pktHeader
    cases seqno with
    | none =>
      by_cases h0 : (writeMsgTlvs tlvs).length > 0
      · simp only [h0, if_true]
        exact ⟨_, _, rfl, by decide, .inl ⟨by decide, rfl⟩, by decide⟩
      · simp only [h0, if_false]
        exact ⟨_, _, rfl, by decide, .inl ⟨by decide, rfl⟩, by decide⟩
    | some x =>
      by_cases h0 : (writeMsgTlvs tlvs).length > 0
      · simp only [Option.isSome_some, h0, if_true]
        exact ⟨_, _, rfl, by decide, .inr ⟨by decide, _, _, rfl⟩, by decide⟩
      · simp only [Option.isSome_some, h0, if_false]
        exact ⟨_, _, rfl, by decide, .inr ⟨by decide, _, _, rfl⟩, by decide⟩
  have h16 : ∀ x y (r : Bytes), (Verif.Reader.getU16 ⟨x :: y :: r, Verif.Reader.OKAY⟩).2 = ⟨r, Verif.Reader.OKAY⟩ := fun _ _ _ => rfl
  have key : (if first &&& 0x08 ≠ 0 then (Verif.Reader.getU16 ⟨rest, Verif.Reader.OKAY⟩).2 else (⟨rest, Verif.Reader.OKAY⟩ : S)) =
      ⟨(if 0 < (writeMsgTlvs tlvs).length then [hi (writeMsgTlvs tlvs).length, lo (writeMsgTlvs tlvs).length] else []) ++ writeMsgTlvs tlvs ++ msgs, Verif.Reader.OKAY⟩ := by
    rcases e3 with ⟨f, e3⟩ | ⟨f, x, y, e3⟩
    · rw [if_neg (by simp [f]), e3]
    · rw [if_pos f, e3, h16]
  unfold readPacket Verif.Reader.parsePacket
  rw [e1]
  simp only [getU8_c]
  rw [if_neg (by simp [e2]), key]
  simp only
  rw [if_neg (by decide)]
  by_cases h0 : 0 < (writeMsgTlvs tlvs).length
  · rw [if_pos (e4.2 h0), if_pos h0]
    rw [List.append_assoc, r1]
    exact ⟨_, rfl, r2⟩
  · rw [if_neg (fun h => h0 (e4.1 h)), if_neg h0]
    have hnil : writeMsgTlvs tlvs = [] := List.length_eq_zero_iff.1 (by omega)
    have hno : tlvs = [] := by
      cases tlvs with
      | nil => rfl
      | cons t l => simp [writeMsgTlvs, writeTlv] at hnil
    subst hno
    rw [hnil]
    exact ⟨[], rfl, List.Perm.refl _⟩

theorem packets_carries {size : Nat} (hs : size ≤ 65535) {ps : List Bytes} {q : Bytes} (h : Packets size ps q) : Carries size ps q := by
  induction h with
  | nil => exact .nil
  | cons s t h1 h2 _ ih =>
    subst h1
    obtain ⟨ts, r1, _⟩ := C37_packet_read_back s t _ (Nat.le_trans h2 hs)
    exact .cons h2 r1 ih

/-- **C37** (part): over every history of generated, forwarded and flushed messages no write leaves a buffer, every
packet sent is not larger than the packet size and can be read, and the messages the reader finds in the packets sent, followed by those still in the buffer are the accepted messages in order: none is
lost, duplicated or reordered.
Missing: histories with both generated messages and reserved space for packet TLVs (counterexample below); forwarded
messages above 1225 bytes (counterexample below). -/
theorem C37_partial (buffer : Bytes) (hsize : 5 ≤ buffer.length ∧ buffer.length ≤ 65535) (plain : Bool) (es : List Ev)
    (hok : ∀ e ∈ es, match e with
      | .generate m b b' _ => plain = true ∧ b.plain ∧ b'.plain ∧ b.size + m.length ≤ buffer.length ∧ b'.size + m.length ≤ buffer.length
      | .forward m b _ => (plain = true → b.plain) ∧ m.length ≤ 1225
      | .flush _ b _ => plain = true → b.plain) :
    ∃ t sent accepted inPackets, runEvents (Target.new buffer) es = some (t, sent, accepted) ∧
      Carries buffer.length sent inPackets ∧
      inPackets ++ slice t.pkt.buffer (t.pkt.header + t.pkt.added + t.pkt.allocated) t.msgs = accepted.flatten ∧
      (t.flushed = true → t.msgs = 0) := by
  obtain ⟨t, sent, acc, q, done, h1, h2, h3, h4, h5⟩ := events_spec es (new_inv buffer plain) hsize.1 (by
    intro e he
    have := hok e he
    cases e with
    | generate m b b' f => exact this
    | forward m b f => exact this
    | flush force b f => exact this)
  refine ⟨t, sent, acc, done, h1, packets_carries hsize.2 h4, ?_, ?_⟩
  · rw [List.nil_append] at h5
    rw [← h5]
    congr 1
    cases hf : t.flushed with
    | true =>
      have hq := h2.inv.flushed hf
      have hm := h2.inv.msgs
      rw [hq] at hm ⊢
      rw [hm]
      exact slice_zero _ _
    | false => exact h2.inv.content hf
  · intro hf
    have hq := h2.inv.flushed hf
    have hm := h2.inv.msgs
    rw [hq] at hm
    exact hm

/-- two messages that do not fit into one packet of 12 bytes -/
def twoMessages : List Ev :=
  [.generate [1, 0, 0, 4] ⟨true, []⟩ ⟨true, []⟩ ⟨[], 7⟩, .generate [2, 0, 0, 4] ⟨true, []⟩ ⟨true, []⟩ ⟨[], 7⟩, .flush false ⟨false, []⟩ ⟨[], 8⟩]

example : ∃ t, runEvents (Target.new (List.replicate 12 0)) twoMessages =
    some (t, [[8, 0, 7, 1, 0, 0, 4], [8, 0, 8, 2, 0, 0, 4]], [[1, 0, 0, 4], [2, 0, 0, 4]]) := ⟨_, rfl⟩

/-- packet TLVs: one added, one reserved and set when the packet is finished, with a forwarded message -/
example : ∃ t, runEvents (Target.new (List.replicate 40 0))
    [.forward [1, 0x60, 0, 6, 9, 254] ⟨false, [.add 1 0 [5], .alloc true 4]⟩ ⟨[], 0⟩, .flush false ⟨false, []⟩ ⟨[(2, 1, [6])], 0⟩] =
      some (t, [[4, 0, 9, 1, 16, 1, 5, 2, 144, 1, 1, 6, 1, 0x60, 0, 6, 8, 255]], [[1, 0x60, 0, 6, 8, 255]]) := ⟨_, rfl⟩

/-- **C37** fails with reserved packet TLVs: the space reserved is not part of the check (`set` instead of `allocated`),
and the message is copied behind the end of the packet buffer. -/
theorem C37_counterexample_reserved :
    (runEvents (Target.new (List.replicate 20 0)) [.generate [1, 0, 0, 4] ⟨false, [.alloc true 4]⟩ ⟨false, [.alloc true 4]⟩ ⟨[], 0⟩]).isSome = true ∧
    runEvents (Target.new (List.replicate 20 0)) [.generate [1, 0, 0, 4] ⟨false, [.alloc true 4]⟩ ⟨false, [.alloc true 4]⟩ ⟨[], 0⟩,
      .generate [2, 0, 0, 6, 0, 0] ⟨false, [.alloc true 4]⟩ ⟨false, [.alloc true 4]⟩ ⟨[], 0⟩] = none := by
  decide +kernel

/-- **C37** fails for forwarded messages of more than 1225 bytes, although they fit into the packet: they are copied
into a static buffer of 1225 bytes. -/
theorem C37_counterexample_forward (m : Bytes) (h : 1225 < m.length) (h' : m.length ≤ 1469) :
    runEvents (Target.new (List.replicate 1472 0)) [.forward m ⟨false, []⟩ ⟨[], 0⟩] = none := by
  unfold runEvents step forward makeRoom
  dsimp only
  have hb : ∃ t, beginPacket (Target.new (List.replicate 1472 0)) ⟨false, []⟩ = some t ∧ room t = 1469 := by
    refine ⟨_, rfl, ?_⟩
    unfold room init Target.new
    simp only [List.length_replicate]
    rfl
  have hf : (Target.new (List.replicate 1472 0)).flushed = true := rfl
  obtain ⟨t, hb, hr⟩ := hb
  rw [hf]
  simp only [Bool.not_true, Bool.false_and, Bool.false_eq_true, if_false]
  rw [hf, if_pos rfl, hb]
  dsimp only
  rw [hr, decide_eq_true h']
  dsimp only
  rw [if_pos (by unfold MAX_MESSAGE_SIZE; omega)]
  rfl

example : runEvents (Target.new (List.replicate 1472 0)) [.forward (List.replicate 1226 0) ⟨false, []⟩ ⟨[], 0⟩] = none :=
  C37_counterexample_forward _ (by rw [List.length_replicate]; omega) (by rw [List.length_replicate]; omega)

/-! ### C38: forwarding -/

/-- **C38**: a received message (its header is accepted by the reader and its size field is its size) with a hop limit
of at least two, or without a hop limit, is forwarded with the hop limit one less and the hop count one more; the
reader sees all other header fields and everything behind the header unchanged. -/
theorem C38_forwarded {m : Bytes} {h : Hdr} {s : S} (hp : parseHeader m = .ok (h, s)) (hsize : h.size = m.length)
    (hlimit : ∀ x, h.hoplimit = some x → 1 < x) :
    ∃ m', forwardMsg m = some m' ∧ m'.length = m.length ∧
      parseHeader m' = .ok ({ h with hoplimit := h.hoplimit.map (· - 1), hopcount := h.hopcount.map (· + 1) }, s) := by
  obtain ⟨hd, b2, b3, hok, hm, hh, hs⟩ := header_shape hp
  have hf := forwardMsg_spec hok b2 b3 s.rest
  dsimp only at hf
  rw [← hm] at hf
  have hno : ¬ ∃ x, hd.hoplimit = some x ∧ x ≤ 1 := by
    rintro ⟨x, hx, hx'⟩
    have := hlimit x (by rw [hh]; exact hx)
    exact absurd this (UInt8.not_lt.2 hx')
  rw [if_neg hno] at hf
  refine ⟨_, hf, forwardMsg_length hf, ?_⟩
  have hl := forwardMsg_length hf
  have b2lt := b2.toNat_lt
  have b3lt := b3.toNat_lt
  have hsz : m.length = b2.toNat * 256 + b3.toNat := by rw [← hsize, hh]; rfl
  obtain ⟨rest, r⟩ := s
  have hs : r = Verif.Reader.OKAY := hs
  subst hs
  dsimp only at hl ⊢
  unfold parseHeader
  simp only [List.cons_append, List.nil_append, getU8_c] at hl ⊢
  rw [getU16_c (by omega)]
  simp only
  have hpf := parseFields_write hok.next m.length rest
  have e1 : hd.next.type = hd.type := rfl
  rw [hd.next_flags, e1] at hpf
  rw [hpf]
  simp only
  rw [if_neg (by omega), if_neg (by decide)]
  rw [hh]
  unfold MsgHdr.read
  rw [hd.next_flags, hsz]
  rfl

/-- **C38**: byte by byte: only the byte of the hop limit and the byte of the hop count can differ.  They are behind
the four fixed bytes and the originator. -/
theorem C38_bytes {m m' : Bytes} {h : Hdr} {s : S} (hp : parseHeader m = .ok (h, s)) (hsize : h.size = m.length) (hf : forwardMsg m = some m') (i : Nat) :
    let p := 4 + (h.orig.getD []).length
    m'[i]? = m[i]? ∨ (h.hoplimit.isSome = true ∧ i = p) ∨ (h.hopcount.isSome = true ∧ i = p + (if h.hoplimit.isSome then 1 else 0)) := by
  obtain ⟨hd, b2, b3, hok, hm, hh, hs⟩ := header_shape hp
  have b2lt := b2.toNat_lt
  have b3lt := b3.toNat_lt
  have hsz : m.length = b2.toNat * 256 + b3.toNat := by rw [← hsize, hh]; rfl
  have hhop := hopFields_spec hok b2 b3 s.rest
  dsimp only at hhop
  rw [← hm] at hhop
  have hset : (m.set 2 (hi m.length)).set 3 (lo m.length) = m := by
    have e2 : hi m.length = b2 := by
      apply UInt8.toNat_inj.1
      rw [hi_toNat (by omega)]
      omega
    have e3 : lo m.length = b3 := by
      apply UInt8.toNat_inj.1
      rw [lo_toNat]
      omega
    rw [e2, e3, hm]
    rfl
  unfold forwardMsg at hf
  rw [hhop] at hf
  dsimp only at hf
  rw [hset] at hf
  have ho : h.orig = hd.orig := by rw [hh]; rfl
  have hl : h.hoplimit = hd.hoplimit := by rw [hh]; rfl
  have hc : h.hopcount = hd.hopcount := by rw [hh]; rfl
  intro p
  have hpp : p = 4 + (hd.orig.getD []).length := by show 4 + _ = _; rw [ho]
  rw [hl, hc, hpp]
  split at hf
  · cases hf
  · cases hf
    have hch : ∀ (f : UInt8 → UInt8) (b : Bytes) (j : Option Nat), (∀ k, j = some k → k ≠ i) → (change f b j)[i]? = b[i]? := by
      intro f b j hj
      cases j with
      | none => rfl
      | some k =>
        unfold change
        rw [List.getElem?_modify_ne _ _ (hj k rfl)]
    by_cases c1 : hd.hoplimit.isSome = true ∧ i = 4 + (hd.orig.getD []).length
    · exact .inr (.inl c1)
    · by_cases c2 : hd.hopcount.isSome = true ∧ i = 4 + (hd.orig.getD []).length + (if hd.hoplimit.isSome then 1 else 0)
      · exact .inr (.inr c2)
      · left
        rw [hch, hch]
        · intro k hk hki
          apply c1
          cases hq : hd.hoplimit with
          | none => rw [hq] at hk; cases hk
          | some x => rw [hq] at hk; cases hk; exact ⟨rfl, hki.symm⟩
        · intro k hk hki
          apply c2
          cases hq : hd.hopcount with
          | none => rw [hq] at hk; cases hk
          | some x =>
            rw [hq] at hk
            cases hk
            refine ⟨rfl, ?_⟩
            rw [← hki]
            cases hd.hoplimit <;> rfl

/-- **C38**: a message whose hop limit is used up is not forwarded. -/
theorem C38_expired {m : Bytes} {h : Hdr} {s : S} (hp : parseHeader m = .ok (h, s)) {x : UInt8} (hx : h.hoplimit = some x) (hx1 : x ≤ 1) : forwardMsg m = none := by
  obtain ⟨hd, b2, b3, hok, hm, hh, hs⟩ := header_shape hp
  have hf := forwardMsg_spec hok b2 b3 s.rest
  dsimp only at hf
  rw [← hm] at hf
  rw [hf, if_pos ⟨x, by rw [hh] at hx; exact hx, hx1⟩]

/-- originator, hop limit, hop count and sequence number -/
example : (match parseHeader [1, 0xf3, 0, 16, 10, 0, 0, 1, 5, 9, 0, 1, 0, 0, 7, 7] with | .ok (h, _) => h.hoplimit = some 5 ∧ h.size = 16 | _ => False) ∧
    forwardMsg [1, 0xf3, 0, 16, 10, 0, 0, 1, 5, 9, 0, 1, 0, 0, 7, 7] = some [1, 0xf3, 0, 16, 10, 0, 0, 1, 4, 10, 0, 1, 0, 0, 7, 7] ∧
    forwardMsg [1, 0xf3, 0, 16, 10, 0, 0, 1, 1, 9, 0, 1, 0, 0, 7, 7] = none :=
  ⟨⟨rfl, rfl⟩, by decide +kernel, by decide +kernel⟩

/-! ### C39: fragments -/

/-- **C39** (part): if every optional address fits into a message together with the mandatory addresses, the generation
ends with success; every fragment consists of all mandatory addresses followed by at least one optional address, and
the optional addresses of the fragments together are the optional addresses of the message, in order: each is in
exactly one fragment.
Missing: termination otherwise, and that the fragments are not larger than the maximum (counterexamples below). -/
theorem C39_partial {addrLen : Nat} {max : Int} {mand opt : List WAddr} (hu : Usable addrLen (mand ++ opt)) (hne : opt ≠ [])
    (hfit : ∀ a ∈ opt, Fits addrLen max mand a) :
    ∃ chunks : List (List WAddr), (∀ fuel, opt.length < fuel → createFragments addrLen max fuel mand opt = .done OKAY (chunks.map (mand ++ ·))) ∧
      chunks.flatten = opt ∧ ∀ c ∈ chunks, c ≠ [] := by
  obtain ⟨chunks, h1, h2, h3⟩ := rounds_spec (max := max) (opt.length + 1) opt 0 [] (by omega) hu hfit hne
  refine ⟨chunks, ?_, h2, h3⟩
  intro fuel hf
  obtain ⟨chunks', g1, g2, g3⟩ := rounds_spec (max := max) fuel opt 0 [] hf hu hfit hne
  unfold createFragments
  rw [if_neg (by simp [hne])]
  rw [g1]
  have : (chunks'.map (mand ++ ·)) = (chunks.map (mand ++ ·)) := by
    have hmono : ∀ (n : Nat) (opt : List WAddr) (taken : Nat) (out frags : List (List WAddr)) (r : Int), rounds addrLen max mand n opt taken out = .done r frags →
        rounds addrLen max mand (n + 1) opt taken out = .done r frags := by
      intro n
      induction n with
      | zero => intro opt taken out frags r h; cases h
      | succ n ih =>
        intro opt taken out frags r h
        unfold rounds at h ⊢
        split at h
        · cases h
        · exact h
        · dsimp only at h ⊢
          split at h
          · rename_i hc
            rw [if_pos hc]
            exact h
          · rename_i hc
            rw [if_neg hc]
            exact ih _ _ _ _ _ h
    have hle : ∀ d, rounds addrLen max mand (opt.length + 1 + d) opt 0 [] = .done OKAY ([] ++ chunks.map (mand ++ ·)) := by
      intro d
      induction d with
      | zero => exact h1
      | succ d ih => exact hmono _ _ _ _ _ _ ih
    have := hle (fuel - (opt.length + 1))
    rw [show opt.length + 1 + (fuel - (opt.length + 1)) = fuel by omega, g1] at this
    injection this with _ this
  rw [this, List.nil_append]

/-- **C39**: if the generation fails, nothing was sent. -/
theorem C39_failure {addrLen : Nat} {max : Int} {fuel : Nat} {mand opt : List WAddr} {r : Int} {frags : List (List WAddr)}
    (h : createFragments addrLen max fuel mand opt = .done r frags) (hr : r ≠ OKAY) : r = MTU_TOO_SMALL ∧ frags = [] := by
  unfold createFragments at h
  split at h
  · cases h
    exact absurd rfl hr
  · have key : ∀ (n : Nat) (opt : List WAddr) (taken : Nat) (out : List (List WAddr)), (taken = 0 → out = []) →
        rounds addrLen max mand n opt taken out = .done r frags → r = MTU_TOO_SMALL ∧ frags = [] := by
      intro n
      induction n with
      | zero => intro opt taken out _ h; cases h
      | succ n ih =>
        intro opt taken out ht h
        unfold rounds at h
        split at h
        · cases h
        · cases h
          exact absurd rfl hr
        · dsimp only at h
          split at h
          · rename_i hc
            cases h
            exact ⟨rfl, ht (by omega)⟩
          · rename_i hc
            exact ih _ _ _ (fun h0 => absurd h0 hc) h
    exact key _ _ _ _ (fun _ => rfl) h

/-- one mandatory and three optional addresses -/
def m1 : WAddr := ⟨⟨[10, 0, 0, 1], 32⟩, []⟩
def o1 : WAddr := ⟨⟨[20, 0, 0, 1], 32⟩, []⟩
def o2 : WAddr := ⟨⟨[30, 0, 0, 1], 32⟩, []⟩
def o3 : WAddr := ⟨⟨[40, 0, 0, 1], 32⟩, []⟩

theorem fits_of {addrLen : Nat} {max : Int} {mand : List WAddr} {a : WAddr}
    (h : ((feed addrLen max 0 none (mand ++ [a]) (Sess.start fresh)).map fun r => r.2.1) = some false) : Fits addrLen max mand a := by
  unfold Fits
  cases hf : feed addrLen max 0 none (mand ++ [a]) (Sess.start fresh) with
  | none => rw [hf] at h; cases h
  | some x =>
    obtain ⟨n, o, s⟩ := x
    rw [hf] at h
    simp only [Option.map_some, Option.some.injEq] at h
    subst h
    exact ⟨n, s, rfl⟩

example : Usable 4 ([m1] ++ [o1, o2, o3]) ∧ (∀ a ∈ [o1, o2, o3], Fits 4 16 [m1] a) ∧ createFragments 4 16 4 [m1] [o1, o2, o3] = .done OKAY [[m1, o1, o2], [m1, o3]] := by
  refine ⟨⟨by decide, by decide, ?_, by decide⟩, ?_, by decide +kernel⟩
  · intro a ha
    have : a.tlvs = [] := by
      simp only [List.cons_append, List.nil_append, List.mem_cons, List.not_mem_nil, or_false] at ha
      rcases ha with rfl | rfl | rfl | rfl <;> rfl
    unfold TlvsOk
    rw [this]
    exact List.Pairwise.nil
  · intro a ha
    simp only [List.mem_cons, List.not_mem_nil, or_false] at ha
    rcases ha with rfl | rfl | rfl <;> exact fits_of (by decide +kernel)

/-- an address whose TLV does not fit into a message of 20 bytes -/
def large : WAddr := ⟨⟨[50, 0, 0, 1], 32⟩, [⟨1, 0, List.replicate 20 0⟩]⟩

/-- **C39** fails: if an optional address does not fit at all and another was already sent, the generation does not end;
fragments without any optional address are sent for ever. -/
theorem C39_counterexample_termination (fuel : Nat) :
    createFragments 4 20 (fuel + 1) [m1] [o1, large] = .running ([m1, o1] :: List.replicate fuel [m1]) := by
  have h1 : ((feed 4 20 0 none ([m1] ++ [o1, large]) (Sess.start fresh)).map fun r => (r.1, r.2.1)) = some (2, true) := by decide +kernel
  have h2 : ((feed 4 20 0 none ([m1] ++ [large]) (Sess.start fresh)).map fun r => (r.1, r.2.1)) = some (1, true) := by decide +kernel
  have step : ∀ (n taken : Nat) (out : List (List WAddr)), 0 < taken → rounds 4 20 [m1] n [large] taken out = .running (out ++ List.replicate n [m1]) := by
    intro n
    induction n with
    | zero => intro taken out _; simp [rounds]
    | succ n ih =>
      intro taken out ht
      unfold rounds
      cases hf : feed 4 20 0 none ([m1] ++ [large]) (Sess.start fresh) with
      | none => rw [hf] at h2; cases h2
      | some x =>
        obtain ⟨k, o, s⟩ := x
        rw [hf] at h2
        simp only [Option.map_some, Option.some.injEq, Prod.mk.injEq] at h2
        obtain ⟨rfl, rfl⟩ := h2
        dsimp only
        rw [if_neg (by simp; omega)]
        simp only [List.length_cons, List.length_nil, Nat.sub_self, List.drop_zero, Nat.add_zero, Nat.zero_add]
        rw [ih _ _ ht]
        simp [List.replicate_succ]
  unfold createFragments
  rw [if_neg (by simp)]
  unfold rounds
  cases hf : feed 4 20 0 none ([m1] ++ [o1, large]) (Sess.start fresh) with
  | none => rw [hf] at h1; cases h1
  | some x =>
    obtain ⟨k, o, s⟩ := x
    rw [hf] at h1
    simp only [Option.map_some, Option.some.injEq, Prod.mk.injEq] at h1
    obtain ⟨rfl, rfl⟩ := h1
    dsimp only
    rw [if_neg (by simp)]
    have := step fuel 1 [[m1, o1]] (by decide)
    simpa using this

/-- **C39** fails: the estimated size is too small if prefix lengths differ (a sign is wrong), 18 bytes of address
blocks are written although 12 are allowed. -/
theorem C39_counterexample_size :
    ((fragment 4 12 [⟨⟨[10, 0, 0, 1], 32⟩, []⟩, ⟨⟨[10, 0, 0, 2], 32⟩, []⟩, ⟨⟨[10, 0, 0, 3], 32⟩, []⟩, ⟨⟨[10, 0, 0, 4], 32⟩, []⟩, ⟨⟨[10, 0, 0, 5], 24⟩, []⟩]).map
      fun r => (r.1, r.2.length)) = some (5, 18) := by
  decide +kernel

end Verif.Writer
