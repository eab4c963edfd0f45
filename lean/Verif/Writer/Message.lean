import Verif.Writer.Fragment

/-! A written message is read back. -/
namespace Verif.Writer
open Verif.Reader (Bytes S R Tlv Hdr Block Msg getU8 getU16 parseTlv parseTlvblock parseFields parseHeader parseMessage blockLoop)

theorem flags_table : ∀ n < 16, ∀ a b c d : Bool,
    let f : UInt8 := lo n ||| (if a then 0x80 else 0) ||| (if b then 0x40 else 0) ||| (if c then 0x20 else 0) ||| (if d then 0x10 else 0)
    (f &&& 0x0f) + 1 = lo (n + 1) ∧ decide (f &&& 0x80 ≠ 0) = a ∧ decide (f &&& 0x40 ≠ 0) = b ∧ decide (f &&& 0x20 ≠ 0) = c ∧ decide (f &&& 0x10 ≠ 0) = d := by
  decide +kernel

/-- header fields that fit into their place -/
structure MsgHdr.Ok (h : MsgHdr) : Prop where
  len : 0 < h.addrLen ∧ h.addrLen ≤ 16
  orig : ∀ o, h.orig = some o → o.length = h.addrLen
  seqno : ∀ x, h.seqno = some x → x < 65536

theorem flags_spec {h : MsgHdr} (hok : h.Ok) : (h.flags &&& 0x0f) + 1 = lo h.addrLen ∧ (h.flags &&& 0x80 ≠ 0 ↔ h.orig.isSome = true) ∧
    (h.flags &&& 0x40 ≠ 0 ↔ h.hoplimit.isSome = true) ∧ (h.flags &&& 0x20 ≠ 0 ↔ h.hopcount.isSome = true) ∧ (h.flags &&& 0x10 ≠ 0 ↔ h.seqno.isSome = true) := by
  have h1 := hok.len
  obtain ⟨a1, a2, a3, a4, a5⟩ := flags_table (h.addrLen - 1) (by omega) h.orig.isSome h.hoplimit.isSome h.hopcount.isSome h.seqno.isSome
  rw [show h.addrLen - 1 + 1 = h.addrLen by omega] at a1
  unfold MsgHdr.flags
  have key : ∀ {p : Prop} [Decidable p] {b : Bool}, decide p = b → (p ↔ b = true) := by
    intro p _ b hb
    rw [← hb, decide_eq_true_iff]
  exact ⟨a1, key a2, key a3, key a4, key a5⟩

theorem getU16_c {n : Nat} {r : Bytes} (h : n < 65536) : getU16 ⟨hi n :: lo n :: r, Verif.Reader.OKAY⟩ = (n, ⟨r, Verif.Reader.OKAY⟩) := by
  unfold getU16
  simp only [getU8_c]
  rw [hi_toNat h, lo_toNat]
  congr 1
  omega

/-- the header as the reader sees it -/
def MsgHdr.read (h : MsgHdr) (size : Nat) : Hdr := ⟨h.type, h.flags, lo h.addrLen, size, h.orig, h.hoplimit, h.hopcount, h.seqno⟩

def optFields (h : MsgHdr) : Bytes :=
  (h.orig.getD []).take h.addrLen ++
  h.hoplimit.toList ++
  h.hopcount.toList ++
  seqBytes h.seqno

theorem optFields_length {h : MsgHdr} (hok : h.Ok) : (optFields h).length + 6 = h.size := by
  unfold optFields MsgHdr.size seqBytes
  have := hok.orig
  cases ho : h.orig with
  | none => cases h.hoplimit <;> cases h.hopcount <;> cases h.seqno <;> simp
  | some o =>
    have hl := this o ho
    cases h.hoplimit <;> cases h.hopcount <;> cases h.seqno <;> simp [hl] <;> omega

theorem parseFields_write {h : MsgHdr} (hok : h.Ok) (size : Nat) (x : Bytes) :
    parseFields h.type h.flags size ⟨optFields h ++ x, Verif.Reader.OKAY⟩ = .ok (h.read size, ⟨x, Verif.Reader.OKAY⟩) := by
  obtain ⟨f1, f2, f3, f4, f5⟩ := flags_spec hok
  obtain ⟨l1, l2⟩ := hok.len
  unfold parseFields MsgHdr.read optFields
  have hlo : (lo h.addrLen).toNat = h.addrLen := by
    rw [lo_toNat]
    omega
  have ho := hok.orig
  have hs := hok.seqno
  generalize h.flags = fl at f1 f2 f3 f4 f5
  dsimp only
  rw [f1, hlo]
  simp only [f2, f3, f4, f5, List.append_assoc]
  have e2 : ∀ (o : Option UInt8) (y : Bytes), (if o.isSome = true then (fun r : UInt8 × S => (some r.1, r.2)) (getU8 ⟨o.toList ++ y, Verif.Reader.OKAY⟩)
      else (none, ⟨o.toList ++ y, Verif.Reader.OKAY⟩)) = (o, ⟨y, Verif.Reader.OKAY⟩) := by
    intro o y
    cases o with
    | none => rfl
    | some v => simp [getU8_c]
  have e4 : ∀ (y : Bytes), (if h.seqno.isSome = true then (fun r : Nat × S => (some r.1, r.2)) (getU16 ⟨seqBytes h.seqno ++ y, Verif.Reader.OKAY⟩)
      else (none, ⟨seqBytes h.seqno ++ y, Verif.Reader.OKAY⟩)) = (h.seqno, ⟨y, Verif.Reader.OKAY⟩) := by
    intro y
    cases hq : h.seqno with
    | none => rfl
    | some v => simp [seqBytes, getU16_c (hs v hq)]
  cases hq : h.orig with
  | none =>
    simp only [Option.isSome_none, Bool.false_eq_true, if_false, Option.getD_none, List.take_nil, List.nil_append]
    rw [e2]
    simp only
    rw [e2]
    simp only
    rw [e4]
  | some o =>
    have hl := ho o hq
    simp only [Option.isSome_some, if_true, Option.getD_some]
    have htk : o.take h.addrLen = o := List.take_of_length_le (by omega)
    rw [htk, if_neg (by rw [List.length_append]; omega)]
    simp only
    rw [List.take_left' hl, List.drop_left' hl, e2]
    simp only
    rw [e2]
    simp only
    rw [e4]

theorem writeMessage_eq (h : MsgHdr) (tlvs addrs : Bytes) (hlen : (writeMessage h tlvs addrs).length ≤ 65535) (hok : h.Ok) :
    (writeMessage h tlvs addrs).length = h.size + tlvs.length + addrs.length ∧
    writeMessage h tlvs addrs = [h.type, h.flags, hi (writeMessage h tlvs addrs).length, lo (writeMessage h tlvs addrs).length] ++
      (optFields h ++ ([hi tlvs.length, lo tlvs.length] ++ (tlvs ++ addrs))) := by
  have hl : (writeMessage h tlvs addrs).length = h.size + tlvs.length + addrs.length := by
    have := optFields_length hok
    unfold optFields at this
    unfold writeMessage writeMsgHeader
    simp only [List.length_append, List.length_cons, List.length_nil] at *
    omega
  refine ⟨hl, ?_⟩
  rw [hl] at hlen ⊢
  unfold writeMessage writeMsgHeader optFields
  rw [Nat.mod_eq_of_lt (by omega), Nat.mod_eq_of_lt (by omega)]
  simp only [List.append_assoc]

theorem parseHeader_write {h : MsgHdr} (hok : h.Ok) (tlvs addrs more : Bytes) (hlen : (writeMessage h tlvs addrs).length ≤ 65535) :
    parseHeader (writeMessage h tlvs addrs ++ more) =
      .ok (h.read (writeMessage h tlvs addrs).length, ⟨[hi tlvs.length, lo tlvs.length] ++ (tlvs ++ addrs) ++ more, Verif.Reader.OKAY⟩) := by
  obtain ⟨h1, h2⟩ := writeMessage_eq h tlvs addrs hlen hok
  generalize hn : (writeMessage h tlvs addrs).length = n at *
  have hn' : n ≤ (writeMessage h tlvs addrs ++ more).length := by rw [List.length_append]; omega
  unfold parseHeader
  generalize hw : (writeMessage h tlvs addrs ++ more) = w at *
  have hw' : w = h.type :: h.flags :: hi n :: lo n :: (optFields h ++ ([hi tlvs.length, lo tlvs.length] ++ (tlvs ++ addrs) ++ more)) := by
    rw [← hw, h2]
    simp only [List.append_assoc, List.cons_append, List.nil_append]
  dsimp only
  rw [show getU8 ⟨w, Verif.Reader.OKAY⟩ = (h.type, ⟨h.flags :: hi n :: lo n :: (optFields h ++ ([hi tlvs.length, lo tlvs.length] ++ (tlvs ++ addrs) ++ more)), Verif.Reader.OKAY⟩) by
    rw [hw', getU8_c]]
  simp only [getU8_c]
  rw [getU16_c (by omega)]
  simp only
  rw [parseFields_write hok]
  simp only
  rw [if_neg (by omega), if_neg (by decide)]

/-- message TLVs: type, extended type and value -/
def writeMsgTlvs (l : List ATlv) : Bytes := l.flatMap fun t => writeTlv t.type t.ext 0 255 t.value

/-- what the reader knows about a TLV that is not an address TLV -/
def tlvOf (t : Tlv) : ATlv := ⟨t.type, t.ext, t.value⟩

theorem pairs_map {xs : List ATlv} {ts : List Tlv} (h : Pairs (fun x t => tlvOf t = x) xs ts) : ts.map tlvOf = xs := by
  induction h with
  | nil => rfl
  | cons h1 _ ih => rw [List.map_cons, h1, ih]

theorem value_le_flat : ∀ {l : List ATlv} {t : ATlv}, t ∈ l → t.value.length ≤ (writeMsgTlvs l).length := by
  intro l t ht
  have h1 : (writeTlv t.type t.ext 0 255 t.value).length ≤ (writeMsgTlvs l).length :=
    (List.sublist_flatten_of_mem (List.mem_map_of_mem (f := fun t : ATlv => writeTlv t.type t.ext 0 255 t.value) ht)).length_le
  rw [writeTlv_length] at h1
  unfold calcTlvSize at h1
  omega

/-- **round trip of a message** with message TLVs `tlvs` and the address blocks `addrs` -/
theorem parseMessage_write {h : MsgHdr} (hok : h.Ok) (tlvs : List ATlv) (addrs more : Bytes) (mem : Nat → Bool) (hmem : ∀ k, mem k = true) (k : Nat)
    (hlen : (writeMessage h (writeMsgTlvs tlvs) addrs).length ≤ 65535) {P : List Block → Prop}
    (hb : ∀ more k fuel, addrs.length < fuel → ∃ blocks k', blockLoop mem more (lo h.addrLen) fuel k addrs [] = .ok (blocks, k') ∧ P blocks) :
    ∃ m k', parseMessage mem k (writeMessage h (writeMsgTlvs tlvs) addrs ++ more) = .ok (m, k') ∧
      m.hdr = h.read (writeMessage h (writeMsgTlvs tlvs) addrs).length ∧ (m.tlvs.map tlvOf).Perm tlvs ∧ Sorted m.tlvs ∧ P m.blocks := by
  obtain ⟨h1, h2⟩ := writeMessage_eq h (writeMsgTlvs tlvs) addrs hlen hok
  have hp := parseHeader_write hok (writeMsgTlvs tlvs) addrs more hlen
  generalize hn : (writeMessage h (writeMsgTlvs tlvs) addrs).length = n at *
  unfold parseMessage
  rw [hp]
  dsimp only
  have hsz : (h.read n).size = n := rfl
  have hal : (h.read n).addrLen = lo h.addrLen := rfl
  rw [hsz, hal]
  have hused : n - ((writeMessage h (writeMsgTlvs tlvs) addrs ++ more).length - ([hi (writeMsgTlvs tlvs).length, lo (writeMsgTlvs tlvs).length] ++ (writeMsgTlvs tlvs ++ addrs) ++ more).length) =
      ([hi (writeMsgTlvs tlvs).length, lo (writeMsgTlvs tlvs).length] ++ (writeMsgTlvs tlvs ++ addrs)).length := by
    have h3 := optFields_length hok
    simp only [List.length_append, List.length_cons, List.length_nil, hn]
    omega
  rw [hused, List.take_left]
  obtain ⟨ts, l, r1, r2, r3, r4⟩ := parseTlvblock_write (w := fun t : ATlv => writeTlv t.type t.ext 0 255 t.value)
    (Q := fun x t => tlvOf t = x) (n := 0) hmem addrs tlvs (by
      intro t ht
      refine ⟨by unfold writeTlv; simp, fun id rest => ⟨_, parseTlv_write id t.type t.ext t.value rest ?_, rfl⟩⟩
      have := value_le_flat ht
      omega) k (by
      show (writeMsgTlvs tlvs).length ≤ 65535
      omega)
  have r2' : parseTlvblock mem k ([hi (writeMsgTlvs tlvs).length, lo (writeMsgTlvs tlvs).length] ++ (writeMsgTlvs tlvs ++ addrs)) 0 = .ok (l, addrs, k + tlvs.length) := r2
  rw [r2']
  dsimp only
  obtain ⟨bs, k', b1, b2⟩ := hb (decide (n < (writeMessage h (writeMsgTlvs tlvs) addrs ++ more).length)) (k + tlvs.length) (addrs.length + 1) (by omega)
  rw [b1]
  refine ⟨_, _, rfl, rfl, ?_, r4, b2⟩
  rw [← pairs_map r1]
  exact r3.map _

end Verif.Writer
