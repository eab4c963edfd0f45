import Verif.Icv.CheckLemmas

namespace Verif.Icv

/-- value of the signature TLV -/
def icvValue (s : Signer) (icv : Bytes) : Bytes := s.hash :: s.crypt :: s.kid.length.toUInt8 :: (s.kid ++ icv)

/-- the signature TLV -/
def icvT (s : Signer) (icv : Bytes) : Tlv :=
  ⟨5, 0, some (if s.srcSpec then 2 else 1), some (decide (255 < (icvValue s icv).length), icvValue s icv)⟩

theorem icvT_enc (s : Signer) (icv : Bytes) : (icvT s icv).enc = icvTlv s icv := by
  unfold icvT icvTlv Tlv.enc Tlv.flags
  dsimp only
  by_cases h : 255 < (icvValue s icv).length
  · rw [if_pos (show 255 < (s.hash :: s.crypt :: s.kid.length.toUInt8 :: (s.kid ++ icv)).length from h)]
    simp only [decide_eq_true h]
    rfl
  · rw [if_neg (show ¬ 255 < (s.hash :: s.crypt :: s.kid.length.toUInt8 :: (s.kid ++ icv)).length from h)]
    simp only [decide_eq_false h]
    rfl

theorem icvT_wf {s : Signer} {icv : Bytes} (hl : (icvValue s icv).length ≤ 65530) : (icvT s icv).Wf := by
  refine ⟨show (0 : UInt8) < 8 by decide, ?_, ?_⟩
  · intro v hv
    simp only [icvT, Option.some.injEq, Prod.mk.injEq, decide_eq_false_iff_not] at hv
    rw [← hv.2]; omega
  · intro v hv
    simp only [icvT, Option.some.injEq, Prod.mk.injEq] at hv
    rw [← hv.2]; exact hl

theorem icvTlv_length (s : Signer) (icv : Bytes) :
    (icvTlv s icv).length = 7 + s.kid.length + icv.length + if 255 < 3 + s.kid.length + icv.length then 1 else 0 := by
  have : (s.hash :: s.crypt :: s.kid.length.toUInt8 :: (s.kid ++ icv)).length = 3 + s.kid.length + icv.length := by simp; omega
  unfold icvTlv
  dsimp only
  rw [this]
  by_cases h : 255 < 3 + s.kid.length + icv.length
  · rw [if_pos h, if_pos h]; simp [be16]; omega
  · rw [if_neg h, if_neg h]; simp; omega

/-- hop limit and hop count zero -/
def Msg.zero (m : Msg) : Msg := { m with limit := m.limit.map (fun _ => 0), count := m.count.map (fun _ => 0) }

theorem zero_msg {m : Msg} (hw : m.Wf) : zeroAt (layout false m.enc).count (zeroAt (layout false m.enc).limit m.enc) = m.zero.enc := by
  have lay := layout_msg hw []
  rw [List.append_nil] at lay
  rw [lay]
  dsimp only
  have := zero_hdr (m := m) (be16 (encTlvs m.tlvs).length ++ encTlvs m.tlvs ++ m.body)
  have e : m.enc = m.type :: m.flags :: (be16 m.size ++ m.fields ++ (be16 (encTlvs m.tlvs).length ++ encTlvs m.tlvs ++ m.body)) := by
    simp [Msg.enc]
  rw [e, this]
  have hs : m.zero.size = m.size := by
    unfold Msg.size
    have : m.zero.fields.length = m.fields.length := by simp [Msg.zero, Msg.fields, toList_length]
    rw [this]; rfl
  have hf : m.zero.fields = m.norm.fields := rfl
  show _ = m.zero.type :: m.zero.flags :: (be16 m.zero.size ++ m.zero.fields ++ be16 (encTlvs m.zero.tlvs).length ++ encTlvs m.zero.tlvs ++ m.zero.body)
  rw [hs, hf]
  simp [Msg.zero]

theorem insertIcv_msg {m : Msg} (hw : m.Wf) (t : Tlv) : insertIcv false m.enc t.enc = { m with tlvs := t :: m.tlvs }.enc := by
  have lay := layout_msg hw []
  rw [List.append_nil] at lay
  have hsz := hw.size
  have hms : m.size = 4 + m.fields.length + 2 + (encTlvs m.tlvs).length + m.body.length := rfl
  have e : m.enc = (m.type :: m.flags :: (be16 m.size ++ m.fields)) ++ (be16 (encTlvs m.tlvs).length ++ (encTlvs m.tlvs ++ m.body)) := by
    simp [Msg.enc]
  have hH : (m.type :: m.flags :: (be16 m.size ++ m.fields)).length = 4 + m.fields.length := by simp [be16]; omega
  unfold insertIcv
  rw [lay, if_neg (by simp)]
  dsimp only
  rw [e]
  have tk : ((m.type :: m.flags :: (be16 m.size ++ m.fields)) ++ (be16 (encTlvs m.tlvs).length ++ (encTlvs m.tlvs ++ m.body))).take (4 + m.fields.length) = m.type :: m.flags :: (be16 m.size ++ m.fields) := by
    rw [← hH, List.take_left']; rfl
  have dr : ((m.type :: m.flags :: (be16 m.size ++ m.fields)) ++ (be16 (encTlvs m.tlvs).length ++ (encTlvs m.tlvs ++ m.body))).drop (4 + m.fields.length) = be16 (encTlvs m.tlvs).length ++ (encTlvs m.tlvs ++ m.body) := by
    rw [← hH, List.drop_left']; rfl
  rw [tk, dr]
  have b1 : 256 * ((be16 (encTlvs m.tlvs).length ++ (encTlvs m.tlvs ++ m.body)).headD 0).toNat + ((be16 (encTlvs m.tlvs).length ++ (encTlvs m.tlvs ++ m.body)).tail.headD 0).toNat = (encTlvs m.tlvs).length := be16_value (by omega)
  have b2 : (be16 (encTlvs m.tlvs).length ++ (encTlvs m.tlvs ++ m.body)).drop 2 = encTlvs m.tlvs ++ m.body := rfl
  rw [b1, b2]
  simp only [Bool.false_eq_true, if_false]
  have bl : (encTlvs m.tlvs).length + t.enc.length = (encTlvs (t :: m.tlvs)).length := by rw [encTlvs_cons, List.length_append]; omega
  have hl : (m.type :: m.flags :: (be16 m.size ++ m.fields) ++ be16 ((encTlvs m.tlvs).length + t.enc.length) ++ t.enc ++ (encTlvs m.tlvs ++ m.body)).length
      = ({ m with tlvs := t :: m.tlvs } : Msg).size := by
    have : ({ m with tlvs := t :: m.tlvs } : Msg).size = 4 + m.fields.length + 2 + (encTlvs (t :: m.tlvs)).length + m.body.length := rfl
    rw [this, ← bl]
    simp [be16]; omega
  rw [hl, bl]
  simp only [Msg.enc, be16, encTlvs_cons, List.cons_append, List.nil_append, List.append_assoc, List.set_cons_succ, List.set_cons_zero]
  rfl

/-- the packet with one more TLV in front of the others -/
def Pkt.addTlv (p : Pkt) (t : Tlv) : Pkt := { p with first := p.first ||| 0x04, tlvs := some (t :: p.tlvs.getD []) }

theorem or_four (b : UInt8) (h : b &&& 0x04 ≠ 0) : b ||| 0x04 = b := by
  have : ∀ n < 256, n.toUInt8 &&& 0x04 ≠ 0 → n.toUInt8 ||| 0x04 = n.toUInt8 := by decide +kernel
  have := this b.toNat b.toNat_lt
  rw [show b.toNat.toUInt8 = b by simp [Nat.toUInt8]] at this
  exact this h

theorem insertIcv_pkt {p : Pkt} (hw : p.Wf) (t : Tlv) : insertIcv true p.enc t.enc = (p.addTlv t).enc := by
  have lay := layout_pkt hw []
  rw [List.append_nil] at lay
  have hsz := hw.size
  have hH : (p.first :: p.seq).length = 1 + p.seq.length := by simp; omega
  have hd : p.enc.headD 0 = p.first := rfl
  have hb := hw.block
  unfold insertIcv
  rw [lay, hd]
  dsimp only
  rcases hl : p.tlvs with _ | l
  · rw [hl] at hb
    have h4 : p.first &&& 0x04 = 0 := by simpa using hb
    rw [if_pos ⟨rfl, h4⟩]
    have e : p.enc = (p.first :: p.seq) ++ p.body := by simp [Pkt.enc, hl]
    rw [e, ← hH, List.take_left' rfl, List.drop_left' rfl]
    simp [Pkt.addTlv, Pkt.enc, hl, encTlvs]
  · rw [hl] at hb
    have h4 : p.first &&& 0x04 ≠ 0 := by simpa using hb
    rw [if_neg (fun h => h4 h.2)]
    have e : p.enc = (p.first :: p.seq) ++ (be16 (encTlvs l).length ++ (encTlvs l ++ p.body)) := by
      simp [Pkt.enc, hl]
    have hlen : p.enc.length = 1 + p.seq.length + 2 + (encTlvs l).length + p.body.length := by
      rw [e]; simp [be16]; omega
    rw [e, ← hH, List.take_left' rfl, List.drop_left' rfl]
    have b1 : 256 * ((be16 (encTlvs l).length ++ (encTlvs l ++ p.body)).headD 0).toNat + ((be16 (encTlvs l).length ++ (encTlvs l ++ p.body)).tail.headD 0).toNat = (encTlvs l).length := be16_value (by omega)
    have b2 : (be16 (encTlvs l).length ++ (encTlvs l ++ p.body)).drop 2 = encTlvs l ++ p.body := rfl
    rw [b1, b2]
    have bl : (encTlvs l).length + t.enc.length = (encTlvs (t :: l)).length := by rw [encTlvs_cons, List.length_append]; omega
    rw [bl, if_pos rfl]
    simp [Pkt.addTlv, Pkt.enc, hl, or_four _ h4, encTlvs_cons]

end Verif.Icv
