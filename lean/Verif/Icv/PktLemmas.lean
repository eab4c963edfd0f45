import Verif.Icv.MsgLemmas

namespace Verif.Icv

theorem layout_pkt {p : Pkt} (hw : p.Wf) (tail : Bytes) : layout true (p.enc ++ tail) = ⟨1 + p.seq.length, none, none⟩ := by
  have hf : (p.enc ++ tail).headD 0 = p.first := rfl
  unfold layout
  rw [hf, if_pos rfl, hw.seq]
  by_cases c : p.first &&& 0x08 ≠ 0 <;> simp [c]

theorem encTlvs_eq_nil {l : List Tlv} (h : (encTlvs l).length = 0) : l = [] := by
  rcases l with _ | ⟨t, l⟩
  · rfl
  · rw [encTlvs_cons, List.length_append] at h
    have := t.enc_pos
    omega

/-- `_remove_signature_data` for a packet with a TLV block -/
theorem removeSig_pkt {p : Pkt} {l : List Tlv} (hw : p.Wf) (hl : p.tlvs = some l) (room : Nat) :
    removeSig room true p.enc p.enc.length = if p.norm.enc.length ≤ room then .ok p.norm.enc else .write := by
  have hsz := hw.size
  have hle := encTlvs_covered_le l
  have e : p.enc = (p.first :: p.seq) ++ (be16 (encTlvs l).length ++ (encTlvs l ++ p.body)) := by
    simp [Pkt.enc, hl]
  have hH : (p.first :: p.seq).length = 1 + p.seq.length := by simp; omega
  have hlen : p.enc.length = 1 + p.seq.length + 2 + (encTlvs l).length + p.body.length := by
    rw [e]; simp [be16]; omega
  have hn : p.norm.enc = if covered l = [] then (p.first &&& 0xfb) :: (p.seq ++ p.body)
      else p.first :: (p.seq ++ (be16 (encTlvs (covered l)).length ++ (encTlvs (covered l) ++ p.body))) := by
    unfold Pkt.norm
    rw [hl]
    dsimp only
    by_cases c : covered l = []
    · rw [if_pos c, if_pos c]; simp [Pkt.enc]
    · rw [if_neg c, if_neg c]; simp [Pkt.enc]
  have lay := layout_pkt hw []
  rw [List.append_nil] at lay
  rw [hlen]
  unfold removeSig
  rw [lay]
  dsimp only
  rw [e]
  rw [if_neg (by simp [be16]; omega)]
  by_cases h0 : room < 1 + p.seq.length
  · rw [if_pos h0, if_neg]
    rw [hn]
    by_cases c : covered l = []
    · rw [if_pos c]; simp; omega
    · rw [if_neg c]; simp; omega
  rw [if_neg h0]
  have tk : ((p.first :: p.seq) ++ (be16 (encTlvs l).length ++ (encTlvs l ++ p.body))).take (1 + p.seq.length) = p.first :: p.seq := by
    rw [← hH, List.take_left']; rfl
  have dr : ((p.first :: p.seq) ++ (be16 (encTlvs l).length ++ (encTlvs l ++ p.body))).drop (1 + p.seq.length) = be16 (encTlvs l).length ++ (encTlvs l ++ p.body) := by
    rw [← hH, List.drop_left']; rfl
  rw [tk, dr]
  have b1 : 256 * ((be16 (encTlvs l).length ++ (encTlvs l ++ p.body)).headD 0).toNat + ((be16 (encTlvs l).length ++ (encTlvs l ++ p.body)).tail.headD 0).toNat = (encTlvs l).length := be16_value (by omega)
  have b2 : (be16 (encTlvs l).length ++ (encTlvs l ++ p.body)).drop 2 = encTlvs l ++ p.body := rfl
  rw [b1, b2]
  have key := skim_enc (room := room) (base := 1 + p.seq.length + 2) l (hw.tlvs l hl) (by omega) ((encTlvs l ++ p.body).length + 1) (encTlvs l).length (1 + p.seq.length + 2) [] p.body
    (by rw [List.length_append]; omega) (Nat.le_refl _) (by omega)
  rw [List.nil_append] at key
  rcases key with h | ⟨h, h', hc⟩
  · rw [h]
    dsimp only
    have sub : (encTlvs l).length - ((encTlvs l).length - (encTlvs (covered l)).length) = (encTlvs (covered l)).length := by omega
    rw [sub]
    unfold finish
    dsimp only
    have n1 : (1 + p.seq.length + 2 + (encTlvs l).length + p.body.length + 65536 - (1 + p.seq.length + 2 + (encTlvs l).length) % 65536) % 65536 = p.body.length := by omega
    rw [n1, if_neg (by omega), List.take_length]
    simp only [if_true]
    rw [hn]
    by_cases c : covered l = []
    · rw [if_pos c, if_neg (show ¬ (0 < (encTlvs (covered l)).length ∨ true = false) by rw [c]; simp [encTlvs])]
      have fe : (((zeroAt none (zeroAt none (p.first :: p.seq))).set 0 ((zeroAt none (zeroAt none (p.first :: p.seq))).headD 0 &&& 0xfb) ++ encTlvs (covered l)) : Bytes) = (p.first &&& 0xfb) :: p.seq := by
        rw [c]; simp [zeroAt, encTlvs]
      rw [fe]
      by_cases h2 : ((p.first &&& 0xfb) :: (p.seq ++ p.body)).length ≤ room
      · rw [if_pos h2, if_neg (by simp at h2 ⊢; omega)]; rfl
      · rw [if_neg h2, if_pos (by simp at h2 ⊢; omega)]
    · have pos : 0 < (encTlvs (covered l)).length := by
        apply Nat.pos_of_ne_zero
        intro h; exact c (encTlvs_eq_nil h)
      rw [if_neg c, if_pos (Or.inl pos)]
      have fe : (zeroAt none (zeroAt none (p.first :: p.seq)) ++ be16 (encTlvs (covered l)).length ++ encTlvs (covered l) : Bytes) = p.first :: (p.seq ++ (be16 (encTlvs (covered l)).length ++ encTlvs (covered l))) := by
        simp [zeroAt]
      rw [fe]
      by_cases h2 : (p.first :: (p.seq ++ (be16 (encTlvs (covered l)).length ++ (encTlvs (covered l) ++ p.body)))).length ≤ room
      · rw [if_pos h2, if_neg (by simp at h2 ⊢; omega)]; simp
      · rw [if_neg h2, if_pos (by simp at h2 ⊢; omega)]
  · rw [h]
    dsimp only
    rw [if_neg]
    rw [hn, if_neg hc]
    simp [be16]; omega

end Verif.Icv
