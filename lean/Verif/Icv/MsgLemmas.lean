import Verif.Icv.Lemmas

namespace Verif.Icv

theorem Msg.enc_length (m : Msg) : m.enc.length = m.size := by
  simp [Msg.enc, Msg.size, be16]; omega

theorem toList_length (o : Option UInt8) : o.toList.length = if o.isSome then 1 else 0 := by
  cases o <;> rfl

theorem layout_msg {m : Msg} (hw : m.Wf) (tail : Bytes) :
    layout false (m.enc ++ tail) = ⟨4 + m.fields.length, if m.limit.isSome then some (4 + m.orig.length) else none,
      if m.count.isSome then some (4 + m.orig.length + m.limit.toList.length) else none⟩ := by
  have hf : (m.enc ++ tail).tail.headD 0 = m.flags := rfl
  have h1 := hw.orig
  have h2 := hw.limit
  have h3 := hw.count
  have h4 := hw.seq
  unfold layout Msg.fields
  rw [hf, if_neg (by decide)]
  dsimp only
  simp only [List.length_append, toList_length, h1, h2, h3, h4]
  by_cases c1 : m.flags &&& 0x80 ≠ 0 <;> by_cases c2 : m.flags &&& 0x40 ≠ 0 <;> by_cases c3 : m.flags &&& 0x20 ≠ 0 <;>
    by_cases c4 : m.flags &&& 0x10 ≠ 0 <;> simp [c1, c2, c3, c4] <;> omega

/-- the header as copied by `_remove_signature_data` -/
theorem zero_hdr {m : Msg} (rest : Bytes) :
    zeroAt (if m.count.isSome then some (4 + m.orig.length + m.limit.toList.length) else none)
      (zeroAt (if m.limit.isSome then some (4 + m.orig.length) else none) (m.type :: m.flags :: (be16 m.size ++ m.fields ++ rest)))
      = m.type :: m.flags :: (be16 m.size ++ m.norm.fields ++ rest) := by
  have e : ∀ (a b : UInt8) (x y : Bytes) (k : Nat), (a :: b :: (be16 m.size ++ (x ++ (k.toUInt8 :: y)))).set (4 + x.length) 0 = a :: b :: (be16 m.size ++ (x ++ (0 :: y))) := by
    intro a b x y k
    have : 4 + x.length = x.length + 2 + 1 + 1 := by omega
    rw [this, List.set_cons_succ, List.set_cons_succ]
    simp [be16]
  have e' : ∀ (a b u : UInt8) (x y : Bytes), (a :: b :: (be16 m.size ++ (x ++ (u :: y)))).set (4 + x.length) 0 = a :: b :: (be16 m.size ++ (x ++ (0 :: y))) := by
    intro a b u x y
    have := e a b x y u.toNat
    rwa [show u.toNat.toUInt8 = u by simp [Nat.toUInt8]] at this
  rcases hl : m.limit with _ | a <;> rcases hc : m.count with _ | b
  · simp [zeroAt, Msg.fields, Msg.norm, hl, hc]
  · simp only [Msg.fields, Msg.norm, hl, hc, Option.isSome_none, Option.isSome_some, if_true, zeroAt, Option.map_some, Option.map_none, Option.toList_none, Option.toList_some, List.append_nil, List.append_assoc, List.cons_append, List.nil_append, List.length_nil, Nat.add_zero, Bool.false_eq_true, if_false]
    exact e' _ _ _ _ _
  · simp only [Msg.fields, Msg.norm, hl, hc, Option.isSome_none, Option.isSome_some, if_true, zeroAt, Option.map_some, Option.map_none, Option.toList_none, Option.toList_some, List.append_nil, List.append_assoc, List.cons_append, List.nil_append, Bool.false_eq_true, if_false]
    exact e' _ _ _ _ _
  · simp only [Msg.fields, Msg.norm, hl, hc, Option.isSome_some, if_true, zeroAt, Option.map_some, Option.toList_some, List.append_assoc, List.cons_append, List.nil_append]
    rw [e' _ _ _ _ _]
    have := e' m.type m.flags b (m.orig ++ [0]) (m.seq ++ rest)
    simp only [List.append_assoc, List.cons_append, List.nil_append, List.length_append, List.length_cons, List.length_nil, Nat.zero_add] at this ⊢
    rw [Nat.add_assoc]
    exact this

theorem Msg.norm_fields_length (m : Msg) : m.norm.fields.length = m.fields.length := by
  simp [Msg.norm, Msg.fields, toList_length]

theorem Msg.norm_size_le (m : Msg) : m.norm.size ≤ m.size := by
  have := encTlvs_covered_le m.tlvs
  have h2 := m.norm_fields_length
  unfold Msg.size
  rw [h2]
  show _ + _ + _ + (encTlvs (covered m.tlvs)).length + m.body.length ≤ _
  omega

/-- `_remove_signature_data` for a message: the covered data, or an overrun of the buffer -/
theorem removeSig_msg {m : Msg} (hw : m.Wf) (room : Nat) (tail : Bytes) :
    removeSig room false (m.enc ++ tail) m.enc.length = if m.norm.enc.length ≤ room then .ok m.norm.enc else .write := by
  have hsz := hw.size
  have hnsz := m.norm_size_le
  have hns : m.norm.size = 4 + m.fields.length + 2 + (encTlvs (covered m.tlvs)).length + m.body.length := by
    unfold Msg.size; rw [m.norm_fields_length]; rfl
  have hle := encTlvs_covered_le m.tlvs
  have hms : m.size = 4 + m.fields.length + 2 + (encTlvs m.tlvs).length + m.body.length := rfl
  have e : m.enc ++ tail = (m.type :: m.flags :: (be16 m.size ++ m.fields)) ++ (be16 (encTlvs m.tlvs).length ++ (encTlvs m.tlvs ++ (m.body ++ tail))) := by
    simp [Msg.enc]
  have hH : (m.type :: m.flags :: (be16 m.size ++ m.fields)).length = 4 + m.fields.length := by simp [be16]; omega
  rw [Msg.enc_length, Msg.enc_length]
  unfold removeSig
  rw [layout_msg hw]
  dsimp only
  rw [e]
  rw [if_neg (by simp [be16]; omega)]
  by_cases h0 : room < 4 + m.fields.length
  · rw [if_pos h0, if_neg (by omega)]
  rw [if_neg h0]
  have tk : ((m.type :: m.flags :: (be16 m.size ++ m.fields)) ++ (be16 (encTlvs m.tlvs).length ++ (encTlvs m.tlvs ++ (m.body ++ tail)))).take (4 + m.fields.length) = m.type :: m.flags :: (be16 m.size ++ m.fields) := by
    rw [← hH, List.take_left']; rfl
  have dr : ((m.type :: m.flags :: (be16 m.size ++ m.fields)) ++ (be16 (encTlvs m.tlvs).length ++ (encTlvs m.tlvs ++ (m.body ++ tail)))).drop (4 + m.fields.length) = be16 (encTlvs m.tlvs).length ++ (encTlvs m.tlvs ++ (m.body ++ tail)) := by
    rw [← hH, List.drop_left']; rfl
  rw [tk, dr]
  have z := zero_hdr (m := m) []
  simp only [List.append_nil] at z
  rw [z]
  have b1 : 256 * ((be16 (encTlvs m.tlvs).length ++ (encTlvs m.tlvs ++ (m.body ++ tail))).headD 0).toNat + ((be16 (encTlvs m.tlvs).length ++ (encTlvs m.tlvs ++ (m.body ++ tail))).tail.headD 0).toNat = (encTlvs m.tlvs).length := be16_value (by omega)
  have b2 : (be16 (encTlvs m.tlvs).length ++ (encTlvs m.tlvs ++ (m.body ++ tail))).drop 2 = encTlvs m.tlvs ++ (m.body ++ tail) := rfl
  rw [b1, b2]
  have key := skim_enc (room := room) (base := 4 + m.fields.length + 2) m.tlvs hw.tlvs (by omega) ((encTlvs m.tlvs ++ (m.body ++ tail)).length + 1) (encTlvs m.tlvs).length (4 + m.fields.length + 2) [] (m.body ++ tail)
    (by rw [List.length_append]; omega) (Nat.le_refl _) (by omega)
  rw [List.nil_append] at key
  rcases key with h | ⟨h, h', _⟩
  · rw [h]
    dsimp only
    have sub : (encTlvs m.tlvs).length - ((encTlvs m.tlvs).length - (encTlvs (covered m.tlvs)).length) = (encTlvs (covered m.tlvs)).length := by omega
    rw [sub]
    unfold finish
    dsimp only
    have n1 : (m.size + 65536 - (4 + m.fields.length + 2 + (encTlvs m.tlvs).length) % 65536) % 65536 = m.body.length := by omega
    rw [n1, if_neg (by simp), if_pos (Or.inr rfl)]
    simp only [Bool.false_eq_true, if_false]
    have fl : (m.type :: m.flags :: (be16 m.size ++ m.norm.fields) ++ be16 (encTlvs (covered m.tlvs)).length ++ encTlvs (covered m.tlvs)).length = 4 + m.fields.length + 2 + (encTlvs (covered m.tlvs)).length := by
      simp [be16, m.norm_fields_length]; omega
    rw [fl]
    by_cases h2 : m.norm.size ≤ room
    · rw [if_pos h2, if_neg (by omega)]
      have tb : (m.body ++ tail).take m.body.length = m.body := List.take_left' rfl
      rw [tb]
      have dl : (m.type :: m.flags :: (be16 m.size ++ m.norm.fields) ++ be16 (encTlvs (covered m.tlvs)).length ++ encTlvs (covered m.tlvs) ++ m.body).length = m.norm.size := by
        rw [List.length_append, fl, hns]
      rw [dl]
      rfl
    · rw [if_neg h2, if_pos (by omega)]
  · rw [h]
    dsimp only
    rw [if_neg (by omega)]

end Verif.Icv
