import Verif.Icv.PktLemmas

namespace Verif.Icv

theorem append_inj_of_length {a b c d : Bytes} (h : a ++ b = c ++ d) (hl : a.length = c.length) : a = c ∧ b = d :=
  List.append_inj h hl

/-- a TLV can be told from the bytes which begin with it -/
theorem Tlv.enc_inj {t u : Tlv} (ht : t.Wf) (hu : u.Wf) {r q : Bytes} (h : t.enc ++ r = u.enc ++ q) : t = u ∧ r = q := by
  obtain ⟨t1, t2, t3, t4, t5⟩ := Tlv.tests ht
  obtain ⟨u1, u2, u3, u4, u5⟩ := Tlv.tests hu
  have hsplit : ∀ v : Tlv, v.enc = v.type :: v.flags :: (v.ext.toList ++ (match v.value with
     | none => []
     | some (false, v) => v.length.toUInt8 :: v
     | some (true, v) => be16 v.length ++ v)) := fun _ => rfl
  rw [hsplit, hsplit] at h
  simp only [List.cons_append, List.cons.injEq, List.append_assoc] at h
  obtain ⟨hty, hfl, h⟩ := h
  have hex : t.extra = u.extra := by rw [← t5, ← u5, hfl]
  have hes : t.ext.isSome = u.ext.isSome := by
    rw [Bool.eq_iff_iff, ← t1, ← u1, hfl]
  have hel : t.ext.toList.length = u.ext.toList.length := by rw [toList_length, toList_length, hes]
  obtain ⟨he, h⟩ := append_inj_of_length h hel
  have hext : t.ext = u.ext := by
    revert he
    rcases t.ext with _ | a <;> rcases u.ext with _ | b <;> simp
  have key : t.value = u.value ∧ r = q := by
    rcases hv : t.value with _ | ⟨_ | _, v⟩ <;> rcases hw : u.value with _ | ⟨_ | _, w⟩
    · rw [hv, hw] at h; exact ⟨rfl, by simpa using h⟩
    · exact absurd (u2.mp (hfl ▸ t2.mpr hv)) (by rw [hw]; simp)
    · exact absurd (u2.mp (hfl ▸ t2.mpr hv)) (by rw [hw]; simp)
    · exact absurd (t2.mp (hfl ▸ u2.mpr hw)) (by rw [hv]; simp)
    · rw [hv, hw] at h
      dsimp only at h
      simp only [List.cons_append, List.cons.injEq] at h
      have l1 := ht.short v hv
      have l2 := hu.short w hw
      have hl : v.length = w.length := by
        have := congrArg UInt8.toNat h.1
        rwa [toNat_toUInt8 (by omega), toNat_toUInt8 (by omega)] at this
      obtain ⟨hvw, hr⟩ := append_inj_of_length h.2 hl
      exact ⟨by rw [hvw], hr⟩
    · exact absurd (hfl ▸ t3 v hv) (u4 w hw)
    · exact absurd (t2.mp (hfl ▸ u2.mpr hw)) (by rw [hv]; simp)
    · exact absurd (u3 w hw) (hfl ▸ t4 v hv)
    · rw [hv, hw] at h
      dsimp only at h
      have l1 := ht.long v hv
      have l2 := hu.long w hw
      rw [List.append_assoc, List.append_assoc] at h
      obtain ⟨hb, h⟩ := append_inj_of_length h rfl
      have hl : v.length = w.length := be16_inj (by omega) (by omega) hb
      obtain ⟨hvw, hr⟩ := append_inj_of_length h hl
      exact ⟨by rw [hvw], hr⟩
  refine ⟨?_, key.2⟩
  cases t; cases u
  simp only [Tlv.mk.injEq]
  exact ⟨hty, hex, hext, key.1⟩

theorem encTlvs_inj : ∀ {l k : List Tlv}, (∀ t ∈ l, t.Wf) → (∀ t ∈ k, t.Wf) → encTlvs l = encTlvs k → l = k
  | [], [], _, _, _ => rfl
  | [], t :: k, _, _, h => by
    have := congrArg List.length h
    rw [encTlvs_cons, List.length_append] at this
    have := t.enc_pos
    have h0 : (encTlvs []).length = 0 := rfl
    omega
  | t :: l, [], _, _, h => by
    have := congrArg List.length h
    rw [encTlvs_cons, List.length_append] at this
    have := t.enc_pos
    have h0 : (encTlvs []).length = 0 := rfl
    omega
  | t :: l, u :: k, hl, hk, h => by
    rw [encTlvs_cons, encTlvs_cons] at h
    obtain ⟨h1, h2⟩ := Tlv.enc_inj (hl t List.mem_cons_self) (hk u List.mem_cons_self) h
    rw [h1, encTlvs_inj (fun x hx => hl x (List.mem_cons_of_mem _ hx)) (fun x hx => hk x (List.mem_cons_of_mem _ hx)) h2]

theorem covered_wf {l : List Tlv} (h : ∀ t ∈ l, t.Wf) : ∀ t ∈ covered l, t.Wf := fun t ht => h t (List.mem_filter.mp ht).1

theorem Msg.norm_wf {m : Msg} (h : m.Wf) : m.norm.Wf where
  orig := h.orig
  limit := by
    have := h.limit
    simp only [Msg.norm, Option.isSome_map]
    exact this
  count := by
    have := h.count
    simp only [Msg.norm, Option.isSome_map]
    exact this
  seq := h.seq
  tlvs := covered_wf h.tlvs
  size := Nat.lt_of_le_of_lt m.norm_size_le h.size

theorem Msg.enc_inj {m n : Msg} (hm : m.Wf) (hn : n.Wf) {r q : Bytes} (hl : m.enc ++ r = n.enc ++ q) : m = n ∧ r = q := by
  have hms := hm.size
  have hns := hn.size
  have e : ∀ (m : Msg) (r : Bytes), m.enc ++ r = m.type :: m.flags :: (be16 m.size ++ (m.orig ++ (m.limit.toList ++ (m.count.toList ++ (m.seq ++ (be16 (encTlvs m.tlvs).length ++ (encTlvs m.tlvs ++ (m.body ++ r)))))))) := by
    intro m r; simp [Msg.enc, Msg.fields]
  rw [e, e] at hl
  simp only [List.cons.injEq] at hl
  obtain ⟨h1, h2, h⟩ := hl
  obtain ⟨hsz, h⟩ := append_inj_of_length h rfl
  have hsz := be16_inj hms hns hsz
  have o := hm.orig
  have l := hm.limit
  have c := hm.count
  have s := hm.seq
  rw [h2] at o l c s
  obtain ⟨h3, h⟩ := append_inj_of_length h (by rw [o, hn.orig])
  obtain ⟨h4, h⟩ := append_inj_of_length h (by rw [toList_length, toList_length, l, hn.limit])
  obtain ⟨h5, h⟩ := append_inj_of_length h (by rw [toList_length, toList_length, c, hn.count])
  obtain ⟨h6, h⟩ := append_inj_of_length h (by rw [s, hn.seq])
  obtain ⟨h7, h⟩ := append_inj_of_length h rfl
  have sm : m.size = 4 + m.fields.length + 2 + (encTlvs m.tlvs).length + m.body.length := rfl
  have sn : n.size = 4 + n.fields.length + 2 + (encTlvs n.tlvs).length + n.body.length := rfl
  have h7 := be16_inj (by omega) (by omega) h7
  obtain ⟨h8, h⟩ := append_inj_of_length h h7
  have h8 := encTlvs_inj hm.tlvs hn.tlvs h8
  have hf : m.fields = n.fields := by unfold Msg.fields; rw [h3, h4, h5, h6]
  rw [hf, h7] at sm
  obtain ⟨h9, h⟩ := append_inj_of_length h (by omega)
  have tl : ∀ a b : Option UInt8, a.toList = b.toList → a = b := by
    intro a b; rcases a with _ | a <;> rcases b with _ | b <;> simp
  refine ⟨?_, h⟩
  cases m; cases n
  simp only [Msg.mk.injEq]
  exact ⟨h1, h2, h3, tl _ _ h4, tl _ _ h5, h6, h8, h9⟩

theorem and_fb : ∀ n < 256, ((n.toUInt8) &&& 0xfb) &&& 0x04 = 0 ∧ ((n.toUInt8) &&& 0xfb) &&& 0x08 = n.toUInt8 &&& 0x08 ∧
    (n.toUInt8 &&& 0x04 ≠ 0 → ((n.toUInt8 &&& 0xfb) ||| 0x04) = n.toUInt8) ∧ (n.toUInt8 &&& 0x04 = 0 → n.toUInt8 &&& 0xfb = n.toUInt8)
    ∧ (n.toUInt8 ||| 0x04) &&& 0x04 ≠ 0 ∧ (n.toUInt8 ||| 0x04) &&& 0x08 = n.toUInt8 &&& 0x08 ∧ (n.toUInt8 &&& 0x04 = 0 → (n.toUInt8 ||| 0x04) &&& 0xfb = n.toUInt8) := by
  decide +kernel

theorem and_fb' (b : UInt8) : (b &&& 0xfb) &&& 0x04 = 0 ∧ (b &&& 0xfb) &&& 0x08 = b &&& 0x08 ∧
    (b &&& 0x04 ≠ 0 → ((b &&& 0xfb) ||| 0x04) = b) ∧ (b &&& 0x04 = 0 → b &&& 0xfb = b)
    ∧ (b ||| 0x04) &&& 0x04 ≠ 0 ∧ (b ||| 0x04) &&& 0x08 = b &&& 0x08 ∧ (b &&& 0x04 = 0 → (b ||| 0x04) &&& 0xfb = b) := by
  have := and_fb b.toNat b.toNat_lt
  rwa [show b.toNat.toUInt8 = b by simp [Nat.toUInt8]] at this

theorem Pkt.norm_wf {p : Pkt} (h : p.Wf) : p.norm.Wf := by
  unfold Pkt.norm
  rcases hl : p.tlvs with _ | l
  · exact h
  · dsimp only
    by_cases c : covered l = []
    · rw [if_pos c]
      refine ⟨?_, ?_, ?_, ?_⟩
      · dsimp only; rw [(and_fb' p.first).2.1]; exact h.seq
      · dsimp only; rw [(and_fb' p.first).1]; rfl
      · intro l hl; cases hl
      · have := h.size
        simp [Pkt.enc, hl] at this ⊢; omega
    · rw [if_neg c]
      refine ⟨h.seq, ?_, ?_, ?_⟩
      · have := h.block
        rw [hl] at this; exact this
      · intro k hk; cases hk; exact covered_wf (h.tlvs l hl)
      · have := h.size
        have := encTlvs_covered_le l
        simp [Pkt.enc, hl, be16] at *; omega

theorem Pkt.enc_inj {p q : Pkt} (hp : p.Wf) (hq : q.Wf) (h : p.enc = q.enc) : p = q := by
  have e : ∀ (p : Pkt), p.enc = p.first :: (p.seq ++ ((match p.tlvs with
     | none => []
     | some l => be16 (encTlvs l).length ++ encTlvs l) ++ p.body)) := by
    intro p; rw [Pkt.enc, List.append_assoc]
    rcases p.tlvs with _ | l <;> rfl
  have szp := hp.size
  have szq := hq.size
  rw [e] at szp szq
  rw [e, e] at h
  simp only [List.cons.injEq] at h
  obtain ⟨h1, h⟩ := h
  have s := hp.seq
  have b := hp.block
  rw [h1] at s b
  obtain ⟨h2, h⟩ := append_inj_of_length h (by rw [s, hq.seq])
  rw [← hq.block] at b
  have key : p.tlvs = q.tlvs ∧ p.body = q.body := by
    rcases hl : p.tlvs with _ | l <;> rcases hk : q.tlvs with _ | k
    · rw [hl, hk] at h; exact ⟨rfl, by simpa using h⟩
    · rw [hl, hk] at b; cases b
    · rw [hl, hk] at b; cases b
    · rw [hl] at szp; rw [hk] at szq
      rw [hl, hk] at h
      dsimp only at h szp szq
      rw [List.append_assoc, List.append_assoc] at h
      simp only [List.length_cons, List.length_append, be16_length] at szp szq
      obtain ⟨h3, h⟩ := append_inj_of_length h rfl
      have h3 := be16_inj (by omega) (by omega) h3
      obtain ⟨h4, h⟩ := append_inj_of_length h h3
      exact ⟨by rw [encTlvs_inj (hp.tlvs l hl) (hq.tlvs k hk) h4], h⟩
  cases p; cases q
  simp only [Pkt.mk.injEq]
  exact ⟨h1, h2, key.1, key.2⟩

end Verif.Icv
