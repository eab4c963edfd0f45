import Verif.Icv.SignLemmas

namespace Verif.Icv

/-! ## C127: what is accepted has been signed -/

/-- C127: an accepted message carries, for every mandatory signature, an ICV TLV with its algorithms, its type
extension and an acceptable key-id, whose value was found valid for the source address (if part of the
signature), the algorithms, the key-id and the covered data of the message. -/
theorem C127_message {src : Bytes} {m : Msg} (hw : m.Wf) {tail : Bytes} {tlvs : List IcvTlv} {sigs : List Sig}
    (h : checkSig src false (m.enc ++ tail) m.enc.length tlvs sigs = .ok true) (s : Sig) (hs : s ∈ sigs) (hm : s.matching = true) (hi : s.dropInvalid = true) :
    ∃ t ∈ tlvs, ∃ (kid icv : Bytes) (f : Bytes → Bytes → Bool), t.value = s.hash :: s.crypt :: kid.length.toUInt8 :: (kid ++ icv) ∧ kid.length < 256 ∧ icv ≠ [] ∧
      t.ext = (if s.srcSpec then 2 else 1) ∧ s.verifyId kid = .okay ∧ s.validate = some f ∧
      f icv ((if s.srcSpec then src else []) ++ (s.hash :: s.crypt :: kid.length.toUInt8 :: (kid ++ m.norm.enc))) = true := by
  refine checkSig_spec (d := m.norm.enc) ?_ h s hs hm hi
  intro room e he
  rw [removeSig_msg hw] at he
  by_cases c : m.norm.enc.length ≤ room
  · rw [if_pos c] at he; exact (Out.ok.inj he).symm
  · rw [if_neg c] at he; cases he

/-- C127: the same for packets with a TLV block. -/
theorem C127_packet_partial {src : Bytes} {p : Pkt} {l : List Tlv} (hw : p.Wf) (hl : p.tlvs = some l) {tlvs : List IcvTlv} {sigs : List Sig}
    (h : checkPacket src p.enc tlvs sigs = .ok true) (s : Sig) (hs : s ∈ sigs) (hm : s.matching = true) (hi : s.dropInvalid = true) :
    ∃ t ∈ tlvs, ∃ (kid icv : Bytes) (f : Bytes → Bytes → Bool), t.value = s.hash :: s.crypt :: kid.length.toUInt8 :: (kid ++ icv) ∧ kid.length < 256 ∧ icv ≠ [] ∧
      t.ext = (if s.srcSpec then 2 else 1) ∧ s.verifyId kid = .okay ∧ s.validate = some f ∧
      f icv ((if s.srcSpec then src else []) ++ (s.hash :: s.crypt :: kid.length.toUInt8 :: (kid ++ p.norm.enc))) = true := by
  have hb := hw.block
  rw [hl] at hb
  have h4 : p.first &&& 0x04 ≠ 0 := by simpa using hb
  unfold checkPacket at h
  rw [if_pos (show p.enc.headD 0 &&& 0x04 ≠ 0 from h4)] at h
  refine checkSig_spec (d := p.norm.enc) ?_ h s hs hm hi
  intro room e he
  rw [removeSig_pkt hw hl] at he
  by_cases c : p.norm.enc.length ≤ room
  · rw [if_pos c] at he; exact (Out.ok.inj he).symm
  · rw [if_neg c] at he; cases he

/-- C127 fails for packets without a TLV block: they are accepted although a packet signature is mandatory —
the check is not called for them. -/
theorem C127_no_block_counterexample (src : Bytes) (p : Pkt) (hw : p.Wf) (hn : p.tlvs = none) (tlvs : List IcvTlv) (sigs : List Sig) :
    checkPacket src p.enc tlvs sigs = .ok true := by
  have hb := hw.block
  rw [hn] at hb
  have h4 : p.first &&& 0x04 = 0 := by simpa using hb
  unfold checkPacket
  rw [if_neg (show ¬ (p.enc.headD 0 &&& 0x04 ≠ 0) from fun h => h h4)]

/-- C127: with the default validation a valid value is the signature of the data if it has the right length. -/
theorem C127_validate_partial (sign : Bytes → Option Bytes) (icv data s : Bytes) (hs : sign data = some s) (hl : icv.length = s.length) :
    validateBySign sign icv data = true ↔ icv = s := by
  unfold validateBySign
  rw [hs]
  dsimp only
  rw [if_neg (by rw [hl]; simp)]
  simp only [beq_iff_eq]
  exact eq_comm

/-- C127 fails for the default validation: every value of a wrong length is valid, whatever the key, the
algorithms and the data; so anybody can sign. -/
theorem C127_length_counterexample (sign : Bytes → Option Bytes) (icv data : Bytes) (h : ∀ s, sign data = some s → s.length ≠ icv.length) :
    validateBySign sign icv data = true := by
  unfold validateBySign
  rcases hs : sign data with _ | s
  · rfl
  · dsimp only
    rw [if_pos (h s hs)]

/-- the ICV TLVs of a list as handed to the consumer (the reader sorts them by type extension) -/
def icvs (l : List Tlv) : List IcvTlv :=
  (l.filter (fun t => t.type == 5)).map (fun t => ⟨t.ext.getD 0, (match t.value with | none => [] | some v => v.2)⟩)

/-- C127 fails end to end: any message gets accepted by a node with a mandatory signature after an ICV TLV with
the algorithms, the key-id and a single byte is added, without knowledge of the key. -/
theorem C127_forged_counterexample (sign : Bytes → Option Bytes) (hash crypt : UInt8) (kid : Bytes) (hk : kid.length ≤ 200)
    (hsign : ∀ d i, sign d = some i → i.length ≠ 1) (m : Msg) (hw : m.Wf) (hn : ∀ t ∈ m.tlvs, t.type ≠ 5)
    (hsz : m.enc.length + kid.length + 3 ≤ CAP) (src tail : Bytes) :
    let forged : Msg := { m with tlvs := ⟨5, 0, some 1, some (false, hash :: crypt :: kid.length.toUInt8 :: (kid ++ [0]))⟩ :: m.tlvs }
    checkSig src false (forged.enc ++ tail) forged.enc.length (icvs forged.tlvs) [⟨hash, crypt, false, true, true, sharedId kid, some (validateBySign sign)⟩] = .ok true := by
  intro forged
  have hcov : covered forged.tlvs = m.tlvs := by
    show covered (_ :: m.tlvs) = _
    rw [covered_cons, if_pos rfl]
    unfold covered
    rw [List.filter_eq_self]
    intro t ht
    simp [hn t ht]
  have hfilter : m.tlvs.filter (fun t => t.type == 5) = [] := by
    rw [List.filter_eq_nil_iff]
    intro t ht
    simp [hn t ht]
  have hnorm : forged.norm = m.norm := by
    have e : covered m.tlvs = m.tlvs := by
      unfold covered
      rw [List.filter_eq_self]
      intro t ht
      simp [hn t ht]
    unfold Msg.norm
    rw [hcov, e]
  have hsize : forged.size = m.size + 8 + kid.length := by
    show 4 + m.fields.length + 2 + (encTlvs (_ :: m.tlvs)).length + m.body.length = _
    rw [encTlvs_cons, List.length_append, Tlv.enc_length]
    unfold Msg.size
    simp
    omega
  rw [Msg.enc_length] at hsz
  have hwf : forged.Wf := by
    refine ⟨hw.orig, hw.limit, hw.count, hw.seq, ?_, ?_⟩
    · intro t ht
      rcases List.mem_cons.mp ht with e | ht
      · subst e
        refine ⟨show (0 : UInt8) < 8 by decide, ?_, ?_⟩
        · intro v hv
          simp only [Option.some.injEq, Prod.mk.injEq] at hv
          rw [← hv.2]; simp; omega
        · intro v hv
          simp at hv
      · exact hw.tlvs t ht
    · rw [hsize]; unfold CAP at hsz; omega
  have hicv : icvs forged.tlvs = [⟨1, hash :: crypt :: kid.length.toUInt8 :: (kid ++ [0])⟩] := by
    show icvs (_ :: m.tlvs) = _
    unfold icvs
    rw [List.filter_cons, if_pos (by rfl), hfilter]
    rfl
  rw [hicv]
  have hkl : (⟨1, hash :: crypt :: kid.length.toUInt8 :: (kid ++ [0])⟩ : IcvTlv).kidLen = kid.length := by
    show (kid.length.toUInt8).toNat = _
    exact toNat_toUInt8 (by omega)
  have hu : (⟨1, hash :: crypt :: kid.length.toUInt8 :: (kid ++ [0])⟩ : IcvTlv).usable = true := by
    unfold IcvTlv.usable
    rw [hkl]
    simp; omega
  have hpre : pre src ⟨1, hash :: crypt :: kid.length.toUInt8 :: (kid ++ [0])⟩ = hash :: crypt :: kid.length.toUInt8 :: kid := by
    unfold pre
    rw [hkl, if_neg (show ¬ (1 : UInt8) = 2 by decide), List.nil_append, show 3 + kid.length = kid.length + 1 + 1 + 1 by omega]
    simp
  have hkid : (⟨1, hash :: crypt :: kid.length.toUInt8 :: (kid ++ [0])⟩ : IcvTlv).kid = kid := by
    unfold IcvTlv.kid
    rw [hkl]
    simp
  have hic : (⟨1, hash :: crypt :: kid.length.toUInt8 :: (kid ++ [0])⟩ : IcvTlv).icv = [0] := by
    unfold IcvTlv.icv
    rw [hkl, show 3 + kid.length = kid.length + 1 + 1 + 1 by omega]
    simp
  have hns := m.norm_size_le
  apply checkSig_single (d := m.norm.enc) hu
  · rw [hpre]; simp only [List.length_cons]; unfold CAP; omega
  · rw [removeSig_msg hwf, hnorm, if_pos]
    rw [hpre, Msg.enc_length]
    simp only [List.length_cons]
    omega
  · unfold sigStep
    rw [hkid, hic, if_neg (by simp), if_neg (by simp), if_neg (show ¬ (((1 : UInt8) == 2) ≠ false) by decide)]
    dsimp only
    rw [sharedId, if_pos rfl]
    dsimp only
    rw [C127_length_counterexample]
    intro s hs
    exact hsign _ s hs
  · rfl

/-- a small message for examples: type 1, no optional fields but hop limit 7, one TLV -/
def demo : Msg := ⟨1, 0x43, [], some 7, none, [], [⟨9, 0, none, some (false, [1, 2])⟩], [3, 4]⟩

theorem demo_wf : demo.Wf := by
  refine ⟨by decide +kernel, by decide +kernel, by decide +kernel, by decide +kernel, ?_, by decide +kernel⟩
  intro t ht
  simp only [demo, List.mem_singleton] at ht
  subst ht
  exact ⟨show (0 : UInt8) < 8 by decide, fun v hv => by simp at hv; subst hv; decide, fun v hv => by simp at hv⟩

/-- a signature function for examples: two bytes, the sum and the number of the bytes -/
def demoSign (d : Bytes) : Option Bytes := some [d.foldl (· + ·) 0, d.length.toUInt8]

example : ∀ d i, demoSign d = some i → i.length ≠ 1 := by
  intro d i h; cases h; simp

-- a correctly signed message is accepted, a wrong signature of the right length is not, a short one is
example : checkSig [] false ({ demo with tlvs := ⟨5, 0, some 1, some (false, [1, 3, 0, 46, 17])⟩ :: demo.tlvs } : Msg).enc 23 [⟨1, [1, 3, 0, 46, 17]⟩]
    [⟨1, 3, false, true, true, sharedId [], some (validateBySign demoSign)⟩] = .ok false := by decide +kernel
example : demoSign ([1, 3, 0] ++ demo.norm.enc) = some [128, 17] := by decide +kernel
example : checkSig [] false ({ demo with tlvs := ⟨5, 0, some 1, some (false, [1, 3, 0, 128, 17])⟩ :: demo.tlvs } : Msg).enc 23 [⟨1, [1, 3, 0, 128, 17]⟩]
    [⟨1, 3, false, true, true, sharedId [], some (validateBySign demoSign)⟩] = .ok true := by decide +kernel
example : checkSig [] false ({ demo with tlvs := ⟨5, 0, some 1, some (false, [1, 3, 0, 0])⟩ :: demo.tlvs } : Msg).enc 22 [⟨1, [1, 3, 0, 0]⟩]
    [⟨1, 3, false, true, true, sharedId [], some (validateBySign demoSign)⟩] = .ok true := by decide +kernel
example : demo.enc.length + ([] : Bytes).length + 3 ≤ CAP := by decide +kernel

example : (⟨0x00, [], none, demo.enc⟩ : Pkt).Wf := ⟨by decide +kernel, by decide +kernel, fun _ h => (nomatch h), by decide +kernel⟩

/-! ## C129: nothing covered can be changed -/

/-- C129: two messages with the same signed data (source, algorithms, key-id, covered part) agree in everything
but hop limit, hop count and ICV TLVs. -/
theorem C129_message {m n : Msg} (hm : m.Wf) (hn : n.Wf) {src src' kid kid' : Bytes} {h c h' c' : UInt8} (hs : src.length = src'.length)
    (hk : kid.length < 256) (hk' : kid'.length < 256)
    (e : src ++ (h :: c :: kid.length.toUInt8 :: (kid ++ m.norm.enc)) = src' ++ (h' :: c' :: kid'.length.toUInt8 :: (kid' ++ n.norm.enc))) :
    src = src' ∧ h = h' ∧ c = c' ∧ kid = kid' ∧ m.type = n.type ∧ m.flags = n.flags ∧ m.orig = n.orig ∧ m.seq = n.seq ∧
      m.tlvs.filter (fun t => t.type != 5) = n.tlvs.filter (fun t => t.type != 5) ∧ m.body = n.body ∧ m.limit.isSome = n.limit.isSome ∧ m.count.isSome = n.count.isSome := by
  obtain ⟨e1, e⟩ := append_inj_of_length e hs
  simp only [List.cons.injEq] at e
  obtain ⟨e2, e3, e4, e⟩ := e
  have hl : kid.length = kid'.length := by
    have := congrArg UInt8.toNat e4
    rwa [toNat_toUInt8 hk, toNat_toUInt8 hk'] at this
  obtain ⟨e5, e⟩ := append_inj_of_length e hl
  have e := (Msg.enc_inj (Msg.norm_wf hm) (Msg.norm_wf hn) (r := []) (q := []) (by rw [e])).1
  have g : ∀ {α : Type} (f : Msg → α), f m.norm = f n.norm := fun f => by rw [e]
  have fl : m.flags = n.flags := g Msg.flags
  refine ⟨e1, e2, e3, e5, g Msg.type, fl, g Msg.orig, g Msg.seq, g Msg.tlvs, g Msg.body, ?_, ?_⟩
  · rw [hm.limit, hn.limit, fl]
  · rw [hm.count, hn.count, fl]

/-- C129: two packets with the same covered data agree in everything but ICV TLVs (and the presence of a TLV
block without other TLVs). -/
theorem C129_packet {p q : Pkt} (hp : p.Wf) (hq : q.Wf) {src src' kid kid' : Bytes} {h c h' c' : UInt8} (hs : src.length = src'.length)
    (hk : kid.length < 256) (hk' : kid'.length < 256)
    (e : src ++ (h :: c :: kid.length.toUInt8 :: (kid ++ p.norm.enc)) = src' ++ (h' :: c' :: kid'.length.toUInt8 :: (kid' ++ q.norm.enc))) :
    src = src' ∧ h = h' ∧ c = c' ∧ kid = kid' ∧ p.first &&& 0xfb = q.first &&& 0xfb ∧ p.seq = q.seq ∧
      (p.tlvs.getD []).filter (fun t => t.type != 5) = (q.tlvs.getD []).filter (fun t => t.type != 5) ∧ p.body = q.body := by
  obtain ⟨e1, e⟩ := append_inj_of_length e hs
  simp only [List.cons.injEq] at e
  obtain ⟨e2, e3, e4, e⟩ := e
  have hl : kid.length = kid'.length := by
    have := congrArg UInt8.toNat e4
    rwa [toNat_toUInt8 hk, toNat_toUInt8 hk'] at this
  obtain ⟨e5, e⟩ := append_inj_of_length e hl
  have e := Pkt.enc_inj (Pkt.norm_wf hp) (Pkt.norm_wf hq) e
  have key : ∀ p : Pkt, p.norm.first &&& 0xfb = p.first &&& 0xfb ∧ p.norm.seq = p.seq ∧ p.norm.tlvs.getD [] = covered (p.tlvs.getD []) ∧ p.norm.body = p.body := by
    intro p
    unfold Pkt.norm
    rcases hl : p.tlvs with _ | l
    · dsimp only; rw [hl]; exact ⟨rfl, rfl, rfl, rfl⟩
    · dsimp only
      by_cases c : covered l = []
      · rw [if_pos c]
        refine ⟨?_, rfl, ?_, rfl⟩
        · have := and_fb' p.first
          exact (and_fb' (p.first &&& 0xfb)).2.2.2.1 this.1
        · show [] = covered l
          exact c.symm
      · rw [if_neg c]; exact ⟨rfl, rfl, rfl, rfl⟩
  obtain ⟨p1, p2, p3, p4⟩ := key p
  obtain ⟨q1, q2, q3, q4⟩ := key q
  refine ⟨e1, e2, e3, e5, ?_, ?_, ?_, ?_⟩
  · rw [← p1, ← q1, e]
  · rw [← p2, ← q2, e]
  · show covered _ = covered _
    rw [← p3, ← q3, e]
  · rw [← p4, ← q4, e]

end Verif.Icv
