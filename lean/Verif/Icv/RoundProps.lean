import Verif.Icv.Props

namespace Verif.Icv

/-- a signature on the receiver fits to one of the sender -/
structure Fits (s : Signer) (v : Sig) : Prop where
  hash : v.hash = s.hash
  crypt : v.crypt = s.crypt
  srcSpec : v.srcSpec = s.srcSpec
  matching : v.matching = true
  kid : v.verifyId s.kid = .okay
  kidLen : s.kid.length < 256
  validate : ∃ f, v.validate = some f ∧ ∀ d i, s.sign d = some i → f i d = true
  nonempty : ∀ d i, s.sign d = some i → i ≠ []
  size : s.signSize ≤ 60000

theorem covered_self {l : List Tlv} (h : ∀ t ∈ l, t.type ≠ 5) : covered l = l := by
  unfold covered
  rw [List.filter_eq_self]
  intro t ht
  simp [h t ht]

theorem no_icvs {l : List Tlv} (h : ∀ t ∈ l, t.type ≠ 5) : l.filter (fun t => t.type == 5) = [] := by
  rw [List.filter_eq_nil_iff]
  intro t ht
  simp [h t ht]

theorem icvs_icvT (s : Signer) (icv : Bytes) {l : List Tlv} (h : ∀ t ∈ l, t.type ≠ 5) :
    icvs (icvT s icv :: l) = [⟨if s.srcSpec then 2 else 1, icvValue s icv⟩] := by
  unfold icvs
  rw [List.filter_cons, if_pos (by rfl), no_icvs h]
  rfl

/-- the check of a signature with the value which was added -/
theorem check_added {s : Signer} {v : Sig} (hf : Fits s v) {src icv d : Bytes} {pkt : Bool} {mem : Bytes} {size : Nat} (hn : icv ≠ [])
    (hs : s.sign (signPre s src ++ d) = some icv) (hc : (signPre s src).length ≤ CAP)
    (hr : removeSig (CAP - (signPre s src).length) pkt mem size = .ok d) :
    checkSig src pkt mem size [⟨if s.srcSpec then 2 else 1, icvValue s icv⟩] [v] = .ok true := by
  have hkl : ∀ e, (⟨e, icvValue s icv⟩ : IcvTlv).kidLen = s.kid.length := fun e => toNat_toUInt8 hf.kidLen
  have hkid : ∀ e, (⟨e, icvValue s icv⟩ : IcvTlv).kid = s.kid := by
    intro e
    unfold IcvTlv.kid
    rw [hkl]
    simp [icvValue]
  have hic : ∀ e, (⟨e, icvValue s icv⟩ : IcvTlv).icv = icv := by
    intro e
    unfold IcvTlv.icv
    rw [hkl, show 3 + s.kid.length = s.kid.length + 1 + 1 + 1 by omega]
    simp [icvValue]
  have hpos : 0 < icv.length := List.length_pos_iff.mpr hn
  have hu : (⟨if s.srcSpec then 2 else 1, icvValue s icv⟩ : IcvTlv).usable = true := by
    unfold IcvTlv.usable
    rw [hkl]
    simp only [icvValue, List.length_cons, List.length_append, Bool.and_eq_true, decide_eq_true_eq]
    refine ⟨⟨?_, by omega⟩, by omega⟩
    cases s.srcSpec <;> rfl
  have hpre : pre src ⟨if s.srcSpec then 2 else 1, icvValue s icv⟩ = signPre s src := by
    unfold pre signPre
    rw [hkl, show 3 + s.kid.length = s.kid.length + 1 + 1 + 1 by omega]
    cases s.srcSpec <;> simp [icvValue]
  apply checkSig_single (d := d) hu
  · rw [hpre]; exact hc
  · rw [hpre]; exact hr
  · obtain ⟨f, hv, hval⟩ := hf.validate
    unfold sigStep
    rw [hkid, hic, hpre, if_neg, if_neg (by rw [hf.matching]; decide), if_neg]
    · rw [hf.kid]
      dsimp only
      rw [hv]
      dsimp only
      rw [hval _ _ hs]
    · rw [hf.srcSpec]
      show ¬ (((if s.srcSpec then (2 : UInt8) else 1) == 2) ≠ s.srcSpec)
      cases s.srcSpec <;> decide
    · rw [hf.hash, hf.crypt]; exact fun h => h ⟨rfl, rfl⟩
  · exact hf.matching

/-! ## C128: what is signed is accepted -/

/-- C128: a message without ICV TLVs gets one ICV TLV in front of its TLVs and is otherwise unchanged; a receiver
with a fitting signature accepts it from the same source, with any change of hop limit and hop count on the
way and anything behind it in the packet. -/
theorem C128_message {s : Signer} {v : Sig} (hf : Fits s v) {src : Bytes} {m : Msg} (hw : m.Wf) (hn : ∀ t ∈ m.tlvs, t.type ≠ 5) {d : Bytes}
    (h : addSig s src false m.enc = .ok (some d)) :
    ∃ t : Tlv, t.type = 5 ∧ t.Wf ∧ d = ({ m with tlvs := t :: m.tlvs } : Msg).enc ∧
      ∀ (limit count : Option UInt8) (tail : Bytes), limit.isSome = m.limit.isSome → count.isSome = m.count.isSome →
        let r : Msg := { m with limit := limit, count := count, tlvs := t :: m.tlvs }
        checkSig src false (r.enc ++ tail) r.enc.length (icvs r.tlvs) [v] = .ok true := by
  unfold addSig at h
  dsimp only at h
  by_cases hc : CAP < (signPre s src).length + m.enc.length
  · rw [if_pos hc] at h; cases h
  rw [if_neg hc, zero_msg hw] at h
  rcases hs : s.sign (signPre s src ++ m.zero.enc) with _ | icv
  · rw [hs] at h; cases h
  rw [hs] at h
  dsimp only at h
  by_cases hsz : s.signSize < icv.length
  · rw [if_pos hsz] at h; cases h
  rw [if_neg hsz] at h
  injection h with h
  injection h with h
  have hvl : (icvValue s icv).length = 3 + s.kid.length + icv.length := by simp [icvValue]; omega
  have hkl := hf.kidLen
  have hss := hf.size
  have hwt : (icvT s icv).Wf := icvT_wf (by omega)
  refine ⟨icvT s icv, rfl, hwt, ?_, ?_⟩
  · rw [← h, ← icvT_enc, insertIcv_msg hw]
  · intro limit count tail hl hcn r
    have htl : (icvT s icv).enc.length ≤ 8 + s.kid.length + icv.length := by
      rw [icvT_enc, icvTlv_length]
      split <;> omega
    have hms : m.size = 4 + m.fields.length + 2 + (encTlvs m.tlvs).length + m.body.length := rfl
    have hrf : r.fields.length = m.fields.length := by
      simp only [r, Msg.fields, List.length_append, toList_length, hl, hcn]
    have hrs : r.size = 4 + m.fields.length + 2 + ((icvT s icv).enc.length + (encTlvs m.tlvs).length) + m.body.length := by
      show 4 + r.fields.length + 2 + (encTlvs (icvT s icv :: m.tlvs)).length + m.body.length = _
      rw [encTlvs_cons, List.length_append, hrf]
    rw [Msg.enc_length] at hc
    have hwr : r.Wf := by
      refine ⟨hw.orig, ?_, ?_, hw.seq, ?_, ?_⟩
      · show limit.isSome = _; rw [hl]; exact hw.limit
      · show count.isSome = _; rw [hcn]; exact hw.count
      · intro t ht
        rcases List.mem_cons.mp ht with e | ht
        · rw [e]; exact hwt
        · exact hw.tlvs t ht
      · rw [hrs]; unfold CAP at hc; omega
    have hrn : r.norm = m.zero := by
      have hl' : limit.map (fun _ => (0 : UInt8)) = m.limit.map (fun _ => 0) := by
        revert hl; rcases limit with _ | a <;> rcases m.limit with _ | b <;> simp
      have hc' : count.map (fun _ => (0 : UInt8)) = m.count.map (fun _ => 0) := by
        revert hcn; rcases count with _ | a <;> rcases m.count with _ | b <;> simp
      have ht : covered (icvT s icv :: m.tlvs) = m.tlvs := by rw [covered_cons, if_pos (show (icvT s icv).type = 5 from rfl), covered_self hn]
      simp only [Msg.norm, Msg.zero, r, hl', hc', ht]
    show checkSig _ _ _ _ (icvs (icvT s icv :: m.tlvs)) _ = _
    rw [icvs_icvT s icv hn]
    have hzs : m.zero.enc.length = m.size := by
      rw [Msg.enc_length]
      unfold Msg.size
      have : m.zero.fields.length = m.fields.length := by simp [Msg.zero, Msg.fields, toList_length]
      rw [this]; rfl
    apply check_added hf (d := m.zero.enc) (hf.nonempty _ _ hs) hs
    · omega
    · rw [removeSig_msg hwr, hrn, if_pos (by rw [hzs]; omega)]

/-- C128: the same for packets: the ICV TLV becomes the first packet TLV, in a new TLV block if there was none. -/
theorem C128_packet {s : Signer} {v : Sig} (hf : Fits s v) {src : Bytes} {p : Pkt} (hw : p.Wf) (hn : ∀ t ∈ p.tlvs.getD [], t.type ≠ 5)
    (hb : p.tlvs ≠ some []) {d : Bytes} (h : addSig s src true p.enc = .ok (some d)) :
    ∃ t : Tlv, t.type = 5 ∧ t.Wf ∧ d = ({ p with first := p.first ||| 0x04, tlvs := some (t :: p.tlvs.getD []) } : Pkt).enc ∧
      checkPacket src d (icvs (t :: p.tlvs.getD [])) [v] = .ok true := by
  unfold addSig at h
  dsimp only at h
  by_cases hc : CAP < (signPre s src).length + p.enc.length
  · rw [if_pos hc] at h; cases h
  have lay := layout_pkt hw []
  rw [List.append_nil] at lay
  rw [if_neg hc, lay] at h
  dsimp only [zeroAt] at h
  rcases hs : s.sign (signPre s src ++ p.enc) with _ | icv
  · rw [hs] at h; cases h
  rw [hs] at h
  dsimp only at h
  by_cases hsz : s.signSize < icv.length
  · rw [if_pos hsz] at h; cases h
  rw [if_neg hsz] at h
  injection h with h
  injection h with h
  have hvl : (icvValue s icv).length = 3 + s.kid.length + icv.length := by simp [icvValue]; omega
  have hkl := hf.kidLen
  have hss := hf.size
  have hwt : (icvT s icv).Wf := icvT_wf (by omega)
  rw [← icvT_enc, insertIcv_pkt hw] at h
  refine ⟨icvT s icv, rfl, hwt, h.symm, ?_⟩
  have htl : (icvT s icv).enc.length ≤ 8 + s.kid.length + icv.length := by
    rw [icvT_enc, icvTlv_length]
    split <;> omega
  have hel : (p.addTlv (icvT s icv)).enc.length ≤ p.enc.length + 2 + (icvT s icv).enc.length := by
    unfold Pkt.addTlv Pkt.enc
    rcases hl : p.tlvs with _ | l
    · simp [be16, encTlvs]; omega
    · simp [be16, encTlvs_cons]; omega
  have hwr : (p.addTlv (icvT s icv)).Wf := by
    refine ⟨?_, ?_, ?_, ?_⟩
    · show p.seq.length = if (p.first ||| 0x04) &&& 0x08 ≠ 0 then 2 else 0
      rw [(and_fb' p.first).2.2.2.2.2.1]; exact hw.seq
    · show true = decide ((p.first ||| 0x04) &&& 0x04 ≠ 0)
      exact (decide_eq_true (and_fb' p.first).2.2.2.2.1).symm
    · intro l hl t ht
      simp only [Pkt.addTlv, Option.some.injEq] at hl
      rw [← hl] at ht
      rcases List.mem_cons.mp ht with e | ht
      · rw [e]; exact hwt
      · rcases hp : p.tlvs with _ | k
        · rw [hp] at ht; cases ht
        · rw [hp] at ht; exact hw.tlvs k hp t ht
    · unfold CAP at hc; omega
  have hnorm : (p.addTlv (icvT s icv)).norm = p := by
    have hbl := hw.block
    unfold Pkt.norm Pkt.addTlv
    dsimp only
    rcases hp : p.tlvs with _ | l
    · rw [hp] at hbl
      have h4 : p.first &&& 0x04 = 0 := by simpa using hbl
      have : covered (icvT s icv :: (none : Option (List Tlv)).getD []) = [] := by rw [covered_cons, if_pos (show (icvT s icv).type = 5 from rfl)]; rfl
      rw [if_pos this, (and_fb' p.first).2.2.2.2.2.2 h4, ← hp]
    · rw [hp] at hbl hn
      have h4 : p.first &&& 0x04 ≠ 0 := by simpa using hbl
      have hcov : covered (icvT s icv :: (some l).getD []) = l := by rw [covered_cons, if_pos (show (icvT s icv).type = 5 from rfl)]; exact covered_self hn
      have hne : l ≠ [] := by
        intro e; rw [e] at hp; exact hb hp
      rw [hcov, if_neg hne, or_four _ h4, ← hp]
  have hh : (p.addTlv (icvT s icv)).enc.headD 0 &&& 0x04 ≠ 0 := (and_fb' p.first).2.2.2.2.1
  rw [← h]
  unfold checkPacket
  rw [if_pos hh, icvs_icvT s icv hn]
  apply check_added hf (d := p.enc) (hf.nonempty _ _ hs) hs
  · omega
  · rw [removeSig_pkt hwr rfl, hnorm, if_pos (by omega)]

theorem demoSign_valid (d i : Bytes) (h : demoSign d = some i) : validateBySign demoSign i d = true := by
  unfold validateBySign
  rw [h]
  simp

example : Fits ⟨1, 3, false, [65], demoSign, 2⟩ ⟨1, 3, false, true, true, sharedId [65], some (validateBySign demoSign)⟩ := by
  refine ⟨rfl, rfl, rfl, rfl, by decide +kernel, by decide, ⟨_, rfl, ?_⟩, ?_, by decide⟩
  · intro d i h; exact demoSign_valid d i h
  · intro d i h; cases h; simp

example : addSig ⟨1, 3, false, [65], demoSign, 2⟩ [] false demo.enc = .ok (some [1, 67, 0, 24, 7, 0, 15, 5, 144, 1, 6, 1, 3, 1, 65, 194, 18, 9, 16, 2, 1, 2, 3, 4]) := by decide +kernel
example : addSig ⟨1, 3, false, [65], demoSign, 2⟩ [] true (0 :: demo.enc) = .ok (some ([4, 0, 10, 5, 144, 1, 6, 1, 3, 1, 65, 201, 19] ++ demo.enc)) := by decide +kernel

/-- C128 fails for two signatures: the second one signs the ICV TLV of the first one, but the receiver removes
both before it checks; a message with both signatures is dropped by the receiver with the same two
signatures. -/
theorem C128_two_signatures_counterexample : ∃ (a b : Signer) (va vb : Sig) (m : Msg) (d e : Bytes) (tlvs : List IcvTlv), Fits a va ∧ Fits b vb ∧ m.Wf ∧
    addSig a [] false m.enc = .ok (some d) ∧ addSig b [] false d = .ok (some e) ∧
    checkSig [] false e e.length tlvs [va, vb] = .ok false ∧ tlvs = [⟨1, [2, 3, 0, 195, 26]⟩, ⟨1, [1, 3, 0, 128, 17]⟩] ∧
    e = ({ m with tlvs := [⟨5, 0, some 1, some (false, [2, 3, 0, 195, 26])⟩, ⟨5, 0, some 1, some (false, [1, 3, 0, 128, 17])⟩] ++ m.tlvs } : Msg).enc := by
  refine ⟨⟨1, 3, false, [], demoSign, 2⟩, ⟨2, 3, false, [], demoSign, 2⟩, ⟨1, 3, false, true, true, sharedId [], some (validateBySign demoSign)⟩,
    ⟨2, 3, false, true, true, sharedId [], some (validateBySign demoSign)⟩, demo, _, _, _, ?_, ?_, demo_wf, rfl, rfl, ?_, rfl, ?_⟩
  · refine ⟨rfl, rfl, rfl, rfl, by decide +kernel, by decide, ⟨_, rfl, ?_⟩, ?_, by decide⟩
    · intro d i h; exact demoSign_valid d i h
    · intro d i h; cases h; simp
  · refine ⟨rfl, rfl, rfl, rfl, by decide +kernel, by decide, ⟨_, rfl, ?_⟩, ?_, by decide⟩
    · intro d i h; exact demoSign_valid d i h
    · intro d i h; cases h; simp
  · decide +kernel
  · decide +kernel

/-- C128 fails for two shared keys with the same algorithms and different key-ids: every message signed with one
of them is dropped, because the other one rejects its key-id. -/
theorem C128_two_ids_counterexample (va vb : Sig) (ida idb : Bytes) (ha : va.verifyId = sharedId ida) (hb : vb.verifyId = sharedId idb) (hne : ida ≠ idb)
    (hkey : va.hash = vb.hash ∧ va.crypt = vb.crypt ∧ va.srcSpec = vb.srcSpec) (hm : va.matching = true ∧ vb.matching = true)
    (src data : Bytes) (t : IcvTlv) (hu : t.usable = true) (hk : va.hash = t.value.getD 0 0 ∧ va.crypt = t.value.getD 1 0 ∧ (t.ext == 2) = va.srcSpec)
    (va' : va.validate.isSome = true) (st : Bool × Bool) :
    sigLoop t (pre src t ++ data) [(va, st.1), (vb, st.2)] = .ok none := by
  obtain ⟨fa, hfa⟩ := Option.isSome_iff_exists.mp va'
  have _ := hu
  by_cases h1 : t.kid = ida
  · have h2 : ¬ t.kid = idb := fun h => hne (h1.symm.trans h)
    have sa : ∃ x, sigStep t (pre src t ++ data) va st.1 = .ok (some x) := by
      unfold sigStep
      rw [if_neg (fun h => h ⟨hk.1, hk.2.1⟩), if_neg (by rw [hm.1]; decide), if_neg (fun h => h hk.2.2), ha]
      unfold sharedId
      rw [if_pos h1]
      dsimp only
      rw [hfa]
      exact ⟨_, rfl⟩
    have sb : sigStep t (pre src t ++ data) vb st.2 = .ok none := by
      unfold sigStep
      rw [if_neg (fun h => h ⟨hkey.1 ▸ hk.1, hkey.2.1 ▸ hk.2.1⟩), if_neg (by rw [hm.2]; decide), if_neg (fun h => h (hkey.2.2 ▸ hk.2.2)), hb]
      unfold sharedId
      rw [if_neg h2]
    obtain ⟨x, sa⟩ := sa
    rw [sigLoop, sa]
    dsimp only
    rw [sigLoop, sb]
  · have sa : sigStep t (pre src t ++ data) va st.1 = .ok none := by
      unfold sigStep
      rw [if_neg (fun h => h ⟨hk.1, hk.2.1⟩), if_neg (by rw [hm.1]; decide), if_neg (fun h => h hk.2.2), ha]
      unfold sharedId
      rw [if_neg h1]
    rw [sigLoop, sa]

/-- C128 fails with a second ICV TLV: a message with a valid signature is dropped if an invalid one follows. -/
theorem C128_later_counterexample : ∃ (v : Sig) (m : Msg), m.Wf ∧
    checkSig [] false m.enc m.enc.length (icvs m.tlvs.tail) [v] = .ok false ∧
    checkSig [] false m.enc m.enc.length ((icvs m.tlvs).take 1) [v] = .ok true ∧ checkSig [] false m.enc m.enc.length (icvs m.tlvs) [v] = .ok false := by
  refine ⟨⟨1, 3, false, true, true, sharedId [], some (validateBySign demoSign)⟩,
    { demo with tlvs := ⟨5, 0, some 1, some (false, [1, 3, 0, 128, 17])⟩ :: ⟨5, 0, some 1, some (false, [1, 3, 0, 127, 17])⟩ :: demo.tlvs }, ?_, ?_, ?_, ?_⟩
  · refine ⟨by decide +kernel, by decide +kernel, by decide +kernel, by decide +kernel, ?_, by decide +kernel⟩
    intro t ht
    simp only [List.mem_cons] at ht
    rcases ht with e | e | ht
    · subst e
      exact ⟨show (0 : UInt8) < 8 by decide, fun v hv => by simp at hv; subst hv; decide, fun v hv => by simp at hv⟩
    · subst e
      exact ⟨show (0 : UInt8) < 8 by decide, fun v hv => by simp at hv; subst hv; decide, fun v hv => by simp at hv⟩
    · exact demo_wf.tlvs t ht
  all_goals decide +kernel

end Verif.Icv
