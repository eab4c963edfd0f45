import Verif.Icv.RoundProps

namespace Verif.Icv

/-! ## C130: the check stays within its memory -/

theorem sigLoop_ok {t : IcvTlv} {data : Bytes} : ∀ {st : List (Sig × Bool)}, (∀ p ∈ st, p.1.validate.isSome = true) →
    ∃ r, sigLoop t data st = .ok r ∧ ∀ l, r = some l → ∀ p ∈ l, p.1.validate.isSome = true
  | [], _ => ⟨_, rfl, fun l h p hp => by cases h; cases hp⟩
  | (s, v) :: l, h => by
    have hs : ∃ r, sigStep t data s v = .ok r := by
      obtain ⟨f, hf⟩ := Option.isSome_iff_exists.mp (h _ List.mem_cons_self)
      unfold sigStep
      dsimp only at hf
      rw [hf]
      split
      · exact ⟨_, rfl⟩
      · split
        · exact ⟨_, rfl⟩
        · split
          · exact ⟨_, rfl⟩
          · split <;> exact ⟨_, rfl⟩
    obtain ⟨r, hs⟩ := hs
    obtain ⟨r', hl, hv⟩ := sigLoop_ok (t := t) (data := data) (fun p hp => h p (List.mem_cons_of_mem _ hp))
    rw [sigLoop, hs]
    rcases r with _ | v'
    · exact ⟨_, rfl, fun l h => nomatch h⟩
    dsimp only
    rw [hl]
    rcases r' with _ | l'
    · exact ⟨_, rfl, fun l h => nomatch h⟩
    refine ⟨_, rfl, ?_⟩
    intro k hk p hp
    cases hk
    rcases List.mem_cons.mp hp with e | hp
    · rw [e]; exact h (s, v) List.mem_cons_self
    · exact hv l' rfl p hp

theorem tlvLoop_ok {src : Bytes} {pkt : Bool} {mem : Bytes} {size : Nat} : ∀ {tlvs : List IcvTlv} {st : List (Sig × Bool)},
    (∀ t ∈ tlvs, t.usable = true → (pre src t).length ≤ CAP ∧ ∃ d, removeSig (CAP - (pre src t).length) pkt mem size = .ok d) →
    (∀ p ∈ st, p.1.validate.isSome = true) → ∃ r, tlvLoop src pkt mem size tlvs st = .ok r
  | [], _, _, _ => ⟨_, rfl⟩
  | t :: ts, st, h, hs => by
    rw [tlvLoop]
    by_cases hu : t.usable = false
    · rw [if_pos hu]
      exact tlvLoop_ok (fun t ht => h t (List.mem_cons_of_mem _ ht)) hs
    rw [if_neg hu]
    obtain ⟨h1, d, h2⟩ := h t List.mem_cons_self (by simpa using hu)
    rw [if_neg (by omega), h2]
    dsimp only
    obtain ⟨r, hl, hv⟩ := sigLoop_ok (t := t) (data := pre src t ++ d) hs
    rw [hl]
    rcases r with _ | st'
    · exact ⟨_, rfl⟩
    · exact tlvLoop_ok (fun t ht => h t (List.mem_cons_of_mem _ ht)) (hv st' rfl)

theorem checkSig_ok {src : Bytes} {pkt : Bool} {mem : Bytes} {size : Nat} {tlvs : List IcvTlv} {sigs : List Sig}
    (h : ∀ t ∈ tlvs, t.usable = true → (pre src t).length ≤ CAP ∧ ∃ d, removeSig (CAP - (pre src t).length) pkt mem size = .ok d)
    (hs : ∀ s ∈ sigs, s.validate.isSome = true) : ∃ b, checkSig src pkt mem size tlvs sigs = .ok b := by
  unfold checkSig
  by_cases ha : sigs.any (fun s => s.matching) = false
  · rw [if_pos ha]; exact ⟨_, rfl⟩
  rw [if_neg ha]
  obtain ⟨r, hr⟩ := tlvLoop_ok (src := src) (pkt := pkt) (mem := mem) (size := size) (st := sigs.map (fun s => (s, false))) h (by
    intro p hp
    obtain ⟨s, hs', rfl⟩ := List.mem_map.mp hp
    exact hs s hs')
  rw [hr]
  rcases r with _ | st <;> exact ⟨_, rfl⟩

theorem pre_length {src : Bytes} {t : IcvTlv} (hu : t.usable = true) : (pre src t).length = (if t.ext = 2 then src.length else 0) + 3 + t.kidLen := by
  obtain ⟨he, a, b, kid, icv, hv, hk, hi, h1, h2, h3, h4, _⟩ := usable_spec hu
  unfold pre
  rw [h4, h3]
  by_cases c : t.ext = 2 <;> simp [c] <;> omega

/-- C130: with TLVs without index fields, with all algorithms loaded and if source address, key-id and covered data
fit into 1472 bytes, the check neither leaves the message, nor its buffer, nor uses a null pointer, nor loops
for ever. -/
theorem C130_safe_partial {src : Bytes} {m : Msg} (hw : m.Wf) (tail : Bytes) (tlvs : List IcvTlv) (sigs : List Sig)
    (hs : ∀ s ∈ sigs, s.validate.isSome = true) (hfit : ∀ t ∈ tlvs, src.length + 3 + t.kidLen + m.norm.enc.length ≤ 1472) :
    ∃ b, checkSig src false (m.enc ++ tail) m.enc.length tlvs sigs = .ok b := by
  apply checkSig_ok _ hs
  intro t ht hu
  have h := hfit t ht
  have hp := pre_length (src := src) hu
  have hp' : (pre src t).length ≤ src.length + 3 + t.kidLen := by rw [hp]; split <;> omega
  refine ⟨by unfold CAP; omega, ?_⟩
  rw [removeSig_msg hw, if_pos (by unfold CAP; omega)]
  exact ⟨_, rfl⟩

/-- C130: the same for packets. -/
theorem C130_safe_packet_partial {src : Bytes} {p : Pkt} (hw : p.Wf) (tlvs : List IcvTlv) (sigs : List Sig)
    (hs : ∀ s ∈ sigs, s.validate.isSome = true) (hfit : ∀ t ∈ tlvs, src.length + 3 + t.kidLen + p.norm.enc.length ≤ 1472) :
    ∃ b, checkPacket src p.enc tlvs sigs = .ok b := by
  rcases hl : p.tlvs with _ | l
  · exact ⟨_, C127_no_block_counterexample src p hw hl tlvs sigs⟩
  unfold checkPacket
  split
  · apply checkSig_ok _ hs
    intro t ht hu
    have h := hfit t ht
    have hp := pre_length (src := src) hu
    have hp' : (pre src t).length ≤ src.length + 3 + t.kidLen := by rw [hp]; split <;> omega
    refine ⟨by unfold CAP; omega, ?_⟩
    rw [removeSig_pkt hw hl, if_pos (by unfold CAP; omega)]
    exact ⟨_, rfl⟩
  · exact ⟨_, rfl⟩

example : ∃ b, checkSig [10, 0, 0, 1] false (demo.enc ++ [1, 2]) demo.enc.length [⟨2, [1, 3, 0, 9, 9]⟩] [⟨1, 3, true, true, true, sharedId [], some (validateBySign demoSign)⟩] = .ok b :=
  C130_safe_partial demo_wf _ _ _ (by intro s hs; simp at hs; subst hs; rfl) (by intro t ht; simp at ht; subst ht; decide +kernel)

/-- a message with a body of `n` zero bytes and an ICV TLV -/
def big (n : Nat) : Msg := ⟨1, 0x0f, [], none, none, [], [⟨5, 0, some 2, some (false, [1, 3, 0, 0])⟩], List.replicate n 0⟩

theorem big_wf {n : Nat} (h : n ≤ 1458) : (big n).Wf := by
  refine ⟨by decide +kernel +revert, by decide +kernel +revert, by decide +kernel +revert, by decide +kernel +revert, ?_, ?_⟩
  · intro t ht
    simp only [big, List.mem_singleton] at ht
    subst ht
    exact ⟨show (0 : UInt8) < 8 by decide, fun v hv => by simp at hv; subst hv; decide, fun v hv => by simp at hv⟩
  · have : (big n).size = 14 + n := by
      simp [Msg.size, big, Msg.fields, encTlvs, Tlv.enc]
    omega

theorem big_size (n : Nat) : (big n).enc.length = 14 + n := by
  rw [Msg.enc_length]; simp [Msg.size, big, Msg.fields, encTlvs, Tlv.enc]

theorem big_norm_size (n : Nat) : (big n).norm.enc.length = 6 + n := by
  rw [Msg.enc_length]; simp [Msg.size, big, Msg.norm, covered, Msg.fields, encTlvs]

/-- C130 fails for large messages: with a signature including an IPv6 source address the buffer is overrun by a
message which fits into a packet. -/
theorem C130_overflow_counterexample (src : Bytes) (h16 : src.length = 16) (v : Sig) (hm : v.matching = true) (tail : Bytes) :
    ∃ m : Msg, m.Wf ∧ m.enc.length ≤ 1472 ∧ checkSig src false (m.enc ++ tail) m.enc.length (icvs m.tlvs) [v] = .write := by
  refine ⟨big 1458, big_wf (Nat.le_refl _), by rw [big_size]; decide, ?_⟩
  have hi : icvs (big 1458).tlvs = [⟨2, [1, 3, 0, 0]⟩] := rfl
  rw [hi]
  have hp : (pre src ⟨2, [1, 3, 0, 0]⟩).length = 19 := by
    rw [pre_length (by decide)]; simp [IcvTlv.kidLen, h16]
  have hn : (big 1458).norm.enc.length = 1464 := big_norm_size 1458
  unfold checkSig
  rw [if_neg (by simp [hm])]
  simp only [List.map_cons, List.map_nil, tlvLoop]
  rw [if_neg (by decide), hp, if_neg (by decide), removeSig_msg (big_wf (Nat.le_refl _)), hn, if_neg (by decide)]

/-- C130 fails for TLVs with index fields: the reader accepts them in front of the signature, but the check
misreads them — here it never ends — before anything has been authenticated. -/
theorem C130_hang_counterexample : ∃ (mem : Bytes) (p : Reader.Msg) (k : Nat), Reader.parseMessage (fun _ => true) 0 mem = .ok (p, k) ∧
    (p.tlvs.filter (fun t => t.type == 5)).map (fun t => (⟨t.ext, t.value⟩ : IcvTlv)) = [⟨1, [1, 3, 0, 0]⟩] ∧
    ∀ (src : Bytes) (v : Sig), v.matching = true → checkSig src false mem mem.length [⟨1, [1, 3, 0, 0]⟩] [v] = .hang := by
  refine ⟨[1, 0x03, 0, 21, 0, 15, 9, 0xb8, 0, 255, 251, 0, 0, 5, 0x90, 1, 4, 1, 3, 0, 0], _, _, rfl, by decide +kernel, ?_⟩
  intro src v hm
  have hp : (pre src ⟨1, [1, 3, 0, 0]⟩).length = 3 := by rw [pre_length (by decide)]; rfl
  have hr : removeSig (CAP - 3) false [1, 0x03, 0, 21, 0, 15, 9, 0xb8, 0, 255, 251, 0, 0, 5, 0x90, 1, 4, 1, 3, 0, 0] 21 = .hang := by decide +kernel
  unfold checkSig
  rw [if_neg (by simp [hm])]
  simp only [List.map_cons, List.map_nil, tlvLoop]
  rw [if_neg (by decide), hp, if_neg (by decide)]
  simp only [List.length_cons, List.length_nil, Nat.zero_add, Nat.reduceAdd, hr]

/-- C130 fails for TLVs with index fields: another message lets the check read behind the end of the packet. -/
theorem C130_read_counterexample : ∃ (mem : Bytes) (p : Reader.Msg) (k : Nat), Reader.parseMessage (fun _ => true) 0 mem = .ok (p, k) ∧
    (p.tlvs.filter (fun t => t.type == 5)).map (fun t => (⟨t.ext, t.value⟩ : IcvTlv)) = [⟨1, [1, 3, 0, 0]⟩] ∧
    ∀ (src : Bytes) (v : Sig), v.matching = true → checkSig src false mem mem.length [⟨1, [1, 3, 0, 0]⟩] [v] = .read := by
  refine ⟨[1, 0x03, 0, 18, 0, 12, 9, 0x50, 200, 0, 5, 0x90, 1, 4, 1, 3, 0, 0], _, _, rfl, by decide +kernel, ?_⟩
  intro src v hm
  have hp : (pre src ⟨1, [1, 3, 0, 0]⟩).length = 3 := by rw [pre_length (by decide)]; rfl
  have hr : removeSig (CAP - 3) false [1, 0x03, 0, 18, 0, 12, 9, 0x50, 200, 0, 5, 0x90, 1, 4, 1, 3, 0, 0] 18 = .read := by decide +kernel
  unfold checkSig
  rw [if_neg (by simp [hm])]
  simp only [List.map_cons, List.map_nil, tlvLoop]
  rw [if_neg (by decide), hp, if_neg (by decide)]
  simp only [List.length_cons, List.length_nil, Nat.zero_add, Nat.reduceAdd, hr]

/-- C130 fails if an algorithm of a signature is not loaded: every ICV TLV with its algorithms (and an accepted
key-id) leads to the use of a null pointer. -/
theorem C130_null_counterexample (v : Sig) (hm : v.matching = true) (hv : v.validate = none) (hid : v.verifyId [] = .okay) (src : Bytes) (hs : src.length ≤ 16)
    (m : Msg) (hw : m.Wf) (hsz : m.enc.length ≤ 1400) :
    checkSig src false m.enc m.enc.length [⟨if v.srcSpec then 2 else 1, [v.hash, v.crypt, 0, 0]⟩] [v] = .null := by
  generalize ht : (⟨if v.srcSpec then 2 else 1, [v.hash, v.crypt, 0, 0]⟩ : IcvTlv) = t
  have hk : t.kidLen = 0 := by rw [← ht]; rfl
  have hu : t.usable = true := by
    rw [← ht]
    unfold IcvTlv.usable
    cases v.srcSpec <;> simp [IcvTlv.kidLen]
  have hp : (pre src t).length ≤ 19 := by
    rw [pre_length hu, hk]
    split <;> omega
  have hns := m.norm_size_le
  rw [← Msg.enc_length, ← Msg.enc_length] at hns
  have hr := removeSig_msg hw (CAP - (pre src t).length) []
  rw [List.append_nil, if_pos (by unfold CAP; omega)] at hr
  have hs : ∀ d, sigStep t d v false = .null := by
    intro d
    rw [← ht]
    unfold sigStep
    rw [if_neg (fun h => h ⟨rfl, rfl⟩), if_neg (by rw [hm]; decide), if_neg]
    · rw [show (⟨if v.srcSpec then 2 else 1, [v.hash, v.crypt, 0, 0]⟩ : IcvTlv).kid = [] from rfl, hid]
      dsimp only
      rw [hv]
    · show ¬ (((if v.srcSpec then (2 : UInt8) else 1) == 2) ≠ v.srcSpec)
      cases v.srcSpec <;> decide
  unfold checkSig
  rw [if_neg (by simp [hm])]
  simp only [List.map_cons, List.map_nil, tlvLoop]
  rw [if_neg (by rw [hu]; decide), if_neg (by unfold CAP; omega), hr]
  simp only [sigLoop, hs]

/-! ## C131: the space of a signature -/

/-- C131: a signature enlarges a message by exactly the signature, the key-id and 7 bytes (8 if the value has
more than 255 bytes). -/
theorem C131_growth_partial {s : Signer} {src : Bytes} {m : Msg} (hw : m.Wf) {d : Bytes} (h : addSig s src false m.enc = .ok (some d)) :
    ∃ icv : Bytes, icv.length ≤ s.signSize ∧ d.length = m.enc.length + icv.length + s.kid.length + (if 255 < 3 + s.kid.length + icv.length then 8 else 7) := by
  unfold addSig at h
  dsimp only at h
  split at h
  · cases h
  split at h
  · cases h
  · next icv _ =>
    split at h
    · cases h
    · next hsz =>
      injection h with h
      injection h with h
      refine ⟨icv, by omega, ?_⟩
      rw [← h, ← icvT_enc, insertIcv_msg hw, Msg.enc_length, Msg.enc_length]
      have : ({ m with tlvs := icvT s icv :: m.tlvs } : Msg).size = m.size + (icvTlv s icv).length := by
        show 4 + m.fields.length + 2 + (encTlvs (icvT s icv :: m.tlvs)).length + m.body.length = _
        rw [encTlvs_cons, List.length_append, icvT_enc]
        unfold Msg.size
        omega
      rw [this, icvTlv_length]
      split <;> omega

/-- C131: the same for packets, with two more bytes if there was no TLV block. -/
theorem C131_growth_packet_partial {s : Signer} {src : Bytes} {p : Pkt} (hw : p.Wf) {d : Bytes} (h : addSig s src true p.enc = .ok (some d)) :
    ∃ icv : Bytes, icv.length ≤ s.signSize ∧
      d.length = p.enc.length + icv.length + s.kid.length + (if 255 < 3 + s.kid.length + icv.length then 8 else 7) + (if p.tlvs = none then 2 else 0) := by
  unfold addSig at h
  dsimp only at h
  split at h
  · cases h
  split at h
  · cases h
  · next icv _ =>
    split at h
    · cases h
    · next hsz =>
      injection h with h
      injection h with h
      refine ⟨icv, by omega, ?_⟩
      rw [← h, ← icvT_enc, insertIcv_pkt hw]
      have hl := icvTlv_length s icv
      rw [← icvT_enc] at hl
      unfold Pkt.addTlv Pkt.enc
      rcases hp : p.tlvs with _ | l
      · by_cases c : 255 < 3 + s.kid.length + icv.length
        · rw [if_pos c] at hl; simp [be16, encTlvs, hl, c]; omega
        · rw [if_neg c] at hl; simp [be16, encTlvs, hl, c]; omega
      · by_cases c : 255 < 3 + s.kid.length + icv.length
        · rw [if_pos c] at hl; simp [be16, encTlvs_cons, hl, c]; omega
        · rw [if_neg c] at hl; simp [be16, encTlvs_cons, hl, c]; omega

/-- C131 fails: the space which the writer reserves for a signature is never enough — a full message or packet
outgrows its buffer whenever the signature has the announced size. -/
theorem C131_reserved_counterexample {s : Signer} {src : Bytes} {m : Msg} (hw : m.Wf) {d : Bytes} (h : addSig s src false m.enc = .ok (some d))
    (hfull : ∀ x i, s.sign x = some i → i.length = s.signSize) : m.enc.length + reserved s + 7 ≤ d.length := by
  unfold addSig at h
  dsimp only at h
  split at h
  · cases h
  split at h
  · cases h
  · next icv hi =>
    split at h
    · cases h
    · injection h with h
      injection h with h
      have hl := hfull _ _ hi
      rw [← h, ← icvT_enc, insertIcv_msg hw, Msg.enc_length, Msg.enc_length]
      have : ({ m with tlvs := icvT s icv :: m.tlvs } : Msg).size = m.size + (icvTlv s icv).length := by
        show 4 + m.fields.length + 2 + (encTlvs (icvT s icv :: m.tlvs)).length + m.body.length = _
        rw [encTlvs_cons, List.length_append, icvT_enc]
        unfold Msg.size
        omega
      rw [this, icvTlv_length]
      unfold reserved
      omega

example : ∀ x i, demoSign x = some i → i.length = (⟨1, 3, false, [65], demoSign, 2⟩ : Signer).signSize := by
  intro x i h; cases h; rfl

end Verif.Icv
