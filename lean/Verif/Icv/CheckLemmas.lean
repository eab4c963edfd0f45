import Verif.Icv.Inject

namespace Verif.Icv

/-- a TLV vouches for a signature and data -/
def Vouches (src : Bytes) (data : Bytes) (s : Sig) (t : IcvTlv) : Prop :=
  ∃ (kid icv : Bytes) (f : Bytes → Bytes → Bool), t.value = s.hash :: s.crypt :: kid.length.toUInt8 :: (kid ++ icv) ∧ kid.length < 256 ∧ icv ≠ [] ∧
    t.ext = (if s.srcSpec then 2 else 1) ∧ s.verifyId kid = .okay ∧ s.validate = some f ∧
    f icv ((if s.srcSpec then src else []) ++ (s.hash :: s.crypt :: kid.length.toUInt8 :: (kid ++ data))) = true

theorem usable_spec {t : IcvTlv} (h : t.usable = true) :
    (t.ext = 1 ∨ t.ext = 2) ∧ ∃ a b kid icv, t.value = a :: b :: kid.length.toUInt8 :: (kid ++ icv) ∧ kid.length < 256 ∧ icv ≠ [] ∧
      t.kid = kid ∧ t.icv = icv ∧ t.kidLen = kid.length ∧ t.value.take (3 + t.kidLen) = a :: b :: kid.length.toUInt8 :: kid ∧
      t.value.getD 0 0 = a ∧ t.value.getD 1 0 = b := by
  unfold IcvTlv.usable at h
  simp only [Bool.and_eq_true, Bool.or_eq_true, beq_iff_eq, decide_eq_true_eq] at h
  obtain ⟨⟨h1, h2⟩, h3⟩ := h
  refine ⟨h1, ?_⟩
  obtain ⟨ext, value⟩ := t
  rcases value with _ | ⟨a, _ | ⟨b, _ | ⟨k, r⟩⟩⟩
  · simp at h2
  · simp at h2
  · simp at h2
  · have hk : (⟨ext, a :: b :: k :: r⟩ : IcvTlv).kidLen = k.toNat := rfl
    rw [hk] at h3
    simp only [List.length_cons] at h3
    have hlt := k.toNat_lt
    have hl : (r.take k.toNat).length = k.toNat := by rw [List.length_take]; omega
    have hku : (r.take k.toNat).length.toUInt8 = k := by rw [hl]; simp [Nat.toUInt8]
    refine ⟨a, b, r.take k.toNat, r.drop k.toNat, ?_, by omega, ?_, rfl, ?_, by rw [hl]; rfl, ?_, rfl, rfl⟩
    · rw [hku, List.take_append_drop]
    · intro hc
      have := congrArg List.length hc
      rw [List.length_drop] at this
      simp at this
      omega
    · show (a :: b :: k :: r).drop (3 + k.toNat) = r.drop k.toNat
      rw [show 3 + k.toNat = k.toNat + 1 + 1 + 1 by omega]; rfl
    · rw [hku]
      show (a :: b :: k :: r).take (3 + k.toNat) = _
      rw [show 3 + k.toNat = k.toNat + 1 + 1 + 1 by omega]; rfl

theorem sigStep_true {src : Bytes} {t : IcvTlv} {d : Bytes} {s : Sig} {v : Bool} (hu : t.usable = true)
    (h : sigStep t (pre src t ++ d) s v = .ok (some true)) : v = true ∨ Vouches src d s t := by
  obtain ⟨he, a, b, kid, icv, hv, hk, hi, h1, h2, h3, h4, h5, h6⟩ := usable_spec hu
  unfold sigStep at h
  rw [h5, h6, h1, h2] at h
  by_cases c1 : ¬ (s.hash = a ∧ s.crypt = b)
  · rw [if_pos c1] at h; cases h; exact Or.inl rfl
  rw [if_neg c1] at h
  have c1 := Decidable.not_not.mp c1
  by_cases c2 : s.matching = false
  · rw [if_pos c2] at h; cases h; exact Or.inl rfl
  rw [if_neg c2] at h
  by_cases c3 : (t.ext == 2) ≠ s.srcSpec
  · rw [if_pos c3] at h; cases h; exact Or.inl rfl
  rw [if_neg c3] at h
  have c3 := Decidable.not_not.mp c3
  rcases hid : s.verifyId kid with _ | _ | _
  · rw [hid] at h
    dsimp only at h
    rcases hf : s.validate with _ | f
    · rw [hf] at h; cases h
    · rw [hf] at h
      right
      refine ⟨kid, icv, f, by rw [c1.1, c1.2]; exact hv, hk, hi, ?_, hid, hf, ?_⟩
      · rw [← c3]
        rcases he with e | e <;> rw [e] <;> rfl
      · injection h with h
        injection h with h
        have e : (if s.srcSpec then src else []) ++ (s.hash :: s.crypt :: kid.length.toUInt8 :: (kid ++ d)) = pre src t ++ d := by
          unfold pre
          rw [h4, ← c3, c1.1, c1.2]
          rcases he with e | e <;> rw [e] <;> simp
        rw [e]; exact h
  · rw [hid] at h; cases h; exact Or.inl rfl
  · rw [hid] at h; cases h

theorem sigLoop_spec {src : Bytes} {t : IcvTlv} {d : Bytes} (hu : t.usable = true) : ∀ {st st' : List (Sig × Bool)},
    sigLoop t (pre src t ++ d) st = .ok (some st') →
      st'.map (·.1) = st.map (·.1) ∧ ∀ (P : Sig → Prop), (∀ s, (s, true) ∈ st → P s) → ∀ s, (s, true) ∈ st' → P s ∨ Vouches src d s t
  | [], st', h => by
    simp only [sigLoop, Out.ok.injEq, Option.some.injEq] at h
    subst h
    exact ⟨rfl, fun _ _ s hs => nomatch hs⟩
  | (s, v) :: l, st', h => by
    rw [sigLoop] at h
    rcases hs : sigStep t (pre src t ++ d) s v with (_ | v') | _ | _ | _ | _ <;> rw [hs] at h <;> try (cases h; done)
    dsimp only at h
    rcases hl : sigLoop t (pre src t ++ d) l with (_ | l') | _ | _ | _ | _ <;> rw [hl] at h <;> try (cases h; done)
    injection h with h
    injection h with h
    subst h
    obtain ⟨i1, i2⟩ := sigLoop_spec hu hl
    refine ⟨by simp [i1], ?_⟩
    intro P hP u hm
    rcases List.mem_cons.mp hm with e | hm
    · injection e with e1 e2
      subst e1
      rw [← e2] at hs
      rcases sigStep_true hu hs with e | e
      · left; exact hP _ (by rw [e]; exact List.mem_cons_self)
      · exact Or.inr e
    · exact i2 P (fun x hx => hP x (List.mem_cons_of_mem _ hx)) u hm

theorem tlvLoop_spec {src : Bytes} {pkt : Bool} {mem : Bytes} {size : Nat} {d : Bytes} (hd : ∀ room e, removeSig room pkt mem size = .ok e → e = d) :
    ∀ {tlvs : List IcvTlv} {st st' : List (Sig × Bool)}, tlvLoop src pkt mem size tlvs st = .ok (some st') →
      st'.map (·.1) = st.map (·.1) ∧ ∀ (P : Sig → Prop), (∀ s, (s, true) ∈ st → P s) → ∀ s, (s, true) ∈ st' → P s ∨ ∃ t ∈ tlvs, Vouches src d s t
  | [], st, st', h => by
    simp only [tlvLoop, Out.ok.injEq, Option.some.injEq] at h
    subst h
    exact ⟨rfl, fun P hP s hs => Or.inl (hP s hs)⟩
  | t :: ts, st, st', h => by
    rw [tlvLoop] at h
    by_cases hu : t.usable = false
    · rw [if_pos hu] at h
      obtain ⟨i1, i2⟩ := tlvLoop_spec hd h
      refine ⟨i1, fun P hP s hs => ?_⟩
      rcases i2 P hP s hs with e | ⟨u, m, hv⟩
      · exact Or.inl e
      · exact Or.inr ⟨u, List.mem_cons_of_mem _ m, hv⟩
    rw [if_neg hu] at h
    have hu : t.usable = true := by simpa using hu
    by_cases hc : CAP < (pre src t).length
    · rw [if_pos hc] at h; cases h
    rw [if_neg hc] at h
    rcases hr : removeSig (CAP - (pre src t).length) pkt mem size with e | _ | _ | _ | _ <;> rw [hr] at h <;> try (cases h; done)
    have := hd _ _ hr
    subst this
    dsimp only at h
    rcases hl : sigLoop t (pre src t ++ e) st with (_ | st1) | _ | _ | _ | _ <;> rw [hl] at h <;> try (cases h; done)
    dsimp only at h
    obtain ⟨j1, j2⟩ := sigLoop_spec hu hl
    obtain ⟨i1, i2⟩ := tlvLoop_spec hd h
    refine ⟨i1.trans j1, fun P hP s hs => ?_⟩
    rcases i2 (fun s => P s ∨ Vouches src e s t) (j2 P hP) s hs with (e | hv) | ⟨u, m, hv⟩
    · exact Or.inl e
    · exact Or.inr ⟨t, List.mem_cons_self, hv⟩
    · exact Or.inr ⟨u, List.mem_cons_of_mem _ m, hv⟩

/-- accepted data carries a TLV for every mandatory signature -/
theorem checkSig_spec {src : Bytes} {pkt : Bool} {mem : Bytes} {size : Nat} {d : Bytes} (hd : ∀ room e, removeSig room pkt mem size = .ok e → e = d)
    {tlvs : List IcvTlv} {sigs : List Sig} (h : checkSig src pkt mem size tlvs sigs = .ok true) (s : Sig) (hs : s ∈ sigs) (hm : s.matching = true) (hi : s.dropInvalid = true) :
    ∃ t ∈ tlvs, Vouches src d s t := by
  unfold checkSig at h
  have ha : ¬ (sigs.any (fun s => s.matching) = false) := by
    rw [Bool.not_eq_false, List.any_eq_true]
    exact ⟨s, hs, hm⟩
  rw [if_neg ha] at h
  rcases ht : tlvLoop src pkt mem size tlvs (sigs.map (fun s => (s, false))) with (_ | st) | _ | _ | _ | _ <;> rw [ht] at h <;> try (cases h; done)
  obtain ⟨i1, i2⟩ := tlvLoop_spec hd ht
  injection h with h
  rw [List.all_eq_true] at h
  have hs' : s ∈ st.map (·.1) := by
    rw [i1]
    simp only [List.map_map, List.mem_map]
    exact ⟨s, hs, rfl⟩
  obtain ⟨⟨s', v⟩, hv, e⟩ := List.mem_map.mp hs'
  dsimp only at e
  subst e
  have hx := h _ hv
  simp only [hi, hm, Bool.and_self, Bool.not_true, Bool.or_false] at hx
  subst hx
  rcases i2 (fun _ => False) (fun s hs => by simp at hs) s' hv with e | e
  · exact e.elim
  · exact e

theorem checkSig_single {src : Bytes} {pkt : Bool} {mem : Bytes} {size : Nat} {d : Bytes} {t : IcvTlv} {s : Sig} (hu : t.usable = true)
    (hc : (pre src t).length ≤ CAP) (hd : removeSig (CAP - (pre src t).length) pkt mem size = .ok d) (hs : sigStep t (pre src t ++ d) s false = .ok (some true))
    (hm : s.matching = true) : checkSig src pkt mem size [t] [s] = .ok true := by
  unfold checkSig
  rw [if_neg (by simp [hm])]
  simp only [List.map_cons, List.map_nil, tlvLoop]
  rw [if_neg (by rw [hu]; decide), if_neg (by omega), hd]
  simp only [sigLoop, hs]
  rfl

end Verif.Icv
