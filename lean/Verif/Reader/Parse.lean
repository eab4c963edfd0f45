import Verif.Reader.Spec

/-! Lemmas about the parsing functions. -/
namespace Verif.Reader

/-- a result satisfies `P`, undefined behaviour satisfies `H` -/
def R.Sat {α} (P : α → Prop) (H : Ub → Prop) : R α → Prop
  | .ok a => P a
  | .err _ => True
  | .ub u => H u

theorem R.Sat.mono {α} {P Q : α → Prop} {H K : Ub → Prop} {r : R α} (h : r.Sat P H)
    (hp : ∀ a, P a → Q a) (hk : ∀ u, H u → K u) : r.Sat Q K := by
  cases r with
  | ok a => exact hp a h
  | err _ => trivial
  | ub u => exact hk u h

theorem forall_u8 {P : UInt8 → Prop} (h : ∀ n : Fin 256, P (UInt8.ofFin n)) (b : UInt8) : P b := by
  have := h b.toFin
  rwa [UInt8.ofFin_toFin] at this

theorem value_flag : ∀ f : UInt8, (f &&& 0x18 = 0x10 ∨ f &&& 0x18 = 0x18) → f &&& 0x10 ≠ 0 :=
  forall_u8 (by decide +kernel)

theorem multi_flag : ∀ f : UInt8, f &&& 0x10 ≠ 0 → f &&& 0x04 ≠ 0 → f &&& 0x14 = 0x14 :=
  forall_u8 (by decide +kernel)

/-! ### reading bytes -/

theorem getU8_err {s : S} (h : s.res ≠ OKAY) : getU8 s = (0, s) := by simp [getU8, h]

theorem getU8_cons {b : UInt8} {r : Bytes} : getU8 ⟨b :: r, OKAY⟩ = (b, ⟨r, OKAY⟩) := by simp [getU8]

theorem getU8_nil : getU8 ⟨[], OKAY⟩ = (0, ⟨[], END_OF_BUFFER⟩) := by simp [getU8]

theorem getU8_suffix (s : S) : (getU8 s).2.rest <:+ s.rest := by
  unfold getU8
  split
  · exact List.suffix_refl _
  · split
    · rename_i h
      simp [h]
    · rename_i b r h
      simp only [h]
      exact List.suffix_cons b r

theorem getU8_ok {s : S} (h : (getU8 s).2.res = OKAY) :
    s.res = OKAY ∧ s.rest = (getU8 s).1 :: (getU8 s).2.rest := by
  unfold getU8 at h ⊢
  by_cases h0 : s.res = OKAY
  · rw [if_neg (by simp [h0])] at h ⊢
    refine ⟨h0, ?_⟩
    split at h
    · simp [END_OF_BUFFER, OKAY] at h
    · rename_i b r hr
      simp only [hr]
  · rw [if_pos h0] at h
    exact absurd h h0

theorem getU16_suffix (s : S) : (getU16 s).2.rest <:+ s.rest :=
  (getU8_suffix _).trans (getU8_suffix s)

theorem getU16_ok {s : S} (h : (getU16 s).2.res = OKAY) :
    s.res = OKAY ∧ ∃ a b : UInt8, s.rest = a :: b :: (getU16 s).2.rest ∧ (getU16 s).1 = a.toNat * 256 + b.toNat := by
  have h2 := getU8_ok (s := (getU8 s).2) h
  have h1 := getU8_ok h2.1
  refine ⟨h1.1, (getU8 s).1, (getU8 (getU8 s).2).1, ?_, rfl⟩
  rw [h1.2, h2.2]
  rfl

/-! ### TLVs -/

theorem parseIndex_suffix {f n : UInt8} {s s' : S} {i j : UInt8} (h : parseIndex f n s = some (i, j, s')) :
    s'.rest <:+ s.rest := by
  unfold parseIndex at h
  simp only at h
  split at h
  · simp only [Option.some.injEq, Prod.mk.injEq] at h
    rw [← h.2.2]
    exact List.suffix_refl _
  · split at h
    · simp only [Option.some.injEq, Prod.mk.injEq] at h
      rw [← h.2.2]
      exact getU8_suffix _
    · split at h
      · simp only [Option.some.injEq, Prod.mk.injEq] at h
        rw [← h.2.2]
        exact (getU8_suffix _).trans (getU8_suffix _)
      · simp at h

theorem parseIndex_ok {f n : UInt8} {s s' : S} {i j : UInt8} (h : parseIndex f n s = some (i, j, s'))
    (hr : s'.res = OKAY) : s.res = OKAY ∧
      ((f &&& 0x60 = 0 ∧ i = 0 ∧ j = n - 1 ∧ s'.rest = s.rest) ∨ (i = j ∧ f &&& 0x60 = 0x40) ∨
        (f &&& 0x60 = 0x20 ∧ s.rest = i :: j :: s'.rest)) := by
  unfold parseIndex at h
  simp only at h
  split at h
  · simp only [Option.some.injEq, Prod.mk.injEq] at h
    obtain ⟨rfl, rfl, rfl⟩ := h
    rename_i h0
    exact ⟨hr, .inl ⟨h0, rfl, rfl, rfl⟩⟩
  · split at h
    · simp only [Option.some.injEq, Prod.mk.injEq] at h
      obtain ⟨rfl, rfl, rfl⟩ := h
      rename_i h1
      exact ⟨(getU8_ok hr).1, .inr (.inl ⟨rfl, h1⟩)⟩
    · split at h
      · simp only [Option.some.injEq, Prod.mk.injEq] at h
        obtain ⟨rfl, rfl, rfl⟩ := h
        rename_i h2
        have hb := getU8_ok hr
        have ha := getU8_ok hb.1
        refine ⟨ha.1, .inr (.inr ⟨h2, ?_⟩)⟩
        rw [← hb.2, ← ha.2]
      · simp at h

theorem parseLength_suffix {f : UInt8} {s s' : S} {l : Nat} (h : parseLength f s = some (l, s')) :
    s'.rest <:+ s.rest := by
  unfold parseLength at h
  simp only at h
  split at h
  · simp only [Option.some.injEq, Prod.mk.injEq] at h
    rw [← h.2]
    exact List.suffix_refl _
  · split at h
    · simp only [Option.some.injEq, Prod.mk.injEq] at h
      rw [← h.2]
      exact getU8_suffix _
    · split at h
      · simp only [Option.some.injEq] at h
        have := getU16_suffix s
        rw [h] at this
        exact this
      · simp at h

theorem parseLength_ok {f : UInt8} {s s' : S} {l : Nat} (h : parseLength f s = some (l, s'))
    (hr : s'.res = OKAY) : s.res = OKAY ∧ (l ≠ 0 → f &&& 0x10 ≠ 0) := by
  unfold parseLength at h
  simp only at h
  split at h
  · simp only [Option.some.injEq, Prod.mk.injEq] at h
    obtain ⟨rfl, rfl⟩ := h
    exact ⟨hr, fun h => absurd rfl h⟩
  · split at h
    · simp only [Option.some.injEq, Prod.mk.injEq] at h
      obtain ⟨rfl, rfl⟩ := h
      rename_i h1
      refine ⟨(getU8_ok hr).1, fun _ => value_flag f (.inl h1)⟩
    · split at h
      · simp only [Option.some.injEq] at h
        rename_i h1
        have hs : (getU16 s).2 = s' := by rw [h]
        rw [← hs] at hr
        refine ⟨(getU16_ok hr).1, fun _ => value_flag f (.inr h1)⟩
      · simp at h

theorem tlvValue_sat (f i j : UInt8) (l : Nat) :
    (tlvValue f i j l).Sat
      (fun r => r.1 ≤ l ∧ (r.2 = false → r.1 = l) ∧ (r.2 = true → i ≤ j → r.1 * (j.toNat - i.toNat + 1) = l))
      (fun u => u = .div ∧ l ≠ 0 ∧ f &&& 0x04 ≠ 0 ∧ i = j + 1) := by
  unfold tlvValue
  simp only
  by_cases hl : l = 0
  · rw [if_pos hl]
    simp [R.Sat, hl]
  · rw [if_neg hl]
    by_cases h1 : j - i + 1 = 1
    · rw [if_pos h1, if_pos rfl]
      simp [R.Sat]
    · rw [if_neg h1]
      by_cases hm : f &&& 0x04 = 0
      · simp [hm, R.Sat]
      · rw [if_neg (by simp [hm])]
        by_cases h0 : j - i + 1 = 0
        · rw [if_pos h0]
          refine ⟨rfl, hl, hm, ?_⟩
          have : i = j + 1 := by
            have h0 := congrArg UInt8.toNat h0
            rw [UInt8.toNat_add, UInt8.toNat_sub] at h0
            apply UInt8.toNat_inj.1
            rw [UInt8.toNat_add]
            have hi := i.toNat_lt
            have hj := j.toNat_lt
            have e1 : (1 : UInt8).toNat = 1 := rfl
            have e0 : (0 : UInt8).toNat = 0 := rfl
            rw [e1] at h0 ⊢
            rw [e0] at h0
            omega
          exact this
        · rw [if_neg h0]
          split
          · trivial
          · rename_i hmod
            have hmod : l % (j - i + 1).toNat = 0 := by simpa using hmod
            refine ⟨Nat.div_le_self _ _, by simp, fun _ hij => ?_⟩
            have hc : (j - i + 1).toNat = j.toNat - i.toNat + 1 := by
              have hlt := j.toNat_lt
              have : (j - i).toNat = j.toNat - i.toNat := UInt8.toNat_sub_of_le _ _ hij
              rw [UInt8.toNat_add, this]
              have h1' : (1 : UInt8).toNat = 1 := rfl
              rw [h1']
              have hne : (j - i + 1).toNat ≠ 0 := fun h => h0 (UInt8.toNat_inj.1 (by simpa using h))
              rw [UInt8.toNat_add, this, h1'] at hne
              omega
            rw [← hc]
            exact Nat.div_mul_cancel (Nat.dvd_of_mod_eq_zero hmod)

/-- what is known about a parsed TLV -/
structure TlvOk (n : UInt8) (t : Tlv) : Prop where
  len : t.length ≤ t.value.length
  single : t.multi = false → t.value.length = t.length
  multi : t.multi = true → t.index1 ≤ t.index2 → t.value.length = t.length * (t.index2.toNat - t.index1.toNat + 1)
  idx : n > 0 → t.index1 < n ∧ t.index2 < n

theorem parseTlv_sat (id : Nat) (b : Bytes) (n : UInt8) :
    (parseTlv id b n).Sat
      (fun r => r.2 <:+ b ∧ r.2.length + 2 ≤ b.length ∧ r.1.id = id ∧ r.1.drop = [] ∧ r.1.value <:+: b ∧ TlvOk n r.1)
      (fun u => u = .div ∧ EmptyRange n b) := by
  unfold parseTlv
  simp only
  generalize h1 : getU8 ⟨b, OKAY⟩ = r1
  obtain ⟨type, s1⟩ := r1
  simp only
  generalize h2 : getU8 s1 = r2
  obtain ⟨flags, s2⟩ := r2
  simp only
  generalize h3 : (if flags &&& 0x80 ≠ 0 then getU8 s2 else (0, s2)) = r3
  obtain ⟨ext, s3⟩ := r3
  simp only
  cases h4 : parseIndex flags n s3 with
  | none => trivial
  | some r4 =>
    obtain ⟨i, j, s4⟩ := r4
    simp only
    split
    · trivial
    · rename_i hidx
      cases h5 : parseLength flags s4 with
      | none => trivial
      | some r5 =>
        obtain ⟨l, s5⟩ := r5
        simp only
        split
        · trivial
        · split
          · trivial
          · rename_i hl hres
            have hres : s5.res = OKAY := by simpa using hres
            have hl : l ≤ s5.rest.length := by omega
            obtain ⟨hr4, hlen⟩ := parseLength_ok h5 hres
            obtain ⟨hr3, hix⟩ := parseIndex_ok h4 hr4
            have hr2 : s2.res = OKAY ∧ s3.rest = (if flags &&& 0x80 ≠ 0 then s2.rest.drop 1 else s2.rest) := by
              by_cases hf : flags &&& 0x80 ≠ 0
              · rw [if_pos hf] at h3 ⊢
                have hs : (getU8 s2).2 = s3 := by rw [h3]
                rw [← hs] at hr3
                have := getU8_ok hr3
                refine ⟨this.1, ?_⟩
                rw [this.2, ← hs]
                rfl
              · rw [if_neg hf] at h3 ⊢
                obtain ⟨_, rfl⟩ := Prod.mk.inj h3
                exact ⟨hr3, rfl⟩
            have hs2 : (getU8 s1).2 = s2 := by rw [h2]
            have hb2 := getU8_ok (s := s1) (by rw [hs2]; exact hr2.1)
            have hs1 : (getU8 ⟨b, OKAY⟩).2 = s1 := by rw [h1]
            have hb1 := getU8_ok (s := ⟨b, OKAY⟩) (by rw [hs1]; exact hb2.1)
            have hb : b = type :: flags :: s2.rest := by
              have e1 := hb1.2
              have e2 := hb2.2
              simp only [h1] at e1
              simp only [h2] at e2
              rw [e1, e2]
            have hsuf3 : s3.rest <:+ s2.rest := by
              rw [hr2.2]
              split
              · exact List.drop_suffix _ _
              · exact List.suffix_refl _
            have hsuf5 : s5.rest <:+ s2.rest := ((parseLength_suffix h5).trans (parseIndex_suffix h4)).trans hsuf3
            have hs2b : s2.rest <:+ b := by
              rw [hb]
              exact (List.suffix_cons _ _).trans (List.suffix_cons _ _)
            have hval := tlvValue_sat flags i j l
            cases hv : tlvValue flags i j l with
            | err e => trivial
            | ub u =>
              rw [hv] at hval
              obtain ⟨rfl, hl0, hm, hij⟩ := hval
              refine ⟨rfl, type, flags, s2.rest, hb, multi_flag _ (hlen hl0) hm, ?_⟩
              rcases hix with ⟨hf, hi, hj, _⟩ | ⟨hi, _⟩ | ⟨hf, hx⟩
              · refine .inl ⟨hf, ?_⟩
                rw [hi, hj] at hij
                have : n - 1 + 1 = n := UInt8.sub_add_cancel n 1
                rw [this] at hij
                exact hij.symm
              · exfalso
                rw [hi] at hij
                have := congrArg UInt8.toNat hij
                rw [UInt8.toNat_add] at this
                have := j.toNat_lt
                simp only [UInt8.reduceToNat] at *
                omega
              · refine .inr ⟨hf, i, j, s4.rest, ?_, hij⟩
                rw [← hr2.2]
                exact hx
            | ok r =>
              rw [hv] at hval
              obtain ⟨len, multi⟩ := r
              obtain ⟨hv1, hv2, hv3⟩ := hval
              have hlt : (s5.rest.take l).length = l := by simp [hl]
              refine ⟨?_, ?_, rfl, rfl, ?_, ⟨?_, ?_, ?_, ?_⟩⟩
              · exact ((List.drop_suffix _ _).trans hsuf5).trans hs2b
              · have h6 := hsuf5.length_le
                have h7 := congrArg List.length hb
                simp only [List.length_cons] at h7
                have h8 : (s5.rest.drop l).length ≤ s5.rest.length := by simp
                simp only
                omega
              · exact ((List.take_prefix _ _).isInfix.trans hsuf5.isInfix).trans hs2b.isInfix
              · simp only [hlt]
                exact hv1
              · intro h
                simp only [hlt]
                exact (hv2 h).symm
              · intro h hij
                simp only [hlt]
                exact (hv3 h hij).symm
              · intro hn
                simp only
                have : ¬ (i ≥ n ∨ j ≥ n) := fun h => hidx ⟨hn, h⟩
                rw [not_or, UInt8.not_le, UInt8.not_le] at this
                exact this

/-! ### TLV blocks -/

/-- what is known about the TLVs of a block with `n` addresses -/
structure TlvsOk (n : UInt8) (buf : Bytes) (l : List Tlv) : Prop where
  all : ∀ t ∈ l, TlvOk n t ∧ t.value <:+: buf
  ids : (l.map Tlv.id).Nodup

theorem insertTlv_perm (t : Tlv) (l : List Tlv) : (insertTlv t l).Perm (t :: l) := by
  induction l with
  | nil => exact List.Perm.refl _
  | cons u us ih =>
    unfold insertTlv
    split
    · exact (ih.cons u).trans (List.Perm.swap _ _ _)
    · exact List.Perm.refl _

theorem TlvsOk.insert {n : UInt8} {buf : Bytes} {l : List Tlv} {t : Tlv} (h : TlvsOk n buf l) (ht : TlvOk n t)
    (hv : t.value <:+: buf) (hid : t.id ∉ l.map Tlv.id) : TlvsOk n buf (insertTlv t l) := by
  have hp := insertTlv_perm t l
  constructor
  · intro u hu
    rcases List.mem_cons.1 (hp.mem_iff.1 hu) with rfl | hu
    · exact ⟨ht, hv⟩
    · exact h.all u hu
  · rw [(hp.map Tlv.id).nodup_iff]
    exact List.nodup_cons.2 ⟨hid, h.ids⟩

theorem tlvLoop_sat (mem : Nat → Bool) (n : UInt8) (stop : Nat) (buf : Bytes) :
    ∀ fuel k id rest tlvs, rest.length < fuel → rest <:+: buf → TlvsOk n buf tlvs → (∀ t ∈ tlvs, t.id < id ∧ t.drop = []) →
      (tlvLoop mem n stop fuel k id rest tlvs).Sat
        (fun r => r.2.1 <:+ rest ∧ TlvsOk n buf r.1 ∧ ∀ t ∈ r.1, t.drop = [])
        (fun u => u = .div ∧ ∃ b, b <:+ rest ∧ EmptyRange n b) := by
  intro fuel
  induction fuel with
  | zero => intro k id rest tlvs h; omega
  | succ fuel ih =>
    intro k id rest tlvs hf hbuf hok hid
    unfold tlvLoop
    split
    · exact ⟨List.suffix_refl _, hok, fun t ht => (hid t ht).2⟩
    · have hp := parseTlv_sat id rest n
      cases h : parseTlv id rest n with
      | err e => trivial
      | ub u =>
        rw [h] at hp
        exact ⟨hp.1, rest, List.suffix_refl _, hp.2⟩
      | ok r =>
        rw [h] at hp
        obtain ⟨t, rest'⟩ := r
        obtain ⟨h1, h2, h3, h4, h5, h6⟩ := hp
        simp only at h1 h2 h3 h4 h5 h6
        simp only
        split
        · trivial
        · refine (ih (k + 1) (id + 1) rest' (insertTlv t tlvs) (by omega) (h1.isInfix.trans hbuf) (hok.insert h6 (h5.trans hbuf) ?_) ?_).mono ?_ ?_
          · intro hm
            obtain ⟨u, hu, he⟩ := List.mem_map.1 hm
            have := (hid u hu).1
            omega
          · intro u hu
            rcases List.mem_cons.1 ((insertTlv_perm t tlvs).mem_iff.1 hu) with rfl | hu
            · exact ⟨by omega, h4⟩
            · exact ⟨Nat.lt_succ_of_lt (hid u hu).1, (hid u hu).2⟩
          · rintro ⟨l, r, k'⟩ ⟨ha, hb⟩
            exact ⟨ha.trans h1, hb⟩
          · rintro u ⟨hu, b, hb, he⟩
            exact ⟨hu, b, hb.trans h1, he⟩

theorem parseTlvblock_sat (mem : Nat → Bool) (k : Nat) (buf rest : Bytes) (n : UInt8) (hbuf : rest <:+: buf) :
    (parseTlvblock mem k rest n).Sat
      (fun r => r.2.1 <:+ rest ∧ r.2.1.length + 2 ≤ rest.length ∧ TlvsOk n buf r.1 ∧ ∀ t ∈ r.1, t.drop = [])
      (fun u => u = .div ∧ ∃ b, b <:+ rest ∧ EmptyRange n b) := by
  unfold parseTlvblock
  simp only
  generalize h : getU16 ⟨rest, OKAY⟩ = r
  obtain ⟨len, s⟩ := r
  simp only
  split
  · trivial
  · rename_i hlen
    have hs : ∃ a b, rest = a :: b :: s.rest := by
      rcases rest with _ | ⟨a, _ | ⟨b, x⟩⟩
      · simp only [List.length_nil] at hlen
        omega
      · simp only [List.length_cons, List.length_nil] at hlen
        omega
      · refine ⟨a, b, ?_⟩
        simp only [getU16, getU8_cons, Prod.mk.injEq] at h
        rw [← h.2]
    obtain ⟨a, b, hs⟩ := hs
    have hsuf : s.rest <:+ rest := by
      rw [hs]
      exact (List.suffix_cons _ _).trans (List.suffix_cons _ _)
    have hl : rest.length = s.rest.length + 2 := by
      rw [hs]
      simp
    refine (tlvLoop_sat mem n _ buf _ k 0 s.rest [] (by omega) (hsuf.isInfix.trans hbuf) ⟨by simp, by simp⟩ (by simp)).mono ?_ ?_
    · rintro ⟨l, r, k'⟩ ⟨h1, h2⟩
      have := h1.length_le
      simp only at this
      exact ⟨h1.trans hsuf, by simp only; omega, h2⟩
    · rintro u ⟨hu, b, hb, he⟩
      exact ⟨hu, b, hb.trans hsuf, he⟩

/-! ### address blocks -/

theorem copyTo_some {a : Bytes} {off : Nat} {src a' : Bytes} (h : copyTo a off src = some a') (ha : a.length = 16) :
    a'.length = 16 := by
  unfold copyTo at h
  split at h
  · obtain rfl := Option.some.inj h
    simp only [List.length_append, List.length_take, List.length_drop]
    omega
  · simp at h

theorem copyTo_isSome {a : Bytes} {off : Nat} {src : Bytes} (h : off + src.length ≤ 16) :
    ∃ a', copyTo a off src = some a' := by
  unfold copyTo
  rw [if_pos h]
  exact ⟨_, rfl⟩

theorem parseHead_sat (f len : UInt8) (s : S) :
    (parseHead f len s).Sat
      (fun r => r.2.2.2.rest <:+ s.rest ∧ r.2.2.1.length = 16 ∧ r.1.toNat + r.2.1.toNat = len.toNat ∧ (r.1 ≠ 0 → r.1 < len) ∧
        (r.2.2.2.res = OKAY → s.res = OKAY ∧ r.1.toNat = headLen f s.rest ∧
          r.2.2.2.rest = s.rest.drop (tailPos f s.rest)))
      (fun _ => False) := by
  unfold parseHead
  simp only
  by_cases hf : f &&& 0x80 ≠ 0
  · rw [if_pos hf]
    generalize h : getU8 s = r
    obtain ⟨b, s1⟩ := r
    simp only
    split
    · trivial
    · rename_i hb
      rw [not_or, not_or, UInt8.not_lt, UInt8.not_le, UInt8.not_le] at hb
      obtain ⟨hb1, hb2, hb3⟩ := hb
      split
      · trivial
      · rename_i hr
        have hlt : (s1.rest.take b.toNat).length = b.toNat := by
          simp only [List.length_take]
          omega
        have hb2' : b.toNat < 16 := UInt8.lt_iff_toNat_lt.1 hb2
        have hb3' : b.toNat < len.toNat := UInt8.lt_iff_toNat_lt.1 hb3
        obtain ⟨a, ha⟩ := copyTo_isSome (a := List.replicate 16 (0 : UInt8)) (off := 0) (src := s1.rest.take b.toNat) (by omega)
        rw [ha]
        have hs1 : s1.rest <:+ s.rest := by
          have := getU8_suffix s
          rw [h] at this
          exact this
        refine ⟨?_, ?_, ?_, fun _ => hb3, fun hres => ?_⟩
        · exact (List.drop_suffix _ _).trans hs1
        · exact copyTo_some ha (by simp)
        · simp only
          rw [UInt8.toNat_sub_of_le _ _ (UInt8.le_of_lt hb3)]
          omega
        · have hs : (getU8 s).2 = s1 := by rw [h]
          have hb := getU8_ok (s := s) (by rw [hs]; exact hres)
          have hb' := hb.2
          rw [h] at hb'
          simp only at hb'
          have hh : headLen f s.rest = b.toNat := by
            unfold headLen
            rw [if_pos hf, hb']
            rfl
          refine ⟨hb.1, hh.symm, ?_⟩
          simp only
          unfold tailPos
          rw [if_pos hf, hh, hb', Nat.add_comm, List.drop_succ_cons]
  · rw [if_neg hf]
    refine ⟨List.suffix_refl _, by simp, by simp, by simp, fun hr => ⟨hr, ?_, ?_⟩⟩
    · unfold headLen
      rw [if_neg hf]
      rfl
    · unfold tailPos
      rw [if_neg hf]
      rfl

theorem parseTail_sat (f len mid : UInt8) (addr : Bytes) (s : S) (hlen : len ≤ 16) (ha : addr.length = 16) :
    (parseTail f len mid addr s).Sat
      (fun r => r.2.2.rest <:+ s.rest ∧ r.2.1.length = 16 ∧
        (r.2.2.res = OKAY → s.res = OKAY ∧
          (f &&& 0x60 = 0 ∧ r.1 = mid ∨ f &&& 0x60 ≠ 0 ∧ r.1 = mid - s.rest.getD 0 0)))
      (fun _ => False) := by
  unfold parseTail
  simp only
  by_cases h2 : f &&& 0x60 = 0x20
  · rw [if_pos h2]
    refine ⟨getU8_suffix s, ha, fun hr => ?_⟩
    have hb := getU8_ok hr
    refine ⟨hb.1, .inr ⟨by rw [h2]; decide, ?_⟩⟩
    rw [hb.2]
    rfl
  · rw [if_neg h2]
    by_cases h4 : f &&& 0x60 = 0x40
    · rw [if_pos h4]
      generalize h : getU8 s = r
      obtain ⟨b, s1⟩ := r
      simp only
      split
      · trivial
      · rename_i hb
        rw [not_or, not_or, UInt8.not_lt, UInt8.not_le, UInt8.not_le] at hb
        obtain ⟨hb1, hb2, hb3⟩ := hb
        split
        · trivial
        · rename_i hr
          have hlt : (s1.rest.take b.toNat).length = b.toNat := by
            simp only [List.length_take]
            omega
          have hb3' : b.toNat < len.toNat := UInt8.lt_iff_toNat_lt.1 hb3
          have hl' : len.toNat ≤ 16 := UInt8.le_iff_toNat_le.1 hlen
          obtain ⟨a, ha'⟩ := copyTo_isSome (a := addr) (off := len.toNat - b.toNat) (src := s1.rest.take b.toNat) (by omega)
          rw [ha']
          have hs : (getU8 s).2 = s1 := by rw [h]
          have hs1 : s1.rest <:+ s.rest := by
            rw [← hs]
            exact getU8_suffix s
          refine ⟨(List.drop_suffix _ _).trans hs1, copyTo_some ha' ha, fun hres => ?_⟩
          have hb := getU8_ok (s := s) (by rw [hs]; exact hres)
          refine ⟨hb.1, .inr ⟨by rw [h4]; decide, ?_⟩⟩
          rw [hb.2, h]
          rfl
    · rw [if_neg h4]
      split
      · trivial
      · rename_i h0
        have h0 : f &&& 0x60 = 0 := by simpa using h0
        exact ⟨List.suffix_refl _, ha, fun hr => ⟨hr, .inl ⟨h0, rfl⟩⟩⟩

theorem parsePrefix_sat (more : Bool) (f len num : UInt8) (rest : Bytes) :
    (parsePrefix more f len num rest).Sat
      (fun r => r.2.2 <:+ rest ∧ (∀ p, r.2.1 = some p → p.length = num.toNat))
      (fun u => u = .read ∧ rest = [] ∧ more = false ∧ f &&& 0x18 = 0x10) := by
  unfold parsePrefix
  simp only
  split
  · exact ⟨List.suffix_refl _, by simp⟩
  · split
    · rename_i hf
      split
      · split
        · trivial
        · rename_i hm
          exact ⟨rfl, rfl, by simpa using hm, hf⟩
      · exact ⟨List.suffix_cons _ _, by simp⟩
    · split
      · split
        · trivial
        · rename_i hl
          refine ⟨List.drop_suffix _ _, ?_⟩
          simp only [Option.some.injEq]
          rintro p rfl
          simp only [List.length_take]
          omega
      · trivial

/-- what is known about an address block -/
structure BlockOk (buf : Bytes) (b : Block) : Prop where
  mid : b.mid.length = b.midLen.toNat * b.num.toNat
  addr : b.addr.length = 16
  pre : ∀ p, b.prefixes = some p → p.length = b.num.toNat
  fits : b.midStart.toNat + b.midLen.toNat ≤ 16 ∨ BadMessage buf
  tlvs : TlvsOk b.num buf b.tlvs

theorem parseAddrblock_sat (more : Bool) (buf rest : Bytes) (len : UInt8) (hlen : len ≤ 16)
    (hbad : BadBlock rest len.toNat → BadMessage buf) :
    (parseAddrblock more rest len).Sat
      (fun r => r.2 <:+ rest ∧ r.2.length < rest.length ∧ BlockOk buf r.1 ∧ r.1.num ≠ 0 ∧ r.1.drop = [])
      (fun u => u = .read ∧ more = false ∧ ∃ num flags x, rest = num :: flags :: x ∧ flags &&& 0x18 = 0x10) := by
  unfold parseAddrblock
  simp only
  generalize h1 : getU8 ⟨rest, OKAY⟩ = r1
  obtain ⟨num, s1⟩ := r1
  simp only
  have hs1 : (getU8 ⟨rest, OKAY⟩).2 = s1 := by rw [h1]
  split
  · trivial
  · rename_i hnum
    have hrest : rest = num :: s1.rest ∧ s1.res = OKAY := by
      cases rest with
      | nil =>
        rw [getU8_nil] at h1
        exact absurd (Prod.mk.inj h1).1.symm hnum
      | cons a x =>
        rw [getU8_cons] at h1
        obtain ⟨rfl, rfl⟩ := Prod.mk.inj h1
        exact ⟨rfl, rfl⟩
    generalize h2 : getU8 s1 = r2
    obtain ⟨flags, s2⟩ := r2
    simp only
    have hs2 : (getU8 s1).2 = s2 := by rw [h2]
    have hsuf2 : s2.rest <:+ s1.rest := by
      rw [← hs2]
      exact getU8_suffix s1
    have hsuf1 : s1.rest <:+ rest := by
      rw [hrest.1]
      exact List.suffix_cons _ _
    -- an error keeps the flags zero
    have hflags : s2.res = OKAY ∨ flags = 0 := by
      by_cases h : s2.res = OKAY
      · exact .inl h
      · right
        unfold getU8 at h2
        rw [if_neg (by simp [hrest.2])] at h2
        split at h2
        · exact (Prod.mk.inj h2).1.symm
        · obtain ⟨_, rfl⟩ := Prod.mk.inj h2
          exact absurd hrest.2 h
    have hb2 : s2.res = OKAY → rest = num :: flags :: s2.rest := by
      intro h
      have := getU8_ok (s := s1) (by rw [hs2]; exact h)
      rw [hrest.1, this.2, h2]
    have hH := parseHead_sat flags len s2
    cases h3 : parseHead flags len s2 with
    | err e => trivial
    | ub u =>
      rw [h3] at hH
      exact hH.elim
    | ok r3 =>
      obtain ⟨ms, ml, addr, s3⟩ := r3
      rw [h3] at hH
      obtain ⟨hH1, hH2, hH3, hH4, hH5⟩ := hH
      simp only at hH1 hH2 hH3 hH4 hH5
      simp only
      have hT := parseTail_sat flags len ml addr s3 hlen hH2
      cases h4 : parseTail flags len ml addr s3 with
      | err e => trivial
      | ub u =>
        rw [h4] at hT
        exact hT.elim
      | ok r4 =>
        obtain ⟨ml', addr', s4⟩ := r4
        rw [h4] at hT
        obtain ⟨hT1, hT2, hT3⟩ := hT
        simp only at hT1 hT2 hT3
        simp only
        split
        · trivial
        · rename_i hn
          have hP := parsePrefix_sat more flags len num (s4.rest.drop (ml'.toNat * num.toNat))
          cases h5 : parsePrefix more flags len num (s4.rest.drop (ml'.toNat * num.toNat)) with
          | err e => trivial
          | ub u =>
            rw [h5] at hP
            obtain ⟨hu, _, hm, hf⟩ := hP
            refine ⟨hu, hm, num, flags, s2.rest, ?_, hf⟩
            rcases hflags with h | h
            · exact hb2 h
            · rw [h] at hf
              exact absurd hf (by decide)
          | ok r5 =>
            obtain ⟨plen, pre, rest'⟩ := r5
            rw [h5] at hP
            obtain ⟨hP1, hP2⟩ := hP
            simp only at hP1 hP2
            simp only
            split
            · trivial
            · rename_i hres
              have hres : s4.res = OKAY := by simpa using hres
              have hr3 := hT3 hres
              have hr2 := hH5 hr3.1
              have hb := hb2 hr2.1
              have hsuf : rest' <:+ s1.rest :=
                ((((hP1.trans (List.drop_suffix _ _)).trans hT1).trans hH1).trans hsuf2)
              refine ⟨hsuf.trans hsuf1, ?_, ⟨?_, hT2, hP2, ?_, ?_⟩, hnum, rfl⟩
              · have := hsuf.length_le
                have e := congrArg List.length hrest.1
                simp only [List.length_cons] at e
                simp only
                omega
              · simp only [List.length_take]
                omega
              · simp only
                have hl16 : len.toNat ≤ 16 := UInt8.le_iff_toNat_le.1 hlen
                rcases hr3.2 with ⟨_, hml⟩ | ⟨hf, hml⟩
                · left
                  rw [hml]
                  omega
                · by_cases hover : len.toNat < headLen flags s2.rest + tailLen flags s2.rest
                  · right
                    refine hbad ⟨num, flags, s2.rest, ?_, hf, hover⟩
                    rw [← hb]
                    exact List.infix_refl _
                  · left
                    have ht : tailLen flags s2.rest = (s3.rest.getD 0 0).toNat := by
                      unfold tailLen
                      rw [if_pos hf, hr2.2.2]
                      simp only [List.getD_eq_getElem?_getD, List.getElem?_drop, Nat.add_zero]
                    rw [hml]
                    have hle : s3.rest.getD 0 0 ≤ ml := by
                      rw [UInt8.le_iff_toNat_le]
                      omega
                    rw [UInt8.toNat_sub_of_le _ _ hle]
                    omega
              · exact ⟨by simp, by simp⟩

/-! ### messages -/

theorem BlockOk.withTlvs {buf : Bytes} {b : Block} {l : List Tlv} {n : Nat} (h : BlockOk buf b) (hl : TlvsOk b.num buf l) :
    BlockOk buf { b with tlvs := l, tlvSize := n } := ⟨h.mid, h.addr, h.pre, h.fits, hl⟩

theorem BadBlock.infix {a b : Bytes} {n : Nat} (h : BadBlock a n) (hs : a <:+: b) : BadBlock b n := by
  obtain ⟨num, flags, x, h1, h2⟩ := h
  exact ⟨num, flags, x, h1.trans hs, h2⟩

/-- hazards while parsing a part of a message that ends where the message ends -/
def MsgHazard (more : Bool) (buf rest : Bytes) (u : Ub) : Prop :=
  (u = .div ∧ Hazard buf .div) ∨
    (u = .read ∧ more = false ∧ ∃ num flags x, (num :: flags :: x) <:+ rest ∧ flags &&& 0x18 = 0x10)

theorem MsgHazard.suffix {more : Bool} {buf rest rest' : Bytes} {u : Ub} (h : MsgHazard more buf rest u) (hs : rest <:+ rest') :
    MsgHazard more buf rest' u := by
  rcases h with h | ⟨h1, h2, num, flags, x, h3, h4⟩
  · exact .inl h
  · exact .inr ⟨h1, h2, num, flags, x, h3.trans hs, h4⟩

theorem blockLoop_sat (mem : Nat → Bool) (more : Bool) (len : UInt8) (buf : Bytes) (hlen : len ≤ 16) :
    ∀ fuel k rest blocks, rest.length < fuel → rest <:+: buf → (BadBlock rest len.toNat → BadMessage buf) →
      (∀ b ∈ blocks, BlockOk buf b ∧ b.drop = [] ∧ ∀ t ∈ b.tlvs, t.drop = []) →
      (blockLoop mem more len fuel k rest blocks).Sat
        (fun r => ∀ b ∈ r.1, BlockOk buf b ∧ b.drop = [] ∧ ∀ t ∈ b.tlvs, t.drop = [])
        (MsgHazard more buf rest) := by
  intro fuel
  induction fuel with
  | zero => intro k rest blocks h; omega
  | succ fuel ih =>
    intro k rest blocks hf hbuf hbad hok
    unfold blockLoop
    split
    · exact hok
    · split
      · trivial
      · have hA := parseAddrblock_sat more buf rest len hlen hbad
        cases h1 : parseAddrblock more rest len with
        | err e => trivial
        | ub u =>
          rw [h1] at hA
          obtain ⟨hu, hm, num, flags, x, hr, hf⟩ := hA
          refine .inr ⟨hu, hm, num, flags, x, ?_, hf⟩
          rw [hr]
          exact List.suffix_refl _
        | ok r =>
          obtain ⟨b, rest1⟩ := r
          rw [h1] at hA
          obtain ⟨hA1, hA2, hA3, hA4, hA5⟩ := hA
          simp only at hA1 hA2 hA3 hA4 hA5
          simp only
          have hT := parseTlvblock_sat mem (k + 1) buf rest1 b.num (hA1.isInfix.trans hbuf)
          cases h2 : parseTlvblock mem (k + 1) rest1 b.num with
          | err e => trivial
          | ub u =>
            rw [h2] at hT
            obtain ⟨hu, c, hc, he⟩ := hT
            exact .inl ⟨hu, b.num, c, (hc.trans hA1).isInfix.trans hbuf, he⟩
          | ok r =>
            obtain ⟨tlvs, rest2, k'⟩ := r
            rw [h2] at hT
            obtain ⟨hT1, hT2, hT3, hT4⟩ := hT
            simp only at hT1 hT2 hT3 hT4
            simp only
            have hs : rest2 <:+ rest := hT1.trans hA1
            refine (ih k' rest2 _ (by omega) (hs.isInfix.trans hbuf) (fun h => hbad (h.infix hs.isInfix)) ?_).mono (fun _ h => h) (fun u h => h.suffix hs)
            intro c hc
            rcases List.mem_append.1 hc with hc | hc
            · exact hok c hc
            · rw [List.mem_singleton.1 hc]
              exact ⟨hA3.withTlvs hT3, hA5, hT4⟩

theorem addrLen_le : ∀ f : UInt8, (f &&& 0x0f) + 1 ≤ 16 := forall_u8 (by decide +kernel)

theorem parseFields_sat (type flags : UInt8) (size : Nat) (s : S) :
    (parseFields type flags size s).Sat
      (fun r => r.2.rest <:+ s.rest ∧ r.1.size = size ∧ (r.1.addrLen ≤ 16 ∧ r.1.addrLen = (r.1.flags &&& 0x0f) + 1) ∧ r.1.type = type ∧ r.1.flags = flags ∧
        (r.2.res = OKAY → s.res = OKAY))
      (fun _ => False) := by
  unfold parseFields
  simp only
  split
  · rename_i u h
    split at h
    · split at h <;> simp at h
    · simp at h
  · trivial
  · rename_i orig s1 h
    have hs : s1.rest <:+ s.rest ∧ s1.res = s.res := by
      split at h
      · split at h
        · simp at h
        · simp only [R.ok.injEq, Prod.mk.injEq] at h
          rw [← h.2]
          exact ⟨List.drop_suffix _ _, rfl⟩
      · simp only [R.ok.injEq, Prod.mk.injEq] at h
        rw [← h.2]
        exact ⟨List.suffix_refl _, rfl⟩
    have key8 : ∀ (c : Prop) [Decidable c] (x : S), (if c then (fun r : UInt8 × S => (some r.1, r.2)) (getU8 x) else (none, x)).2.rest <:+ x.rest ∧
        ((if c then (fun r : UInt8 × S => (some r.1, r.2)) (getU8 x) else (none, x)).2.res = OKAY → x.res = OKAY) := by
      intro c _ x
      split
      · exact ⟨getU8_suffix x, fun h => (getU8_ok h).1⟩
      · exact ⟨List.suffix_refl _, id⟩
    have key16 : ∀ (c : Prop) [Decidable c] (x : S), (if c then (fun r : Nat × S => (some r.1, r.2)) (getU16 x) else (none, x)).2.rest <:+ x.rest ∧
        ((if c then (fun r : Nat × S => (some r.1, r.2)) (getU16 x) else (none, x)).2.res = OKAY → x.res = OKAY) := by
      intro c _ x
      split
      · exact ⟨getU16_suffix x, fun h => (getU16_ok h).1⟩
      · exact ⟨List.suffix_refl _, id⟩
    refine ⟨?_, rfl, ⟨addrLen_le flags, rfl⟩, rfl, rfl, ?_⟩
    · exact (((key16 _ _).1.trans (key8 _ _).1).trans (key8 _ _).1).trans hs.1
    · intro h
      rw [← hs.2]
      exact (key8 _ _).2 ((key8 _ _).2 ((key16 _ _).2 h))

theorem parseHeader_sat (start : Bytes) :
    (parseHeader start).Sat
      (fun r => r.2.rest <:+ start ∧ sizeField start = some r.1.size ∧ r.1.size ≤ start.length ∧ r.1.addrLen ≤ 16 ∧
        r.2.rest.length + 4 ≤ start.length ∧ ∃ y, start = r.1.type :: r.1.flags :: y ∧ r.1.addrLen = (r.1.flags &&& 0x0f) + 1)
      (fun _ => False) := by
  unfold parseHeader
  simp only
  generalize h1 : getU8 ⟨start, OKAY⟩ = r1
  obtain ⟨type, s1⟩ := r1
  simp only
  generalize h2 : getU8 s1 = r2
  obtain ⟨flags, s2⟩ := r2
  simp only
  generalize h3 : getU16 s2 = r3
  obtain ⟨size, s3⟩ := r3
  simp only
  have hF := parseFields_sat type flags size s3
  cases h4 : parseFields type flags size s3 with
  | err e => trivial
  | ub u =>
    rw [h4] at hF
    exact hF.elim
  | ok r =>
    obtain ⟨h, s4⟩ := r
    rw [h4] at hF
    obtain ⟨hF1, hF2, ⟨hF3, hF3'⟩, hF5, hF6, hF4⟩ := hF
    simp only at hF1 hF2 hF3 hF3' hF5 hF6 hF4
    simp only
    split
    · trivial
    · split
      · trivial
      · rename_i hsz hres
        have hres : s4.res = OKAY := by simpa using hres
        have e3 : (getU16 s2).2 = s3 := by rw [h3]
        have e2 : (getU8 s1).2 = s2 := by rw [h2]
        have e1 : (getU8 ⟨start, OKAY⟩).2 = s1 := by rw [h1]
        obtain ⟨r2, a, b, hb3, hsize⟩ := getU16_ok (s := s2) (by rw [e3]; exact hF4 hres)
        have hb2 := getU8_ok (s := s1) (by rw [e2]; exact r2)
        have hb1 := getU8_ok (s := ⟨start, OKAY⟩) (by rw [e1]; exact hb2.1)
        rw [e3] at hb3
        rw [h3] at hsize
        have hst : start = (getU8 ⟨start, OKAY⟩).1 :: (getU8 s1).1 :: a :: b :: s3.rest := by
          have := hb1.2
          rw [e1] at this
          rw [hb2.2, e2, hb3] at this
          exact this
        refine ⟨?_, ?_, by simp only; omega, hF3, ?_, a :: b :: s3.rest, ?_, hF3'⟩
        · refine hF1.trans ?_
          rw [← e3]
          refine (getU16_suffix _).trans ?_
          rw [← e2]
          refine (getU8_suffix _).trans ?_
          rw [← e1]
          exact getU8_suffix _
        · rw [hst]
          simp only [sizeField]
          rw [hF2, ← hsize]
        · have h4 := congrArg List.length hst
          have h5 := hF1.length_le
          simp only [List.length_cons] at h4
          simp only
          omega
        · rw [hst, h1, h2]
          simp only [hF5, hF6]

theorem parseMessage_sat (mem : Nat → Bool) (k : Nat) (buf start : Bytes) (hbuf : start <:+ buf) :
    (parseMessage mem k start).Sat
      (fun r => sizeField start = some r.1.hdr.size ∧ r.1.hdr.size ≤ start.length ∧ 4 ≤ r.1.hdr.size ∧ r.1.hdr.addrLen ≤ 16 ∧
        (TlvsOk 0 (start.take r.1.hdr.size) r.1.tlvs ∧ ∀ t ∈ r.1.tlvs, t.drop = []) ∧
        ∀ b ∈ r.1.blocks, BlockOk (start.take r.1.hdr.size) b ∧ b.drop = [] ∧ ∀ t ∈ b.tlvs, t.drop = [])
      (Hazard buf) := by
  unfold parseMessage
  have hH := parseHeader_sat start
  cases h1 : parseHeader start with
  | err e => trivial
  | ub u =>
    rw [h1] at hH
    exact hH.elim
  | ok r =>
    obtain ⟨h, s⟩ := r
    rw [h1] at hH
    obtain ⟨hH1, hH2, hH3, hH4, hH5, y, hH6, hH7⟩ := hH
    simp only at hH1 hH2 hH3 hH4 hH5 hH6 hH7
    simp only
    generalize hbody : s.rest.take (h.size - (start.length - s.rest.length)) = body
    have hbs : body <:+: start := by
      rw [← hbody]
      exact (List.take_prefix _ _).isInfix.trans hH1.isInfix
    -- the body lies in the message, behind the first two bytes
    have hby : body <:+: y.take (h.size - 2) := by
      rw [← hbody]
      by_cases hu : start.length - s.rest.length ≤ h.size
      · have e : s.rest = y.drop (start.length - s.rest.length - 2) := by
          have e1 := List.suffix_iff_eq_drop.1 hH1
          have e2 : start.drop (start.length - s.rest.length) = y.drop (start.length - s.rest.length - 2) := by
            rw [show start.length - s.rest.length = (start.length - s.rest.length - 2) + 2 by omega, hH6]
            simp
          rw [e1]
          rw [List.length_drop]
          rw [show start.length - (start.length - (start.length - s.rest.length)) = start.length - s.rest.length by omega]
          exact e2
        have hu2 : 2 ≤ start.length - s.rest.length := by omega
        generalize start.length - s.rest.length = u at e hu hu2 ⊢
        rw [e, show h.size - u = (h.size - 2) - (u - 2) by omega, ← List.drop_take]
        exact (List.drop_suffix _ _).isInfix
      · rw [show h.size - (start.length - s.rest.length) = 0 by omega, List.take_zero]
        exact List.nil_infix
    have htake : 2 ≤ h.size → start.take h.size = h.type :: h.flags :: y.take (h.size - 2) := by
      intro h2
      obtain ⟨n, hn⟩ : ∃ n, h.size = n + 2 := ⟨h.size - 2, by omega⟩
      rw [hn, hH6]
      simp
    have hbb : body <:+: buf := hbs.trans hbuf.isInfix
    have hbm : body <:+: start.take h.size := by
      by_cases h2 : 2 ≤ h.size
      · rw [htake h2]
        exact hby.trans (List.infix_cons (List.infix_cons (List.infix_refl _)))
      · have : body = [] := by
          have hl := hby.length_le
          rw [show h.size - 2 = 0 by omega, List.take_zero] at hl
          exact List.length_eq_zero_iff.1 (by simpa using hl)
        rw [this]
        exact List.nil_infix
    have hT := parseTlvblock_sat mem k (start.take h.size) body 0 hbm
    cases h2 : parseTlvblock mem k body 0 with
    | err e => trivial
    | ub u =>
      rw [h2] at hT
      obtain ⟨rfl, c, hc, he⟩ := hT
      exact ⟨0, c, hc.isInfix.trans hbb, he⟩
    | ok r =>
      obtain ⟨tlvs, rest, k'⟩ := r
      rw [h2] at hT
      obtain ⟨hT1, hT2, hT3, hT4⟩ := hT
      simp only at hT1 hT2 hT3 hT4
      simp only
      have hlen : body.length ≤ h.size - (start.length - s.rest.length) := by
        rw [← hbody]
        simp only [List.length_take]
        omega
      have h4 : 4 ≤ h.size := by omega
      have hB := blockLoop_sat mem (decide (h.size < start.length)) h.addrLen (start.take h.size) hH4 (rest.length + 1) k' rest []
        (by omega) (hT1.isInfix.trans hbm) (by
          intro hb
          refine ⟨_, _, _, htake (by omega), ?_⟩
          rw [← hH7]
          exact hb.infix (hT1.isInfix.trans hby)) (by simp)
      cases h3 : blockLoop mem (decide (h.size < start.length)) h.addrLen (rest.length + 1) k' rest [] with
      | err e => trivial
      | ub u =>
        rw [h3] at hB
        rcases hB with ⟨rfl, ⟨n, b, hb1, hb2⟩⟩ | ⟨rfl, hm, num, flags, x, hx, hf⟩
        · exact ⟨n, b, hb1.trans ((List.take_prefix _ _).isInfix.trans hbuf.isInfix), hb2⟩
        · refine ⟨num, flags, x, ?_, hf⟩
          have hsz : h.size = start.length := by
            have := of_decide_eq_false hm
            omega
          have : body = s.rest := by
            rw [← hbody, hsz]
            have := hH1.length_le
            rw [show start.length - (start.length - s.rest.length) = s.rest.length by omega]
            exact List.take_length
          rw [this] at hT1
          exact ((hx.trans hT1).trans hH1).trans hbuf
      | ok r =>
        obtain ⟨blocks, k''⟩ := r
        rw [h3] at hB
        exact ⟨hH2, hH3, h4, hH4, ⟨hT3, hT4⟩, hB⟩

theorem parsePacket_sat (mem : Nat → Bool) (buf : Bytes) :
    (parsePacket mem buf).Sat
      (fun r => r.2.2.1 <:+ buf ∧ TlvsOk 0 buf r.2.1 ∧ (∀ t ∈ r.2.1, t.drop = []) ∧ (r.1 &&& 0x04 = 0 → r.2.1 = []))
      (Hazard buf) := by
  unfold parsePacket
  simp only
  generalize h1 : getU8 ⟨buf, OKAY⟩ = r1
  obtain ⟨first, s1⟩ := r1
  simp only
  have hs1 : s1.rest <:+ buf := by
    have := getU8_suffix ⟨buf, OKAY⟩
    rw [h1] at this
    exact this
  split
  · trivial
  · generalize h2 : (if first &&& 0x08 ≠ 0 then (getU16 s1).2 else s1) = s2
    have hs2 : s2.rest <:+ buf := by
      rw [← h2]
      split
      · exact (getU16_suffix _).trans hs1
      · exact hs1
    split
    · trivial
    · split
      · have hT := parseTlvblock_sat mem 0 buf s2.rest 0 hs2.isInfix
        cases h3 : parseTlvblock mem 0 s2.rest 0 with
        | err e => trivial
        | ub u =>
          rw [h3] at hT
          obtain ⟨rfl, c, hc, he⟩ := hT
          exact ⟨0, c, (hc.trans hs2).isInfix, he⟩
        | ok r =>
          obtain ⟨tlvs, rest, k⟩ := r
          rw [h3] at hT
          exact ⟨hT.1.trans hs2, hT.2.2.1, hT.2.2.2, fun h => absurd h (by assumption)⟩
      · exact ⟨hs2, ⟨by simp, by simp⟩, by simp, fun _ => rfl⟩

end Verif.Reader
