import Verif.Icv.Spec

namespace Verif.Icv

theorem be16_length (n : Nat) : (be16 n).length = 2 := rfl

theorem toNat_toUInt8 {n : Nat} (h : n < 256) : (n.toUInt8).toNat = n := by
  simp [Nat.toUInt8, UInt8.toNat_ofNat', Nat.mod_eq_of_lt h]

theorem be16_value {n : Nat} (h : n < 65536) : 256 * ((n / 256).toUInt8).toNat + ((n % 256).toUInt8).toNat = n := by
  rw [toNat_toUInt8 (by omega), toNat_toUInt8 (by omega)]; omega

theorem be16_inj {n k : Nat} (hn : n < 65536) (hk : k < 65536) (h : be16 n = be16 k) : n = k := by
  have h1 := be16_value hn
  have h2 := be16_value hk
  simp only [be16, List.cons.injEq] at h
  rw [h.1, h.2.1] at h1
  omega

/-- the flags of a TLV -/
def flagsNat (e : Nat) (x : Bool) (v : Nat) : UInt8 :=
  e.toUInt8 + (if x then 0x80 else 0) + (match v with | 0 => 0 | 1 => 0x10 | _ => 0x18)

theorem flags_table : ∀ e < 8, ∀ x : Bool, ∀ v < 3,
    (flagsNat e x v &&& 0x80 ≠ 0 ↔ x = true) ∧ (flagsNat e x v &&& 0x10 = 0 ↔ v = 0) ∧ (v ≠ 0 → (flagsNat e x v &&& 0x08 ≠ 0 ↔ v = 2))
    ∧ flagsNat e x v &&& 0x07 = e.toUInt8 := by decide +kernel

theorem Tlv.flags_eq (t : Tlv) : t.flags = flagsNat t.extra.toNat t.ext.isSome
    (match t.value with | none => 0 | some (false, _) => 1 | some (true, _) => 2) := by
  unfold Tlv.flags flagsNat
  have : t.extra.toNat.toUInt8 = t.extra := by simp [Nat.toUInt8]
  rw [this]
  rcases t.value with _ | ⟨_ | _, v⟩ <;> rfl

theorem Tlv.Wf.extraNat {t : Tlv} (h : t.Wf) : t.extra.toNat < 8 := by
  have := h.extra
  rw [UInt8.lt_iff_toNat_lt] at this
  exact this

theorem Tlv.enc_length (t : Tlv) : t.enc.length = 2 + t.ext.toList.length +
    (match t.value with | none => 0 | some (false, v) => 1 + v.length | some (true, v) => 2 + v.length) := by
  unfold Tlv.enc
  rcases t.value with _ | ⟨_ | _, v⟩ <;> simp [be16] <;> omega

theorem Tlv.tests {t : Tlv} (h : t.Wf) :
    (t.flags &&& 0x80 ≠ 0 ↔ t.ext.isSome = true) ∧ (t.flags &&& 0x10 = 0 ↔ t.value = none) ∧
    (∀ v, t.value = some (false, v) → t.flags &&& 0x08 = 0) ∧ (∀ v, t.value = some (true, v) → t.flags &&& 0x08 ≠ 0) ∧ t.flags &&& 0x07 = t.extra := by
  have hx := h.extraNat
  rw [Tlv.flags_eq]
  have hv : (match t.value with | none => 0 | some (false, _) => 1 | some (true, _) => 2) < 3 := by
    rcases t.value with _ | ⟨_ | _, v⟩ <;> simp
  obtain ⟨h1, h2, h3, h4⟩ := flags_table _ hx t.ext.isSome _ hv
  refine ⟨h1, ?_, ?_, ?_, ?_⟩
  · rw [h2]
    rcases t.value with _ | ⟨_ | _, v⟩ <;> simp
  · intro v hv
    rw [hv] at h3
    have := h3 (by simp)
    rw [hv]
    apply Decidable.byContradiction
    intro hc
    exact absurd (this.mp hc) (by simp)
  · intro v hv
    rw [hv] at h3
    rw [hv]
    exact (h3 (by simp)).mpr rfl
  · rw [h4]; simp [Nat.toUInt8]

/-- the length computed for a TLV without index fields is its length -/
theorem tlvLen_enc {t : Tlv} (h : t.Wf) (hl : t.enc.length < 65536) (r : Bytes) : tlvLen (t.enc ++ r) = some t.enc.length := by
  obtain ⟨h1, h2, h3, h4, _⟩ := Tlv.tests h
  rw [Tlv.enc_length] at hl ⊢
  rcases hv : t.value with _ | ⟨_ | _, v⟩
  · rw [hv] at hl
    have e : t.enc ++ r = t.type :: t.flags :: (t.ext.toList ++ r) := by simp [Tlv.enc, hv]
    rw [e, tlvLen]
    dsimp only
    rw [if_pos (h2.mpr hv)]
    rcases hx : t.ext with _ | x
    · rw [if_neg (by rw [h1, hx]; decide)]; rfl
    · rw [if_pos (by rw [h1, hx]; rfl)]; rfl
  · rw [hv] at hl
    have e : t.enc ++ r = t.type :: t.flags :: (t.ext.toList ++ (v.length.toUInt8 :: (v ++ r))) := by simp [Tlv.enc, hv]
    have n0 : ¬ (t.flags &&& 0x10 = 0) := by rw [h2, hv]; simp
    rw [e, tlvLen]
    dsimp only
    rw [if_neg n0, if_neg (by rw [h3 v hv]; decide)]
    have := toNat_toUInt8 (n := v.length) (by have := h.short v hv; omega)
    rcases hx : t.ext with _ | x
    · rw [if_neg (by rw [h1, hx]; decide)]
      simp [this]; omega
    · rw [if_pos (by rw [h1, hx]; rfl)]
      simp [this]; omega
  · rw [hv] at hl
    dsimp only at hl
    have e : t.enc ++ r = t.type :: t.flags :: (t.ext.toList ++ ((v.length / 256).toUInt8 :: (v.length % 256).toUInt8 :: (v ++ r))) := by
      simp [Tlv.enc, hv, be16]
    have n0 : ¬ (t.flags &&& 0x10 = 0) := by rw [h2, hv]; simp
    have bv := be16_value (n := v.length) (by have := h.long v hv; omega)
    rw [e, tlvLen]
    dsimp only
    rw [if_neg n0, if_pos (h4 v hv)]
    rcases hx : t.ext with _ | x
    · rw [hx] at hl
      rw [if_neg (by rw [h1, hx]; decide)]
      simp only [Option.toList_none, List.nil_append, List.drop_zero, List.length_nil, Nat.add_zero] at hl ⊢
      rw [bv, Nat.mod_eq_of_lt (by omega)]
      congr 1; omega
    · rw [hx] at hl
      rw [if_pos (by rw [h1, hx]; rfl)]
      simp only [Option.toList_some, List.cons_append, List.nil_append, List.drop_succ_cons, List.drop_zero, List.length_cons, List.length_nil] at hl ⊢
      rw [bv, Nat.mod_eq_of_lt (by omega)]
      congr 1; omega

theorem encTlvs_cons (t : Tlv) (l : List Tlv) : encTlvs (t :: l) = t.enc ++ encTlvs l := by simp [encTlvs]

theorem Tlv.enc_pos (t : Tlv) : 2 ≤ t.enc.length := by simp [Tlv.enc]

theorem covered_cons (t : Tlv) (l : List Tlv) : covered (t :: l) = if t.type = 5 then covered l else t :: covered l := by
  unfold covered
  rw [List.filter_cons]
  by_cases h : t.type = 5 <;> simp [h]

theorem encTlvs_covered_le (l : List Tlv) : (encTlvs (covered l)).length ≤ (encTlvs l).length := by
  induction l with
  | nil => exact Nat.le_refl _
  | cons t l ih =>
    rw [covered_cons, encTlvs_cons, List.length_append]
    by_cases h : t.type = 5
    · rw [if_pos h]; omega
    · rw [if_neg h, encTlvs_cons, List.length_append]; omega

theorem skim_step {room base f len block pos n : Nat} {out rest : Bytes} (hl : len ≠ 0) (hn : tlvLen rest = some n) (n0 : n ≠ 0) :
    skim room base (f + 1) len block pos out rest =
      if rest.length < n then .read
      else if rest.headD 0 = ICV then
        skim room base f ((len + 65536 - n) % 65536) ((block + 65536 - n) % 65536) (pos + n) out (rest.drop n)
      else if room < base + out.length + n then .write
      else skim room base f ((len + 65536 - n) % 65536) block (pos + n) (out ++ rest.take n) (rest.drop n) := by
  rw [skim, if_neg hl, hn]
  rcases n with _ | n
  · exact absurd rfl n0
  · rfl

/-- the loop over a block of TLVs without index fields: it copies the covered TLVs, or finds too little room -/
theorem skim_enc {room base : Nat} (l : List Tlv) (hw : ∀ t ∈ l, t.Wf) (hl : (encTlvs l).length < 65536) :
    ∀ (fuel block pos : Nat) (out tail : Bytes), (encTlvs l).length < fuel → (encTlvs l).length ≤ block → block < 65536 →
    skim room base fuel (encTlvs l).length block pos out (encTlvs l ++ tail) =
        .ok (block - ((encTlvs l).length - (encTlvs (covered l)).length), out ++ encTlvs (covered l), pos + (encTlvs l).length, tail)
      ∨ (skim room base fuel (encTlvs l).length block pos out (encTlvs l ++ tail) = .write ∧ room < base + (out ++ encTlvs (covered l)).length ∧ covered l ≠ []) := by
  induction l with
  | nil =>
    intro fuel block pos out tail hf _ _
    obtain ⟨f, rfl⟩ : ∃ f, fuel = f + 1 := ⟨fuel - 1, by omega⟩
    left
    simp [skim, encTlvs, covered]
  | cons t l ih =>
    intro fuel block pos out tail hf hb hb2
    have hle := encTlvs_covered_le l
    have hpos := t.enc_pos
    rw [encTlvs_cons, List.length_append] at hl hf hb
    obtain ⟨f, rfl⟩ : ∃ f, fuel = f + 1 := ⟨fuel - 1, by omega⟩
    have e : encTlvs (t :: l) ++ tail = t.enc ++ (encTlvs l ++ tail) := by rw [encTlvs_cons, List.append_assoc]
    have hlen : (encTlvs (t :: l)).length = t.enc.length + (encTlvs l).length := by rw [encTlvs_cons, List.length_append]
    have ih' := ih (fun u hu => hw u (List.mem_cons_of_mem _ hu)) (by omega)
    have hn := tlvLen_enc (hw t List.mem_cons_self) (by omega) (encTlvs l ++ tail)
    obtain ⟨k, hk⟩ : ∃ k, t.enc.length = k + 1 := ⟨t.enc.length - 1, by omega⟩
    have hd : (t.enc ++ (encTlvs l ++ tail)).headD 0 = t.type := rfl
    have m1 : (t.enc.length + (encTlvs l).length + 65536 - t.enc.length) % 65536 = (encTlvs l).length := by omega
    have nlt : ¬ (t.enc ++ (encTlvs l ++ tail)).length < t.enc.length := by rw [List.length_append]; omega
    have dr : (t.enc ++ (encTlvs l ++ tail)).drop t.enc.length = encTlvs l ++ tail := by
      rw [List.drop_append_of_le_length (Nat.le_refl _), List.drop_length, List.nil_append]
    have tk : (t.enc ++ (encTlvs l ++ tail)).take t.enc.length = t.enc := by
      rw [List.take_append_of_le_length (Nat.le_refl _), List.take_length]
    by_cases h5 : t.type = 5
    · have step : skim room base (f + 1) (encTlvs (t :: l)).length block pos out (encTlvs (t :: l) ++ tail) =
          skim room base f (encTlvs l).length (block - t.enc.length) (pos + t.enc.length) out (encTlvs l ++ tail) := by
        rw [e, hlen, skim_step (by omega) hn (by omega), if_neg nlt, if_pos (by rw [hd, h5]; rfl), m1, dr]
        congr 1
        omega
      rw [step, covered_cons, if_pos h5]
      rcases ih' f (block - t.enc.length) (pos + t.enc.length) out tail (by omega) (by omega) (by omega) with h | h
      · left
        rw [h, hlen]
        congr 2
        · omega
        · congr 2; omega
      · right; exact h
    · have h5' : ¬ ((t.enc ++ (encTlvs l ++ tail)).headD 0 = ICV) := by rw [hd]; exact h5
      rw [covered_cons, if_neg h5, encTlvs_cons t (covered l)]
      by_cases hr : room < base + out.length + t.enc.length
      · right
        refine ⟨?_, ?_, by simp⟩
        · rw [e, hlen, skim_step (by omega) hn (by omega), if_neg nlt, if_neg h5', if_pos hr]
        · simp only [List.length_append]; omega
      · have step : skim room base (f + 1) (encTlvs (t :: l)).length block pos out (encTlvs (t :: l) ++ tail) =
            skim room base f (encTlvs l).length block (pos + t.enc.length) (out ++ t.enc) (encTlvs l ++ tail) := by
          rw [e, hlen, skim_step (by omega) hn (by omega), if_neg nlt, if_neg h5', if_neg hr, m1, dr, tk]
        rw [step]
        rcases ih' f block (pos + t.enc.length) (out ++ t.enc) tail (by omega) (by omega) hb2 with h | h
        · left
          rw [h, hlen]
          simp only [List.length_append, List.append_assoc]
          congr 2
          · omega
          · congr 2; omega
        · right
          refine ⟨h.1, ?_, by simp⟩
          have := h.2.1
          simp only [List.length_append] at this ⊢
          omega

end Verif.Icv
