import Verif.Writer.Message
import Verif.Reader.Local

/-! Forwarded messages. -/
namespace Verif.Writer
open Verif.Reader (Bytes S R Hdr getU8 getU16 parseFields parseHeader getU8_ok forall_u8)

theorem flags_split : ∀ f : UInt8, lo (((f &&& 0x0f) + 1).toNat - 1) ||| (if f &&& 0x80 ≠ 0 then 0x80 else 0) ||| (if f &&& 0x40 ≠ 0 then 0x40 else 0) |||
    (if f &&& 0x20 ≠ 0 then 0x20 else 0) ||| (if f &&& 0x10 ≠ 0 then 0x10 else 0) = f ∧ 0 < ((f &&& 0x0f) + 1).toNat ∧ ((f &&& 0x0f) + 1).toNat ≤ 16 ∧
    lo ((f &&& 0x0f) + 1).toNat = (f &&& 0x0f) + 1 :=
  forall_u8 (by decide +kernel)

theorem getU8_inv {s : S} (h : (getU8 s).2.res = Verif.Reader.OKAY) : ∃ b r, s = ⟨b :: r, Verif.Reader.OKAY⟩ := by
  obtain ⟨h1, h2⟩ := getU8_ok h
  obtain ⟨rest, e⟩ := s
  cases rest with
  | nil => cases h2
  | cons b r => exact ⟨b, r, by rw [show e = Verif.Reader.OKAY from h1]⟩

theorem optU8_inv {c : Prop} [Decidable c] {s : S}
    (h : (if c then (some (getU8 s).1, (getU8 s).2) else (none, s)).2.res = Verif.Reader.OKAY) :
    ∃ (o : Option UInt8) (r : Bytes), o.isSome = decide c ∧ s = ⟨o.toList ++ r, Verif.Reader.OKAY⟩ := by
  by_cases hc : c
  · rw [if_pos hc] at h
    obtain ⟨b, r, rfl⟩ := getU8_inv h
    exact ⟨some b, r, by simp [hc], rfl⟩
  · rw [if_neg hc] at h
    exact ⟨none, s.rest, by simp [hc], by obtain ⟨r, e⟩ := s; simp at h; simp [h]⟩

theorem optU16_inv {c : Prop} [Decidable c] {s : S}
    (h : (if c then (some (getU16 s).1, (getU16 s).2) else (none, s)).2.res = Verif.Reader.OKAY) :
    ∃ (o : Option Nat) (r : Bytes), o.isSome = decide c ∧ (∀ x, o = some x → x < 65536) ∧ s = ⟨seqBytes o ++ r, Verif.Reader.OKAY⟩ := by
  by_cases hc : c
  · rw [if_pos hc] at h
    have h2 : (getU8 (getU8 s).2).2.res = Verif.Reader.OKAY := h
    have h1 := (getU8_ok h2).1
    obtain ⟨b, r, rfl⟩ := getU8_inv h1
    rw [getU8_c] at h2
    obtain ⟨b', r', h3⟩ := getU8_inv h2
    have h3 : r = b' :: r' := by injection h3
    subst h3
    have hb := b.toNat_lt
    have hb' := b'.toNat_lt
    refine ⟨some (b.toNat * 256 + b'.toNat), r', by simp [hc], ?_, ?_⟩
    · intro x hx
      cases hx
      omega
    · have e1 : hi (b.toNat * 256 + b'.toNat) = b := by
        apply UInt8.toNat_inj.1
        rw [hi_toNat (by omega)]
        omega
      have e2 : lo (b.toNat * 256 + b'.toNat) = b' := by
        apply UInt8.toNat_inj.1
        rw [lo_toNat]
        omega
      simp only [seqBytes, e1, e2, List.cons_append, List.nil_append]
  · rw [if_neg hc] at h
    exact ⟨none, s.rest, by simp [hc], by simp, by obtain ⟨r, e⟩ := s; simp at h; simp [h, seqBytes]⟩

/-- a message header accepted by the reader -/
theorem header_shape {m : Bytes} {h : Hdr} {s : S} (hp : parseHeader m = .ok (h, s)) :
    ∃ (hd : MsgHdr) (b2 b3 : UInt8), hd.Ok ∧ m = [hd.type, hd.flags, b2, b3] ++ (optFields hd ++ s.rest) ∧ h = hd.read (b2.toNat * 256 + b3.toNat) ∧
      s.res = Verif.Reader.OKAY := by
  unfold parseHeader at hp
  dsimp only at hp
  generalize h1 : getU8 ⟨m, Verif.Reader.OKAY⟩ = r1 at hp
  obtain ⟨type, s1⟩ := r1
  dsimp only at hp
  generalize h2 : getU8 s1 = r2 at hp
  obtain ⟨flags, s2⟩ := r2
  dsimp only at hp
  generalize h3 : getU16 s2 = r3 at hp
  obtain ⟨size, s3⟩ := r3
  dsimp only at hp
  cases hf : parseFields type flags size s3 with
  | ub u => rw [hf] at hp; cases hp
  | err e => rw [hf] at hp; cases hp
  | ok x =>
    obtain ⟨h', s'⟩ := x
    rw [hf] at hp
    dsimp only at hp
    split at hp
    · cases hp
    · split at hp
      · cases hp
      · rename_i hs
        cases hp
        have hs : s.res = Verif.Reader.OKAY := Decidable.not_not.1 hs
        obtain ⟨k1, k2, k3, k4⟩ := flags_split flags
        unfold parseFields at hf
        dsimp only at hf
        -- the originator
        have ho : ∃ (o : Option Bytes) (s4 : S), (if flags &&& 0x80 ≠ 0 then
            if s3.rest.length < ((flags &&& 0x0f) + 1).toNat then (R.err Verif.Reader.END_OF_BUFFER : R (Option Bytes × S))
            else .ok (some (s3.rest.take ((flags &&& 0x0f) + 1).toNat), { s3 with rest := s3.rest.drop ((flags &&& 0x0f) + 1).toNat })
            else .ok (none, s3)) = .ok (o, s4) ∧ o.isSome = decide (flags &&& 0x80 ≠ 0) ∧ (∀ x, o = some x → x.length = ((flags &&& 0x0f) + 1).toNat) ∧
            s3 = ⟨o.getD [] ++ s4.rest, s4.res⟩ := by
          by_cases hc : flags &&& 0x80 ≠ 0
          · rw [if_pos hc]
            by_cases hl : s3.rest.length < ((flags &&& 0x0f) + 1).toNat
            · rw [if_pos hc, if_pos hl] at hf
              cases hf
            · rw [if_neg hl]
              refine ⟨_, _, rfl, by simp [hc], ?_, ?_⟩
              · intro x hx
                cases hx
                rw [List.length_take]
                omega
              · simp
          · rw [if_neg hc]
            exact ⟨none, s3, rfl, by simp [hc], by simp, by simp⟩
        obtain ⟨o, s4, o1, o2, o3, o4⟩ := ho
        rw [o1] at hf
        dsimp only at hf
        generalize e1 : (if flags &&& 0x40 ≠ 0 then (some (getU8 s4).1, (getU8 s4).2) else (none, s4)) = x1 at hf
        generalize e2 : (if flags &&& 0x20 ≠ 0 then (some (getU8 x1.2).1, (getU8 x1.2).2) else (none, x1.2)) = x2 at hf
        generalize e3 : (if flags &&& 0x10 ≠ 0 then (some (getU16 x2.2).1, (getU16 x2.2).2) else (none, x2.2)) = x3 at hf
        injection hf with hf
        injection hf with hf1 hf2
        have r3 : x3.2.res = Verif.Reader.OKAY := by rw [hf2]; exact hs
        have r3' := r3
        rw [← e3] at r3'
        obtain ⟨sq, w3, q1, q2, q3⟩ := optU16_inv r3'
        have r2 : x2.2.res = Verif.Reader.OKAY := by rw [q3]
        have r2' := r2
        rw [← e2] at r2'
        obtain ⟨hc, w2, c1, c2⟩ := optU8_inv r2'
        have r1 : x1.2.res = Verif.Reader.OKAY := by rw [c2]
        have r1' := r1
        rw [← e1] at r1'
        obtain ⟨hl, w1, l1, l2⟩ := optU8_inv r1'
        have hs3 : s3.res = Verif.Reader.OKAY := by rw [o4, l2]
        have g2 : (getU8 (getU8 s2).2).2.res = Verif.Reader.OKAY := by
          have : (getU16 s2).2.res = Verif.Reader.OKAY := by rw [h3]; exact hs3
          exact this
        have g1 := (getU8_ok g2).1
        obtain ⟨b2, u2, rfl⟩ := getU8_inv g1
        rw [getU8_c] at g2
        obtain ⟨b3, u3, g3⟩ := getU8_inv g2
        have g3 : u2 = b3 :: u3 := by injection g3
        subst g3
        have g4 : (getU8 s1).2.res = Verif.Reader.OKAY := by rw [h2]
        obtain ⟨f0, u1, rfl⟩ := getU8_inv g4
        rw [getU8_c] at h2
        injection h2 with h2a h2b
        subst h2a
        injection h2b with h2b
        subst h2b
        have g5 : (getU8 ⟨m, Verif.Reader.OKAY⟩).2.res = Verif.Reader.OKAY := by rw [h1]
        obtain ⟨t0, u0, g6⟩ := getU8_inv g5
        have g6 : m = t0 :: u0 := by injection g6
        subst g6
        rw [getU8_c] at h1
        injection h1 with h1a h1b
        subst h1a
        injection h1b with h1b
        subst h1b
        have h3' : getU16 ⟨b2 :: b3 :: u3, Verif.Reader.OKAY⟩ = (b2.toNat * 256 + b3.toNat, ⟨u3, Verif.Reader.OKAY⟩) := by
          unfold getU16
          simp only [getU8_c]
        rw [h3'] at h3
        injection h3 with h3a h3b
        -- the fields
        have y1 : x1 = (hl, ⟨w1, Verif.Reader.OKAY⟩) := by
          rw [← e1, l2]
          cases hl with
          | none => rw [if_neg (by simpa using l1)]; rfl
          | some v => rw [if_pos (by simpa using l1)]; simp [getU8_c]
        have y2 : x2 = (hc, ⟨w2, Verif.Reader.OKAY⟩) := by
          rw [← e2, c2]
          cases hc with
          | none => rw [if_neg (by simpa using c1)]; rfl
          | some v => rw [if_pos (by simpa using c1)]; simp [getU8_c]
        have y3 : x3 = (sq, ⟨w3, Verif.Reader.OKAY⟩) := by
          rw [← e3, q3]
          cases sq with
          | none => rw [if_neg (by simpa using q1)]; rfl
          | some v => rw [if_pos (by simpa using q1)]; simp [seqBytes, getU16_c (q2 v rfl)]
        rw [y1] at c2 hf1
        rw [y2] at q3 hf1
        rw [y3] at hf1 hf2
        dsimp only at c2 q3 hf1 hf2
        injection c2 with c2
        injection q3 with q3
        refine ⟨⟨t0, ((f0 &&& 0x0f) + 1).toNat, o, hl, hc, sq⟩, b2, b3, ⟨⟨k2, k3⟩, o3, q2⟩, ?_, ?_, hs⟩
        · have hfl : (MsgHdr.mk t0 ((f0 &&& 0x0f) + 1).toNat o hl hc sq).flags = f0 := by
            unfold MsgHdr.flags
            dsimp only
            rw [o2, l1, c1, q1]
            simp only [decide_eq_true_eq]
            exact k1
          rw [hfl]
          simp only [List.cons_append, List.nil_append]
          congr 4
          unfold optFields
          dsimp only
          have ht : (o.getD []).take ((f0 &&& 0x0f) + 1).toNat = o.getD [] := by
            apply List.take_of_length_le
            cases o with
            | none => simp
            | some v => exact Nat.le_of_eq (o3 v rfl)
          rw [ht, ← hf2]
          dsimp only
          have o5 : u3 = o.getD [] ++ s4.rest := by
            have : s3.rest = o.getD [] ++ s4.rest := by rw [o4]
            rw [← this, ← h3b]
          rw [o5, l2]
          dsimp only
          rw [c2, q3]
          simp only [List.append_assoc]
        · rw [← hf1, ← h3a]
          unfold MsgHdr.read
          dsimp only
          rw [k4]
          congr 1
          unfold MsgHdr.flags
          dsimp only
          rw [o2, l1, c1, q1]
          simp only [decide_eq_true_eq]
          exact k1.symm

theorem modify_at (l : Bytes) (x : UInt8) (r : Bytes) (f : UInt8 → UInt8) {i : Nat} (h : i = l.length) : (l ++ x :: r).modify i f = l ++ f x :: r := by
  subst h
  induction l with
  | nil => rfl
  | cons a l ih => simp [ih]

/-- the header of the forwarded message -/
def MsgHdr.next (h : MsgHdr) : MsgHdr := { h with hoplimit := h.hoplimit.map (· - 1), hopcount := h.hopcount.map (· + 1) }

theorem MsgHdr.next_flags (h : MsgHdr) : h.next.flags = h.flags := by
  unfold MsgHdr.flags MsgHdr.next
  cases h.hoplimit <;> cases h.hopcount <;> rfl

theorem MsgHdr.Ok.next {h : MsgHdr} (hok : h.Ok) : h.next.Ok := ⟨hok.len, hok.orig, hok.seqno⟩

theorem hopFields_spec {hd : MsgHdr} (hok : hd.Ok) (b2 b3 : UInt8) (rest : Bytes) :
    let L := (hd.orig.getD []).length
    hopFields ([hd.type, hd.flags, b2, b3] ++ (optFields hd ++ rest)) =
      (hd.hoplimit.map fun _ => 4 + L, hd.hopcount.map fun _ => 4 + L + hd.hoplimit.toList.length) := by
  obtain ⟨f1, f2, f3, f4, f5⟩ := flags_spec hok
  intro L
  have hL : 4 + (if hd.flags &&& 0x80 ≠ 0 then ((hd.flags &&& 0x0f) + 1).toNat else 0) = 4 + L := by
    congr 1
    cases ho : hd.orig with
    | none =>
      rw [if_neg (by rw [f2, ho]; decide)]
      simp [L, ho]
    | some o =>
      rw [if_pos (by rw [f2, ho]; rfl), f1, lo_toNat]
      have := hok.orig o ho
      have := hok.len
      simp [L, ho]
      omega
  unfold hopFields
  have hg : ([hd.type, hd.flags, b2, b3] ++ (optFields hd ++ rest)).getD 1 0 = hd.flags := rfl
  dsimp only
  rw [hg, hL]
  cases hl : hd.hoplimit with
  | none =>
    have : ¬ (hd.flags &&& 0x40 ≠ 0) := by rw [f3, hl]; decide
    rw [if_neg this, if_neg this]
    cases hc : hd.hopcount with
    | none => rw [if_neg (by rw [f4, hc]; decide)]; rfl
    | some v => rw [if_pos (by rw [f4, hc]; rfl)]; rfl
  | some x =>
    have : hd.flags &&& 0x40 ≠ 0 := by rw [f3, hl]; rfl
    rw [if_pos this, if_pos this]
    cases hc : hd.hopcount with
    | none => rw [if_neg (by rw [f4, hc]; decide)]; rfl
    | some v => rw [if_pos (by rw [f4, hc]; rfl)]; rfl

/-- a message is forwarded with the changed header, or not at all if its hop limit is used up -/
theorem forwardMsg_spec {hd : MsgHdr} (hok : hd.Ok) (b2 b3 : UInt8) (rest : Bytes) :
    let m := [hd.type, hd.flags, b2, b3] ++ (optFields hd ++ rest)
    forwardMsg m = if (∃ x, hd.hoplimit = some x ∧ x ≤ 1) then none
      else some ([hd.type, hd.flags, hi m.length, lo m.length] ++ (optFields hd.next ++ rest)) := by
  intro m
  have hh := hopFields_spec hok b2 b3 rest
  dsimp only at hh
  unfold forwardMsg
  rw [show m = [hd.type, hd.flags, b2, b3] ++ (optFields hd ++ rest) from rfl, hh]
  generalize hlen : ([hd.type, hd.flags, b2, b3] ++ (optFields hd ++ rest)).length = len
  dsimp only
  have hset : (([hd.type, hd.flags, b2, b3] ++ (optFields hd ++ rest)).set 2 (hi len)).set 3 (lo len) = [hd.type, hd.flags, hi len, lo len] ++ (optFields hd ++ rest) := rfl
  rw [hset]
  have ht : (hd.orig.getD []).take hd.addrLen = hd.orig.getD [] := by
    apply List.take_of_length_le
    cases ho : hd.orig with
    | none => simp
    | some v => exact Nat.le_of_eq (hok.orig v ho)
  unfold optFields MsgHdr.next
  dsimp only
  rw [ht]
  generalize hd.orig.getD [] = O
  cases hl : hd.hoplimit with
  | none =>
    rw [if_neg (by simp [expired]), if_neg (by simp)]
    cases hc : hd.hopcount with
    | none => rfl
    | some v =>
      simp only [Option.map_none, Option.map_some, change, Option.toList_none, Option.toList_some, List.append_nil, List.length_nil, Nat.add_zero]
      have e1 : [hd.type, hd.flags, hi len, lo len] ++ (O ++ [v] ++ seqBytes hd.seqno ++ rest) = ([hd.type, hd.flags, hi len, lo len] ++ O) ++ v :: (seqBytes hd.seqno ++ rest) := by simp
      rw [e1, modify_at _ _ _ _ (by simp; omega)]
      simp
  | some x =>
    have hget : ([hd.type, hd.flags, b2, b3] ++ (O ++ [x] ++ hd.hopcount.toList ++ seqBytes hd.seqno ++ rest)).getD (4 + O.length) 0 = x := by
      have e1 : [hd.type, hd.flags, b2, b3] ++ (O ++ [x] ++ hd.hopcount.toList ++ seqBytes hd.seqno ++ rest) =
        ([hd.type, hd.flags, b2, b3] ++ O) ++ x :: (hd.hopcount.toList ++ seqBytes hd.seqno ++ rest) := by simp
      rw [e1, List.getD_eq_getElem?_getD, List.getElem?_append_right (by simp; omega),
        show 4 + O.length - ([hd.type, hd.flags, b2, b3] ++ O).length = 0 by simp; omega]
      rfl
    have hexp : expired ([hd.type, hd.flags, b2, b3] ++ (O ++ [x] ++ hd.hopcount.toList ++ seqBytes hd.seqno ++ rest)) (some (4 + O.length)) = decide (x ≤ 1) := by
      unfold expired
      simp only [hget]
    by_cases hx : x ≤ 1
    · rw [if_pos (by simp only [Option.map_some, Option.toList_some]; rw [hexp]; simpa using hx), if_pos ⟨x, rfl, hx⟩]
    · rw [if_neg (by simp only [Option.map_some, Option.toList_some]; rw [hexp]; simpa using hx), if_neg (by rintro ⟨y, hy, hy'⟩; cases hy; exact hx hy')]
      simp only [Option.map_some, change, Option.toList_some, List.length_singleton]
      have e1 : [hd.type, hd.flags, hi len, lo len] ++ (O ++ [x] ++ hd.hopcount.toList ++ seqBytes hd.seqno ++ rest) =
        ([hd.type, hd.flags, hi len, lo len] ++ O) ++ x :: (hd.hopcount.toList ++ seqBytes hd.seqno ++ rest) := by simp
      rw [e1, modify_at _ _ _ _ (by simp; omega)]
      cases hc : hd.hopcount with
      | none => simp
      | some v =>
        simp only [Option.map_some, Option.toList_some]
        have e2 : ([hd.type, hd.flags, hi len, lo len] ++ O) ++ (x - 1) :: ([v] ++ seqBytes hd.seqno ++ rest) =
          ([hd.type, hd.flags, hi len, lo len] ++ O ++ [x - 1]) ++ v :: (seqBytes hd.seqno ++ rest) := by simp
        rw [e2, modify_at _ _ _ _ (by simp; omega)]
        simp

end Verif.Writer
