import Verif.Reader.Parse

/-! Error codes of the parser, and independence of a message from the bytes behind it. -/
namespace Verif.Reader

/-! ### error codes -/

def S.Good (s : S) : Prop := s.res = OKAY ∨ Code s.res

theorem S.Good.code {s : S} (h : s.Good) (h0 : s.res ≠ OKAY) : Code s.res := h.resolve_left h0

theorem good0 (b : Bytes) : (⟨b, OKAY⟩ : S).Good := .inl rfl

theorem getU8_good {s : S} (h : s.Good) : (getU8 s).2.Good := by
  unfold getU8
  split
  · exact h
  · split
    · exact .inr (show Code END_OF_BUFFER by decide)
    · exact h

theorem getU16_good {s : S} (h : s.Good) : (getU16 s).2.Good := getU8_good (getU8_good h)

theorem parseIndex_good {flags n i j : UInt8} {s s' : S} (h : s.Good) (hp : parseIndex flags n s = some (i, j, s')) : s'.Good := by
  unfold parseIndex at hp
  simp only at hp
  split at hp
  · simp only [Option.some.injEq, Prod.mk.injEq] at hp
    rw [← hp.2.2]; exact h
  · split at hp
    · simp only [Option.some.injEq, Prod.mk.injEq] at hp
      rw [← hp.2.2]; exact getU8_good h
    · split at hp
      · simp only [Option.some.injEq, Prod.mk.injEq] at hp
        rw [← hp.2.2]; exact getU8_good (getU8_good h)
      · simp at hp

theorem parseLength_good {flags : UInt8} {n : Nat} {s s' : S} (h : s.Good) (hp : parseLength flags s = some (n, s')) : s'.Good := by
  unfold parseLength at hp
  simp only at hp
  split at hp
  · simp only [Option.some.injEq, Prod.mk.injEq] at hp
    rw [← hp.2]; exact h
  · split at hp
    · simp only [Option.some.injEq, Prod.mk.injEq] at hp
      rw [← hp.2]; exact getU8_good h
    · split at hp
      · have : (getU16 s).2 = s' := by rw [Option.some.inj hp]
        rw [← this]; exact getU16_good h
      · simp at hp

theorem tlvValue_code {flags i j : UInt8} {n : Nat} {e : Int} (h : tlvValue flags i j n = .err e) : Code e := by
  unfold tlvValue at h
  simp only at h
  by_cases h1 : n = 0
  · rw [if_pos h1] at h
    simp at h
  · rw [if_neg h1] at h
    generalize (if j - i + 1 = 1 then false else decide (flags &&& 0x04 ≠ 0)) = mv at h
    by_cases h2 : mv = false
    · rw [if_pos h2] at h
      simp at h
    · rw [if_neg h2] at h
      by_cases h3 : j - i + 1 = 0
      · rw [if_pos h3] at h
        simp at h
      · rw [if_neg h3] at h
        by_cases h4 : n % (j - i + 1).toNat ≠ 0
        · rw [if_pos h4] at h
          rw [← R.err.inj h]; decide
        · rw [if_neg h4] at h
          simp at h

theorem parseTlv_code {id : Nat} {rest : Bytes} {n : UInt8} {e : Int} (h : parseTlv id rest n = .err e) : Code e := by
  unfold parseTlv at h
  simp only at h
  have g1 : (getU8 ⟨rest, OKAY⟩).2.Good := getU8_good (good0 _)
  have g2 := getU8_good g1
  generalize getU8 (getU8 ⟨rest, OKAY⟩).2 = r2 at h g2
  obtain ⟨flags, s2⟩ := r2
  simp only at h g2
  have g3 : (if flags &&& 0x80 ≠ 0 then getU8 s2 else (0, s2)).2.Good := by
    split
    · exact getU8_good g2
    · exact g2
  generalize (if flags &&& 0x80 ≠ 0 then getU8 s2 else (0, s2)) = r3 at h g3
  obtain ⟨ext, s3⟩ := r3
  simp only at h g3
  cases hi : parseIndex flags n s3 with
  | none =>
    rw [hi] at h
    rw [← R.err.inj h]; decide
  | some r =>
    obtain ⟨i, j, s4⟩ := r
    rw [hi] at h
    have g4 := parseIndex_good g3 hi
    simp only at h
    split at h
    · rw [← R.err.inj h]; decide
    · cases hl : parseLength flags s4 with
      | none =>
        rw [hl] at h
        rw [← R.err.inj h]; decide
      | some r =>
        obtain ⟨len, s5⟩ := r
        rw [hl] at h
        have g5 := parseLength_good g4 hl
        simp only at h
        split at h
        · rw [← R.err.inj h]; decide
        · split at h
          · rename_i h0
            rw [← R.err.inj h]
            exact g5.code h0
          · cases ht : tlvValue flags i j len with
            | ub u => rw [ht] at h; simp at h
            | ok r => rw [ht] at h; simp at h
            | err c =>
              rw [ht] at h
              rw [← R.err.inj h]
              exact tlvValue_code ht

theorem tlvLoop_code {mem : Nat → Bool} {c : UInt8} {stop : Nat} {e : Int} :
    ∀ {n k id rest tlvs}, tlvLoop mem c stop n k id rest tlvs = .err e → Code e := by
  intro n
  induction n with
  | zero => intro k id rest tlvs h; simp [tlvLoop] at h
  | succ n ih =>
    intro k id rest tlvs h
    unfold tlvLoop at h
    split at h
    · simp at h
    · cases hp : parseTlv id rest c with
      | ub u => rw [hp] at h; simp at h
      | err c =>
        rw [hp] at h
        rw [← R.err.inj h]
        exact parseTlv_code hp
      | ok r =>
        obtain ⟨t, rest1⟩ := r
        rw [hp] at h
        simp only at h
        split at h
        · rw [← R.err.inj h]; decide
        · exact ih h

theorem parseTlvblock_code {mem : Nat → Bool} {k : Nat} {rest : Bytes} {c : UInt8} {e : Int}
    (h : parseTlvblock mem k rest c = .err e) : Code e := by
  unfold parseTlvblock at h
  simp only at h
  split at h
  · rw [← R.err.inj h]; decide
  · exact tlvLoop_code h

theorem parseHead_code {flags len : UInt8} {s : S} (hs : s.Good) :
    (∀ e, parseHead flags len s = .err e → Code e) ∧ ∀ a b c s', parseHead flags len s = .ok (a, b, c, s') → s'.Good := by
  unfold parseHead
  simp only
  have g := getU8_good hs
  generalize getU8 s = r at g
  obtain ⟨h, s1⟩ := r
  simp only at g ⊢
  split
  · split
    · exact ⟨fun e h => by rw [← R.err.inj h]; decide, by simp⟩
    · split
      · exact ⟨fun e h => by rw [← R.err.inj h]; decide, by simp⟩
      · split
        · simp
        · refine ⟨by simp, ?_⟩
          intro a b c s' h
          simp only [R.ok.injEq, Prod.mk.injEq] at h
          rw [← h.2.2.2]
          exact g
  · refine ⟨by simp, ?_⟩
    intro a b c s' h
    simp only [R.ok.injEq, Prod.mk.injEq] at h
    rw [← h.2.2.2]
    exact hs

theorem parseTail_code {flags len mid : UInt8} {addr : Bytes} {s : S} (hs : s.Good) :
    (∀ e, parseTail flags len mid addr s = .err e → Code e) ∧ ∀ a b s', parseTail flags len mid addr s = .ok (a, b, s') → s'.Good := by
  unfold parseTail
  simp only
  have g := getU8_good hs
  generalize getU8 s = r at g
  obtain ⟨h, s1⟩ := r
  simp only at g ⊢
  split
  · refine ⟨by simp, ?_⟩
    intro a b s' h
    simp only [R.ok.injEq, Prod.mk.injEq] at h
    rw [← h.2.2]
    exact g
  · split
    · split
      · exact ⟨fun e h => by rw [← R.err.inj h]; decide, by simp⟩
      · split
        · exact ⟨fun e h => by rw [← R.err.inj h]; decide, by simp⟩
        · split
          · simp
          · refine ⟨by simp, ?_⟩
            intro a b s' h
            simp only [R.ok.injEq, Prod.mk.injEq] at h
            rw [← h.2.2]
            exact g
    · split
      · exact ⟨fun e h => by rw [← R.err.inj h]; decide, by simp⟩
      · refine ⟨by simp, ?_⟩
        intro a b s' h
        simp only [R.ok.injEq, Prod.mk.injEq] at h
        rw [← h.2.2]
        exact hs

theorem parsePrefix_code {more : Bool} {flags len num : UInt8} {rest : Bytes} {e : Int}
    (h : parsePrefix more flags len num rest = .err e) : Code e := by
  unfold parsePrefix at h
  simp only at h
  split at h
  · simp at h
  · split at h
    · split at h
      · split at h
        · rw [← R.err.inj h]; decide
        · simp at h
      · simp at h
    · split at h
      · split at h
        · rw [← R.err.inj h]; decide
        · simp at h
      · rw [← R.err.inj h]; decide

theorem parseAddrblock_code {more : Bool} {rest : Bytes} {len : UInt8} {e : Int} (h : parseAddrblock more rest len = .err e) : Code e := by
  unfold parseAddrblock at h
  simp only at h
  have g1 : (getU8 ⟨rest, OKAY⟩).2.Good := getU8_good (good0 _)
  generalize getU8 ⟨rest, OKAY⟩ = r1 at h g1
  obtain ⟨num, s1⟩ := r1
  simp only at h g1
  split at h
  · rw [← R.err.inj h]; decide
  · have g2 := getU8_good g1
    generalize getU8 s1 = r2 at h g2
    obtain ⟨flags, s2⟩ := r2
    simp only at h g2
    have gH := parseHead_code (flags := flags) (len := len) g2
    cases hh : parseHead flags len s2 with
    | ub u => rw [hh] at h; simp at h
    | err c => rw [hh] at h; rw [← R.err.inj h]; exact gH.1 c hh
    | ok r =>
      obtain ⟨ms, ml, addr, s3⟩ := r
      rw [hh] at h
      simp only at h
      have g3 := gH.2 _ _ _ _ hh
      have gT := parseTail_code (flags := flags) (len := len) (mid := ml) (addr := addr) g3
      cases ht : parseTail flags len ml addr s3 with
      | ub u => rw [ht] at h; simp at h
      | err c => rw [ht] at h; rw [← R.err.inj h]; exact gT.1 c ht
      | ok r =>
        obtain ⟨ml', addr', s4⟩ := r
        rw [ht] at h
        simp only at h
        have g4 := gT.2 _ _ _ ht
        split at h
        · rw [← R.err.inj h]; decide
        · cases hp : parsePrefix more flags len num (s4.rest.drop (ml'.toNat * num.toNat)) with
          | ub u => rw [hp] at h; simp at h
          | err c => rw [hp] at h; rw [← R.err.inj h]; exact parsePrefix_code hp
          | ok r =>
            obtain ⟨p, ps, rest'⟩ := r
            rw [hp] at h
            simp only at h
            split at h
            · rename_i h0
              rw [← R.err.inj h]
              exact g4.code h0
            · simp at h

theorem blockLoop_code {mem : Nat → Bool} {more : Bool} {len : UInt8} {e : Int} :
    ∀ {n k rest bs}, blockLoop mem more len n k rest bs = .err e → Code e := by
  intro n
  induction n with
  | zero => intro k rest bs h; simp [blockLoop] at h
  | succ n ih =>
    intro k rest bs h
    unfold blockLoop at h
    split at h
    · simp at h
    · split at h
      · rw [← R.err.inj h]; decide
      · cases hp : parseAddrblock more rest len with
        | ub u => rw [hp] at h; simp at h
        | err c => rw [hp] at h; rw [← R.err.inj h]; exact parseAddrblock_code hp
        | ok r =>
          obtain ⟨b, rest1⟩ := r
          rw [hp] at h
          simp only at h
          cases ht : parseTlvblock mem (k + 1) rest1 b.num with
          | ub u => rw [ht] at h; simp at h
          | err c => rw [ht] at h; rw [← R.err.inj h]; exact parseTlvblock_code ht
          | ok r =>
            obtain ⟨tlvs, rest2, k2⟩ := r
            rw [ht] at h
            exact ih h

/-! ### bytes behind a message -/

/-- more bytes behind the parsed ones -/
def S.app (s : S) (r : Bytes) : S := ⟨s.rest ++ r, s.res⟩

theorem getU8_app {s : S} {r : Bytes} (h : (getU8 s).2.res = OKAY) : getU8 (s.app r) = ((getU8 s).1, (getU8 s).2.app r) := by
  obtain ⟨h0, h1⟩ := getU8_ok h
  obtain ⟨rest, res⟩ := s
  simp only at h0 h1
  subst h0
  cases rest with
  | nil => simp at h1
  | cons b rest => simp [S.app, getU8]

theorem getU8_unapp {s : S} {r : Bytes} (h : (getU8 (s.app r)).2.res = OKAY) (hl : r.length ≤ (getU8 (s.app r)).2.rest.length) :
    (getU8 s).2.res = OKAY := by
  obtain ⟨h0, h1⟩ := getU8_ok h
  obtain ⟨rest, res⟩ := s
  simp only [S.app] at h0 h1 hl
  subst h0
  cases rest with
  | nil =>
    have := congrArg List.length h1
    simp only [List.nil_append, List.length_cons] at this
    simp only [List.nil_append] at hl
    omega
  | cons b rest => simp [getU8]

theorem getU16_app {s : S} {r : Bytes} (h : (getU16 s).2.res = OKAY) : getU16 (s.app r) = ((getU16 s).1, (getU16 s).2.app r) := by
  have h2 : (getU8 (getU8 s).2).2.res = OKAY := h
  have h1 := (getU8_ok h2).1
  unfold getU16
  rw [getU8_app h1]
  simp only
  rw [getU8_app h2]

theorem getU16_unapp {s : S} {r : Bytes} (h : (getU16 (s.app r)).2.res = OKAY) (hl : r.length ≤ (getU16 (s.app r)).2.rest.length) :
    (getU16 s).2.res = OKAY := by
  have h2 : (getU8 (getU8 (s.app r)).2).2.res = OKAY := h
  have h1 := (getU8_ok h2).1
  have hl1 : r.length ≤ (getU8 (s.app r)).2.rest.length := Nat.le_trans hl (getU8_suffix _).length_le
  have g1 := getU8_unapp h1 hl1
  have e1 := getU8_app (r := r) g1
  unfold getU16 at hl
  rw [e1] at h2
  simp only at h2
  rw [e1] at hl
  simp only at hl
  exact getU8_unapp h2 hl

/-- the originator address of a message header -/
theorem parseFields_app {type flags : UInt8} {size : Nat} {s s' : S} {h : Hdr} {r : Bytes}
    (hp : parseFields type flags size s = .ok (h, s')) (hr : s'.res = OKAY) : parseFields type flags size (s.app r) = .ok (h, s'.app r) := by
  unfold parseFields at hp ⊢
  simp only at hp ⊢
  generalize ho : (if flags &&& 0x80 ≠ 0 then
      if s.rest.length < ((flags &&& 0x0f) + 1).toNat then (R.err END_OF_BUFFER : R (Option Bytes × S))
      else .ok (some (s.rest.take ((flags &&& 0x0f) + 1).toNat), { s with rest := s.rest.drop ((flags &&& 0x0f) + 1).toNat })
    else .ok (none, s)) = o at hp
  cases o with
  | ub u => simp at hp
  | err e => simp at hp
  | ok o =>
    obtain ⟨orig, s1⟩ := o
    simp only [R.ok.injEq] at hp
    have ho' : (if flags &&& 0x80 ≠ 0 then
      if (s.app r).rest.length < ((flags &&& 0x0f) + 1).toNat then (R.err END_OF_BUFFER : R (Option Bytes × S))
      else .ok (some ((s.app r).rest.take ((flags &&& 0x0f) + 1).toNat), { s.app r with rest := (s.app r).rest.drop ((flags &&& 0x0f) + 1).toNat })
      else .ok (none, s.app r)) = .ok (orig, s1.app r) := by
      split at ho
      · split at ho
        · simp at ho
        · rename_i h1 h2
          rw [if_pos h1, if_neg (by simp only [S.app, List.length_append]; omega)]
          simp only [R.ok.injEq, Prod.mk.injEq] at ho ⊢
          obtain ⟨rfl, rfl⟩ := ho
          simp only [S.app]
          rw [List.take_append_of_le_length (by omega), List.drop_append_of_le_length (by omega)]
          exact ⟨rfl, rfl⟩
      · rename_i h1
        rw [if_neg h1]
        simp only [R.ok.injEq, Prod.mk.injEq] at ho ⊢
        obtain ⟨rfl, rfl⟩ := ho
        exact ⟨rfl, rfl⟩
    rw [ho']
    simp only
    have key8 : ∀ (c : Prop) [Decidable c] (x : S),
        (if c then (fun r : UInt8 × S => (some r.1, r.2)) (getU8 x) else (none, x)).2.res = OKAY →
        x.res = OKAY ∧ (if c then (fun r : UInt8 × S => (some r.1, r.2)) (getU8 (x.app r)) else (none, x.app r)) =
          ((if c then (fun r : UInt8 × S => (some r.1, r.2)) (getU8 x) else (none, x)).1,
           (if c then (fun r : UInt8 × S => (some r.1, r.2)) (getU8 x) else (none, x)).2.app r) := by
      intro c _ x hx
      by_cases hc : c
      · simp only [if_pos hc] at hx ⊢
        rw [getU8_app hx]
        exact ⟨(getU8_ok hx).1, rfl⟩
      · simp only [if_neg hc] at hx ⊢
        exact ⟨hx, trivial⟩
    have key16 : ∀ (c : Prop) [Decidable c] (x : S),
        (if c then (fun r : Nat × S => (some r.1, r.2)) (getU16 x) else (none, x)).2.res = OKAY →
        x.res = OKAY ∧ (if c then (fun r : Nat × S => (some r.1, r.2)) (getU16 (x.app r)) else (none, x.app r)) =
          ((if c then (fun r : Nat × S => (some r.1, r.2)) (getU16 x) else (none, x)).1,
           (if c then (fun r : Nat × S => (some r.1, r.2)) (getU16 x) else (none, x)).2.app r) := by
      intro c _ x hx
      by_cases hc : c
      · simp only [if_pos hc] at hx ⊢
        rw [getU16_app hx]
        exact ⟨(getU16_ok hx).1, rfl⟩
      · simp only [if_neg hc] at hx ⊢
        exact ⟨hx, trivial⟩
    obtain ⟨rfl, rfl⟩ := Prod.mk.inj hp
    have k3 := key16 _ _ hr
    have k2 := key8 _ _ k3.1
    have k1 := key8 _ _ k2.1
    rw [k1.2]
    simp only
    rw [k2.2]
    simp only
    rw [k3.2]

theorem parseFields_unapp {type flags : UInt8} {size : Nat} {s s' : S} {h : Hdr} {r : Bytes}
    (hp : parseFields type flags size (s.app r) = .ok (h, s')) (hr : s'.res = OKAY) (hl : r.length ≤ s'.rest.length) :
    ∃ h'' s'', parseFields type flags size s = .ok (h'', s'') ∧ s''.res = OKAY := by
  have hkey8 : ∀ (c : Prop) [Decidable c] (x : S),
      (if c then (fun r : UInt8 × S => (some r.1, r.2)) (getU8 (x.app r)) else (none, x.app r)).2.res = OKAY →
      r.length ≤ (if c then (fun r : UInt8 × S => (some r.1, r.2)) (getU8 (x.app r)) else (none, x.app r)).2.rest.length →
      (if c then (fun r : UInt8 × S => (some r.1, r.2)) (getU8 x) else (none, x)).2.res = OKAY ∧
      (if c then (fun r : UInt8 × S => (some r.1, r.2)) (getU8 (x.app r)) else (none, x.app r)) =
        ((if c then (fun r : UInt8 × S => (some r.1, r.2)) (getU8 x) else (none, x)).1,
         (if c then (fun r : UInt8 × S => (some r.1, r.2)) (getU8 x) else (none, x)).2.app r) := by
    intro c _ x hx hlx
    by_cases hc : c
    · simp only [if_pos hc] at hx hlx ⊢
      have := getU8_unapp hx hlx
      rw [getU8_app this]
      exact ⟨this, rfl⟩
    · simp only [if_neg hc] at hx ⊢
      exact ⟨hx, trivial⟩
  have hkey16 : ∀ (c : Prop) [Decidable c] (x : S),
      (if c then (fun r : Nat × S => (some r.1, r.2)) (getU16 (x.app r)) else (none, x.app r)).2.res = OKAY →
      r.length ≤ (if c then (fun r : Nat × S => (some r.1, r.2)) (getU16 (x.app r)) else (none, x.app r)).2.rest.length →
      (if c then (fun r : Nat × S => (some r.1, r.2)) (getU16 x) else (none, x)).2.res = OKAY := by
    intro c _ x hx hlx
    by_cases hc : c
    · simp only [if_pos hc] at hx hlx ⊢
      exact getU16_unapp hx hlx
    · simp only [if_neg hc] at hx ⊢
      exact hx
  have hmono8 : ∀ (c : Prop) [Decidable c] (x : S),
      ((if c then (fun r : UInt8 × S => (some r.1, r.2)) (getU8 x) else (none, x)).2.res = OKAY → x.res = OKAY) ∧
      (if c then (fun r : UInt8 × S => (some r.1, r.2)) (getU8 x) else (none, x)).2.rest.length ≤ x.rest.length := by
    intro c _ x
    by_cases hc : c
    · simp only [if_pos hc]
      exact ⟨fun h => (getU8_ok h).1, (getU8_suffix x).length_le⟩
    · simp only [if_neg hc]
      exact ⟨id, Nat.le_refl _⟩
  have hmono16 : ∀ (c : Prop) [Decidable c] (x : S),
      ((if c then (fun r : Nat × S => (some r.1, r.2)) (getU16 x) else (none, x)).2.res = OKAY → x.res = OKAY) ∧
      (if c then (fun r : Nat × S => (some r.1, r.2)) (getU16 x) else (none, x)).2.rest.length ≤ x.rest.length := by
    intro c _ x
    by_cases hc : c
    · simp only [if_pos hc]
      exact ⟨fun h => (getU16_ok h).1, (getU16_suffix x).length_le⟩
    · simp only [if_neg hc]
      exact ⟨id, Nat.le_refl _⟩
  unfold parseFields at hp ⊢
  simp only at hp ⊢
  generalize ho : (if flags &&& 0x80 ≠ 0 then
      if (s.app r).rest.length < ((flags &&& 0x0f) + 1).toNat then (R.err END_OF_BUFFER : R (Option Bytes × S))
      else .ok (some ((s.app r).rest.take ((flags &&& 0x0f) + 1).toNat), { s.app r with rest := (s.app r).rest.drop ((flags &&& 0x0f) + 1).toNat })
    else .ok (none, s.app r)) = o at hp
  cases o with
  | ub u => simp at hp
  | err e => simp at hp
  | ok o =>
    obtain ⟨orig, s1⟩ := o
    simp only [R.ok.injEq] at hp
    obtain ⟨hh, rfl⟩ := Prod.mk.inj hp
    -- result and length before
    have r3 := (hmono16 _ _).1 hr
    have l3 := Nat.le_trans hl (hmono16 _ _).2
    have r2 := (hmono8 _ _).1 r3
    have l2 := Nat.le_trans l3 (hmono8 _ _).2
    have l1 := Nat.le_trans l2 (hmono8 _ _).2
    have hO : ∃ o1 x, (if flags &&& 0x80 ≠ 0 then
        if s.rest.length < ((flags &&& 0x0f) + 1).toNat then (R.err END_OF_BUFFER : R (Option Bytes × S))
        else .ok (some (s.rest.take ((flags &&& 0x0f) + 1).toNat), { s with rest := s.rest.drop ((flags &&& 0x0f) + 1).toNat })
        else .ok (none, s)) = .ok (o1, x) ∧ s1 = x.app r := by
      split at ho
      · rename_i h1
        split at ho
        · simp at ho
        · rename_i h2
          simp only [R.ok.injEq, Prod.mk.injEq] at ho
          have hs1 := ho.2
          rw [← hs1] at l1
          simp only [S.app, List.length_drop, List.length_append] at l1 h2
          rw [if_pos h1, if_neg (by omega)]
          refine ⟨_, _, rfl, ?_⟩
          rw [← hs1]
          simp only [S.app]
          rw [List.drop_append_of_le_length (by omega)]
      · rename_i h1
        rw [if_neg h1]
        simp only [R.ok.injEq, Prod.mk.injEq] at ho
        exact ⟨_, _, rfl, ho.2.symm⟩
    obtain ⟨o1, x, hO, rfl⟩ := hO
    rw [hO]
    simp only
    have k1 := hkey8 _ _ r2 l2
    rw [k1.2] at r3 l3
    simp only at r3 l3
    have k2 := hkey8 _ _ r3 l3
    rw [k1.2] at hr hl
    simp only at hr hl
    rw [k2.2] at hr hl
    simp only at hr hl
    have k3 := hkey16 _ _ hr hl
    exact ⟨_, _, rfl, k3⟩

theorem parseHeader_app {m r : Bytes} {h : Hdr} {s : S} (hp : parseHeader m = .ok (h, s)) : parseHeader (m ++ r) = .ok (h, s.app r) := by
  unfold parseHeader at hp ⊢
  simp only at hp ⊢
  cases hF : parseFields (getU8 ⟨m, OKAY⟩).1 (getU8 (getU8 ⟨m, OKAY⟩).2).1 (getU16 (getU8 (getU8 ⟨m, OKAY⟩).2).2).1
      (getU16 (getU8 (getU8 ⟨m, OKAY⟩).2).2).2 with
  | ub u => rw [hF] at hp; simp at hp
  | err e => rw [hF] at hp; simp at hp
  | ok x =>
    obtain ⟨h', s'⟩ := x
    rw [hF] at hp
    simp only at hp
    split at hp
    · simp at hp
    · rename_i hsz
      split at hp
      · simp at hp
      · rename_i hres
        have hres : s'.res = OKAY := by simpa using hres
        simp only [R.ok.injEq, Prod.mk.injEq] at hp
        obtain ⟨rfl, rfl⟩ := hp
        have hS := parseFields_sat (getU8 ⟨m, OKAY⟩).1 (getU8 (getU8 ⟨m, OKAY⟩).2).1 (getU16 (getU8 (getU8 ⟨m, OKAY⟩).2).2).1
          (getU16 (getU8 (getU8 ⟨m, OKAY⟩).2).2).2
        rw [hF] at hS
        have r3 := hS.2.2.2.2.2 hres
        have r2 := (getU16_ok r3).1
        have r1 := (getU8_ok r2).1
        have e1 := getU8_app (r := r) r1
        have e2 := getU8_app (r := r) r2
        have e3 := getU16_app (r := r) r3
        have e0 : (⟨m ++ r, OKAY⟩ : S) = S.app ⟨m, OKAY⟩ r := rfl
        rw [e0, e1]
        simp only
        rw [e2]
        simp only
        rw [e3]
        simp only
        rw [parseFields_app hF hres]
        simp only
        rw [if_neg (by rw [List.length_append]; omega), if_neg (by simp [S.app, hres])]

theorem parseHeader_unapp {m r : Bytes} {h : Hdr} {s : S} (hp : parseHeader (m ++ r) = .ok (h, s)) (hl : r.length ≤ s.rest.length)
    (hm : h.size ≤ m.length) : ∃ s', parseHeader m = .ok (h, s') ∧ s = s'.app r := by
  suffices ∃ h' s', parseHeader m = .ok (h', s') by
    obtain ⟨h', s', hs⟩ := this
    have := parseHeader_app (r := r) hs
    rw [hp] at this
    simp only [R.ok.injEq, Prod.mk.injEq] at this
    obtain ⟨rfl, rfl⟩ := this
    exact ⟨s', hs, rfl⟩
  unfold parseHeader at hp ⊢
  simp only at hp ⊢
  have e0 : (⟨m ++ r, OKAY⟩ : S) = S.app ⟨m, OKAY⟩ r := rfl
  rw [e0] at hp
  cases hF : parseFields (getU8 (S.app ⟨m, OKAY⟩ r)).1 (getU8 (getU8 (S.app ⟨m, OKAY⟩ r)).2).1 (getU16 (getU8 (getU8 (S.app ⟨m, OKAY⟩ r)).2).2).1
      (getU16 (getU8 (getU8 (S.app ⟨m, OKAY⟩ r)).2).2).2 with
  | ub u => rw [hF] at hp; simp at hp
  | err e => rw [hF] at hp; simp at hp
  | ok x =>
    obtain ⟨h', s'⟩ := x
    rw [hF] at hp
    simp only at hp
    split at hp
    · simp at hp
    · rename_i hsz
      split at hp
      · simp at hp
      · rename_i hres
        have hres : s'.res = OKAY := by simpa using hres
        simp only [R.ok.injEq, Prod.mk.injEq] at hp
        obtain ⟨rfl, rfl⟩ := hp
        have hS := parseFields_sat (getU8 (S.app ⟨m, OKAY⟩ r)).1 (getU8 (getU8 (S.app ⟨m, OKAY⟩ r)).2).1 (getU16 (getU8 (getU8 (S.app ⟨m, OKAY⟩ r)).2).2).1
          (getU16 (getU8 (getU8 (S.app ⟨m, OKAY⟩ r)).2).2).2
        rw [hF] at hS
        have r3 := hS.2.2.2.2.2 hres
        have l3 := Nat.le_trans hl hS.1.length_le
        have hsize := hS.2.1
        have r2 := (getU16_ok r3).1
        have l2 := Nat.le_trans l3 (getU16_suffix _).length_le
        have r1 := (getU8_ok r2).1
        have l1 := Nat.le_trans l2 (getU8_suffix _).length_le
        have g1 := getU8_unapp r1 l1
        have e1 := getU8_app (r := r) g1
        rw [e1] at r2 l2 r3 l3 hF hsize
        simp only at r2 l2 r3 l3 hF hsize
        have g2 := getU8_unapp r2 l2
        have e2 := getU8_app (r := r) g2
        rw [e2] at r3 l3 hF hsize
        simp only at r3 l3 hF hsize
        have g3 := getU16_unapp r3 l3
        have e3 := getU16_app (r := r) g3
        rw [e3] at hF hsize
        simp only at hF hsize
        obtain ⟨h'', s'', hF', hr'⟩ := parseFields_unapp hF hres hl
        rw [hF']
        simp only
        rw [if_neg (by rw [← hsize]; omega), if_neg (by simp [hr'])]
        exact ⟨h'', s'', rfl⟩

theorem parsePrefix_more {more more' : Bool} {flags len num : UInt8} {rest : Bytes} {x : UInt8 × Option Bytes × Bytes}
    (h : parsePrefix more flags len num rest = .ok x) : parsePrefix more' flags len num rest = .ok x := by
  unfold parsePrefix at h ⊢
  simp only at h ⊢
  split at h
  · rename_i h1
    rw [if_pos h1]
    exact h
  · rename_i h1
    rw [if_neg h1]
    split at h
    · rename_i h2
      rw [if_pos h2]
      cases rest with
      | nil =>
        simp only at h
        split at h <;> simp at h
      | cons p rest => exact h
    · rename_i h2
      rw [if_neg h2]
      exact h

theorem parseAddrblock_more {more more' : Bool} {rest : Bytes} {len : UInt8} {x : Block × Bytes}
    (h : parseAddrblock more rest len = .ok x) : parseAddrblock more' rest len = .ok x := by
  unfold parseAddrblock at h ⊢
  simp only at h ⊢
  split at h
  · simp at h
  · rename_i h1
    rw [if_neg h1]
    cases hh : parseHead (getU8 (getU8 ⟨rest, OKAY⟩).2).1 len (getU8 (getU8 ⟨rest, OKAY⟩).2).2 with
    | ub u => rw [hh] at h; simp at h
    | err e => rw [hh] at h; simp at h
    | ok r =>
      obtain ⟨ms, ml, addr, s3⟩ := r
      rw [hh] at h
      simp only at h ⊢
      cases ht : parseTail (getU8 (getU8 ⟨rest, OKAY⟩).2).1 len ml addr s3 with
      | ub u => rw [ht] at h; simp at h
      | err e => rw [ht] at h; simp at h
      | ok r =>
        obtain ⟨ml', addr', s4⟩ := r
        rw [ht] at h
        simp only at h ⊢
        split at h
        · simp at h
        · rename_i h2
          rw [if_neg h2]
          cases hp : parsePrefix more (getU8 (getU8 ⟨rest, OKAY⟩).2).1 len (getU8 ⟨rest, OKAY⟩).1 (s4.rest.drop (ml'.toNat * (getU8 ⟨rest, OKAY⟩).1.toNat)) with
          | ub u => rw [hp] at h; simp at h
          | err e => rw [hp] at h; simp at h
          | ok r =>
            rw [parsePrefix_more (more' := more') hp]
            rw [hp] at h
            exact h

theorem blockLoop_more {mem : Nat → Bool} {more more' : Bool} {len : UInt8} {x : List Block × Nat} :
    ∀ {n k rest bs}, blockLoop mem more len n k rest bs = .ok x → blockLoop mem more' len n k rest bs = .ok x := by
  intro n
  induction n with
  | zero => intro k rest bs h; simp [blockLoop] at h
  | succ n ih =>
    intro k rest bs h
    unfold blockLoop at h ⊢
    split at h
    · rename_i h1
      rw [if_pos h1]
      exact h
    · rename_i h1
      rw [if_neg h1]
      split at h
      · simp at h
      · rename_i h2
        rw [if_neg h2]
        cases hp : parseAddrblock more rest len with
        | ub u => rw [hp] at h; simp at h
        | err e => rw [hp] at h; simp at h
        | ok r =>
          obtain ⟨b, rest1⟩ := r
          rw [parseAddrblock_more (more' := more') hp]
          rw [hp] at h
          simp only at h ⊢
          cases ht : parseTlvblock mem (k + 1) rest1 b.num with
          | ub u => rw [ht] at h; simp at h
          | err e => rw [ht] at h; simp at h
          | ok r =>
            obtain ⟨tlvs, rest2, k2⟩ := r
            rw [ht] at h
            exact ih h

theorem parseHeader_len {start : Bytes} {h : Hdr} {s : S} (hp : parseHeader start = .ok (h, s)) :
    s.rest.length ≤ start.length ∧ sizeField start = some h.size ∧ h.size ≤ start.length := by
  have := parseHeader_sat start
  rw [hp] at this
  exact ⟨this.1.length_le, this.2.1, this.2.2.1⟩

theorem parseTlvblock_nil {mem : Nat → Bool} {k : Nat} {c : UInt8} : parseTlvblock mem k [] c = .err END_OF_BUFFER := by
  unfold parseTlvblock
  simp only
  rw [if_pos (by rw [List.length_nil]; omega)]

theorem parseMessage_app {mem : Nat → Bool} {k : Nat} {m r : Bytes} {x : Msg × Nat} (hsz : sizeField m = some m.length)
    (hp : parseMessage mem k m = .ok x) : parseMessage mem k (m ++ r) = .ok x := by
  unfold parseMessage at hp ⊢
  cases hH : parseHeader m with
  | ub u => rw [hH] at hp; simp at hp
  | err e => rw [hH] at hp; simp at hp
  | ok y =>
    obtain ⟨h, s⟩ := y
    rw [parseHeader_app hH]
    rw [hH] at hp
    obtain ⟨hl, hs, _⟩ := parseHeader_len hH
    rw [hsz] at hs
    have hs := Option.some.inj hs
    simp only at hp ⊢
    have hb : (s.app r).rest.take (h.size - ((m ++ r).length - (s.app r).rest.length)) = s.rest.take (h.size - (m.length - s.rest.length)) := by
      simp only [S.app, List.length_append]
      rw [show m.length + r.length - (s.rest.length + r.length) = m.length - s.rest.length by omega]
      exact List.take_append_of_le_length (by omega)
    rw [hb]
    cases hT : parseTlvblock mem k (s.rest.take (h.size - (m.length - s.rest.length))) 0 with
    | ub u => rw [hT] at hp; simp at hp
    | err e => rw [hT] at hp; simp at hp
    | ok y =>
      obtain ⟨tlvs, rest, k'⟩ := y
      rw [hT] at hp
      simp only at hp ⊢
      cases hB : blockLoop mem (decide (h.size < m.length)) h.addrLen (rest.length + 1) k' rest [] with
      | ub u => rw [hB] at hp; simp at hp
      | err e => rw [hB] at hp; simp at hp
      | ok y =>
        rw [blockLoop_more (more' := decide (h.size < (m ++ r).length)) hB]
        rw [hB] at hp
        exact hp

theorem sizeField_append {m r : Bytes} (hsz : sizeField m = some m.length) : sizeField (m ++ r) = some m.length := by
  unfold sizeField at hsz
  split at hsz
  · rename_i a b c d e
    rw [← hsz]
    rfl
  · simp at hsz

theorem parseMessage_unapp {mem : Nat → Bool} {k : Nat} {m r : Bytes} {x : Msg × Nat} (hsz : sizeField m = some m.length)
    (hp : parseMessage mem k (m ++ r) = .ok x) : parseMessage mem k m = .ok x := by
  unfold parseMessage at hp ⊢
  cases hH : parseHeader (m ++ r) with
  | ub u => rw [hH] at hp; simp at hp
  | err e => rw [hH] at hp; simp at hp
  | ok y =>
    obtain ⟨h, s⟩ := y
    obtain ⟨hl, hs, _⟩ := parseHeader_len hH
    rw [sizeField_append hsz] at hs
    have hs := Option.some.inj hs
    rw [hH] at hp
    simp only at hp
    by_cases hlen : r.length ≤ s.rest.length
    · obtain ⟨s', hH', rfl⟩ := parseHeader_unapp hH hlen (by omega)
      rw [hH']
      obtain ⟨hl', _, _⟩ := parseHeader_len hH'
      simp only
      have hb : (s'.app r).rest.take (h.size - ((m ++ r).length - (s'.app r).rest.length)) = s'.rest.take (h.size - (m.length - s'.rest.length)) := by
        simp only [S.app, List.length_append]
        rw [show m.length + r.length - (s'.rest.length + r.length) = m.length - s'.rest.length by omega]
        exact List.take_append_of_le_length (by omega)
      rw [hb] at hp
      cases hT : parseTlvblock mem k (s'.rest.take (h.size - (m.length - s'.rest.length))) 0 with
      | ub u => rw [hT] at hp; simp at hp
      | err e => rw [hT] at hp; simp at hp
      | ok y =>
        obtain ⟨tlvs, rest, k'⟩ := y
        rw [hT] at hp
        simp only at hp ⊢
        cases hB : blockLoop mem (decide (h.size < (m ++ r).length)) h.addrLen (rest.length + 1) k' rest [] with
        | ub u => rw [hB] at hp; simp at hp
        | err e => rw [hB] at hp; simp at hp
        | ok y =>
          rw [blockLoop_more (more' := decide (h.size < m.length)) hB]
          rw [hB] at hp
          exact hp
    · exfalso
      have : s.rest.take (h.size - ((m ++ r).length - s.rest.length)) = [] := by
        rw [List.length_append, show h.size - (m.length + r.length - s.rest.length) = 0 by omega]
        rfl
      rw [this, parseTlvblock_nil] at hp
      simp at hp

/-- whether a message is accepted, and what is read, does not depend on the bytes behind it -/
theorem parseMessage_local {mem : Nat → Bool} {k : Nat} {m r : Bytes} {x : Msg × Nat} (hsz : sizeField m = some m.length) :
    parseMessage mem k (m ++ r) = .ok x ↔ parseMessage mem k m = .ok x :=
  ⟨parseMessage_unapp hsz, parseMessage_app hsz⟩

/-! ### error codes of messages and packets -/

theorem parseFields_code {type flags : UInt8} {size : Nat} {s : S} (hs : s.Good) :
    (∀ e, parseFields type flags size s = .err e → Code e) ∧ ∀ h s', parseFields type flags size s = .ok (h, s') → s'.Good := by
  have key8 : ∀ (c : Prop) [Decidable c] (x : S), x.Good → (if c then (fun r : UInt8 × S => (some r.1, r.2)) (getU8 x) else (none, x)).2.Good := by
    intro c _ x hx
    split
    · exact getU8_good hx
    · exact hx
  have key16 : ∀ (c : Prop) [Decidable c] (x : S), x.Good → (if c then (fun r : Nat × S => (some r.1, r.2)) (getU16 x) else (none, x)).2.Good := by
    intro c _ x hx
    split
    · exact getU16_good hx
    · exact hx
  unfold parseFields
  simp only
  generalize ho : (if flags &&& 0x80 ≠ 0 then
      if s.rest.length < ((flags &&& 0x0f) + 1).toNat then (R.err END_OF_BUFFER : R (Option Bytes × S))
      else .ok (some (s.rest.take ((flags &&& 0x0f) + 1).toNat), { s with rest := s.rest.drop ((flags &&& 0x0f) + 1).toNat })
    else .ok (none, s)) = o
  cases o with
  | ub u => simp
  | err e =>
    simp only [R.err.injEq, forall_eq', reduceCtorEq, false_implies, implies_true, and_true]
    split at ho
    · split at ho
      · rw [← R.err.inj ho]; decide
      · simp at ho
    · simp at ho
  | ok o =>
    obtain ⟨orig, s1⟩ := o
    have g1 : s1.Good := by
      split at ho
      · split at ho
        · simp at ho
        · simp only [R.ok.injEq, Prod.mk.injEq] at ho
          rw [← ho.2]; exact hs
      · simp only [R.ok.injEq, Prod.mk.injEq] at ho
        rw [← ho.2]; exact hs
    refine ⟨by simp, ?_⟩
    intro h s' hh
    simp only [R.ok.injEq, Prod.mk.injEq] at hh
    rw [← hh.2]
    exact key16 _ _ (key8 _ _ (key8 _ _ g1))

theorem parseHeader_code {start : Bytes} {e : Int} (h : parseHeader start = .err e) : Code e := by
  unfold parseHeader at h
  simp only at h
  have gF := parseFields_code (type := (getU8 ⟨start, OKAY⟩).1) (flags := (getU8 (getU8 ⟨start, OKAY⟩).2).1)
    (size := (getU16 (getU8 (getU8 ⟨start, OKAY⟩).2).2).1) (getU16_good (getU8_good (getU8_good (good0 start))))
  cases hF : parseFields (getU8 ⟨start, OKAY⟩).1 (getU8 (getU8 ⟨start, OKAY⟩).2).1 (getU16 (getU8 (getU8 ⟨start, OKAY⟩).2).2).1
      (getU16 (getU8 (getU8 ⟨start, OKAY⟩).2).2).2 with
  | ub u => rw [hF] at h; simp at h
  | err c => rw [hF] at h; rw [← R.err.inj h]; exact gF.1 c hF
  | ok x =>
    obtain ⟨h', s'⟩ := x
    rw [hF] at h
    simp only at h
    split at h
    · rw [← R.err.inj h]; decide
    · split at h
      · rename_i h0
        rw [← R.err.inj h]
        exact (gF.2 _ _ hF).code h0
      · simp at h

theorem parseMessage_code {mem : Nat → Bool} {k : Nat} {start : Bytes} {e : Int} (h : parseMessage mem k start = .err e) : Code e := by
  unfold parseMessage at h
  cases hH : parseHeader start with
  | ub u => rw [hH] at h; simp at h
  | err c => rw [hH] at h; rw [← R.err.inj h]; exact parseHeader_code hH
  | ok y =>
    obtain ⟨hd, s⟩ := y
    rw [hH] at h
    simp only at h
    cases hT : parseTlvblock mem k (s.rest.take (hd.size - (start.length - s.rest.length))) 0 with
    | ub u => rw [hT] at h; simp at h
    | err c => rw [hT] at h; rw [← R.err.inj h]; exact parseTlvblock_code hT
    | ok y =>
      obtain ⟨tlvs, rest, k'⟩ := y
      rw [hT] at h
      simp only at h
      cases hB : blockLoop mem (decide (hd.size < start.length)) hd.addrLen (rest.length + 1) k' rest [] with
      | ub u => rw [hB] at h; simp at h
      | err c => rw [hB] at h; rw [← R.err.inj h]; exact blockLoop_code hB
      | ok y => rw [hB] at h; simp at h

theorem parsePacket_code {mem : Nat → Bool} {buf : Bytes} {e : Int} (h : parsePacket mem buf = .err e) : Code e := by
  unfold parsePacket at h
  simp only at h
  split at h
  · rw [← R.err.inj h]; decide
  · have g1 : (getU8 ⟨buf, OKAY⟩).2.Good := getU8_good (good0 _)
    have g2 : (if (getU8 ⟨buf, OKAY⟩).1 &&& 0x08 ≠ 0 then (getU16 (getU8 ⟨buf, OKAY⟩).2).2 else (getU8 ⟨buf, OKAY⟩).2).Good := by
      split
      · exact getU16_good g1
      · exact g1
    generalize (if (getU8 ⟨buf, OKAY⟩).1 &&& 0x08 ≠ 0 then (getU16 (getU8 ⟨buf, OKAY⟩).2).2 else (getU8 ⟨buf, OKAY⟩).2) = s2 at h g2
    split at h
    · rename_i h0
      rw [← R.err.inj h]
      exact g2.code h0
    · split at h
      · cases hT : parseTlvblock mem 0 s2.rest 0 with
        | ub u => rw [hT] at h; simp at h
        | err c => rw [hT] at h; rw [← R.err.inj h]; exact parseTlvblock_code hT
        | ok y => rw [hT] at h; simp at h
      · simp at h

end Verif.Reader
