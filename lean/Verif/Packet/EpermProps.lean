import Verif.Packet.Eperm
/-
C171: warnings about packets that must not be sent are limited, and none is held back for long.
-/
namespace Verif.Packet

/-! ## Specification -/

/-- Times in order (newest first), from `t0` on. -/
def Ordered (t0 : Nat) : List Nat → Prop
  | [] => True
  | t :: ts => t0 ≤ t ∧ (∀ x ∈ ts, x ≤ t) ∧ Ordered t0 ts

/-- The number of warnings within the minute that begins at `a`. -/
def inMinute (a : Nat) (ws : List (Nat × Warn)) : Nat :=
  (ws.filter fun w => decide (a ≤ w.1 ∧ w.1 < a + 60000)).length

/-! ## Lemmas -/

theorem inMinute_cons (a : Nat) (w : Nat × Warn) (ws : List (Nat × Warn)) :
    inMinute a (w :: ws) = (if a ≤ w.1 ∧ w.1 < a + 60000 then 1 else 0) + inMinute a ws := by
  unfold inMinute
  by_cases h : a ≤ w.1 ∧ w.1 < a + 60000
  · rw [List.filter_cons_of_pos (by simpa using h), if_pos h, List.length_cons, Nat.add_comm]
  · rw [List.filter_cons_of_neg (by simpa using h), if_neg h, Nat.zero_add]

theorem inMinute_append (a : Nat) (u v : List (Nat × Warn)) : inMinute a (u ++ v) = inMinute a u + inMinute a v := by
  unfold inMinute
  rw [List.filter_append, List.length_append]

theorem inMinute_le (a : Nat) (u : List (Nat × Warn)) : inMinute a u ≤ u.length := List.length_filter_le _ _

theorem inMinute_zero (a : Nat) (u : List (Nat × Warn)) (h : ∀ w ∈ u, w.1 < a) : inMinute a u = 0 := by
  unfold inMinute
  rw [List.length_eq_zero_iff, List.filter_eq_nil_iff]
  intro w hw
  have := h w hw
  simp only [decide_eq_true_eq]
  omega

/-- The current interval of measurement has warned `cur`, the ones before `prev`. -/
structure Limited (s : Lim) (cur prev : List (Nat × Warn)) : Prop where
  curLen : cur.length ≤ if s.supp then 1 else s.count
  count : if s.supp then 1 ≤ s.count ∧ s.time ∈ cur.map Prod.fst else s.count ≤ 11
  prevTime : ∀ w ∈ prev, w.1 ≤ s.time
  curTime : ∀ w ∈ cur, w.1 < s.time + 60000
  prevLen : ∀ a, s.time < a + 60000 → inMinute a prev ≤ if s.supp then 21 else 10
  all : ∀ a, inMinute a (cur ++ prev) ≤ 22

/-- A new interval which begins with a warning. -/
theorem limited_new {s : Lim} {cur prev : List (Nat × Warn)} {t : Nat} {w : Warn} {supp : Bool}
    (hi : Limited s cur prev) (hs : s.time ≤ t) (hcur : ∀ x ∈ cur, x.1 ≤ t)
    (h : (supp = true ∧ s.supp = false) ∨
      (s.time + 60000 ≤ t ∧ (supp = true ∨ s.supp = true ∨ s.count ≤ 10 ∨ s.time + 120000 ≤ t))) :
    Limited ⟨supp, t, 1⟩ [(t, w)] (cur ++ prev) := by
  have hc : cur.length ≤ 11 := by
    have h1 := hi.curLen; have h2 := hi.count
    cases hsu : s.supp <;> simp only [hsu] at h1 h2 <;> simp at h1 h2 <;> omega
  have hprev : ∀ a, t < a + 60000 → inMinute a (cur ++ prev) ≤ if supp then 21 else 10 := by
    intro a ha
    rw [inMinute_append]
    have h1 := inMinute_le a cur
    rcases h with ⟨h2, h3⟩ | ⟨h2, h3⟩
    · have := hi.prevLen a (by omega)
      rw [h3] at this
      rw [h2]
      simp at this ⊢
      omega
    · rw [inMinute_zero a prev (fun x hx => by have := hi.prevTime x hx; omega)]
      cases supp with
      | true => simp; omega
      | false =>
        rcases h3 with h3 | h3 | h3 | h3
        · cases h3
        · have h4 := hi.curLen
          rw [h3] at h4
          simp at h4 ⊢
          omega
        · have h4 := hi.curLen
          cases hsu : s.supp <;> rw [hsu] at h4 <;> simp at h4 ⊢ <;> omega
        · rw [inMinute_zero a cur (fun x hx => by have := hi.curTime x hx; omega)]
          simp
  refine ⟨?_, ?_, ?_, ?_, hprev, ?_⟩
  · show 1 ≤ if supp then 1 else 1
    cases supp <;> simp
  · cases supp <;> simp
  · intro x hx
    rcases List.mem_append.mp hx with h1 | h1
    · exact hcur x h1
    · exact Nat.le_trans (hi.prevTime x h1) hs
  · intro x hx
    rw [List.mem_singleton.mp hx]
    show t < t + 60000
    omega
  · intro a
    show inMinute a ((t, w) :: (cur ++ prev)) ≤ 22
    rw [inMinute_cons]
    by_cases h1 : a ≤ t ∧ t < a + 60000
    · rw [if_pos h1]
      have := hprev a h1.2
      cases supp <;> simp at this <;> omega
    · rw [if_neg h1, Nat.zero_add]
      exact hi.all a

/-- After a minute there is a warning and a new interval. -/
theorem eperm_old (s : Lim) (t : Nat) (h : t - s.time ≥ 60000) :
    ∃ supp w, eperm s t = (⟨supp, t, 1⟩, some w) ∧
      (supp = true ∨ s.supp = true ∨ s.count ≤ 10 ∨ s.time + 120000 ≤ t) := by
  have ho : decide (t - s.time ≥ 60000) = true := by simpa using h
  unfold eperm
  simp only [ho, Bool.true_or, if_true]
  have key : ∀ (b su : Bool) (c : Nat), ∃ w, (if b = true then
      if (1 : Nat) > 1 then ((⟨su, t, 1⟩ : Lim), none) else (⟨su, t, 1⟩, some (.summary c))
      else (⟨su, t, 1⟩, some .plain)) = ((⟨su, t, 1⟩, some w) : Lim × Option Warn) := by
    intro b su c
    cases b <;> exact ⟨_, rfl⟩
  refine ⟨_, (key _ _ _).choose, (key _ _ _).choose_spec, ?_⟩
  cases hsu : s.supp with
  | true => exact .inr (.inl rfl)
  | false =>
    by_cases hc : s.count ≤ 10
    · exact .inr (.inr (.inl hc))
    · by_cases ht : s.time + 120000 ≤ t
      · exact .inr (.inr (.inr ht))
      · left
        have hn : normalized s t > 10 := by
          unfold normalized
          rw [if_pos h, show (t - s.time) / 60000 = 1 by omega]
          omega
        simp [hn]

theorem limited_errors (t0 : Nat) (ts : List Nat) (ho : Ordered t0 ts) (hl : ts.length < 2 ^ 32) :
    ∃ cur prev, (errors t0 ts).2 = cur ++ prev ∧ Limited (errors t0 ts).1 cur prev ∧
      (errors t0 ts).1.count ≤ ts.length ∧
      (∀ b, (∀ x ∈ ts, x ≤ b) → t0 ≤ b → (errors t0 ts).1.time ≤ b ∧ ∀ x ∈ cur ++ prev, x.1 ≤ b) := by
  induction ts with
  | nil =>
    refine ⟨[], [], rfl, ⟨Nat.zero_le _, by simp [errors, start], (fun w h => nomatch h), (fun w h => nomatch h), (fun a _ => Nat.zero_le _),
      (fun a => Nat.zero_le _)⟩, Nat.le_refl _, fun b _ hb => ⟨hb, fun x hx => nomatch hx⟩⟩
  | cons t ts ih =>
    obtain ⟨h0, hmax, hrest⟩ := ho
    have hl' : ts.length < 2 ^ 32 := by rw [List.length_cons] at hl; omega
    obtain ⟨cur, prev, hw, hi, hn, hb⟩ := ih hrest hl'
    obtain ⟨hst, hall⟩ := hb t hmax h0
    generalize hr : errors t0 ts = r at hw hi hn hst
    obtain ⟨s, ws⟩ := r
    simp only at hw hi hn hst
    have hcur : ∀ x ∈ cur, x.1 ≤ t := fun x hx => hall x (List.mem_append.mpr (.inl hx))
    have hres : errors t0 (t :: ts) = ((eperm s t).1, match (eperm s t).2 with
      | some w => (t, w) :: ws
      | none => ws) := by
      rw [errors, hr]
      rfl
    rw [hres, hw]
    have hnb : s.count < 2 ^ 32 - 1 := by rw [List.length_cons] at hl; omega
    have bound : ∀ (s' : Lim) (c p : List (Nat × Warn)), s'.time ≤ t → (∀ x ∈ c ++ p, x.1 ≤ t) →
        (∀ b, (∀ x ∈ t :: ts, x ≤ b) → t0 ≤ b → s'.time ≤ b ∧ ∀ x ∈ c ++ p, x.1 ≤ b) := by
      intro s' c p h1 h2 b hb1 _
      have htb := hb1 t (List.mem_cons_self ..)
      exact ⟨by omega, fun x hx => by have := h2 x hx; omega⟩
    -- a new interval
    have new : ∀ (supp : Bool) (w : Warn), ((supp = true ∧ s.supp = false) ∨
          (s.time + 60000 ≤ t ∧ (supp = true ∨ s.supp = true ∨ s.count ≤ 10 ∨ s.time + 120000 ≤ t))) →
        (eperm s t) = (⟨supp, t, 1⟩, some w) →
        ∃ c p, (match (eperm s t).2 with | some w => (t, w) :: (cur ++ prev) | none => cur ++ prev) = c ++ p ∧
          Limited (eperm s t).1 c p ∧ (eperm s t).1.count ≤ (t :: ts).length ∧
          (∀ b, (∀ x ∈ t :: ts, x ≤ b) → t0 ≤ b → (eperm s t).1.time ≤ b ∧ ∀ x ∈ c ++ p, x.1 ≤ b) := by
      intro supp w h1 h2
      rw [h2]
      refine ⟨[(t, w)], cur ++ prev, rfl, limited_new hi hst hcur h1, by simp, bound _ _ _ (Nat.le_refl _) ?_⟩
      intro x hx
      rcases List.mem_append.mp hx with h3 | h3
      · rw [List.mem_singleton.mp h3]; exact Nat.le_refl _
      · exact hall x h3
    by_cases hold : s.time + 60000 ≤ t
    · obtain ⟨supp, w, hf, hg⟩ := eperm_old s t (by omega)
      exact new supp w (.inr ⟨hold, hg⟩) hf
    · have ho : decide (t - s.time ≥ 60000) = false := by simp; omega
      have hnorm : normalized s t = s.count := by
        unfold normalized; rw [if_neg (by omega)]
      cases hsu : s.supp with
      | true =>
        have hcount : 1 ≤ s.count ∧ s.time ∈ cur.map Prod.fst := by have := hi.count; rw [hsu] at this; simpa using this
        have hmod : (s.count + 1) % 2 ^ 32 = s.count + 1 := Nat.mod_eq_of_lt (by omega)
        have he : eperm s t = (⟨true, s.time, s.count + 1⟩, none) := by
          unfold eperm
          simp only [ho, hsu, hmod, Bool.false_and, Bool.not_true, Bool.and_false, Bool.false_or, Bool.false_eq_true,
            if_false, Bool.true_and]
          rw [if_pos (by simp; omega), if_pos (by omega)]
        rw [he]
        refine ⟨cur, prev, rfl, ⟨?_, ?_, hi.prevTime, hi.curTime, ?_, hi.all⟩, by simp; omega, bound _ _ _ hst hall⟩
        · have := hi.curLen; rw [hsu] at this; simpa using this
        · simpa using hcount.2
        · have := hi.prevLen; rw [hsu] at this; simpa using this
      | false =>
        have hcount : s.count ≤ 11 := by have := hi.count; rw [hsu] at this; simpa using this
        have hmod : (s.count + 1) % 2 ^ 32 = s.count + 1 := Nat.mod_eq_of_lt (by omega)
        by_cases h11 : s.count > 10
        · refine new true .plain (.inl ⟨rfl, hsu⟩) ?_
          unfold eperm
          simp only [ho, hsu, hnorm, Bool.false_and, Bool.not_false, Bool.true_and, Bool.false_or, Bool.false_eq_true,
            if_false, decide_eq_true_eq, h11, if_true, bne_self_eq_false, Bool.and_false]
        · have he : eperm s t = (⟨false, s.time, s.count + 1⟩, some .plain) := by
            unfold eperm
            simp only [ho, hsu, hnorm, hmod, Bool.false_and, Bool.not_false, Bool.true_and, Bool.false_or,
              Bool.false_eq_true, if_false, decide_eq_true_eq, h11]
          rw [he]
          have hcl : cur.length ≤ s.count := by have := hi.curLen; rw [hsu] at this; simpa using this
          have hpl : ∀ a, s.time < a + 60000 → inMinute a prev ≤ 10 := by
            have := hi.prevLen; rw [hsu] at this; simpa using this
          refine ⟨(t, .plain) :: cur, prev, rfl, ⟨?_, ?_, hi.prevTime, ?_, ?_, ?_⟩, by simp; omega, bound _ _ _ hst ?_⟩
          · show ((t, Warn.plain) :: cur).length ≤ if false = true then 1 else s.count + 1
            rw [List.length_cons]; simp; omega
          · simp; omega
          · intro x hx
            rcases List.mem_cons.mp hx with h1 | h1
            · rw [h1]; show t < s.time + 60000; omega
            · exact hi.curTime x h1
          · intro a ha; simpa using hpl a ha
          · intro a
            show inMinute a ((t, .plain) :: (cur ++ prev)) ≤ 22
            rw [inMinute_cons, inMinute_append]
            by_cases h1 : a ≤ t ∧ t < a + 60000
            · rw [if_pos h1]
              have h2 := hpl a (by omega)
              have h3 := inMinute_le a cur
              omega
            · rw [if_neg h1, Nat.zero_add, ← inMinute_append]
              exact hi.all a
          · intro x hx
            rcases List.mem_cons.mp hx with h1 | h1
            · rw [h1]; exact Nat.le_refl _
            · exact hall x h1

/-! ## C171 -/

/-- **C171, limit.** Whenever errors happen, there are at most 22 warnings within any minute. -/
theorem C171_limit (t0 : Nat) (ts : List Nat) (ho : Ordered t0 ts) (hl : ts.length < 2 ^ 32) (a : Nat) :
    inMinute a (errors t0 ts).2 ≤ 22 := by
  obtain ⟨cur, prev, hw, hi, _⟩ := limited_errors t0 ts ho hl
  rw [hw]
  exact hi.all a

/-- **C171, nothing is held back for long.** An error is reported with a warning if there was none in
the minute before it. -/
theorem C171_reported (t0 t : Nat) (ts : List Nat) (ho : Ordered t0 (t :: ts)) (hl : (t :: ts).length < 2 ^ 32)
    (hq : ∀ w ∈ (errors t0 ts).2, w.1 + 60000 ≤ t) :
    ∃ w, (errors t0 (t :: ts)).2 = (t, w) :: (errors t0 ts).2 := by
  obtain ⟨cur, prev, hw, hi, hn, -⟩ := limited_errors t0 ts ho.2.2 (by rw [List.length_cons] at hl; omega)
  rw [errors]
  generalize hr : errors t0 ts = r at hw hi hn hq
  obtain ⟨s, ws⟩ := r
  simp only at hw hi hn hq ⊢
  have key : ∃ w, (eperm s t).2 = some w := by
    by_cases hold : t - s.time ≥ 60000
    · obtain ⟨supp, w, h, -⟩ := eperm_old s t hold
      exact ⟨w, by rw [h]⟩
    · cases hsu : s.supp with
      | true =>
        have hc := hi.count
        rw [hsu] at hc
        simp only [if_true] at hc
        obtain ⟨x, hx, hxe⟩ := List.mem_map.mp hc.2
        have := hq x (by rw [hw]; exact List.mem_append.mpr (.inl hx))
        omega
      | false =>
        have ho : decide (t - s.time ≥ 60000) = false := by simpa using hold
        have hnorm : normalized s t = s.count := by unfold normalized; rw [if_neg hold]
        unfold eperm
        simp only [ho, hsu, hnorm, Bool.false_and, Bool.not_false, Bool.true_and, Bool.false_or, Bool.false_eq_true, if_false]
        by_cases h11 : s.count > 10
        · simp only [h11, decide_true, if_true, bne_self_eq_false, Bool.and_false, Bool.false_eq_true, if_false]
          exact ⟨_, rfl⟩
        · simp only [h11, decide_false, Bool.false_eq_true, if_false, Bool.false_and]
          exact ⟨_, rfl⟩
  obtain ⟨w, hw'⟩ := key
  exact ⟨w, by rw [hw']⟩

/-- **C171, rare errors are all reported**: as long as there are at most eleven errors, and after a
suppression as soon as there were less than five errors per minute. -/
theorem C171_rare (s : Lim) (t : Nat) :
    (s.supp = false → s.count ≤ 10 → (eperm s t).2 = some .plain) ∧
    (s.supp = true → s.time + 60000 ≤ t → s.count < 5 * ((t - s.time) / 60000) →
      (eperm s t).2 = some .plain ∧ (eperm s t).1.supp = false) := by
  constructor
  · intro hsu hc
    have hn : ¬ normalized s t > 10 := by
      unfold normalized
      split
      · have := Nat.div_le_self s.count ((t - s.time) / 60000); omega
      · omega
    unfold eperm
    simp only [hsu, hn, decide_false, Bool.and_false, Bool.false_and, Bool.false_eq_true, if_false]
  · intro hsu ht hc
    have hold : t - s.time ≥ 60000 := by omega
    have hn : normalized s t < 5 := by
      unfold normalized
      rw [if_pos hold]
      exact (Nat.div_lt_iff_lt_mul (by omega)).mpr hc
    unfold eperm
    simp only [hsu, hn, hold, decide_true, Bool.and_self, if_true, Bool.not_true, Bool.false_and, Bool.false_eq_true,
      if_false, Bool.true_or, and_self]

/-- Twelve errors at once: all are reported, the next ones are not. -/
example : (errors 0 (List.replicate 20 7)).2.length = 12 := by decide +kernel

/-- The limit is reached. -/
example : inMinute 59999 (errors 0 (List.replicate 20 60000 ++ List.replicate 10 59999)).2 = 22 := by decide +kernel

/-- **C171 is false for the number of suppressed errors**: the error that was reported at the
beginning is counted too. Here 13 of 17 errors are reported, and the last warning says that five were
suppressed. -/
theorem C171_number_counterexample :
    let ts := 60000 :: List.replicate 16 0
    Ordered 0 ts ∧ (errors 0 ts).2.head? = some (60000, .summary 5) ∧
      ts.length = 17 ∧ (errors 0 ts).2.length = 13 := by
  refine ⟨?_, by decide +kernel, by decide +kernel, by decide +kernel⟩
  simp [Ordered]

end Verif.Packet
