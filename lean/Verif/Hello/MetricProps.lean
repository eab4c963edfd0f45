import Verif.Hello.MetricModel

/-! C91: metrics sent in a HELLO arrive at the other router. -/
namespace Verif.Hello
open Verif.Codec

/-! ### Specification -/

/-- `v` is the smallest metric which can be transmitted and is not below `m` -/
def RoundedUp (m v : Nat) : Prop := m ≤ v ∧ (∃ c, c < 4096 ∧ v = specMetric c) ∧ ∀ c, m ≤ specMetric c → v ≤ specMetric c

/-- `v` is what a router gets to know if the other one has the metric `m` (`none`: does not announce this kind of metric) -/
def Announced (m : Option Nat) (v : Nat) : Prop :=
  match m with
  | none => v = metricInfinite
  | some m => if 0 < m ∧ m ≤ metricMax then RoundedUp m v else v = metricInfinite

/-! ### Lemmas -/

/-- what the TLVs say about direction `t`: `x` if there is a metric -/
def Says (tlvs : List MetricField) (t : Nat) (x : Option Nat) : Prop :=
  match x with
  | none => ∀ f ∈ tlvs, metricHasFlag f (flag t) = false
  | some v => (∃ f ∈ tlvs, metricHasFlag f (flag t) = true) ∧ ∀ f ∈ tlvs, metricHasFlag f (flag t) = true → metricDecode f = v

theorem Says.perm {tlvs tlvs' : List MetricField} (h : tlvs.Perm tlvs') {t : Nat} {x : Option Nat} (hs : Says tlvs t x) : Says tlvs' t x := by
  cases x with
  | none => exact fun f hf => hs f (h.mem_iff.2 hf)
  | some v =>
    obtain ⟨⟨f, hf, hff⟩, h2⟩ := hs
    exact ⟨⟨f, h.mem_iff.1 hf, hff⟩, fun f hf => h2 f (h.mem_iff.2 hf)⟩

/-- value found by a loop over the TLVs -/
def pick (t : Nat) (s : Nat) (f : MetricField) : Nat := if metricHasFlag f (flag t) then metricDecode f else s

theorem pick_foldl (t : Nat) (tlvs : List MetricField) (x : Option Nat) (hs : Says tlvs t x) (s : Nat) :
    tlvs.foldl (pick t) s = x.getD s := by
  cases x with
  | none =>
    induction tlvs generalizing s with
    | nil => rfl
    | cons f fs ih =>
      have := hs f (by simp)
      simp only [List.foldl_cons, pick, this, Bool.false_eq_true, if_false]
      exact ih s (fun g hg => hs g (List.mem_cons_of_mem _ hg))
  | some v =>
    obtain ⟨h1, h2⟩ := hs
    have key : ∀ (l : List MetricField) (s : Nat), (∀ f ∈ l, metricHasFlag f (flag t) = true → metricDecode f = v) →
        (s = v ∨ ∃ f ∈ l, metricHasFlag f (flag t) = true) → l.foldl (pick t) s = v := by
      intro l
      induction l with
      | nil => intro s _ h; simpa using h
      | cons f fs ih =>
        intro s hd h
        refine ih _ (fun g hg => hd g (by simp [hg])) ?_
        cases hf : metricHasFlag f (flag t) with
        | true => left; simp only [pick, hf, if_true]; exact hd f (by simp) hf
        | false =>
          simp only [pick, hf, Bool.false_eq_true, if_false]
          rcases h with h | ⟨g, hg, hgf⟩
          · exact Or.inl h
          · rcases List.mem_cons.1 hg with rfl | hg
            · rw [hf] at hgf; exact absurd hgf (by simp)
            · exact Or.inr ⟨g, hg, hgf⟩
    simpa using key tlvs s h2 (Or.inr h1)

theorem receiveLink_eq (tlvs : List MetricField) :
    receiveLink tlvs = (tlvs.foldl (pick 0) metricInfinite, tlvs.foldl (pick 2) metricInfinite) := by
  have : ∀ (l : List MetricField) (a b : Nat), l.foldl linkTlv (a, b) = (l.foldl (pick 0) a, l.foldl (pick 2) b) := by
    intro l
    induction l with
    | nil => intros; rfl
    | cons f fs ih => intro a b; exact ih _ _
  exact this _ _ _

theorem receiveHop_eq (tlvs : List MetricField) :
    receiveHop tlvs = ⟨tlvs.foldl (pick 2) metricInfinite, tlvs.foldl (pick 3) metricInfinite⟩ := by
  have : ∀ (l : List MetricField) (a b : Nat), l.foldl hopTlv ⟨a, b⟩ = ⟨l.foldl (pick 2) a, l.foldl (pick 3) b⟩ := by
    intro l
    induction l with
    | nil => intros; rfl
    | cons f fs ih => intro a b; exact ih _ _
  exact this _ _ _

theorem hasFlag_set (f : MetricField) (i j : Nat) (hi : i < 4) (hj : j < 4) :
    metricHasFlag (metricSetFlag f (flag i)) (flag j) = (decide (i = j) || metricHasFlag f (flag j)) := by
  have h : ∀ i j, i < 4 → j < 4 → ∀ x : Nat, (x ||| flag i) &&& flag j = (x &&& flag j) ||| (flag i &&& flag j) := by
    intro i j _ _ x; exact Nat.and_or_distrib_right _ _ _
  have h2 : ∀ i, i < 4 → ∀ j, j < 4 → flag i &&& flag j = if i = j then flag i else 0 := by decide
  have h3 : ∀ i, i < 4 → flag i ≠ 0 := by decide
  simp only [metricHasFlag, metricSetFlag]
  rw [h i j hi hj, h2 i hi j hj]
  by_cases hij : i = j
  · rw [if_pos hij]
    have : (f.b0 &&& flag j ||| flag i) ≠ 0 := by
      intro h0
      exact h3 i hi (Nat.or_eq_zero_iff.1 h0).2
    simp [hij ▸ this, hij]
  · rw [if_neg hij, Nat.or_zero]; simp [hij]

theorem hasFlag_small (f : MetricField) (h : f.b0 < 16) (j : Nat) (hj : j < 4) : metricHasFlag f (flag j) = false := by
  have : ∀ j, j < 4 → ∀ x, x < 16 → (x &&& flag j) = 0 := by
    intro j hj
    match j, hj with
    | 0, _ | 1, _ | 2, _ | 3, _ => decide +kernel
  simp [metricHasFlag, this j hj f.b0 h]

theorem flag_mod (i : Nat) (hi : i < 4) : flag i % 16 = 0 := by
  match i, hi with
  | 0, _ | 1, _ | 2, _ | 3, _ => rfl

theorem or_mod16 (a b : Nat) (h : b % 16 = 0) : (a ||| b) % 16 = a % 16 := by
  have := Nat.or_mod_two_pow (a := a) (b := b) (n := 4)
  rw [show (2 : Nat) ^ 4 = 16 from by decide] at this
  rw [this, h, Nat.or_zero]

theorem decode_set (f : MetricField) (i : Nat) (hi : i < 4) : metricDecode (metricSetFlag f (flag i)) = metricDecode f := by
  have := or_mod16 f.b0 (flag i) (flag_mod i hi)
  unfold metricDecode metricSetFlag
  dsimp only
  rw [this]

/-- what an encoded metric says -/
def said (m : Nat) (e : MetricField) : Option Nat := if m = 0 then none else some (metricDecode e)

/-- no TLV is about direction `t` -/
def NoFlag (tlvs : List MetricField) (t : Nat) : Prop := ∀ f ∈ tlvs, metricHasFlag f (flag t) = false

/-- invariant of the inner loop; `m`: metrics in the beginning -/
structure Inner (E : List (Option MetricField)) (i : Nat) (m : List Nat) (s : MetricField × List Nat) : Prop where
  len : s.2.length = 4
  dec : metricDecode s.1 = metricDecode (encoded E i)
  flags : ∀ t, t < 4 → (metricHasFlag s.1 (flag t) = true ↔ t = i ∨ m.getD t 0 ≠ 0 ∧ s.2.getD t 0 = 0)
  keep : ∀ t, t < 4 → s.2.getD t 0 = m.getD t 0 ∨ s.2.getD t 0 = 0 ∧ m.getD t 0 ≠ 0 ∧ i < t ∧ encoded E i = encoded E t

theorem getD_set (l : List Nat) (j t : Nat) (h : j < l.length) : (l.set j 0).getD t 0 = if t = j then 0 else l.getD t 0 := by
  by_cases hj : t = j
  · subst hj; simp [h]
  · simp [List.getD_eq_getElem?_getD, hj, List.getElem?_set_ne (Ne.symm hj)]

theorem Inner.step {E : List (Option MetricField)} {i : Nat} {m : List Nat} {s : MetricField × List Nat} (h : Inner E i m s)
    (j : Nat) (hj : j < 4) (hij : i < j) : Inner E i m (innerStep E i s j) := by
  unfold innerStep
  by_cases hc : s.2.getD j 0 > 0 ∧ encoded E i = encoded E j
  · rw [if_pos hc]
    have hm : m.getD j 0 ≠ 0 := by
      rcases h.keep j hj with h1 | h1
      · omega
      · exact h1.2.1
    refine ⟨by simp [h.len], by rw [decode_set _ _ hj]; exact h.dec, ?_, ?_⟩
    · intro t ht
      rw [hasFlag_set _ _ _ hj ht, getD_set _ _ _ (by rw [h.len]; exact hj)]
      by_cases htj : t = j
      · subst htj; simp [hm, -List.getD_eq_getElem?_getD]
      · rw [if_neg htj]
        have : decide (j = t) = false := by simp; omega
        rw [this, Bool.false_or]; exact h.flags t ht
    · intro t ht
      rw [getD_set _ _ _ (by rw [h.len]; exact hj)]
      by_cases htj : t = j
      · subst htj; right; exact ⟨if_pos rfl, hm, hij, hc.2⟩
      · rw [if_neg htj]; exact h.keep t ht
  · rw [if_neg hc]; exact h

theorem Inner.run {E : List (Option MetricField)} {i : Nat} {m : List Nat} (js : List Nat) (hjs : ∀ j ∈ js, j < 4 ∧ i < j) :
    ∀ s : MetricField × List Nat, Inner E i m s → Inner E i m (js.foldl (innerStep E i) s) := by
  induction js with
  | nil => intro s h; exact h
  | cons j js ih =>
    intro s h
    exact ih (fun x hx => hjs x (by simp [hx])) _ (h.step j (hjs j (by simp)).1 (hjs j (by simp)).2)

/-- invariant of the outer loop in front of iteration `k`; `m0`: metrics in the beginning -/
structure Outer (E : List (Option MetricField)) (m0 : List Nat) (k : Nat) (s : List Nat × List MetricField) : Prop where
  len : s.1.length = 4
  zero : ∀ t, t < 4 → m0.getD t 0 = 0 → s.1.getD t 0 = 0 ∧ NoFlag s.2 t
  todo : ∀ t, t < 4 → s.1.getD t 0 ≠ 0 → k ≤ t → NoFlag s.2 t
  done : ∀ t, t < 4 → m0.getD t 0 ≠ 0 → (s.1.getD t 0 = 0 ∨ t < k) → Says s.2 t (some (metricDecode (encoded E t)))

theorem NoFlag.append {l : List MetricField} {t : Nat} (h : NoFlag l t) {f : MetricField} (hf : metricHasFlag f (flag t) = false) :
    NoFlag (l ++ [f]) t := by
  intro g hg
  rcases List.mem_append.1 hg with hg | hg
  · exact h g hg
  · rw [List.mem_singleton.1 hg]; exact hf

theorem Says.append {l : List MetricField} {t v : Nat} (h : Says l t (some v)) {f : MetricField} (hf : metricHasFlag f (flag t) = false) :
    Says (l ++ [f]) t (some v) := by
  obtain ⟨⟨g, hg, hgf⟩, h2⟩ := h
  refine ⟨⟨g, by simp [hg], hgf⟩, ?_⟩
  intro g hg hgf
  rcases List.mem_append.1 hg with hg | hg
  · exact h2 g hg hgf
  · rw [List.mem_singleton.1 hg, hf] at hgf; exact absurd hgf (by simp)

theorem NoFlag.says {l : List MetricField} {t : Nat} (h : NoFlag l t) {f : MetricField} (hf : metricHasFlag f (flag t) = true) :
    Says (l ++ [f]) t (some (metricDecode f)) := by
  refine ⟨⟨f, by simp, hf⟩, ?_⟩
  intro g hg hgf
  rcases List.mem_append.1 hg with hg | hg
  · rw [h g hg] at hgf; exact absurd hgf (by simp)
  · rw [List.mem_singleton.1 hg]

theorem Outer.step {E : List (Option MetricField)} {m0 : List Nat} {k : Nat} {s : List Nat × List MetricField} (h : Outer E m0 k s)
    (hk : k < 4) (hE : ∀ t, (encoded E t).b0 < 16) : Outer E m0 (k + 1) (outerStep E s k) := by
  unfold outerStep
  by_cases hz : s.1.getD k 0 = 0
  · rw [if_pos hz]
    refine ⟨h.len, h.zero, fun t ht hs hkt => h.todo t ht hs (by omega), ?_⟩
    intro t ht hm hd
    refine h.done t ht hm ?_
    rcases hd with hd | hd
    · exact Or.inl hd
    · by_cases htk : t = k
      · left; rw [htk]; exact hz
      · right; omega
  · rw [if_neg hz]
    have hstart : Inner E k s.1 (metricSetFlag (encoded E k) (flag k), s.1) := by
      refine ⟨h.len, decode_set _ _ hk, ?_, fun t _ => Or.inl rfl⟩
      intro t ht
      rw [hasFlag_set _ _ _ hk ht, hasFlag_small _ (hE k) _ ht]
      simp only [Bool.or_false, decide_eq_true_eq]
      constructor
      · intro h; exact Or.inl h.symm
      · rintro (h | h)
        · exact h.symm
        · exact absurd h.2 h.1
    have hin := Inner.run (E := E) (i := k) (m := s.1) ([3, 2, 1].filter fun j => decide (j > k)) (by
      intro j hj
      simp only [List.mem_filter, List.mem_cons, List.not_mem_nil, or_false, decide_eq_true_eq] at hj
      omega) _ hstart
    generalize (([3, 2, 1].filter fun j => decide (j > k)).foldl (innerStep E k) (metricSetFlag (encoded E k) (flag k), s.1)) = r at hin
    dsimp only
    have hno : ∀ t, t < 4 → t ≠ k → ¬ (s.1.getD t 0 ≠ 0 ∧ r.2.getD t 0 = 0) → metricHasFlag r.1 (flag t) = false := by
      intro t ht htk hc
      cases hf : metricHasFlag r.1 (flag t) with
      | false => rfl
      | true =>
        rcases (hin.flags t ht).1 hf with h | h
        · exact absurd h htk
        · exact absurd h hc
    refine ⟨hin.len, ?_, ?_, ?_⟩
    · intro t ht hm
      have h0 := h.zero t ht hm
      have htk : t ≠ k := by rintro rfl; exact hz h0.1
      refine ⟨?_, h0.2.append (hno t ht htk (fun hc => hc.1 h0.1))⟩
      rcases hin.keep t ht with h1 | h1
      · rw [h1]; exact h0.1
      · exact h1.1
    · intro t ht hs hkt
      have htk : t ≠ k := by omega
      have hs' : s.1.getD t 0 ≠ 0 := by
        rcases hin.keep t ht with h1 | h1
        · rw [← h1]; exact hs
        · exact h1.2.1
      exact (h.todo t ht hs' (by omega)).append (hno t ht htk (fun hc => hs hc.2))
    · intro t ht hm hd
      by_cases htk : t = k
      · subst htk
        have hf : metricHasFlag r.1 (flag t) = true := (hin.flags t ht).2 (Or.inl rfl)
        rw [← hin.dec]
        exact (h.todo t ht hz (Nat.le_refl _)).says hf
      · by_cases hs : s.1.getD t 0 = 0
        · exact (h.done t ht hm (Or.inl hs)).append (hno t ht htk (fun hc => hc.1 hs))
        · by_cases hr : r.2.getD t 0 = 0
          · rcases hin.keep t ht with h1 | h1
            · exact absurd (h1.symm.trans hr) hs
            · have hf : metricHasFlag r.1 (flag t) = true := (hin.flags t ht).2 (Or.inr ⟨hs, hr⟩)
              rw [← h1.2.2.2, ← hin.dec]
              exact (h.todo t ht hs (by omega)).says hf
          · have htk' : t < k := by
              rcases hd with hd | hd
              · exact absurd hd hr
              · omega
            exact (h.done t ht hm (Or.inr htk')).append (hno t ht htk (fun hc => hr hc.2))

theorem loops_say (m : List Nat) (E : List (Option MetricField)) (hm : m.length = 4) (hE : ∀ t, (encoded E t).b0 < 16) (t : Nat)
    (ht : t < 4) : Says (([0, 1, 2, 3].foldl (outerStep E) (m, [])).2) t (said (m.getD t 0) (encoded E t)) := by
  have h0 : Outer E m 0 (m, []) :=
    ⟨hm, fun t _ h => ⟨h, fun f hf => by simp at hf⟩, fun t _ _ _ f hf => by simp at hf, fun t _ h hd => by
      rcases hd with hd | hd
      · exact absurd hd h
      · omega⟩
  have h4 := (((h0.step (by omega) hE).step (by omega) hE).step (by omega) hE).step (by omega) hE
  unfold said
  by_cases hz : m.getD t 0 = 0
  · rw [if_pos hz]; exact (h4.zero t ht hz).2
  · rw [if_neg hz]; exact h4.done t ht hz (Or.inr (by omega))

/-- the metric kept for direction `t`: link in, link out, neighbor in, neighbor out -/
def metricAt (lnk neigh : Option Pair) : Nat → Option Nat
  | 0 => lnk.map Pair.min
  | 1 => lnk.map Pair.mout
  | 2 => neigh.map Pair.min
  | 3 => neigh.map Pair.mout
  | _ => none

theorem encode_some (m : Nat) (h0 : 0 < m) (h1 : m ≤ metricMax) : ∃ f, metricEncode m = some f ∧ f.b0 < 16 ∧ RoundedUp m (metricDecode f) := by
  obtain ⟨f, he, hb0, hb1, hle, hleast⟩ := C04_metric_encode_least m h0 h1
  have hd : metricDecode f = specMetric (metricCode f) := by
    rw [C04_metric_decode_is_rfc7181 _ hb1, Nat.mod_eq_of_lt hb0]; rfl
  refine ⟨f, he, hb0, hle, ⟨metricCode f, by unfold metricCode; omega, hd⟩, ?_⟩
  intro c hc
  rw [hd]
  rcases Nat.lt_or_ge (metricCode f) c with h | h
  · exact Nat.le_of_lt (C04_metric_strict_mono _ _ h)
  · have := (hleast c).2 hc
    rw [Nat.le_antisymm h this]; exact Nat.le_refl _

/-- what is sent of a metric, 0 if nothing -/
def sendable : Option Nat → Nat
  | none => 0
  | some m => if m > metricMax then 0 else m

theorem metricsOf_at (lnk neigh : Option Pair) (t : Nat) (ht : t < 4) :
    (metricsOf lnk neigh).getD t 0 = sendable (metricAt lnk neigh t) := by
  match t, ht with
  | 0, _ => cases lnk <;> cases neigh <;> rfl
  | 1, _ => cases lnk <;> cases neigh <;> rfl
  | 2, _ => cases lnk <;> cases neigh <;> rfl
  | 3, _ => cases lnk <;> cases neigh <;> rfl

theorem metricsOf_len (lnk neigh : Option Pair) : (metricsOf lnk neigh).length = 4 := by cases lnk <;> cases neigh <;> rfl

theorem metricsOf_le (lnk neigh : Option Pair) : ∀ m ∈ metricsOf lnk neigh, m ≤ metricMax := by
  intro m hm
  unfold metricsOf at hm
  obtain ⟨x, _, rfl⟩ := List.mem_map.1 hm
  split <;> omega

theorem write_says (lnk neigh : Option Pair) (t : Nat) (ht : t < 4) :
    ∃ x, Says (writeMetrics lnk neigh) t x ∧ Announced (metricAt lnk neigh t) (x.getD metricInfinite) := by
  unfold writeMetrics
  by_cases hn : lnk = none ∧ neigh = none
  · rw [if_pos hn]
    refine ⟨none, fun f hf => by simp at hf, ?_⟩
    have : metricAt lnk neigh t = none := by
      rw [hn.1, hn.2]
      match t, ht with
      | 0, _ | 1, _ | 2, _ | 3, _ => rfl
    rw [this]; rfl
  · rw [if_neg hn]
    have hle := metricsOf_le lnk neigh
    have hany : ((metricsOf lnk neigh).any fun m => decide (m > 0) && (metricEncode m).isNone) = false := by
      rw [List.any_eq_false]
      intro m hm
      by_cases h0 : m > 0
      · obtain ⟨f, hf, _⟩ := encode_some m h0 (hle m hm)
        simp [hf]
      · simp [h0]
    dsimp only
    rw [if_neg (by rw [hany]; simp)]
    have hE : ∀ t, (encoded ((metricsOf lnk neigh).map metricEncode) t).b0 < 16 := by
      intro t
      unfold encoded
      rw [List.getD_eq_getElem?_getD, List.getElem?_map]
      cases hg : (metricsOf lnk neigh)[t]? with
      | none => simp
      | some m =>
        have hm := hle m (List.mem_of_getElem? hg)
        rcases Nat.eq_zero_or_pos m with h0 | h0
        · subst h0; simp [metricEncode, metricMin]
        · obtain ⟨f, hf, hb, _⟩ := encode_some m h0 hm
          simp [hf, hb]
    refine ⟨_, loops_say _ _ (metricsOf_len lnk neigh) hE t ht, ?_⟩
    have hat := metricsOf_at lnk neigh t ht
    unfold said
    have henc : encoded ((metricsOf lnk neigh).map metricEncode) t = (metricEncode ((metricsOf lnk neigh).getD t 0)).getD ⟨0, 0⟩ := by
      have hlt : t < (metricsOf lnk neigh).length := by rw [metricsOf_len]; exact ht
      unfold encoded
      simp [List.getD_eq_getElem?_getD, hlt]
    rw [henc, hat]
    cases metricAt lnk neigh t with
    | none => rfl
    | some m =>
      dsimp only [Announced]
      by_cases hm : m > metricMax
      · rw [show sendable (some m) = 0 from if_pos hm, if_neg (by omega)]; rfl
      · rw [show sendable (some m) = m from if_neg hm]
        rcases Nat.eq_zero_or_pos m with h0 | h0
        · subst h0; rfl
        · obtain ⟨f, hf, _, hr⟩ := encode_some m h0 (by omega)
          rw [if_pos ⟨h0, by omega⟩, if_neg (by omega), hf]
          exact hr

/-! ### Properties -/

/-- C91: the router an address belongs to learns from the metric TLVs of that address, in whatever order it gets them, its outgoing
metrics: those to the link and to the neighbor are the incoming metrics of the sender, rounded up to the next value which can be
transmitted; without usable metric they are infinite. -/
theorem C91_link_metrics (lnk neigh : Option Pair) (tlvs : List MetricField) (h : (writeMetrics lnk neigh).Perm tlvs) :
    Announced (lnk.map Pair.min) (receiveLink tlvs).1 ∧ Announced (neigh.map Pair.min) (receiveLink tlvs).2 := by
  obtain ⟨x, hx, hax⟩ := write_says lnk neigh 0 (by omega)
  obtain ⟨y, hy, hay⟩ := write_says lnk neigh 2 (by omega)
  rw [receiveLink_eq, pick_foldl 0 tlvs x (hx.perm h), pick_foldl 2 tlvs y (hy.perm h)]
  exact ⟨hax, hay⟩

/-- C91: any other router learns the metrics of its two-hop neighbor in both directions from the neighbor metrics of the sender. -/
theorem C91_twohop_metrics (lnk neigh : Option Pair) (tlvs : List MetricField) (h : (writeMetrics lnk neigh).Perm tlvs) :
    Announced (neigh.map Pair.min) (receiveHop tlvs).min ∧ Announced (neigh.map Pair.mout) (receiveHop tlvs).mout := by
  obtain ⟨x, hx, hax⟩ := write_says lnk neigh 2 (by omega)
  obtain ⟨y, hy, hay⟩ := write_says lnk neigh 3 (by omega)
  rw [receiveHop_eq, pick_foldl 2 tlvs x (hx.perm h), pick_foldl 3 tlvs y (hy.perm h)]
  exact ⟨hax, hay⟩

theorem outerStep_len (E : List (Option MetricField)) (s : List Nat × List MetricField) (i : Nat) :
    (outerStep E s i).2.length ≤ s.2.length + 1 := by
  unfold outerStep
  split <;> simp

/-- C91: four TLVs are enough (the writer has only four of them for a domain). -/
theorem C91_tlv_count (lnk neigh : Option Pair) : (writeMetrics lnk neigh).length ≤ 4 := by
  unfold writeMetrics
  split
  · simp
  · dsimp only
    split
    · simp
    · simp only [List.foldl_cons, List.foldl_nil]
      have h1 := outerStep_len ((metricsOf lnk neigh).map metricEncode) (metricsOf lnk neigh, []) 0
      have h2 := outerStep_len ((metricsOf lnk neigh).map metricEncode) (outerStep ((metricsOf lnk neigh).map metricEncode) (metricsOf lnk neigh, []) 0) 1
      have h3 := outerStep_len ((metricsOf lnk neigh).map metricEncode) (outerStep ((metricsOf lnk neigh).map metricEncode)
        (outerStep ((metricsOf lnk neigh).map metricEncode) (metricsOf lnk neigh, []) 0) 1) 2
      have h4 := outerStep_len ((metricsOf lnk neigh).map metricEncode) (outerStep ((metricsOf lnk neigh).map metricEncode)
        (outerStep ((metricsOf lnk neigh).map metricEncode) (outerStep ((metricsOf lnk neigh).map metricEncode) (metricsOf lnk neigh, []) 0) 1) 2) 3
      simp only [List.length_nil] at h1
      omega

/-- three TLVs for four metrics: the outgoing metrics are the same -/
example :
    writeMetrics (some ⟨1001, 2000⟩) (some ⟨500, 2000⟩) = [⟨0x82, 58⟩, ⟨0x53, 25⟩, ⟨0x21, 121⟩] ∧
    receiveLink [⟨0x21, 121⟩, ⟨0x53, 25⟩, ⟨0x82, 58⟩] = (1004, 500) ∧
    receiveHop [⟨0x53, 25⟩, ⟨0x82, 58⟩, ⟨0x21, 121⟩] = ⟨500, 2000⟩ := by decide +kernel

/-- a metric which is not usable -/
example : writeMetrics (some ⟨1001, metricInfinite⟩) none = [⟨0x82, 58⟩] ∧ receiveLink [⟨0x82, 58⟩] = (1004, metricInfinite) := by
  decide +kernel

end Verif.Hello
