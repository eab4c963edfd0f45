import Verif.Metric.HystModel

/-
Properties of the link hysteresis: C80, C81.
-/
namespace Verif.Metric

/-! ### Specification -/

/-- quality after one event in rational arithmetic with upward rounding: the old value loses the share `s`/1000, a HELLO adds `s` -/
def specAge (s q : Nat) (lost : Bool) : Nat := (q * (1000 - s) + 999) / 1000 + (if lost then 0 else s)

/-- all qualities in the order of the events -/
def specQualities : Nat → List (HCfg × HEvent) → List Nat
  | _, [] => []
  | q, (c, e) :: es => specAge c.scaling.toNat q e.isLoss :: specQualities (specAge c.scaling.toNat q e.isLoss) es

/-- a link has been accepted at some event: the quality was above the threshold -/
def EverAccepted (qs : List Nat) (es : List (HCfg × HEvent)) : Prop :=
  ∃ (i q : Nat) (c : HCfg), qs[i]? = some q ∧ es[i]?.map Prod.fst = some c ∧ c.accept < (q : Int)

/-- a link is usable if it has been accepted at some event and was never below the threshold for rejection since then -/
def Usable (qs : List Nat) (es : List (HCfg × HEvent)) : Prop :=
  ∃ (i q : Nat) (c : HCfg), qs[i]? = some q ∧ es[i]?.map Prod.fst = some c ∧ c.accept < (q : Int) ∧
    ∀ (j q' : Nat) (c' : HCfg), i < j → qs[j]? = some q' → es[j]?.map Prod.fst = some c' → c'.reject ≤ (q' : Int)

/-- all configurations have passed the validation -/
def Valid (es : List (HCfg × HEvent)) : Prop := ∀ p ∈ es, cfgValidate p.1 = true

theorem cfgValidate_iff (c : HCfg) : cfgValidate c = true ↔
    0 ≤ c.accept ∧ c.accept ≤ 1000 ∧ 0 ≤ c.reject ∧ c.reject ≤ 1000 ∧ 1 ≤ c.scaling ∧ c.scaling ≤ 1000 ∧ c.reject < c.accept := by
  unfold cfgValidate
  simp only [Bool.and_eq_true, decide_eq_true_eq, Bool.not_eq_true', decide_eq_false_iff_not]
  omega

/-! ### Lemmas -/

theorem specAge_le (s q : Nat) (lost : Bool) (hs : s ≤ 1000) (hq : q ≤ 1000) : specAge s q lost ≤ 1000 := by
  unfold specAge
  have h1 : q * (1000 - s) ≤ 1000 * (1000 - s) := Nat.mul_le_mul_right _ hq
  have h2 : (q * (1000 - s) + 999) / 1000 ≤ 1000 - s := by omega
  split <;> omega

theorem i32_eq (x : Int) (h : -2147483648 ≤ x) (h' : x ≤ 2147483647) : i32? x = some x := if_pos ⟨h, h'⟩

theorem hrun_cons (l : HLink) (c : HCfg) (e : HEvent) (es : List (HCfg × HEvent)) :
    hrun l ((c, e) :: es) = (hstep c l e).bind (fun r => hrun r.1 es) := by
  rw [hrun]
  cases hstep c l e <;> rfl

theorem quotient (p : Nat) : ((p : Int) + 999).tdiv 1000 = (((p + 999) / 1000 : Nat) : Int) := by
  rw [Int.tdiv_eq_ediv_of_nonneg (by omega)]; omega

theorem age_nat (c : HCfg) (s f q p : Nat) (lost : Bool) (hs : c.scaling = (s : Int)) (hf : s + f = 1000) (hp : q * f = p) (hb : p ≤ 1000000) :
    age c (q : Int) lost = some (((p + 999) / 1000 + (if lost then 0 else s) : Nat) : Int) := by
  have e1 : (1000 : Int) - c.scaling = (f : Int) := by omega
  have e2 : (q : Int) * (f : Int) = (p : Int) := by rw [← Int.natCast_mul, hp]
  unfold age
  rw [e1, i32_eq (f : Int) (by omega) (by omega)]
  rw [Option.bind_eq_bind, Option.bind_some]
  rw [e2, i32_eq (p : Int) (by omega) (by omega)]
  rw [Option.bind_some]
  rw [i32_eq ((p : Int) + 999) (by omega) (by omega)]
  rw [Option.bind_some]
  rw [quotient, hs]
  dsimp only
  generalize hr : (p + 999) / 1000 = r
  have hr' : r ≤ 1001 := by omega
  cases lost
  · simp only [Bool.false_eq_true, if_false]
    rw [i32_eq _ (by omega) (by omega), Int.natCast_add]
  · simp only [if_true, Nat.add_zero]

theorem age_eq (c : HCfg) (hc : cfgValidate c = true) (q : Nat) (hq : q ≤ 1000) (lost : Bool) :
    age c (q : Int) lost = some ((specAge c.scaling.toNat q lost : Nat) : Int) := by
  obtain ⟨-, -, -, -, h5, h6, -⟩ := (cfgValidate_iff c).mp hc
  exact age_nat c c.scaling.toNat (1000 - c.scaling.toNat) q _ lost (by omega) (by omega) rfl (Nat.mul_le_mul hq (by omega : _ ≤ 1000))

/-- what a step does, in terms of the specification -/
theorem hstep_eq (c : HCfg) (hc : cfgValidate c = true) (l : HLink) (e : HEvent) (q : Nat) (hq : q ≤ 1000)
    (hl : l.quality = (q : Int)) :
    ∃ l', hstep c l e = some (l', (judge c (specAge c.scaling.toNat q e.isLoss : Nat) l.pending l.lost).2.2) ∧
      l'.quality = ((specAge c.scaling.toNat q e.isLoss : Nat) : Int) ∧
      l'.pending = (judge c (specAge c.scaling.toNat q e.isLoss : Nat) l.pending l.lost).1 ∧
      l'.lost = (judge c (specAge c.scaling.toNat q e.isLoss : Nat) l.pending l.lost).2.1 := by
  unfold hstep updateHysteresis
  rw [hl, age_eq c hc q hq]
  dsimp only
  cases e with
  | hello it vt => exact ⟨_, rfl, rfl, rfl, rfl⟩
  | timeout => exact ⟨_, rfl, rfl, rfl, rfl⟩

theorem usable_cons (q : Nat) (c : HCfg) (e : HEvent) (qs : List Nat) (es : List (HCfg × HEvent)) :
    Usable (q :: qs) ((c, e) :: es) ↔ Usable qs es ∨
      (c.accept < (q : Int) ∧ ∀ (j q' : Nat) (c' : HCfg), qs[j]? = some q' → es[j]?.map Prod.fst = some c' → c'.reject ≤ (q' : Int)) := by
  constructor
  · rintro ⟨i, q0, c0, h1, h2, h3, h4⟩
    cases i with
    | zero =>
      simp only [List.getElem?_cons_zero, Option.map_some, Option.some.injEq] at h1 h2
      subst h1; subst h2
      exact Or.inr ⟨h3, fun j q' c' a b => h4 (j + 1) q' c' (by omega) (by simpa using a) (by simpa using b)⟩
    | succ i =>
      refine Or.inl ⟨i, q0, c0, by simpa using h1, by simpa using h2, h3, fun j q' c' hj a b => ?_⟩
      exact h4 (j + 1) q' c' (by omega) (by simpa using a) (by simpa using b)
  · rintro (⟨i, q0, c0, h1, h2, h3, h4⟩ | ⟨h1, h2⟩)
    · refine ⟨i + 1, q0, c0, by simpa using h1, by simpa using h2, h3, fun j q' c' hj a b => ?_⟩
      cases j with
      | zero => omega
      | succ j => exact h4 j q' c' (by omega) (by simpa using a) (by simpa using b)
    · refine ⟨0, q, c, rfl, rfl, h1, fun j q' c' hj a b => ?_⟩
      cases j with
      | zero => omega
      | succ j => exact h2 j q' c' (by simpa using a) (by simpa using b)

theorem ever_cons (q : Nat) (c : HCfg) (e : HEvent) (qs : List Nat) (es : List (HCfg × HEvent)) :
    EverAccepted (q :: qs) ((c, e) :: es) ↔ c.accept < (q : Int) ∨ EverAccepted qs es := by
  constructor
  · rintro ⟨i, q0, c0, h1, h2, h3⟩
    cases i with
    | zero =>
      simp only [List.getElem?_cons_zero, Option.map_some, Option.some.injEq] at h1 h2
      subst h1; subst h2
      exact Or.inl h3
    | succ i => exact Or.inr ⟨i, q0, c0, by simpa using h1, by simpa using h2, h3⟩
  · rintro (h | ⟨i, q0, c0, h1, h2, h3⟩)
    · exact ⟨0, q, c, rfl, rfl, h⟩
    · exact ⟨i + 1, q0, c0, by simpa using h1, by simpa using h2, h3⟩

/-- no event so far was a rejection -/
def Kept (qs : List Nat) (es : List (HCfg × HEvent)) : Prop :=
  ∀ (j q' : Nat) (c' : HCfg), qs[j]? = some q' → es[j]?.map Prod.fst = some c' → c'.reject ≤ (q' : Int)

theorem kept_cons (q : Nat) (c : HCfg) (e : HEvent) (qs : List Nat) (es : List (HCfg × HEvent)) :
    Kept (q :: qs) ((c, e) :: es) ↔ c.reject ≤ (q : Int) ∧ Kept qs es := by
  constructor
  · intro h
    exact ⟨h 0 q c rfl rfl, fun j q' c' a b => h (j + 1) q' c' (by simpa using a) (by simpa using b)⟩
  · rintro ⟨h1, h2⟩ j q' c' a b
    cases j with
    | zero =>
      simp only [List.getElem?_cons_zero, Option.map_some, Option.some.injEq] at a b
      subst a; subst b; exact h1
    | succ j => exact h2 j q' c' (by simpa using a) (by simpa using b)

/-- the run of a link in any state -/
theorem hrun_spec (es : List (HCfg × HEvent)) : ∀ (l : HLink) (q : Nat), q ≤ 1000 → l.quality = (q : Int) →
    ¬(l.pending = true ∧ l.lost = true) → Valid es →
    ∃ l' q', hrun l es = some l' ∧ l'.quality = ((q' : Nat) : Int) ∧ q' ≤ 1000 ∧
      (specQualities q es).getLast?.getD q = q' ∧ ¬(l'.pending = true ∧ l'.lost = true) ∧
      ((l'.pending = false ∧ l'.lost = false) ↔ Usable (specQualities q es) es ∨
        ((l.pending = false ∧ l.lost = false) ∧ Kept (specQualities q es) es)) ∧
      (l'.pending = true ↔ l.pending = true ∧ ¬ EverAccepted (specQualities q es) es) := by
  induction es with
  | nil =>
    intro l q hq hl hx _
    refine ⟨l, q, rfl, hl, hq, rfl, hx, ?_, ?_⟩
    · constructor
      · intro h; exact Or.inr ⟨h, fun j q' c' a => by simp [specQualities] at a⟩
      · rintro (⟨i, q0, c0, h1, -⟩ | h)
        · simp [specQualities] at h1
        · exact h.1
    · constructor
      · intro h
        exact ⟨h, fun ⟨i, q0, c0, h1, _⟩ => by simp [specQualities] at h1⟩
      · exact fun h => h.1
  | cons p es ih =>
    obtain ⟨c, e⟩ := p
    intro l q hq hl hx hv
    have hc : cfgValidate c = true := hv (c, e) (by simp)
    obtain ⟨l1, h1, h2, h3, h4⟩ := hstep_eq c hc l e q hq hl
    obtain ⟨b1, b2, b3, b4, b5, b6, b7⟩ := (cfgValidate_iff c).mp hc
    have hq1 : specAge c.scaling.toNat q e.isLoss ≤ 1000 := specAge_le _ _ _ (by omega) hq
    have e1 : hrun l ((c, e) :: es) = hrun l1 es := by rw [hrun_cons, h1]; rfl
    have e2 : specQualities q ((c, e) :: es) = specAge c.scaling.toNat q e.isLoss :: specQualities (specAge c.scaling.toNat q e.isLoss) es := rfl
    rw [e1, e2]
    generalize specAge c.scaling.toNat q e.isLoss = q1 at *
    have hx1 : ¬(l1.pending = true ∧ l1.lost = true) := by
      rw [h3, h4]
      unfold judge
      cases hp : l.pending <;> cases hlo : l.lost <;> simp_all <;> split <;> simp_all
    obtain ⟨l', q', r1, r2, r3, r4, r5, r6, r7⟩ := ih l1 q1 hq1 h2 hx1 (fun p hp => hv p (List.mem_cons_of_mem _ hp))
    refine ⟨l', q', r1, r2, r3, ?_, r5, ?_, ?_⟩
    · rw [List.getLast?_cons]
      exact r4
    · rw [r6, usable_cons, kept_cons]
      rw [h3, h4]
      have hj : ((judge c q1 l.pending l.lost).1 = false ∧ (judge c q1 l.pending l.lost).2.1 = false) ↔
          c.accept < (q1 : Int) ∨ ((l.pending = false ∧ l.lost = false) ∧ c.reject ≤ (q1 : Int)) := by
        unfold judge
        cases hp : l.pending <;> cases hlo : l.lost <;> simp
        · split
          · simp; omega
          · simp; omega
        · split
          · simp; omega
          · simp; omega
        · split
          · simp; omega
          · simp; omega
        · split
          · simp; omega
          · simp; omega
      rw [hj]
      unfold Kept
      constructor
      · rintro (h | ⟨h | h, h'⟩)
        · exact Or.inl (Or.inl h)
        · exact Or.inl (Or.inr ⟨h, h'⟩)
        · exact Or.inr ⟨h.1, h.2, h'⟩
      · rintro ((h | ⟨h, h'⟩) | ⟨h, h', h''⟩)
        · exact Or.inl h
        · exact Or.inr ⟨Or.inl h, h'⟩
        · exact Or.inr ⟨Or.inr ⟨h, h'⟩, h''⟩
    · rw [r7, ever_cons, h3]
      have hj : (judge c q1 l.pending l.lost).1 = true ↔ l.pending = true ∧ ¬ c.accept < (q1 : Int) := by
        unfold judge
        cases hp : l.pending <;> cases hlo : l.lost <;> simp
        · split <;> simp
        · split <;> simp
        · split
          · simp; omega
          · simp; omega
        · split
          · simp; omega
          · simp; omega
      rw [hj, not_or, and_assoc]

/-! ### C80 -/

/-- C80: from the creation of the link on, for every sequence of received and lost HELLOs and whatever valid configurations are
set in between, no computation overflows and the quality stays between 0 and 1000. -/
theorem C80_quality_bounded (es : List (HCfg × HEvent)) (hv : Valid es) :
    ∃ l, hrun HLink.init es = some l ∧ 0 ≤ l.quality ∧ l.quality ≤ 1000 := by
  obtain ⟨l, q, h1, h2, h3, -⟩ := hrun_spec es HLink.init 0 (by omega) rfl (by decide) hv
  exact ⟨l, h1, by omega, by omega⟩

/-- C80: the quality is the exponentially aged average with upward rounding. -/
theorem C80_quality_is_aged (es : List (HCfg × HEvent)) (hv : Valid es) (l : HLink) (h : hrun HLink.init es = some l) :
    l.quality = (((specQualities 0 es).getLast?.getD 0 : Nat) : Int) := by
  obtain ⟨l', q, h1, h2, h3, h4, -⟩ := hrun_spec es HLink.init 0 (by omega) rfl (by decide) hv
  rw [h] at h1
  cases h1
  rw [h2, h4]

/-- C80: a link is usable, neither pending nor lost, exactly if its quality has exceeded the threshold for acceptance at some
event and was not below the threshold for rejection at any event since then. -/
theorem C80_usable_iff (es : List (HCfg × HEvent)) (hv : Valid es) (l : HLink) (h : hrun HLink.init es = some l) :
    (l.pending = false ∧ l.lost = false) ↔ Usable (specQualities 0 es) es := by
  obtain ⟨l', q, h1, -, -, -, -, h6, -⟩ := hrun_spec es HLink.init 0 (by omega) rfl (by decide) hv
  rw [h] at h1
  cases h1
  rw [h6]
  constructor
  · rintro (h | ⟨⟨h, -⟩, -⟩)
    · exact h
    · cases h
  · exact Or.inl

/-- C80: a link is pending exactly if it has never been accepted, and lost exactly if it has been accepted once and is not usable;
so it is never both. -/
theorem C80_pending_lost (es : List (HCfg × HEvent)) (hv : Valid es) (l : HLink) (h : hrun HLink.init es = some l) :
    (l.pending = true ↔ ¬ EverAccepted (specQualities 0 es) es) ∧
    (l.lost = true ↔ EverAccepted (specQualities 0 es) es ∧ ¬ Usable (specQualities 0 es) es) ∧
    ¬(l.pending = true ∧ l.lost = true) := by
  have hu := C80_usable_iff es hv l h
  obtain ⟨l', q, h1, -, -, -, h5, -, h7⟩ := hrun_spec es HLink.init 0 (by omega) rfl (by decide) hv
  rw [h] at h1
  cases h1
  have hp : l.pending = true ↔ ¬ EverAccepted (specQualities 0 es) es := by
    rw [h7]; exact ⟨fun h => h.2, fun h => ⟨rfl, h⟩⟩
  refine ⟨hp, ?_, h5⟩
  have hn : EverAccepted (specQualities 0 es) es ↔ l.pending = false := by
    cases hb : l.pending with
    | true => exact ⟨fun a => absurd a (hp.mp hb), fun a => Bool.noConfusion a⟩
    | false =>
      refine ⟨fun _ => rfl, fun _ => Classical.byContradiction fun a => ?_⟩
      have := hp.mpr a
      rw [hb] at this
      cases this
  rw [hn, ← hu]
  cases hb : l.pending <;> cases hl : l.lost <;> simp_all

/-- C80: the status of the link is recalculated exactly by the events that change its usability. -/
theorem C80_status_updated (c : HCfg) (hc : cfgValidate c = true) (l : HLink) (e : HEvent) (hq : 0 ≤ l.quality) (hq' : l.quality ≤ 1000) :
    ∃ l' call, hstep c l e = some (l', call) ∧
      (call = true ↔ (decide (l'.pending = false ∧ l'.lost = false) ≠ decide (l.pending = false ∧ l.lost = false))) := by
  obtain ⟨l', h1, h2, h3, h4⟩ := hstep_eq c hc l e l.quality.toNat (by omega) (by omega)
  refine ⟨l', _, h1, ?_⟩
  rw [h3, h4]
  unfold judge
  cases hp : l.pending <;> cases hlo : l.lost <;> simp <;> split <;> simp

/-- C80: validation accepts exactly the configurations with values in their ranges and a threshold for acceptance above
the one for rejection. -/
theorem C80_validate (c : HCfg) : cfgValidate c = true ↔
    (0 ≤ c.reject ∧ c.reject < c.accept ∧ c.accept ≤ 1000 ∧ 1 ≤ c.scaling ∧ c.scaling ≤ 1000) := by
  rw [cfgValidate_iff]
  omega

/-- five HELLOs with the default values are accepted, seven losses later the link is lost -/
example : (hrun HLink.init (List.replicate 5 (HCfg.default, HEvent.hello 2000 6000))).map (fun l => (l.quality, l.pending, l.lost))
    = some (764, false, false) := by decide +kernel
example : (hrun HLink.init (List.replicate 4 (HCfg.default, HEvent.hello 2000 6000))).map (fun l => (l.quality, l.pending, l.lost))
    = some (685, true, false) := by decide +kernel
example : (hrun HLink.init (List.replicate 5 (HCfg.default, HEvent.hello 2000 6000) ++ List.replicate 4 (HCfg.default, .timeout))).map
    (fun l => (l.quality, l.pending, l.lost)) = some (243, false, true) := by decide +kernel
example : Valid (List.replicate 5 (HCfg.default, HEvent.hello 2000 6000)) := by
  intro p hp; rw [List.eq_of_mem_replicate hp]; decide

/-! ### C81 -/

/-- the same event `n` times -/
def steady (c : HCfg) (e : HEvent) (n : Nat) : List (HCfg × HEvent) := List.replicate n (c, e)

/-- `n` times the same aging -/
def specAgeN (s : Nat) (lost : Bool) : Nat → Nat → Nat
  | 0, q => q
  | n + 1, q => specAgeN s lost n (specAge s q lost)

theorem specAgeN_le (s : Nat) (lost : Bool) (hs : s ≤ 1000) : ∀ n q, q ≤ 1000 → specAgeN s lost n q ≤ 1000
  | 0, _, h => h
  | n + 1, q, h => specAgeN_le s lost hs n _ (specAge_le s q lost hs h)

theorem age_deficit (s q : Nat) (hs : s ≤ 1000) (hq : q ≤ 1000) : (1000 - specAge s q false) * 1000 ≤ (1000 - q) * (1000 - s) := by
  unfold specAge
  simp only [Bool.false_eq_true, if_false]
  obtain ⟨d, rfl⟩ : ∃ d, q = 1000 - d := ⟨1000 - q, by omega⟩
  obtain ⟨t, rfl⟩ : ∃ t, s = 1000 - t := ⟨1000 - s, by omega⟩
  have ht : t ≤ 1000 ∨ 1000 < t := by omega
  have hd : d ≤ 1000 ∨ 1000 < d := by omega
  have e1 : 1000 - (1000 - t) = min t 1000 := by omega
  have e2 : 1000 - (1000 - d) = min d 1000 := by omega
  rw [e1, e2]
  generalize ht' : min t 1000 = t' at *
  generalize hd' : min d 1000 = d' at *
  have e3 : 1000 - d = 1000 - d' := by omega
  have e4 : 1000 - t = 1000 - t' := by omega
  rw [e3, e4]
  have e5 : (1000 - d') * t' = 1000 * t' - d' * t' := by rw [Nat.sub_mul]
  rw [e5]
  have e6 : d' * t' ≤ 1000 * t' := Nat.mul_le_mul_right _ (by omega)
  generalize d' * t' = x at *
  omega

theorem age_grows (s q : Nat) (h1 : 1 ≤ s) (hs : s ≤ 1000) (hq : q < 1000) : q < specAge s q false := by
  have h := age_deficit s q hs (by omega)
  have h2 : (1000 - q) * (1000 - s) < (1000 - q) * 1000 := Nat.mul_lt_mul_of_pos_left (by omega) (by omega)
  omega

theorem grow_reaches (s : Nat) (h1 : 1 ≤ s) (hs : s ≤ 1000) : ∀ n q, q ≤ 1000 → 1000 ≤ q + n → specAgeN s false n q = 1000
  | 0, q, h, h' => by unfold specAgeN; omega
  | n + 1, q, h, h' => by
    unfold specAgeN
    refine grow_reaches s h1 hs n _ (specAge_le _ _ _ hs h) ?_
    by_cases hq : q = 1000
    · subst hq
      have h3 : specAge s 1000 false = 1000 := by
        unfold specAge
        simp only [Bool.false_eq_true, if_false]
        omega
      omega
    · have := age_grows s q h1 hs (by omega)
      omega

theorem age_shrinks (s q : Nat) (hs : s ≤ 1000) (h : 1000 ≤ q * s) : specAge s q true < q := by
  unfold specAge
  simp only [if_true]
  have e : q * (1000 - s) = q * 1000 - q * s := Nat.mul_sub q 1000 s
  have hle : q * s ≤ q * 1000 := Nat.mul_le_mul_left _ hs
  rw [e]
  generalize q * s = x at *
  omega

theorem age_stuck (s q : Nat) (hs : s ≤ 1000) (h : q * s < 1000) : specAge s q true = q := by
  unfold specAge
  simp only [if_true]
  have e : q * (1000 - s) = q * 1000 - q * s := Nat.mul_sub q 1000 s
  have hle : q * s ≤ q * 1000 := Nat.mul_le_mul_left _ hs
  rw [e]
  generalize q * s = x at *
  omega

theorem stuckN (s : Nat) (hs : s ≤ 1000) : ∀ n q, q * s < 1000 → specAgeN s true n q = q
  | 0, q, _ => rfl
  | n + 1, q, h => by
    unfold specAgeN
    rw [age_stuck s q hs h, stuckN s hs n q h]

theorem shrink_reaches (s : Nat) (hs : s ≤ 1000) : ∀ n q, q ≤ n → specAgeN s true n q * s < 1000
  | 0, q, h => by
    have : q = 0 := by omega
    subst this
    unfold specAgeN
    omega
  | n + 1, q, h => by
    by_cases hq : q * s < 1000
    · rw [stuckN s hs _ q hq]; exact hq
    · unfold specAgeN
      have := age_shrinks s q hs (by omega)
      exact shrink_reaches s hs n _ (by omega)

theorem deficitN (s : Nat) (hs : s ≤ 1000) : ∀ n q, q ≤ 1000 →
    (1000 - specAgeN s false n q) * 1000 ^ n ≤ (1000 - q) * (1000 - s) ^ n
  | 0, q, _ => by simp [specAgeN]
  | n + 1, q, h => by
    unfold specAgeN
    have h1 := deficitN s hs n _ (specAge_le s q false hs h)
    have h2 := age_deficit s q hs h
    calc (1000 - specAgeN s false n (specAge s q false)) * 1000 ^ (n + 1)
        = (1000 - specAgeN s false n (specAge s q false)) * 1000 ^ n * 1000 := by rw [Nat.pow_succ, Nat.mul_assoc]
      _ ≤ (1000 - specAge s q false) * (1000 - s) ^ n * 1000 := Nat.mul_le_mul_right _ h1
      _ = (1000 - specAge s q false) * 1000 * (1000 - s) ^ n := by rw [Nat.mul_assoc, Nat.mul_comm ((1000 - s) ^ n), ← Nat.mul_assoc]
      _ ≤ (1000 - q) * (1000 - s) * (1000 - s) ^ n := Nat.mul_le_mul_right _ h2
      _ = (1000 - q) * (1000 - s) ^ (n + 1) := by rw [Nat.mul_assoc, Nat.pow_succ, Nat.mul_comm ((1000 - s) ^ n)]

/-- run of the same event -/
theorem hrun_steady (c : HCfg) (hc : cfgValidate c = true) (e : HEvent) : ∀ (n : Nat) (l : HLink) (q : Nat), q ≤ 1000 → l.quality = (q : Int) →
    ∃ l', hrun l (steady c e n) = some l' ∧ l'.quality = ((specAgeN c.scaling.toNat e.isLoss n q : Nat) : Int)
  | 0, l, q, _, hl => ⟨l, rfl, hl⟩
  | n + 1, l, q, hq, hl => by
    obtain ⟨l1, h1, h2, -⟩ := hstep_eq c hc l e q hq hl
    obtain ⟨b1, b2, b3, b4, b5, b6, b7⟩ := (cfgValidate_iff c).mp hc
    obtain ⟨l', h3, h4⟩ := hrun_steady c hc e n l1 _ (specAge_le c.scaling.toNat q e.isLoss (by omega) hq) h2
    refine ⟨l', ?_, h4⟩
    have : steady c e (n + 1) = (c, e) :: steady c e n := rfl
    rw [this]
    rw [hrun_cons, h1]
    exact h3

theorem steady_succ (c : HCfg) (e : HEvent) (n : Nat) : steady c e (n + 1) = steady c e n ++ [(c, e)] := by
  unfold steady; rw [List.replicate_succ']

theorem hrun_append (a b : List (HCfg × HEvent)) : ∀ l, hrun l (a ++ b) = (hrun l a).bind (fun l => hrun l b) := by
  induction a with
  | nil => intro l; rfl
  | cons p a ih =>
    obtain ⟨c, e⟩ := p
    intro l
    simp only [List.cons_append, hrun_cons]
    cases hstep c l e with
    | none => rfl
    | some r => exact ih r.1

/-- C81: while every HELLO arrives, the distance of the quality from its maximum shrinks at least by the factor (1 - scaling) with
each of them. -/
theorem C81_reception_geometric (c : HCfg) (hc : cfgValidate c = true) (it vt n : Nat) (l : HLink) (hq : 0 ≤ l.quality) (hq' : l.quality ≤ 1000) :
    ∃ l', hrun l (steady c (.hello it vt) n) = some l' ∧
      (1000 - l'.quality) * 1000 ^ n ≤ (1000 - l.quality) * (1000 - c.scaling) ^ n := by
  obtain ⟨b1, b2, b3, b4, b5, b6, b7⟩ := (cfgValidate_iff c).mp hc
  obtain ⟨l', h1, h2⟩ := hrun_steady c hc (.hello it vt) n l l.quality.toNat (by omega) (by omega)
  refine ⟨l', h1, ?_⟩
  have hd := deficitN c.scaling.toNat (by omega) n l.quality.toNat (by omega)
  have hb := specAgeN_le c.scaling.toNat false (by omega) n l.quality.toNat (by omega)
  have h2' : l'.quality = ((specAgeN c.scaling.toNat false n l.quality.toNat : Nat) : Int) := h2
  rw [h2']
  have e1 : (1000 : Int) - ((specAgeN c.scaling.toNat false n l.quality.toNat : Nat) : Int)
      = ((1000 - specAgeN c.scaling.toNat false n l.quality.toNat : Nat) : Int) := by omega
  have e2 : (1000 : Int) - l.quality = ((1000 - l.quality.toNat : Nat) : Int) := by omega
  have e3 : (1000 : Int) - c.scaling = ((1000 - c.scaling.toNat : Nat) : Int) := by omega
  rw [e1, e2, e3]
  have h3 := Int.ofNat_le.mpr hd
  rw [Int.natCast_mul, Int.natCast_mul, Int.natCast_pow, Int.natCast_pow] at h3
  exact h3

/-- C81: if the threshold for acceptance is below the maximum, every link whose HELLOs all arrive is usable after at most 1000 of them. -/
theorem C81_accepted_partial (c : HCfg) (hc : cfgValidate c = true) (ha : c.accept < 1000) (it vt n : Nat) (hn : 1000 ≤ n)
    (l : HLink) (hq : 0 ≤ l.quality) (hq' : l.quality ≤ 1000) :
    ∃ l', hrun l (steady c (.hello it vt) (n + 1)) = some l' ∧ l'.quality = 1000 ∧ l'.pending = false ∧ l'.lost = false := by
  obtain ⟨b1, b2, b3, b4, b5, b6, b7⟩ := (cfgValidate_iff c).mp hc
  obtain ⟨l1, h1, h2⟩ := hrun_steady c hc (.hello it vt) n l l.quality.toNat (by omega) (by omega)
  have h3 := grow_reaches c.scaling.toNat (by omega) (by omega) n l.quality.toNat (by omega) (by omega)
  have h2' : l1.quality = ((1000 : Nat) : Int) := by rw [h2]; simp only [HEvent.isLoss]; rw [h3]
  obtain ⟨l2, g1, g2, g3, g4⟩ := hstep_eq c hc l1 (.hello it vt) 1000 (by omega) h2'
  have h4 : specAge c.scaling.toNat 1000 false = 1000 := by
    have := grow_reaches c.scaling.toNat (by omega) (by omega) 1 1000 (by omega) (by omega)
    exact this
  simp only [HEvent.isLoss] at g2 g3 g4
  rw [h4] at g2 g3 g4
  refine ⟨l2, ?_, g2, ?_, ?_⟩
  · rw [steady_succ, hrun_append, h1]
    simp only [Option.bind_some]
    rw [hrun_cons, g1]
    rfl
  · rw [g3]; unfold judge
    have ha' : c.accept < ((1000 : Nat) : Int) := ha
    cases hp : l1.pending <;> cases hl : l1.lost <;> simp [ha]
    split <;> rfl
  · rw [g4]; unfold judge
    cases hp : l1.pending <;> cases hl : l1.lost <;> simp [ha]
    rw [if_neg (by omega)]

/-- C81 is false for the threshold 1.0, which validation accepts: no link is ever accepted, whatever arrives. -/
theorem C81_accepted_counterexample (c : HCfg) (ha : c.accept = 1000) (hc : cfgValidate c = true) (es : List HEvent) (l : HLink)
    (h : hrun HLink.init (es.map (fun e => (c, e))) = some l) : l.pending = true := by
  have hv : Valid (es.map (fun e => (c, e))) := by
    intro p hp
    obtain ⟨e, -, rfl⟩ := List.mem_map.mp hp
    exact hc
  rw [(C80_pending_lost _ hv l h).1]
  rintro ⟨i, q, c', h1, h2, h3⟩
  have hc' : c' = c := by
    simp only [List.getElem?_map, Option.map_map] at h2
    cases he : es[i]? with
    | none => rw [he] at h2; cases h2
    | some e => rw [he] at h2; simp at h2; exact h2.symm
  subst hc'
  -- the i-th quality is the last one of the first i + 1 events
  have hb : ∀ (es : List (HCfg × HEvent)) (q0 i q : Nat), Valid es → q0 ≤ 1000 → (specQualities q0 es)[i]? = some q → q ≤ 1000 := by
    intro es
    induction es with
    | nil => intro q0 i q _ _ h; simp [specQualities] at h
    | cons p es ih =>
      obtain ⟨c, e⟩ := p
      intro q0 i q hv h0 h
      have := (cfgValidate_iff c).mp (hv (c, e) (by simp))
      have h1 : specAge c.scaling.toNat q0 e.isLoss ≤ 1000 := specAge_le _ _ _ (by omega) h0
      cases i with
      | zero =>
        simp only [specQualities, List.getElem?_cons_zero, Option.some.injEq] at h
        omega
      | succ i =>
        simp only [specQualities, List.getElem?_cons_succ] at h
        exact ih _ i q (fun p hp => hv p (List.mem_cons_of_mem _ hp)) h1 h
  have := hb _ 0 i q hv (by omega) h1
  omega

/-- the threshold of the counterexample passes validation -/
example : cfgValidate ⟨1000, 300, 250⟩ = true := by decide

/-- C81: a usable link whose HELLOs are all lost is lost after at most 1000 of them if reject · scaling is at least 1 (both as fractions of
1000). -/
theorem C81_rejected_partial (c : HCfg) (hc : cfgValidate c = true) (hr : 1000 ≤ c.reject * c.scaling) (n : Nat) (hn : 1000 ≤ n)
    (l : HLink) (hq : 0 ≤ l.quality) (hq' : l.quality ≤ 1000) :
    ∃ l', hrun l (steady c .timeout (n + 1)) = some l' ∧ l'.quality < c.reject ∧ (l'.pending = true ∨ l'.lost = true) := by
  obtain ⟨b1, b2, b3, b4, b5, b6, b7⟩ := (cfgValidate_iff c).mp hc
  obtain ⟨l1, h1, h2⟩ := hrun_steady c hc .timeout n l l.quality.toNat (by omega) (by omega)
  have h3 := shrink_reaches c.scaling.toNat (by omega) n l.quality.toNat (by omega)
  have h4 : specAge c.scaling.toNat (specAgeN c.scaling.toNat true n l.quality.toNat) true = specAgeN c.scaling.toNat true n l.quality.toNat :=
    age_stuck _ _ (by omega) h3
  have hb := specAgeN_le c.scaling.toNat true (by omega) n l.quality.toNat (by omega)
  obtain ⟨l2, g1, g2, g3, g4⟩ := hstep_eq c hc l1 .timeout _ hb h2
  simp only [HEvent.isLoss] at g2 g3 g4
  rw [h4] at g2 g3 g4
  generalize specAgeN c.scaling.toNat true n l.quality.toNat = q at *
  have hlt : (q : Int) < c.reject := by
    refine Int.lt_of_not_ge fun hge => ?_
    have h5 : c.reject * c.scaling ≤ (q : Int) * c.scaling := Int.mul_le_mul_of_nonneg_right hge (by omega)
    have h6 : (q : Int) * c.scaling = ((q * c.scaling.toNat : Nat) : Int) := by
      rw [Int.natCast_mul, Int.toNat_of_nonneg (by omega)]
    omega
  refine ⟨l2, ?_, by rw [g2]; exact hlt, ?_⟩
  · rw [steady_succ, hrun_append, h1]
    simp only [Option.bind_some]
    rw [hrun_cons, g1]
    rfl
  · rw [g3, g4]
    unfold judge
    cases hp : l1.pending <;> cases hl : l1.lost <;> simp
    · rw [if_pos hlt]; exact Or.inr rfl
    all_goals
      have : ¬ c.accept < (q : Int) := by omega
      simp [this]

/-- C81 is false for small products: if quality · scaling is below 1 (fractions of 1000), the rounding keeps the quality where it is, and
a link that is usable with at least the threshold for rejection stays usable for ever although all HELLOs are lost. -/
theorem C81_rejected_counterexample (c : HCfg) (hc : cfgValidate c = true) (n : Nat)
    (l : HLink) (hq : 0 ≤ l.quality) (hq' : l.quality ≤ 1000) (hs : l.quality * c.scaling < 1000) (hr : c.reject ≤ l.quality)
    (hu : l.pending = false ∧ l.lost = false) :
    ∃ l', hrun l (steady c .timeout n) = some l' ∧ l'.quality = l.quality ∧ l'.pending = false ∧ l'.lost = false := by
  obtain ⟨b1, b2, b3, b4, b5, b6, b7⟩ := (cfgValidate_iff c).mp hc
  induction n generalizing l with
  | zero => exact ⟨l, rfl, rfl, hu⟩
  | succ n ih =>
    obtain ⟨l1, g1, g2, g3, g4⟩ := hstep_eq c hc l .timeout l.quality.toNat (by omega) (by omega)
    simp only [HEvent.isLoss] at g2 g3 g4
    have hs' : l.quality.toNat * c.scaling.toNat < 1000 := by
      have h6 : ((l.quality.toNat * c.scaling.toNat : Nat) : Int) = l.quality * c.scaling := by
        rw [Int.natCast_mul, Int.toNat_of_nonneg (by omega), Int.toNat_of_nonneg (by omega)]
      omega
    rw [age_stuck _ _ (by omega) hs'] at g2 g3 g4
    have e : ((l.quality.toNat : Nat) : Int) = l.quality := by omega
    rw [e] at g2 g3 g4
    have hj : judge c l.quality l.pending l.lost = (false, false, false) := by
      rw [hu.1, hu.2]; unfold judge
      simp only [Bool.not_false, Bool.and_self, if_true]
      rw [if_neg (by omega)]
    rw [hj] at g3 g4
    obtain ⟨l', r1, r2, r3⟩ := ih l1 (by omega) (by omega) (by rw [g2]; exact hs) (by omega) ⟨g3, g4⟩
    refine ⟨l', ?_, by omega, r3⟩
    have : steady c .timeout (n + 1) = (c, .timeout) :: steady c .timeout n := rfl
    rw [this]
    rw [hrun_cons, g1]
    exact r1

/-- a configuration and a link as in the counterexample: with scaling 0.001 and reject 0.9 a link of quality 0.95 is never lost -/
example : cfgValidate ⟨920, 900, 1⟩ = true ∧ (950 : Int) * 1 < 1000 := by decide
/-- and such a state is reached -/
example : (hrun HLink.init (steady ⟨920, 900, 1000⟩ (.hello 2000 6000) 1 ++ steady ⟨920, 900, 50⟩ .timeout 1)).map
    (fun l => (l.quality, l.pending, l.lost)) = some (950, false, false) := by decide +kernel
/-- the default values meet the condition of `C81_rejected_partial` and `C81_accepted_partial` -/
example : cfgValidate HCfg.default = true ∧ 1000 ≤ HCfg.default.reject * HCfg.default.scaling ∧ HCfg.default.accept < 1000 := by decide

/-- C81: the first loss after a HELLO is counted after one and a half announced HELLO intervals, each further one an interval later; the
interval is the announced validity time if no interval is announced. -/
theorem C81_timer (c d : HCfg) (l l1 : HLink) (it vt : Nat) (call : Bool) (h : hstep c l (.hello it vt) = some (l1, call)) (n : Nat) (l2 : HLink)
    (h2 : hrun l1 (steady d .timeout n) = some l2) :
    l1.timer = some ((if it = 0 then vt else it) * 3 / 2) ∧ (0 < n → l2.timer = some (if it = 0 then vt else it)) := by
  have hk : ∀ (l l' : HLink) (call : Bool), hstep d l .timeout = some (l', call) → l'.itime = l.itime ∧ l'.timer = some l.itime := by
    intro l l' call h
    unfold hstep updateHysteresis at h
    cases ha : age d l.quality HEvent.timeout.isLoss with
    | none => rw [ha] at h; cases h
    | some q => rw [ha] at h; dsimp only at h; cases h; exact ⟨rfl, rfl⟩
  have hn : ∀ (n : Nat) (l l' : HLink), hrun l (steady d .timeout n) = some l' → l'.itime = l.itime ∧ (0 < n → l'.timer = some l.itime) := by
    intro n
    induction n with
    | zero => intro l l' h; cases h; exact ⟨rfl, fun h => absurd h (by omega)⟩
    | succ n ih =>
      intro l l' h
      rw [steady_succ, hrun_append] at h
      cases hr : hrun l (steady d .timeout n) with
      | none => rw [hr] at h; cases h
      | some m =>
        rw [hr] at h
        simp only [Option.bind_some] at h
        rw [hrun_cons] at h
        cases hs : hstep d m .timeout with
        | none => rw [hs] at h; cases h
        | some r =>
          obtain ⟨m', call⟩ := r
          rw [hs] at h
          cases h
          have h1 := hk m _ call hs
          have h2 := ih l m hr
          exact ⟨by rw [h1.1, h2.1], fun _ => by rw [h1.2, h2.1]⟩
  unfold hstep updateHysteresis at h
  cases ha : age c l.quality (HEvent.hello it vt).isLoss with
  | none => rw [ha] at h; cases h
  | some q =>
    rw [ha] at h
    dsimp only at h
    cases h
    exact ⟨rfl, (hn n _ l2 h2).2⟩

example : (hrun HLink.init [(HCfg.default, .hello 2000 6000)]).bind (·.timer) = some 3000 := by decide +kernel
example : (hrun HLink.init [(HCfg.default, .hello 0 6000), (HCfg.default, .timeout)]).bind (·.timer) = some 6000 := by decide +kernel

end Verif.Metric
