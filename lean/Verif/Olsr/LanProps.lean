import Verif.Olsr.Lan

/-
C53: for every history of additions and removals the set of attached networks contains exactly what is configured, and the
summary "same distance in all domains".
-/
namespace Verif.Olsr
variable {α : Type} [DecidableEq α]

/-! ### Specification -/

/-- what the calls so far configured: metric and distance of a network in a domain.  An addition that fails for lack of
memory has no effect, unless the network is already configured in some domain. -/
def configured : List (LanOp α) → α → Fin 4 → Option (Nat × Nat)
  | [] => fun _ _ => none
  | .add dom k metric dist ok :: older =>
    fun j i => if j = k ∧ i = dom ∧ (ok = true ∨ ∃ x, configured older k x ≠ none) then some (metric, dist) else configured older j i
  | .remove dom k :: older => fun j i => if j = k ∧ i = dom then none else configured older j i

/-- all distances configured for the network are equal -/
def AllEqual (c : Fin 4 → Option (Nat × Nat)) : Prop := ∀ i j m n d e, c i = some (m, d) → c j = some (n, e) → d = e

/-! ### Invariant -/

/-- entry and configuration agree -/
structure Agree (s : Option Lan) (c : Fin 4 → Option (Nat × Nat)) : Prop where
  none : s = none → ∀ i, c i = Option.none
  some : ∀ e, s = Option.some e → ∃ i, c i ≠ Option.none
  active : ∀ e, s = Option.some e → ∀ i m d, c i = Option.some (m, d) → e.data i = ⟨m, d, true⟩
  inactive : ∀ e, s = Option.some e → ∀ i, c i = Option.none → (e.data i).active = false

theorem any_active (d : Fin 4 → LanData) : (dataList d).any (·.active) = true ↔ ∃ i, (d i).active = true := by
  constructor
  · intro h
    obtain ⟨x, hx, ha⟩ := List.any_eq_true.1 h
    unfold dataList at hx
    simp only [List.mem_cons, List.not_mem_nil, or_false] at hx
    rcases hx with rfl | rfl | rfl | rfl
    · exact ⟨0, ha⟩
    · exact ⟨1, ha⟩
    · exact ⟨2, ha⟩
    · exact ⟨3, ha⟩
  · rintro ⟨i, hi⟩
    refine List.any_eq_true.2 ⟨d i, ?_, hi⟩
    unfold dataList
    match i with
    | 0 => simp
    | 1 => simp
    | 2 => simp
    | 3 => simp

theorem agree_update (e : Lan) (c c' : Fin 4 → Option (Nat × Nat)) (dom : Fin 4) (m d : Nat)
    (ha : ∀ i m d, c i = some (m, d) → e.data i = ⟨m, d, true⟩) (hi : ∀ i, c i = none → (e.data i).active = false)
    (hc : ∀ i, c' i = if i = dom then some (m, d) else c i) : Agree (some (lanUpdate e dom m d)) c' := by
  refine ⟨fun h => (by cases h), ?_, ?_, ?_⟩
  · intro e' _
    refine ⟨dom, ?_⟩
    rw [hc, if_pos rfl]
    intro h
    cases h
  · intro e' he i m' d' h
    cases he
    rw [hc] at h
    show (if i = dom then _ else _) = _
    by_cases h1 : i = dom
    · rw [if_pos h1] at h ⊢
      cases h
      rfl
    · rw [if_neg h1] at h ⊢
      exact ha i m' d' h
  · intro e' he i h
    cases he
    rw [hc] at h
    show (if i = dom then _ else _ : LanData).active = false
    by_cases h1 : i = dom
    · rw [if_pos h1] at h
      cases h
    · rw [if_neg h1] at h ⊢
      exact hi i h

theorem agree_congr {s : Option Lan} {c c' : Fin 4 → Option (Nat × Nat)} (h : Agree s c) (hc : ∀ i, c' i = c i) : Agree s c' := by
  have : c' = c := funext hc
  rw [this]
  exact h

theorem run_snoc (ops : List (LanOp α)) (op : LanOp α) : lanRun (ops ++ [op]) = lanStep (lanRun ops) op := by
  unfold lanRun
  rw [List.foldl_append]
  rfl

theorem agree_step (s : LanSet α) (older : List (LanOp α)) (op : LanOp α) (h : ∀ k, Agree (s k) (configured older k)) (j : α) :
    Agree (lanStep s op j) (configured (op :: older) j) := by
  cases op with
  | add dom k m d ok =>
    show Agree (lanAdd s dom k m d ok j) _
    unfold lanAdd
    cases hs : s k with
    | some e =>
      dsimp only
      by_cases hj : j = k
      · subst hj
        rw [show (s.put j (some (lanUpdate e dom m d))) j = some (lanUpdate e dom m d) from if_pos rfl]
        refine agree_update e (configured older j) _ dom m d ((h j).active e hs) ((h j).inactive e hs) fun i => ?_
        show (if _ then _ else _) = _
        by_cases hi : i = dom
        · rw [if_pos hi, if_pos ⟨rfl, hi, Or.inr ((h j).some e hs)⟩]
        · rw [if_neg hi, if_neg fun hh => hi hh.2.1]
      · rw [show (s.put k (some (lanUpdate e dom m d))) j = s j from if_neg hj]
        exact agree_congr (h j) fun i => if_neg fun hh => hj hh.1
    | none =>
      dsimp only
      have hno : ¬ ∃ x, configured older k x ≠ none := fun ⟨x, hx⟩ => hx ((h k).none hs x)
      cases ok with
      | false =>
        rw [if_neg (by decide)]
        exact agree_congr (h j) fun i => if_neg fun hh => hh.2.2.elim (fun h => by cases h) hno
      | true =>
        rw [if_pos rfl]
        by_cases hj : j = k
        · subst hj
          rw [show (s.put j (some (lanUpdate lanNew dom m d))) j = some (lanUpdate lanNew dom m d) from if_pos rfl]
          refine agree_update lanNew (configured older j) _ dom m d (fun i m' d' hc => ?_) (fun i _ => rfl) fun i => ?_
          · rw [(h j).none hs i] at hc
            cases hc
          · show (if _ then _ else _) = _
            by_cases hi : i = dom
            · rw [if_pos hi, if_pos ⟨rfl, hi, Or.inl rfl⟩]
            · rw [if_neg hi, if_neg fun hh => hi hh.2.1]
        · rw [show (s.put k (some (lanUpdate lanNew dom m d))) j = s j from if_neg hj]
          exact agree_congr (h j) fun i => if_neg fun hh => hj hh.1
  | remove dom k =>
    show Agree (lanRemove s dom k j) _
    unfold lanRemove
    cases hs : s k with
    | none =>
      dsimp only
      refine agree_congr (h j) fun i => ?_
      show (if _ then _ else _) = _
      by_cases hj : j = k ∧ i = dom
      · rw [if_pos hj, hj.1, (h k).none hs]
      · rw [if_neg hj]
    | some e =>
      dsimp only
      by_cases hj : j = k
      · subst hj
        have hc : ∀ i, configured (.remove dom j :: older) j i = if i = dom then none else configured older j i := by
          intro i
          show (if _ then _ else _) = _
          by_cases hi : i = dom
          · rw [if_pos ⟨rfl, hi⟩, if_pos hi]
          · rw [if_neg fun hh => hi hh.2, if_neg hi]
        have hact : ∀ i m d, configured (.remove dom j :: older) j i = some (m, d) → e.put dom { e.data dom with active := false } i = ⟨m, d, true⟩ := by
          intro i m d hh
          rw [hc] at hh
          show (if i = dom then _ else _) = _
          by_cases hi : i = dom
          · rw [if_pos hi] at hh
            cases hh
          · rw [if_neg hi] at hh ⊢
            exact (h j).active e hs i m d hh
        have hin : ∀ i, configured (.remove dom j :: older) j i = none → (e.put dom { e.data dom with active := false } i).active = false := by
          intro i hh
          rw [hc] at hh
          show (if i = dom then _ else _ : LanData).active = _
          by_cases hi : i = dom
          · rw [if_pos hi]
          · rw [if_neg hi] at hh ⊢
            exact (h j).inactive e hs i hh
        by_cases ha : (dataList (e.put dom { e.data dom with active := false })).any (·.active) = true
        · rw [if_pos ha, show (s.put j _) j = _ from if_pos rfl]
          refine ⟨fun h => (by cases h), ?_, ?_, ?_⟩
          · intro e' _
            obtain ⟨i, hi⟩ := (any_active _).1 ha
            refine ⟨i, fun hh => ?_⟩
            rw [hin i hh] at hi
            cases hi
          · intro e' he
            cases he
            exact hact
          · intro e' he
            cases he
            exact hin
        · rw [if_neg ha, show (s.put j none) j = none from if_pos rfl]
          refine ⟨fun _ i => ?_, fun e he => (by cases he), fun e he => (by cases he), fun e he => (by cases he)⟩
          cases hh : configured (.remove dom j :: older) j i with
          | none => rfl
          | some x =>
            refine absurd ((any_active _).2 ⟨i, ?_⟩) ha
            rw [hact i x.1 x.2 hh]
      · have : ∀ x, (s.put k x) j = s j := fun x => if_neg hj
        have hc := agree_congr (h j) (c' := configured (.remove dom k :: older) j) fun i => if_neg fun hh => hj hh.1
        by_cases ha : (dataList (e.put dom { e.data dom with active := false })).any (·.active) = true
        · rw [if_pos ha, this]
          exact hc
        · rw [if_neg ha, this]
          exact hc

theorem agree_run (ops : List (LanOp α)) (k : α) : Agree (lanRun ops.reverse k) (configured ops k) := by
  induction ops generalizing k with
  | nil => exact ⟨fun _ _ => rfl, fun e he => (by cases he), fun e he => (by cases he), fun e he => (by cases he)⟩
  | cons op ops ih =>
    rw [List.reverse_cons, run_snoc]
    exact agree_step _ ops op ih k

/-- C53: after every history (latest call first) of additions and removals the set has an entry for exactly the networks
configured in some domain, active in exactly the configured domains, with the metric and distance last given -/
theorem C53_history (ops : List (LanOp α)) (k : α) :
    ((∃ e, lanRun ops.reverse k = some e) ↔ ∃ i, configured ops k i ≠ none) ∧
    ∀ e, lanRun ops.reverse k = some e → ∀ i,
      ((e.data i).active = true ↔ configured ops k i ≠ none) ∧
      ∀ m d, configured ops k i = some (m, d) → (e.data i).metric = m ∧ (e.data i).dist = d := by
  have h := agree_run ops k
  refine ⟨⟨fun ⟨e, he⟩ => h.some e he, fun ⟨i, hi⟩ => ?_⟩, fun e he i => ⟨⟨fun ha hn => ?_, fun hn => ?_⟩, fun m d hc => ?_⟩⟩
  · cases hs : lanRun ops.reverse k with
    | none => exact absurd (h.none hs i) hi
    | some e => exact ⟨e, rfl⟩
  · rw [h.inactive e he i hn] at ha
    cases ha
  · cases hc : configured ops k i with
    | none => exact absurd hc hn
    | some x => rw [h.active e he i x.1 x.2 hc]
  · rw [h.active e he i m d hc]
    exact ⟨rfl, rfl⟩

/-! ### The summary -/

theorem sameLoop_of_equal (ds : List LanData) (tmp : Nat) (h : ∀ x ∈ ds, x.active = true → tmp ≠ 0 → x.dist = tmp)
    (he : ∀ x ∈ ds, ∀ y ∈ ds, x.active = true → y.active = true → x.dist = y.dist) : sameLoop tmp ds = true := by
  induction ds generalizing tmp with
  | nil => rfl
  | cons d ds ih =>
    have he' : ∀ x ∈ ds, ∀ y ∈ ds, x.active = true → y.active = true → x.dist = y.dist :=
      fun x hx y hy => he x (List.mem_cons_of_mem _ hx) y (List.mem_cons_of_mem _ hy)
    unfold sameLoop
    by_cases ha : d.active = true
    · rw [if_pos ha]
      have ht : (if tmp = 0 then d.dist else tmp) = d.dist := by
        by_cases h0 : tmp = 0
        · rw [if_pos h0]
        · rw [if_neg h0]
          exact (h d (List.mem_cons_self ..) ha h0).symm
      rw [ht, if_neg (fun hh => hh rfl)]
      exact ih d.dist (fun x hx hxa _ => he x (List.mem_cons_of_mem _ hx) d (List.mem_cons_self ..) hxa ha) he'
    · rw [if_neg ha]
      exact ih tmp (fun x hx => h x (List.mem_cons_of_mem _ hx)) he'

theorem equal_of_sameLoop (ds : List LanData) (tmp : Nat) (h0 : ∀ x ∈ ds, x.active = true → x.dist ≠ 0) (h : sameLoop tmp ds = true) :
    (∀ x ∈ ds, x.active = true → tmp ≠ 0 → x.dist = tmp) ∧
    (∀ x ∈ ds, ∀ y ∈ ds, x.active = true → y.active = true → x.dist = y.dist) := by
  induction ds generalizing tmp with
  | nil => exact ⟨fun x hx => (by cases hx), fun x hx => (by cases hx)⟩
  | cons d ds ih =>
    have h0' : ∀ x ∈ ds, x.active = true → x.dist ≠ 0 := fun x hx => h0 x (List.mem_cons_of_mem _ hx)
    unfold sameLoop at h
    by_cases ha : d.active = true
    · rw [if_pos ha] at h
      have hd := h0 d (List.mem_cons_self ..) ha
      by_cases hne : (if tmp = 0 then d.dist else tmp) ≠ d.dist
      · rw [if_pos hne] at h
        cases h
      · rw [if_neg hne] at h
        have ht : (if tmp = 0 then d.dist else tmp) = d.dist := Classical.not_not.1 hne
        rw [ht] at h
        obtain ⟨e1, e2⟩ := ih d.dist h0' h
        have e3 : ∀ x ∈ d :: ds, x.active = true → x.dist = d.dist := by
          intro x hx hxa
          rcases List.mem_cons.1 hx with rfl | hx
          · rfl
          · exact e1 x hx hxa hd
        refine ⟨fun x hx hxa hn => ?_, fun x hx y hy hxa hya => (e3 x hx hxa).trans (e3 y hy hya).symm⟩
        rw [if_neg hn] at ht
        rw [ht]
        exact e3 x hx hxa
    · rw [if_neg ha] at h
      obtain ⟨e1, e2⟩ := ih tmp h0' h
      refine ⟨fun x hx hxa hn => ?_, fun x hx y hy hxa hya => ?_⟩
      · rcases List.mem_cons.1 hx with rfl | hx
        · exact absurd hxa ha
        · exact e1 x hx hxa hn
      · rcases List.mem_cons.1 hx with rfl | hx
        · exact absurd hxa ha
        · rcases List.mem_cons.1 hy with rfl | hy
          · exact absurd hya ha
          · exact e2 x hx y hy hxa hya

theorem mem_dataList (d : Fin 4 → LanData) (x : LanData) : x ∈ dataList d ↔ ∃ i, d i = x := by
  unfold dataList
  simp only [List.mem_cons, List.not_mem_nil, or_false]
  constructor
  · rintro (rfl | rfl | rfl | rfl)
    · exact ⟨0, rfl⟩
    · exact ⟨1, rfl⟩
    · exact ⟨2, rfl⟩
    · exact ⟨3, rfl⟩
  · rintro ⟨i, rfl⟩
    match i with
    | 0 => simp
    | 1 => simp
    | 2 => simp
    | 3 => simp

/-- distances of the active domains of an entry are not 0, and equal if the flag says so -/
def Sound (e : Lan) : Prop :=
  (∀ i, (e.data i).active = true → (e.data i).dist ≠ 0) ∧
  (e.same = true → ∀ i j, (e.data i).active = true → (e.data j).active = true → (e.data i).dist = (e.data j).dist)

theorem sound_update (e : Lan) (dom : Fin 4) (m d : Nat) (hd : d ≠ 0) (h : Sound e) : Sound (lanUpdate e dom m d) := by
  have h1 : ∀ i, ((lanUpdate e dom m d).data i).active = true → ((lanUpdate e dom m d).data i).dist ≠ 0 := by
    intro i
    show (if i = dom then (⟨m, d, true⟩ : LanData) else e.data i).active = true → (if i = dom then (⟨m, d, true⟩ : LanData) else e.data i).dist ≠ 0
    by_cases hi : i = dom
    · rw [if_pos hi]
      exact fun _ => hd
    · rw [if_neg hi]
      exact h.1 i
  refine ⟨h1, fun hs i j hi hj => ?_⟩
  refine (equal_of_sameLoop _ 0 ?_ hs).2 _ ((mem_dataList _ _).2 ⟨i, rfl⟩) _ ((mem_dataList _ _).2 ⟨j, rfl⟩) hi hj
  intro x hx hxa
  obtain ⟨i, rfl⟩ := (mem_dataList _ _).1 hx
  exact h1 i hxa

theorem sound_step (s : LanSet α) (op : LanOp α) (hop : ∀ dom k m d ok, op = .add dom k m d ok → d ≠ 0)
    (h : ∀ k e, s k = some e → Sound e) (j : α) (e : Lan) (he : lanStep s op j = some e) : Sound e := by
  have put : ∀ k x, (∀ y, x = some y → Sound y) → (s.put k x) j = some e → Sound e := by
    intro k x hx hh
    by_cases hj : j = k
    · rw [show (s.put k x) j = x from if_pos hj] at hh
      exact hx e hh
    · rw [show (s.put k x) j = s j from if_neg hj] at hh
      exact h j e hh
  cases op with
  | add dom k m d ok =>
    have hd := hop dom k m d ok rfl
    change lanAdd s dom k m d ok j = some e at he
    unfold lanAdd at he
    cases hs : s k with
    | some e0 =>
      rw [hs] at he
      refine put k _ (fun y hy => ?_) he
      cases hy
      exact sound_update e0 dom m d hd (h k e0 hs)
    | none =>
      rw [hs] at he
      cases ok with
      | false => exact h j e he
      | true =>
        refine put k _ (fun y hy => ?_) he
        cases hy
        exact sound_update lanNew dom m d hd ⟨fun i hi => (by cases hi), fun _ i j hi => (by cases hi)⟩
  | remove dom k =>
    change lanRemove s dom k j = some e at he
    unfold lanRemove at he
    cases hs : s k with
    | none =>
      rw [hs] at he
      exact h j e he
    | some e0 =>
      rw [hs] at he
      dsimp only at he
      by_cases ha : (dataList (e0.put dom { e0.data dom with active := false })).any (·.active) = true
      · rw [if_pos ha] at he
        refine put k _ (fun y hy => ?_) he
        cases hy
        have h0 := h k e0 hs
        have sub : ∀ i, (e0.put dom { e0.data dom with active := false } i).active = true →
            (e0.data i).active = true ∧ e0.put dom { e0.data dom with active := false } i = e0.data i := by
          intro i
          show (if i = dom then _ else _ : LanData).active = true → _ ∧ (if i = dom then _ else _) = _
          by_cases hi : i = dom
          · rw [if_pos hi]
            intro hh
            cases hh
          · rw [if_neg hi]
            exact fun hh => ⟨hh, rfl⟩
        refine ⟨fun i hi => ?_, fun hsame i j hi hj => ?_⟩
        · obtain ⟨a1, a2⟩ := sub i hi
          show (e0.put dom _ i).dist ≠ 0
          rw [a2]
          exact h0.1 i a1
        · obtain ⟨a1, a2⟩ := sub i hi
          obtain ⟨b1, b2⟩ := sub j hj
          show (e0.put dom _ i).dist = (e0.put dom _ j).dist
          rw [a2, b2]
          exact h0.2 hsame i j a1 b1
      · rw [if_neg ha] at he
        exact put k _ (fun y hy => (by cases hy)) he

theorem sound_run (ops : List (LanOp α)) (hop : ∀ dom k m d ok, .add dom k m d ok ∈ ops → d ≠ 0) (k : α) (e : Lan)
    (he : lanRun ops.reverse k = some e) : Sound e := by
  induction ops generalizing k e with
  | nil => cases he
  | cons op ops ih =>
    rw [List.reverse_cons, run_snoc] at he
    refine sound_step _ op (fun dom k m d ok h => hop dom k m d ok (h ▸ List.mem_cons_self ..)) (fun k e => ?_) k e he
    exact ih (fun dom k m d ok h => hop dom k m d ok (List.mem_cons_of_mem _ h)) k e

/-- C53: if no distance 0 is ever configured, then after every history a network reported to have the same distance in all
domains has equal configured distances.  Missing: distances 0 (`C53_zero_counterexample`). -/
theorem C53_reported_partial (ops : List (LanOp α)) (k : α) (e : Lan) (h0 : ∀ dom k m d ok, .add dom k m d ok ∈ ops → d ≠ 0)
    (he : lanRun ops.reverse k = some e) (hs : e.same = true) : AllEqual (configured ops k) := by
  intro i j m n d d' hi hj
  have hA := agree_run ops k
  have hS := sound_run ops h0 k e he
  have h1 := hA.active e he i m d hi
  have h2 := hA.active e he j n d' hj
  have := hS.2 hs i j (by rw [h1]) (by rw [h2])
  rw [h1, h2] at this
  exact this

/-- C53: after an addition to a network, a network with equal configured distances is reported as such, even with distance 0.
Missing: after a removal (`C53_removed_counterexample`). -/
theorem C53_equal_partial (ops : List (LanOp α)) (dom : Fin 4) (k : α) (m d : Nat) (ok : Bool) (e : Lan)
    (he : lanRun (LanOp.add dom k m d ok :: ops).reverse k = some e) (h : AllEqual (configured (.add dom k m d ok :: ops) k)) : e.same = true := by
  have hA := agree_run (LanOp.add dom k m d ok :: ops) k
  have hsame : e.same = sameLoop 0 (dataList e.data) := by
    rw [List.reverse_cons, run_snoc] at he
    change lanAdd _ dom k m d ok k = some e at he
    unfold lanAdd at he
    cases hs : lanRun ops.reverse k with
    | some e0 =>
      rw [hs] at he
      dsimp only at he
      rw [show (LanSet.put _ k _) k = _ from if_pos rfl] at he
      cases he
      rfl
    | none =>
      rw [hs] at he
      cases ok with
      | false =>
        change lanRun ops.reverse k = some e at he
        rw [hs] at he
        cases he
      | true =>
        dsimp only at he
        rw [if_pos rfl, show (LanSet.put _ k _) k = _ from if_pos rfl] at he
        cases he
        rfl
  rw [hsame]
  refine sameLoop_of_equal _ 0 (fun x _ _ hn => absurd rfl hn) ?_
  intro x hx y hy hxa hya
  obtain ⟨i, rfl⟩ := (mem_dataList _ _).1 hx
  obtain ⟨j, rfl⟩ := (mem_dataList _ _).1 hy
  have conf : ∀ i, (e.data i).active = true → ∃ m' d', configured (.add dom k m d ok :: ops) k i = some (m', d') ∧ (e.data i).dist = d' := by
    intro i hi
    cases hc : configured (.add dom k m d ok :: ops) k i with
    | none =>
      rw [hA.inactive e he i hc] at hi
      cases hi
    | some z => exact ⟨z.1, z.2, rfl, by rw [hA.active e he i z.1 z.2 hc]⟩
  obtain ⟨m1, d1, c1, e1⟩ := conf i hxa
  obtain ⟨m2, d2, c2, e2⟩ := conf j hya
  rw [e1, e2]
  exact h i j m1 m2 d1 d2 c1 c2

/-- the flag of a network after a history -/
def flagOf (ops : List (LanOp Nat)) (k : Nat) : Option Bool := (lanRun ops.reverse k).map (·.same)

/-- C53 is not true with distance 0: distance 0 in domain 0 and 5 in domain 1 is reported as "same distance" -/
theorem C53_zero_counterexample : ∃ ops : List (LanOp Nat), flagOf ops 7 = some true ∧ ¬ AllEqual (configured ops 7) := by
  refine ⟨[.add 1 7 100 5 true, .add 0 7 100 0 true], by decide +kernel, fun h => ?_⟩
  exact absurd (h 0 1 100 100 0 5 (by decide +kernel) (by decide +kernel)) (by decide)

/-- C53 is not true after a removal: distances 1 and 2, then the domain with distance 2 is removed: one distance is left, but the
report is "different" -/
theorem C53_removed_counterexample : ∃ ops : List (LanOp Nat), flagOf ops 7 = some false ∧ AllEqual (configured ops 7) := by
  refine ⟨[.remove 1 7, .add 1 7 100 2 true, .add 0 7 100 1 true], by decide +kernel, ?_⟩
  intro i j m n d e hi hj
  have only : ∀ i x, configured [LanOp.remove 1 7, .add 1 7 100 2 true, .add 0 7 100 1 true] 7 i = some x → x.2 = 1 := by
    intro i x h
    match i with
    | 0 =>
      have : configured [LanOp.remove 1 7, .add 1 7 100 2 true, .add 0 7 100 1 true] 7 0 = some (100, 1) := by decide +kernel
      rw [this] at h
      cases h
      rfl
    | 1 => cases h
    | 2 => cases h
    | 3 => cases h
  exact (only i _ hi).trans (only j _ hj).symm

/-- the hypotheses are met: two domains with distance 2, and one after removal of the other -/
example : flagOf [.remove 1 7, .add 1 7 100 2 true, .add 0 7 50 2 true] 7 = some true ∧
    (∃ e, lanRun [LanOp.remove 1 7, .add 1 7 100 2 true, .add 0 7 50 2 true].reverse 7 = some e) ∧
    flagOf [.add 1 7 100 3 true, .add 0 7 50 2 true] 7 = some false := by
  refine ⟨by decide +kernel, ?_, by decide +kernel⟩
  cases h : lanRun [LanOp.remove 1 7, .add 1 7 100 2 true, .add 0 7 50 2 true].reverse 7 with
  | some e => exact ⟨e, rfl⟩
  | none =>
    have : (lanRun [LanOp.remove 1 7, .add 1 7 100 2 true, .add 0 7 50 2 true].reverse 7).isSome = true := by decide +kernel
    rw [h] at this
    cases this

end Verif.Olsr
