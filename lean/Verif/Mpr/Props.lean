import Verif.Mpr.Lemmas
import Verif.Mpr.Spec

namespace Verif.Mpr
open Verif.Netaddr (Netaddr)

/-! ## helper lemmas: the graphs -/

/-- a set filled from a list of nodes -/
theorem fold_add {α : Type} (p : α → Bool) (f : α → N1) : ∀ (l : List α) (set : List N1), Unique set →
    let r := l.foldl (fun set k => if p k = true then addN1 set (f k) else set) set
    Unique r ∧ (∀ x ∈ r, x ∈ set ∨ ∃ k ∈ l, p k = true ∧ x = f k) ∧ (∀ x ∈ set, x ∈ r) ∧ (∀ k ∈ l, p k = true → ∃ x ∈ r, x.addr = (f k).addr)
  | [], set, h => ⟨h, fun x hx => .inl hx, fun x hx => hx, fun k hk => by cases hk⟩
  | a :: l, set, h => by
    dsimp only
    rw [List.foldl_cons]
    by_cases hp : p a = true
    · rw [if_pos hp]
      obtain ⟨r1, r2, r3, r4⟩ := fold_add p f l (addN1 set (f a)) (h.add _)
      refine ⟨r1, ?_, fun x hx => r3 x (addN1_mono hx), ?_⟩
      · intro x hx
        rcases r2 x hx with hx | ⟨k, hk, h1, h2⟩
        · rcases mem_addN1 hx with hx | hx
          · exact .inr ⟨a, by simp, hp, hx⟩
          · exact .inl hx
        · exact .inr ⟨k, by simp [hk], h1, h2⟩
      · intro k hk hpk
        rcases List.mem_cons.1 hk with rfl | hk
        · obtain ⟨z, hz, he⟩ := @addN1_self (f k) set
          exact ⟨z, r3 z hz, he⟩
        · exact r4 k hk hpk
    · rw [if_neg hp]
      obtain ⟨r1, r2, r3, r4⟩ := fold_add p f l set h
      refine ⟨r1, ?_, r3, ?_⟩
      · intro x hx
        rcases r2 x hx with hx | ⟨k, hk, h1, h2⟩
        · exact .inl hx
        · exact .inr ⟨k, by simp [hk], h1, h2⟩
      · intro k hk hpk
        rcases List.mem_cons.1 hk with rfl | hk
        · exact absurd hpk hp
        · exact r4 k hk hpk

theorem fold_addAddr {y : Netaddr} : ∀ (l : List TwoHop) (set : List Netaddr), y ∈ l.foldl (fun set t => addAddr set t.addr) set ↔ y ∈ set ∨ ∃ t ∈ l, t.addr = y
  | [], set => by simp
  | a :: l, set => by
    rw [List.foldl_cons, fold_addAddr l, mem_addAddr]
    constructor
    · rintro ((rfl | h) | ⟨t, ht, he⟩)
      · exact .inr ⟨a, by simp, rfl⟩
      · exact .inl h
      · exact .inr ⟨t, by simp [ht], he⟩
    · rintro (h | ⟨t, ht, he⟩)
      · exact .inl (.inr h)
      · rcases List.mem_cons.1 ht with rfl | ht
        · exact .inl (.inl he.symm)
        · exact .inr ⟨t, ht, he⟩

theorem pathCost_le (a b : Nat) : pathCost a b ≤ INFINITE_PATH := by
  unfold pathCost METRIC_MAX INFINITE_PATH
  split <;> omega

theorem length_fold_addN1 {α : Type} (p : α → Bool) (f : α → N1) : ∀ (l : List α) (set : List N1),
    (l.foldl (fun set k => if p k = true then addN1 set (f k) else set) set).length ≤ set.length + l.length
  | [], set => by simp
  | a :: l, set => by
    rw [List.foldl_cons]
    have hi : ∀ (x : N1) (s : List N1), (insertN1 x s).length = s.length + 1 := by
      intro x s
      induction s with
      | nil => rfl
      | cons z s ih => unfold insertN1; split <;> simp [ih]
    have ha : ∀ x, (addN1 set x).length ≤ set.length + 1 := by
      intro x
      unfold addN1
      split
      · omega
      · rw [hi]; omega
    split
    · have := length_fold_addN1 p f l (addN1 set (f a))
      have := ha (f a)
      rw [List.length_cons]
      omega
    · have := length_fold_addN1 p f l set
      rw [List.length_cons]
      omega

/-! ### flooding -/

theorem allowed_iff {db : Db} {i k : Nat} : Eligible db i k ↔ k ∈ List.range db.links.length ∧ allowedLink i (db.link k) = true := by
  unfold Eligible allowedLink
  simp only [List.mem_range, Bool.and_eq_true, decide_eq_true_eq, gt_iff_lt]
  constructor
  · rintro ⟨a, b, c, d, e⟩; exact ⟨a, ⟨⟨b, c⟩, d⟩, e⟩
  · rintro ⟨a, ⟨⟨b, c⟩, d⟩, e⟩; exact ⟨a, b, c, d, e⟩

def nodeOf (db : Db) (k : Nat) : N1 := ⟨(db.neigh (db.link k).neigh).origin, some k, (db.link k).neigh⟩

theorem floodN1_unique (db : Db) (i : Nat) : Unique (floodN1 db i) :=
  (fold_add (fun k => allowedLink i (db.link k)) (nodeOf db) (List.range db.links.length) [] (fun x hx => by cases hx)).1

theorem floodN1_length (db : Db) (i : Nat) : (floodN1 db i).length ≤ db.links.length := by
  have := length_fold_addN1 (fun k => allowedLink i (db.link k)) (nodeOf db) (List.range db.links.length) []
  rw [List.length_range, List.length_nil, Nat.zero_add] at this
  exact this

theorem mem_floodN1 {db : Db} {i : Nat} {x : N1} (h : x ∈ floodN1 db i) : ∃ k, Eligible db i k ∧ x = nodeOf db k := by
  rcases (fold_add (fun k => allowedLink i (db.link k)) (nodeOf db) (List.range db.links.length) [] (fun x hx => by cases hx)).2.1 x h with h | ⟨k, hk, h1, h2⟩
  · cases h
  · exact ⟨k, allowed_iff.2 ⟨hk, h1⟩, h2⟩

theorem floodN1_mem {db : Db} {i k : Nat} (h1 : OneLink db i) (hk : Eligible db i k) : nodeOf db k ∈ floodN1 db i := by
  obtain ⟨x, hx, he⟩ := (fold_add (fun k => allowedLink i (db.link k)) (nodeOf db) (List.range db.links.length) [] (fun x hx => by cases hx)).2.2.2 k
    (allowed_iff.1 hk).1 (allowed_iff.1 hk).2
  obtain ⟨k', hk', e⟩ := mem_floodN1 hx
  have : k = k' := h1 k k' hk hk'.1 hk'.2.1 (by rw [e] at he; exact he.symm)
  rw [← this] at e
  rw [← e]
  exact hx

theorem floodD2_some {db : Db} (ht : TreeOk db) {k : Nat} {t : TwoHop} (h : t ∈ (db.link k).twohops) : floodD2 db (nodeOf db k) t.addr = t.metricOut := by
  unfold floodD2 nodeOf
  dsimp only [Option.getD_some]
  cases hf : (db.link k).twohops.find? fun t' => decide (t'.addr = t.addr) with
  | none =>
    rw [List.find?_eq_none] at hf
    exact absurd (decide_eq_true rfl) (hf t h)
  | some t' =>
    have := List.find?_some hf
    rw [ht k t' (List.mem_of_find?_eq_some hf) t h (by simpa using this)]

theorem floodD2_le {db : Db} {k : Nat} {y : Netaddr} (h : floodD2 db (nodeOf db k) y ≤ METRIC_MAX) :
    ∃ t ∈ (db.link k).twohops, t.addr = y ∧ floodD2 db (nodeOf db k) y = t.metricOut := by
  unfold floodD2 nodeOf at *
  dsimp only [Option.getD_some] at *
  cases hf : (db.link k).twohops.find? fun t' => decide (t'.addr = y) with
  | none =>
    rw [hf] at h
    exact absurd h (by unfold INFINITE METRIC_MAX; decide)
  | some t =>
    have := List.find?_some hf
    exact ⟨t, List.mem_of_find?_eq_some hf, by simpa using this, rfl⟩

theorem pathCost_finite {a b : Nat} (h : pathCost a b < INFINITE_PATH) : a ≤ METRIC_MAX ∧ b ≤ METRIC_MAX ∧ pathCost a b = a + b := by
  unfold pathCost at *
  split at h
  · omega
  · rename_i hn
    rw [if_neg hn]
    omega

theorem pathCost_eq {a b : Nat} (ha : a ≤ METRIC_MAX) (hb : b ≤ METRIC_MAX) : pathCost a b = a + b := by
  unfold pathCost
  rw [if_neg (by omega)]

theorem mem_floodN2 {db : Db} {n1 : List N1} {y : Netaddr} : y ∈ floodN2 db n1 ↔ ∃ x ∈ n1, ∃ t ∈ (db.link (x.link.getD 0)).twohops, t.addr = y ∧ t.metricOut ≤ METRIC_MAX := by
  unfold floodN2
  rw [fold_addAddr]
  simp only [List.mem_filter, List.mem_flatMap, decide_eq_true_eq]
  constructor
  · rintro (h | ⟨t, ⟨⟨x, hx, ht⟩, hm⟩, he⟩)
    · cases h
    · exact ⟨x, hx, t, ht, he, hm⟩
  · rintro ⟨x, hx, t, ht, he, hm⟩
    exact .inr ⟨t, ⟨⟨x, hx, ht⟩, hm⟩, he⟩

theorem flooding_runs {db : Db} {i rounds : Nat} (ht : TreeOk db) (hn : ∀ k k', Eligible db i k → Eligible db i k' → (db.link k).neigh = (db.link k').neigh → k = k')
    (hr : db.links.length < rounds) :
    ∃ mpr, select rounds (floodMethods db (floodN1 db i)) (floodN1 db i) (floodN2 db (floodN1 db i)) = some (mpr, true) ∧ (∀ x ∈ mpr, x ∈ floodN1 db i) ∧
      (∀ x ∈ floodN1 db i, (floodMethods db (floodN1 db i)).will x = ALWAYS → x ∈ mpr) ∧
      ∀ y ∈ floodN2 db (floodN1 db i), ((floodMethods db (floodN1 db i)).d1 y = INFINITE ∨ ∃ x ∈ floodN1 db i, (floodMethods db (floodN1 db i)).d x y < (floodMethods db (floodN1 db i)).d1 y) →
        ∃ x ∈ mpr, ∀ z ∈ floodN1 db i, (floodMethods db (floodN1 db i)).d x y ≤ (floodMethods db (floodN1 db i)).d z y := by
  have hl := floodN1_length db i
  refine select_spec (floodN1_unique db i) ?_ (by omega) ?_ ?_ ?_
  · intro x hx z hz he
    obtain ⟨k, hk, rfl⟩ := mem_floodN1 hx
    obtain ⟨k', hk', rfl⟩ := mem_floodN1 hz
    rw [hn k k' hk hk' he]
  · intro x hx y
    exact pathCost_le _ _
  · intro x hx _
    obtain ⟨k, hk, rfl⟩ := mem_floodN1 hx
    intro h
    cases h
  · intro y hy
    obtain ⟨hy, _⟩ := mem_calculateN.1 hy
    obtain ⟨x, hx, t, htm, he, hm⟩ := mem_floodN2.1 hy
    refine ⟨x, hx, ?_⟩
    obtain ⟨k, hk, rfl⟩ := mem_floodN1 hx
    show floodD2 db (nodeOf db k) y ≤ METRIC_MAX
    have htm : t ∈ (db.link k).twohops := htm
    rw [← he, floodD2_some ht htm]
    exact hm

theorem OneLink.neigh {db : Db} {i : Nat} (h1 : OneLink db i) : ∀ k k', Eligible db i k → Eligible db i k' → (db.link k).neigh = (db.link k').neigh → k = k' := by
  intro k k' hk hk' he
  exact h1 k k' hk hk'.1 hk'.2.1 (by unfold originOf; rw [he])

theorem flagged {db : Db} {i : Nat} {mpr : List N1} (h1 : OneLink db i) (hs : ∀ x ∈ mpr, x ∈ floodN1 db i) {k : Nat} (hk : k < db.links.length) :
    (decide ((db.link k).iface = i) && mpr.any (fun x => decide (x.addr = (db.neigh (db.link k).neigh).origin))) = true ↔ Eligible db i k ∧ nodeOf db k ∈ mpr := by
  simp only [Bool.and_eq_true, decide_eq_true_eq, List.any_eq_true]
  constructor
  · rintro ⟨hi, x, hx, he⟩
    obtain ⟨k', hk', rfl⟩ := mem_floodN1 (hs x hx)
    have := h1 k' k hk' hk hi he
    rw [← this]
    exact ⟨hk', hx⟩
  · rintro ⟨he, hx⟩
    exact ⟨he.2.1, _, hx, rfl⟩

/-! ### routing -/

theorem allowedN_iff {db : Db} {j : Nat} : EligibleN db j ↔ j ∈ List.range db.neighs.length ∧ allowedNeigh (db.neigh j) = true := by
  unfold EligibleN allowedNeigh
  simp only [List.mem_range, Bool.and_eq_true, decide_eq_true_eq, gt_iff_lt]
  constructor
  · rintro ⟨a, b, c, d⟩; exact ⟨a, ⟨b, c⟩, d⟩
  · rintro ⟨a, ⟨b, c⟩, d⟩; exact ⟨a, b, c, d⟩

def neighNode (db : Db) (j : Nat) : N1 := ⟨(db.neigh j).origin, none, j⟩

theorem routeN1_fold (db : Db) : Unique (routeN1 db) ∧ (∀ x ∈ routeN1 db, x ∈ ([] : List N1) ∨ ∃ j ∈ List.range db.neighs.length, allowedNeigh (db.neigh j) = true ∧ x = neighNode db j) ∧
    (∀ x ∈ ([] : List N1), x ∈ routeN1 db) ∧ (∀ j ∈ List.range db.neighs.length, allowedNeigh (db.neigh j) = true → ∃ x ∈ routeN1 db, x.addr = (neighNode db j).addr) :=
  fold_add (fun j => allowedNeigh (db.neigh j)) (neighNode db) (List.range db.neighs.length) [] (fun x hx => by cases hx)

theorem routeN1_length (db : Db) : (routeN1 db).length ≤ db.neighs.length := by
  have := length_fold_addN1 (fun j => allowedNeigh (db.neigh j)) (neighNode db) (List.range db.neighs.length) []
  rw [List.length_range, List.length_nil, Nat.zero_add] at this
  exact this

theorem mem_routeN1 {db : Db} {x : N1} (h : x ∈ routeN1 db) : ∃ j, EligibleN db j ∧ x = neighNode db j := by
  rcases (routeN1_fold db).2.1 x h with h | ⟨k, hk, h1, h2⟩
  · cases h
  · exact ⟨k, allowedN_iff.2 ⟨hk, h1⟩, h2⟩

theorem routeN1_mem {db : Db} {j : Nat} (h1 : OneNeigh db) (hj : EligibleN db j) : neighNode db j ∈ routeN1 db := by
  obtain ⟨x, hx, he⟩ := (routeN1_fold db).2.2.2 j (allowedN_iff.1 hj).1 (allowedN_iff.1 hj).2
  have hx : x ∈ routeN1 db := hx
  obtain ⟨j', hj', e⟩ := mem_routeN1 hx
  have : j = j' := h1 j j' hj hj'.1 (by rw [e] at he; exact he.symm)
  rw [← this] at e
  rw [← e]
  exact hx

theorem mem_twohops {db : Db} {j : Nat} {t : TwoHop} : t ∈ db.twohops j ↔ ∃ k ∈ (db.neigh j).links, t ∈ (db.link k).twohops := by
  unfold Db.twohops
  rw [List.mem_flatMap]

theorem routeD2_some {db : Db} (hu : Uniform db) {j : Nat} (hj : EligibleN db j) {t : TwoHop} (h : t ∈ db.twohops j) : routeD2 db (neighNode db j) t.addr = t.metricIn := by
  unfold routeD2 neighNode
  dsimp only
  cases hf : (db.twohops j).find? fun t' => decide (t'.addr = t.addr) with
  | none =>
    rw [List.find?_eq_none] at hf
    exact absurd (decide_eq_true rfl) (hf t h)
  | some t' =>
    have he := List.find?_some hf
    obtain ⟨k', hk', ht'⟩ := mem_twohops.1 (List.mem_of_find?_eq_some hf)
    obtain ⟨k, hk, ht⟩ := mem_twohops.1 h
    exact hu j hj k' hk' t' ht' k hk t ht (by simpa using he)

theorem routeD2_le {db : Db} {j : Nat} {y : Netaddr} (h : routeD2 db (neighNode db j) y ≤ METRIC_MAX) :
    ∃ t ∈ db.twohops j, t.addr = y ∧ routeD2 db (neighNode db j) y = t.metricIn := by
  unfold routeD2 neighNode at *
  dsimp only at *
  cases hf : (db.twohops j).find? fun t' => decide (t'.addr = y) with
  | none =>
    rw [hf] at h
    exact absurd h (by unfold INFINITE METRIC_MAX; decide)
  | some t =>
    have := List.find?_some hf
    exact ⟨t, List.mem_of_find?_eq_some hf, by simpa using this, rfl⟩

theorem mem_routeN2 {db : Db} {n1 : List N1} {y : Netaddr} : y ∈ routeN2 db n1 ↔ ∃ x ∈ n1, ∃ t ∈ db.twohops x.neigh, t.addr = y ∧ t.metricIn ≤ METRIC_MAX := by
  unfold routeN2
  rw [fold_addAddr]
  simp only [List.mem_filter, List.mem_flatMap, decide_eq_true_eq]
  constructor
  · rintro (h | ⟨t, ⟨⟨x, hx, ht⟩, hm⟩, he⟩)
    · cases h
    · exact ⟨x, hx, t, ht, he, hm⟩
  · rintro ⟨x, hx, t, ht, he, hm⟩
    exact .inr ⟨t, ⟨⟨x, hx, ht⟩, hm⟩, he⟩

theorem routing_runs {db : Db} {rounds : Nat} (hu : Uniform db) (hw : ∀ j, EligibleN db j → (db.neigh j).will ≠ ALWAYS) (hr : db.neighs.length < rounds) :
    ∃ mpr, select rounds (routeMethods db (routeN1 db)) (routeN1 db) (routeN2 db (routeN1 db)) = some (mpr, true) ∧ (∀ x ∈ mpr, x ∈ routeN1 db) ∧
      (∀ x ∈ routeN1 db, (routeMethods db (routeN1 db)).will x = ALWAYS → x ∈ mpr) ∧
      ∀ y ∈ routeN2 db (routeN1 db), ((routeMethods db (routeN1 db)).d1 y = INFINITE ∨ ∃ x ∈ routeN1 db, (routeMethods db (routeN1 db)).d x y < (routeMethods db (routeN1 db)).d1 y) →
        ∃ x ∈ mpr, ∀ z ∈ routeN1 db, (routeMethods db (routeN1 db)).d x y ≤ (routeMethods db (routeN1 db)).d z y := by
  have hl := routeN1_length db
  refine select_spec (routeN1_fold db).1 ?_ (by omega) ?_ ?_ ?_
  · intro x hx z hz he
    obtain ⟨k, hk, rfl⟩ := mem_routeN1 hx
    obtain ⟨k', hk', rfl⟩ := mem_routeN1 hz
    have : k = k' := he
    rw [this]
  · intro x hx y
    exact pathCost_le _ _
  · intro x hx h
    obtain ⟨k, hk, rfl⟩ := mem_routeN1 hx
    exact absurd h (hw k hk)
  · intro y hy
    obtain ⟨hy, _⟩ := mem_calculateN.1 hy
    obtain ⟨x, hx, t, htm, he, hm⟩ := mem_routeN2.1 hy
    refine ⟨x, hx, ?_⟩
    obtain ⟨j, hj, rfl⟩ := mem_routeN1 hx
    show routeD2 db (neighNode db j) y ≤ METRIC_MAX
    have htm : t ∈ db.twohops j := htm
    rw [← he, routeD2_some hu hj htm]
    exact hm

theorem flaggedN {db : Db} {mpr : List N1} (h1 : OneNeigh db) (hs : ∀ x ∈ mpr, x ∈ routeN1 db) {j : Nat} (hj : j < db.neighs.length) :
    mpr.any (fun x => decide (x.addr = (db.neigh j).origin)) = true ↔ EligibleN db j ∧ neighNode db j ∈ mpr := by
  simp only [List.any_eq_true, decide_eq_true_eq]
  constructor
  · rintro ⟨x, hx, he⟩
    obtain ⟨k', hk', rfl⟩ := mem_routeN1 (hs x hx)
    have := h1 k' j hk' hj he
    rw [← this]
    exact ⟨hk', hx⟩
  · rintro ⟨_, hx⟩
    exact ⟨_, hx, rfl⟩

/-! ## C43 - the relays cover the two-hop neighborhood -/

/-- C43 for flooding relays, for a database in which every originator has at most one link on the interface: the selection
ends without a failed assertion, the links of relays are eligible, and every two-hop address is reached over a flagged link
(or directly) at no higher cost than over any eligible link.  Missing: several links to the same neighbor on an interface,
see the counterexample. -/
theorem C43_flooding_partial {db : Db} {i rounds : Nat} (ht : TreeOk db) (h1 : OneLink db i) (hr : db.links.length < rounds) :
    ∃ flag, flooding rounds db i = some (flag, true) ∧ (∀ k < db.links.length, flag k = true → Eligible db i k) ∧ Covers db i flag := by
  obtain ⟨mpr, e, hs, _, hc⟩ := flooding_runs ht h1.neigh hr
  refine ⟨_, by unfold flooding; dsimp only; rw [e], ?_, ?_⟩
  · intro k hk hf
    exact ((flagged h1 hs hk).1 hf).1
  · intro k y c hk ⟨t, htm, hty, htM, hc'⟩
    have hkn := floodN1_mem h1 hk
    have hy : y ∈ floodN2 db (floodN1 db i) := mem_floodN2.2 ⟨_, hkn, t, htm, hty, htM⟩
    have hdk : (floodMethods db (floodN1 db i)).d (nodeOf db k) y = c := by
      show pathCost (db.link k).metricOut (floodD2 db (nodeOf db k) y) = c
      rw [← hty, floodD2_some ht htm, pathCost_eq hk.2.2.1 htM, hc']
    by_cases hneed : (floodMethods db (floodN1 db i)).d1 y = INFINITE ∨ ∃ x ∈ floodN1 db i, (floodMethods db (floodN1 db i)).d x y < (floodMethods db (floodN1 db i)).d1 y
    · right
      obtain ⟨x, hx, hmin⟩ := hc y hy hneed
      obtain ⟨k', hk', rfl⟩ := mem_floodN1 (hs x hx)
      have hle := hmin _ hkn
      rw [hdk] at hle
      have hcl : c < INFINITE_PATH := by
        have := hk.2.2.1
        unfold METRIC_MAX at *
        unfold INFINITE_PATH
        omega
      have hle' : pathCost (db.link k').metricOut (floodD2 db (nodeOf db k') y) ≤ c := hle
      obtain ⟨_, p2, p3⟩ := pathCost_finite (Nat.lt_of_le_of_lt hle' hcl)
      obtain ⟨t', ht', hty', htm'⟩ := floodD2_le p2
      refine ⟨k', (db.link k').metricOut + t'.metricOut, hk'.1, (flagged h1 hs hk'.1).2 ⟨hk', hx⟩, ⟨t', ht', hty', by rw [← htm']; exact p2, rfl⟩, ?_⟩
      rw [p3, htm'] at hle'
      exact hle'
    · left
      rw [not_or] at hneed
      obtain ⟨hn1, hn2⟩ := hneed
      have hd1 : ¬ (floodMethods db (floodN1 db i)).d (nodeOf db k) y < (floodMethods db (floodN1 db i)).d1 y := fun h => hn2 ⟨_, hkn, h⟩
      rw [hdk] at hd1
      have hf : (floodMethods db (floodN1 db i)).d1 y = floodD1 db (floodN1 db i) y := rfl
      rw [hf] at hn1 hd1
      unfold floodD1 at hn1 hd1
      cases hx : (floodN1 db i).find? fun x => decide (y ∈ (db.neigh x.neigh).addrs) with
      | none => rw [hx] at hn1; exact absurd rfl hn1
      | some x =>
        rw [hx] at hd1
        obtain ⟨k', hk', rfl⟩ := mem_floodN1 (List.mem_of_find?_eq_some hx)
        refine ⟨(db.link k').metricOut, ⟨k', hk', ?_, rfl⟩, by simpa [nodeOf] using hd1⟩
        have := List.find?_some hx
        exact of_decide_eq_true this

/-- C43 for routing relays, for a database in which originators differ, no eligible neighbor has willingness ALWAYS and the
links of a neighbor agree about the metrics of two-hop addresses.  Missing: the other databases, see the counterexamples. -/
theorem C43_routing_partial {db : Db} {rounds : Nat} (h1 : OneNeigh db) (hu : Uniform db) (hw : ∀ j, EligibleN db j → (db.neigh j).will ≠ ALWAYS) (hr : db.neighs.length < rounds) :
    ∃ flag, routing rounds db = some (flag, true) ∧ (∀ j < db.neighs.length, flag j = true → EligibleN db j) ∧ CoversN db flag := by
  obtain ⟨mpr, e, hs, _, hc⟩ := routing_runs hu hw hr
  refine ⟨_, by unfold routing; dsimp only; rw [e], ?_, ?_⟩
  · intro k hk hf
    exact ((flaggedN h1 hs hk).1 hf).1
  · intro j y c hj ⟨k, hk, t, htm, hty, htM, hc'⟩
    have hjn := routeN1_mem h1 hj
    have htt : t ∈ db.twohops j := mem_twohops.2 ⟨k, hk, htm⟩
    have hy : y ∈ routeN2 db (routeN1 db) := mem_routeN2.2 ⟨_, hjn, t, htt, hty, htM⟩
    have hdk : (routeMethods db (routeN1 db)).d (neighNode db j) y = c := by
      show pathCost (db.neigh j).metricIn (routeD2 db (neighNode db j) y) = c
      rw [← hty, routeD2_some hu hj htt, pathCost_eq hj.2.1 htM, hc']
    by_cases hneed : (routeMethods db (routeN1 db)).d1 y = INFINITE ∨ ∃ x ∈ routeN1 db, (routeMethods db (routeN1 db)).d x y < (routeMethods db (routeN1 db)).d1 y
    · right
      obtain ⟨x, hx, hmin⟩ := hc y hy hneed
      obtain ⟨j', hj', rfl⟩ := mem_routeN1 (hs x hx)
      have hle := hmin _ hjn
      rw [hdk] at hle
      have hcl : c < INFINITE_PATH := by
        have := hj.2.1
        unfold METRIC_MAX at *
        unfold INFINITE_PATH
        omega
      have hle' : pathCost (db.neigh j').metricIn (routeD2 db (neighNode db j') y) ≤ c := hle
      obtain ⟨_, p2, p3⟩ := pathCost_finite (Nat.lt_of_le_of_lt hle' hcl)
      obtain ⟨t', ht', hty', htm'⟩ := routeD2_le p2
      obtain ⟨k', hk', htk'⟩ := mem_twohops.1 ht'
      refine ⟨j', (db.neigh j').metricIn + t'.metricIn, hj'.1, (flaggedN h1 hs hj'.1).2 ⟨hj', hx⟩, ⟨k', hk', t', htk', hty', by rw [← htm']; exact p2, rfl⟩, ?_⟩
      rw [p3, htm'] at hle'
      exact hle'
    · left
      rw [not_or] at hneed
      obtain ⟨hn1, hn2⟩ := hneed
      have hd1 : ¬ (routeMethods db (routeN1 db)).d (neighNode db j) y < (routeMethods db (routeN1 db)).d1 y := fun h => hn2 ⟨_, hjn, h⟩
      rw [hdk] at hd1
      have hf : (routeMethods db (routeN1 db)).d1 y = routeD1 db (routeN1 db) y := rfl
      rw [hf] at hn1 hd1
      unfold routeD1 at hn1 hd1
      cases hx : (routeN1 db).find? fun x => decide (y ∈ (db.neigh x.neigh).addrs) with
      | none => rw [hx] at hn1; exact absurd rfl hn1
      | some x =>
        rw [hx] at hd1
        obtain ⟨j', hj', rfl⟩ := mem_routeN1 (List.mem_of_find?_eq_some hx)
        refine ⟨(db.neigh j').metricIn, ⟨j', hj', ?_, rfl⟩, by simpa [neighNode] using hd1⟩
        have := List.find?_some hx
        exact of_decide_eq_true this

/-! ## C44 - willingness -/

/-- C44 for flooding relays (one link per originator): links with willingness ALWAYS are flagged, with NEVER they are not. -/
theorem C44_flooding_partial {db : Db} {i rounds : Nat} (ht : TreeOk db) (h1 : OneLink db i) (hr : db.links.length < rounds) :
    ∃ flag, flooding rounds db i = some (flag, true) ∧ (∀ k, Eligible db i k → (db.link k).will = ALWAYS → flag k = true) ∧
      ∀ k < db.links.length, (db.link k).will = 0 → flag k = false := by
  obtain ⟨mpr, e, hs, ha, _⟩ := flooding_runs ht h1.neigh hr
  refine ⟨_, by unfold flooding; dsimp only; rw [e], ?_, ?_⟩
  · intro k hk hw
    exact (flagged h1 hs hk.1).2 ⟨hk, ha _ (floodN1_mem h1 hk) hw⟩
  · intro k hk hw
    rw [Bool.eq_false_iff]
    intro hf
    have := ((flagged h1 hs hk).1 hf).1.2.2.2.2
    omega

/-- C44 for routing relays: neighbors with willingness NEVER are not flagged, whatever the result of the selection.
Missing: neighbors with willingness ALWAYS, see the counterexample. -/
theorem C44_routing_partial {db : Db} {rounds : Nat} {flag : Nat → Bool} {done : Bool} (h1 : OneNeigh db) (h : routing rounds db = some (flag, done)) :
    ∀ j < db.neighs.length, (db.neigh j).will = 0 → flag j = false := by
  unfold routing at h
  dsimp only at h
  split at h
  · cases h
  · rename_i mpr d e
    injection h with h
    injection h with h _
    have hs := select_sub e
    intro k hk hw
    rw [Bool.eq_false_iff]
    intro hf
    rw [← h] at hf
    have := ((flaggedN h1 hs hk).1 hf).1.2.2.2
    omega

/-- C44, finding: with different originators, one eligible neighbor with willingness ALWAYS crashes the selection of routing
relays (null pointer dereference in selection-rfc7181.c:209), for every database and every number of rounds. -/
theorem C44_routing_always_counterexample {db : Db} {rounds j : Nat} (h1 : OneNeigh db) (hj : EligibleN db j) (hw : (db.neigh j).will = ALWAYS) : routing rounds db = none := by
  have h0 : Inv (routeN1 db) [] (fun _ => false) := ⟨fun x hx => (by cases hx), fun x _ h => by cases h⟩
  have := (willAlways_spec (m := routeMethods db (routeN1 db)) (routeN1_fold db).1 (by
    intro x hx z hz he
    obtain ⟨k, hk, rfl⟩ := mem_routeN1 hx
    obtain ⟨k', hk', rfl⟩ := mem_routeN1 hz
    have : k = k' := he
    rw [this]) (routeN1 db) [] (fun x hx => hx) h0).1 ⟨neighNode db j, routeN1_mem h1 hj, hw, rfl⟩
  unfold routing select
  dsimp only
  rw [this]

/-! ## examples and counterexamples -/

theorem treeOk_of {db : Db} (h : ∀ l ∈ db.links, ∀ t ∈ l.twohops, ∀ t' ∈ l.twohops, t.addr = t'.addr → t = t') : TreeOk db := by
  intro k t ht
  by_cases hk : k < db.links.length
  · have : db.link k ∈ db.links := by
      unfold Db.link
      rw [List.getD_eq_getElem?_getD, List.getElem?_eq_getElem hk]
      exact List.getElem_mem hk
    exact h _ this t ht
  · have : (db.link k).twohops = [] := by
      unfold Db.link
      rw [List.getD_eq_getElem?_getD, List.getElem?_eq_none (by omega)]
      rfl
    rw [this] at ht
    cases ht

theorem oneLink_of {db : Db} {i : Nat} (h : ∀ k < db.links.length, ∀ k' < db.links.length, originOf db k = originOf db k' → k = k') : OneLink db i :=
  fun k k' hk hk' _ he => h k hk.1 k' hk' he

theorem oneNeigh_of {db : Db} (h : ∀ j < db.neighs.length, ∀ j' < db.neighs.length, (db.neigh j).origin = (db.neigh j').origin → j = j') : OneNeigh db :=
  fun j j' hj hj' he => h j hj.1 j' hj' he

theorem uniform_of {db : Db} (h : ∀ j < db.neighs.length, ∀ k ∈ (db.neigh j).links, ∀ t ∈ (db.link k).twohops, ∀ k' ∈ (db.neigh j).links, ∀ t' ∈ (db.link k').twohops,
    t.addr = t'.addr → t.metricIn = t'.metricIn) : Uniform db := fun j hj => h j hj.1

def a (n : Nat) : Netaddr := ⟨10 :: 0 :: 0 :: n.toUInt8 :: List.replicate 12 0, 1, 32⟩

/-- four neighbors 1, 2, 3, 4; 11 is reached over 1 and 2, 12 over 3, 13 over 2 and 3, neighbor 3 over 1; 4 is not willing -/
def sampleDb : Db where
  links := [⟨0, 1, 10, true, 7, [⟨a 11, 7, 7⟩, ⟨a 3, 1, 1⟩]⟩, ⟨1, 1, 10, true, 7, [⟨a 11, 5, 5⟩, ⟨a 13, 1, 1⟩]⟩, ⟨2, 1, 20, true, 7, [⟨a 12, 1, 1⟩, ⟨a 13, 9, 9⟩]⟩,
    ⟨3, 1, 1, true, 0, [⟨a 12, 1, 1⟩]⟩]
  neighs := [⟨a 1, 10, 1, 7, [a 1], [0]⟩, ⟨a 2, 10, 1, 7, [a 2], [1]⟩, ⟨a 3, 20, 1, 7, [a 3], [2]⟩, ⟨a 4, 1, 1, 0, [a 4], [3]⟩]

def flags (n : Nat) (r : Option ((Nat → Bool) × Bool)) : Option (List Bool × Bool) := r.map fun r => ((List.range n).map r.1, r.2)

/-- the hypotheses of the theorems about flooding are met; neighbor 1 is needed (for a cheaper path to 3), 2 and 3 as well -/
example : TreeOk sampleDb ∧ OneLink sampleDb 1 ∧ flags 4 (flooding 5 sampleDb 1) = some ([true, true, true, false], true) ∧ Eligible sampleDb 1 2 ∧ Via sampleDb 2 (a 12) 21 := by
  refine ⟨treeOk_of (by decide +kernel), oneLink_of (by decide +kernel), by decide +kernel, ?_, ?_⟩
  · unfold Eligible; decide +kernel
  · unfold Via; exact ⟨⟨a 12, 1, 1⟩, by decide +kernel⟩

/-- with an expensive link to neighbor 1, it is not a relay; with willingness ALWAYS it is -/
def cheapDb (w : Nat) : Db := { sampleDb with links := ⟨0, 1, 30, true, w, [⟨a 11, 7, 7⟩, ⟨a 3, 1, 1⟩]⟩ :: sampleDb.links.tail }

example : flags 4 (flooding 5 (cheapDb 7) 1) = some ([false, true, true, false], true) ∧ flags 4 (flooding 5 (cheapDb ALWAYS) 1) = some ([true, true, true, false], true) := by
  decide +kernel

example : TreeOk (cheapDb ALWAYS) ∧ OneLink (cheapDb ALWAYS) 1 ∧ Eligible (cheapDb ALWAYS) 1 0 ∧ ((cheapDb ALWAYS).link 0).will = ALWAYS ∧ ((cheapDb ALWAYS).link 3).will = 0 := by
  refine ⟨treeOk_of (by decide +kernel), oneLink_of (by decide +kernel), ?_, by decide +kernel, by decide +kernel⟩
  unfold Eligible; decide +kernel

/-- the hypotheses of the theorems about routing are met -/
example : OneNeigh sampleDb ∧ Uniform sampleDb ∧ (∀ j, EligibleN sampleDb j → (sampleDb.neigh j).will ≠ ALWAYS) ∧
    flags 4 (routing 5 sampleDb) = some ([true, true, true, false], true) ∧ EligibleN sampleDb 2 ∧ ViaN sampleDb 2 (a 12) 21 := by
  refine ⟨oneNeigh_of (by decide +kernel), uniform_of (by decide +kernel), ?_, by decide +kernel, ?_, ?_⟩
  · intro j hj
    have h : ∀ j < sampleDb.neighs.length, (sampleDb.neigh j).will ≠ ALWAYS := by decide +kernel
    exact h j hj.1
  · unfold EligibleN; decide +kernel
  · unfold ViaN; exact ⟨2, by decide +kernel, ⟨a 12, 1, 1⟩, by decide +kernel⟩

/-- an ALWAYS neighbor for routing -/
def alwaysDb : Db where
  links := [⟨0, 1, 10, true, 7, []⟩]
  neighs := [⟨a 1, 10, 1, ALWAYS, [a 1], [0]⟩]

example : OneNeigh alwaysDb ∧ EligibleN alwaysDb 0 ∧ (alwaysDb.neigh 0).will = ALWAYS := by
  refine ⟨oneNeigh_of (by decide +kernel), ?_, by decide +kernel⟩
  unfold EligibleN; decide +kernel

/-- two links to one neighbor on the same interface; only the second one leads to 11 -/
def twoLinkDb : Db where
  links := [⟨0, 1, 10, true, 7, []⟩, ⟨0, 1, 10, true, 7, [⟨a 11, 5, 5⟩]⟩]
  neighs := [⟨a 1, 10, 2, 7, [a 1], [0, 1]⟩]

/-- C43, finding: with two links to the same originator on an interface, the selection ignores the second one: 11 stays
uncovered, no link is flagged. -/
theorem C43_two_links_counterexample : TreeOk twoLinkDb ∧ (∃ flag, flooding 9 twoLinkDb 1 = some (flag, true) ∧ ¬ Covers twoLinkDb 1 flag) := by
  refine ⟨treeOk_of (by decide +kernel), ?_⟩
  have h : flags 2 (flooding 9 twoLinkDb 1) = some ([false, false], true) := by decide +kernel
  cases hf : flooding 9 twoLinkDb 1 with
  | none => rw [hf] at h; cases h
  | some r =>
    obtain ⟨flag, done⟩ := r
    rw [hf] at h
    have h : (some ([flag 0, flag 1], done) : Option (List Bool × Bool)) = some ([false, false], true) := h
    injection h with h
    injection h with h hd
    injection h with h0 h
    injection h with h1 h
    refine ⟨flag, by rw [hd], ?_⟩
    intro hc
    have he : Eligible twoLinkDb 1 1 := by unfold Eligible; decide +kernel
    rcases hc 1 (a 11) 15 he ⟨⟨a 11, 5, 5⟩, by decide +kernel⟩ with ⟨c', ⟨k, hk, hy, _⟩, _⟩ | ⟨k', c', hk', hfl, _⟩
    · have hall : ∀ k < twoLinkDb.links.length, ¬ a 11 ∈ (twoLinkDb.neigh (twoLinkDb.link k).neigh).addrs := by decide +kernel
      exact hall k hk.1 hy
    · have hk' : k' < 2 := hk'
      have : k' = 0 ∨ k' = 1 := by omega
      rcases this with rfl | rfl
      · rw [h0] at hfl; cases hfl
      · rw [h1] at hfl; cases hfl

/-- the second link leads to 11, the first one never floods -/
def neverDb : Db where
  links := [⟨0, 1, 10, true, 0, []⟩, ⟨0, 1, 10, true, 7, [⟨a 11, 5, 5⟩]⟩]
  neighs := [⟨a 1, 10, 2, 7, [a 1], [0, 1]⟩]

/-- C44, finding: with two links to the same originator on an interface, a link with willingness NEVER is flagged when the
other one is selected. -/
theorem C44_never_flagged_counterexample : TreeOk neverDb ∧ (neverDb.link 0).will = 0 ∧ flags 2 (flooding 9 neverDb 1) = some ([true, true], true) := by
  refine ⟨treeOk_of (by decide +kernel), by decide +kernel, by decide +kernel⟩

/-- C44, finding: a link with willingness ALWAYS is not flagged if another link of the originator comes first. -/
theorem C44_always_hidden_counterexample :
    let db : Db := { twoLinkDb with links := [⟨0, 1, 10, true, 7, []⟩, ⟨0, 1, 10, true, ALWAYS, []⟩] }
    TreeOk db ∧ Eligible db 1 1 ∧ (db.link 1).will = ALWAYS ∧ flags 2 (flooding 9 db 1) = some ([false, false], true) := by
  refine ⟨treeOk_of (by decide +kernel), ?_, by decide +kernel, by decide +kernel⟩
  unfold Eligible; decide +kernel

/-- a neighbor with two links; the first one has an infinite metric from 11 -/
def infiniteDb : Db where
  links := [⟨0, 1, 10, true, 7, [⟨a 11, INFINITE, INFINITE⟩]⟩, ⟨0, 2, 10, true, 7, [⟨a 11, 5, 5⟩]⟩]
  neighs := [⟨a 1, 10, 2, 7, [a 1], [0, 1]⟩]

/-- C43, finding: if the first link of a neighbor has a two-hop entry with infinite metric and another link has a finite
one, the selection of routing relays runs into a failed assertion (selection-rfc7181.c:244), with any number of rounds. -/
theorem C43_routing_abort_counterexample : OneNeigh infiniteDb ∧ EligibleN infiniteDb 0 ∧ ViaN infiniteDb 0 (a 11) 15 ∧ ∀ rounds, routing rounds infiniteDb = none := by
  refine ⟨oneNeigh_of (by decide +kernel), ?_, ⟨1, by decide +kernel, ⟨a 11, 5, 5⟩, by decide +kernel⟩, ?_⟩
  · unfold EligibleN; decide +kernel
  · intro rounds
    have h1 : willAlways (routeMethods infiniteDb (routeN1 infiniteDb)) (routeN1 infiniteDb) [] = some [] := by decide +kernel
    have h2 : (uniqueMprs (routeMethods infiniteDb (routeN1 infiniteDb)) (routeN1 infiniteDb)
        (calculateN (routeMethods infiniteDb (routeN1 infiniteDb)) (routeN1 infiniteDb) (routeN2 infiniteDb (routeN1 infiniteDb))) [] (fun _ => false)).isNone = true := by decide +kernel
    rw [Option.isNone_iff_eq_none] at h2
    unfold routing select
    dsimp only
    rw [h1]
    dsimp only
    rw [h2]

/-- neighbor 1 has two links with different metrics from 11 (20, then 1), neighbor 2 has metric 10 -/
def unevenDb : Db where
  links := [⟨0, 1, 10, true, 7, [⟨a 11, 20, 20⟩]⟩, ⟨0, 2, 10, true, 7, [⟨a 11, 1, 1⟩]⟩, ⟨1, 1, 10, true, 7, [⟨a 11, 10, 10⟩]⟩]
  neighs := [⟨a 1, 10, 2, 7, [a 1], [0, 1]⟩, ⟨a 2, 10, 1, 7, [a 2], [2]⟩]

/-- C43, finding: only the first link of a neighbor counts, so the selection of routing relays takes a more expensive
neighbor. -/
theorem C43_routing_first_link_counterexample : OneNeigh unevenDb ∧ EligibleN unevenDb 0 ∧ ViaN unevenDb 0 (a 11) 11 ∧
    flags 2 (routing 9 unevenDb) = some ([false, true], true) ∧ ∀ c, ViaN unevenDb 1 (a 11) c → c = 20 := by
  refine ⟨oneNeigh_of (by decide +kernel), ?_, ⟨1, by decide +kernel, ⟨a 11, 1, 1⟩, by decide +kernel⟩, by decide +kernel, ?_⟩
  · unfold EligibleN; decide +kernel
  · rintro c ⟨k, hk, t, ht, he, _, hc⟩
    have h : ∀ k ∈ (unevenDb.neigh 1).links, ∀ t ∈ (unevenDb.link k).twohops, (unevenDb.neigh 1).metricIn + t.metricIn = 20 := by decide +kernel
    rw [hc]
    exact h k hk t ht

end Verif.Mpr
