import Verif.Mpr.Model

/-! The selection in a graph. -/
namespace Verif.Mpr
open Verif.Netaddr (Netaddr)

theorem mem_insertN1 {x z : N1} : ∀ {l : List N1}, z ∈ insertN1 x l ↔ z = x ∨ z ∈ l
  | [] => by simp [insertN1]
  | a :: l => by
    unfold insertN1
    split
    · simp
    · rw [List.mem_cons, mem_insertN1, List.mem_cons]
      constructor
      · rintro (h | h | h)
        · exact .inr (.inl h)
        · exact .inl h
        · exact .inr (.inr h)
      · rintro (h | h | h)
        · exact .inr (.inl h)
        · exact .inl h
        · exact .inr (.inr h)

theorem mem_addN1 {x z : N1} {l : List N1} (h : z ∈ addN1 l x) : z = x ∨ z ∈ l := by
  unfold addN1 at h
  split at h
  · exact .inr h
  · exact mem_insertN1.1 h

theorem addN1_mono {x z : N1} {l : List N1} (h : z ∈ l) : z ∈ addN1 l x := by
  unfold addN1
  split
  · exact h
  · exact mem_insertN1.2 (.inr h)

/-- afterwards there is a node with this address -/
theorem addN1_self {x : N1} {l : List N1} : ∃ z ∈ addN1 l x, z.addr = x.addr := by
  unfold addN1
  split
  · rename_i h
    rw [List.any_eq_true] at h
    obtain ⟨z, hz, h⟩ := h
    exact ⟨z, hz, by simpa using h⟩
  · exact ⟨x, mem_insertN1.2 (.inl rfl), rfl⟩

theorem mem_insertAddr {x z : Netaddr} : ∀ {l : List Netaddr}, z ∈ insertAddr x l ↔ z = x ∨ z ∈ l
  | [] => by simp [insertAddr]
  | a :: l => by
    unfold insertAddr
    split
    · simp
    · rw [List.mem_cons, mem_insertAddr, List.mem_cons]
      constructor
      · rintro (h | h | h)
        · exact .inr (.inl h)
        · exact .inl h
        · exact .inr (.inr h)
      · rintro (h | h | h)
        · exact .inr (.inl h)
        · exact .inl h
        · exact .inr (.inr h)

theorem mem_addAddr {x z : Netaddr} {l : List Netaddr} : z ∈ addAddr l x ↔ z = x ∨ z ∈ l := by
  unfold addAddr
  split
  · rename_i h
    constructor
    · exact .inr
    · rintro (rfl | h')
      · exact h
      · exact h'
  · exact mem_insertAddr

/-- the nodes of a set differ in their addresses -/
def Unique (l : List N1) : Prop := ∀ x ∈ l, ∀ z ∈ l, x.addr = z.addr → x = z

theorem Unique.add {l : List N1} (h : Unique l) (x : N1) : Unique (addN1 l x) := by
  unfold addN1
  split
  · exact h
  · rename_i hn
    have hn : ∀ z ∈ l, z.addr ≠ x.addr := by
      intro z hz he
      exact hn (List.any_eq_true.2 ⟨z, hz, by simpa using he⟩)
    intro a ha b hb he
    rcases mem_insertN1.1 ha with ha' | ha' <;> rcases mem_insertN1.1 hb with hb' | hb'
    · rw [ha', hb']
    · exact absurd (by rw [← he, ha']) (hn b hb')
    · exact absurd (by rw [he, hb']) (hn a ha')
    · exact h a ha' b hb' he

/-! ### the set N -/

theorem mem_calculateN {m : Methods} {n1 : List N1} {n2 : List Netaddr} {y : Netaddr} :
    y ∈ calculateN m n1 n2 ↔ y ∈ n2 ∧ (m.d1 y = INFINITE ∨ ∃ x ∈ n1, m.d x y < m.d1 y) := by
  have key : ∀ (l : List Netaddr) (set : List Netaddr),
      y ∈ l.foldl (fun set y => if m.d1 y = INFINITE ∨ n1.any (fun x => decide (m.d x y < m.d1 y)) then addAddr set y else set) set ↔
        y ∈ set ∨ (y ∈ l ∧ (m.d1 y = INFINITE ∨ ∃ x ∈ n1, m.d x y < m.d1 y)) := by
    intro l
    induction l with
    | nil => intro set; simp
    | cons a l ih =>
      intro set
      rw [List.foldl_cons, ih]
      have hiff : (m.d1 a = INFINITE ∨ n1.any (fun x => decide (m.d x a < m.d1 a)) = true) ↔ (m.d1 a = INFINITE ∨ ∃ x ∈ n1, m.d x a < m.d1 a) := by
        simp
      by_cases hc : m.d1 a = INFINITE ∨ n1.any (fun x => decide (m.d x a < m.d1 a)) = true
      · rw [if_pos hc, mem_addAddr]
        constructor
        · rintro ((rfl | h) | ⟨h1, h2⟩)
          · exact .inr ⟨by simp, hiff.1 hc⟩
          · exact .inl h
          · exact .inr ⟨by simp [h1], h2⟩
        · rintro (h | ⟨h1, h2⟩)
          · exact .inl (.inr h)
          · rcases List.mem_cons.1 h1 with rfl | h1
            · exact .inl (.inl rfl)
            · exact .inr ⟨h1, h2⟩
      · rw [if_neg hc]
        constructor
        · rintro (h | ⟨h1, h2⟩)
          · exact .inl h
          · exact .inr ⟨by simp [h1], h2⟩
        · rintro (h | ⟨h1, h2⟩)
          · exact .inl h
          · rcases List.mem_cons.1 h1 with rfl | h1
            · exact absurd (hiff.2 h2) hc
            · exact .inr ⟨h1, h2⟩
  unfold calculateN
  rw [key]
  simp

/-! ### the minimal distance -/

theorem minimal_spec (m : Methods) (n1 : List N1) (y : Netaddr) (hd : ∀ x ∈ n1, m.d x y ≤ INFINITE_PATH) :
    (∀ x ∈ n1, minimal m n1 y ≤ m.d x y) ∧ (n1 ≠ [] → ∃ x ∈ n1, m.d x y = minimal m n1 y) := by
  have key : ∀ (l : List N1) (b : Nat), (∀ x ∈ l, m.d x y ≤ INFINITE_PATH) →
      let r := l.foldl (fun best z => if m.d z y < best then m.d z y else best) b
      r ≤ b ∧ (∀ x ∈ l, r ≤ m.d x y) ∧ (r = b ∨ ∃ x ∈ l, m.d x y = r) := by
    intro l
    induction l with
    | nil => intro b _; exact ⟨Nat.le_refl _, fun x hx => (by cases hx), .inl rfl⟩
    | cons a l ih =>
      intro b hl
      dsimp only at ih ⊢
      rw [List.foldl_cons]
      obtain ⟨h1, h2, h3⟩ := ih (if m.d a y < b then m.d a y else b) (fun x hx => hl x (by simp [hx]))
      have ha : (if m.d a y < b then m.d a y else b) ≤ b ∧ (if m.d a y < b then m.d a y else b) ≤ m.d a y ∧ ((if m.d a y < b then m.d a y else b) = b ∨ (if m.d a y < b then m.d a y else b) = m.d a y) := by
        split
        · exact ⟨by omega, Nat.le_refl _, .inr rfl⟩
        · exact ⟨Nat.le_refl _, by omega, .inl rfl⟩
      refine ⟨Nat.le_trans h1 ha.1, ?_, ?_⟩
      · intro x hx
        rcases List.mem_cons.1 hx with rfl | hx
        · exact Nat.le_trans h1 ha.2.1
        · exact h2 x hx
      · rcases h3 with h3 | ⟨x, hx, h3⟩
        · rcases ha.2.2 with h4 | h4
          · exact .inl (h3.trans h4)
          · exact .inr ⟨a, by simp, (h3.trans h4).symm⟩
        · exact .inr ⟨x, by simp [hx], h3⟩
  obtain ⟨_, h2, h3⟩ := key n1 INFINITE_PATH hd
  refine ⟨h2, ?_⟩
  intro hne
  rcases h3 with h3 | h3
  · obtain ⟨x, hx⟩ := List.exists_mem_of_ne_nil _ hne
    refine ⟨x, hx, ?_⟩
    have := h2 x hx
    have := hd x hx
    unfold minimal
    omega
  · exact h3

/-! ### selection of the greatest -/

theorem select_fold {prop : N1 → Nat} : ∀ (l : List N1) (st : Nat × List N1), (∀ x ∈ st.2, prop x > 0) → (st.1 > 0 ↔ st.2 ≠ []) →
    let r := l.foldl (selectStep prop) st
    (∀ x ∈ r.2, (x ∈ st.2 ∨ x ∈ l) ∧ prop x > 0) ∧ (r.1 > 0 ↔ r.2 ≠ []) ∧ (st.1 > 0 → r.1 > 0) ∧ ∀ x ∈ l, prop x > 0 → r.1 > 0
  | [], st, h1, h2 => ⟨fun x hx => ⟨.inl hx, h1 x hx⟩, h2, id, fun x hx => by cases hx⟩
  | a :: l, st, h1, h2 => by
    dsimp only
    rw [List.foldl_cons]
    have hs : (∀ x ∈ (selectStep prop st a).2, (x ∈ st.2 ∨ x = a) ∧ prop x > 0) ∧ ((selectStep prop st a).1 > 0 ↔ (selectStep prop st a).2 ≠ []) ∧
        (st.1 > 0 → (selectStep prop st a).1 > 0) ∧ (prop a > 0 → (selectStep prop st a).1 > 0) := by
      unfold selectStep
      dsimp only
      by_cases hp : prop a > 0
      · rw [if_pos hp]
        by_cases hb : st.1 = 0 ∨ prop a > st.1
        · rw [if_pos hb]
          refine ⟨?_, ?_, fun _ => hp, fun _ => hp⟩
          · intro x hx
            have hx : x ∈ addN1 [] a := hx
            rcases mem_addN1 hx with rfl | hx
            · exact ⟨.inr rfl, hp⟩
            · cases hx
          · dsimp only
            constructor
            · intro _ he
              obtain ⟨z, hz, _⟩ := @addN1_self a []
              rw [he] at hz
              cases hz
            · exact fun _ => hp
        · rw [if_neg hb]
          rw [not_or] at hb
          by_cases he : prop a = st.1
          · rw [if_pos he]
            refine ⟨?_, ?_, id, fun _ => by dsimp only; omega⟩
            · intro x hx
              have hx : x ∈ addN1 st.2 a := hx
              rcases mem_addN1 hx with rfl | hx
              · exact ⟨.inr rfl, hp⟩
              · exact ⟨.inl hx, h1 x hx⟩
            · dsimp only
              constructor
              · intro _ he
                obtain ⟨z, hz, _⟩ := @addN1_self a st.2
                rw [he] at hz
                cases hz
              · intro _; omega
          · rw [if_neg he]
            exact ⟨fun x hx => ⟨.inl hx, h1 x hx⟩, h2, id, fun _ => by omega⟩
      · rw [if_neg hp]
        exact ⟨fun x hx => ⟨.inl hx, h1 x hx⟩, h2, id, fun h => absurd h hp⟩
    obtain ⟨r1, r2, r3, r4⟩ := select_fold l (selectStep prop st a) (fun x hx => (hs.1 x hx).2) hs.2.1
    refine ⟨?_, r2, fun h => r3 (hs.2.2.1 h), ?_⟩
    · intro x hx
      obtain ⟨hx', hp⟩ := r1 x hx
      refine ⟨?_, hp⟩
      rcases hx' with hx' | hx'
      · rcases (hs.1 x hx').1 with h | rfl
        · exact .inl h
        · exact .inr (by simp)
      · exact .inr (by simp [hx'])
    · intro x hx hp
      rcases List.mem_cons.1 hx with rfl | hx
      · exact r3 (hs.2.2.2 hp)
      · exact r4 x hx hp

theorem foldl_addN1 : ∀ (l set : List N1), (∀ x ∈ l.foldl addN1 set, x ∈ set ∨ x ∈ l) ∧ (set ≠ [] ∨ l ≠ [] → l.foldl addN1 set ≠ [])
  | [], set => ⟨fun x hx => .inl hx, fun h => h.elim id (fun h => absurd rfl h)⟩
  | a :: l, set => by
    rw [List.foldl_cons]
    obtain ⟨h1, h2⟩ := foldl_addN1 l (addN1 set a)
    refine ⟨?_, ?_⟩
    · intro x hx
      rcases h1 x hx with h | h
      · rcases mem_addN1 h with rfl | h
        · exact .inr (by simp)
        · exact .inl h
      · exact .inr (by simp [h])
    · intro _
      apply h2
      left
      intro he
      obtain ⟨z, hz, _⟩ := @addN1_self a set
      rw [he] at hz
      cases hz

theorem selectGreatest_spec (prop : N1 → Nat) (n1 : List N1) : (∀ x ∈ selectGreatest prop n1, x ∈ n1 ∧ prop x > 0) ∧
    (selectGreatest prop n1 = [] → ∀ x ∈ n1, prop x = 0) := by
  obtain ⟨h1, h2, _, h4⟩ := select_fold (prop := prop) n1 (0, []) (fun x hx => (by cases hx)) (by simp)
  obtain ⟨f1, f2⟩ := foldl_addN1 (n1.foldl (selectStep prop) (0, [])).2 []
  refine ⟨?_, ?_⟩
  · intro x hx
    rcases f1 x hx with h | h
    · cases h
    · obtain ⟨h, hp⟩ := h1 x h
      rcases h with h | h
      · cases h
      · exact ⟨h, hp⟩
  · intro he x hx
    cases hp : prop x with
    | zero => rfl
    | succ k =>
      have := h2.1 (h4 x hx (by omega))
      exact absurd he (f2 (.inr this))

/-! ### the whole selection -/

/-- the relays and the flags belong together -/
structure Inv (n1 mpr : List N1) (sel : Nat → Bool) : Prop where
  sub : ∀ x ∈ mpr, x ∈ n1
  marked : ∀ x ∈ n1, sel x.neigh = true → x ∈ mpr

theorem Inv.add {n1 mpr : List N1} {sel : Nat → Bool} (hu : Unique n1) (hn : ∀ x ∈ n1, ∀ z ∈ n1, x.neigh = z.neigh → x = z) (h : Inv n1 mpr sel) {x : N1} (hx : x ∈ n1) :
    Inv n1 (addN1 mpr x) sel ∧ Inv n1 (addN1 mpr x) (mark sel x.neigh) ∧ x ∈ addN1 mpr x := by
  have hsub : ∀ z ∈ addN1 mpr x, z ∈ n1 := by
    intro z hz
    rcases mem_addN1 hz with rfl | hz
    · exact hx
    · exact h.sub z hz
  have hself : x ∈ addN1 mpr x := by
    obtain ⟨z, hz, he⟩ := @addN1_self x mpr
    have := hu z (hsub z hz) x hx he
    rw [this] at hz
    exact hz
  refine ⟨⟨hsub, fun z hz hs => addN1_mono (h.marked z hz hs)⟩, ⟨hsub, ?_⟩, hself⟩
  intro z hz hs
  unfold mark at hs
  split at hs
  · rename_i he
    rw [hn z hz x hx he]
    exact hself
  · exact addN1_mono (h.marked z hz hs)

theorem willAlways_spec {m : Methods} {n1 : List N1} {sel : Nat → Bool} (hu : Unique n1) (hn : ∀ x ∈ n1, ∀ z ∈ n1, x.neigh = z.neigh → x = z) :
    ∀ (l mpr : List N1), (∀ x ∈ l, x ∈ n1) → Inv n1 mpr sel →
      ((∃ x ∈ l, m.will x = ALWAYS ∧ x.link = none) → willAlways m l mpr = none) ∧
      ((∀ x ∈ l, m.will x = ALWAYS → x.link ≠ none) → ∃ mpr', willAlways m l mpr = some mpr' ∧ Inv n1 mpr' sel ∧ (∀ x ∈ mpr, x ∈ mpr') ∧ (∀ x ∈ l, m.will x = ALWAYS → x ∈ mpr'))
  | [], mpr, _, h => ⟨fun ⟨x, hx, _⟩ => (by cases hx), fun _ => ⟨mpr, rfl, h, fun x hx => hx, fun x hx => by cases hx⟩⟩
  | x :: l, mpr, hl, h => by
    unfold willAlways
    have hx := hl x (by simp)
    have hl' : ∀ z ∈ l, z ∈ n1 := fun z hz => hl z (by simp [hz])
    by_cases hw : m.will x = ALWAYS
    · rw [if_pos hw]
      cases hlk : x.link with
      | none =>
        refine ⟨fun _ => rfl, fun h' => absurd hlk (h' x (by simp) hw)⟩
      | some k =>
        dsimp only
        obtain ⟨h1, h2⟩ := willAlways_spec (m := m) hu hn l (addN1 mpr x) hl' (h.add hu hn hx).1
        refine ⟨?_, ?_⟩
        · rintro ⟨z, hz, hzw, hzl⟩
          rcases List.mem_cons.1 hz with rfl | hz
          · rw [hlk] at hzl; cases hzl
          · exact h1 ⟨z, hz, hzw, hzl⟩
        · intro h'
          obtain ⟨mpr', e1, e2, e3, e4⟩ := h2 (fun z hz => h' z (by simp [hz]))
          refine ⟨mpr', e1, e2, fun z hz => e3 z (addN1_mono hz), ?_⟩
          intro z hz hzw
          rcases List.mem_cons.1 hz with rfl | hz
          · exact e3 z (h.add hu hn hx).2.2
          · exact e4 z hz hzw
    · rw [if_neg hw]
      obtain ⟨h1, h2⟩ := willAlways_spec (m := m) hu hn l mpr hl' h
      refine ⟨?_, ?_⟩
      · rintro ⟨z, hz, hzw, hzl⟩
        rcases List.mem_cons.1 hz with rfl | hz
        · exact absurd hzw hw
        · exact h1 ⟨z, hz, hzw, hzl⟩
      · intro h'
        obtain ⟨mpr', e1, e2, e3, e4⟩ := h2 (fun z hz => h' z (by simp [hz]))
        refine ⟨mpr', e1, e2, e3, ?_⟩
        intro z hz hzw
        rcases List.mem_cons.1 hz with rfl | hz
        · exact absurd hzw hw
        · exact e4 z hz hzw

theorem uniqueMprs_spec {m : Methods} {n1 : List N1} (hu : Unique n1) (hn : ∀ x ∈ n1, ∀ z ∈ n1, x.neigh = z.neigh → x = z) :
    ∀ (l : List Netaddr) (mpr : List N1) (sel : Nat → Bool), Inv n1 mpr sel → (∀ y ∈ l, ∃ x ∈ n1, m.d2 x y ≤ METRIC_MAX) →
      ∃ mpr' sel', uniqueMprs m n1 l mpr sel = some (mpr', sel') ∧ Inv n1 mpr' sel' ∧ ∀ x ∈ mpr, x ∈ mpr'
  | [], mpr, sel, h, _ => ⟨mpr, sel, rfl, h, fun x hx => hx⟩
  | y :: l, mpr, sel, h, hl => by
    unfold uniqueMprs
    have hl' : ∀ y ∈ l, ∃ x ∈ n1, m.d2 x y ≤ METRIC_MAX := fun z hz => hl z (by simp [hz])
    split
    · rename_i hf
      obtain ⟨x, hx, hd⟩ := hl y (by simp)
      have : x ∈ n1.filter fun x => decide (m.d2 x y ≤ METRIC_MAX) := by rw [List.mem_filter]; exact ⟨hx, by simpa using hd⟩
      rw [hf] at this
      cases this
    · rename_i x hf
      have hx : x ∈ n1 := by
        have : x ∈ n1.filter fun x => decide (m.d2 x y ≤ METRIC_MAX) := by rw [hf]; simp
        exact (List.mem_filter.1 this).1
      obtain ⟨mpr', sel', e1, e2, e3⟩ := uniqueMprs_spec hu hn l (addN1 mpr x) (mark sel x.neigh) (h.add hu hn hx).2.1 hl'
      exact ⟨mpr', sel', e1, e2, fun z hz => e3 z (addN1_mono hz)⟩
    · exact uniqueMprs_spec hu hn l mpr sel h hl'

/-- unselected nodes -/
def rest (n1 : List N1) (sel : Nat → Bool) : Nat := (n1.filter fun x => !sel x.neigh).length

theorem rest_mark {sel : Nat → Bool} {x : N1} (hs : sel x.neigh = false) : ∀ {l : List N1}, rest l (mark sel x.neigh) ≤ rest l sel ∧ (x ∈ l → rest l (mark sel x.neigh) < rest l sel)
  | [] => ⟨Nat.le_refl _, fun h => by cases h⟩
  | a :: l => by
    obtain ⟨h1, h2⟩ := @rest_mark sel x hs l
    unfold rest at *
    rw [List.filter_cons, List.filter_cons]
    have hm : mark sel x.neigh a.neigh = false → sel a.neigh = false := by
      unfold mark
      split
      · intro h; cases h
      · exact id
    cases ha : mark sel x.neigh a.neigh with
    | false =>
      have hne : a.neigh ≠ x.neigh := by
        intro he
        unfold mark at ha
        rw [if_pos he] at ha
        cases ha
      rw [hm ha]
      simp only [Bool.not_false, if_true, List.length_cons]
      refine ⟨by omega, ?_⟩
      intro hx
      rcases List.mem_cons.1 hx with rfl | hx
      · exact absurd rfl hne
      · have := h2 hx; omega
    | true =>
      simp only [Bool.not_true, Bool.false_eq_true, if_false]
      cases hb : sel a.neigh with
      | false =>
        simp only [Bool.not_false, if_true, List.length_cons]
        exact ⟨by omega, fun _ => by omega⟩
      | true =>
        simp only [Bool.not_true, Bool.false_eq_true, if_false]
        refine ⟨h1, ?_⟩
        intro hx
        rcases List.mem_cons.1 hx with rfl | hx
        · rw [hs] at hb; cases hb
        · exact h2 hx

theorem remaining_spec {m : Methods} {n1 : List N1} {n : List Netaddr} (hu : Unique n1) (hn : ∀ x ∈ n1, ∀ z ∈ n1, x.neigh = z.neigh → x = z) :
    ∀ (k : Nat) (mpr : List N1) (sel : Nat → Bool), Inv n1 mpr sel → rest n1 sel < k →
      ∃ mpr' sel', remaining m n1 n k mpr sel = (mpr', true) ∧ Inv n1 mpr' sel' ∧ (∀ x ∈ mpr, x ∈ mpr') ∧ ∀ x ∈ n1, calculateR m n1 n sel' x = 0
  | 0, mpr, sel, h, hk => by omega
  | k + 1, mpr, sel, h, hk => by
    unfold remaining
    obtain ⟨s1, s2⟩ := selectGreatest_spec (calculateR m n1 n sel) n1
    split
    · rename_i he
      exact ⟨mpr, sel, rfl, h, fun x hx => hx, s2 he⟩
    · rename_i x xs he
      obtain ⟨hx, hp⟩ := s1 x (by rw [he]; simp)
      have hs : sel x.neigh = false := by
        unfold calculateR at hp
        cases hb : sel x.neigh with
        | false => rfl
        | true => rw [hb] at hp; simp at hp
      have := (rest_mark hs).2 hx
      obtain ⟨mpr', sel', e1, e2, e3, e4⟩ := remaining_spec hu hn k (addN1 mpr x) (mark sel x.neigh) (h.add hu hn hx).2.1 (by omega)
      exact ⟨mpr', sel', e1, e2, fun z hz => e3 z (addN1_mono hz), e4⟩

/-- the selection for a graph: it ends, all relays are in N1, all nodes that are always willing are relays, and for every
address that needs a relay there is one with minimal distance -/
theorem select_spec {m : Methods} {n1 : List N1} {n2 : List Netaddr} {k : Nat} (hu : Unique n1) (hn : ∀ x ∈ n1, ∀ z ∈ n1, x.neigh = z.neigh → x = z) (hk : n1.length < k)
    (hd : ∀ x ∈ n1, ∀ y, m.d x y ≤ INFINITE_PATH) (hw : ∀ x ∈ n1, m.will x = ALWAYS → x.link ≠ none)
    (hc : ∀ y ∈ calculateN m n1 n2, ∃ x ∈ n1, m.d2 x y ≤ METRIC_MAX) :
    ∃ mpr, select k m n1 n2 = some (mpr, true) ∧ (∀ x ∈ mpr, x ∈ n1) ∧ (∀ x ∈ n1, m.will x = ALWAYS → x ∈ mpr) ∧
      ∀ y ∈ n2, (m.d1 y = INFINITE ∨ ∃ x ∈ n1, m.d x y < m.d1 y) → ∃ x ∈ mpr, ∀ z ∈ n1, m.d x y ≤ m.d z y := by
  have h0 : Inv n1 [] (fun _ => false) := ⟨fun x hx => (by cases hx), fun x _ h => by cases h⟩
  obtain ⟨mpr1, a1, a2, _, a4⟩ := (willAlways_spec (m := m) hu hn n1 [] (fun x hx => hx) h0).2 hw
  obtain ⟨mpr2, sel2, b1, b2, b3⟩ := uniqueMprs_spec (m := m) hu hn (calculateN m n1 n2) mpr1 _ a2 hc
  have hr : rest n1 sel2 < k := by
    have : rest n1 sel2 ≤ n1.length := List.length_filter_le _ _
    omega
  obtain ⟨mpr3, sel3, c1, c2, c3, c4⟩ := remaining_spec (m := m) (n := calculateN m n1 n2) hu hn k mpr2 sel2 b2 hr
  refine ⟨mpr3, ?_, c2.sub, fun x hx hw => c3 x (b3 x (a4 x hx hw)), ?_⟩
  · unfold select
    dsimp only
    rw [a1]
    dsimp only
    rw [b1]
    dsimp only
    rw [c1]
  · intro y hy hneed
    have hyn : y ∈ calculateN m n1 n2 := mem_calculateN.2 ⟨hy, hneed⟩
    obtain ⟨x0, hx0, _⟩ := hc y hyn
    obtain ⟨m1, m2⟩ := minimal_spec m n1 y (fun x hx => hd x hx y)
    obtain ⟨x, hx, hxm⟩ := m2 (fun h => by rw [h] at hx0; cases hx0)
    cases hs : sel3 x.neigh with
    | true => exact ⟨x, c2.marked x hx hs, fun z hz => by rw [hxm]; exact m1 z hz⟩
    | false =>
      have hr0 := c4 x hx
      unfold calculateR at hr0
      rw [hs, if_neg (by decide), List.length_eq_zero_iff, List.filter_eq_nil_iff] at hr0
      have := hr0 y hyn
      rw [hxm] at this
      simp only [Bool.and_eq_true, Bool.not_eq_true', decide_eq_false_iff_not, not_and, Nat.lt_irrefl, not_false_eq_true, forall_const, gt_iff_lt, Bool.not_eq_false,
        List.any_eq_true, decide_eq_true_eq] at this
      obtain ⟨z, hz, hzm, hzs⟩ := this
      exact ⟨z, c2.marked z hz hzs, fun z' hz' => by rw [hzm]; exact m1 z' hz'⟩

/-! ### relays are always taken from N1 -/

theorem willAlways_sub {m : Methods} : ∀ (l mpr : List N1) {r : List N1}, willAlways m l mpr = some r → ∀ x ∈ r, x ∈ mpr ∨ x ∈ l
  | [], mpr, r, h, x, hx => by
    injection h with h
    rw [← h] at hx
    exact .inl hx
  | a :: l, mpr, r, h, x, hx => by
    unfold willAlways at h
    by_cases hw : m.will a = ALWAYS
    · rw [if_pos hw] at h
      cases hl : a.link with
      | none => rw [hl] at h; cases h
      | some k =>
        rw [hl] at h
        rcases willAlways_sub l _ h x hx with h' | h'
        · rcases mem_addN1 h' with rfl | h'
          · exact .inr (by simp)
          · exact .inl h'
        · exact .inr (by simp [h'])
    · rw [if_neg hw] at h
      rcases willAlways_sub l _ h x hx with h' | h'
      · exact .inl h'
      · exact .inr (by simp [h'])

theorem uniqueMprs_sub {m : Methods} {n1 : List N1} : ∀ (l : List Netaddr) (mpr : List N1) (sel : Nat → Bool) {r : List N1 × (Nat → Bool)},
    uniqueMprs m n1 l mpr sel = some r → ∀ x ∈ r.1, x ∈ mpr ∨ x ∈ n1
  | [], mpr, sel, r, h, x, hx => by
    injection h with h
    rw [← h] at hx
    exact .inl hx
  | y :: l, mpr, sel, r, h, x, hx => by
    unfold uniqueMprs at h
    split at h
    · cases h
    · rename_i z hf
      have hz : z ∈ n1 := by
        have : z ∈ n1.filter fun x => decide (m.d2 x y ≤ METRIC_MAX) := by rw [hf]; simp
        exact (List.mem_filter.1 this).1
      rcases uniqueMprs_sub l _ _ h x hx with h' | h'
      · rcases mem_addN1 h' with rfl | h'
        · exact .inr hz
        · exact .inl h'
      · exact .inr h'
    · exact uniqueMprs_sub l _ _ h x hx

theorem remaining_sub {m : Methods} {n1 : List N1} {n : List Netaddr} : ∀ (k : Nat) (mpr : List N1) (sel : Nat → Bool),
    ∀ x ∈ (remaining m n1 n k mpr sel).1, x ∈ mpr ∨ x ∈ n1
  | 0, mpr, sel, x, hx => .inl hx
  | k + 1, mpr, sel, x, hx => by
    unfold remaining at hx
    obtain ⟨s1, _⟩ := selectGreatest_spec (calculateR m n1 n sel) n1
    split at hx
    · exact .inl hx
    · rename_i z xs he
      obtain ⟨hz, _⟩ := s1 z (by rw [he]; simp)
      rcases remaining_sub k _ _ x hx with h' | h'
      · rcases mem_addN1 h' with rfl | h'
        · exact .inr hz
        · exact .inl h'
      · exact .inr h'

theorem select_sub {m : Methods} {n1 : List N1} {n2 : List Netaddr} {k : Nat} {mpr : List N1} {d : Bool} (h : select k m n1 n2 = some (mpr, d)) : ∀ x ∈ mpr, x ∈ n1 := by
  unfold select at h
  dsimp only at h
  split at h
  · cases h
  · rename_i mpr1 h1
    split at h
    · cases h
    · rename_i mpr2 sel2 h2
      injection h with h
      intro x hx
      have hx : x ∈ (remaining m n1 (calculateN m n1 n2) k mpr2 sel2).1 := by rw [h]; exact hx
      rcases remaining_sub _ _ _ x hx with h' | h'
      · rcases uniqueMprs_sub _ _ _ h2 x h' with h' | h'
        · rcases willAlways_sub _ _ h1 x h' with h' | h'
          · cases h'
          · exact h'
        · exact h'
      · exact h'

end Verif.Mpr
