import Verif.CfgIo.Model
/-!
C232: the handler of a configuration URL.  C233: time does not run backwards.
-/

namespace Verif.CfgIo

/-! ## Specification -/

/-- The same name, ignoring case. -/
def Same (a b : Txt) : Prop := a.map lower = b.map lower

/-- No `://` inside. -/
def Plain (t : Txt) : Prop := ∀ a b, t ≠ a ++ 58 :: 47 :: 47 :: b

/-- The name is registered. -/
def Tree.Has : Tree → Txt → Prop
  | .leaf, _ => False
  | .node l k r, x => l.Has x ∨ x = k ∨ r.Has x

/-- Search tree for names, ignoring case. -/
def Tree.Ordered : Tree → Prop
  | .leaf => True
  | .node l k r => l.Ordered ∧ r.Ordered ∧ (∀ x, l.Has x → casecmp x k < 0) ∧ ∀ x, r.Has x → casecmp k x < 0

/-! ## Lemmas -/

theorem lower_nat {a b : UInt8} (h1 : ¬ (lower a).toNat < (lower b).toNat) (h2 : ¬ (lower b).toNat < (lower a).toNat) : lower a = lower b :=
  UInt8.toNat_inj.1 (by omega)

theorem casecmp_zero : ∀ a b : Txt, casecmp a b = 0 ↔ Same a b
  | [], [] => by simp [casecmp, Same]
  | [], _ :: _ => by simp [casecmp, Same]
  | _ :: _, [] => by simp [casecmp, Same]
  | a :: x, b :: y => by
    have ih := casecmp_zero x y
    unfold casecmp
    unfold Same at ih ⊢
    rw [List.map_cons, List.map_cons]
    by_cases h1 : (lower a).toNat < (lower b).toNat
    · rw [if_pos h1]
      constructor
      · intro e; cases e
      · intro e; injection e with e _; rw [e] at h1; omega
    · rw [if_neg h1]
      by_cases h2 : (lower b).toNat < (lower a).toNat
      · rw [if_pos h2]
        constructor
        · intro e; cases e
        · intro e; injection e with e _; rw [e] at h2; omega
      · rw [if_neg h2, ih, lower_nat h1 h2]
        simp

theorem ncasecmp_zero : ∀ (n : Nat) (a b : Txt), ncasecmp n a b = 0 ↔ Same (a.take n) (b.take n)
  | 0, a, b => by simp [ncasecmp, Same]
  | _ + 1, [], [] => by simp [ncasecmp, Same]
  | _ + 1, [], _ :: _ => by simp [ncasecmp, Same]
  | _ + 1, _ :: _, [] => by simp [ncasecmp, Same]
  | n + 1, a :: x, b :: y => by
    have ih := ncasecmp_zero n x y
    unfold ncasecmp
    unfold Same at ih ⊢
    rw [List.take_succ_cons, List.take_succ_cons, List.map_cons, List.map_cons]
    by_cases h1 : (lower a).toNat < (lower b).toNat
    · rw [if_pos h1]
      constructor
      · intro e; cases e
      · intro e; injection e with e _; rw [e] at h1; omega
    · rw [if_neg h1]
      by_cases h2 : (lower b).toNat < (lower a).toNat
      · rw [if_pos h2]
        constructor
        · intro e; cases e
        · intro e; injection e with e _; rw [e] at h2; omega
      · rw [if_neg h2, ih, lower_nat h1 h2]
        simp

/-- The shortened comparison respects the order of names. -/
theorem ncasecmp_lt : ∀ (n : Nat) (u k x : Txt), ncasecmp n u k < 0 → casecmp k x < 0 → ncasecmp n u x < 0
  | 0, _, _, _ => by intro h; exact absurd h (by simp [ncasecmp])
  | _ + 1, [], [], x => by intro h; exact absurd h (by simp [ncasecmp])
  | _ + 1, [], _ :: _, [] => by intro _ h; exact absurd h (by simp [casecmp])
  | _ + 1, [], _ :: _, _ :: _ => by intro _ _; simp [ncasecmp]
  | _ + 1, _ :: _, [], _ => by intro h; exact absurd h (by simp [ncasecmp])
  | _ + 1, _ :: _, _ :: _, [] => by intro _ h; exact absurd h (by simp [casecmp])
  | n + 1, a :: u, b :: k, c :: x => by
    have ih := ncasecmp_lt n u k x
    unfold ncasecmp casecmp
    intro h1 h2
    split at h1
    · split at h2
      · rw [if_pos (by omega)]; decide
      · split at h2
        · cases h2
        · rw [if_pos (by omega)]; decide
    · split at h1
      · cases h1
      · split at h2
        · rw [if_pos (by omega)]; decide
        · split at h2
          · cases h2
          · rw [if_neg (by omega), if_neg (by omega)]
            exact ih h1 h2

theorem ncasecmp_gt : ∀ (n : Nat) (u k x : Txt), 0 < ncasecmp n u k → casecmp x k < 0 → 0 < ncasecmp n u x
  | 0, _, _, _ => by intro h; exact absurd h (by simp [ncasecmp])
  | _ + 1, [], [], x => by intro h; exact absurd h (by simp [ncasecmp])
  | _ + 1, [], _ :: _, _ => by intro h; exact absurd h (by simp [ncasecmp])
  | _ + 1, _ :: _, [], [] => by intro _ h; exact absurd h (by simp [casecmp])
  | _ + 1, _ :: _, [], _ :: _ => by intro _ h; exact absurd h (by simp [casecmp])
  | _ + 1, _ :: _, _ :: _, [] => by intro _ _; simp [ncasecmp]
  | n + 1, a :: u, b :: k, c :: x => by
    have ih := ncasecmp_gt n u k x
    unfold ncasecmp casecmp
    intro h1 h2
    split at h1
    · cases h1
    · split at h1
      · split at h2
        · rw [if_neg (by omega), if_pos (by omega)]; decide
        · split at h2
          · cases h2
          · rw [if_neg (by omega), if_pos (by omega)]; decide
      · split at h2
        · rw [if_neg (by omega), if_pos (by omega)]; decide
        · split at h2
          · cases h2
          · rw [if_neg (by omega), if_neg (by omega)]
            exact ih h1 h2

/-- A comparison that is not shorter than its second argument. -/
theorem casecmp_ncasecmp : ∀ (n : Nat) (a b : Txt), a.length ≤ n → b.length ≤ n → ncasecmp n a b = casecmp a b
  | 0, [], [], _, _ => rfl
  | 0, _ :: _, _, h, _ => by simp at h
  | 0, [], _ :: _, _, h => by simp at h
  | _ + 1, [], [], _, _ => rfl
  | _ + 1, [], _ :: _, _, _ => rfl
  | _ + 1, _ :: _, [], _, _ => rfl
  | n + 1, a :: x, b :: y, h1, h2 => by
    unfold ncasecmp casecmp
    rw [casecmp_ncasecmp n x y (by simpa using h1) (by simpa using h2)]

theorem splitter_plain : ∀ t : Txt, splitter t = none ↔ Plain t
  | [] => by
    constructor
    · intro _ a b e; cases a <;> cases e
    · intro _; rfl
  | c :: l => by
    have ih := splitter_plain l
    unfold splitter
    by_cases h : (c :: l).take 3 = [58, 47, 47]
    · rw [if_pos h]
      constructor
      · intro e; cases e
      · intro hp
        refine absurd ?_ (hp [] ((c :: l).drop 3))
        have := List.take_append_drop 3 (c :: l)
        rw [h] at this
        exact this.symm
    · rw [if_neg h, Option.map_eq_none_iff, ih]
      constructor
      · intro hp a b e
        cases a with
        | nil => rw [e] at h; exact h rfl
        | cons x a => injection e with _ e; exact hp a b e
      · intro hp a b e
        exact hp (c :: a) b (by rw [e]; rfl)

theorem splitter_some : ∀ (a b : Txt), Plain (a ++ [58, 47]) → splitter (a ++ 58 :: 47 :: 47 :: b) = some a.length
  | [], b, _ => rfl
  | c :: a, b, h => by
    have ih := splitter_some a b fun x y e => h (c :: x) y (by rw [List.cons_append, e]; rfl)
    rw [List.cons_append, splitter]
    rw [if_neg, ih]
    · rfl
    · intro e
      refine h [] ?_ ?_
      · exact (c :: a ++ [58, 47]).drop 3
      · have : (c :: a ++ [58, 47]).take 3 = [58, 47, 47] := by
          match a, e with
          | [], e => simpa using e
          | [x], e => simpa using e
          | x :: y :: l, e => simpa using e
        have h2 := List.take_append_drop 3 (c :: a ++ [58, 47])
        rw [this] at h2
        exact h2.symm

/-- `avl_find` for a comparison that respects the order of the tree. -/
theorem find_iff (t : Tree) (u : Txt) (n : Nat) (hc : ∀ x, t.Has x → cmpIo u x = ncasecmp n u x) (ho : t.Ordered) :
    (∀ h, t.find u = some h → t.Has h ∧ ncasecmp n u h = 0) ∧ (t.find u = none → ∀ x, t.Has x → ncasecmp n u x ≠ 0) := by
  induction t with
  | leaf => exact ⟨(fun h e => nomatch e), fun _ x hx => False.elim hx⟩
  | node l k r ihl ihr =>
    obtain ⟨ol, or', ol', or''⟩ := ho
    have il := ihl (fun x hx => hc x (Or.inl hx)) ol
    have ir := ihr (fun x hx => hc x (Or.inr (Or.inr hx))) or'
    have hk := hc k (Or.inr (Or.inl rfl))
    unfold Tree.find
    rw [hk]
    by_cases h0 : ncasecmp n u k = 0
    · rw [if_pos h0]
      exact ⟨fun h e => by injection e with e; rw [← e]; exact ⟨Or.inr (Or.inl rfl), h0⟩, (fun e => nomatch e)⟩
    · rw [if_neg h0]
      by_cases h1 : ncasecmp n u k < 0
      · rw [if_pos h1]
        refine ⟨fun h e => ⟨Or.inl (il.1 h e).1, (il.1 h e).2⟩, fun e x hx => ?_⟩
        rcases hx with hx | rfl | hx
        · exact il.2 e x hx
        · exact h0
        · have := ncasecmp_lt n u k x h1 (or'' x hx); omega
      · rw [if_neg h1]
        refine ⟨fun h e => ⟨Or.inr (Or.inr (ir.1 h e).1), (ir.1 h e).2⟩, fun e x hx => ?_⟩
        rcases hx with hx | rfl | hx
        · have := ncasecmp_gt n u k x (by omega) (ol' x hx); omega
        · exact h0
        · exact ir.2 e x hx

theorem same_length {a b : Txt} (h : Same a b) : a.length = b.length := by
  have := congrArg List.length h
  simpa using this

theorem ordered_unique {t : Tree} (ho : t.Ordered) : ∀ {x y : Txt}, t.Has x → t.Has y → Same x y → x = y := by
  have flip : ∀ {x y : Txt}, casecmp x y < 0 → ¬ Same x y := fun h e => by
    have := (casecmp_zero _ _).2 e; omega
  have lt_trans : ∀ {x k y : Txt}, casecmp x k < 0 → casecmp k y < 0 → casecmp x y < 0 := fun {x k y} h1 h2 => by
    have e1 := casecmp_ncasecmp (x.length + k.length + y.length) x k (by omega) (by omega)
    have e2 := casecmp_ncasecmp (x.length + k.length + y.length) x y (by omega) (by omega)
    have := ncasecmp_lt (x.length + k.length + y.length) x k y (by omega) h2
    omega
  induction t with
  | leaf => intro x y hx; exact hx.elim
  | node l k r ihl ihr =>
    obtain ⟨ol, or', ol', or''⟩ := ho
    intro x y hx hy hs
    rcases hx with hx | rfl | hx <;> rcases hy with hy | rfl | hy
    · exact ihl ol hx hy hs
    · exact absurd hs (flip (ol' x hx))
    · exact absurd hs (flip (lt_trans (ol' x hx) (or'' y hy)))
    · exact absurd (Eq.symm hs) (flip (ol' y hy))
    · rfl
    · exact absurd hs (flip (or'' y hy))
    · exact absurd (Eq.symm hs) (flip (lt_trans (ol' y hy) (or'' x hx)))
    · exact absurd (Eq.symm hs) (flip (or'' x hx))
    · exact ihr or' hx hy hs

/-! ## C232 -/

/-- C232, with a handler in the URL: `scheme://rest` calls the handler with that name (ignoring case) and gives it `rest`; there is an
error if no such handler is registered.  No registered name may be a longer word that begins with the scheme. -/
theorem C232_scheme_partial {t : Tree} (ho : t.Ordered) (hp : ∀ x, t.Has x → Plain x) (dflt : Option Txt) {scheme : Txt} (rest : Txt)
    (hne : scheme ≠ []) (hs : Plain (scheme ++ [58, 47])) (hno : ∀ x, t.Has x → Same (x.take scheme.length) scheme → x.length = scheme.length) :
    (∀ name, t.Has name → Same name scheme → findIo t dflt (scheme ++ 58 :: 47 :: 47 :: rest) = .use name rest) ∧
    ((∀ name, t.Has name → ¬ Same name scheme) → findIo t dflt (scheme ++ 58 :: 47 :: 47 :: rest) = .error) := by
  have hsp := splitter_some scheme rest hs
  have hc : ∀ x, t.Has x → cmpIo (scheme ++ 58 :: 47 :: 47 :: rest) x =
      ncasecmp scheme.length (scheme ++ 58 :: 47 :: 47 :: rest) x := fun x hx => by
    unfold cmpIo; rw [hsp, (splitter_plain x).2 (hp x hx)]
  obtain ⟨f1, f2⟩ := find_iff t _ _ hc ho
  have key : ∀ x, t.Has x → (ncasecmp scheme.length (scheme ++ 58 :: 47 :: 47 :: rest) x = 0 ↔ Same x scheme) := fun x hx => by
    rw [ncasecmp_zero, List.take_left']
    · constructor
      · intro e
        have hl := hno x hx (Eq.symm e)
        rw [← hl, List.take_length] at e
        exact Eq.symm e
      · intro e
        have hl := same_length e
        rw [← hl, List.take_length]
        exact Eq.symm e
    · rfl
  obtain ⟨n, hn⟩ : ∃ n, scheme.length = n + 1 := by
    cases scheme with
    | nil => exact absurd rfl hne
    | cons a l => exact ⟨l.length, rfl⟩
  have hd : (scheme ++ 58 :: 47 :: 47 :: rest).drop (n + 1 + 3) = rest := by
    rw [← hn, List.drop_append]
    simp
  unfold findIo
  rw [hsp, hn]
  dsimp only
  constructor
  · intro name hname hsame
    cases hf : t.find (scheme ++ 58 :: 47 :: 47 :: rest) with
    | none => exact absurd ((key name hname).2 hsame) (f2 hf name hname)
    | some h =>
      obtain ⟨g1, g2⟩ := f1 h hf
      have : h = name := ordered_unique ho g1 hname (((key h g1).1 g2).trans (Eq.symm hsame))
      rw [this, hd]
  · intro hno'
    cases hf : t.find (scheme ++ 58 :: 47 :: 47 :: rest) with
    | none => rfl
    | some h =>
      obtain ⟨g1, g2⟩ := f1 h hf
      exact absurd ((key h g1).1 g2) (hno' h g1)

/-- C232, without a handler in the URL: the default handler gets the whole text. -/
theorem C232_default {t : Tree} (ho : t.Ordered) (hp : ∀ x, t.Has x → Plain x) {d url : Txt} (hd : Plain d) (hu : Plain url) :
    (∀ name, t.Has name → Same name d → findIo t (some d) url = .use name url) ∧
    ((∀ name, t.Has name → ¬ Same name d) → findIo t (some d) url = .error) := by
  have hlen : ∃ m, d.length ≤ m ∧ ∀ x, t.Has x → x.length ≤ m := by
    have : ∃ m, ∀ x, t.Has x → x.length ≤ m := by
      clear ho hp
      induction t with
      | leaf => exact ⟨0, fun x hx => hx.elim⟩
      | node l k r ihl ihr =>
        obtain ⟨a, ha⟩ := ihl
        obtain ⟨b, hb⟩ := ihr
        refine ⟨a + b + k.length, fun x hx => ?_⟩
        rcases hx with hx | rfl | hx
        · have := ha x hx; omega
        · omega
        · have := hb x hx; omega
    obtain ⟨m, hm⟩ := this
    exact ⟨m + d.length, by omega, fun x hx => by have := hm x hx; omega⟩
  obtain ⟨m, hm1, hm2⟩ := hlen
  have hcc : ∀ x, t.Has x → ncasecmp m d x = casecmp d x := fun x hx => casecmp_ncasecmp m d x hm1 (hm2 x hx)
  obtain ⟨f1, f2⟩ := find_iff t d m (fun x hx => by
    unfold cmpIo; rw [(splitter_plain d).2 hd, (splitter_plain x).2 (hp x hx)]; exact (hcc x hx).symm) ho
  have key : ∀ x, t.Has x → (ncasecmp m d x = 0 ↔ Same x d) := fun x hx => by
    rw [hcc x hx, casecmp_zero]; exact ⟨Eq.symm, Eq.symm⟩
  unfold findIo
  rw [(splitter_plain url).2 hu]
  dsimp only
  constructor
  · intro name hname hsame
    cases hf : t.find d with
    | none => exact absurd ((key name hname).2 hsame) (f2 hf name hname)
    | some h =>
      obtain ⟨g1, g2⟩ := f1 h hf
      rw [ordered_unique ho g1 hname (((key h g1).1 g2).trans (Eq.symm hsame))]
  · intro hno'
    cases hf : t.find d with
    | none => rfl
    | some h =>
      obtain ⟨g1, g2⟩ := f1 h hf
      exact absurd ((key h g1).1 g2) (hno' h g1)

/-- C232: an empty handler is an error. -/
theorem C232_empty (t : Tree) (dflt : Option Txt) (rest : Txt) : findIo t dflt (58 :: 47 :: 47 :: rest) = .error := rfl

/-- C232, finding.  `scheme://rest` is handed to a handler whose name only begins with the scheme. -/
theorem C232_prefix_counterexample {scheme more : Txt} (rest : Txt) (dflt : Option Txt) (hne : scheme ≠ []) (hs : Plain (scheme ++ [58, 47]))
    (hp : Plain (scheme ++ more)) :
    findIo (.node .leaf (scheme ++ more) .leaf) dflt (scheme ++ 58 :: 47 :: 47 :: rest) = .use (scheme ++ more) rest := by
  have hsp := splitter_some scheme rest hs
  have hc : cmpIo (scheme ++ 58 :: 47 :: 47 :: rest) (scheme ++ more) = 0 := by
    unfold cmpIo
    rw [hsp, (splitter_plain _).2 hp]
    dsimp only
    rw [ncasecmp_zero, List.take_left' rfl, List.take_left' rfl]
    rfl
  obtain ⟨n, hn⟩ : ∃ n, scheme.length = n + 1 := by
    cases scheme with
    | nil => exact absurd rfl hne
    | cons a l => exact ⟨l.length, rfl⟩
  have hd : (scheme ++ 58 :: 47 :: 47 :: rest).drop (n + 1 + 3) = rest := by
    rw [← hn, List.drop_append]
    simp
  unfold findIo
  rw [hsp, hn]
  dsimp only
  unfold Tree.find
  rw [if_pos hc]
  dsimp only
  rw [hd]

/-- C232, finding.  Without any registered handler and without default the list head of the tree is used as a handler. -/
theorem C232_nohandler_counterexample {url : Txt} (hu : Plain url) : findIo .leaf none url = .ub := by
  unfold findIo; rw [(splitter_plain url).2 hu]; rfl

/-- The comparator is no order: `uci` and `ucix` are different, `uci://` is equal to both. -/
theorem C232_order_counterexample :
    cmpIo [117, 99, 105] [117, 99, 105, 58, 47, 47] = 0 ∧ cmpIo [117, 99, 105, 58, 47, 47] [117, 99, 105, 120] = 0 ∧
    cmpIo [117, 99, 105] [117, 99, 105, 120] ≠ 0 := by decide

/-- handlers `compact` and `uci`, URL `UCI://x` -/
example : findIo (.node .leaf [99, 111, 109, 112, 97, 99, 116] (.node .leaf [117, 99, 105] .leaf)) none
    [85, 67, 73, 58, 47, 47, 120] = .use [117, 99, 105] [120] := by decide

example : (Tree.node .leaf [99, 111, 109, 112, 97, 99, 116] (.node .leaf [117, 99, 105] .leaf)).Ordered := by
  refine ⟨trivial, ⟨trivial, trivial, fun x hx => hx.elim, fun x hx => hx.elim⟩, fun x hx => hx.elim, fun x hx => ?_⟩
  rcases hx with hx | rfl | hx
  · exact hx.elim
  · decide
  · exact hx.elim

/-! ## C233 -/

/-- C233, with a monotonic source: later answers of the kernel are later times, at both resolutions. -/
theorem C233_monotonic {s1 n1 s2 n2 : Nat} (h1 : n1 < 1000000000) (h : s1 < s2 ∨ s1 = s2 ∧ n1 ≤ n2) :
    mono s1 n1 ≤ mono s2 n2 ∧ monoNs s1 n1 ≤ monoNs s2 n2 ∧ mono s1 n1 = monoNs s1 n1 / 1000000 := by
  unfold mono monoNs; omega

/-- C233: the time since the start is the difference, if time did not run backwards. -/
theorem C233_since {start now : Nat} (h : start ≤ now) (hn : now < 2 ^ 64) : sinceStart start now = now - start := by
  unfold sinceStart; omega

/-- All answers of the system clock are proper. -/
def Proper (l : List (Int × Int)) : Prop := ∀ a ∈ l, 0 ≤ a.2 ∧ a.2 < 1000000

theorem wall_bounds {c : Clk} {s u : Int} (hc : c.last ≠ 0) (hu : 0 ≤ u ∧ u < 1000000) :
    c.last ≤ (wall c s u).1.last ∧ (wall c s u).1.last ≤ c.last + 60 ∧
    1000 * (wall c s u).1.last ≤ (wall c s u).2 ∧ (wall c s u).2 ≤ 1000 * (wall c s u).1.last + 999 := by
  unfold wall
  dsimp only
  rw [if_neg hc]
  by_cases h : (decide (s + c.offset < c.last) || decide (s + c.offset > c.last + 60)) = true
  · rw [if_pos h]; omega
  · rw [if_neg h]
    have : ¬ s + c.offset < c.last ∧ ¬ s + c.offset > c.last + 60 := by simpa using h
    omega

theorem walls_cons (c : Clk) (s u : Int) (l : List (Int × Int)) : walls c ((s, u) :: l) = (wall c s u).2 :: walls (wall c s u).1 l := rfl

/-- C233, without a monotonic source: whatever the system clock does, a reading is less than one second before and at most 61 seconds
after the previous one. -/
theorem C233_steps_partial {c : Clk} (hc : 0 < c.last) {l : List (Int × Int)} (hl : Proper l) {i : Nat} {x y : Int}
    (hx : (walls c l)[i]? = some x) (hy : (walls c l)[i + 1]? = some y) : x - 1000 < y ∧ y < x + 61000 := by
  induction l generalizing c i with
  | nil => cases hx
  | cons a l ih =>
    obtain ⟨s, u⟩ := a
    have hb := wall_bounds (c := c) (s := s) (u := u) (by omega) (hl (s, u) List.mem_cons_self)
    have hl' : Proper l := fun a ha => hl a (List.mem_cons_of_mem _ ha)
    rw [walls_cons] at hx hy
    cases i with
    | succ i => exact ih (by omega) hl' hx hy
    | zero =>
      cases l with
      | nil => cases hy
      | cons b l =>
        obtain ⟨s', u'⟩ := b
        have hb' := wall_bounds (c := (wall c s u).1) (s := s') (u := u') (by omega) (hl' (s', u') List.mem_cons_self)
        rw [walls_cons] at hy
        simp only [List.getElem?_cons_zero, List.getElem?_cons_succ, Option.some.injEq] at hx hy
        omega

/-- C233, without a monotonic source: as long as the system clock does not go backwards and makes no step of more than a minute, readings
differ from it by a constant, so they do not go backwards either. -/
theorem C233_steady_partial {c : Clk} {l : List (Int × Int)} (hc : 0 < c.last)
    (hl : ∀ (i : Nat) (a b : Int × Int), ((c.last - c.offset, 0) :: l)[i]? = some a → l[i]? = some b → a.1 ≤ b.1 ∧ b.1 ≤ a.1 + 60) :
    walls c l = l.map fun a => 1000 * (a.1 + c.offset) + a.2 / 1000 := by
  induction l generalizing c with
  | nil => rfl
  | cons a l ih =>
    obtain ⟨s, u⟩ := a
    have h0 := hl 0 (c.last - c.offset, 0) (s, u) rfl rfl
    dsimp only at h0
    have hw : wall c s u = (⟨c.offset, s + c.offset⟩, 1000 * (s + c.offset) + u / 1000) := by
      unfold wall
      dsimp only
      rw [if_neg (show ¬ c.last = 0 by omega)]
      have h1 : ¬ (decide (s + c.offset < c.last) || decide (s + c.offset > c.last + 60)) = true := by
        simp only [Bool.or_eq_true, decide_eq_true_eq]; omega
      rw [if_neg h1, if_neg h1]
    rw [walls_cons, hw, List.map_cons]
    congr 1
    refine ih (c := ⟨c.offset, s + c.offset⟩) (by dsimp only; omega) fun i a b ha hb => ?_
    cases i with
    | zero =>
      have := hl 1 (s, u) b rfl hb
      have ha : some ((s + c.offset - c.offset, 0) : Int × Int) = some a := ha
      injection ha with ha
      rw [← ha]; dsimp only at this ⊢; omega
    | succ i => exact hl (i + 2) a b ha hb

/-- C233, finding.  Without a monotonic source a small step of the system clock back is not seen: time runs backwards, and before the
first tick the time since the start becomes huge. -/
theorem C233_backwards_counterexample {s u1 u2 : Nat} (h1 : u1 + 1000 ≤ u2) :
    ∃ x y, walls {} [(s, u2), (s, u1)] = [x, y] ∧ y < x := by
  refine ⟨1000 * (s : Int) + u2 / 1000, 1000 * (s : Int) + u1 / 1000, ?_, by omega⟩
  simp [walls, wall]

theorem C233_huge_counterexample {start now : Nat} (h : now < start) (hs : start ≤ 2 ^ 63) : 2 ^ 63 ≤ sinceStart start now := by
  unfold sinceStart; omega

example : walls {} [(100, 900000), (100, 100000), (99, 0), (170, 5000), (171, 5000)] = [100900, 100100, 100000, 100005, 101005] := by decide

end Verif.CfgIo
