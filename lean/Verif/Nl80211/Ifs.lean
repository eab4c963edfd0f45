import Verif.Nl80211.Spec

/-! # Wireless interfaces: the set of interfaces -/

namespace Verif.Nl80211

/-- the flags of an interface say why it is there -/
structure Good (t : Tree) (w : Want) : Prop where
  pre : t.pre = w.list
  get : ∀ n, t.get n = if n ∈ w.secs ∨ n ∈ w.list then some ⟨decide (n ∈ w.secs), decide (n ∈ w.list), ((t.get n).getD {}).remove⟩ else none
  keep : ∀ n x, t.get n = some x → x.remove = false

theorem put_get (t : Tree) (n m : Nat) (x : Option If) : (t.put n x).get m = if m = n then x else t.get m := rfl

theorem mark_all (l : List Nat) : ∀ t : Tree, (l.foldl mark t).pre = t.pre ∧ ∀ m, (l.foldl mark t).get m =
    if m ∈ l then (t.get m).map (fun x => { x with remove := !x.ifSec, nlSec := false }) else t.get m := by
  induction l with
  | nil => intro t; exact ⟨rfl, fun m => by simp⟩
  | cons a l ih =>
    intro t
    have h1 : (mark t a).pre = t.pre := by unfold mark; split <;> rfl
    have h2 : ∀ m, (mark t a).get m = if m = a then (t.get m).map (fun x => { x with remove := !x.ifSec, nlSec := false }) else t.get m := by
      intro m
      unfold mark
      cases ha : t.get a with
      | none =>
        simp only
        split
        · next e => rw [e, ha]; rfl
        · rfl
      | some x =>
        simp only [put_get]
        split
        · next e => rw [e, ha]; rfl
        · rfl
    rw [List.foldl_cons]
    refine ⟨(ih _).1.trans h1, fun m => ?_⟩
    rw [(ih _).2 m, h2]
    by_cases e1 : m = a <;> by_cases e2 : m ∈ l <;> simp [e1, e2]
    · subst e1; simp [e2]; cases t.get m <;> simp
    · subst e1; simp [e2]

theorem touch_all (l : List Nat) : ∀ t : Tree, (l.foldl (fun t n => t.touch n fun x => { x with remove := false, nlSec := true }) t).pre = t.pre ∧
    ∀ m, (l.foldl (fun t n => t.touch n fun x => { x with remove := false, nlSec := true }) t).get m =
      if m ∈ l then some { ((t.get m).getD {}) with remove := false, nlSec := true } else t.get m := by
  induction l with
  | nil => intro t; exact ⟨rfl, fun m => by simp⟩
  | cons a l ih =>
    intro t
    rw [List.foldl_cons]
    refine ⟨(ih _).1, fun m => ?_⟩
    rw [(ih _).2 m]
    simp only [Tree.touch, put_get]
    by_cases e1 : m = a
    · subst e1; by_cases e2 : m ∈ l <;> simp [e2]
    · simp [e1]

theorem sweep_all (l : List Nat) : ∀ t : Tree, (l.foldl sweep t).pre = t.pre ∧ ∀ m, (l.foldl sweep t).get m =
    if m ∈ l then (match t.get m with | none => none | some x => if x.remove then none else some x) else t.get m := by
  induction l with
  | nil => intro t; exact ⟨rfl, fun m => by simp⟩
  | cons a l ih =>
    intro t
    have h1 : (sweep t a).pre = t.pre := by
      unfold sweep
      split
      · rfl
      · split <;> rfl
    have h2 : ∀ m, (sweep t a).get m = if m = a then (match t.get m with | none => none | some x => if x.remove then none else some x) else t.get m := by
      intro m
      unfold sweep
      cases ha : t.get a with
      | none =>
        simp only
        split
        · next e => rw [e, ha]
        · rfl
      | some x =>
        simp only
        by_cases hr : x.remove = true
        · rw [if_pos hr, put_get]
          split
          · next e => rw [e, ha]; simp [hr]
          · rfl
        · rw [if_neg hr]
          split
          · next e => rw [e, ha]; simp [hr]
          · rfl
    rw [List.foldl_cons]
    refine ⟨(ih _).1.trans h1, fun m => ?_⟩
    rw [(ih _).2 m, h2]
    by_cases e1 : m = a
    · subst e1
      by_cases e2 : m ∈ l
      · simp only [e2, if_true, List.mem_cons, true_or]
        cases t.get m with
        | none => rfl
        | some x => by_cases hr : x.remove = true <;> simp [hr]
      · simp [e2]
    · simp [e1]

theorem good_step (t : Tree) (w : Want) (c : Cfg) (h : Good t w) : Good (configure t c) (w.change c) := by
  obtain ⟨hp, hg, hk⟩ := h
  cases c with
  | add n =>
    refine ⟨hp, fun m => ?_, fun m x hx => ?_⟩
    · simp only [configure, Tree.touch, put_get, Want.change]
      by_cases e : m = n
      · subst e
        simp only [if_true, List.mem_cons, true_or]
        have := hg m
        by_cases h2 : m ∈ w.list
        · rw [if_pos (.inr h2)] at this
          rw [this]; simp [h2]
        · by_cases h1 : m ∈ w.secs
          · rw [if_pos (.inl h1)] at this; rw [this]; simp [h2]
          · rw [if_neg (by simp [h1, h2])] at this; rw [this]; simp [h2]
      · simp only [if_neg e, List.mem_cons, e, false_or]
        exact hg m
    · simp only [configure, Tree.touch, put_get] at hx
      split at hx
      · cases hx
        cases hn : t.get n with
        | none => rfl
        | some y => exact hk n y hn
      · exact hk m x hx
  | del n =>
    have hn := hg n
    by_cases h2 : n ∈ w.list
    · rw [if_pos (.inr h2)] at hn
      have hc : configure t (.del n) = t.put n (some ⟨false, true, ((t.get n).getD {}).remove⟩) := by
        simp only [configure]
        rw [hn]
        simp [h2]
      rw [hc]
      have hkn := hk n _ hn
      refine ⟨hp, fun m => ?_, fun m x hx => ?_⟩
      · simp only [put_get, Want.change]
        by_cases e : m = n
        · subst e; simp [h2]
        · simp only [if_neg e, List.mem_filter, ne_eq, e, not_false_eq_true, decide_true, and_true]
          exact hg m
      · rw [put_get] at hx
        split at hx
        · cases hx; exact hkn
        · exact hk m x hx
    · have hc : (configure t (.del n)).get n = none ∧ (∀ m, m ≠ n → (configure t (.del n)).get m = t.get m) ∧ (configure t (.del n)).pre = t.pre := by
        simp only [configure]
        cases hgn : t.get n with
        | none => exact ⟨hgn, fun _ _ => rfl, rfl⟩
        | some x =>
          have hx : x.nlSec = false := by
            rw [hgn] at hn
            by_cases h1 : n ∈ w.secs
            · rw [if_pos (.inl h1)] at hn; have := congrArg If.nlSec (Option.some.inj hn); simpa [h2] using this
            · rw [if_neg (by simp [h1, h2])] at hn; cases hn
          simp only [hx, Bool.false_eq_true, if_false]
          refine ⟨by simp [put_get], fun m hm => by simp [put_get, hm], rfl⟩
      refine ⟨hc.2.2.trans hp, fun m => ?_, fun m x hx => ?_⟩
      · by_cases e : m = n
        · subst e; rw [hc.1]; simp [Want.change, h2]
        · rw [hc.2.1 m e]
          simp only [Want.change, List.mem_filter, ne_eq, e, not_false_eq_true, decide_true, and_true]
          exact hg m
      · by_cases e : m = n
        · subst e; rw [hc.1] at hx; cases hx
        · rw [hc.2.1 m e] at hx; exact hk m x hx
  | list l =>
    have ha := mark_all t.pre t
    have hb := touch_all l (t.pre.foldl mark t)
    have hc := sweep_all t.pre (l.foldl (fun t n => t.touch n fun x => { x with remove := false, nlSec := true }) (t.pre.foldl mark t))
    have hfin : ∀ m, (configure t (.list l)).get m = if m ∈ w.secs ∨ m ∈ l then some ⟨decide (m ∈ w.secs), decide (m ∈ l), false⟩ else none := by
      intro m
      show (t.pre.foldl sweep (l.foldl (fun t n => t.touch n fun x => { x with remove := false, nlSec := true }) (t.pre.foldl mark t))).get m = _
      rw [hc.2, hb.2, ha.2, hp]
      have hm := hg m
      have hkm := hk m
      by_cases h1 : m ∈ w.secs <;> by_cases h2 : m ∈ w.list <;> by_cases h3 : m ∈ l
      all_goals
        simp only [h1, h2, h3, true_or, or_true, or_false, false_or, or_self, if_true, if_false] at hm ⊢
        first
          | (rw [hm] at hkm ⊢; have := hkm _ rfl; simp at this; simp [this]; done)
          | (rw [hm] <;> simp)
    refine ⟨rfl, fun m => ?_, fun m x hx => ?_⟩
    · rw [hfin m]
      simp only [Want.change]
      split
      · rfl
      · rfl
    · rw [hfin m] at hx
      split at hx
      · cases hx; rfl
      · cases hx

/-- an interface is watched exactly if it has a section of its own or is in the list -/
theorem C222_interfaces (h : List Cfg) (n : Nat) :
    (h.foldl configure {}).get n ≠ none ↔ n ∈ (h.foldl Want.change {}).secs ∨ n ∈ (h.foldl Want.change {}).list := by
  have key : ∀ (h : List Cfg) (t : Tree) (w : Want), Good t w → Good (h.foldl configure t) (h.foldl Want.change w) := by
    intro h
    induction h with
    | nil => intro t w g; exact g
    | cons c h ih => intro t w g; exact ih _ _ (good_step t w c g)
  have g := key h {} {} ⟨rfl, fun m => by simp, fun m x hx => by cases hx⟩
  rw [g.get n]
  split
  · next e => simp [e]
  · next e => simp [e]

example : let h : List Cfg := [.add 1, .list [1, 2], .del 1, .list [2, 3], .add 2, .list []]
    (h.foldl configure {}).get 1 = none ∧ (h.foldl configure {}).get 2 ≠ none ∧ (h.foldl configure {}).get 3 = none := by decide

end Verif.Nl80211
