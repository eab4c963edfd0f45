import Verif.Avl.Spec
/-
Helper lemmas for the tree theorems.
-/
namespace Verif.Avl
variable {κ : Type}

def lctx : List (Frame κ) → List (Nd κ)
  | [] => []
  | f :: fs => lctx fs ++ (if f.isLeft then [] else inorder f.other ++ [f.n])

def rctx : List (Frame κ) → List (Nd κ)
  | [] => []
  | f :: fs => (if f.isLeft then f.n :: inorder f.other else []) ++ rctx fs

/-- the frames are balanced if the position is filled by a tree of height `h` -/
def PathBal : List (Frame κ) → Nat → Prop
  | [], _ => True
  | f :: fs, h => Bal f.other ∧ f.bal = (if f.isLeft then (ht f.other : Int) - h else h - ht f.other) ∧
      -1 ≤ f.bal ∧ f.bal ≤ 1 ∧ PathBal fs (max h (ht f.other) + 1)

theorem inorder_rebuild (fs : List (Frame κ)) : ∀ t, inorder (rebuild fs t) = lctx fs ++ inorder t ++ rctx fs := by
  induction fs with
  | nil => intro t; simp [rebuild, lctx, rctx]
  | cons f fs ih =>
    intro t
    rw [rebuild, ih, lctx, rctx]
    unfold Frame.fill
    cases f.isLeft <;> simp [inorder]

theorem bal_rebuild (fs : List (Frame κ)) : ∀ t, Bal t → PathBal fs (ht t) → Bal (rebuild fs t) := by
  induction fs with
  | nil => intro t h _; exact h
  | cons f fs ih =>
    intro t h hp
    obtain ⟨h1, h2, h3, h4, h5⟩ := hp
    rw [rebuild]
    apply ih
    · unfold Frame.fill
      cases hl : f.isLeft <;> simp only [hl, Bool.false_eq_true, if_true, if_false] at h2 ⊢
      · exact ⟨h1, h, h2, h3, h4⟩
      · exact ⟨h, h1, h2, h3, h4⟩
    · unfold Frame.fill
      cases hl : f.isLeft <;> simp only [Bool.false_eq_true, if_true, if_false, ht]
      · rw [Nat.max_comm]; exact h5
      · exact h5

/-- a change of the subtree that keeps its height and sequence -/
theorem rebuild_same (fs : List (Frame κ)) (t t' : Tree κ) (hb : Bal t') (hh : PathBal fs (ht t'))
    (hi : inorder t' = inorder t) :
    Bal (rebuild fs t') ∧ inorder (rebuild fs t') = lctx fs ++ inorder t ++ rctx fs :=
  ⟨bal_rebuild fs t' hb hh, by rw [inorder_rebuild, hi]⟩

theorem postInsert_spec (fs : List (Frame κ)) : ∀ (l : Tree κ) (n : Nd κ) (b : Int) (r : Tree κ),
    Bal (.node l n b r) → b ≠ 0 → PathBal fs (max (ht l) (ht r)) →
    ∃ T, postInsert (.node l n b r) fs = some T ∧ Bal T ∧
      inorder T = lctx fs ++ inorder (.node l n b r) ++ rctx fs := by
  induction fs with
  | nil => intro l n b r hb _ _; exact ⟨_, rfl, hb, by simp [lctx, rctx]⟩
  | cons f fs ih =>
    intro l n b r hb hne hp
    obtain ⟨p1, p2, p3, p4, p5⟩ := hp
    obtain ⟨hl, hr, hbe, hb1, hb2⟩ := hb
    cases hL : f.isLeft with
    | true =>
      simp only [hL, if_true] at p2
      simp only [postInsert, hL, if_true, lctx, rctx]
      by_cases c0 : f.bal - 1 = 0
      · rw [if_pos c0]
        refine ⟨_, rfl, bal_rebuild _ _ ⟨⟨hl, hr, hbe, hb1, hb2⟩, p1, ?_, by omega, by omega⟩ ?_, ?_⟩
        · simp only [ht]; omega
        · simp only [ht]
          have : max (max (ht l) (ht r) + 1) (ht f.other) = max (max (ht l) (ht r)) (ht f.other) := by omega
          rw [this]; exact p5
        · rw [inorder_rebuild]; simp [inorder]
      · rw [if_neg c0]
        by_cases c1 : f.bal - 1 = -1
        · rw [if_pos c1]
          obtain ⟨T, t1, t2, t3⟩ := ih (.node l n b r) f.n (f.bal - 1) f.other
            ⟨⟨hl, hr, hbe, hb1, hb2⟩, p1, by simp only [ht]; omega, by omega, by omega⟩ (by omega)
            (by
              simp only [ht]
              have : max (max (ht l) (ht r) + 1) (ht f.other) = max (max (ht l) (ht r)) (ht f.other) + 1 := by omega
              rw [this]; exact p5)
          exact ⟨T, t1, t2, by rw [t3]; simp [inorder]⟩
        · rw [if_neg c1]
          have hbal : f.bal = -1 := by omega
          by_cases c2 : b = -1
          · rw [if_pos (show (Tree.node l n b r).balance = -1 from c2)]
            subst c2
            simp only [rotRight, Option.map_some]
            refine ⟨_, rfl, ?_⟩
            have e1 : (if (-1 : Int) < 0 then f.bal - 1 + 1 - -1 else f.bal - 1 + 1) = 0 := by
              rw [if_pos (by decide)]; omega
            have e2 : (if (0 : Int) > 0 then -1 + 1 + (0 : Int) else -1 + 1) = 0 := by decide
            rw [e1, e2]
            refine ⟨bal_rebuild _ _ ⟨hl, ⟨hr, p1, by omega, by omega, by omega⟩, by simp only [ht]; omega, by omega, by omega⟩ ?_, ?_⟩
            · simp only [ht]
              have : max (ht l) (max (ht r) (ht f.other) + 1) + 1 = max (max (ht l) (ht r)) (ht f.other) + 1 := by omega
              rw [this]; exact p5
            · rw [inorder_rebuild]; simp [inorder]
          · rw [if_neg (show ¬ (Tree.node l n b r).balance = -1 from c2)]
            have hb' : b = 1 := by omega
            cases r with
            | nil => simp [ht] at hbe; omega
            | node rl rn rb rr =>
              obtain ⟨hrl, hrr, hrb, hrb1, hrb2⟩ := hr
              simp only [rotLeft, rotRight, Option.bind_some, Option.map_some]
              refine ⟨_, rfl, bal_rebuild _ _ ?_ ?_, ?_⟩
              · simp only [ht] at *
                refine ⟨⟨hl, hrl, ?_, ?_, ?_⟩, ⟨hrr, p1, ?_, ?_, ?_⟩, ?_, ?_, ?_⟩ <;> (try simp only [ht]) <;> (repeat (split)) <;> omega
              · simp only [ht] at *
                have : max (max (ht l) (ht rl) + 1) (max (ht rr) (ht f.other) + 1) + 1
                    = max (max (ht l) (max (ht rl) (ht rr) + 1)) (ht f.other) + 1 := by omega
                rw [this]; exact p5
              · rw [inorder_rebuild]; simp [inorder]
    | false =>
      simp only [hL, Bool.false_eq_true, if_false] at p2
      simp only [postInsert, hL, Bool.false_eq_true, if_false, lctx, rctx]
      by_cases c0 : f.bal + 1 = 0
      · rw [if_pos c0]
        refine ⟨_, rfl, bal_rebuild _ _ ⟨p1, ⟨hl, hr, hbe, hb1, hb2⟩, ?_, by omega, by omega⟩ ?_, ?_⟩
        · simp only [ht]; omega
        · simp only [ht]
          have : max (ht f.other) (max (ht l) (ht r) + 1) = max (max (ht l) (ht r)) (ht f.other) := by omega
          rw [this]; exact p5
        · rw [inorder_rebuild]; simp [inorder]
      · rw [if_neg c0]
        by_cases c1 : f.bal + 1 = 1
        · rw [if_pos c1]
          obtain ⟨T, t1, t2, t3⟩ := ih f.other f.n (f.bal + 1) (.node l n b r)
            ⟨p1, ⟨hl, hr, hbe, hb1, hb2⟩, by simp only [ht]; omega, by omega, by omega⟩ (by omega)
            (by
              simp only [ht]
              have : max (ht f.other) (max (ht l) (ht r) + 1) = max (max (ht l) (ht r)) (ht f.other) + 1 := by omega
              rw [this]; exact p5)
          exact ⟨T, t1, t2, by rw [t3]; simp [inorder]⟩
        · rw [if_neg c1]
          have hbal : f.bal = 1 := by omega
          by_cases c2 : b = 1
          · rw [if_pos (show (Tree.node l n b r).balance = 1 from c2)]
            simp only [rotLeft, Option.map_some]
            refine ⟨_, rfl, bal_rebuild _ _ ?_ ?_, ?_⟩
            · refine ⟨⟨p1, hl, ?_, ?_, ?_⟩, hr, ?_, ?_, ?_⟩ <;> (try simp only [ht]) <;> (repeat (split)) <;> omega
            · simp only [ht]
              have : max (max (ht f.other) (ht l) + 1) (ht r) + 1 = max (max (ht l) (ht r)) (ht f.other) + 1 := by omega
              rw [this]; exact p5
            · rw [inorder_rebuild]; simp [inorder]
          · rw [if_neg (show ¬ (Tree.node l n b r).balance = 1 from c2)]
            have hb' : b = -1 := by omega
            cases l with
            | nil => simp [ht] at hbe; omega
            | node ll ln lb lr =>
              obtain ⟨hll, hlr, hlb, hlb1, hlb2⟩ := hl
              simp only [rotLeft, rotRight, Option.bind_some, Option.map_some]
              refine ⟨_, rfl, bal_rebuild _ _ ?_ ?_, ?_⟩
              · simp only [ht] at *
                refine ⟨⟨p1, hll, ?_, ?_, ?_⟩, ⟨hlr, hr, ?_, ?_, ?_⟩, ?_, ?_, ?_⟩ <;> (try simp only [ht]) <;> (repeat (split)) <;> omega
              · simp only [ht] at *
                have : max (max (ht f.other) (ht ll) + 1) (max (ht lr) (ht r) + 1) + 1
                    = max (max (max (ht ll) (ht lr) + 1) (ht r)) (ht f.other) + 1 := by omega
                rw [this]; exact p5
              · rw [inorder_rebuild]; simp [inorder]

theorem postRemove_spec (fs : List (Frame κ)) : ∀ (t : Tree κ), Bal t → PathBal fs (ht t + 1) →
    ∃ T, postRemove t fs = some T ∧ Bal T ∧ inorder T = lctx fs ++ inorder t ++ rctx fs := by
  induction fs with
  | nil => intro t hb _; exact ⟨_, rfl, hb, by simp [lctx, rctx]⟩
  | cons f fs ih =>
    intro t hb hp
    obtain ⟨p1, p2, p3, p4, p5⟩ := hp
    cases hL : f.isLeft with
    | true =>
      simp only [hL, if_true] at p2
      simp only [postRemove, hL, if_true, lctx, rctx]
      by_cases c0 : f.bal + 1 = 0
      · rw [if_pos c0]
        obtain ⟨T, t1, t2, t3⟩ := ih (.node t f.n (f.bal + 1) f.other)
          ⟨hb, p1, by omega, by omega, by omega⟩
          (by
            simp only [ht]
            have : max (ht t) (ht f.other) + 1 + 1 = max (ht t + 1) (ht f.other) + 1 := by omega
            rw [this]; exact p5)
        exact ⟨T, t1, t2, by rw [t3]; simp [inorder]⟩
      · rw [if_neg c0]
        by_cases c1 : f.bal + 1 = 1
        · rw [if_pos c1]
          refine ⟨_, rfl, bal_rebuild _ _ ⟨hb, p1, by omega, by omega, by omega⟩ ?_, ?_⟩
          · simp only [ht]
            have : max (ht t) (ht f.other) + 1 = max (ht t + 1) (ht f.other) + 1 := by omega
            rw [this]; exact p5
          · rw [inorder_rebuild]; simp [inorder]
        · rw [if_neg c1]
          have hbal : f.bal = 1 := by omega
          cases ho : f.other with
          | nil => rw [ho] at p2; simp [ht] at p2; omega
          | node ol on ob or =>
            rw [ho] at p1 p2 p5
            obtain ⟨q1, q2, q3, q4, q5⟩ := p1
            simp only [ht] at p2 p5
            simp only [Tree.isNil, Bool.false_eq_true, if_false]
            by_cases c2 : ob = 0
            · rw [if_pos (show (Tree.node ol on ob or).balance = 0 from c2)]
              simp only [rotLeft, Option.map_some]
              refine ⟨_, rfl, bal_rebuild _ _ ?_ ?_, ?_⟩
              · refine ⟨⟨hb, q1, ?_, ?_, ?_⟩, q2, ?_, ?_, ?_⟩ <;> (try simp only [ht]) <;> (repeat (split)) <;> omega
              · simp only [ht]
                have : max (max (ht t) (ht ol) + 1) (ht or) + 1 = max (ht t + 1) (max (ht ol) (ht or) + 1) + 1 := by omega
                rw [this]; exact p5
              · rw [inorder_rebuild]; simp [inorder]
            · rw [if_neg (show ¬ (Tree.node ol on ob or).balance = 0 from c2)]
              by_cases c3 : ob = 1
              · rw [if_pos (show (Tree.node ol on ob or).balance = 1 from c3)]
                simp only [rotLeft, Option.bind_some]
                have key := ih (.node (.node t f.n (if ob > 0 then f.bal + 1 - 1 - ob else f.bal + 1 - 1) ol) on
                  (if (if ob > 0 then f.bal + 1 - 1 - ob else f.bal + 1 - 1) < 0 then ob - 1 + (if ob > 0 then f.bal + 1 - 1 - ob else f.bal + 1 - 1) else ob - 1) or)
                  (by refine ⟨⟨hb, q1, ?_, ?_, ?_⟩, q2, ?_, ?_, ?_⟩ <;> (try simp only [ht]) <;> (repeat (split)) <;> omega)
                  (by
                    simp only [ht]
                    have : max (max (ht t) (ht ol) + 1) (ht or) + 1 + 1 = max (ht t + 1) (max (ht ol) (ht or) + 1) + 1 := by omega
                    rw [this]; exact p5)
                obtain ⟨T, t1, t2, t3⟩ := key
                exact ⟨T, t1, t2, by rw [t3]; simp [inorder]⟩
              · rw [if_neg (show ¬ (Tree.node ol on ob or).balance = 1 from c3)]
                have hob : ob = -1 := by omega
                cases ol with
                | nil => simp [ht] at q3; omega
                | node oll oln olb olr =>
                  obtain ⟨r1, r2, r3, r4, r5⟩ := q1
                  simp only [rotRight, rotLeft, Option.bind_some]
                  simp only [ht] at *
                  generalize hnb : (if olb < 0 then ob + 1 - olb else ob + 1) = nb
                  generalize hlb : (if nb > 0 then olb + 1 + nb else olb + 1) = lb
                  generalize hb2 : (if lb > 0 then f.bal + 1 - 1 - lb else f.bal + 1 - 1) = b2
                  generalize hb3 : (if b2 < 0 then lb - 1 + b2 else lb - 1) = b3
                  have hnb' : nb = ht or - ht olr := by rw [← hnb]; split <;> omega
                  have hb2' : b2 = ht oll - ht t := by rw [← hb2, ← hlb]; repeat (split) <;> omega
                  have hb3' : b3 = 0 := by rw [← hb3, ← hlb]; repeat (split) <;> omega
                  have key := ih (.node (.node t f.n b2 oll) oln b3 (.node olr on nb or))
                    (by refine ⟨⟨hb, r1, ?_, ?_, ?_⟩, ⟨r2, q2, ?_, ?_, ?_⟩, ?_, ?_, ?_⟩ <;> (try simp only [ht]) <;> omega)
                    (by
                      simp only [ht]
                      have : max (max (ht t) (ht oll) + 1) (max (ht olr) (ht or) + 1) + 1 + 1
                          = max (ht t + 1) (max (max (ht oll) (ht olr) + 1) (ht or) + 1) + 1 := by omega
                      rw [this]; exact p5)
                  obtain ⟨T, t1, t2, t3⟩ := key
                  exact ⟨T, t1, t2, by rw [t3]; simp [inorder]⟩
    | false =>
      simp only [hL, Bool.false_eq_true, if_false] at p2
      simp only [postRemove, hL, Bool.false_eq_true, if_false, lctx, rctx]
      by_cases c0 : f.bal - 1 = 0
      · rw [if_pos c0]
        obtain ⟨T, t1, t2, t3⟩ := ih (.node f.other f.n (f.bal - 1) t)
          ⟨p1, hb, by omega, by omega, by omega⟩
          (by
            simp only [ht]
            have : max (ht f.other) (ht t) + 1 + 1 = max (ht t + 1) (ht f.other) + 1 := by omega
            rw [this]; exact p5)
        exact ⟨T, t1, t2, by rw [t3]; simp [inorder]⟩
      · rw [if_neg c0]
        by_cases c1 : f.bal - 1 = -1
        · rw [if_pos c1]
          refine ⟨_, rfl, bal_rebuild _ _ ⟨p1, hb, by omega, by omega, by omega⟩ ?_, ?_⟩
          · simp only [ht]
            have : max (ht f.other) (ht t) + 1 = max (ht t + 1) (ht f.other) + 1 := by omega
            rw [this]; exact p5
          · rw [inorder_rebuild]; simp [inorder]
        · rw [if_neg c1]
          have hbal : f.bal = -1 := by omega
          cases ho : f.other with
          | nil => rw [ho] at p2; simp [ht] at p2; omega
          | node ol on ob or =>
            rw [ho] at p1 p2 p5
            obtain ⟨q1, q2, q3, q4, q5⟩ := p1
            simp only [ht] at p2 p5
            simp only [Tree.isNil, Bool.false_eq_true, if_false]
            by_cases c2 : ob = 0
            · rw [if_pos (show (Tree.node ol on ob or).balance = 0 from c2)]
              simp only [rotRight, Option.map_some]
              refine ⟨_, rfl, bal_rebuild _ _ ?_ ?_, ?_⟩
              · refine ⟨q1, ⟨q2, hb, ?_, ?_, ?_⟩, ?_, ?_, ?_⟩ <;> (try simp only [ht]) <;> (repeat (split)) <;> omega
              · simp only [ht]
                have : max (ht ol) (max (ht or) (ht t) + 1) + 1 = max (ht t + 1) (max (ht ol) (ht or) + 1) + 1 := by omega
                rw [this]; exact p5
              · rw [inorder_rebuild]; simp [inorder]
            · rw [if_neg (show ¬ (Tree.node ol on ob or).balance = 0 from c2)]
              by_cases c3 : ob = -1
              · rw [if_pos (show (Tree.node ol on ob or).balance = -1 from c3)]
                simp only [rotRight, Option.bind_some]
                generalize hnb : (if ob < 0 then f.bal - 1 + 1 - ob else f.bal - 1 + 1) = nb
                generalize hlb : (if nb > 0 then ob + 1 + nb else ob + 1) = lb
                have key := ih (.node ol on lb (.node or f.n nb t))
                  (by refine ⟨q1, ⟨q2, hb, ?_, ?_, ?_⟩, ?_, ?_, ?_⟩ <;> (try simp only [ht]) <;> (try rw [← hlb]) <;> (try rw [← hnb]) <;> (repeat (split)) <;> omega)
                  (by
                    simp only [ht]
                    have : max (ht ol) (max (ht or) (ht t) + 1) + 1 + 1 = max (ht t + 1) (max (ht ol) (ht or) + 1) + 1 := by omega
                    rw [this]; exact p5)
                obtain ⟨T, t1, t2, t3⟩ := key
                exact ⟨T, t1, t2, by rw [t3]; simp [inorder]⟩
              · rw [if_neg (show ¬ (Tree.node ol on ob or).balance = -1 from c3)]
                have hob : ob = 1 := by omega
                cases or with
                | nil => simp [ht] at q3; omega
                | node orl orn orb orr =>
                  obtain ⟨r1, r2, r3, r4, r5⟩ := q2
                  simp only [rotRight, rotLeft, Option.bind_some]
                  simp only [ht] at *
                  generalize hnb : (if orb > 0 then ob - 1 - orb else ob - 1) = nb
                  generalize hlb : (if nb < 0 then orb - 1 + nb else orb - 1) = lb
                  generalize hb2 : (if lb < 0 then f.bal - 1 + 1 - lb else f.bal - 1 + 1) = b2
                  generalize hb3 : (if b2 > 0 then lb + 1 + b2 else lb + 1) = b3
                  have hnb' : nb = ht orl - ht ol := by rw [← hnb]; split <;> omega
                  have hb2' : b2 = ht t - ht orr := by rw [← hb2, ← hlb]; repeat (split) <;> omega
                  have hb3' : b3 = 0 := by rw [← hb3, ← hlb]; repeat (split) <;> omega
                  have key := ih (.node (.node ol on nb orl) orn b3 (.node orr f.n b2 t))
                    (by refine ⟨⟨q1, r1, ?_, ?_, ?_⟩, ⟨r2, hb, ?_, ?_, ?_⟩, ?_, ?_, ?_⟩ <;> (try simp only [ht]) <;> omega)
                    (by
                      simp only [ht]
                      have : max (max (ht ol) (ht orl) + 1) (max (ht orr) (ht t) + 1) + 1 + 1
                          = max (ht t + 1) (max (ht ol) (max (ht orl) (ht orr) + 1) + 1) + 1 := by omega
                      rw [this]; exact p5)
                  obtain ⟨T, t1, t2, t3⟩ := key
                  exact ⟨T, t1, t2, by rw [t3]; simp [inorder]⟩

end Verif.Avl
