import Verif.Avl.Refine
/-
Properties C23, C24 and C25: the tree of `src/libcommon/avl.c` is an ordered map (or multimap), stays
balanced and answers range lookups.  The quantification over histories is `Run` (Spec.lean).
-/
namespace Verif.Avl
variable {κ : Type}

/-- key comparison of `avl_comp_uint32`, used in the examples -/
def natComp (a b : Nat) : Int := if a > b then 1 else if b > a then -1 else 0

theorem natComp_order : Order natComp := by
  refine ⟨?_, ?_, ?_⟩ <;> intros <;> unfold natComp at * <;> grind

theorem Run.inv {comp : κ → κ → Int} (o : Order comp) {dups : Bool} {a : Avl κ} {s : List (Nd κ)} (h : Run comp dups a s) :
    ∃ gs, Inv comp a gs ∧ a.dups = dups ∧ (nds gs).Perm s := by
  induction h with
  | init => exact ⟨[], Inv.init comp dups, rfl, List.Perm.refl _⟩
  | @insert a s a' new _ fresh hi ih =>
    obtain ⟨gs, inv, hd, hp⟩ := ih
    rcases inv.insert o new (fun m hm => fresh m (hp.mem_iff.1 hm)) with ⟨h1, _⟩ | ⟨a2, gs', h1, h2, h3, ⟨P, Q, h4, h5⟩, _⟩
    · rw [h1] at hi; simp at hi
    · rw [h1] at hi
      obtain rfl := Res.ok.inj hi
      refine ⟨gs', h2, h3.trans hd, ?_⟩
      rw [h5]
      exact List.perm_middle.trans (List.Perm.cons _ (h4 ▸ hp))
  | @remove a a' s₁ n s₂ _ hr ih =>
    obtain ⟨gs, inv, hd, hp⟩ := ih
    obtain ⟨a2, gs', h1, h2, h3, P, Q, h4, h5⟩ := inv.remove o n (hp.mem_iff.2 (by simp))
    rw [h1] at hr
    obtain rfl := Res.ok.inj hr
    refine ⟨gs', h2, h3.trans hd, ?_⟩
    rw [h5]
    rw [h4] at hp
    exact (List.Perm.cons_inv (List.perm_middle.symm.trans (hp.trans List.perm_middle)))

/-- C23: at any time the iteration over the linked list visits exactly the nodes inserted and not yet
removed, in ascending order of their keys (so equal keys are adjacent), strictly ascending if
duplicates are not allowed, and `count` is their number (as a 32 bit number). -/
theorem C23_contents {comp : κ → κ → Int} (o : Order comp) {dups : Bool} {a : Avl κ} {s : List (Nd κ)}
    (h : Run comp dups a s) :
    (a.list.map (·.nd)).Perm s ∧
    (a.list.map (·.nd)).Pairwise (fun x y => comp x.key y.key ≤ 0) ∧
    (dups = false → (a.list.map (·.nd)).Pairwise (fun x y => comp x.key y.key < 0)) ∧
    a.count = s.length % 2 ^ 32 := by
  obtain ⟨gs, inv, hd, hp⟩ := h.inv o
  rw [inv.list, flat_map_nd]
  refine ⟨hp, inv.sorted_nds o, ?_, by rw [inv.count, hp.length_eq]⟩
  intro hf
  have : nds gs = gs.map (·.1) := by
    have := inv.nodups (hd.trans hf)
    clear inv hp
    induction gs with
    | nil => rfl
    | cons g gs ih => rw [nds_cons, this g (by simp), ih (fun g' hg' => this g' (by simp [hg']))]; simp
  rw [this]
  exact inv.sorted

/-- C23: inserting a node that is not in the tree is refused exactly if duplicates are not allowed and
an equal key is present; otherwise it succeeds.  It never runs into a NULL pointer. -/
theorem C23_insert {comp : κ → κ → Int} (o : Order comp) {dups : Bool} {a : Avl κ} {s : List (Nd κ)}
    (h : Run comp dups a s) (new : Nd κ) (fresh : ∀ m ∈ s, m.id ≠ new.id) :
    (dups = false ∧ (∃ m ∈ s, comp new.key m.key = 0) → insert comp a new = .exists_) ∧
    (¬ (dups = false ∧ ∃ m ∈ s, comp new.key m.key = 0) → ∃ a', insert comp a new = .ok a' ∧ Run comp dups a' (new :: s)) := by
  obtain ⟨gs, inv, hd, hp⟩ := h.inv o
  rcases inv.insert o new (fun m hm => fresh m (hp.mem_iff.1 hm)) with ⟨h1, h2, m, hm, he⟩ | ⟨a2, gs', h1, h2, h3, h4, h5⟩
  · exact ⟨fun _ => h1, fun hn => absurd ⟨hd ▸ h2, m, hp.mem_iff.1 hm, he⟩ hn⟩
  · refine ⟨fun ⟨hf, m, hm, he⟩ => absurd he (h5 (hd.trans hf) m (hp.mem_iff.2 hm)), fun _ => ⟨a2, h1, .insert new h fresh h1⟩⟩

/-- C23: a node that is in the tree can be removed; exactly this node is gone afterwards. -/
theorem C23_remove {comp : κ → κ → Int} (o : Order comp) {dups : Bool} {a : Avl κ} {s₁ s₂ : List (Nd κ)} (n : Nd κ)
    (h : Run comp dups a (s₁ ++ n :: s₂)) :
    ∃ a', remove a n.id = .ok a' ∧ Run comp dups a' (s₁ ++ s₂) ∧ (a'.list.map (·.nd)).Perm (s₁ ++ s₂) := by
  obtain ⟨gs, inv, hd, hp⟩ := h.inv o
  obtain ⟨a2, gs', h1, _⟩ := inv.remove o n (hp.mem_iff.2 (by simp))
  have hr := Run.remove s₁ n s₂ h h1
  exact ⟨a2, h1, hr, (C23_contents o hr).1⟩

/-- C23: `avl_find` finds a node with the key if there is one (the first one in the iteration order) and
nothing otherwise. -/
theorem C23_find {comp : κ → κ → Int} (o : Order comp) {dups : Bool} {a : Avl κ} {s : List (Nd κ)}
    (h : Run comp dups a s) (key : κ) :
    match find comp a key with
    | none => ∀ m ∈ s, comp key m.key ≠ 0
    | some n => n ∈ s ∧ comp key n.key = 0 ∧
        ∃ before after, a.list.map (·.nd) = before ++ n :: after ∧ ∀ m ∈ before, comp key m.key ≠ 0 := by
  obtain ⟨gs, inv, hd, hp⟩ := h.inv o
  unfold find
  cases hf : findRec comp key a.root [] with
  | none =>
    have hr := (findRec_none comp key a.root []).1 hf
    have hg : gs = [] := by
      have := inv.tree; rw [hr] at this; simpa [inorder] using this.symm
    subst hg
    intro m hm
    have := hp.mem_iff.2 hm
    simp at this
  | some F =>
    obtain ⟨A, fl, B, rfl, hdiff, hne⟩ := inv.find_some o key F hf
    simp only
    by_cases h0 : F.diff = 0
    · rw [if_pos h0]
      have hmem : F.n ∈ nds (A ++ (F.n, fl) :: B) := by simp [nds_append, nds_cons]
      refine ⟨hp.mem_iff.1 hmem, by omega, nds A, fl ++ nds B, ?_, ?_⟩
      · rw [inv.list, flat_map_nd]; simp [nds_append, nds_cons]
      · intro m hm he
        obtain ⟨g, hg, hm⟩ := List.mem_flatMap.1 hm
        have hs := inv.sorted
        rw [SSorted, List.map_append, List.map_cons, List.pairwise_append] at hs
        have h1 := hs.2.2 g.1 (List.mem_map_of_mem hg) F.n (by simp)
        have h2 : comp m.key g.1.key = 0 := by
          rcases List.mem_cons.1 hm with rfl | hm
          · exact o.refl _
          · exact inv.same g (by simp [hg]) m hm
        have h3 := o.lt_of_le_lt (show comp m.key g.1.key ≤ 0 by omega) h1
        have h4 := o.lt_of_le_lt (show comp key m.key ≤ 0 by omega) h3
        omega
    · rw [if_neg h0]
      exact fun m hm => hne h0 m (hp.mem_iff.2 hm)

/-- the hypotheses are met: five insertions (one duplicate) and a removal, with rotations -/
example : ∃ a : Avl Nat, Run natComp true a [⟨5, 2⟩, ⟨3, 3⟩, ⟨2, 2⟩, ⟨1, 1⟩] ∧
    a.list.map (·.nd.id) = [1, 2, 5, 3] ∧ (find natComp a 2).map (·.id) = some 2 := by
  refine ⟨_, Run.remove [⟨5, 2⟩] ⟨4, 4⟩ [⟨3, 3⟩, ⟨2, 2⟩, ⟨1, 1⟩]
    (Run.insert ⟨5, 2⟩ (Run.insert ⟨4, 4⟩ (Run.insert ⟨3, 3⟩ (Run.insert ⟨2, 2⟩ (Run.insert ⟨1, 1⟩ Run.init ?_ rfl) ?_ rfl) ?_ rfl) ?_ rfl) ?_ rfl) rfl, ?_, ?_⟩
  all_goals first | decide | rfl

/-! ### balance -/

theorem bal_size (t : Tree κ) (h : Bal t) : ∀ k, 2 * k ≤ ht t → 2 ^ k ≤ (inorder t).length + 1 := by
  induction t with
  | nil =>
    intro k hk
    have h0 : ht (Tree.nil : Tree κ) = 0 := rfl
    have : k = 0 := by omega
    subst this; simp
  | node l n b r ihl ihr =>
    intro k hk
    obtain ⟨h1, h2, h3, h4, h5⟩ := h
    simp only [ht] at hk
    cases k with
    | zero => simp
    | succ k =>
      have a1 := ihl h1 k (by omega)
      have a2 := ihr h2 k (by omega)
      simp only [inorder, List.length_append, List.length_cons]
      rw [Nat.pow_succ]
      omega

theorem path_height : ∀ (path : List (Frame κ)) (t : Tree κ),
    path.length + ht t ≤ ht (rebuild path t) := by
  intro path
  induction path with
  | nil => intro t; simp [rebuild]
  | cons f fs ih =>
    intro t
    rw [rebuild]
    have := ih (f.fill t)
    have h2 : ht t + 1 ≤ ht (f.fill t) := by
      unfold Frame.fill
      split <;> simp only [ht] <;> omega
    simp only [List.length_cons]; omega

/-- C24: in every reachable state each balance field is the height difference of the two subtrees and
-1, 0 or 1 (`Bal`). -/
theorem C24_balanced {comp : κ → κ → Int} (o : Order comp) {dups : Bool} {a : Avl κ} {s : List (Nd κ)}
    (h : Run comp dups a s) : Bal a.root := by
  obtain ⟨gs, inv, _⟩ := h.inv o
  exact inv.bal

/-- C24: lookup depth is logarithmic: if a lookup compares the key with `c` nodes (the node it ends at
and all its parents), then 2^(c/2) is at most the number of elements plus one. -/
theorem C24_depth {comp : κ → κ → Int} (o : Order comp) {dups : Bool} {a : Avl κ} {s : List (Nd κ)}
    (h : Run comp dups a s) (key : κ) (F : Found κ) (hf : findRec comp key a.root [] = some F) :
    2 ^ ((F.path.length + 1) / 2) ≤ s.length + 1 := by
  obtain ⟨gs, inv, _, hp⟩ := h.inv o
  obtain ⟨f1, _⟩ := findRec_spec o key a.root [] F hf (by simp [lctx]) (by simp [rctx]) (by rw [inv.tree]; exact inv.sorted)
  simp only [rebuild] at f1
  have h1 := path_height F.path (.node F.l F.n F.bal F.r)
  rw [f1] at h1
  simp only [ht] at h1
  have h2 := bal_size a.root inv.bal ((F.path.length + 1) / 2) (by omega)
  have h3 : (inorder a.root).length ≤ s.length := by
    rw [inv.tree, ← hp.length_eq]
    clear h1 h2 f1 hp inv
    induction gs with
    | nil => simp
    | cons g gs ih => rw [nds_cons]; simp at ih ⊢; omega
  omega

example : ∃ a : Avl Nat, Run natComp false a [⟨3, 3⟩, ⟨2, 2⟩, ⟨1, 1⟩] ∧
    a.root = .node (.node .nil ⟨1, 1⟩ 0 .nil) ⟨2, 2⟩ 0 (.node .nil ⟨3, 3⟩ 0 .nil) := by
  refine ⟨_, Run.insert ⟨3, 3⟩ (Run.insert ⟨2, 2⟩ (Run.insert ⟨1, 1⟩ Run.init ?_ rfl) ?_ rfl) ?_ rfl, ?_⟩
  all_goals first | decide | rfl

/-! ### range lookup -/

/-- C25: `avl_find_lessequal` returns the last node in the iteration order whose key is not above the
query, so its key is the greatest such key; nothing if there is none. -/
theorem C25_lessequal {comp : κ → κ → Int} (o : Order comp) {dups : Bool} {a : Avl κ} {s : List (Nd κ)}
    (h : Run comp dups a s) (key : κ) :
    match findLessEqual comp a key with
    | none => ∀ m ∈ s, 0 < comp m.key key
    | some n => n ∈ s ∧ comp n.key key ≤ 0 ∧ (∀ m ∈ s, comp m.key key ≤ 0 → comp m.key n.key ≤ 0) ∧
        ∃ before after, a.list.map (·.nd) = before ++ n :: after ∧ ∀ m ∈ after, 0 < comp m.key key := by
  obtain ⟨gs, inv, hd, hp⟩ := h.inv o
  have hso := inv.sorted_nds o
  unfold findLessEqual
  cases hf : findRec comp key a.root [] with
  | none =>
    have hr := (findRec_none comp key a.root []).1 hf
    have hg : gs = [] := by
      have := inv.tree; rw [hr] at this; simpa [inorder] using this.symm
    subst hg
    intro m hm
    have := hp.mem_iff.2 hm
    simp at this
  | some F =>
    obtain ⟨A, fl, B, hgs, -, -⟩ := inv.find_some o key F hf
    have hA : ∀ m ∈ flat A, m.nd.id ≠ F.n.id := by
      intro m hm
      have h1 : m.nd ∈ nds A := by rw [← flat_map_nd]; exact List.mem_map_of_mem hm
      have hids := inv.ids
      rw [hgs, nds_append, nds_cons, List.map_append, List.nodup_append] at hids
      exact hids.2.2 _ (List.mem_map_of_mem h1) _ (by simp)
    have hl : a.list = flat A ++ ⟨F.n, false⟩ :: (fl.map (⟨·, true⟩) ++ flat B) := by rw [inv.list, hgs]; simp [groupList]
    have hs : (a.list.map (·.nd)).Pairwise (fun x y => comp x.key y.key ≤ 0) := by rw [inv.list, flat_map_nd]; exact hso
    have hpl : (a.list.map (·.nd)).Perm s := by rw [inv.list, flat_map_nd]; exact hp
    simp only
    have hloc : locateList F.n.id [] a.list = some ⟨(flat A).reverse ++ [], ⟨F.n, false⟩, fl.map (⟨·, true⟩) ++ flat B⟩ := by
      rw [hl]; exact locateList_at _ _ _ _ hA rfl []
    rw [hloc]
    simp only [List.append_nil]
    obtain ⟨l1, l2⟩ := leLeft_spec comp key (flat A).reverse ⟨F.n, false⟩ (fl.map (⟨·, true⟩) ++ flat B)
    cases hle : leLeft comp key (flat A).reverse ⟨F.n, false⟩ (fl.map (⟨·, true⟩) ++ flat B) with
    | none =>
      intro m hm
      have hm' := hpl.mem_iff.2 hm
      have h1 := l1 hle
      rw [hl] at hm' hs
      simp only [List.map_append, List.map_cons] at hm' hs
      rw [List.pairwise_append, List.pairwise_cons] at hs
      simp only [List.mem_append, List.mem_cons] at hm'
      apply (o.swap _ _).1
      rcases hm' with hm' | rfl | hm'
      · obtain ⟨e, he, rfl⟩ := List.mem_map.1 hm'
        exact h1 e (by simp [he])
      · exact h1 ⟨F.n, false⟩ (by simp)
      · have h2 := hs.2.1.1 m (by simpa using hm')
        exact o.lt_of_lt_le (h1 ⟨F.n, false⟩ (by simp)) h2
    | some p =>
      obtain ⟨p1, p2⟩ := l2 p hle
      obtain ⟨P, Q, q1, q2, q3⟩ := leRight_spec comp key p.after p.cur p1
      simp only
      generalize leRight comp key p.cur p.after = e at q1 q2 q3
      have hL : a.list = (p.before.reverse ++ P) ++ e :: Q := by
        rw [hl, List.append_assoc, ← q1, p2]; simp
      rw [hL] at hs hpl
      simp only [List.map_append, List.map_cons] at hs hpl
      have hQ : ∀ m ∈ Q.map (·.nd), comp key m.key < 0 := by
        cases Q with
        | nil => simp
        | cons x Q =>
          have hx := q3 x (by simp)
          intro m hm
          rw [List.pairwise_append, List.pairwise_cons, List.map_cons, List.pairwise_cons] at hs
          rw [List.map_cons] at hm
          rcases List.mem_cons.1 hm with rfl | hm
          · exact hx
          · exact o.lt_of_lt_le hx (hs.2.1.2.1 m hm)
      refine ⟨hpl.mem_iff.1 (by simp), o.le_swap.1 q2, ?_, (p.before.reverse ++ P).map (·.nd), Q.map (·.nd), ?_, ?_⟩
      · intro m hm hle'
        have hm' := hpl.mem_iff.2 hm
        rw [List.pairwise_append] at hs
        rw [List.mem_append, List.mem_cons] at hm'
        rcases hm' with hm' | rfl | hm'
        · exact hs.2.2 m hm' e.nd (by simp)
        · have := o.refl e.nd.key; omega
        · have h1 := (o.swap key m.key).1 (hQ m hm'); omega
      · rw [hL]; simp
      · intro m hm
        exact (o.swap key m.key).1 (hQ m hm)

/-- C25: `avl_find_greaterequal` returns the first node in the iteration order whose key is not below
the query, so its key is the smallest such key; nothing if there is none. -/
theorem C25_greaterequal {comp : κ → κ → Int} (o : Order comp) {dups : Bool} {a : Avl κ} {s : List (Nd κ)}
    (h : Run comp dups a s) (key : κ) :
    match findGreaterEqual comp a key with
    | none => ∀ m ∈ s, comp m.key key < 0
    | some n => n ∈ s ∧ 0 ≤ comp n.key key ∧ (∀ m ∈ s, 0 ≤ comp m.key key → comp n.key m.key ≤ 0) ∧
        ∃ before after, a.list.map (·.nd) = before ++ n :: after ∧ ∀ m ∈ before, comp m.key key < 0 := by
  obtain ⟨gs, inv, hd, hp⟩ := h.inv o
  have hso := inv.sorted_nds o
  unfold findGreaterEqual
  cases hf : findRec comp key a.root [] with
  | none =>
    have hr := (findRec_none comp key a.root []).1 hf
    have hg : gs = [] := by
      have := inv.tree; rw [hr] at this; simpa [inorder] using this.symm
    subst hg
    intro m hm
    have := hp.mem_iff.2 hm
    simp at this
  | some F =>
    obtain ⟨A, fl, B, hgs, -, -⟩ := inv.find_some o key F hf
    have hA : ∀ m ∈ flat A, m.nd.id ≠ F.n.id := by
      intro m hm
      have h1 : m.nd ∈ nds A := by rw [← flat_map_nd]; exact List.mem_map_of_mem hm
      have hids := inv.ids
      rw [hgs, nds_append, nds_cons, List.map_append, List.nodup_append] at hids
      exact hids.2.2 _ (List.mem_map_of_mem h1) _ (by simp)
    have hl : a.list = flat A ++ ⟨F.n, false⟩ :: (fl.map (⟨·, true⟩) ++ flat B) := by rw [inv.list, hgs]; simp [groupList]
    have hs : (a.list.map (·.nd)).Pairwise (fun x y => comp x.key y.key ≤ 0) := by rw [inv.list, flat_map_nd]; exact hso
    have hpl : (a.list.map (·.nd)).Perm s := by rw [inv.list, flat_map_nd]; exact hp
    simp only
    have hloc : locateList F.n.id [] a.list = some ⟨(flat A).reverse ++ [], ⟨F.n, false⟩, fl.map (⟨·, true⟩) ++ flat B⟩ := by
      rw [hl]; exact locateList_at _ _ _ _ hA rfl []
    rw [hloc]
    simp only [List.append_nil]
    obtain ⟨l1, l2⟩ := geRight_spec comp key (fl.map (⟨·, true⟩) ++ flat B) (flat A).reverse ⟨F.n, false⟩
    cases hge : geRight comp key (flat A).reverse ⟨F.n, false⟩ (fl.map (⟨·, true⟩) ++ flat B) with
    | none =>
      intro m hm
      have hm' := hpl.mem_iff.2 hm
      have h1 := l1 hge
      have h0 := h1 ⟨F.n, false⟩ (by simp)
      simp only at h0
      rw [hl] at hm' hs
      simp only [List.map_append, List.map_cons] at hm' hs
      rw [List.pairwise_append, List.pairwise_cons] at hs
      simp only [List.mem_append, List.mem_cons] at hm'
      rcases hm' with hm' | rfl | hm'
      · have h2 := hs.2.2 m hm' F.n (by simp)
        exact o.lt_of_le_lt h2 ((o.swap _ _).2 h0)
      · exact (o.swap _ _).2 h0
      · rw [← List.mem_append, ← List.map_append] at hm'
        obtain ⟨e, he, rfl⟩ := List.mem_map.1 hm'
        exact (o.swap _ _).2 (h1 e (List.mem_cons_of_mem _ he))
    | some p =>
      obtain ⟨p1, p2⟩ := l2 p hge
      obtain ⟨P, Q, q1, q2, q3⟩ := geLeft_spec comp key p.before p.cur p1
      simp only
      generalize geLeft comp key p.cur p.before = e at q1 q2 q3
      have hL : a.list = P ++ e :: (Q ++ p.after) := by
        have : p.before.reverse ++ p.cur :: p.after = (p.before.reverse ++ [p.cur]) ++ p.after := by simp
        rw [hl]
        rw [this, q1] at p2
        simp only [List.reverse_reverse] at p2
        rw [← p2]; simp
      rw [hL] at hs hpl
      simp only [List.map_append, List.map_cons] at hs hpl
      have hP : ∀ m ∈ P.map (·.nd), 0 < comp key m.key := by
        by_cases hP0 : P = []
        · subst hP0; simp
        · obtain ⟨P', x, rfl⟩ : ∃ P' x, P = P' ++ [x] := ⟨P.dropLast, P.getLast hP0, (List.dropLast_concat_getLast hP0).symm⟩
          have hx := q3 x (by simp)
          intro m hm
          rw [List.pairwise_append, List.map_append, List.pairwise_append] at hs
          simp only [List.map_append, List.map_cons, List.map_nil, List.mem_append, List.mem_singleton] at hm
          rcases hm with hm | rfl
          · have h2 := hs.1.2.2 m hm x.nd (by simp)
            exact (o.swap _ _).1 (o.lt_of_le_lt h2 ((o.swap _ _).2 hx))
          · exact hx
      refine ⟨hpl.mem_iff.1 (by simp), o.le_swap.2 q2, ?_, P.map (·.nd), (Q ++ p.after).map (·.nd), ?_, ?_⟩
      · intro m hm hle'
        have hm' := hpl.mem_iff.2 hm
        rw [List.pairwise_append, List.pairwise_cons] at hs
        rw [List.mem_append, List.mem_cons] at hm'
        rcases hm' with hm' | rfl | hm'
        · have := (o.swap m.key key).2 (hP m hm'); omega
        · have := o.refl e.nd.key; omega
        · exact hs.2.1.1 m hm'
      · rw [hL]; simp
      · intro m hm
        exact (o.swap m.key key).2 (hP m hm)

example : ∃ a : Avl Nat, Run natComp true a [⟨4, 20⟩, ⟨3, 30⟩, ⟨2, 20⟩, ⟨1, 10⟩] ∧
    (findLessEqual natComp a 25).map (·.id) = some 4 ∧ (findGreaterEqual natComp a 11).map (·.id) = some 2 ∧
    findLessEqual natComp a 9 = none ∧ findGreaterEqual natComp a 31 = none := by
  refine ⟨_, Run.insert ⟨4, 20⟩ (Run.insert ⟨3, 30⟩ (Run.insert ⟨2, 20⟩ (Run.insert ⟨1, 10⟩ Run.init ?_ rfl) ?_ rfl) ?_ rfl) ?_ rfl, ?_, ?_, ?_, ?_⟩
  all_goals first | decide | rfl

end Verif.Avl
