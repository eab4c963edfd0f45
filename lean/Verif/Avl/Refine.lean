import Verif.Avl.Lemmas
/-
The tree and the linked list as a sequence of groups of equal keys: invariant of all operations.
-/
namespace Verif.Avl
variable {κ : Type}

/-! ### order -/

theorem Order.lt_of_lt_le {comp : κ → κ → Int} (o : Order comp) {a b c} (h1 : comp a b < 0) (h2 : comp b c ≤ 0) :
    comp a c < 0 := by
  apply Decidable.byContradiction
  intro h
  have h3 : comp c a ≤ 0 := by
    have := o.swap a c; have := o.swap c a
    by_cases hc : 0 < comp c a
    · have := (o.swap a c).2 hc; omega
    · omega
  have h4 := o.trans b c a h2 h3
  have h5 := (o.swap a b).1 h1
  omega

theorem Order.lt_of_le_lt {comp : κ → κ → Int} (o : Order comp) {a b c} (h1 : comp a b ≤ 0) (h2 : comp b c < 0) :
    comp a c < 0 := by
  apply Decidable.byContradiction
  intro h
  have h3 : comp c a ≤ 0 := by
    by_cases hc : 0 < comp c a
    · have := (o.swap a c).2 hc; omega
    · omega
  have h4 := o.trans c a b h3 h1
  have h5 := (o.swap b c).1 h2
  omega

theorem Order.zero_swap {comp : κ → κ → Int} (o : Order comp) {a b} (h : comp a b = 0) : comp b a = 0 := by
  have h1 := o.swap a b; have h2 := o.swap b a
  omega

theorem Order.le_swap {comp : κ → κ → Int} (o : Order comp) {a b} : 0 ≤ comp a b ↔ comp b a ≤ 0 := by
  have h1 := o.swap a b; have h2 := o.swap b a
  omega

/-! ### frames -/

theorem bal_rebuild_inv (fs : List (Frame κ)) : ∀ t, Bal (rebuild fs t) → Bal t ∧ PathBal fs (ht t) := by
  induction fs with
  | nil => intro t h; exact ⟨h, trivial⟩
  | cons f fs ih =>
    intro t h
    rw [rebuild] at h
    obtain ⟨h1, h2⟩ := ih _ h
    unfold Frame.fill at h1 h2
    cases hl : f.isLeft <;> simp only [hl, Bool.false_eq_true, if_true, if_false, ht] at h1 h2
    · obtain ⟨a, b, c, d, e⟩ := h1
      refine ⟨b, a, ?_, d, e, ?_⟩
      · simp only [hl, Bool.false_eq_true, if_false]; exact c
      · rw [Nat.max_comm]; exact h2
    · obtain ⟨a, b, c, d, e⟩ := h1
      refine ⟨a, b, ?_, d, e, h2⟩
      simp only [hl, if_true]; exact c

theorem isNil_iff {t : Tree κ} : t.isNil = true ↔ t = .nil := by cases t <;> simp [Tree.isNil]

theorem isNil_false {t : Tree κ} : t.isNil = false ↔ t ≠ .nil := by cases t <;> simp [Tree.isNil]

/-- strictly increasing keys -/
def SSorted (comp : κ → κ → Int) (l : List (Nd κ)) : Prop := l.Pairwise (fun x y => comp x.key y.key < 0)

theorem findRec_none (comp : κ → κ → Int) (key : κ) : ∀ (t : Tree κ) path, findRec comp key t path = none ↔ t = .nil := by
  intro t
  induction t with
  | nil => intro path; simp [findRec]
  | node l n b r ihl ihr =>
    intro path
    simp only [reduceCtorEq, iff_false]
    rw [findRec]
    split
    · split
      · rename_i h; rw [ihl]; exact isNil_false.1 (by simpa using h)
      · simp
    · split
      · split
        · rename_i h; rw [ihr]; exact isNil_false.1 (by simpa using h)
        · simp
      · simp

theorem findRec_spec {comp : κ → κ → Int} (o : Order comp) (key : κ) : ∀ (t : Tree κ) path F,
    findRec comp key t path = some F →
    (∀ m ∈ lctx path, 0 < comp key m.key) → (∀ m ∈ rctx path, comp key m.key < 0) → SSorted comp (inorder t) →
    rebuild F.path (.node F.l F.n F.bal F.r) = rebuild path t ∧ F.diff = comp key F.n.key ∧
    (F.diff < 0 → F.l = .nil) ∧ (0 < F.diff → F.r = .nil) ∧
    (∀ m ∈ lctx F.path, 0 < comp key m.key) ∧ (∀ m ∈ rctx F.path, comp key m.key < 0) := by
  intro t
  induction t with
  | nil => intro path F h; simp [findRec] at h
  | node l n b r ihl ihr =>
    intro path F h hlo hhi hs
    obtain ⟨s1, s2, s3⟩ := List.pairwise_append.1 hs
    obtain ⟨s4, s5⟩ := List.pairwise_cons.1 s2
    rw [findRec] at h
    split at h
    · rename_i hd
      split at h
      · have := ihl _ _ h (by simpa [lctx] using hlo) (by
          intro m hm
          simp only [rctx, if_true, List.cons_append, List.mem_cons, List.mem_append] at hm
          rcases hm with rfl | hm | hm
          · exact hd
          · exact o.lt_of_lt_le hd (by have := s4 m hm; omega)
          · exact hhi m hm) s1
        obtain ⟨h1, h2⟩ := this
        exact ⟨by rw [h1]; simp [rebuild, Frame.fill], h2⟩
      · rename_i hn
        obtain rfl := Option.some.inj h
        have : l = .nil := isNil_iff.1 (by simpa using hn)
        exact ⟨rfl, rfl, fun _ => this, fun h => by simp only at h; omega, hlo, hhi⟩
    · rename_i hd
      split at h
      · rename_i hd2
        split at h
        · have := ihr _ _ h (by
            intro m hm
            simp only [lctx, Bool.false_eq_true, if_false, List.mem_append, List.mem_singleton] at hm
            rcases hm with hm | hm | rfl
            · exact hlo m hm
            · have h1 := s3 m hm n (by simp)
              have h2 := (o.swap n.key key).2 hd2
              exact (o.swap m.key key).1 (o.lt_of_lt_le h1 (by omega))
            · exact hd2) (by simpa [rctx] using hhi) s5
          obtain ⟨h1, h2⟩ := this
          exact ⟨by rw [h1]; simp [rebuild, Frame.fill], h2⟩
        · rename_i hn
          obtain rfl := Option.some.inj h
          have : r = .nil := isNil_iff.1 (by simpa using hn)
          exact ⟨rfl, rfl, fun h => by simp only at h; omega, fun _ => this, hlo, hhi⟩
      · obtain rfl := Option.some.inj h
        exact ⟨rfl, rfl, fun h => by simp only at h; omega, fun h => by simp only at h; omega, hlo, hhi⟩

theorem locateTree_spec (id : Nat) : ∀ (t : Tree κ) path,
    (∀ F, locateTree id t path = some F → F.n.id = id ∧ rebuild F.path (.node F.l F.n F.bal F.r) = rebuild path t) ∧
    (locateTree id t path = none → ∀ m ∈ inorder t, m.id ≠ id) := by
  intro t
  induction t with
  | nil => intro path; simp [locateTree, inorder]
  | node l n b r ihl ihr =>
    intro path
    rw [locateTree]
    split
    · rename_i hn
      constructor
      · intro F h; obtain rfl := Option.some.inj h; exact ⟨hn, rfl⟩
      · simp
    · rename_i hn
      obtain ⟨l1, l2⟩ := ihl (⟨true, n, b, r⟩ :: path)
      obtain ⟨r1, r2⟩ := ihr (⟨false, n, b, l⟩ :: path)
      cases hl : locateTree id l (⟨true, n, b, r⟩ :: path) with
      | some F' =>
        obtain ⟨a, b⟩ := l1 _ hl
        constructor
        · intro F h; obtain rfl := Option.some.inj h; exact ⟨a, by rw [b]; simp [rebuild, Frame.fill]⟩
        · simp
      | none =>
        constructor
        · intro F h
          obtain ⟨a, b⟩ := r1 _ h
          exact ⟨a, by rw [b]; simp [rebuild, Frame.fill]⟩
        · intro h m hm
          simp only [inorder, List.mem_append, List.mem_cons] at hm
          rcases hm with hm | rfl | hm
          · exact l2 hl m hm
          · exact hn
          · exact r2 h m hm

theorem localMin_spec : ∀ (t : Tree κ) path, t ≠ .nil → ∃ m, localMin t path = some m ∧ m.l = .nil ∧
    rebuild m.path (.node .nil m.n m.bal m.r) = rebuild path t ∧ lctx m.path = lctx path := by
  intro t
  induction t with
  | nil => intro path h; exact absurd rfl h
  | node l n b r ihl ihr =>
    intro path _
    rw [localMin]
    cases hl : l.isNil with
    | true =>
      obtain rfl := isNil_iff.1 hl
      exact ⟨_, rfl, rfl, rfl, rfl⟩
    | false =>
      obtain ⟨m, h1, h2, h3, h4⟩ := ihl (⟨true, n, b, r⟩ :: path) (isNil_false.1 hl)
      exact ⟨m, by simpa using h1, h2, by rw [h3]; simp [rebuild, Frame.fill], by rw [h4]; simp [lctx]⟩

theorem replace_inorder (id : Nat) (new : Nd κ) (t : Tree κ) :
    inorder (replace id new t) = (inorder t).map (fun n => if n.id = id then new else n) := by
  induction t with
  | nil => rfl
  | node l n b r ihl ihr => simp [replace, inorder, ihl, ihr]

theorem replace_ht (id : Nat) (new : Nd κ) (t : Tree κ) : ht (replace id new t) = ht t := by
  induction t with
  | nil => rfl
  | node l n b r ihl ihr => simp [replace, ht, ihl, ihr]

theorem replace_bal (id : Nat) (new : Nd κ) (t : Tree κ) (h : Bal t) : Bal (replace id new t) := by
  induction t with
  | nil => trivial
  | node l n b r ihl ihr =>
    obtain ⟨h1, h2, h3, h4, h5⟩ := h
    exact ⟨ihl h1, ihr h2, by rw [replace_ht, replace_ht]; exact h3, h4, h5⟩

theorem map_replace_not (id : Nat) (new : Nd κ) (l : List (Nd κ)) (h : ∀ m ∈ l, m.id ≠ id) :
    l.map (fun n => if n.id = id then new else n) = l := by
  induction l with
  | nil => rfl
  | cons x l ih => simp_all

theorem removeSimple_spec (path : List (Frame κ)) (l r : Tree κ) (n : Nd κ) (b : Int)
    (hb : Bal (rebuild path (.node l n b r))) (h : l = .nil ∨ r = .nil) :
    ∃ T, removeSimple path l r = some T ∧ Bal T ∧ inorder T = lctx path ++ (inorder l ++ inorder r) ++ rctx path := by
  obtain ⟨⟨h1, h2, h3, h4, h5⟩, hp⟩ := bal_rebuild_inv _ _ hb
  unfold removeSimple
  cases l with
  | nil =>
    cases r with
    | nil =>
      obtain ⟨T, t1, t2, t3⟩ := postRemove_spec path .nil trivial (by simpa [ht] using hp)
      exact ⟨T, by simpa [Tree.isNil] using t1, t2, by simpa [inorder] using t3⟩
    | node rl rn rb rr =>
      obtain ⟨T, t1, t2, t3⟩ := postRemove_spec path _ h2 (by simpa [ht] using hp)
      exact ⟨T, by simpa [Tree.isNil] using t1, t2, by simpa [inorder] using t3⟩
  | node ll ln lb lr =>
    have : r = .nil := by simpa using h
    subst this
    obtain ⟨T, t1, t2, t3⟩ := postRemove_spec path _ h1 (by simpa [ht] using hp)
    exact ⟨T, by simpa [Tree.isNil] using t1, t2, by simpa [inorder] using t3⟩

theorem removeWorker_spec (F : Found κ) (hb : Bal (rebuild F.path (.node F.l F.n F.bal F.r)))
    (hid : ∀ m ∈ lctx F.path ++ inorder F.l ++ inorder F.r ++ rctx F.path, m.id ≠ F.n.id) :
    ∃ T, removeWorker F = some T ∧ Bal T ∧ inorder T = lctx F.path ++ (inorder F.l ++ inorder F.r) ++ rctx F.path := by
  unfold removeWorker
  by_cases hc : (F.l.isNil || F.r.isNil) = true
  · rw [if_pos hc]
    apply removeSimple_spec _ _ _ _ _ hb
    simp only [Bool.or_eq_true] at hc
    exact hc.imp isNil_iff.1 isNil_iff.1
  · rw [if_neg hc]
    simp only [Bool.or_eq_true, not_or, Bool.not_eq_true] at hc
    obtain ⟨m, m1, m2, m3, m4⟩ := localMin_spec F.r (⟨false, F.n, F.bal, F.l⟩ :: F.path) (isNil_false.1 hc.2)
    have hr : rebuild (⟨false, F.n, F.bal, F.l⟩ :: F.path) F.r = rebuild F.path (.node F.l F.n F.bal F.r) := by
      simp [rebuild, Frame.fill]
    obtain ⟨T, t1, t2, t3⟩ := removeSimple_spec m.path .nil m.r m.n m.bal (by rw [m3, hr]; exact hb) (Or.inl rfl)
    have hin := congrArg inorder (m3.trans hr)
    rw [inorder_rebuild, inorder_rebuild, m4] at hin
    simp only [lctx, Bool.false_eq_true, if_false, inorder, List.nil_append, List.append_assoc, List.cons_append,
      List.append_cancel_left_eq, List.cons.injEq, true_and] at hin
    rw [m1, Option.bind_some, m2, t1]
    refine ⟨_, rfl, replace_bal _ _ _ t2, ?_⟩
    rw [replace_inorder, t3, m4]
    simp only [lctx, Bool.false_eq_true, if_false, inorder, List.nil_append, List.map_append, List.map_cons, List.map_nil,
      if_true]
    rw [map_replace_not _ _ (lctx F.path) (fun x hx => hid x (by simp [hx])),
      map_replace_not _ _ (inorder F.l) (fun x hx => hid x (by simp [hx])),
      map_replace_not _ _ (inorder m.r) (fun x hx => hid x (by
        have : x ∈ inorder F.r ++ rctx F.path := by rw [← hin]; simp [hx]
        simp only [List.mem_append] at this ⊢; rcases this with h | h <;> simp [h])),
      map_replace_not _ _ (rctx m.path) (fun x hx => hid x (by
        have : x ∈ inorder F.r ++ rctx F.path := by rw [← hin]; simp [hx]
        simp only [List.mem_append] at this ⊢; rcases this with h | h <;> simp [h]))]
    simp only [List.append_assoc, List.cons_append, List.nil_append]
    rw [hin]

/-! ### list functions at a known place -/

section
variable (id : Nat) (new : Elem κ) (X : List (Elem κ)) (e : Elem κ) (Y : List (Elem κ))

theorem locateList_at (hX : ∀ m ∈ X, m.nd.id ≠ id) (he : e.nd.id = id) (before : List (Elem κ)) :
    locateList id before (X ++ e :: Y) = some ⟨X.reverse ++ before, e, Y⟩ := by
  induction X generalizing before with
  | nil => simp [locateList, he]
  | cons x X ih =>
    simp only [List.cons_append, locateList]
    rw [if_neg (hX x (by simp)), ih (fun m hm => hX m (by simp [hm]))]
    simp

theorem addBefore_at (hX : ∀ m ∈ X, m.nd.id ≠ id) (he : e.nd.id = id) :
    addBefore id new (X ++ e :: Y) = X ++ new :: e :: Y := by
  induction X with
  | nil => simp [addBefore, he]
  | cons x X ih =>
    simp only [List.cons_append, addBefore]
    rw [if_neg (hX x (by simp)), ih (fun m hm => hX m (by simp [hm]))]

theorem addAfter_at (hX : ∀ m ∈ X, m.nd.id ≠ id) (he : e.nd.id = id) :
    addAfter id new (X ++ e :: Y) = X ++ e :: new :: Y := by
  induction X with
  | nil => simp [addAfter, he]
  | cons x X ih =>
    simp only [List.cons_append, addAfter]
    rw [if_neg (hX x (by simp)), ih (fun m hm => hX m (by simp [hm]))]

theorem listRemove_at (hX : ∀ m ∈ X, m.nd.id ≠ id) (he : e.nd.id = id) :
    listRemove id (X ++ e :: Y) = X ++ Y := by
  induction X with
  | nil => simp [listRemove, he]
  | cons x X ih =>
    simp only [List.cons_append, listRemove]
    rw [if_neg (hX x (by simp)), ih (fun m hm => hX m (by simp [hm]))]

theorem setLeader_at (hX : ∀ m ∈ X, m.nd.id ≠ id) (he : e.nd.id = id) :
    setLeader id (X ++ e :: Y) = X ++ { e with follower := false } :: Y := by
  induction X with
  | nil => simp [setLeader, he]
  | cons x X ih =>
    simp only [List.cons_append, setLeader]
    rw [if_neg (hX x (by simp)), ih (fun m hm => hX m (by simp [hm]))]
end

/-! ### groups -/

/-- a leader with its followers -/
abbrev Group (κ : Type) := Nd κ × List (Nd κ)

def groupList (g : Group κ) : List (Elem κ) := ⟨g.1, false⟩ :: g.2.map (⟨·, true⟩)

def flat (gs : List (Group κ)) : List (Elem κ) := gs.flatMap groupList

@[simp] theorem flat_nil : flat ([] : List (Group κ)) = [] := rfl
@[simp] theorem flat_cons (g : Group κ) (gs) : flat (g :: gs) = groupList g ++ flat gs := by simp [flat]
@[simp] theorem flat_append (a b : List (Group κ)) : flat (a ++ b) = flat a ++ flat b := by simp [flat]

/-- the nodes in the order of the linked list -/
def nds (gs : List (Group κ)) : List (Nd κ) := gs.flatMap (fun g => g.1 :: g.2)

theorem flat_map_nd (gs : List (Group κ)) : (flat gs).map (·.nd) = nds gs := by
  induction gs with
  | nil => rfl
  | cons g gs ih =>
    rw [flat_cons, List.map_append, ih]
    simp [nds, groupList, Function.comp_def]

theorem flat_head_leader (gs : List (Group κ)) : ∀ e ∈ (flat gs).head?, e.follower = false := by
  cases gs with
  | nil => simp
  | cons g gs => simp [groupList]

theorem lastFollower_at (last : Nat) (fl : List (Nd κ)) (rest : List (Elem κ)) (h : ∀ e ∈ rest.head?, e.follower = false) :
    lastFollower last (fl.map (⟨·, true⟩) ++ rest) = ((last :: fl.map (·.id)).getLast (by simp)) := by
  induction fl generalizing last with
  | nil =>
    cases rest with
    | nil => rfl
    | cons e rest => simp [lastFollower, h e (by simp)]
  | cons x fl ih =>
    simp only [List.map_cons, List.cons_append, lastFollower, if_true]
    rw [ih]; simp

/-- insertion behind the last element of a group -/
theorem addAfter_group (A B : List (Group κ)) (n : Nd κ) (fl : List (Nd κ)) (new : Elem κ)
    (hid : ((nds (A ++ (n, fl) :: B)).map (·.id)).Nodup) :
    addAfter (findLast n.id (flat (A ++ (n, fl) :: B))) new (flat (A ++ (n, fl) :: B))
      = flat A ++ groupList (n, fl) ++ new :: flat B := by
  have hA : ∀ m ∈ flat A, ∀ k ∈ n :: fl, m.nd.id ≠ k.id := by
    intro m hm k hk
    have : m.nd ∈ nds A := by rw [← flat_map_nd]; exact List.mem_map_of_mem hm
    simp only [nds, List.flatMap_append, List.flatMap_cons, List.map_append] at hid
    have h1 := (List.nodup_append.1 hid).2.2 m.nd.id (List.mem_map_of_mem this) k.id
      (by simp only [List.mem_append]; left; exact List.mem_map_of_mem hk)
    exact h1
  have hfl : ((n :: fl).map (·.id)).Nodup := by
    simp only [nds, List.flatMap_append, List.flatMap_cons, List.map_append] at hid
    exact (List.nodup_append.1 (List.nodup_append.1 hid).2.1).1
  rw [flat_append, flat_cons]
  have e1 : findLast n.id (flat A ++ (groupList (n, fl) ++ flat B)) = ((n :: fl).map (·.id)).getLast (by simp) := by
    unfold findLast groupList
    rw [List.cons_append, locateList_at _ _ _ _ (fun m hm => hA m hm n (by simp)) rfl]
    simp only
    rw [lastFollower_at _ _ _ (flat_head_leader B)]
    rfl
  rw [e1]
  by_cases hf : fl = []
  · subst hf
    simp only [groupList, List.map_nil, List.map_cons, List.getLast_singleton, List.cons_append, List.nil_append]
    rw [addAfter_at _ _ _ _ _ (fun m hm => hA m hm n (by simp)) rfl]
    simp
  · obtain ⟨fl', z, rfl⟩ : ∃ fl' z, fl = fl' ++ [z] := ⟨fl.dropLast, fl.getLast hf, (List.dropLast_concat_getLast hf).symm⟩
    have e2 : flat A ++ (groupList (n, fl' ++ [z]) ++ flat B)
        = (flat A ++ ⟨n, false⟩ :: fl'.map (⟨·, true⟩)) ++ (⟨z, true⟩ : Elem κ) :: flat B := by
      simp [groupList]
    have e3 : ((n :: (fl' ++ [z])).map (·.id)).getLast (by simp) = z.id := by
      simp only [List.map_cons, List.map_append, List.map_nil, ← List.cons_append, List.getLast_concat]
    rw [e2, e3, addAfter_at z.id new _ ⟨z, true⟩ _ _ rfl]
    · simp [groupList]
    · intro m hm
      simp only [List.mem_append, List.mem_cons, List.mem_map] at hm
      rw [← List.cons_append, List.map_append, List.nodup_append] at hfl
      have h3 := hfl.2.2
      rcases hm with hm | rfl | ⟨k, hk, rfl⟩
      · exact hA m hm z (by simp)
      · exact h3 n.id (by simp) z.id (by simp)
      · exact h3 k.id (by simp only [List.map_cons, List.mem_cons, List.mem_map]; right; exact ⟨k, hk, rfl⟩) z.id (by simp)

/-! ### the invariant -/

structure Inv (comp : κ → κ → Int) (a : Avl κ) (gs : List (Group κ)) : Prop where
  list : a.list = flat gs
  tree : inorder a.root = gs.map (·.1)
  bal : Bal a.root
  sorted : SSorted comp (gs.map (·.1))
  same : ∀ g ∈ gs, ∀ m ∈ g.2, comp m.key g.1.key = 0
  ids : ((nds gs).map (·.id)).Nodup
  count : a.count = (nds gs).length % 2 ^ 32
  nodups : a.dups = false → ∀ g ∈ gs, g.2 = []

theorem Inv.init (comp : κ → κ → Int) (dups : Bool) : Inv comp (init dups) [] := by
  constructor <;> simp [Avl.init, inorder, Bal, SSorted, nds]

/-- splitting the groups at a leader of the tree -/
theorem split_groups (gs : List (Group κ)) (P : List (Nd κ)) (n : Nd κ) (Q : List (Nd κ))
    (h : gs.map (·.1) = P ++ n :: Q) :
    ∃ A fl B, gs = A ++ (n, fl) :: B ∧ A.map (·.1) = P ∧ B.map (·.1) = Q := by
  obtain ⟨A, B', h1, h2, h3⟩ := List.map_eq_append_iff.1 h
  obtain ⟨g, B, rfl, h4, h5⟩ := List.map_eq_cons_iff.1 h3
  exact ⟨A, g.2, B, by rw [h1, ← h4], h2, h5⟩

theorem inc_mod (n m : Nat) (h : m = n + 1) : inc (n % 2 ^ 32) = m % 2 ^ 32 := by subst h; unfold inc; omega

theorem dec_mod (n m : Nat) (h : n = m + 1) : dec (n % 2 ^ 32) = m % 2 ^ 32 := by subst h; unfold dec; omega

@[simp] theorem nds_nil : nds ([] : List (Group κ)) = [] := rfl
theorem nds_append (a b : List (Group κ)) : nds (a ++ b) = nds a ++ nds b := by simp [nds]
theorem nds_cons (g : Group κ) (b : List (Group κ)) : nds (g :: b) = g.1 :: g.2 ++ nds b := by simp [nds]

theorem Inv.addLeader {comp : κ → κ → Int} {a : Avl κ} {A B : List (Group κ)} (inv : Inv comp a (A ++ B)) (new : Nd κ)
    (root : Tree κ) (hb : Bal root) (hi : inorder root = A.map (·.1) ++ new :: B.map (·.1))
    (hlo : ∀ m ∈ A.map (·.1), comp m.key new.key < 0) (hhi : ∀ m ∈ B.map (·.1), comp new.key m.key < 0)
    (fresh : ∀ m ∈ nds (A ++ B), m.id ≠ new.id) :
    Inv comp { a with root := root, list := flat A ++ ⟨new, false⟩ :: flat B, count := inc a.count } (A ++ (new, []) :: B) := by
  have hs := inv.sorted
  rw [SSorted, List.map_append, List.pairwise_append] at hs
  refine ⟨?_, ?_, hb, ?_, ?_, ?_, ?_, ?_⟩
  · simp [groupList]
  · simp only [hi, List.map_append, List.map_cons]
  · rw [SSorted, List.map_append, List.map_cons, List.pairwise_append, List.pairwise_cons]
    refine ⟨hs.1, ⟨hhi, hs.2.1⟩, ?_⟩
    intro x hx y hy
    rcases List.mem_cons.1 hy with rfl | hy
    · exact hlo x hx
    · exact hs.2.2 x hx y hy
  · intro g hg m hm
    simp only [List.mem_append, List.mem_cons] at hg
    rcases hg with hg | rfl | hg
    · exact inv.same g (by simp [hg]) m hm
    · simp at hm
    · exact inv.same g (by simp [hg]) m hm
  · have h1 := inv.ids
    rw [nds_append, List.map_append] at h1
    rw [nds_append, nds_cons, List.map_append]
    simp only [List.cons_append, List.nil_append, List.map_cons]
    rw [(List.perm_middle).nodup_iff, List.nodup_cons]
    refine ⟨?_, h1⟩
    rw [← List.map_append, ← nds_append]
    intro h
    obtain ⟨m, hm, he⟩ := List.mem_map.1 h
    exact fresh m hm he
  · simp only [inv.count]
    apply inc_mod
    simp [nds_append, nds_cons]; omega
  · intro hd g hg
    simp only [List.mem_append, List.mem_cons] at hg
    rcases hg with hg | rfl | hg
    · exact inv.nodups hd g (by simp [hg])
    · rfl
    · exact inv.nodups hd g (by simp [hg])

theorem Inv.insert {comp : κ → κ → Int} (o : Order comp) {a : Avl κ} {gs : List (Group κ)} (inv : Inv comp a gs) (new : Nd κ)
    (fresh : ∀ m ∈ nds gs, m.id ≠ new.id) :
    (Avl.insert comp a new = .exists_ ∧ a.dups = false ∧ ∃ m ∈ nds gs, comp new.key m.key = 0) ∨
    (∃ a' gs', Avl.insert comp a new = .ok a' ∧ Inv comp a' gs' ∧ a'.dups = a.dups ∧
      (∃ P Q, nds gs = P ++ Q ∧ nds gs' = P ++ new :: Q) ∧
      (a.dups = false → ∀ m ∈ nds gs, comp new.key m.key ≠ 0)) := by
  unfold Avl.insert
  have hs := inv.sorted
  cases hf : findRec comp new.key a.root [] with
  | none =>
    right
    have hr := (findRec_none comp new.key a.root []).1 hf
    have hg : gs = [] := by
      have := inv.tree; rw [hr] at this; simpa [inorder] using this.symm
    subst hg
    have hl := inv.list
    have := inv.addLeader (A := []) (B := []) new (.node .nil new 0 .nil) (by simp [Bal, ht]) rfl (by simp) (by simp) (by simp)
    refine ⟨_, [(new, [])], rfl, ?_, rfl, ⟨[], [], rfl, rfl⟩, by simp [nds]⟩
    have hc := inv.count
    simp only [nds, List.flatMap_nil, List.length_nil, Nat.zero_mod] at hc
    simp only [hc, flat_nil, List.nil_append] at this
    rw [hl]; exact this
  | some F =>
    obtain ⟨f1, f2, f3, f4, f5, f6⟩ := findRec_spec o new.key a.root [] F hf (by simp [lctx]) (by simp [rctx]) (by rw [inv.tree]; exact hs)
    have hin := congrArg inorder f1
    simp only [rebuild] at hin
    rw [inorder_rebuild, inv.tree] at hin
    simp only [inorder] at hin
    have hin' : gs.map (·.1) = (lctx F.path ++ inorder F.l) ++ F.n :: (inorder F.r ++ rctx F.path) := by
      rw [← hin]; simp
    obtain ⟨A, fl, B, rfl, hA, hB⟩ := split_groups gs _ _ _ hin'
    have hbal : Bal (rebuild F.path (.node F.l F.n F.bal F.r)) := by rw [f1]; exact inv.bal
    obtain ⟨⟨b1, b2, b3, b4, b5⟩, hp⟩ := bal_rebuild_inv _ _ hbal
    have hidA : ∀ m ∈ flat A, m.nd.id ≠ F.n.id := by
      intro m hm
      have h1 : m.nd ∈ nds A := by rw [← flat_map_nd]; exact List.mem_map_of_mem hm
      have h2 := inv.ids
      rw [nds_append, nds_cons, List.map_append, List.nodup_append] at h2
      exact h2.2.2 _ (List.mem_map_of_mem h1) _ (by simp)
    simp only
    by_cases hd : comp new.key F.n.key = 0
    · rw [if_pos hd]
      cases hdu : a.dups with
      | false =>
        left
        refine ⟨rfl, rfl, F.n, by simp [nds_append, nds_cons], hd⟩
      | true =>
        right
        refine ⟨_, A ++ (F.n, new :: fl) :: B, rfl, ?_, rfl, ⟨nds A ++ [F.n], fl ++ nds B, ?_, ?_⟩, by simp⟩
        · have hl : addAfter F.n.id ⟨new, true⟩ a.list = flat (A ++ (F.n, new :: fl) :: B) := by
            rw [inv.list]
            simp only [flat_append, flat_cons, groupList, List.cons_append]
            rw [addAfter_at _ _ _ _ _ hidA rfl]
            simp
          refine ⟨hl, ?_, inv.bal, ?_, ?_, ?_, ?_, ?_⟩
          · rw [inv.tree]; simp
          · rw [List.map_append, List.map_cons] at hs ⊢; exact hs
          · intro g hg m hm
            simp only [List.mem_append, List.mem_cons] at hg
            rcases hg with hg | rfl | hg
            · exact inv.same g (by simp [hg]) m hm
            · rcases List.mem_cons.1 hm with rfl | hm
              · exact hd
              · exact inv.same (F.n, fl) (by simp) m hm
            · exact inv.same g (by simp [hg]) m hm
          · have h1 := inv.ids
            have e1 : nds (A ++ (F.n, new :: fl) :: B) = (nds A ++ [F.n]) ++ new :: (fl ++ nds B) := by simp [nds_append, nds_cons]
            have e2 : nds (A ++ (F.n, fl) :: B) = (nds A ++ [F.n]) ++ (fl ++ nds B) := by simp [nds_append, nds_cons]
            rw [e1, List.map_append, List.map_cons, (List.perm_middle).nodup_iff, List.nodup_cons, ← List.map_append, ← e2]
            refine ⟨?_, h1⟩
            intro h
            obtain ⟨m, hm, he⟩ := List.mem_map.1 h
            exact fresh m hm he
          · simp only [inv.count]
            apply inc_mod
            simp [nds_append, nds_cons]; omega
          · simp
        · simp [nds_append, nds_cons]
        · simp [nds_append, nds_cons]
    · rw [if_neg hd]
      right
      -- no stored key equals the new key
      have hlt : ∀ m ∈ lctx F.path ++ inorder F.l ++ F.n :: (inorder F.r ++ rctx F.path), comp new.key m.key ≠ 0 := by
        intro m hm
        rw [hin'] at hs
        simp only [List.mem_append, List.mem_cons] at hm
        rw [SSorted, List.pairwise_append, List.pairwise_cons] at hs
        rcases hm with (hm | hm) | rfl | hm | hm
        · have := f5 m hm; omega
        · by_cases hneg : F.diff < 0
          · rw [f3 hneg] at hm; simp [inorder] at hm
          · have h1 := hs.2.2 m (by simp [hm]) F.n (by simp)
            have h2 := (o.swap F.n.key new.key).2 (by omega)
            have := (o.swap m.key new.key).1 (o.lt_of_lt_le h1 (by omega))
            omega
        · exact hd
        · by_cases hpos : 0 < F.diff
          · rw [f4 hpos] at hm; simp [inorder] at hm
          · have h1 := hs.2.1.1 m (by simp [hm])
            have := o.lt_of_lt_le (show comp new.key F.n.key < 0 by omega) (show comp F.n.key m.key ≤ 0 by omega)
            omega
        · have := f6 m hm; omega
      have hne : ∀ m ∈ nds (A ++ (F.n, fl) :: B), comp new.key m.key ≠ 0 := by
        intro m hm he
        obtain ⟨g, hg, hm⟩ := List.mem_flatMap.1 hm
        have h1 : g.1 ∈ (A ++ (F.n, fl) :: B).map (·.1) := List.mem_map_of_mem hg
        rw [hin'] at h1
        have h2 := hlt _ h1
        rcases List.mem_cons.1 hm with rfl | hm
        · exact h2 he
        · have h3 := inv.same g hg m hm
          have h4 := o.trans new.key m.key g.1.key (by omega) (by omega)
          have h5 := o.trans g.1.key m.key new.key (by have := o.zero_swap h3; omega) (by have := o.zero_swap he; omega)
          have h6 := o.le_swap.2 h5
          omega
      -- the two places
      have hBefore : comp new.key F.n.key < 0 → ∀ root, Bal root →
          inorder root = (lctx F.path ++ inorder F.l) ++ new :: F.n :: (inorder F.r ++ rctx F.path) →
          ∃ a' gs', Res.ok { a with list := addBefore F.n.id ⟨new, false⟩ a.list, count := inc a.count, root := root } = .ok a' ∧
            Inv comp a' gs' ∧ a'.dups = a.dups ∧ (∃ P Q, nds (A ++ (F.n, fl) :: B) = P ++ Q ∧ nds gs' = P ++ new :: Q) ∧
            (a.dups = false → ∀ m ∈ nds (A ++ (F.n, fl) :: B), comp new.key m.key ≠ 0) := by
        intro hlt0 root hb hi
        have hl : addBefore F.n.id ⟨new, false⟩ a.list = flat A ++ ⟨new, false⟩ :: flat ((F.n, fl) :: B) := by
          rw [inv.list]
          simp only [flat_append, flat_cons, groupList, List.cons_append]
          rw [addBefore_at _ _ _ _ _ hidA rfl]
        refine ⟨_, A ++ (new, []) :: (F.n, fl) :: B, rfl, ?_, rfl, ⟨nds A, nds ((F.n, fl) :: B), by simp [nds_append], by simp [nds_append, nds_cons]⟩, fun _ => hne⟩
        rw [hl]
        apply inv.addLeader new root hb _ _ _ fresh
        · rw [hi, hA, List.map_cons, hB]
        · rw [hA]
          intro m hm
          rcases List.mem_append.1 hm with hm | hm
          · exact (o.swap _ _).2 (f5 m hm)
          · rw [f3 (by omega)] at hm; simp [inorder] at hm
        · rw [List.map_cons, hB]
          intro m hm
          rcases List.mem_cons.1 hm with rfl | hm
          · exact hlt0
          · rw [hin', SSorted, List.pairwise_append, List.pairwise_cons] at hs
            have := hs.2.1.1 m hm
            exact o.lt_of_lt_le hlt0 (by omega)
      have hBehind : 0 < comp new.key F.n.key → ∀ root, Bal root →
          inorder root = (lctx F.path ++ inorder F.l) ++ F.n :: new :: (inorder F.r ++ rctx F.path) →
          ∃ a' gs', Res.ok { a with list := addAfter (findLast F.n.id a.list) ⟨new, false⟩ a.list, count := inc a.count, root := root } = .ok a' ∧
            Inv comp a' gs' ∧ a'.dups = a.dups ∧ (∃ P Q, nds (A ++ (F.n, fl) :: B) = P ++ Q ∧ nds gs' = P ++ new :: Q) ∧
            (a.dups = false → ∀ m ∈ nds (A ++ (F.n, fl) :: B), comp new.key m.key ≠ 0) := by
        intro hgt0 root hb hi
        have hl : addAfter (findLast F.n.id a.list) ⟨new, false⟩ a.list = flat (A ++ [(F.n, fl)]) ++ ⟨new, false⟩ :: flat B := by
          rw [inv.list, addAfter_group _ _ _ _ _ inv.ids]
          simp
        have eAB : A ++ (F.n, fl) :: B = (A ++ [(F.n, fl)]) ++ B := by simp
        refine ⟨_, (A ++ [(F.n, fl)]) ++ (new, []) :: B, rfl, ?_, rfl, ⟨nds (A ++ [(F.n, fl)]), nds B, by simp [nds_append, nds_cons], by simp [nds_append, nds_cons]⟩, fun _ => hne⟩
        rw [hl]
        have inv' := inv
        rw [eAB] at inv' fresh
        have hgt1 := (o.swap F.n.key new.key).2 hgt0
        apply inv'.addLeader new root hb _ _ _ fresh
        · rw [hi, List.map_append, hA, hB]; simp
        · rw [List.map_append, hA]
          intro m hm
          simp only [List.map_cons, List.map_nil, List.mem_append, List.mem_singleton] at hm
          rw [hin', SSorted, List.pairwise_append, List.pairwise_cons] at hs
          rcases hm with hm | rfl
          · have := hs.2.2 m (List.mem_append.2 hm) F.n (by simp)
            exact o.lt_of_lt_le this (by omega)
          · exact hgt1
        · rw [hB]
          intro m hm
          rcases List.mem_append.1 hm with hm | hm
          · rw [f4 (by omega)] at hm; simp [inorder] at hm
          · exact f6 m hm
      by_cases c1 : F.bal = 1
      · rw [if_pos c1]
        have hnl : comp new.key F.n.key < 0 := by
          apply Decidable.byContradiction
          intro hh
          have hr := f4 (by omega)
          rw [hr] at b3
          simp only [ht] at b3; omega
        have hl0 := f3 (by omega)
        have hht : ht F.l + 1 = ht F.r := by omega
        apply hBefore hnl
        · apply bal_rebuild
          · rw [hl0] at hht
            simp only [ht] at hht
            exact ⟨by simp [Bal, ht], b2, by simp only [ht]; omega, by omega, by omega⟩
          · rw [hl0] at hp hht
            simp only [ht] at hp hht ⊢
            have : max (max 0 0 + 1) (ht F.r) + 1 = max 0 (ht F.r) + 1 := by omega
            rw [this]; exact hp
        · rw [inorder_rebuild, hl0]; simp [inorder]
      · rw [if_neg c1]
        by_cases c2 : F.bal = -1
        · rw [if_pos c2]
          have hnl : 0 < comp new.key F.n.key := by
            apply Decidable.byContradiction
            intro hh
            have hr := f3 (by omega)
            rw [hr] at b3
            simp only [ht] at b3; omega
          have hr0 := f4 (by omega)
          have hht : ht F.r + 1 = ht F.l := by omega
          apply hBehind hnl
          · apply bal_rebuild
            · rw [hr0] at hht
              simp only [ht] at hht
              exact ⟨b1, by simp [Bal, ht], by simp only [ht]; omega, by omega, by omega⟩
            · rw [hr0] at hp hht
              simp only [ht] at hp hht ⊢
              have : max (ht F.l) (max 0 0 + 1) + 1 = max (ht F.l) 0 + 1 := by omega
              rw [this]; exact hp
          · rw [inorder_rebuild, hr0]; simp [inorder]
        · rw [if_neg c2]
          have hb0 : F.bal = 0 := by omega
          have hhe : ht F.l = ht F.r := by omega
          by_cases c3 : comp new.key F.n.key < 0
          · rw [if_pos c3]
            have hl0 := f3 (by omega)
            rw [hl0] at hhe hp
            simp only [ht] at hhe hp
            obtain ⟨T, t1, t2, t3⟩ := postInsert_spec F.path (.node .nil new 0 .nil) F.n (-1) F.r
              ⟨by simp [Bal, ht], b2, by simp only [ht]; omega, by omega, by omega⟩ (by omega)
              (by simp only [ht]
                  have : max (max 0 0 + 1) (ht F.r) = max 0 (ht F.r) + 1 := by omega
                  rw [this]; exact hp)
            rw [t1]
            apply hBefore c3 T t2
            rw [t3, hl0]; simp [inorder]
          · rw [if_neg c3]
            have hr0 := f4 (by omega)
            rw [hr0] at hhe hp
            simp only [ht] at hhe hp
            obtain ⟨T, t1, t2, t3⟩ := postInsert_spec F.path F.l F.n 1 (.node .nil new 0 .nil)
              ⟨b1, by simp [Bal, ht], by simp only [ht]; omega, by omega, by omega⟩ (by omega)
              (by simp only [ht]
                  have : max (ht F.l) (max 0 0 + 1) = max (ht F.l) 0 + 1 := by omega
                  rw [this]; exact hp)
            rw [t1]
            apply hBehind (by omega) T t2
            rw [t3, hr0]; simp [inorder]

theorem Inv.remove {comp : κ → κ → Int} (o : Order comp) {a : Avl κ} {gs : List (Group κ)} (inv : Inv comp a gs) (n : Nd κ)
    (hn : n ∈ nds gs) :
    ∃ a' gs', Avl.remove a n.id = .ok a' ∧ Inv comp a' gs' ∧ a'.dups = a.dups ∧
      ∃ P Q, nds gs = P ++ n :: Q ∧ nds gs' = P ++ Q := by
  obtain ⟨g, hg, hng⟩ := List.mem_flatMap.1 hn
  obtain ⟨A, B, rfl⟩ := List.append_of_mem hg
  obtain ⟨ld, fl⟩ := g
  have hids := inv.ids
  have hs := inv.sorted
  have hcount := inv.count
  unfold Avl.remove
  rw [inv.list]
  simp only at hng
  rcases List.mem_cons.1 hng with rfl | hfl
  · -- a leader
    have hA : ∀ m ∈ flat A, m.nd.id ≠ n.id := by
      intro m hm
      have h1 : m.nd ∈ nds A := by rw [← flat_map_nd]; exact List.mem_map_of_mem hm
      rw [nds_append, nds_cons, List.map_append, List.nodup_append] at hids
      exact hids.2.2 _ (List.mem_map_of_mem h1) _ (by simp)
    have eL : flat (A ++ (n, fl) :: B) = flat A ++ ⟨n, false⟩ :: (fl.map (⟨·, true⟩) ++ flat B) := by simp [groupList]
    rw [eL, locateList_at _ _ _ _ hA rfl]
    simp only [Bool.false_eq_true, if_false]
    have eN : nds (A ++ (n, fl) :: B) = nds A ++ n :: (fl ++ nds B) := by simp [nds_append, nds_cons]
    have hids' : (((nds A ++ (fl ++ nds B)).map (·.id))).Nodup ∧ n.id ∉ ((nds A ++ (fl ++ nds B)).map (·.id)) := by
      rw [eN, List.map_append, List.map_cons, (List.perm_middle).nodup_iff, List.nodup_cons, ← List.map_append] at hids
      exact ⟨hids.2, hids.1⟩
    have hidn : ∀ m ∈ nds A ++ (fl ++ nds B), m.id ≠ n.id := fun m hm he => hids'.2 (he ▸ List.mem_map_of_mem hm)
    cases fl with
    | nil =>
      have h0 : (if a.dups = true then Option.filter (·.follower) (List.map (fun x => (⟨x, true⟩ : Elem κ)) [] ++ flat B).head? else none) = none := by
        split
        · simp only [List.map_nil, List.nil_append]
          cases hh : (flat B).head? with
          | none => rfl
          | some e => simp [Option.filter, flat_head_leader B e (by simp [hh])]
        · rfl
      rw [h0]
      simp only
      obtain ⟨l1, l2⟩ := locateTree_spec n.id a.root []
      have hmem : n ∈ inorder a.root := by rw [inv.tree]; simp
      cases hl : locateTree n.id a.root [] with
      | none => exact absurd rfl (l2 hl n hmem)
      | some F =>
        obtain ⟨f1, f2⟩ := l1 F hl
        simp only [rebuild] at f2
        have hin := congrArg inorder f2
        rw [inorder_rebuild, inv.tree] at hin
        simp only [inorder] at hin
        have hin' : (A ++ (n, []) :: B).map (·.1) = (lctx F.path ++ inorder F.l) ++ F.n :: (inorder F.r ++ rctx F.path) := by
          rw [← hin]; simp
        -- the leaders' identities are distinct, so `F.n` is `n`
        have hld : ∀ m ∈ A.map (·.1) ++ B.map (·.1), m.id ≠ n.id := by
          intro m hm
          apply hidn
          simp only [List.mem_append, List.mem_map] at hm ⊢
          rcases hm with ⟨g, hg, rfl⟩ | ⟨g, hg, rfl⟩
          · left; exact List.mem_flatMap.2 ⟨g, hg, by simp⟩
          · right; right; exact List.mem_flatMap.2 ⟨g, hg, by simp⟩
        have hFn : F.n = n := by
          have : F.n ∈ (A ++ (n, []) :: B).map (·.1) := by rw [hin']; simp
          simp only [List.map_append, List.map_cons, List.mem_append, List.mem_cons] at this
          rcases this with h | h | h
          · exact absurd f1 (hld _ (by simp only [List.mem_append]; exact Or.inl h))
          · exact h
          · exact absurd f1 (hld _ (by simp only [List.mem_append]; exact Or.inr h))
        rw [hFn] at hin' f2
        rw [List.map_append, List.map_cons] at hin'
        have hsplit : A.map (·.1) = lctx F.path ++ inorder F.l ∧ B.map (·.1) = inorder F.r ++ rctx F.path := by
          rcases List.append_eq_append_iff.1 hin' with ⟨c, h1, h2⟩ | ⟨c, h1, h2⟩
          · cases c with
            | nil => simp only [List.append_nil, List.nil_append, List.cons.injEq, true_and] at h1 h2; exact ⟨h1.symm, h2⟩
            | cons x c =>
              simp only [List.cons_append, List.cons.injEq] at h2
              have : n ∈ B.map (·.1) := by rw [h2.2]; simp
              exact absurd rfl (hld n (by simp only [List.mem_append]; exact Or.inr this))
          · cases c with
            | nil => simp only [List.append_nil, List.nil_append, List.cons.injEq, true_and] at h1 h2; exact ⟨h1, h2.symm⟩
            | cons x c =>
              simp only [List.cons_append, List.cons.injEq] at h2
              have : n ∈ A.map (·.1) := by rw [h1, ← h2.1]; simp
              exact absurd rfl (hld n (by simp only [List.mem_append]; exact Or.inl this))
        obtain ⟨T, t1, t2, t3⟩ := removeWorker_spec F (by rw [hFn, f2]; exact inv.bal) (by
          intro m hm
          rw [hFn]
          apply hld
          rw [hsplit.1, hsplit.2]
          simpa using hm)
        simp only [Option.bind_some, t1]
        refine ⟨_, A ++ B, rfl, ⟨?_, ?_, t2, ?_, ?_, ?_, ?_, ?_⟩, rfl, nds A, nds B, by simp [eN], by simp [nds_append]⟩
        · simp only
          rw [listRemove_at _ _ _ _ hA rfl]; simp
        · rw [t3, List.map_append, hsplit.1, hsplit.2]; simp
        · refine List.Pairwise.sublist ?_ hs
          rw [List.map_append, List.map_append, List.map_cons]
          exact List.Sublist.append_left (List.sublist_cons_self _ _) _
        · intro g hg
          exact inv.same g (by simp only [List.mem_append, List.mem_cons] at hg ⊢; rcases hg with h | h <;> simp [h])
        · rw [nds_append]; simpa using hids'.1
        · simp only [hcount]
          apply dec_mod
          simp [nds_append, nds_cons]; omega
        · intro hd g hg
          exact inv.nodups hd g (by simp only [List.mem_append, List.mem_cons] at hg ⊢; rcases hg with h | h <;> simp [h])
    | cons y fl =>
      have hd : a.dups = true := by
        cases hdu : a.dups with
        | true => rfl
        | false => have := inv.nodups hdu (n, y :: fl) (by simp); simp at this
      simp only [hd, if_true, List.map_cons, List.cons_append, List.head?_cons, Option.filter]
      refine ⟨_, A ++ (y, fl) :: B, rfl, ⟨?_, ?_, replace_bal _ _ _ inv.bal, ?_, ?_, ?_, ?_, ?_⟩, hd ▸ rfl, nds A, y :: fl ++ nds B, by simp [eN], by simp [nds_append, nds_cons]⟩
      · simp only
        have e2 : flat A ++ ⟨n, false⟩ :: ⟨y, true⟩ :: (List.map (fun x => (⟨x, true⟩ : Elem κ)) fl ++ flat B)
            = (flat A ++ [⟨n, false⟩]) ++ ⟨y, true⟩ :: (List.map (fun x => (⟨x, true⟩ : Elem κ)) fl ++ flat B) := by simp
        rw [e2, setLeader_at y.id _ ⟨y, true⟩ _ _ rfl]
        · simp only [List.append_assoc, List.cons_append, List.nil_append]
          rw [listRemove_at _ _ _ _ hA rfl]
          simp [groupList]
        · intro m hm
          simp only [List.mem_append, List.mem_singleton] at hm
          rcases hm with hm | rfl
          · have h1 : m.nd ∈ nds A := by rw [← flat_map_nd]; exact List.mem_map_of_mem hm
            have h2 := hids'.1
            rw [List.map_append, List.nodup_append] at h2
            exact h2.2.2 _ (List.mem_map_of_mem h1) _ (by simp)
          · exact fun h => hidn y (by simp) h.symm
      · rw [replace_inorder, inv.tree]
        simp only [List.map_append, List.map_cons, if_true]
        rw [map_replace_not, map_replace_not]
        · intro m hm
          apply hidn
          obtain ⟨g, hg, rfl⟩ := List.mem_map.1 hm
          simp only [List.mem_append]
          right; right; exact List.mem_flatMap.2 ⟨g, hg, by simp⟩
        · intro m hm
          apply hidn
          obtain ⟨g, hg, rfl⟩ := List.mem_map.1 hm
          simp only [List.mem_append]
          left; exact List.mem_flatMap.2 ⟨g, hg, by simp⟩
      · have hy := inv.same (n, y :: fl) (by simp) y (by simp)
        simp only at hy
        rw [SSorted, List.map_append, List.map_cons, List.pairwise_append, List.pairwise_cons] at hs ⊢
        refine ⟨hs.1, ⟨?_, hs.2.1.2⟩, ?_⟩
        · intro m hm
          exact o.lt_of_le_lt (by simp only; omega) (hs.2.1.1 m hm)
        · intro x hx m hm
          rcases List.mem_cons.1 hm with rfl | hm
          · exact o.lt_of_lt_le (hs.2.2 x hx n (by simp)) (by have := o.zero_swap hy; omega)
          · exact hs.2.2 x hx m (by simp [hm])
      · intro g hg m hm
        simp only [List.mem_append, List.mem_cons] at hg
        rcases hg with hg | rfl | hg
        · exact inv.same g (by simp [hg]) m hm
        · have h1 := inv.same (n, y :: fl) (by simp) y (by simp)
          have h2 := inv.same (n, y :: fl) (by simp) m (by simp only at hm; simp [hm])
          simp only at h1 h2 ⊢
          have h3 := o.zero_swap h1
          have h4 := o.zero_swap h2
          have h5 := o.trans m.key n.key y.key (by omega) (by omega)
          have h6 := o.trans y.key n.key m.key (by omega) (by omega)
          have h7 := o.le_swap.2 h6
          omega
        · exact inv.same g (by simp [hg]) m hm
      · have h2 := hids'.1
        simp only [nds_append, nds_cons, List.cons_append] at h2 ⊢; exact h2
      · simp only [hcount]
        apply dec_mod
        simp [nds_append, nds_cons]; omega
      · simp
  · -- a follower
    obtain ⟨f1, f2, rfl⟩ := List.append_of_mem hfl
    have eN : nds (A ++ (ld, f1 ++ n :: f2) :: B) = (nds A ++ ld :: f1) ++ n :: (f2 ++ nds B) := by simp [nds_append, nds_cons]
    have hids' : ((((nds A ++ ld :: f1) ++ (f2 ++ nds B)).map (·.id))).Nodup ∧ n.id ∉ (((nds A ++ ld :: f1) ++ (f2 ++ nds B)).map (·.id)) := by
      rw [eN, List.map_append, List.map_cons, (List.perm_middle).nodup_iff, List.nodup_cons, ← List.map_append] at hids
      exact ⟨hids.2, hids.1⟩
    have hidn : ∀ m ∈ (nds A ++ ld :: f1) ++ (f2 ++ nds B), m.id ≠ n.id := fun m hm he => hids'.2 (he ▸ List.mem_map_of_mem hm)
    have eL : flat (A ++ (ld, f1 ++ n :: f2) :: B)
        = (flat A ++ ⟨ld, false⟩ :: f1.map (⟨·, true⟩)) ++ ⟨n, true⟩ :: (f2.map (⟨·, true⟩) ++ flat B) := by simp [groupList]
    have hA : ∀ m ∈ flat A ++ ⟨ld, false⟩ :: f1.map (⟨·, true⟩), m.nd.id ≠ n.id := by
      intro m hm
      apply hidn
      simp only [List.mem_append, List.mem_cons, List.mem_map] at hm ⊢
      rcases hm with hm | rfl | ⟨k, hk, rfl⟩
      · left; left; rw [← flat_map_nd]; exact List.mem_map_of_mem hm
      · simp
      · simp [hk]
    rw [eL, locateList_at _ _ _ _ hA rfl]
    simp only [if_true]
    refine ⟨_, A ++ (ld, f1 ++ f2) :: B, rfl, ⟨?_, ?_, inv.bal, ?_, ?_, ?_, ?_, ?_⟩, rfl, nds A ++ ld :: f1, f2 ++ nds B, eN, by simp [nds_append, nds_cons]⟩
    · simp only
      rw [listRemove_at _ _ _ _ hA rfl]
      simp [groupList]
    · rw [inv.tree]; simp
    · rw [List.map_append, List.map_cons] at hs ⊢; exact hs
    · intro g hg m hm
      simp only [List.mem_append, List.mem_cons] at hg
      rcases hg with hg | rfl | hg
      · exact inv.same g (by simp [hg]) m hm
      · exact inv.same (ld, f1 ++ n :: f2) (by simp) m (by
          simp only [List.mem_append, List.mem_cons] at hm ⊢; rcases hm with h | h <;> simp [h])
      · exact inv.same g (by simp [hg]) m hm
    · have h2 := hids'.1
      simp only [nds_append, nds_cons, List.cons_append, List.append_assoc] at h2 ⊢; exact h2
    · simp only [hcount]
      apply dec_mod
      simp [nds_append, nds_cons]; omega
    · intro hd g hg
      simp only [List.mem_append, List.mem_cons] at hg
      rcases hg with hg | rfl | hg
      · exact inv.nodups hd g (by simp [hg])
      · have := inv.nodups hd (ld, f1 ++ n :: f2) (by simp)
        simp at this
      · exact inv.nodups hd g (by simp [hg])

/-! ### sequence of all elements and lookup -/

theorem Inv.sorted_nds {comp : κ → κ → Int} (o : Order comp) {a : Avl κ} {gs : List (Group κ)} (inv : Inv comp a gs) :
    (nds gs).Pairwise (fun x y => comp x.key y.key ≤ 0) := by
  have hs := inv.sorted
  have hm := inv.same
  clear inv
  induction gs with
  | nil => simp
  | cons g gs ih =>
    rw [SSorted, List.map_cons, List.pairwise_cons] at hs
    rw [nds_cons, List.pairwise_append]
    have hg : ∀ x ∈ g.1 :: g.2, comp x.key g.1.key = 0 := by
      intro x hx
      rcases List.mem_cons.1 hx with rfl | hx
      · exact o.refl _
      · exact hm g (by simp) x hx
    refine ⟨?_, ih hs.2 (fun g' hg' => hm g' (by simp [hg'])), ?_⟩
    · refine List.Pairwise.imp_of_mem (R := fun _ _ => True) ?_ (List.pairwise_of_forall (fun _ _ => trivial))
      intro x y hx hy _
      have h1 := hg x hx
      have h2 := o.zero_swap (hg y hy)
      exact o.trans _ g.1.key _ (by omega) (by omega)
    · intro x hx y hy
      obtain ⟨g', hg', hy⟩ := List.mem_flatMap.1 hy
      have h1 := hs.1 g'.1 (List.mem_map_of_mem hg')
      have h2 : comp g'.1.key y.key ≤ 0 := by
        rcases List.mem_cons.1 hy with rfl | hy
        · have := o.refl g'.1.key; omega
        · have := o.zero_swap (hm g' (by simp [hg']) y hy); omega
      have h3 := hg x hx
      exact o.trans _ g.1.key _ (by omega) (o.trans _ g'.1.key _ (by omega) h2)

/-- a found node starts the group of its key -/
theorem Inv.find_some {comp : κ → κ → Int} (o : Order comp) {a : Avl κ} {gs : List (Group κ)} (inv : Inv comp a gs) (key : κ)
    (F : Found κ) (hf : findRec comp key a.root [] = some F) :
    ∃ A fl B, gs = A ++ (F.n, fl) :: B ∧ F.diff = comp key F.n.key ∧
      (F.diff ≠ 0 → ∀ m ∈ nds gs, comp key m.key ≠ 0) := by
  have hs := inv.sorted
  obtain ⟨f1, f2, f3, f4, f5, f6⟩ := findRec_spec o key a.root [] F hf (by simp [lctx]) (by simp [rctx]) (by rw [inv.tree]; exact hs)
  have hin := congrArg inorder f1
  simp only [rebuild] at hin
  rw [inorder_rebuild, inv.tree] at hin
  simp only [inorder] at hin
  have hin' : gs.map (·.1) = (lctx F.path ++ inorder F.l) ++ F.n :: (inorder F.r ++ rctx F.path) := by
    rw [← hin]; simp
  obtain ⟨A, fl, B, rfl, hA, hB⟩ := split_groups gs _ _ _ hin'
  refine ⟨A, fl, B, rfl, f2, ?_⟩
  intro hd
  have hlt : ∀ m ∈ lctx F.path ++ inorder F.l ++ F.n :: (inorder F.r ++ rctx F.path), comp key m.key ≠ 0 := by
    intro m hm
    rw [hin'] at hs
    simp only [List.mem_append, List.mem_cons] at hm
    rw [SSorted, List.pairwise_append, List.pairwise_cons] at hs
    rcases hm with (hm | hm) | rfl | hm | hm
    · have := f5 m hm; omega
    · by_cases hneg : F.diff < 0
      · rw [f3 hneg] at hm; simp [inorder] at hm
      · have h1 := hs.2.2 m (by simp [hm]) F.n (by simp)
        have h2 := (o.swap F.n.key key).2 (by omega)
        have := (o.swap m.key key).1 (o.lt_of_lt_le h1 (by omega))
        omega
    · omega
    · by_cases hpos : 0 < F.diff
      · rw [f4 hpos] at hm; simp [inorder] at hm
      · have h1 := hs.2.1.1 m (by simp [hm])
        have := o.lt_of_lt_le (show comp key F.n.key < 0 by omega) (show comp F.n.key m.key ≤ 0 by omega)
        omega
    · have := f6 m hm; omega
  intro m hm he
  obtain ⟨g, hg, hm⟩ := List.mem_flatMap.1 hm
  have h1 : g.1 ∈ (A ++ (F.n, fl) :: B).map (·.1) := List.mem_map_of_mem hg
  rw [hin'] at h1
  have h2 := hlt _ h1
  rcases List.mem_cons.1 hm with rfl | hm
  · exact h2 he
  · have h3 := inv.same g hg m hm
    have h4 := o.trans key m.key g.1.key (by omega) (by omega)
    have h5 := o.trans g.1.key m.key key (by have := o.zero_swap h3; omega) (by have := o.zero_swap he; omega)
    have h6 := o.le_swap.2 h5
    omega

theorem leLeft_spec (comp : κ → κ → Int) (key : κ) : ∀ (before : List (Elem κ)) (cur : Elem κ) (after : List (Elem κ)),
    (leLeft comp key before cur after = none → ∀ m ∈ cur :: before, comp key m.nd.key < 0) ∧
    (∀ p, leLeft comp key before cur after = some p → 0 ≤ comp key p.cur.nd.key ∧
      p.before.reverse ++ p.cur :: p.after = before.reverse ++ cur :: after) := by
  intro before
  induction before with
  | nil =>
    intro cur after
    unfold leLeft
    split
    · rename_i h; exact ⟨fun _ m hm => by simp at hm; rw [hm]; exact h, by simp⟩
    · rename_i h
      refine ⟨by simp, fun p hp => ?_⟩
      obtain rfl := Option.some.inj hp
      exact ⟨by simp only; omega, rfl⟩
  | cons b before ih =>
    intro cur after
    unfold leLeft
    split
    · rename_i h
      obtain ⟨h1, h2⟩ := ih b (cur :: after)
      refine ⟨fun hn m hm => ?_, fun p hp => ?_⟩
      · rcases List.mem_cons.1 hm with rfl | hm
        · exact h
        · exact h1 hn m hm
      · obtain ⟨h3, h4⟩ := h2 p hp
        exact ⟨h3, by rw [h4]; simp⟩
    · rename_i h
      refine ⟨by simp, fun p hp => ?_⟩
      obtain rfl := Option.some.inj hp
      exact ⟨by simp only; omega, rfl⟩

theorem leRight_spec (comp : κ → κ → Int) (key : κ) : ∀ (after : List (Elem κ)) (cur : Elem κ), 0 ≤ comp key cur.nd.key →
    ∃ P Q, cur :: after = P ++ leRight comp key cur after :: Q ∧ 0 ≤ comp key (leRight comp key cur after).nd.key ∧
      ∀ x ∈ Q.head?, comp key x.nd.key < 0 := by
  intro after
  induction after with
  | nil => intro cur h; exact ⟨[], [], rfl, h, by simp⟩
  | cons nx after ih =>
    intro cur h
    rw [leRight]
    split
    · rename_i h2
      obtain ⟨P, Q, h3, h4, h5⟩ := ih nx h2
      exact ⟨cur :: P, Q, by rw [h3]; rfl, h4, h5⟩
    · rename_i h2
      refine ⟨[], nx :: after, rfl, h, ?_⟩
      simp only [List.head?_cons, Option.mem_def, Option.some.injEq, forall_eq']
      omega

theorem geRight_spec (comp : κ → κ → Int) (key : κ) : ∀ (after : List (Elem κ)) (before : List (Elem κ)) (cur : Elem κ),
    (geRight comp key before cur after = none → ∀ m ∈ cur :: after, 0 < comp key m.nd.key) ∧
    (∀ p, geRight comp key before cur after = some p → comp key p.cur.nd.key ≤ 0 ∧
      p.before.reverse ++ p.cur :: p.after = before.reverse ++ cur :: after) := by
  intro after
  induction after with
  | nil =>
    intro before cur
    unfold geRight
    split
    · rename_i h; exact ⟨fun _ m hm => by simp at hm; rw [hm]; exact h, by simp⟩
    · rename_i h
      refine ⟨by simp, fun p hp => ?_⟩
      obtain rfl := Option.some.inj hp
      exact ⟨by simp only; omega, rfl⟩
  | cons b after ih =>
    intro before cur
    unfold geRight
    split
    · rename_i h
      obtain ⟨h1, h2⟩ := ih (cur :: before) b
      refine ⟨fun hn m hm => ?_, fun p hp => ?_⟩
      · rcases List.mem_cons.1 hm with rfl | hm
        · exact h
        · exact h1 hn m hm
      · obtain ⟨h3, h4⟩ := h2 p hp
        exact ⟨h3, by rw [h4]; simp⟩
    · rename_i h
      refine ⟨by simp, fun p hp => ?_⟩
      obtain rfl := Option.some.inj hp
      exact ⟨by simp only; omega, rfl⟩

theorem geLeft_spec (comp : κ → κ → Int) (key : κ) : ∀ (before : List (Elem κ)) (cur : Elem κ), comp key cur.nd.key ≤ 0 →
    ∃ P Q, before.reverse ++ [cur] = P ++ geLeft comp key cur before :: Q ∧ comp key (geLeft comp key cur before).nd.key ≤ 0 ∧
      ∀ x ∈ P.getLast?, 0 < comp key x.nd.key := by
  intro before
  induction before with
  | nil => intro cur h; exact ⟨[], [], rfl, h, by simp⟩
  | cons nx before ih =>
    intro cur h
    rw [geLeft]
    split
    · rename_i h2
      obtain ⟨P, Q, h3, h4, h5⟩ := ih nx h2
      exact ⟨P, Q ++ [cur], by rw [List.reverse_cons, h3]; simp, h4, h5⟩
    · rename_i h2
      refine ⟨before.reverse ++ [nx], [], by simp, h, ?_⟩
      simp only [List.getLast?_concat, Option.mem_def, Option.some.injEq, forall_eq']
      omega

end Verif.Avl
