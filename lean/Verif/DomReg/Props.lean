import Verif.DomReg.Spec
/-!
C225: algorithms of NHDP domains are chosen, activated and deactivated as configured.  C226: MPR sets are recalculated when they are
outdated.
-/

namespace Verif.DomReg

/-! ## Lemmas -/

theorem active_append (h : Nat) (l : List Ev) (e : Ev) (a : Bool) :
    Active h (l ++ [e]) a = Active h [e] (Active h l a) := by
  induction l generalizing a with
  | nil => rfl
  | cons x l ih => cases x <;> exact ih _

theorem alternates_append (h : Nat) (l : List Ev) (e : Ev) (a : Bool) :
    Alternates h (l ++ [e]) a ↔ Alternates h l a ∧ Alternates h [e] (Active h l a) := by
  induction l generalizing a with
  | nil => simp [Alternates, Active]
  | cons x l ih =>
    cases x with
    | enable y =>
      simp only [List.cons_append, Alternates, Active]
      by_cases e' : y = h
      · simp only [if_pos e', ih, and_assoc]
      · simp only [if_neg e', ih]
    | disable y =>
      simp only [List.cons_append, Alternates, Active]
      by_cases e' : y = h
      · simp only [if_pos e', ih, and_assoc]
      · simp only [if_neg e', ih]

theorem users_set {doms : List Dom} {i : Nat} {d d' : Dom} (hi : doms[i]? = some d) (h : Option Nat) :
    (users (doms.set i d') h : Int) = users doms h - (if d.use = h then 1 else 0) + if d'.use = h then 1 else 0 := by
  obtain ⟨hl, hd⟩ := List.getElem?_eq_some_iff.1 hi
  have hp : d.use = h → 0 < users doms h := by
    intro e
    exact List.countP_pos_iff.2 ⟨d, hd ▸ List.getElem_mem hl, by simpa using e⟩
  unfold users at *
  rw [List.countP_set hl, hd]
  by_cases e : d.use = h
  · have := hp e
    by_cases e' : d'.use = h <;> simp [e, e'] <;> omega
  · by_cases e' : d'.use = h <;> simp [e, e']

theorem set_same {doms : List Dom} {i : Nat} {d : Dom} (hi : doms[i]? = some d) : doms.set i d = doms := by
  obtain ⟨hl, hd⟩ := List.getElem?_eq_some_iff.1 hi
  rw [← hd]
  exact List.set_getElem_self hl

/-- Name and pointer of a domain belong together. -/
def NameOk (d : Dom) : Prop :=
  match d.name with
  | .alg h => d.use = some h
  | .any => False
  | _ => d.use = none

structure Inv (r : R) : Prop where
  sorted : r.tree.Pairwise (· < ·)
  refs : ∀ h, r.ref h = users r.doms h
  live : ∀ d ∈ r.doms, ∀ h, d.use = some h → h ∈ r.tree
  names : ∀ d ∈ r.doms, NameOk d
  active : ∀ h, Active h r.log false = decide (0 < users r.doms (some h))
  alt : ∀ h, Alternates h r.log false

theorem mem_set {doms : List Dom} {i : Nat} {d x : Dom} (h : x ∈ doms.set i d) : x = d ∨ x ∈ doms := by
  rcases List.mem_or_eq_of_mem_set h with h | h
  · exact .inr h
  · exact .inl h

theorem inv_init (flooding : Bool) : Inv (R.init flooding) := by
  cases flooding with
  | true =>
    refine ⟨by simp [R.init], ?_, by simp [R.init], by simp [R.init, NameOk], ?_, by simp [R.init, Alternates]⟩
    · intro h
      cases h <;> simp [R.init, users]
    · intro h
      simp [R.init, Active, users]
  | false => constructor <;> simp [R.init, users, Active, Alternates]

theorem will_inv {r : R} (h : Inv r) {i : Nat} {d : Dom} (hi : r.doms[i]? = some d) (w : Nat) :
    Inv { r with doms := r.doms.set i { d with will := w } } := by
  have hu : ∀ x, users (r.doms.set i { d with will := w }) x = users r.doms x := by
    intro x
    have := users_set (d' := { d with will := w }) hi x
    dsimp only at this
    omega
  have hd : d ∈ r.doms := List.mem_of_getElem? hi
  refine ⟨h.sorted, fun x => by dsimp only; rw [hu]; exact h.refs x, ?_, ?_, fun x => by dsimp only; rw [hu]; exact h.active x, h.alt⟩
  · intro x hx y hy
    rcases mem_set hx with rfl | hx
    · exact h.live d hd y hy
    · exact h.live x hx y hy
  · intro x hx
    rcases mem_set hx with rfl | hx
    · exact h.names d hd
    · exact h.names x hx

theorem removeAlg_inv {r : R} (h : Inv r) {i : Nat} {d : Dom} (hi : r.doms[i]? = some d) {a : Nat} (ha : d.use = some a) :
    Inv (removeAlg r i d) := by
  have hd : d ∈ r.doms := List.mem_of_getElem? hi
  have hu := users_set (d' := { d with name := Name.none, use := none }) hi
  unfold removeAlg
  rw [ha]
  dsimp only
  have hra : bump r.ref (some a) (-1) (some a) = users (r.doms.set i { d with name := .none, use := none }) (some a) := by
    rw [hu, ha, bump, h.refs]
    simp
    omega
  have hoth : ∀ x, x ≠ a → (users (r.doms.set i { d with name := .none, use := none }) (some x) : Int) = users r.doms (some x) := by
    intro x hx
    rw [hu, ha]
    simp [Ne.symm hx]
  have hact : Active a r.log false = true := by
    rw [h.active]
    have : 0 < users r.doms (some a) := List.countP_pos_iff.2 ⟨d, hd, by simp [ha]⟩
    simp [this]
  refine ⟨h.sorted, ?_, ?_, ?_, ?_, ?_⟩
  · intro x
    dsimp only
    rw [hu, ha]
    unfold bump
    cases x with
    | none => simp [h.refs]
    | some x =>
      by_cases e : x = a
      · subst e; simp [h.refs]; omega
      · simp [h.refs, e, Ne.symm e]
  · intro x hx y hy
    rcases mem_set hx with rfl | hx
    · simp at hy
    · exact h.live x hx y hy
  · intro x hx
    rcases mem_set hx with rfl | hx
    · rfl
    · exact h.names x hx
  · intro x
    dsimp only
    by_cases e : x = a
    · subst e
      rw [hra]
      by_cases hz : (users (r.doms.set i { d with name := .none, use := none }) (some x) : Int) = 0
      · rw [if_pos hz, active_append]
        have hz' : users (r.doms.set i { d with name := .none, use := none }) (some x) = 0 := by omega
        rw [hz']
        simp [Active]
      · rw [if_neg hz, hact]
        have : 0 < users (r.doms.set i { d with name := .none, use := none }) (some x) := by omega
        simp [this]
    · have hx := hoth x e
      have hx' : users (r.doms.set i { d with name := .none, use := none }) (some x) = users r.doms (some x) := by omega
      rw [hx', ← h.active x]
      split
      · rw [active_append]
        simp [Active, Ne.symm e]
      · rfl
  · intro x
    dsimp only
    split
    · rw [alternates_append]
      refine ⟨h.alt x, ?_⟩
      by_cases e : a = x
      · subst e; simp [Alternates, hact]
      · simp [Alternates, e]
    · exact h.alt x

theorem link_inv {r : R} (h : Inv r) {i : Nat} {d : Dom} (hi : r.doms[i]? = some d) (ha : d.use = none) (n : Name) :
    Inv (link r i d n) ∧
      (link r i d n).doms[i]? = some ⟨nameOf (lookup r.tree (resolve r.tree n)), lookup r.tree (resolve r.tree n), d.will⟩ := by
  obtain ⟨hl, -⟩ := List.getElem?_eq_some_iff.1 hi
  have hlook : ∀ a, lookup r.tree (resolve r.tree n) = some a → a ∈ r.tree := by
    intro a hx
    cases hr : resolve r.tree n with
    | alg x =>
      rw [hr] at hx
      simp only [lookup] at hx
      split at hx
      · simp at hx; subst hx; assumption
      · simp at hx
    | _ => rw [hr] at hx; simp [lookup] at hx
  generalize hg : lookup r.tree (resolve r.tree n) = g at hlook
  have hu := users_set (d' := { d with name := nameOf g, use := g }) hi
  unfold link
  rw [hg, ha]
  dsimp only
  refine ⟨⟨h.sorted, ?_, ?_, ?_, ?_, ?_⟩, by rw [List.getElem?_set_self hl]⟩
  · intro x
    dsimp only
    rw [hu, ha]
    unfold bump
    rw [h.refs]
    by_cases e1 : x = none
    · subst e1
      by_cases e2 : none = g
      · subst e2; simp [Int.sub_eq_add_neg]
      · simp [e2, Ne.symm e2, Int.sub_eq_add_neg]
    · have e1' : ¬ none = x := fun e => e1 e.symm
      by_cases e2 : x = g
      · subst e2; simp [e1, e1']
      · simp [e1, e1', e2, Ne.symm e2]
  · intro x hx y hy
    rcases mem_set hx with rfl | hx
    · exact hlook y hy
    · exact h.live x hx y hy
  · intro x hx
    rcases mem_set hx with rfl | hx
    · cases g <;> rfl
    · exact h.names x hx
  · intro x
    dsimp only
    cases g with
    | none =>
      dsimp only
      have e : users (r.doms.set i { d with name := nameOf none, use := none }) (some x) = users r.doms (some x) := by
        have := hu (some x)
        rw [ha] at this
        simp only [reduceCtorEq, if_false] at this
        omega
      rw [e]
      exact h.active x
    | some g =>
      dsimp only
      have hux := hu (some x)
      rw [ha] at hux
      by_cases e : g = x
      · subst e
        simp at hux
        have hpos : 0 < users (r.doms.set i { d with name := nameOf (some g), use := some g }) (some g) := by omega
        simp only [hpos, decide_true]
        have hr : bump r.ref none (-1) (some g) = users r.doms (some g) := by unfold bump; rw [h.refs]; simp
        rw [hr]
        by_cases hz : (users r.doms (some g) : Int) = 0
        · rw [if_pos hz, active_append]; simp [Active]
        · rw [if_neg hz, h.active]
          have : 0 < users r.doms (some g) := by omega
          simp [this]
      · simp [e] at hux
        have e' : users (r.doms.set i { d with name := nameOf (some g), use := some g }) (some x) = users r.doms (some x) := by omega
        rw [e', ← h.active x]
        split
        · rw [active_append]; simp [Active, e]
        · rfl
  · intro x
    dsimp only
    cases g with
    | none => exact h.alt x
    | some g =>
      dsimp only
      have hr : bump r.ref none (-1) (some g) = users r.doms (some g) := by unfold bump; rw [h.refs]; simp
      rw [hr]
      by_cases hz : (users r.doms (some g) : Int) = 0
      · rw [if_pos hz, alternates_append]
        refine ⟨h.alt x, ?_⟩
        by_cases e : g = x
        · subst e
          have : users r.doms (some g) = 0 := by omega
          simp [Alternates, h.active, this]
        · simp [Alternates, e]
      · rw [if_neg hz]; exact h.alt x

theorem removeAlg_dom {r : R} {i : Nat} {d : Dom} (hi : r.doms[i]? = some d) :
    (removeAlg r i d).doms[i]? = some { d with name := .none, use := none } := by
  obtain ⟨hl, -⟩ := List.getElem?_eq_some_iff.1 hi
  exact List.getElem?_set_self hl

/-- What a domain has after it was configured. -/
theorem apply_inv {r : R} (h : Inv r) (i : Nat) (n : Name) (w : Nat) :
    Inv (apply r i n w) ∧ (apply r i n w).tree = r.tree ∧
      ∀ d, r.doms[i]? = some d → ∃ d', (apply r i n w).doms[i]? = some d' ∧ d'.will = w ∧
        ((d.name = n ∧ d'.use = d.use) ∨ d'.use = lookup r.tree (resolve r.tree n)) := by
  unfold apply
  cases hi : r.doms[i]? with
  | none => exact ⟨h, rfl, fun d hd => by simp at hd⟩
  | some d =>
    obtain ⟨hl, -⟩ := List.getElem?_eq_some_iff.1 hi
    have h1 := will_inv h hi w
    have hi1 : (r.doms.set i { d with will := w })[i]? = some { d with will := w } := List.getElem?_set_self hl
    dsimp only
    split
    · next hn =>
      refine ⟨h1, rfl, fun x hx => ?_⟩
      cases hx
      exact ⟨_, hi1, rfl, .inl ⟨hn, rfl⟩⟩
    · split
      · next hu =>
        obtain ⟨a, ha⟩ := Option.ne_none_iff_exists'.1 hu
        have h2 := removeAlg_inv h1 hi1 ha
        obtain ⟨h3, h4⟩ := link_inv h2 (removeAlg_dom hi1) rfl n
        refine ⟨h3, rfl, fun x hx => ⟨_, h4, rfl, .inr rfl⟩⟩
      · next hu =>
        have ha : d.use = none := by
          cases e : d.use with
          | none => rfl
          | some y => exact absurd e (by simpa using fun e' => hu (by simp [e']))
        obtain ⟨h3, h4⟩ := link_inv h1 hi1 ha n
        exact ⟨h3, rfl, fun x hx => ⟨_, h4, rfl, .inr rfl⟩⟩

theorem reapply_eq (r : R) (l : List Nat) : reapply r l = r := by
  induction l with
  | nil => rfl
  | cons i l ih =>
    unfold reapply
    cases hi : r.doms[i]? with
    | none => exact ih
    | some d =>
      dsimp only
      have : (if d.use = none then apply r i d.name d.will else r) = r := by
        split
        · unfold apply
          rw [hi]
          dsimp only
          rw [if_pos rfl, set_same hi]
        · rfl
      rw [this]
      exact ih

theorem mem_insert (h x : Nat) (l : List Nat) : x ∈ insert h l ↔ x = h ∨ x ∈ l := by
  induction l with
  | nil => simp [insert]
  | cons y l ih =>
    simp only [insert]
    split
    · simp
    · simp only [List.mem_cons, ih]
      constructor
      · rintro (h | h | h)
        · exact .inr (.inl h)
        · exact .inl h
        · exact .inr (.inr h)
      · rintro (h | h | h)
        · exact .inr (.inl h)
        · exact .inl h
        · exact .inr (.inr h)

theorem insert_sorted {h : Nat} {l : List Nat} (hs : l.Pairwise (· < ·)) (hn : h ∉ l) : (insert h l).Pairwise (· < ·) := by
  induction l with
  | nil => simp [insert]
  | cons y l ih =>
    obtain ⟨h1, h2⟩ := List.pairwise_cons.1 hs
    simp only [insert]
    split
    · next hlt =>
      refine List.pairwise_cons.2 ⟨?_, hs⟩
      intro x hx
      rcases List.mem_cons.1 hx with rfl | hx
      · exact hlt
      · exact Nat.lt_trans hlt (h1 x hx)
    · next hlt =>
      have hne : h ≠ y := fun e => hn (e ▸ List.mem_cons_self)
      refine List.pairwise_cons.2 ⟨?_, ih h2 (fun hm => hn (List.mem_cons_of_mem _ hm))⟩
      intro x hx
      rcases (mem_insert h x l).1 hx with rfl | hx
      · omega
      · exact h1 x hx

theorem add_inv {r : R} (h : Inv r) (a : Nat) : Inv (addMetric r a) := by
  unfold addMetric
  split
  · exact h
  · next hn =>
    exact { h with
      sorted := insert_sorted h.sorted hn
      live := fun d hd x hx => (mem_insert a x r.tree).2 (.inr (h.live d hd x hx)) }

theorem addMpr_eq (r : R) (a : Nat) : addMpr r a = addMetric r a := by
  unfold addMpr addMetric
  split
  · rfl
  · rw [reapply_eq]

theorem new_inv {r : R} (h : Inv r) : Inv (newDom r) := by
  unfold newDom
  refine ⟨h.sorted, ?_, ?_, ?_, ?_, h.alt⟩
  · intro x
    unfold bump users
    dsimp only
    rw [List.countP_append, h.refs]
    unfold users
    by_cases e : x = none
    · subst e; simp
    · simp [e, Ne.symm e]
  · intro d hd x hx
    rcases List.mem_append.1 hd with hd | hd
    · exact h.live d hd x hx
    · simp at hd; subst hd; simp at hx
  · intro d hd
    rcases List.mem_append.1 hd with hd | hd
    · exact h.names d hd
    · simp at hd; subst hd; rfl
  · intro x
    dsimp only
    rw [h.active]
    unfold users
    rw [List.countP_append]
    simp

theorem firstUser_some {h : Nat} {doms : List Dom} {start i : Nat} {d : Dom} (hf : firstUser h doms start = some (i, d)) :
    doms[i]? = some d ∧ d.use = some h := by
  unfold firstUser at hf
  rw [Option.map_eq_some_iff] at hf
  obtain ⟨⟨d', i'⟩, h1, h2⟩ := hf
  simp only [Prod.mk.injEq] at h2
  obtain ⟨rfl, rfl⟩ := h2
  have hm := List.mem_of_mem_drop (List.mem_of_find?_eq_some h1)
  have hp := List.find?_some h1
  exact ⟨List.mem_zipIdx_iff_getElem?.1 hm, by simpa using hp⟩

theorem firstUser_none {h : Nat} {doms : List Dom} {start : Nat} (hf : firstUser h doms start = none) :
    users (doms.drop start) (some h) = 0 := by
  unfold firstUser at hf
  rw [Option.map_eq_none_iff, List.find?_eq_none] at hf
  unfold users
  rw [List.countP_eq_zero]
  intro d hd
  have e : doms.drop start = (doms.zipIdx.drop start).map Prod.fst := by
    rw [List.map_drop, List.zipIdx_map_fst]
  rw [e] at hd
  obtain ⟨x, hx, rfl⟩ := List.mem_map.1 hd
  exact hf x hx

theorem users_split (doms : List Dom) (k : Nat) (h : Option Nat) :
    users doms h = users (doms.take k) h + users (doms.drop k) h := by
  unfold users
  rw [← List.countP_append, List.take_append_drop]

theorem remove_inv {flooding : Bool} {r : R} (h : Inv r) {a : Nat} (hf : FairRemove flooding r a) : Inv (remove flooding r a) := by
  have htot : users r.doms (some a) = users (r.doms.drop (if flooding then 1 else 0)) (some a) := by
    cases flooding with
    | true =>
      rw [users_split r.doms 1 (some a), hf.2 rfl]
      simp
    | false => simp
  have key : ∀ r' : R, Inv r' → r'.tree = r.tree → users r'.doms (some a) = 0 → Inv { r' with tree := r'.tree.filter (· ≠ a) } := by
    intro r' hi _ h0
    refine { hi with sorted := hi.sorted.filter _, live := ?_ }
    intro d hd x hx
    refine List.mem_filter.2 ⟨hi.live d hd x hx, ?_⟩
    have : x ≠ a := by
      rintro rfl
      have : 0 < users r'.doms (some x) := List.countP_pos_iff.2 ⟨d, hd, by simpa using hx⟩
      omega
    simpa using this
  unfold remove
  cases hfu : firstUser a r.doms (if flooding then 1 else 0) with
  | none =>
    dsimp only
    exact key r h rfl (htot.trans (firstUser_none hfu))
  | some x =>
    obtain ⟨i, d⟩ := x
    obtain ⟨h1, h2⟩ := firstUser_some hfu
    dsimp only
    refine key _ (removeAlg_inv h h1 h2) rfl ?_
    have hu := users_set (d' := { d with name := Name.none, use := none }) h1 (some a)
    rw [h2] at hu
    simp at hu
    have hle := hf.1
    show users (r.doms.set i { d with name := .none, use := none }) (some a) = 0
    omega

theorem step_inv {flooding : Bool} {r : R} (h : Inv r) (op : Op) (ops : List Op) (hf : Fair flooding r (op :: ops)) :
    Inv (step flooding r op) ∧ Fair flooding (step flooding r op) ops := by
  cases op with
  | add a =>
    refine ⟨?_, hf⟩
    cases flooding with
    | true => simp only [step, if_true, addMpr_eq]; exact add_inv h a
    | false => simp only [step]; exact add_inv h a
  | remove a => exact ⟨remove_inv h hf.1, hf.2⟩
  | domain => exact ⟨new_inv h, hf⟩
  | configure i n w => exact ⟨(apply_inv h i n w).1, hf⟩

theorem run_inv {flooding : Bool} (ops : List Op) {r : R} (h : Inv r) (hf : Fair flooding r ops) : Inv (run flooding r ops) := by
  induction ops generalizing r with
  | nil => exact h
  | cons op ops ih =>
    obtain ⟨h1, h2⟩ := step_inv h op ops hf
    exact ih h1 h2

/-! ## C225 -/

/-- **C225** (part: an algorithm is not removed while two domains, or the flooding domain, use it): at each time an algorithm is active
exactly if a domain uses it; it is never activated twice or deactivated while not active; every algorithm in use is registered. -/
theorem C225_active_partial (flooding : Bool) (ops : List Op) (hf : Fair flooding (R.init flooding) ops) :
    (∀ h, Active h (run flooding (R.init flooding) ops).log false = true ↔
      ∃ d ∈ (run flooding (R.init flooding) ops).doms, d.use = some h) ∧
    (∀ h, Alternates h (run flooding (R.init flooding) ops).log false) ∧
    ∀ d ∈ (run flooding (R.init flooding) ops).doms, ∀ h, d.use = some h → h ∈ (run flooding (R.init flooding) ops).tree := by
  have hi := run_inv ops (inv_init flooding) hf
  refine ⟨fun h => ?_, hi.alt, hi.live⟩
  rw [hi.active h]
  simp [users, List.countP_pos_iff]

theorem wanted_lookup {tree : List Nat} (hs : tree.Pairwise (· < ·)) (n : Name) : Wanted tree n (lookup tree (resolve tree n)) := by
  cases n with
  | any =>
    cases tree with
    | nil => exact .inl ⟨rfl, rfl⟩
    | cons x l =>
      refine .inr ⟨x, List.mem_cons_self, ?_, by simp [resolve, lookup]⟩
      intro y hy
      rcases List.mem_cons.1 hy with rfl | hy
      · exact Nat.le_refl _
      · exact Nat.le_of_lt ((List.pairwise_cons.1 hs).1 y hy)
  | alg x =>
    by_cases hx : x ∈ tree
    · exact .inl ⟨hx, by simp [resolve, lookup, hx]⟩
    · exact .inr ⟨hx, by simp [resolve, lookup, hx]⟩
  | empty => rfl
  | none => rfl
  | dflt => rfl

/-- **C225** (part, as above): a domain that is configured gets the willingness and the algorithm the configuration asks for, if it is
registered at this time, and the default one otherwise. -/
theorem C225_configured_partial (flooding : Bool) (ops : List Op) (hf : Fair flooding (R.init flooding) ops) (i : Nat) (n : Name) (w : Nat)
    (hi : i < (run flooding (R.init flooding) ops).doms.length) :
    ∃ d, (step flooding (run flooding (R.init flooding) ops) (.configure i n w)).doms[i]? = some d ∧ d.will = w ∧
      Wanted (run flooding (R.init flooding) ops).tree n d.use := by
  have hinv := run_inv ops (inv_init flooding) hf
  generalize run flooding (R.init flooding) ops = r at *
  obtain ⟨-, -, h3⟩ := apply_inv hinv i n w
  obtain ⟨d', h4, h5, h6⟩ := h3 _ (List.getElem?_eq_getElem hi)
  refine ⟨d', h4, h5, ?_⟩
  rcases h6 with ⟨hn, hu⟩ | hu
  · rw [hu]
    have hmem := List.getElem_mem hi
    have hok := hinv.names _ hmem
    have hlive := hinv.live _ hmem
    generalize r.doms[i] = d at *
    subst hn
    unfold NameOk at hok
    cases hd : d.name with
    | alg h => rw [hd] at hok; exact .inl ⟨hlive h hok, hok⟩
    | any => rw [hd] at hok; exact absurd hok (by simp)
    | empty => rw [hd] at hok; exact hok
    | none => rw [hd] at hok; exact hok
    | dflt => rw [hd] at hok; exact hok
  · rw [hu]
    exact wanted_lookup hinv.sorted n

/-- **C225**: the configuration of a domain leaves the others alone. -/
theorem C225_others (flooding : Bool) (r : R) (i j : Nat) (n : Name) (w : Nat) (hne : i ≠ j) :
    (step flooding r (.configure i n w)).doms[j]? = r.doms[j]? := by
  simp only [step]
  unfold apply
  cases hi : r.doms[i]? with
  | none => rfl
  | some d =>
    dsimp only
    split
    · exact List.getElem?_set_ne hne
    · split
      · simp only [link, removeAlg]
        rw [List.getElem?_set_ne hne, List.getElem?_set_ne hne, List.getElem?_set_ne hne]
      · simp only [link]
        rw [List.getElem?_set_ne hne, List.getElem?_set_ne hne]

/-- Two algorithms, two domains with a wildcard and a name, a change of mind, a removal. -/
def sampleOps : List Op :=
  [.add 7, .add 3, .domain, .domain, .configure 1 .any 5, .configure 2 (.alg 7) 2, .configure 2 (.alg 3) 2, .configure 1 .none 4, .remove 3]

example : Fair true (R.init true) sampleOps := by
  simp only [sampleOps, Fair, FairRemove, and_true]
  exact ⟨by decide +kernel, fun _ => by decide +kernel⟩
example : (run true (R.init true) sampleOps).log = [.enable 3, .enable 7, .disable 7, .disable 3] ∧
    (run true (R.init true) sampleOps).doms.map (·.use) = [none, none, none] := by decide +kernel
example : (run true (R.init true) (sampleOps.take 7)).doms = [⟨.empty, none, 0⟩, ⟨.alg 3, some 3, 5⟩, ⟨.alg 3, some 3, 2⟩] := by decide +kernel

/-- What one would expect: no domain uses an algorithm whose plugin has removed it. Only the first domain is reset (the loop is left with
`break`): every other domain keeps the pointer. -/
theorem C225_removed_counterexample (flooding : Bool) (r : R) (h i j : Nat) (d d' : Dom)
    (hf : firstUser h r.doms (if flooding then 1 else 0) = some (i, d)) (hj : r.doms[j]? = some d') (hu : d'.use = some h) (hne : i ≠ j) :
    (step flooding r (.remove h)).doms[j]?.map (·.use) = some (some h) ∧ h ∉ (step flooding r (.remove h)).tree := by
  simp only [step, remove, hf]
  refine ⟨?_, by simp⟩
  show (r.doms.set i _)[j]?.map (·.use) = some (some h)
  rw [List.getElem?_set_ne hne, hj, ← hu]
  rfl

example : let r := run false (R.init false) [.add 3, .domain, .domain, .configure 0 (.alg 3) 7, .configure 1 (.alg 3) 7]
    firstUser 3 r.doms 0 = some (0, ⟨.alg 3, some 3, 7⟩) ∧ r.doms[1]? = some ⟨.alg 3, some 3, 7⟩ := by decide +kernel

/-- The flooding domain is never reset. -/
theorem C225_flooding_counterexample (r : R) (h : Nat) (d : Dom) (h0 : r.doms[0]? = some d) (hu : d.use = some h) :
    (step true r (.remove h)).doms[0]?.map (·.use) = some (some h) ∧ h ∉ (step true r (.remove h)).tree := by
  simp only [step, remove, if_true]
  refine ⟨?_, by simp⟩
  cases hf : firstUser h r.doms 1 with
  | none => dsimp only; rw [h0, ← hu]; rfl
  | some x =>
    obtain ⟨i, d'⟩ := x
    have hi : i ≠ 0 := by
      unfold firstUser at hf
      rw [Option.map_eq_some_iff] at hf
      obtain ⟨⟨d2, i2⟩, h1, h2⟩ := hf
      simp only [Prod.mk.injEq] at h2
      obtain ⟨rfl, rfl⟩ := h2
      have hm := List.mem_of_find?_eq_some h1
      rw [List.mem_drop_iff_getElem] at hm
      obtain ⟨k, hk, he⟩ := hm
      rw [List.getElem_zipIdx] at he
      simp only [Prod.mk.injEq] at he
      omega
    show (r.doms.set i _)[0]?.map (·.use) = some (some h)
    rw [List.getElem?_set_ne hi, h0, ← hu]
    rfl

example : (run true (R.init true) [.add 3, .configure 0 (.alg 3) 7]).doms[0]? = some ⟨.alg 3, some 3, 7⟩ := by decide +kernel

/-- What one would expect, and what the loop in `nhdp_domain_mpr_add` is for: an algorithm that is registered after the configuration
that asks for it is used. No domain changes when an algorithm is registered: the loop applies the name the domain has now, which is "nothing
to do", and the name it was configured with is not kept. -/
theorem C225_late_counterexample (flooding : Bool) (r : R) (h : Nat) : (step flooding r (.add h)).doms = r.doms := by
  have : (addMetric r h).doms = r.doms := by unfold addMetric; split <;> rfl
  cases flooding with
  | true => simp only [step, if_true, addMpr_eq]; exact this
  | false => exact this

example : (run true (R.init true) [.configure 0 (.alg 3) 7, .add 3]).doms[0]? = some ⟨.dflt, none, 7⟩ := by decide +kernel

/-- What one would expect: the same configuration again changes nothing. With a wildcard the active algorithm is deactivated and activated
again (its state is lost), because the name in the domain is that of the algorithm. -/
theorem C225_wildcard_counterexample (flooding : Bool) (ops : List Op) (hf : Fair flooding (R.init flooding) ops) (i h : Nat) (d : Dom)
    (rest : List Nat) (ht : (run flooding (R.init flooding) ops).tree = h :: rest)
    (hi : (run flooding (R.init flooding) ops).doms[i]? = some d) (hu : d.use = some h)
    (h1 : users (run flooding (R.init flooding) ops).doms (some h) = 1) :
    (step flooding (run flooding (R.init flooding) ops) (.configure i .any d.will)).log =
      (run flooding (R.init flooding) ops).log ++ [.disable h, .enable h] := by
  have hinv := run_inv ops (inv_init flooding) hf
  generalize run flooding (R.init flooding) ops = r at *
  have hok := hinv.names d (List.mem_of_getElem? hi)
  have hn : d.name ≠ .any := by
    intro e
    unfold NameOk at hok
    rw [e] at hok
    exact hok
  have hr : r.ref (some h) = 1 := by rw [hinv.refs, h1]; rfl
  simp only [step, apply, hi]
  rw [if_neg hn, if_pos (by rw [hu]; simp)]
  have hres : lookup r.tree (resolve r.tree .any) = some h := by rw [ht]; simp [resolve, lookup]
  simp only [link, removeAlg, hres, hu]
  have e1 : bump r.ref (some h) (-1) (some h) = 0 := by unfold bump; rw [if_pos rfl, hr]; rfl
  have e2 : bump (bump (bump r.ref (some h) (-1)) none 1) none (-1) (some h) = 0 := by
    show bump (bump r.ref (some h) (-1)) none 1 (some h) = 0
    exact e1
  rw [if_pos e1, if_pos e2]
  simp

example : let r := run false (R.init false) [.add 3, .domain, .configure 0 .any 7]
    r.tree = [3] ∧ r.doms[0]? = some ⟨.alg 3, some 3, 7⟩ ∧ users r.doms (some 3) = 1 := by decide +kernel

/-! ## C226 -/

theorem recalcAll_get (alg : Nat → List Bool → List Bool) (i : Nat) (ds : List Mpr) (k : Nat) :
    (recalcAll alg i ds).1[k]? = ds[k]?.map fun d => (recalc (alg (i + k)) d).1 := by
  induction ds generalizing i k with
  | nil => rfl
  | cons d ds ih =>
    cases k with
    | zero => rfl
    | succ k =>
      simp only [recalcAll, List.getElem?_cons_succ]
      rw [ih, Nat.add_assoc, Nat.add_comm 1 k]

theorem recalcAll_ev (alg : Nat → List Bool → List Bool) (i : Nat) (ds : List Mpr) (j : Nat) :
    j ∈ (recalcAll alg i ds).2 ↔ ∃ k d, j = i + k ∧ ds[k]? = some d ∧ (recalc (alg j) d).2 = true := by
  induction ds generalizing i with
  | nil => simp [recalcAll]
  | cons d ds ih =>
    have hd : (∃ k d', j = i + k ∧ (d :: ds)[k]? = some d' ∧ (recalc (alg j) d').2 = true) ↔
        (j = i ∧ (recalc (alg i) d).2 = true) ∨ ∃ k d', j = i + 1 + k ∧ ds[k]? = some d' ∧ (recalc (alg j) d').2 = true := by
      constructor
      · rintro ⟨k, d', rfl, h2, h3⟩
        cases k with
        | zero => simp at h2; subst h2; exact .inl ⟨rfl, h3⟩
        | succ k => exact .inr ⟨k, d', by omega, by simpa using h2, h3⟩
      · rintro (⟨rfl, h⟩ | ⟨k, d', rfl, h2, h3⟩)
        · exact ⟨0, d, rfl, rfl, h⟩
        · exact ⟨k + 1, d', by omega, by simpa using h2, h3⟩
    rw [hd, ← ih (i + 1)]
    simp only [recalcAll]
    cases he : (recalc (alg i) d).2 with
    | true => simp
    | false => simp

/-- **C226**: a recalculation replaces the MPR set of each outdated domain by the one its algorithm selects, and leaves the others alone;
nothing is outdated then. The algorithm is asked twice if the set changes, so it has to give the same answer again. -/
theorem C226_sets (alg : Nat → List Bool → List Bool) (hid : ∀ i s, alg i (alg i s) = alg i s) (ds : List Mpr) (k : Nat) (d : Mpr)
    (hk : ds[k]? = some d) :
    (recalcAll alg 0 ds).1[k]? = some ⟨false, if d.outdated then alg k d.set else d.set⟩ := by
  rw [recalcAll_get, hk]
  obtain ⟨o, s⟩ := d
  simp only [Option.map_some, Nat.zero_add]
  cases o with
  | false => rfl
  | true =>
    simp only [recalc, if_true]
    split
    · rw [hid]
    · rfl

/-- **C226**: the listeners are called exactly for the outdated domains whose set changes. -/
theorem C226_listeners (alg : Nat → List Bool → List Bool) (ds : List Mpr) (k : Nat) :
    k ∈ (recalcAll alg 0 ds).2 ↔ ∃ d, ds[k]? = some d ∧ d.outdated = true ∧ alg k d.set ≠ d.set := by
  rw [recalcAll_ev]
  constructor
  · rintro ⟨k', d, e, h1, h2⟩
    rw [Nat.zero_add] at e
    subst e
    refine ⟨d, h1, ?_⟩
    unfold recalc at h2
    split at h2
    · next ho =>
      split at h2
      · next hc => exact ⟨ho, hc⟩
      · simp at h2
    · simp at h2
  · rintro ⟨d, h1, h2, h3⟩
    refine ⟨k, d, (Nat.zero_add k).symm, h1, ?_⟩
    unfold recalc
    rw [if_pos h2, if_pos h3]

/-- **C226**: a request marks exactly the domains it is for. -/
theorem C226_marked (which : Option Nat) (ds : List Mpr) (k : Nat) (d : Mpr) (hk : ds[k]? = some d) :
    (delay which ds)[k]? = some ⟨d.outdated || decide (which = none ∨ which = some k), d.set⟩ := by
  unfold delay
  cases which with
  | none => simp [hk]
  | some i =>
    dsimp only
    rw [List.getElem?_modify, hk]
    by_cases e : i = k
    · subst e; simp
    · simp [e]

/-- With nothing outdated nothing happens. -/
theorem C226_idle (alg : Nat → List Bool → List Bool) (ds : List Mpr) (h : ∀ d ∈ ds, d.outdated = false) : recalcAll alg 0 ds = (ds, []) := by
  have : ∀ i, recalcAll alg i ds = (ds, []) := by
    induction ds with
    | nil => intro i; rfl
    | cons d ds ih =>
      intro i
      simp only [recalcAll, ih (fun x hx => h x (List.mem_cons_of_mem _ hx)) (i + 1), recalc, h d List.mem_cons_self]
      simp
  exact this 0

/-- The set of a neighbor that has just become willing, seen by an algorithm that takes everyone. -/
example : recalcAll (fun _ s => s.map fun _ => true) 0 [⟨true, [true, false]⟩, ⟨false, [false]⟩, ⟨true, [true]⟩] =
    ([⟨false, [true, true]⟩, ⟨false, [false]⟩, ⟨false, [true]⟩], [0]) := by decide
example : ∀ s : List Bool, (s.map fun _ => true).map (fun _ => true) = s.map fun _ => true := by simp

/-- Without the condition on the algorithm the listeners hear of a change that has not happened: the answer to the second question counts. -/
theorem C226_twice_counterexample (alg : Nat → List Bool → List Bool) (s : List Bool) (h1 : alg 0 s ≠ s) (h2 : alg 0 (alg 0 s) = s) :
    recalcAll alg 0 [⟨true, s⟩] = ([⟨false, s⟩], [0]) := by
  simp [recalcAll, recalc, h1, h2]

example : (fun (_ : Nat) (s : List Bool) => s.map (!·)) 0 [true] ≠ [true] := by decide

end Verif.DomReg
