import Verif.ConstMetric.Model

/-! # Properties of configured link costs -/

namespace Verif.ConstMetric

/-! ## Specification -/

/-- the value configured for a neighbor in a section: the first one -/
def given (vs : List (Option (Option Nat × Nat))) (n : Option Nat) : Option Nat := (vs.findSome? fun v => v.bind fun x => if x.1 = n then some x.2 else none)

/-- the values of a section after a history of changes: those of its last change -/
def lastConfig (h : List (Option Nat × List (Option (Option Nat × Nat)))) (name : Option Nat) : List (Option (Option Nat × Nat)) :=
  match (h.filter fun x => x.1 = name).getLast? with
  | some x => x.2
  | none => []

/-- where to look for the cost of a link to a neighbor with a known originator, the most special first -/
def order (l : Lnk) (o : Nat) : List Key :=
  [⟨some l.ifname, some o⟩] ++ (l.partner.toList.map fun p => ⟨some l.ifname, p⟩) ++ [⟨none, some o⟩] ++ (l.partner.toList.map fun p => ⟨none, p⟩) ++ [⟨some l.ifname, none⟩, ⟨none, none⟩]

/-! ## Lemmas -/

theorem get_append (t u : Tree) (k : Key) : get (t ++ u) k = match get t k with | some c => some c | none => get u k := by
  unfold get
  rw [List.find?_append]
  cases t.find? fun x => x.1 = k <;> rfl

theorem get_insert (t : Tree) (k k' : Key) (c : Nat) : get (insert t k c) k' = match get t k' with | some c => some c | none => if k = k' then some c else none := by
  unfold insert
  by_cases h : (get t k).isSome = true
  · rw [if_pos h]
    cases hk : get t k' with
    | some c => rfl
    | none =>
      simp only
      rw [if_neg]
      rintro rfl
      rw [hk] at h
      cases h
  · rw [if_neg h, get_append]
    cases hk : get t k' with
    | some c => rfl
    | none =>
      by_cases hc : k = k' <;> simp [get, hc]

theorem get_insertAll (name : Option Nat) (k : Key) : ∀ (vs : List (Option (Option Nat × Nat))) (t : Tree),
    get (insertAll name t vs) k = match get t k with | some c => some c | none => if k.ifname = name then given vs k.neigh else none := by
  intro vs
  induction vs with
  | nil => intro t; unfold insertAll; cases get t k <;> simp [given]
  | cons v vs ih =>
    intro t
    cases v with
    | none =>
      rw [insertAll, ih]
      simp [given]
    | some x =>
      obtain ⟨n, c⟩ := x
      rw [insertAll, ih, get_insert]
      obtain ⟨ki, kn⟩ := k
      cases get t ⟨ki, kn⟩ with
      | some c => rfl
      | none =>
        by_cases h1 : ki = name
        · subst h1
          by_cases h2 : n = kn
          · subst h2; simp [given]
          · simp [given, h2]
        · have h3 : ¬ ((⟨name, n⟩ : Key) = ⟨ki, kn⟩) := by intro h; injection h with h _; exact h1 h.symm
          simp [h1, h3]

theorem get_filter (t : Tree) (name : Option Nat) (k : Key) : get (t.filter fun x => x.1.ifname ≠ name) k = if k.ifname = name then none else get t k := by
  unfold get
  rw [List.find?_filter]
  by_cases h : k.ifname = name
  · rw [if_pos h]
    have : (t.find? fun a => decide ((decide (a.1.ifname ≠ name)) = true ∧ decide (a.1 = k) = true)) = none := by
      rw [List.find?_eq_none]
      intro x _ hx
      simp only [decide_eq_true_eq] at hx
      exact hx.1 (by rw [hx.2]; exact h)
    rw [this]; rfl
  · rw [if_neg h]
    congr 1
    congr 1
    funext x
    by_cases hx : x.1 = k
    · simp [hx, h]
    · simp [hx]

/-! ## C213 -/

/-- the costs in use are those of the last configuration of each section; for a neighbor given twice the first one -/
theorem C213_config (h : List (Option Nat × List (Option (Option Nat × Nat)))) (name n : Option Nat) :
    get (h.foldl (fun t x => configure t x.1 x.2) []) ⟨name, n⟩ = given (lastConfig h name) n := by
  have key : ∀ (h : List (Option Nat × List (Option (Option Nat × Nat)))) (t : Tree),
      get (h.foldl (fun t x => configure t x.1 x.2) t) ⟨name, n⟩ = match (h.filter fun x => x.1 = name).getLast? with | some x => given x.2 n | none => get t ⟨name, n⟩ := by
    intro h
    induction h with
    | nil => intro t; rfl
    | cons x h ih =>
      intro t
      simp only [List.foldl_cons]
      rw [ih, List.filter_cons]
      have e : get (configure t x.1 x.2) ⟨name, n⟩ = if x.1 = name then given x.2 n else get t ⟨name, n⟩ := by
        unfold configure
        rw [get_insertAll, get_filter]
        by_cases hx : x.1 = name
        · simp [hx]
        · have : ¬ name = x.1 := fun h => hx h.symm
          simp only [hx, this, if_false]
          cases get t ⟨name, n⟩ <;> rfl
      rw [e]
      by_cases hx : x.1 = name
      · simp only [hx, decide_true, if_true, List.getLast?_cons]
        cases (h.filter fun x => x.1 = name).getLast? <;> rfl
      · simp [hx]
  rw [key]
  unfold lastConfig
  cases (h.filter fun x => x.1 = name).getLast? <;> rfl

example : get ([(none, [some (none, 500)]), (some 1, [some (some 9, 10), none, some (some 9, 20), some (none, 30)]), (none, [])].foldl (fun t x => configure t x.1 x.2) []) ⟨some 1, some 9⟩ = some 10 := by decide

/-- the order of the search for a neighbor with a known originator: this neighbor on this interface, then on any; then all neighbors on this
interface, then on any; else the link is not usable. With a dualstack partner its address counts as well, after that of the neighbor. -/
theorem C213_cost (t : Tree) (l : Lnk) (o : Nat) (ho : l.orig = some o) : cost t l = ((order l o).findSome? (get t)).getD 0xffffff := by
  unfold order
  unfold cost getPartner
  rw [if_neg (by rw [ho]; simp), ho]
  cases hl : l.partner with
  | none =>
    simp only [Option.toList_none, List.map_nil, List.cons_append, List.nil_append, List.findSome?_cons, List.findSome?_nil]
    cases get t ⟨some l.ifname, some o⟩ <;> cases get t ⟨none, some o⟩ <;> cases get t ⟨some l.ifname, none⟩ <;> cases get t ⟨none, none⟩ <;> rfl
  | some p =>
    simp only [Option.toList_some, List.map_cons, List.map_nil, List.cons_append, List.nil_append, List.findSome?_cons, List.findSome?_nil]
    cases get t ⟨some l.ifname, some o⟩ <;> cases get t ⟨some l.ifname, p⟩ <;> cases get t ⟨none, some o⟩ <;> cases get t ⟨none, p⟩ <;>
      cases get t ⟨some l.ifname, none⟩ <;> cases get t ⟨none, none⟩ <;> rfl

example : cost [(⟨none, none⟩, 1), (⟨some 3, none⟩, 2), (⟨none, some 9⟩, 3)] ⟨3, some 9, none, 0⟩ = 3 := by decide

/-- a neighbor that is configured for all interfaces, with a partner of which no originator is known: the costs for all neighbors of the interface
are taken instead -/
theorem C213_partner_counterexample (i o c d m : Nat) (hd : d ≠ c) (t : Tree) (h1 : get t ⟨some i, some o⟩ = none) (h2 : get t ⟨none, some o⟩ = some c) (h3 : get t ⟨some i, none⟩ = some d) :
    cost t ⟨i, some o, some none, m⟩ = d ∧ cost t ⟨i, some o, some none, m⟩ ≠ c ∧ cost t ⟨i, some o, none, m⟩ = c := by
  have e1 : cost t ⟨i, some o, some none, m⟩ = d := by simp [cost, getPartner, h1, h3]
  have e2 : cost t ⟨i, some o, none, m⟩ = c := by simp [cost, getPartner, h1, h2]
  exact ⟨e1, by rw [e1]; exact hd, e2⟩

/-- as long as the originators do not change, every link has its configured cost whenever the timer is not set -/
theorem C213_current_partial (ops : List Op) (hops : ∀ i o p, Op.learn i o p ∉ ops) (w : World) (h0 : w.timer = true ∨ ∀ l ∈ w.links, l.metric = cost w.tree l) :
    (run w ops).timer = true ∨ ∀ l ∈ (run w ops).links, l.metric = cost (run w ops).tree l := by
  have hcost : ∀ (t : Tree) (l : Lnk), cost t { l with metric := cost t l } = cost t l := by
    intro t l
    unfold cost getPartner
    by_cases h : l.orig = none
    · simp [h]
    · simp only [h, if_false]
  unfold run
  induction ops generalizing w with
  | nil => exact h0
  | cons op ops ih =>
    simp only [List.foldl_cons]
    apply ih (fun i o p h => hops i o p (List.mem_cons_of_mem _ h))
    cases op with
    | link l => exact .inl rfl
    | drop i =>
      rcases h0 with h | h
      · exact .inl h
      · exact .inr fun l hl => h l (List.mem_of_mem_eraseIdx hl)
    | conf name vs => exact .inl rfl
    | fire =>
      simp only [step]
      by_cases ht : w.timer = true
      · rw [if_pos ht]
        right
        intro l hl
        simp only [List.mem_map] at hl
        obtain ⟨x, _, rfl⟩ := hl
        exact (hcost _ _).symm
      · rw [if_neg ht]
        rcases h0 with h | h
        · exact absurd h ht
        · exact .inr h
    | learn i o p => exact absurd (List.mem_cons_self ..) (hops i o p)

/-- a link whose originator is learned after the timer fired never gets its configured cost, as long as no other link or section comes -/
theorem C213_learn_counterexample : ∀ n, (run {} ([Op.conf (some 1) [some (none, 50)], .link ⟨1, none, none, INFINITE⟩, .fire, .learn 0 (some 9) none] ++ List.replicate n .fire)).links =
    [⟨1, some 9, none, INFINITE⟩] ∧ cost (run {} [Op.conf (some 1) [some (none, 50)]]).tree ⟨1, some 9, none, INFINITE⟩ = 50 := by
  intro n
  have base : run {} [Op.conf (some 1) [some (none, 50)], .link ⟨1, none, none, INFINITE⟩, .fire, .learn 0 (some 9) none] =
      ⟨[(⟨some 1, none⟩, 50)], false, [⟨1, some 9, none, INFINITE⟩]⟩ := by decide
  refine ⟨?_, by decide⟩
  have e : ∀ n, run ⟨[(⟨some 1, none⟩, 50)], false, [⟨1, some 9, none, INFINITE⟩]⟩ (List.replicate n .fire) = ⟨[(⟨some 1, none⟩, 50)], false, [⟨1, some 9, none, INFINITE⟩]⟩ := by
    intro n
    induction n with
    | zero => rfl
    | succ n ih =>
      rw [List.replicate_succ]
      unfold run at ih ⊢
      rw [List.foldl_cons]
      exact ih
  unfold run at base e ⊢
  rw [List.foldl_append, base, e]

end Verif.ConstMetric
