import Verif.Nl80211.Spec

/-! # Wireless interfaces: the database after a series of queries -/

namespace Verif.Nl80211

theorem lastOf_append (l : Loc) (a b : List (Loc × Int)) : lastOf l (a ++ b) = match lastOf l b with | some v => some v | none => lastOf l a := by
  induction a with
  | nil => simp only [List.nil_append, lastOf]; cases lastOf l b <;> rfl
  | cons x xs ih =>
    rw [List.cons_append]
    simp only [lastOf, ih]
    cases lastOf l b <;> rfl

/-- relation of a cell before (`c0`) and during (`c`) a round in which `v` was the last report -/
def During (c0 c : Cell) (v : Option Int) : Prop :=
  match v with
  | some x => if c0.writable then c = ⟨true, some .updated, x⟩ else c = c0
  | none => c = c0 ∨ c = c0.clean

theorem writable_updated (v : Int) : (⟨true, some .updated, v⟩ : Cell).writable = true := by simp [Cell.writable]

theorem clean_writable (c : Cell) : c.clean.writable = c.writable := by
  unfold Cell.clean
  split
  · next h => obtain ⟨m, o, v⟩ := c; simp only at h; subst h; cases m <;> simp [Cell.writable, Org.prio]
  · rfl

theorem clean_clean (c : Cell) : c.clean.clean = c.clean := by
  unfold Cell.clean
  split
  · rfl
  · rfl

theorem clean_blocked (c : Cell) (h : c.writable = false) : c.clean = c := by
  unfold Cell.clean
  rw [if_neg]
  intro e
  obtain ⟨m, o, v⟩ := c
  simp only at e
  subst e
  cases m <;> simp [Cell.writable, Org.prio] at h

theorem during_set (c0 c : Cell) (v : Option Int) (h : During c0 c v) (x : Int) : During c0 (setCell c x).1 (some x) := by
  have hw : c.writable = c0.writable := by
    cases v with
    | none => rcases h with rfl | rfl; rfl; exact clean_writable c0
    | some y =>
      unfold During at h
      by_cases hc : c0.writable = true
      · simp only [hc, if_true] at h; rw [h, hc]; exact writable_updated y
      · simp only [hc] at h; rw [h]
  unfold During setCell
  by_cases hc : c0.writable = true
  · simp [hw, hc]
  · simp only [hw, hc]
    cases v with
    | none =>
      rcases h with rfl | rfl
      · simp
      · simp only [Bool.not_eq_true] at hc; simp [clean_blocked c0 hc]
    | some y =>
      unfold During at h
      simp only [hc] at h
      simpa using h

theorem during_clean (c0 c : Cell) (v : Option Int) (h : During c0 c v) : During c0 c.clean v := by
  cases v with
  | none =>
    rcases h with rfl | rfl
    · exact .inr rfl
    · exact .inr (clean_clean c0)
  | some y =>
    unfold During at *
    by_cases hc : c0.writable = true
    · simp only [hc, if_true] at *; rw [h]; rfl
    · have hf : c0.writable = false := by simpa using hc
      simp only [hf, Bool.false_eq_true, if_false] at h ⊢
      rw [h, clean_blocked c0 hf]

theorem set_cell (n : Net) (l l' : Loc) (v : Int) : (n.set l v).cell l' = if l' = l then (setCell (n.cell l) v).1 else n.cell l' := rfl

theorem during_setN (n0 n : Net) (l l' : Loc) (x : Int) (acc : List (Loc × Int)) (h : During (n0.cell l') (n.cell l') (lastOf l' acc)) :
    During (n0.cell l') ((n.set l x).cell l') (lastOf l' (acc ++ [(l, x)])) := by
  rw [set_cell, lastOf_append]
  by_cases e : l' = l
  · subst e
    simp only [lastOf, if_true]
    exact during_set _ _ _ h x
  · have e' : ¬ l = l' := fun h => e h.symm
    simp only [lastOf, if_neg e, if_neg e']
    exact h

theorem during_report (n0 n : Net) (r : Rep) (l : Loc) (acc : List (Loc × Int)) (h : ∀ l, During (n0.cell l) (n.cell l) (lastOf l acc)) :
    During (n0.cell l) ((report n r).cell l) (lastOf l (acc ++ values r)) := by
  cases r with
  | net i v => exact during_setN n0 n _ l v acc (h l)
  | dflt i v => exact during_setN n0 n _ l v acc (h l)
  | mpp m d =>
    simp only [values, List.append_nil]
    have : (report n (.mpp m d)).cell = n.cell := by simp only [report]; split <;> rfl
    rw [this]
    exact h l
  | station m vs =>
    have key : ∀ (vs : List (Nat × Int)) (n : Net) (acc : List (Loc × Int)), (∀ l, During (n0.cell l) (n.cell l) (lastOf l acc)) →
        ∀ l, During (n0.cell l) ((vs.foldl (fun n x => n.set (.sta m x.1) x.2) n).cell l) (lastOf l (acc ++ vs.map fun x => (.sta m x.1, x.2))) := by
      intro vs
      induction vs with
      | nil => intro n acc h l; simpa using h l
      | cons x vs ih =>
        intro n acc h l
        have := ih (n.set (.sta m x.1) x.2) (acc ++ [(.sta m x.1, x.2)]) (fun l => during_setN n0 n _ l x.2 acc (h l)) l
        simpa [List.append_assoc] using this
    have h1 := key vs n acc h l
    simp only [report, values]
    cases l with
    | net i => exact h1
    | dflt i => exact h1
    | sta k i =>
      by_cases e : k = m
      · simp only [e, if_true] at *; exact during_clean _ _ _ h1
      · simp only [e, if_false]; exact h1

theorem during_all (n0 : Net) : ∀ (rs : List Rep) (n : Net) (acc : List (Loc × Int)), (∀ l, During (n0.cell l) (n.cell l) (lastOf l acc)) →
    ∀ l, During (n0.cell l) ((rs.foldl report n).cell l) (lastOf l (acc ++ rs.flatMap values)) := by
  intro rs
  induction rs with
  | nil => intro n acc h l; simpa using h l
  | cons r rs ih =>
    intro n acc h l
    have := ih (report n r) (acc ++ values r) (fun l => during_report n0 n r l acc h) l
    simpa [List.append_assoc] using this

/-- each value that was reported is there after the queries, unless someone of higher priority has written there -/
theorem C220_reported (n : Net) (rs : List Rep) (l : Loc) (v : Int) (h : lastOf l (rs.flatMap values) = some v) (hw : (n.cell l).writable = true)
    (hl : l ≠ .net mcsIdx) : shown (round n rs) l = some v := by
  have h1 := during_all n rs n [] (fun l => .inl rfl) l
  rw [List.nil_append, h] at h1
  simp only [During, hw, if_true] at h1
  unfold round finish
  split
  · simp only [shown, set_cell, if_neg hl, h1, Cell.clean, Cell.relabel]
    simp
  · simp only [shown, h1]

/-- data of higher priority is never touched -/
theorem C220_blocked (n : Net) (rs : List Rep) (l : Loc) (hw : (n.cell l).writable = false) : (round n rs).cell l = n.cell l := by
  have h1 := during_all n rs n [] (fun l => .inl rfl) l
  rw [List.nil_append] at h1
  have hu : (n.cell l).org ≠ some .updated := by
    intro e
    cases hm : (n.cell l).hasMeta <;> simp [Cell.writable, hm, e] at hw
  have h2 : (rs.foldl report n).cell l = n.cell l := by
    cases hv : lastOf l (rs.flatMap values) with
    | none => rw [hv] at h1; rcases h1 with h1 | h1; exact h1; rw [h1, clean_blocked _ hw]
    | some v => rw [hv] at h1; simpa [During, hw] using h1
  have h3 : ∀ c : Cell, c = n.cell l → (setCell c 1).1 = n.cell l := by
    intro c hc; subst hc; simp [setCell, hw]
  unfold round finish
  split
  · show (((if l = .net mcsIdx then (setCell ((rs.foldl report n).cell (.net mcsIdx)) 1).1 else (rs.foldl report n).cell l)).clean).relabel = _
    have : (if l = .net mcsIdx then (setCell ((rs.foldl report n).cell (.net mcsIdx)) 1).1 else (rs.foldl report n).cell l) = n.cell l := by
      split
      · next e => rw [← e]; exact h3 _ h2
      · exact h2
    rw [this, clean_blocked _ hw, Cell.relabel, if_neg hu]
  · exact h2

theorem hidden (c : Cell) (hw : c.writable = false) : (match c.hasMeta, c.org with
    | true, some Org.data => some c.val
    | true, some Org.updated => some c.val
    | _, _ => none) = if false = true then lastOf (.net 0) [] else none := by
  obtain ⟨m, o, v⟩ := c
  cases m
  · rfl
  · cases o with
    | none => rfl
    | some o => cases o with
      | other p => rfl
      | data => simp [Cell.writable, Org.prio] at hw
      | updated => simp [Cell.writable] at hw

/-- after a series of queries in which some data of the network has changed, the database shows what was reported in it and nothing else -/
theorem C220_round_partial (n : Net) (rs : List Rep) (hs : Settled n) (hc : (rs.foldl report n).changed = true) :
    Settled (round n rs) ∧ ∀ l, shown (round n rs) l = expected n rs l := by
  have h1 := during_all n rs n [] (fun l => .inl rfl)
  simp only [List.nil_append] at h1
  have h2 : ∀ l, During (n.cell l) (((rs.foldl report n).set (.net mcsIdx) 1).cell l) (lastOf l (rs.flatMap values ++ [(.net mcsIdx, 1)])) :=
    fun l => during_setN n _ _ l 1 _ (h1 l)
  have h3 : ∀ l, (round n rs).cell l = ((((rs.foldl report n).set (.net mcsIdx) 1).cell l).clean).relabel := by
    intro l; simp only [round, finish, hc, if_true]
  refine ⟨⟨by simp only [round, finish, hc, if_true], fun l => ?_⟩, fun l => ?_⟩
  · rw [h3, Cell.relabel]
    split
    · simp
    · next h => exact h
  · simp only [shown, h3, expected]
    have h4 := h2 l
    cases hv : lastOf l (rs.flatMap values ++ [(.net mcsIdx, 1)]) with
    | some v =>
      rw [hv] at h4
      by_cases hw : (n.cell l).writable = true
      · simp only [During, hw, if_true] at h4
        simp [h4, Cell.clean, Cell.relabel, hw]
      · simp only [Bool.not_eq_true] at hw
        have hu := hs.2 l
        simp [During, hw] at h4
        rw [h4, clean_blocked _ hw, Cell.relabel, if_neg hu, hw]
        exact hidden _ hw
    | none =>
      rw [hv] at h4
      have h5 : ∀ c, c = (n.cell l).clean → (match c.relabel.hasMeta, c.relabel.org with
          | true, some Org.data => some c.relabel.val
          | true, some Org.updated => some c.relabel.val
          | _, _ => none) = none := by
        intro c hcc
        have hu := hs.2 l
        have : c.org ≠ some .updated ∧ c.org ≠ some .data := by
          rw [hcc, Cell.clean]
          split
          · simp
          · next h => exact ⟨hu, h⟩
        rw [Cell.relabel, if_neg this.1]
        obtain ⟨m, o, v⟩ := c
        cases m
        · rfl
        · cases o with
          | none => rfl
          | some o => cases o with
            | data => exact absurd rfl this.2
            | updated => exact absurd rfl this.1
            | other p => rfl
      have h6 := h5 ((((rs.foldl report n).set (.net mcsIdx) 1).cell l).clean) (by
        rcases h4 with h4 | h4
        · rw [h4]
        · rw [h4, clean_clean])
      refine Eq.trans h6 ?_
      simp

/-- a concrete series: the noise of the network has changed; station 1 is gone, station 2 is new -/
def demo0 : Net := round {} [.net 4 (-90), .station 1 [(0, 5), (1, 6)], .station 3 [(0, 9)]]
def demo1 : List Rep := [.net 4 (-91), .station 2 [(0, 7)], .station 3 [(1, 8)]]

example : Settled {} ∧ (demo1.foldl report demo0).changed = true ∧ shown demo0 (.sta 1 1) = some 6 ∧ shown (round demo0 demo1) (.sta 1 1) = none ∧ shown (round demo0 demo1) (.sta 2 0) = some 7 ∧
    shown (round demo0 demo1) (.sta 3 0) = none ∧ shown (round demo0 demo1) (.sta 3 1) = some 8 ∧ shown (round demo0 demo1) (.net 4) = some (-91) :=
  ⟨⟨rfl, fun _ => by simp⟩, by decide, by decide, by decide, by decide, by decide, by decide, by decide⟩

/-- without a change of the data of the network nothing is ever removed: a station that left is shown for ever -/
theorem C220_stale_counterexample (rss : List (List Rep)) (n : Net) (m i : Nat) (v : Int) (hv : shown n (.sta m i) = some v)
    (hq : ∀ rs ∈ rss, ∀ r ∈ rs, ∀ vs, r ≠ .station m vs)
    (hc : ∀ k, k < rss.length → ((rss.getD k []).foldl report ((rss.take k).foldl round n)).changed = false) :
    shown (rss.foldl round n) (.sta m i) = some v := by
  have cell1 : ∀ (n : Net) (r : Rep), (∀ vs, r ≠ .station m vs) → (report n r).cell (.sta m i) = n.cell (.sta m i) := by
    intro n r hr
    cases r with
    | net j x => simp [report, set_cell]
    | dflt j x => simp [report, set_cell]
    | mpp a d => simp only [report]; split <;> rfl
    | station a vs =>
      have ha : m ≠ a := fun e => hr vs (e ▸ rfl)
      have : ∀ (vs : List (Nat × Int)) (n : Net), (vs.foldl (fun n x => n.set (.sta a x.1) x.2) n).cell (.sta m i) = n.cell (.sta m i) := by
        intro vs
        induction vs with
        | nil => intro n; rfl
        | cons x vs ih => intro n; rw [List.foldl_cons, ih]; simp [set_cell, ha]
      simp only [report, if_neg ha]
      exact this vs n
  have cells : ∀ (rs : List Rep) (n : Net), (∀ r ∈ rs, ∀ vs, r ≠ .station m vs) → (rs.foldl report n).cell (.sta m i) = n.cell (.sta m i) := by
    intro rs
    induction rs with
    | nil => intro n _; rfl
    | cons r rs ih =>
      intro n h
      rw [List.foldl_cons, ih _ (fun r hr => h r (List.mem_cons_of_mem _ hr)), cell1 n r (h r (List.mem_cons_self ..))]
  induction rss generalizing n with
  | nil => exact hv
  | cons rs rss ih =>
    rw [List.foldl_cons]
    have h0 := hc 0 (by simp)
    simp only [List.getD_cons_zero, List.take_zero, List.foldl_nil] at h0
    refine ih (round n rs) ?_ (fun rs' h => hq rs' (List.mem_cons_of_mem _ h)) ?_
    · have : (round n rs).cell (.sta m i) = n.cell (.sta m i) := by
        unfold round finish
        rw [if_neg (by simp [h0])]
        exact cells rs n (hq rs (List.mem_cons_self ..))
      simp only [shown, this] at hv ⊢
      exact hv
    · intro k hk
      have := hc (k + 1) (by simp; omega)
      simpa using this

/-- for example if the driver has no survey: the same channel, and station 1 is gone -/
example : shown (round (round {} [.net 0 2412, .station 1 [(0, 5)]]) [.net 0 2412, .station 2 [(0, 7)]]) (.sta 1 0) = some 5 ∧
    ([Rep.net 0 2412, .station 2 [(0, 7)]].foldl report (round {} [.net 0 2412, .station 1 [(0, 5)]])).changed = false := by decide

/-- neighbor objects and destinations are never removed, whatever is reported -/
theorem C220_objects_counterexample (n : Net) (rs : List Rep) (m d : Nat) :
    (n.neigh m = true → (round n rs).neigh m = true) ∧ (n.dest m d ≠ none → (round n rs).dest m d ≠ none) := by
  have foldN : ∀ (m : Nat) (vs : List (Nat × Int)) (n : Net), (vs.foldl (fun n x => n.set (.sta m x.1) x.2) n).neigh = n.neigh ∧ (vs.foldl (fun n x => n.set (.sta m x.1) x.2) n).dest = n.dest := by
    intro m vs
    induction vs with
    | nil => intro n; exact ⟨rfl, rfl⟩
    | cons x vs ih => intro n; rw [List.foldl_cons]; exact ih _
  have one : ∀ (n : Net) (r : Rep), (n.neigh m = true → (report n r).neigh m = true) ∧ (n.dest m d ≠ none → (report n r).dest m d ≠ none) := by
    intro n r
    cases r with
    | net i v => exact ⟨id, id⟩
    | dflt i v => exact ⟨id, id⟩
    | mpp a b =>
      refine ⟨?_, ?_⟩
      · intro h; simp only [report]; split <;> exact h
      · intro h
        simp only [report]
        split
        · simp only
          by_cases e : m = a ∧ d = b
          · rw [if_pos e]
            split <;> simp
          · rw [if_neg e]; exact h
        · exact h
    | station a vs =>
      refine ⟨?_, ?_⟩
      · intro h; simp only [report]; split; rfl; rw [(foldN a vs n).1]; exact h
      · intro h; simp only [report]; rw [(foldN a vs n).2]; exact h
  have all : ∀ (rs : List Rep) (n : Net), (n.neigh m = true → (rs.foldl report n).neigh m = true) ∧ (n.dest m d ≠ none → (rs.foldl report n).dest m d ≠ none) := by
    intro rs
    induction rs with
    | nil => intro n; exact ⟨id, id⟩
    | cons r rs ih => intro n; exact ⟨fun h => (ih _).1 ((one n r).1 h), fun h => (ih _).2 ((one n r).2 h)⟩
  unfold round finish
  split
  · refine ⟨(all rs n).1, fun h => ?_⟩
    have := (all rs n).2 h
    show (if (rs.foldl report n).dest m d = some .updated then some Org.data else (rs.foldl report n).dest m d) ≠ none
    split
    · simp
    · exact this
  · exact all rs n

end Verif.Nl80211
