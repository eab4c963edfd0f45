import Verif.Nl80211.Db

/-! # Which data blocks a report, what counts as a change, which objects appear -/

namespace Verif.Nl80211

/-- somebody else with at least the priority of fresh data of the plugin (`OONF_LAYER2_ORIGIN_RELIABLE` + 1) has set the value -/
def Taken (c : Cell) : Prop := c.hasMeta = true ∧ ∃ p, c.org = some (.other p) ∧ 41 ≤ p

/-- exactly these values block a report -/
theorem C220_taken (c : Cell) : c.writable = false ↔ Taken c := by
  obtain ⟨m, o, v⟩ := c
  cases m with
  | false => simp [Cell.writable, Taken]
  | true =>
    cases o with
    | none => simp [Cell.writable, Taken]
    | some o =>
      cases o with
      | data => simp [Cell.writable, Taken, Org.prio]
      | updated => simp [Cell.writable, Taken]
      | other p => simp [Cell.writable, Taken, Org.prio]

example : Taken ⟨true, some (.other 50), 3⟩ := ⟨rfl, 50, rfl, by decide⟩
example : ¬ Taken ⟨true, some (.other 30), 3⟩ := by simp [Taken]

/-- a report changes data of the network: the place has no value or another one, and nobody else blocks it -/
def Alters (n : Net) (r : Rep) : Prop :=
  ∃ l v, (r = .net l v ∧ ¬ Taken (n.cell (.net l)) ∧ ((n.cell (.net l)).hasMeta = false ∨ (n.cell (.net l)).val ≠ v)) ∨
    (r = .dflt l v ∧ ¬ Taken (n.cell (.dflt l)) ∧ ((n.cell (.dflt l)).hasMeta = false ∨ (n.cell (.dflt l)).val ≠ v))

theorem setCell_changed (c : Cell) (v : Int) : (setCell c v).2 = true ↔ ¬ Taken c ∧ (c.hasMeta = false ∨ c.val ≠ v) := by
  rw [← C220_taken]
  cases hw : c.writable with
  | false => simp [setCell, hw]
  | true => cases hm : c.hasMeta <;> simp [setCell, hw, hm]

theorem report_changed (n : Net) (r : Rep) : (report n r).changed = true ↔ n.changed = true ∨ Alters n r := by
  cases r with
  | net i v =>
    have := setCell_changed (n.cell (.net i)) v
    simp only [report, Bool.or_eq_true, this]
    constructor
    · rintro (h | h)
      · exact .inl h
      · exact .inr ⟨i, v, .inl ⟨rfl, h⟩⟩
    · rintro (h | ⟨l, w, (⟨e, h⟩ | ⟨e, h⟩)⟩)
      · exact .inl h
      · cases e; exact .inr h
      · cases e
  | dflt i v =>
    have := setCell_changed (n.cell (.dflt i)) v
    simp only [report, Bool.or_eq_true, this]
    constructor
    · rintro (h | h)
      · exact .inl h
      · exact .inr ⟨i, v, .inr ⟨rfl, h⟩⟩
    · rintro (h | ⟨l, w, (⟨e, h⟩ | ⟨e, h⟩)⟩)
      · exact .inl h
      · cases e
      · cases e; exact .inr h
  | mpp m d =>
    have e : (report n (.mpp m d)).changed = n.changed := by simp only [report]; split <;> rfl
    rw [e]
    constructor
    · exact .inl
    · rintro (h | ⟨l, w, (⟨e, h⟩ | ⟨e, h⟩)⟩)
      · exact h
      · cases e
      · cases e
  | station m vs =>
    have f : ∀ (vs : List (Nat × Int)) (n : Net), (vs.foldl (fun n x => n.set (.sta m x.1) x.2) n).changed = n.changed := by
      intro vs
      induction vs with
      | nil => intro n; rfl
      | cons x vs ih => intro n; rw [List.foldl_cons]; exact ih _
    have e : (report n (.station m vs)).changed = n.changed := f vs n
    rw [e]
    constructor
    · exact .inl
    · rintro (h | ⟨l, w, (⟨e, h⟩ | ⟨e, h⟩)⟩)
      · exact h
      · cases e
      · cases e

/-- a series of queries counts (old data of the plugin is removed at its end) exactly when one of the reports changed data of the network -/
theorem C220_counts (rs : List Rep) (n : Net) :
    (rs.foldl report n).changed = true ↔
      n.changed = true ∨ ∃ pre r post, rs = pre ++ r :: post ∧ Alters (pre.foldl report n) r := by
  induction rs generalizing n with
  | nil => simp
  | cons r rs ih =>
    rw [List.foldl_cons, ih, report_changed]
    constructor
    · rintro ((h | h) | ⟨pre, r', post, e, h⟩)
      · exact .inl h
      · exact .inr ⟨[], r, rs, rfl, h⟩
      · exact .inr ⟨r :: pre, r', post, by rw [e]; rfl, h⟩
    · rintro (h | ⟨pre, r', post, e, h⟩)
      · exact .inl (.inl h)
      · cases pre with
        | nil => cases e; exact .inl (.inr h)
        | cons a pre => cases e; exact .inr ⟨pre, r', post, rfl, h⟩

example : (([.net 2 7, .net 3 0] : List Rep).foldl report {}).changed = true := by decide
example : (([.station 1 [(4, 5)]] : List Rep).foldl report {}).changed = false := by decide

theorem report_neigh (n : Net) (r : Rep) (m : Nat) : (report n r).neigh m = true ↔ n.neigh m = true ∨ ∃ vs, r = .station m vs := by
  cases r with
  | net i v => simp [report, Net.set]
  | dflt i v => simp [report, Net.set]
  | mpp a b =>
    have e : (report n (.mpp a b)).neigh = n.neigh := by simp only [report]; split <;> rfl
    simp [e]
  | station a vs =>
    have f : ∀ (vs : List (Nat × Int)) (n : Net), (vs.foldl (fun n x => n.set (.sta a x.1) x.2) n).neigh = n.neigh := by
      intro vs
      induction vs with
      | nil => intro n; rfl
      | cons x vs ih => intro n; rw [List.foldl_cons, ih]; rfl
    have e : (report n (.station a vs)).neigh m = if m = a then true else n.neigh m := by
      simp only [report]; rw [f]
    rw [e]
    by_cases h : m = a
    · subst h; simp
    · have : a ≠ m := fun e => h e.symm
      simp [h, this]

/-- neighbors appear with reports about them as stations, and with nothing else -/
theorem C220_neighbors (rs : List Rep) (n : Net) (m : Nat) :
    (round n rs).neigh m = true ↔ n.neigh m = true ∨ ∃ vs, Rep.station m vs ∈ rs := by
  have e : (round n rs).neigh = (rs.foldl report n).neigh := by unfold round finish; split <;> rfl
  rw [e]
  clear e
  induction rs generalizing n with
  | nil => simp
  | cons r rs ih =>
    rw [List.foldl_cons]
    refine (ih (report n r)).trans ?_
    rw [report_neigh]
    constructor
    · rintro ((h | ⟨vs, h⟩) | ⟨vs, h⟩)
      · exact .inl h
      · exact .inr ⟨vs, by rw [h]; exact List.mem_cons_self⟩
      · exact .inr ⟨vs, List.mem_cons_of_mem _ h⟩
    · rintro (h | ⟨vs, h⟩)
      · exact .inl (.inl h)
      · rcases List.mem_cons.1 h with h | h
        · exact .inl (.inr ⟨vs, h.symm⟩)
        · exact .inr ⟨vs, h⟩

theorem report_dest (n : Net) (r : Rep) (m d : Nat) :
    (report n r).dest m d ≠ none ↔ n.dest m d ≠ none ∨ (r = .mpp m d ∧ n.neigh m = true) := by
  cases r with
  | net i v => simp [report, Net.set]
  | dflt i v => simp [report, Net.set]
  | mpp a b =>
    simp only [report]
    cases hn : n.neigh a with
    | false =>
      rw [if_neg (by simp)]
      constructor
      · exact .inl
      · rintro (h | ⟨e, h⟩)
        · exact h
        · cases e; rw [hn] at h; simp at h
    | true =>
      rw [if_pos rfl]
      dsimp only
      by_cases e : m = a ∧ d = b
      · obtain ⟨rfl, rfl⟩ := e
        rw [if_pos ⟨rfl, rfl⟩]
        constructor
        · intro _; exact .inr ⟨rfl, hn⟩
        · intro _; split <;> simp
      · rw [if_neg e]
        constructor
        · exact .inl
        · rintro (h | ⟨e', -⟩)
          · exact h
          · cases e'; exact absurd ⟨rfl, rfl⟩ e
  | station a vs =>
    have f : ∀ (vs : List (Nat × Int)) (n : Net), (vs.foldl (fun n x => n.set (.sta a x.1) x.2) n).dest = n.dest := by
      intro vs
      induction vs with
      | nil => intro n; rfl
      | cons x vs ih => intro n; rw [List.foldl_cons, ih]; rfl
    have e : (report n (.station a vs)).dest = n.dest := by simp only [report]; rw [f]
    rw [e]
    simp

/-- a destination behind a neighbor appears with a report about it, if the neighbor is known by then -/
theorem C220_destinations (rs : List Rep) (n : Net) (m d : Nat) :
    (round n rs).dest m d ≠ none ↔
      n.dest m d ≠ none ∨ ∃ pre post, rs = pre ++ .mpp m d :: post ∧ (n.neigh m = true ∨ ∃ vs, Rep.station m vs ∈ pre) := by
  have e : (round n rs).dest m d ≠ none ↔ (rs.foldl report n).dest m d ≠ none := by
    unfold round finish
    split
    · show (if (rs.foldl report n).dest m d = some .updated then some Org.data else (rs.foldl report n).dest m d) ≠ none ↔ _
      split
      · next h => rw [h]; simp
      · rfl
    · rfl
  rw [e]
  clear e
  induction rs generalizing n with
  | nil => simp
  | cons r rs ih =>
    rw [List.foldl_cons]
    refine (ih (report n r)).trans ?_
    rw [report_dest]
    constructor
    · rintro ((h | ⟨rfl, h⟩) | ⟨pre, post, rfl, h⟩)
      · exact .inl h
      · exact .inr ⟨[], rs, rfl, .inl h⟩
      · refine .inr ⟨r :: pre, post, rfl, ?_⟩
        rcases h with h | ⟨vs, h⟩
        · rcases (report_neigh n r m).1 h with h | ⟨vs, rfl⟩
          · exact .inl h
          · exact .inr ⟨vs, List.mem_cons_self⟩
        · exact .inr ⟨vs, List.mem_cons_of_mem _ h⟩
    · rintro (h | ⟨pre, post, e, h⟩)
      · exact .inl (.inl h)
      · cases pre with
        | nil =>
          cases e
          rcases h with h | ⟨vs, h⟩
          · exact .inl (.inr ⟨rfl, h⟩)
          · simp at h
        | cons a pre =>
          cases e
          refine .inr ⟨pre, post, rfl, ?_⟩
          rw [report_neigh]
          rcases h with h | ⟨vs, h⟩
          · exact .inl (.inl h)
          · rcases List.mem_cons.1 h with h | h
            · exact .inl (.inr ⟨vs, h.symm⟩)
            · exact .inr ⟨vs, h⟩

example : (round {} [.station 1 [], .mpp 1 9]).dest 1 9 ≠ none := by decide
example : (round {} [.mpp 1 9, .station 1 []]).dest 1 9 = none := by decide

end Verif.Nl80211
