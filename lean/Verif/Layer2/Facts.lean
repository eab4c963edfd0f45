import Verif.Layer2.Wf
/-
Which facts remain after the removal of an originator: helper lemmas.
-/
namespace Verif.Layer2
open Verif.Netaddr

/-- effect of `netRemove` on one network -/
def keepNet (o : Oid) (n : Net) : Option Net :=
  if (n.strip o).2 && (n.strip o).1.unused then none else some (n.strip o).1

theorem removeLoop_own (o : Oid) : ∀ (ks : List Key) (s : Net × Bool),
    (Net.removeLoop o ks s).1.name = s.1.name ∧ (Net.removeLoop o ks s).1.peers = s.1.peers
  | [], _ => ⟨rfl, rfl⟩
  | k :: ks, s => by
    have ih := removeLoop_own o ks ((s.1.neighRemove k o).1, s.2 || (s.1.neighRemove k o).2)
    have h := neighRemove_own s.1 k o
    exact ⟨ih.1.trans h.1, ih.2.trans h.2⟩

theorem strip_name (n : Net) (o : Oid) : (n.strip o).1.name = n.name := (removeLoop_own o _ (n, false)).1
theorem strip_peers (n : Net) (o : Oid) : (n.strip o).1.peers = n.peers := (removeLoop_own o _ (n, false)).2

theorem keepNet_some {o : Oid} {n n' : Net} (h : keepNet o n = some n') : n' = (n.strip o).1 := by
  unfold keepNet at h
  split at h
  · cases h
  · exact (Option.some.inj h).symm

theorem keepNet_name (o : Oid) (n n' : Net) (h : keepNet o n = some n') : n'.name = n.name := by
  rw [keepNet_some h, strip_name]

theorem netRemove_nets {db : Db} (hw : db.WF) (name : List UInt8) (o : Oid) :
    (db.netRemove name o).nets = db.nets.filterMap (fun n => if n.name = name then keepNet o n else some n) := by
  unfold Db.netRemove
  cases h : db.nets.find? (fun n => n.name == name) with
  | none =>
    exact (filterMap_other Net.name _ (find_none Net.name h)).symm
  | some n =>
    obtain ⟨a, b, e, rfl, ha, hb⟩ := net_split hw h
    dsimp only
    rw [updNet_at e ha hb]
    dsimp only [Option.toList_some, List.cons_append, List.nil_append]
    rw [e, filterMap_at Net.name _ rfl ha hb]
    unfold keepNet
    by_cases hc : (n.strip o).2 = true
    · rw [if_pos hc]
      unfold Db.netCommit
      have ha' : ∀ x ∈ a, x.name ≠ (n.strip o).1.name := by rw [strip_name]; exact ha
      have hb' : ∀ x ∈ b, x.name ≠ (n.strip o).1.name := by rw [strip_name]; exact hb
      have hf : List.find? (fun x => x.name == n.name) (a ++ (n.strip o).1 :: b) = some (n.strip o).1 :=
        find_at Net.name (strip_name n o) ha
      dsimp only
      rw [hf]
      dsimp only
      by_cases hu : (n.strip o).1.unused = true
      · rw [if_pos hu, if_pos (by rw [hc, hu]; rfl)]
        have := dropNet_at (db := { db with nets := a ++ (n.strip o).1 :: b }) (n := (n.strip o).1) rfl ha' hb'
        rw [strip_name] at this
        rw [this]
        rfl
      · rw [if_neg hu, if_neg (by simp [hu])]
        rfl
    · rw [if_neg hc, if_neg (by simp [hc])]
      rfl

theorem foldRemove_nets (o : Oid) : ∀ (names : List (List UInt8)) (db : Db), db.WF →
    (names.foldl (fun db name => db.netRemove name o) db).nets
      = names.foldl (fun l name => l.filterMap (fun n => if n.name = name then keepNet o n else some n)) db.nets
  | [], _, _ => rfl
  | name :: names, db, h => by
    rw [List.foldl_cons, List.foldl_cons, foldRemove_nets o names _ (DbWF_netRemove h name o), netRemove_nets h]

theorem originRemove_nets {db : Db} (hw : db.WF) {o : Oid} (ho : o ∈ db.origins) :
    (db.originRemove o).nets = db.nets.filterMap (keepNet o) := by
  unfold Db.originRemove
  rw [if_neg (by simpa using ho)]
  dsimp only
  rw [foldRemove_nets o _ db hw, foldl_filterMap Net.name _ (keepNet_name o) _ _ hw.names]
  apply filterMap_ext'
  intro x hx
  rw [if_pos (List.mem_map_of_mem hx)]

/-! ### facts -/

theorem strip_neighs {n : Net} (hw : n.WF) (o : Oid) : (n.strip o).1.neighs = n.neighs.filterMap (keepStrip o) :=
  removeLoop_all o n hw.keys

theorem strip_data {n : Net} (hw : n.WF) (o : Oid) :
    (n.strip o).1.data = cleanup o n.data ∧ (n.strip o).1.neighData = cleanup o n.neighData := by
  have h := (removeLoop_spec o (n.neighs.map (·.key)) n false hw.keys).2
  constructor
  · show cleanup o (Net.removeLoop o (n.neighs.map (·.key)) (n, false)).1.data = _
    rw [h.2.1]
  · show cleanup o (Net.removeLoop o (n.neighs.map (·.key)) (n, false)).1.neighData = _
    rw [h.2.2.1]

/-- a stripped neighbor with a fact is kept -/
theorem keepStrip_kept {o : Oid} {g : Neigh} (h : ¬ (g.strip o).unused = true) : keepStrip o g = some (g.strip o) := by
  unfold keepStrip
  rw [if_neg (by simp [h])]

theorem strip_holds {n : Net} (hw : n.WF) (o : Oid) (l : Loc) (hl : l.notPeer) (o' : Oid) (c : Option (Meta × Value)) :
    Holds (n.strip o).1 l o' c ↔ Holds n l o' c ∧ o' ≠ o := by
  cases l with
  | metric i =>
    show (∃ m v, (n.strip o).1.data[i]? = _ ∧ _) ↔ (∃ m v, _ ∧ _) ∧ _
    rw [(strip_data hw o).1]
    constructor
    · rintro ⟨m, v, h, e⟩
      rw [cleanup_get] at h
      exact ⟨⟨m, v, h.1, e⟩, h.2⟩
    · rintro ⟨⟨m, v, h, e⟩, hne⟩
      exact ⟨m, v, (cleanup_get o n.data i v m o').2 ⟨h, hne⟩, e⟩
  | default i =>
    show (∃ m v, (n.strip o).1.neighData[i]? = _ ∧ _) ↔ (∃ m v, _ ∧ _) ∧ _
    rw [(strip_data hw o).2]
    constructor
    · rintro ⟨m, v, h, e⟩
      rw [cleanup_get] at h
      exact ⟨⟨m, v, h.1, e⟩, h.2⟩
    · rintro ⟨⟨m, v, h, e⟩, hne⟩
      exact ⟨m, v, (cleanup_get o n.neighData i v m o').2 ⟨h, hne⟩, e⟩
  | peer ip => exact absurd hl (by simp [Loc.notPeer])
  | neighMetric k i =>
    show (∃ g ∈ (n.strip o).1.neighs, _) ↔ (∃ g ∈ n.neighs, _) ∧ _
    rw [strip_neighs hw o]
    constructor
    · rintro ⟨g', hg', hk, m, v, h, e⟩
      obtain ⟨g, hg, hs⟩ := List.mem_filterMap.1 hg'
      rw [keepStrip_some hs] at h hk
      have h : (cleanup o g.data)[i]? = _ := h
      rw [cleanup_get] at h
      exact ⟨⟨g, hg, hk, m, v, h.1, e⟩, h.2⟩
    · rintro ⟨⟨g, hg, hk, m, v, h, e⟩, hne⟩
      have h' := (cleanup_get o g.data i v m o').2 ⟨h, hne⟩
      refine ⟨g.strip o, List.mem_filterMap.2 ⟨g, hg, keepStrip_kept ?_⟩, hk, m, v, h', e⟩
      rw [neigh_unused_iff]
      exact fun hu => hu.2.2 ⟨i, v, m, o', h'⟩
  | neighIp k ip =>
    show (∃ g ∈ (n.strip o).1.neighs, _) ↔ (∃ g ∈ n.neighs, _) ∧ _
    rw [strip_neighs hw o]
    constructor
    · rintro ⟨g', hg', hk, h, e⟩
      obtain ⟨g, hg, hs⟩ := List.mem_filterMap.1 hg'
      rw [keepStrip_some hs] at h hk
      have h := (mem_strip o g.ips ip o').1 h
      exact ⟨⟨g, hg, hk, h.1, e⟩, h.2⟩
    · rintro ⟨⟨g, hg, hk, h, e⟩, hne⟩
      have h' := (mem_strip o g.ips ip o').2 ⟨h, hne⟩
      refine ⟨g.strip o, List.mem_filterMap.2 ⟨g, hg, keepStrip_kept ?_⟩, hk, h', e⟩
      rw [neigh_unused_iff]
      intro hu
      have h2 : (ip, o') ∈ (g.strip o).ips := h'
      rw [hu.2.1] at h2
      cases h2
  | dest k mac =>
    show (∃ g ∈ (n.strip o).1.neighs, _) ↔ (∃ g ∈ n.neighs, _) ∧ _
    rw [strip_neighs hw o]
    constructor
    · rintro ⟨g', hg', hk, h, e⟩
      obtain ⟨g, hg, hs⟩ := List.mem_filterMap.1 hg'
      rw [keepStrip_some hs] at h hk
      have h := (mem_strip o g.dests mac o').1 h
      exact ⟨⟨g, hg, hk, h.1, e⟩, h.2⟩
    · rintro ⟨⟨g, hg, hk, h, e⟩, hne⟩
      have h' := (mem_strip o g.dests mac o').2 ⟨h, hne⟩
      refine ⟨g.strip o, List.mem_filterMap.2 ⟨g, hg, keepStrip_kept ?_⟩, hk, h', e⟩
      rw [neigh_unused_iff]
      intro hu
      have h2 : (mac, o') ∈ (g.strip o).dests := h'
      rw [hu.1] at h2
      cases h2

/-- an unused network holds no fact except for addresses of the local radio -/
theorem net_unused_iff (n : Net) : n.unused = true ↔
    n.neighs = [] ∧ ∀ l : Loc, l.notPeer → ∀ o c, ¬ Holds n l o c := by
  have h0 : n.unused = true ↔ n.neighs = [] ∧ ¬ (n.data.any Data.hasValue = true) ∧ ¬ (n.neighData.any Data.hasValue = true) := by
    unfold Net.unused
    simp [and_assoc]
  rw [h0, anyValue_iff, anyValue_iff]
  constructor
  · rintro ⟨h1, h2, h3⟩
    refine ⟨h1, fun l hl o c h => ?_⟩
    cases l with
    | metric i => obtain ⟨m, v, h, _⟩ := h; exact h2 ⟨i, v, m, o, h⟩
    | default i => obtain ⟨m, v, h, _⟩ := h; exact h3 ⟨i, v, m, o, h⟩
    | peer ip => exact hl
    | neighMetric k i => obtain ⟨g, hg, _⟩ := h; rw [h1] at hg; cases hg
    | neighIp k i => obtain ⟨g, hg, _⟩ := h; rw [h1] at hg; cases hg
    | dest k i => obtain ⟨g, hg, _⟩ := h; rw [h1] at hg; cases hg
  · rintro ⟨h1, h2⟩
    refine ⟨h1, ?_, ?_⟩
    · rintro ⟨i, v, m, o, h⟩; exact h2 (.metric i) trivial o _ ⟨m, v, h, rfl⟩
    · rintro ⟨i, v, m, o, h⟩; exact h2 (.default i) trivial o _ ⟨m, v, h, rfl⟩

theorem keepNet_holds {n : Net} (hw : n.WF) (o : Oid) (l : Loc) (hl : l.notPeer) (o' : Oid) (c : Option (Meta × Value)) :
    (∃ n', keepNet o n = some n' ∧ Holds n' l o' c) ↔ Holds n l o' c ∧ o' ≠ o := by
  rw [← strip_holds hw o l hl]
  constructor
  · rintro ⟨n', h1, h2⟩
    rw [keepNet_some h1] at h2
    exact h2
  · intro h
    refine ⟨(n.strip o).1, ?_, h⟩
    unfold keepNet
    rw [if_neg]
    intro hc
    rw [Bool.and_eq_true] at hc
    exact ((net_unused_iff _).1 hc.2).2 l hl o' c h

/-- facts about neighbor `k` make its object known -/
theorem holds_about {n : Net} {l : Loc} {k : Key} {o : Oid} {c : Option (Meta × Value)} (ha : l.about k)
    (h : Holds n l o c) : ∃ g ∈ n.neighs, g.key = k ∧ ¬ g.unused = true := by
  cases l with
  | metric i => exact absurd ha (by simp [Loc.about])
  | default i => exact absurd ha (by simp [Loc.about])
  | peer i => exact absurd ha (by simp [Loc.about])
  | neighMetric k' i =>
    obtain ⟨g, hg, hk, m, v, h, _⟩ := h
    obtain rfl : k' = k := ha
    refine ⟨g, hg, hk, fun hu => ?_⟩
    exact ((neigh_unused_iff g).1 hu).2.2 ⟨i, v, m, o, h⟩
  | neighIp k' ip =>
    obtain ⟨g, hg, hk, h, _⟩ := h
    obtain rfl : k' = k := ha
    refine ⟨g, hg, hk, fun hu => ?_⟩
    rw [((neigh_unused_iff g).1 hu).2.1] at h
    cases h
  | dest k' ip =>
    obtain ⟨g, hg, hk, h, _⟩ := h
    obtain rfl : k' = k := ha
    refine ⟨g, hg, hk, fun hu => ?_⟩
    rw [((neigh_unused_iff g).1 hu).1] at h
    cases h

/-- an object that is not unused has a fact -/
theorem used_holds {n : Net} {g : Neigh} (hg : g ∈ n.neighs) (hu : ¬ g.unused = true) :
    ∃ (l : Loc) (o : Oid) (c : Option (Meta × Value)), l.about g.key ∧ Holds n l o c := by
  rw [neigh_unused_iff] at hu
  by_cases h1 : g.dests = []
  · by_cases h2 : g.ips = []
    · have h3 : ∃ (i : Nat) (v : Value) (m : Meta) (o : Oid), g.data[i]? = some (⟨v, some m, some o⟩ : Data) :=
        Classical.byContradiction (fun h => hu ⟨h1, h2, h⟩)
      obtain ⟨i, v, m, o, h⟩ := h3
      exact ⟨.neighMetric g.key i, o, some (m, v), rfl, g, hg, rfl, m, v, h, rfl⟩
    · obtain ⟨e, he⟩ := List.exists_mem_of_ne_nil _ h2
      exact ⟨.neighIp g.key e.1, e.2, none, rfl, g, hg, rfl, he, rfl⟩
  · obtain ⟨e, he⟩ := List.exists_mem_of_ne_nil _ h1
    exact ⟨.dest g.key e.1, e.2, none, rfl, g, hg, rfl, he, rfl⟩

theorem about_notPeer {l : Loc} {k : Key} (h : l.about k) : l.notPeer := by
  cases l <;> first | trivial | exact h

/-- a fact of originator `o` about neighbor `k` makes the object touched -/
theorem holds_touched {n : Net} {l : Loc} {k : Key} {o : Oid} {c : Option (Meta × Value)} (ha : l.about k)
    (h : Holds n l o c) : ∃ g ∈ n.neighs, g.key = k ∧ g.touched o = true := by
  unfold Neigh.touched cleanupChanged
  cases l with
  | metric i => exact absurd ha (by simp [Loc.about])
  | default i => exact absurd ha (by simp [Loc.about])
  | peer i => exact absurd ha (by simp [Loc.about])
  | neighMetric k' i =>
    obtain ⟨g, hg, hk, m, v, h, _⟩ := h
    obtain rfl : k' = k := ha
    refine ⟨g, hg, hk, ?_⟩
    rw [Bool.or_eq_true, List.any_eq_true (l := g.data)]
    exact Or.inr ⟨_, List.mem_of_getElem? h, by simp⟩
  | neighIp k' ip =>
    obtain ⟨g, hg, hk, h, _⟩ := h
    obtain rfl : k' = k := ha
    refine ⟨g, hg, hk, ?_⟩
    rw [Bool.or_eq_true, Bool.or_eq_true, List.any_eq_true (l := g.ips)]
    exact Or.inl (Or.inr ⟨_, h, by simp⟩)
  | dest k' ip =>
    obtain ⟨g, hg, hk, h, _⟩ := h
    obtain rfl : k' = k := ha
    refine ⟨g, hg, hk, ?_⟩
    rw [Bool.or_eq_true, Bool.or_eq_true, List.any_eq_true (l := g.dests)]
    exact Or.inl (Or.inl ⟨_, h, by simp⟩)

theorem key_unique {n : Net} (hw : n.WF) {g g' : Neigh} (h : g ∈ n.neighs) (h' : g' ∈ n.neighs) (e : g.key = g'.key) :
    g = g' := by
  obtain ⟨a, b, e1⟩ := List.append_of_mem h
  have nd := hw.keys
  rw [e1] at nd h'
  rw [List.map_append, List.map_cons, List.nodup_append] at nd
  obtain ⟨_, n2, n3⟩ := nd
  rw [List.nodup_cons] at n2
  rcases List.mem_append.1 h' with h' | h'
  · exact absurd e.symm (n3 g'.key (List.mem_map_of_mem h') g.key (by simp))
  · rcases List.mem_cons.1 h' with h' | h'
    · exact h'.symm
    · exact absurd (by rw [e]; exact List.mem_map_of_mem h') n2.1

theorem name_unique {db : Db} (hw : db.WF) {n n' : Net} (h : n ∈ db.nets) (h' : n' ∈ db.nets) (e : n.name = n'.name) :
    n = n' := by
  obtain ⟨a, b, e1⟩ := List.append_of_mem h
  have nd := hw.names
  rw [e1] at nd h'
  rw [List.map_append, List.map_cons, List.nodup_append] at nd
  obtain ⟨_, n2, n3⟩ := nd
  rw [List.nodup_cons] at n2
  rcases List.mem_append.1 h' with h' | h'
  · exact absurd e.symm (n3 n'.name (List.mem_map_of_mem h') n.name (by simp))
  · rcases List.mem_cons.1 h' with h' | h'
    · exact h'.symm
    · exact absurd (by rw [e]; exact List.mem_map_of_mem h') n2.1

end Verif.Layer2
