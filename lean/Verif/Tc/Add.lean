import Verif.Tc.Lemmas

/-! New edges and attachments. -/
namespace Verif.Tc
open Verif.Netaddr (Netaddr)

/-- the database with a new pair of edges -/
def linked (db : Db) (src dst : Nat) (n m : Node) : Db :=
  { db with
    edges := upd (upd db.edges db.next (some ⟨src, dst, db.next + 1, false, List.replicate DOMAINS INFINITE, 0⟩)) (db.next + 1) (some ⟨dst, src, db.next, true, List.replicate DOMAINS INFINITE, 0⟩)
    nodes := upd (upd db.nodes src (some { n with edges := n.edges ++ [db.next] })) dst (some { m with edges := m.edges ++ [db.next + 1] })
    next := db.next + 2 }

section
variable {db : Db} {src dst : Nat} {n m : Node}

theorem linked_edge {e : Nat} {ed : Edge} (h : (linked db src dst n m).edges e = some ed) :
    (e = db.next ∧ ed = ⟨src, dst, db.next + 1, false, List.replicate DOMAINS INFINITE, 0⟩) ∨
    (e = db.next + 1 ∧ ed = ⟨dst, src, db.next, true, List.replicate DOMAINS INFINITE, 0⟩) ∨ (e ≠ db.next ∧ e ≠ db.next + 1 ∧ db.edges e = some ed) := by
  have h : upd (upd db.edges db.next _) (db.next + 1) _ e = some ed := h
  by_cases h1 : e = db.next + 1
  · rw [h1, upd_same] at h
    injection h with h
    exact .inr (.inl ⟨h1, h.symm⟩)
  · rw [upd_ne _ _ h1] at h
    by_cases h2 : e = db.next
    · rw [h2, upd_same] at h
      injection h with h
      exact .inl ⟨h2, h.symm⟩
    · rw [upd_ne _ _ h2] at h
      exact .inr (.inr ⟨h2, h1, h⟩)

theorem linked_edge_old (hf : Fresh db) {e : Nat} {ed : Edge} (h : db.edges e = some ed) : (linked db src dst n m).edges e = some ed := by
  have := hf.ltE h
  show upd (upd db.edges db.next _) (db.next + 1) _ e = some ed
  rw [upd_ne _ _ (by omega), upd_ne _ _ (by omega)]
  exact h

theorem linked_edge_new : (linked db src dst n m).edges db.next = some ⟨src, dst, db.next + 1, false, List.replicate DOMAINS INFINITE, 0⟩ := by
  show upd (upd db.edges db.next _) (db.next + 1) _ db.next = _
  rw [upd_ne _ _ (by omega), upd_same]

theorem linked_edge_inv : (linked db src dst n m).edges (db.next + 1) = some ⟨dst, src, db.next, true, List.replicate DOMAINS INFINITE, 0⟩ := by
  show upd (upd db.edges db.next _) (db.next + 1) _ (db.next + 1) = _
  rw [upd_same]

theorem linked_node {i : Nat} {x : Node} (h : (linked db src dst n m).nodes i = some x) :
    (i = src ∧ x = { n with edges := n.edges ++ [db.next] }) ∨ (i = dst ∧ x = { m with edges := m.edges ++ [db.next + 1] }) ∨ (i ≠ src ∧ i ≠ dst ∧ db.nodes i = some x) := by
  have h : upd (upd db.nodes src _) dst _ i = some x := h
  by_cases h1 : i = dst
  · rw [h1, upd_same] at h
    injection h with h
    exact .inr (.inl ⟨h1, h.symm⟩)
  · rw [upd_ne _ _ h1] at h
    by_cases h2 : i = src
    · rw [h2, upd_same] at h
      injection h with h
      exact .inl ⟨h2, h.symm⟩
    · rw [upd_ne _ _ h2] at h
      exact .inr (.inr ⟨h2, h1, h⟩)

theorem linked_src (hne : src ≠ dst) : (linked db src dst n m).nodes src = some { n with edges := n.edges ++ [db.next] } := by
  show upd (upd db.nodes src _) dst _ src = _
  rw [upd_ne _ _ hne, upd_same]

theorem linked_dst : (linked db src dst n m).nodes dst = some { m with edges := m.edges ++ [db.next + 1] } := by
  show upd (upd db.nodes src _) dst _ dst = _
  rw [upd_same]

theorem linked_same {β : Type} (f : Node → β) (hn : db.nodes src = some n) (hm : db.nodes dst = some m)
    (h1 : f { n with edges := n.edges ++ [db.next] } = f n) (h2 : f { m with edges := m.edges ++ [db.next + 1] } = f m) : Same f db (linked db src dst n m) := by
  intro i
  show (upd (upd db.nodes src _) dst _ i).map f = _
  by_cases h3 : i = dst
  · rw [h3, upd_same, hm]
    simp [h2]
  · rw [upd_ne _ _ h3]
    by_cases h4 : i = src
    · rw [h4, upd_same, hn]
      simp [h1]
    · rw [upd_ne _ _ h4]

theorem linked_wf (h : WF db) (hn : db.nodes src = some n) (hm : db.nodes dst = some m) (hne : src ≠ dst) (hno : ∀ e ed, db.edges e = some ed → ¬ (ed.src = src ∧ ed.dst = dst)) :
    WF (linked db src dst n m) := by
  have hf := h.fresh
  have hno' : ∀ e ed, db.edges e = some ed → ¬ (ed.src = dst ∧ ed.dst = src) := by
    rintro e ed hed ⟨h1, h2⟩
    obtain ⟨inv, hinv, _, h3, h4, _⟩ := h.edge.inv e ed hed
    exact hno _ inv hinv ⟨by rw [h3, h2], by rw [h4, h1]⟩
  have s1 := hf.lt hn
  have s2 := hf.lt hm
  have live : ∀ i x, db.nodes i = some x → ∃ y, (linked db src dst n m).nodes i = some y := by
    intro i x hx
    obtain ⟨y, hy, _⟩ := (linked_same (·.addr) hn hm rfl rfl).put hx
    exact ⟨y, hy⟩
  refine ⟨⟨h.tree.congr (linked_same _ hn hm rfl rfl) rfl, ⟨?_, ?_, ?_, ?_, ?_, ?_, ?_⟩, h.att.congr (linked_same _ hn hm rfl rfl) rfl rfl rfl⟩, ⟨?_, ?_, ?_, ?_⟩⟩
  · intro i x hx
    rcases linked_node hx with ⟨_, rfl⟩ | ⟨_, rfl⟩ | ⟨_, _, hx⟩
    · show (n.edges ++ [db.next]).Nodup
      rw [List.nodup_append]
      refine ⟨h.edge.nodup _ n hn, by simp, ?_⟩
      intro a ha b hb
      obtain ⟨ed, hed, _⟩ := (h.edge.mem _ n a hn).1 ha
      have := hf.ltE hed
      rw [List.mem_singleton] at hb
      omega
    · show (m.edges ++ [db.next + 1]).Nodup
      rw [List.nodup_append]
      refine ⟨h.edge.nodup _ m hm, by simp, ?_⟩
      intro a ha b hb
      obtain ⟨ed, hed, _⟩ := (h.edge.mem _ m a hm).1 ha
      have := hf.ltE hed
      rw [List.mem_singleton] at hb
      omega
    · exact h.edge.nodup i x hx
  · intro i x e hx
    have key : ∀ (y : Node), db.nodes i = some y → (e ∈ y.edges ∨ (i = src ∧ e = db.next) ∨ (i = dst ∧ e = db.next + 1) ↔ ∃ ed, (linked db src dst n m).edges e = some ed ∧ ed.src = i) := by
      intro y hy
      rw [h.edge.mem i y e hy]
      constructor
      · rintro (⟨ed, hed, hs⟩ | ⟨rfl, rfl⟩ | ⟨rfl, rfl⟩)
        · exact ⟨ed, linked_edge_old hf hed, hs⟩
        · exact ⟨_, linked_edge_new, rfl⟩
        · exact ⟨_, linked_edge_inv, rfl⟩
      · rintro ⟨ed, hed, hs⟩
        rcases linked_edge hed with ⟨he, hd⟩ | ⟨he, hd⟩ | ⟨_, _, hed⟩
        · rw [hd] at hs
          exact .inr (.inl ⟨hs.symm, he⟩)
        · rw [hd] at hs
          exact .inr (.inr ⟨hs.symm, he⟩)
        · exact .inl ⟨ed, hed, hs⟩
    rcases linked_node hx with ⟨hi, rfl⟩ | ⟨hi, rfl⟩ | ⟨h1, h2, hx⟩
    · subst hi
      rw [← key n hn]
      simp only [List.mem_append, List.mem_singleton, hne, false_and, or_false, true_and]
    · subst hi
      rw [← key m hm]
      simp only [List.mem_append, List.mem_singleton, hne.symm, false_and, false_or, true_and]
    · rw [← key x hx]
      simp only [h1, h2, false_and, or_false]
  · intro e ed hed
    rcases linked_edge hed with ⟨_, rfl⟩ | ⟨_, rfl⟩ | ⟨_, _, hed⟩
    · exact ⟨_, linked_src hne⟩
    · exact ⟨_, linked_dst⟩
    · obtain ⟨x, hx⟩ := h.edge.src e ed hed
      exact live _ x hx
  · intro e ed hed
    rcases linked_edge hed with ⟨_, rfl⟩ | ⟨_, rfl⟩ | ⟨_, _, hed⟩
    · exact ⟨_, linked_dst⟩
    · exact ⟨_, linked_src hne⟩
    · obtain ⟨x, hx⟩ := h.edge.dst e ed hed
      exact live _ x hx
  · intro e ed hed
    rcases linked_edge hed with ⟨_, rfl⟩ | ⟨_, rfl⟩ | ⟨_, _, hed⟩
    · exact hne
    · exact hne.symm
    · exact h.edge.ne e ed hed
  · intro e ed e' ed' hed hed' h1 h2
    rcases linked_edge hed with ⟨a, rfl⟩ | ⟨a, rfl⟩ | ⟨_, _, hed⟩ <;> rcases linked_edge hed' with ⟨b, rfl⟩ | ⟨b, rfl⟩ | ⟨_, _, hed'⟩
    · rw [a, b]
    · exact absurd h1 hne
    · exact absurd ⟨h1.symm, h2.symm⟩ (hno e' ed' hed')
    · exact absurd h1.symm hne
    · rw [a, b]
    · exact absurd ⟨h1.symm, h2.symm⟩ (hno' e' ed' hed')
    · exact absurd ⟨h1, h2⟩ (hno e ed hed)
    · exact absurd ⟨h1, h2⟩ (hno' e ed hed)
    · exact h.edge.one e ed e' ed' hed hed' h1 h2
  · intro e ed hed
    rcases linked_edge hed with ⟨a, rfl⟩ | ⟨a, rfl⟩ | ⟨_, _, hed⟩
    · exact ⟨_, linked_edge_inv, a.symm, rfl, rfl, by simp⟩
    · exact ⟨_, linked_edge_new, a.symm, rfl, rfl, by simp⟩
    · obtain ⟨inv, hinv, h1⟩ := h.edge.inv e ed hed
      exact ⟨inv, linked_edge_old hf hinv, h1⟩
  · intro i hi
    have hi : db.next + 2 ≤ i := hi
    show upd (upd db.nodes src _) dst _ i = none
    rw [upd_ne _ _ (by omega), upd_ne _ _ (by omega)]
    exact hf.nodes i (by omega)
  · intro i hi
    have hi : db.next + 2 ≤ i := hi
    show upd (upd db.edges db.next _) (db.next + 1) _ i = none
    rw [upd_ne _ _ (by omega), upd_ne _ _ (by omega)]
    exact hf.edges i (by omega)
  · intro i hi
    have hi : db.next + 2 ≤ i := hi
    exact hf.atts i (by omega)
  · intro i hi
    have hi : db.next + 2 ≤ i := hi
    exact hf.ends i (by omega)

theorem linkEdge_eq (h : WF db) (hn : db.nodes src = some n) (hm : db.nodes dst = some m) (hne : src ≠ dst) (hno : ∀ e ed, db.edges e = some ed → ¬ (ed.src = src ∧ ed.dst = dst)) :
    linkEdge db src dst = some (linked db src dst n m, some db.next) := by
  have hf := h.fresh
  have hno' : ∀ e ed, db.edges e = some ed → ¬ (ed.src = dst ∧ ed.dst = src) := by
    rintro e ed hed ⟨h1, h2⟩
    obtain ⟨inv, hinv, _, h3, h4, _⟩ := h.edge.inv e ed hed
    exact hno _ inv hinv ⟨by rw [h3, h2], by rw [h4, h1]⟩
  -- keys of old edges do not change
  have keyE : ∀ (db' : Db) e ed, db'.edges = (linked db src dst n m).edges → Same (·.addr) db db' → db.edges e = some ed →
      ∃ x, db.nodes ed.dst = some x ∧ db'.edgeKey e = some x.addr := by
    intro db' e ed he hs hed
    obtain ⟨x, hx⟩ := h.edge.dst e ed hed
    obtain ⟨y, hy, e1⟩ := hs.put hx
    refine ⟨x, hx, (edgeKey_eq (by rw [he]; exact linked_edge_old hf hed)).2 ⟨y, hy, e1.symm⟩⟩
  unfold linkEdge
  dsimp only
  rw [hn]
  dsimp only
  let db1 : Db := { db with edges := (linked db src dst n m).edges, next := db.next + 2 }
  have hs1 : Same (·.addr) db db1 := fun _ => rfl
  have i1 : insert db1.edgeKey n.edges db.next = some (n.edges ++ [db.next]) := by
    apply insert_new
    · intro j hj
      obtain ⟨ed, hed, _⟩ := (h.edge.mem _ n j hn).1 hj
      obtain ⟨x, _, hx⟩ := keyE db1 j ed rfl hs1 hed
      exact ⟨_, hx⟩
    · intro j hj he
      obtain ⟨ed, hed, hsrc⟩ := (h.edge.mem _ n j hn).1 hj
      obtain ⟨x, hx, hk⟩ := keyE db1 j ed rfl hs1 hed
      have hk2 : db1.edgeKey db.next = some m.addr := (edgeKey_eq (db := db1) (linked_edge_new (src := src) (dst := dst) (n := n) (m := m))).2 ⟨m, hm, rfl⟩
      rw [hk, hk2] at he
      injection he with he
      exact hno j ed hed ⟨hsrc, h.tree.addr _ _ x m hx hm he⟩
  show (match insert db1.edgeKey n.edges db.next with | none => none | some es => _) = _
  rw [i1]
  dsimp only
  let db2 : Db := db1.setNode src { n with edges := n.edges ++ [db.next] }
  have hs2 : Same (·.addr) db db2 := Same.setNode (db := db1) hn rfl
  have hm2 : db2.nodes dst = some m := by
    show upd db.nodes src _ dst = _
    rw [upd_ne _ _ hne.symm]
    exact hm
  have i2 : insert db2.edgeKey m.edges (db.next + 1) = some (m.edges ++ [db.next + 1]) := by
    apply insert_new
    · intro j hj
      obtain ⟨ed, hed, _⟩ := (h.edge.mem _ m j hm).1 hj
      obtain ⟨x, _, hx⟩ := keyE db2 j ed rfl hs2 hed
      exact ⟨_, hx⟩
    · intro j hj he
      obtain ⟨ed, hed, hsrc⟩ := (h.edge.mem _ m j hm).1 hj
      obtain ⟨x, hx, hk⟩ := keyE db2 j ed rfl hs2 hed
      have hk2 : db2.edgeKey (db.next + 1) = some n.addr := (edgeKey_eq (db := db2) (linked_edge_inv (src := src) (dst := dst) (n := n) (m := m))).2 ⟨_, upd_same _ _ _, rfl⟩
      rw [hk, hk2] at he
      injection he with he
      exact hno' j ed hed ⟨hsrc, h.tree.addr _ _ x n hx hn he⟩
  show (match db2.nodes dst with | none => none | some m => _) = _
  rw [hm2]
  dsimp only
  show (match insert db2.edgeKey m.edges (db.next + 1) with | none => none | some es => _) = _
  rw [i2]
  rfl

end

/-- changes of an edge that keep the shape of the graph -/
theorem setEdge_wf {db : Db} (h : WF db) {e : Nat} {ed ed' : Edge} (hed : db.edges e = some ed) (h1 : ed'.src = ed.src) (h2 : ed'.dst = ed.dst) (h3 : ed'.inv = ed.inv)
    (hv : ∀ inv, db.edges ed.inv = some inv → ¬ (ed'.virt = true ∧ inv.virt = true)) : WF (db.setEdge e ed') := by
  have get : ∀ e' x, (db.setEdge e ed').edges e' = some x → ∃ y, db.edges e' = some y ∧ x.src = y.src ∧ x.dst = y.dst ∧ x.inv = y.inv ∧ (e' = e ∧ x = ed' ∨ e' ≠ e ∧ x = y) := by
    intro e' x hx
    have hx : upd db.edges e (some ed') e' = some x := hx
    by_cases he : e' = e
    · rw [he, upd_same] at hx
      injection hx with hx
      exact ⟨ed, by rw [he]; exact hed, by rw [← hx]; exact h1, by rw [← hx]; exact h2, by rw [← hx]; exact h3, .inl ⟨he, hx.symm⟩⟩
    · rw [upd_ne _ _ he] at hx
      exact ⟨x, hx, rfl, rfl, rfl, .inr ⟨he, rfl⟩⟩
  have put : ∀ e' y, db.edges e' = some y → ∃ x, (db.setEdge e ed').edges e' = some x ∧ x.src = y.src ∧ x.dst = y.dst ∧ x.inv = y.inv ∧ (e' = e ∧ x = ed' ∨ e' ≠ e ∧ x = y) := by
    intro e' y hy
    by_cases he : e' = e
    · have : y = ed := by rw [he, hed] at hy; injection hy with hy; exact hy.symm
      rw [this]
      exact ⟨ed', by rw [he]; exact upd_same _ _ _, h1, h2, h3, .inl ⟨he, rfl⟩⟩
    · exact ⟨y, by rw [← hy]; exact upd_ne _ _ he, rfl, rfl, rfl, .inr ⟨he, rfl⟩⟩
  refine ⟨⟨h.tree.congr (fun _ => rfl) rfl, ⟨h.edge.nodup, ?_, ?_, ?_, ?_, ?_, ?_⟩, h.att.congr (fun _ => rfl) rfl rfl rfl⟩, ⟨h.fresh.nodes, ?_, h.fresh.atts, h.fresh.ends⟩⟩
  · intro i n e' hn
    rw [h.edge.mem i n e' hn]
    constructor
    · rintro ⟨y, hy, hs⟩
      obtain ⟨x, hx, e1, _⟩ := put e' y hy
      exact ⟨x, hx, by rw [e1, hs]⟩
    · rintro ⟨x, hx, hs⟩
      obtain ⟨y, hy, e1, _⟩ := get e' x hx
      exact ⟨y, hy, by rw [← e1, hs]⟩
  · intro e' x hx
    obtain ⟨y, hy, e1, _⟩ := get e' x hx
    rw [e1]; exact h.edge.src e' y hy
  · intro e' x hx
    obtain ⟨y, hy, _, e2, _⟩ := get e' x hx
    rw [e2]; exact h.edge.dst e' y hy
  · intro e' x hx
    obtain ⟨y, hy, e1, e2, _⟩ := get e' x hx
    rw [e1, e2]; exact h.edge.ne e' y hy
  · intro a x b x' hx hx' q1 q2
    obtain ⟨y, hy, e1, e2, _⟩ := get a x hx
    obtain ⟨y', hy', e1', e2', _⟩ := get b x' hx'
    exact h.edge.one a y b y' hy hy' (by rw [← e1, ← e1', q1]) (by rw [← e2, ← e2', q2])
  · intro e' x hx
    obtain ⟨y, hy, e1, e2, e3, ec⟩ := get e' x hx
    obtain ⟨inv, hinv, i1, i2, i3, i4⟩ := h.edge.inv e' y hy
    obtain ⟨inv', hinv', f1, f2, f3, fc⟩ := put _ inv hinv
    refine ⟨inv', by rw [e3]; exact hinv', by rw [f3, i1], by rw [f1, e2, i2], by rw [f2, e1, i3], ?_⟩
    rcases ec with ⟨c1, c2⟩ | ⟨c1, c2⟩ <;> rcases fc with ⟨d1, d2⟩ | ⟨d1, d2⟩
    · -- an edge is not its own inverse
      exfalso
      rw [c1, hed] at hy
      injection hy with hy
      rw [d1, hed] at hinv
      injection hinv with hinv
      have := h.edge.ne e ed hed
      rw [← hy, ← hinv] at i2
      exact this i2
    · rw [c2, d2]
      rw [c1, hed] at hy
      injection hy with hy
      rw [← hy] at hinv
      exact hv inv hinv
    · rw [c2, d2]
      rw [d1, hed] at hinv
      injection hinv with hinv
      rw [← hinv] at i1
      intro hc
      exact hv y (by rw [i1]; exact hy) ⟨hc.2, hc.1⟩
    · rw [c2, d2]; exact i4
  · intro i hi
    have := h.fresh.ltE hed
    have hi' : db.next ≤ i := hi
    show upd db.edges e _ i = none
    rw [upd_ne _ _ (by omega)]
    exact h.fresh.edges i hi'

end Verif.Tc
