import Verif.Tc.Add
import Verif.Tc.Attach

/-! Removal of edges and nodes. -/
namespace Verif.Tc
open Verif.Netaddr (Netaddr)

/-! ### unhooking a pair of edges -/

/-- the database without a pair of edges -/
def unhooked (db : Db) (e : Nat) (ed : Edge) (n m : Node) : Db :=
  { db with
    nodes := upd (upd db.nodes ed.src (some { n with edges := n.edges.erase e })) ed.dst (some { m with edges := m.edges.erase ed.inv })
    edges := upd (upd db.edges ed.inv none) e none }

section
variable {db : Db} {e : Nat} {ed : Edge} {n m : Node}

theorem unhooked_edge {e' : Nat} {x : Edge} (h : (unhooked db e ed n m).edges e' = some x) : e' ≠ e ∧ e' ≠ ed.inv ∧ db.edges e' = some x := by
  have h : upd (upd db.edges ed.inv none) e none e' = some x := h
  by_cases h1 : e' = e
  · rw [h1, upd_same] at h; cases h
  · rw [upd_ne _ _ h1] at h
    by_cases h2 : e' = ed.inv
    · rw [h2, upd_same] at h; cases h
    · rw [upd_ne _ _ h2] at h
      exact ⟨h1, h2, h⟩

theorem unhooked_edge_old {e' : Nat} (h1 : e' ≠ e) (h2 : e' ≠ ed.inv) : (unhooked db e ed n m).edges e' = db.edges e' := by
  show upd (upd db.edges ed.inv none) e none e' = _
  rw [upd_ne _ _ h1, upd_ne _ _ h2]

theorem unhooked_node {i : Nat} {x : Node} (h : (unhooked db e ed n m).nodes i = some x) :
    (i = ed.dst ∧ x = { m with edges := m.edges.erase ed.inv }) ∨ (i ≠ ed.dst ∧ i = ed.src ∧ x = { n with edges := n.edges.erase e }) ∨ (i ≠ ed.src ∧ i ≠ ed.dst ∧ db.nodes i = some x) := by
  have h : upd (upd db.nodes ed.src _) ed.dst _ i = some x := h
  by_cases h1 : i = ed.dst
  · rw [h1, upd_same] at h
    injection h with h
    exact .inl ⟨h1, h.symm⟩
  · rw [upd_ne _ _ h1] at h
    by_cases h2 : i = ed.src
    · rw [h2, upd_same] at h
      injection h with h
      exact .inr (.inl ⟨h1, h2, h.symm⟩)
    · rw [upd_ne _ _ h2] at h
      exact .inr (.inr ⟨h2, h1, h⟩)

theorem unhooked_same {β : Type} (f : Node → β) (hn : db.nodes ed.src = some n) (hm : db.nodes ed.dst = some m)
    (h1 : f { n with edges := n.edges.erase e } = f n) (h2 : f { m with edges := m.edges.erase ed.inv } = f m) : Same f db (unhooked db e ed n m) := by
  intro i
  show (upd (upd db.nodes ed.src _) ed.dst _ i).map f = _
  by_cases h3 : i = ed.dst
  · rw [h3, upd_same, hm]
    simp [h2]
  · rw [upd_ne _ _ h3]
    by_cases h4 : i = ed.src
    · rw [h4, upd_same, hn]
      simp [h1]
    · rw [upd_ne _ _ h4]

theorem unhooked_wf (h : WF db) (hed : db.edges e = some ed) (hn : db.nodes ed.src = some n) (hm : db.nodes ed.dst = some m) : WF (unhooked db e ed n m) := by
  obtain ⟨inv, hinv, v1, v2, v3, _⟩ := h.edge.inv e ed hed
  have hne := h.edge.ne e ed hed
  have live : ∀ i x, db.nodes i = some x → ∃ y, (unhooked db e ed n m).nodes i = some y := by
    intro i x hx
    obtain ⟨y, hy, _⟩ := (unhooked_same (e := e) (·.addr) hn hm rfl rfl).put hx
    exact ⟨y, hy⟩
  refine ⟨⟨h.tree.congr (unhooked_same _ hn hm rfl rfl) rfl, ⟨?_, ?_, ?_, ?_, ?_, ?_, ?_⟩, h.att.congr (unhooked_same _ hn hm rfl rfl) rfl rfl rfl⟩, ⟨?_, ?_, h.fresh.atts, h.fresh.ends⟩⟩
  · intro i x hx
    rcases unhooked_node hx with ⟨_, rfl⟩ | ⟨_, _, rfl⟩ | ⟨_, _, hx⟩
    · exact (h.edge.nodup _ m hm).erase _
    · exact (h.edge.nodup _ n hn).erase _
    · exact h.edge.nodup i x hx
  · intro i x e' hx
    have key : (∃ y, (unhooked db e ed n m).edges e' = some y ∧ y.src = i) ↔ e' ≠ e ∧ e' ≠ ed.inv ∧ ∃ y, db.edges e' = some y ∧ y.src = i := by
      constructor
      · rintro ⟨y, hy, hs⟩
        obtain ⟨a, b, hy⟩ := unhooked_edge hy
        exact ⟨a, b, y, hy, hs⟩
      · rintro ⟨a, b, y, hy, hs⟩
        exact ⟨y, by rw [unhooked_edge_old a b]; exact hy, hs⟩
    rw [key]
    rcases unhooked_node hx with ⟨hi, rfl⟩ | ⟨_, hi, rfl⟩ | ⟨h1, h2, hx⟩
    · show e' ∈ m.edges.erase ed.inv ↔ _
      rw [(h.edge.nodup _ m hm).mem_erase_iff, h.edge.mem _ m e' hm, hi]
      constructor
      · rintro ⟨a, y, hy, hs⟩
        refine ⟨?_, a, y, hy, hs⟩
        intro he
        rw [he, hed] at hy
        injection hy with hy
        rw [← hy] at hs
        exact hne hs
      · rintro ⟨_, a, y, hy, hs⟩
        exact ⟨a, y, hy, hs⟩
    · show e' ∈ n.edges.erase e ↔ _
      rw [(h.edge.nodup _ n hn).mem_erase_iff, h.edge.mem _ n e' hn, hi]
      constructor
      · rintro ⟨a, y, hy, hs⟩
        refine ⟨a, ?_, y, hy, hs⟩
        intro he
        rw [he, hinv] at hy
        injection hy with hy
        rw [← hy, v2] at hs
        exact hne hs.symm
      · rintro ⟨a, _, y, hy, hs⟩
        exact ⟨a, y, hy, hs⟩
    · rw [h.edge.mem i x e' hx]
      constructor
      · rintro ⟨y, hy, hs⟩
        refine ⟨?_, ?_, y, hy, hs⟩
        · intro he
          rw [he, hed] at hy
          injection hy with hy
          rw [← hy] at hs
          exact h1 hs.symm
        · intro he
          rw [he, hinv] at hy
          injection hy with hy
          rw [← hy, v2] at hs
          exact h2 hs.symm
      · rintro ⟨_, _, y, hy, hs⟩
        exact ⟨y, hy, hs⟩
  · intro e' x hx
    obtain ⟨_, _, hx⟩ := unhooked_edge hx
    obtain ⟨y, hy⟩ := h.edge.src e' x hx
    exact live _ y hy
  · intro e' x hx
    obtain ⟨_, _, hx⟩ := unhooked_edge hx
    obtain ⟨y, hy⟩ := h.edge.dst e' x hx
    exact live _ y hy
  · intro e' x hx
    exact h.edge.ne e' x (unhooked_edge hx).2.2
  · intro a x b y hx hy
    exact h.edge.one a x b y (unhooked_edge hx).2.2 (unhooked_edge hy).2.2
  · intro e' x hx
    obtain ⟨a, b, hx⟩ := unhooked_edge hx
    obtain ⟨iv, hiv, w1, w2⟩ := h.edge.inv e' x hx
    refine ⟨iv, ?_, w1, w2⟩
    rw [unhooked_edge_old ?_ ?_]
    · exact hiv
    · -- the inverse of another edge is not e
      intro he
      rw [he, hed] at hiv
      injection hiv with hiv
      rw [← hiv] at w1
      exact b w1.symm
    · intro he
      rw [he, hinv] at hiv
      injection hiv with hiv
      rw [← hiv, v1] at w1
      exact a w1.symm
  · intro i hi
    have hi : db.next ≤ i := hi
    have s1 := h.fresh.lt hn
    have s2 := h.fresh.lt hm
    show upd (upd db.nodes ed.src _) ed.dst _ i = none
    rw [upd_ne _ _ (by omega), upd_ne _ _ (by omega)]
    exact h.fresh.nodes i hi
  · intro i hi
    have hi : db.next ≤ i := hi
    cases hc : (unhooked db e ed n m).edges i with
    | none => rfl
    | some x =>
      have := h.fresh.ltE (unhooked_edge hc).2.2
      omega

end

/-! ### the second part of `olsrv2_tc_node_remove` -/

/-- olsrv2_tc.c:222-234 -/
def nodeDrop (db : Db) (i : Nat) : Option Db :=
  match db.nodes i with
  | none => none
  | some n =>
    match n.atts.foldlM endpointRemove db with
    | none => none
    | some db =>
      match db.nodes i with
      | none => none
      | some n =>
        if n.edges = [] ∧ n.direct = false then
          match remove db.tree i with
          | none => none
          | some t => some { db with nodes := upd db.nodes i none, tree := t }
        else some (db.setNode i { n with timer := false })

theorem nodeRemove_noedges {d : Nat} {db : Db} {i : Nat} {n : Node} (hn : db.nodes i = some n) (he : n.edges = []) : nodeRemove (d + 1) db i = nodeDrop db i := by
  unfold nodeRemove nodeDrop
  rw [hn]
  dsimp only
  rw [he]
  show (match db.nodes i with | none => none | some n => _) = _
  rw [hn]
  rfl

/-- same database with other edges -/
def Db.withEdges (X : Nat → Option Edge) (db : Db) : Db := { db with edges := X }

theorem endpointRemove_edges (X : Nat → Option Edge) (db : Db) (a : Nat) : endpointRemove (db.withEdges X) a = (endpointRemove db a).map (Db.withEdges X) := by
  unfold endpointRemove
  show (match db.atts a with | none => none | some at_ => _) = _
  cases db.atts a with
  | none => rfl
  | some at_ =>
    dsimp only
    show (match db.nodes at_.src with | none => none | some n => _) = _
    cases db.nodes at_.src with
    | none => rfl
    | some n =>
      dsimp only
      cases remove n.atts a with
      | none => rfl
      | some l =>
        dsimp only
        show (match db.ends at_.dst with | none => none | some en => _) = Option.map _ (match db.ends at_.dst with | none => none | some en => _)
        cases db.ends at_.dst with
        | none => rfl
        | some en =>
          dsimp only
          cases remove en.atts a with
          | none => rfl
          | some l =>
            cases l with
            | nil =>
              dsimp only
              show (match remove db.endTree at_.dst with | none => none | some t => _) = Option.map _ (match remove db.endTree at_.dst with | none => none | some t => _)
              cases remove db.endTree at_.dst with
              | none => rfl
              | some t => rfl
            | cons x xs => rfl

theorem foldl_endpointRemove_edges (X : Nat → Option Edge) : ∀ (l : List Nat) (db : Db), l.foldlM endpointRemove (db.withEdges X) = (l.foldlM endpointRemove db).map (Db.withEdges X)
  | [], db => rfl
  | a :: l, db => by
    rw [List.foldlM_cons, List.foldlM_cons, endpointRemove_edges]
    cases endpointRemove db a with
    | none => rfl
    | some db' => exact foldl_endpointRemove_edges X l db'

theorem nodeDrop_edges (X : Nat → Option Edge) (db : Db) (i : Nat) : nodeDrop (db.withEdges X) i = (nodeDrop db i).map (Db.withEdges X) := by
  unfold nodeDrop
  show (match db.nodes i with | none => none | some n => _) = _
  cases db.nodes i with
  | none => rfl
  | some n =>
    dsimp only
    rw [foldl_endpointRemove_edges]
    cases n.atts.foldlM endpointRemove db with
    | none => rfl
    | some db1 =>
      show (match db1.nodes i with | none => none | some n => _) = Option.map _ (match db1.nodes i with | none => none | some n => _)
      cases db1.nodes i with
      | none => rfl
      | some n =>
        dsimp only
        by_cases hc : n.edges = [] ∧ n.direct = false
        · rw [if_pos hc, if_pos hc]
          show (match remove db1.tree i with | none => none | some t => _) = _
          cases remove db1.tree i with
          | none => rfl
          | some t => rfl
        · rw [if_neg hc, if_neg hc]
          rfl

/-- fields of a node apart from its attachments -/
def main (n : Node) : Netaddr × UInt16 × Bool × Bool × List Nat := (n.addr, n.ansn, n.direct, n.timer, n.edges)

theorem Same.refl {β : Type} (f : Node → β) (db : Db) : Same f db db := fun _ => rfl
theorem Same.trans {β : Type} {f : Node → β} {a b c : Db} (h1 : Same f a b) (h2 : Same f b c) : Same f a c := fun i => (h2 i).trans (h1 i)

theorem dropAtts {i : Nat} : ∀ (l : List Nat) {db : Db}, WF db → l.Nodup → (∀ a ∈ l, ∃ at_, db.atts a = some at_ ∧ at_.src = i) →
    ∃ db', l.foldlM endpointRemove db = some db' ∧ WF db' ∧ db'.edges = db.edges ∧ db'.tree = db.tree ∧ Same main db db' ∧ (∀ b x, db'.atts b = some x ↔ (b ∉ l ∧ db.atts b = some x)) ∧
      ∀ i y, db'.ends i = some y → ∃ z, db.ends i = some z ∧ z.key = y.key
  | [], db, h, _, _ => ⟨db, rfl, h, rfl, rfl, Same.refl _ _, fun b x => (by simp), fun i y hy => ⟨y, hy, rfl⟩⟩
  | a :: l, db, h, hd, hl => by
    obtain ⟨at_, hat, _⟩ := hl a (by simp)
    obtain ⟨db1, e1, w1, g1, t1, s1, a1, x1⟩ := endpointRemove_spec h hat
    rw [List.nodup_cons] at hd
    obtain ⟨db2, e2, w2, g2, t2, s2, a2, x2⟩ := dropAtts (i := i) l w1 hd.2 (by
      intro b hb
      obtain ⟨x, hx, hs⟩ := hl b (by simp [hb])
      refine ⟨x, (a1 b x).2 ⟨?_, hx⟩, hs⟩
      intro he
      rw [he] at hb
      exact hd.1 hb)
    refine ⟨db2, ?_, w2, g2.trans g1, t2.trans t1, s1.trans s2, ?_, ?_⟩
    · rw [List.foldlM_cons, e1]
      exact e2
    · intro b x
      rw [a2, a1, List.mem_cons, not_or]
      constructor
      · rintro ⟨h1, h2, h3⟩; exact ⟨⟨h2, h1⟩, h3⟩
      · rintro ⟨⟨h2, h1⟩, h3⟩; exact ⟨h1, h2, h3⟩
    · intro i y hy
      obtain ⟨z, hz, e1⟩ := x2 i y hy
      obtain ⟨w, hw, e2⟩ := x1 i z hz
      exact ⟨w, hw, e2.trans e1⟩

/-- an unused node can be removed -/
theorem free_wf {db : Db} (h : WF db) {i : Nat} {n : Node} (hn : db.nodes i = some n) (he : n.edges = []) (ha : ∀ a at_, db.atts a = some at_ → at_.src ≠ i) :
    WF { db with nodes := upd db.nodes i none, tree := db.tree.erase i } := by
  have hsrc : ∀ e ed, db.edges e = some ed → ed.src ≠ i := by
    intro e ed hed hs
    have : e ∈ n.edges := (h.edge.mem i n e hn).2 ⟨ed, hed, hs⟩
    rw [he] at this
    cases this
  have hdst : ∀ e ed, db.edges e = some ed → ed.dst ≠ i := by
    intro e ed hed hs
    obtain ⟨inv, hinv, _, h2, _⟩ := h.edge.inv e ed hed
    exact hsrc _ inv hinv (h2.trans hs)
  have get : ∀ j x, upd db.nodes i none j = some x → j ≠ i ∧ db.nodes j = some x := by
    intro j x hx
    by_cases hj : j = i
    · rw [hj, upd_same] at hx; cases hx
    · rw [upd_ne _ _ hj] at hx; exact ⟨hj, hx⟩
  have put : ∀ j, j ≠ i → (∃ x, db.nodes j = some x) → ∃ x, upd db.nodes i none j = some x := by
    rintro j hj ⟨x, hx⟩
    exact ⟨x, by rw [upd_ne _ _ hj]; exact hx⟩
  refine ⟨⟨⟨h.tree.nodup.erase i, ?_, ?_⟩, ⟨?_, ?_, ?_, ?_, h.edge.ne, h.edge.one, h.edge.inv⟩, ⟨?_, ?_, h.att.enodup, h.att.emem, ?_, h.att.dst, h.att.one, h.att.used, h.att.tree, h.att.tmem, h.att.key⟩⟩,
    ⟨?_, h.fresh.edges, h.fresh.atts, h.fresh.ends⟩⟩
  · intro j
    show j ∈ db.tree.erase i ↔ _
    rw [h.tree.nodup.mem_erase_iff, h.tree.mem]
    constructor
    · rintro ⟨a, b⟩; exact put j a b
    · rintro ⟨x, hx⟩
      obtain ⟨a, b⟩ := get j x hx
      exact ⟨a, x, b⟩
  · intro a b x y hx hy
    exact h.tree.addr a b x y (get a x hx).2 (get b y hy).2
  · intro j x hx
    exact h.edge.nodup j x (get j x hx).2
  · intro j x e hx
    exact h.edge.mem j x e (get j x hx).2
  · intro e ed hed
    exact put _ (hsrc e ed hed) (h.edge.src e ed hed)
  · intro e ed hed
    exact put _ (hdst e ed hed) (h.edge.dst e ed hed)
  · intro j x hx
    exact h.att.nodup j x (get j x hx).2
  · intro j x a hx
    exact h.att.mem j x a (get j x hx).2
  · intro a at_ hat
    exact put _ (ha a at_ hat) (h.att.src a at_ hat)
  · intro j hj
    have hj : db.next ≤ j := hj
    cases hc : upd db.nodes i none j with
    | none => exact hc
    | some x =>
      have := h.fresh.lt (get j x hc).2
      omega

/-- what the second part does -/
theorem nodeDrop_spec {db : Db} (h : WF db) {i : Nat} {n : Node} (hn : db.nodes i = some n) :
    ∃ db', nodeDrop db i = some db' ∧ WF db' ∧ db'.edges = db.edges ∧
      (∀ j, j ≠ i → (db'.nodes j).map main = (db.nodes j).map main) ∧
      ((n.edges = [] ∧ n.direct = false ∧ db'.nodes i = none) ∨
        (¬ (n.edges = [] ∧ n.direct = false) ∧ ∃ n', db'.nodes i = some n' ∧ n'.addr = n.addr ∧ n'.ansn = n.ansn ∧ n'.direct = n.direct ∧ n'.edges = n.edges ∧ n'.timer = false)) ∧
      (∀ a at_, db'.atts a = some at_ ↔ (db.atts a = some at_ ∧ at_.src ≠ i)) ∧ ∀ i y, db'.ends i = some y → ∃ z, db.ends i = some z ∧ z.key = y.key := by
  obtain ⟨db1, e1, w1, g1, t1, s1, a1, x1⟩ := dropAtts (i := i) n.atts h (h.att.nodup i n hn) (fun a ha => (h.att.mem i n a hn).1 ha)
  obtain ⟨n1, hn1, hm⟩ := s1.put hn
  have hatt : ∀ a at_, db1.atts a = some at_ ↔ (db.atts a = some at_ ∧ at_.src ≠ i) := by
    intro a at_
    rw [a1, h.att.mem i n a hn]
    constructor
    · rintro ⟨h1, h2⟩
      exact ⟨h2, fun hs => h1 ⟨at_, h2, hs⟩⟩
    · rintro ⟨h1, h2⟩
      refine ⟨?_, h1⟩
      rintro ⟨x, hx, hs⟩
      rw [h1] at hx
      injection hx with hx
      rw [← hx] at hs
      exact h2 hs
  unfold main at hm
  injection hm with m1 hm
  injection hm with m2 hm
  injection hm with m3 hm
  injection hm with m4 m5
  unfold nodeDrop
  rw [hn]
  dsimp only
  rw [e1]
  dsimp only
  rw [hn1]
  dsimp only
  by_cases hc : n1.edges = [] ∧ n1.direct = false
  · rw [if_pos hc, remove_mem ((w1.tree.mem i).2 ⟨n1, hn1⟩)]
    refine ⟨_, rfl, free_wf w1 hn1 hc.1 (fun a at_ hat => ((hatt a at_).1 hat).2), g1, ?_, .inl ⟨by rw [m5]; exact hc.1, by rw [m3]; exact hc.2, upd_same _ _ _⟩, hatt, x1⟩
    intro j hj
    show (upd db1.nodes i none j).map main = _
    rw [upd_ne _ _ hj]
    exact s1 j
  · rw [if_neg hc]
    refine ⟨_, rfl, w1.setNode hn1 rfl rfl rfl, g1, ?_, .inr ⟨by rw [m5, m3]; exact hc, _, upd_same _ _ _, m1.symm, m2.symm, m3.symm, m5.symm, rfl⟩, hatt, x1⟩
    intro j hj
    show (upd db1.nodes i _ j).map main = _
    rw [upd_ne _ _ hj]
    exact s1 j

/-! ### edges -/

/-- relation between a node before and after the removal of edges of other nodes -/
structure Kept (y x : Node) : Prop where
  addr : x.addr = y.addr
  ansn : x.ansn = y.ansn
  direct : x.direct = y.direct
  timer : x.timer = y.timer
  edges : x.edges = y.edges ∨ x.edges ≠ [] ∨ x.timer = true ∨ x.direct = true

theorem Kept.refl (x : Node) : Kept x x := ⟨rfl, rfl, rfl, rfl, .inl rfl⟩

theorem Kept.trans {x y z : Node} (h1 : Kept x y) (h2 : Kept y z) : Kept x z := by
  refine ⟨h2.addr.trans h1.addr, h2.ansn.trans h1.ansn, h2.direct.trans h1.direct, h2.timer.trans h1.timer, ?_⟩
  rcases h2.edges with h | h
  · rcases h1.edges with h' | h' | h' | h'
    · exact .inl (h.trans h')
    · exact .inr (.inl (by rw [h]; exact h'))
    · exact .inr (.inr (.inl (by rw [h2.timer]; exact h')))
    · exact .inr (.inr (.inr (by rw [h2.direct]; exact h')))
  · exact .inr h

/-- what `_remove_edge` does -/
structure RemovedEdge (db db' : Db) (e : Nat) (ed : Edge) : Prop where
  edge : ∀ e' x, db'.edges e' = some x → ∃ y, db.edges e' = some y ∧ x.src = y.src ∧ x.dst = y.dst ∧ (e' = e → x.virt = true) ∧ (e' ≠ e → x = y)
  keep : ∀ e', e' ≠ e → e' ≠ ed.inv → db'.edges e' = db.edges e'
  node : ∀ j x, j ≠ ed.src → db'.nodes j = some x → ∃ y, db.nodes j = some y ∧ Kept y x
  self : ∀ y, db.nodes ed.src = some y → ∃ x, db'.nodes ed.src = some x ∧ x.addr = y.addr ∧ x.ansn = y.ansn ∧ x.direct = y.direct ∧ x.timer = y.timer
  att : ∀ a x, db'.atts a = some x → db.atts a = some x
  attkeep : ∀ a x, db.atts a = some x → x.src ≠ ed.dst → db'.atts a = some x
  ends : ∀ i y, db'.ends i = some y → ∃ z, db.ends i = some z ∧ z.key = y.key

theorem removeEdge_spec {db : Db} (h : WF db) {e : Nat} {ed : Edge} (hed : db.edges e = some ed) (d : Nat) :
    ∃ db', removeEdgeWith (nodeRemove (d + 1)) true db e = some db' ∧ WF db' ∧ RemovedEdge db db' e ed := by
  unfold removeEdgeWith
  rw [hed]
  dsimp only
  cases hv : ed.virt with
  | true =>
    rw [if_pos rfl]
    refine ⟨db, rfl, h, ⟨?_, fun _ _ _ => rfl, fun j x _ hx => ⟨x, hx, Kept.refl x⟩, fun y hy => ⟨y, hy, rfl, rfl, rfl, rfl⟩, fun a x hx => hx, fun a x hx _ => hx, fun i y hy => ⟨y, hy, rfl⟩⟩⟩
    intro e' x hx
    refine ⟨x, hx, rfl, rfl, ?_, fun _ => rfl⟩
    intro he
    rw [he, hed] at hx
    injection hx with hx
    rw [← hx]
    exact hv
  | false =>
    rw [if_neg (by decide)]
    obtain ⟨inv, hinv, i1, i2, i3, i4⟩ := h.edge.inv e ed hed
    rw [hinv]
    dsimp only
    cases hiv : inv.virt with
    | false =>
      rw [if_pos (by decide)]
      refine ⟨_, rfl, setEdge_wf h hed rfl rfl rfl ?_, ⟨?_, ?_, fun j x _ hx => ⟨x, hx, Kept.refl x⟩, fun y hy => ⟨y, hy, rfl, rfl, rfl, rfl⟩, fun a x hx => hx, fun a x hx _ => hx, fun i y hy => ⟨y, hy, rfl⟩⟩⟩
      · intro iv hiv'
        rw [hinv] at hiv'
        injection hiv' with hiv'
        rw [← hiv', hiv]
        simp
      · intro e' x hx
        have hx : upd db.edges e _ e' = some x := hx
        by_cases he : e' = e
        · rw [he, upd_same] at hx
          injection hx with hx
          rw [← hx]
          exact ⟨ed, by rw [he]; exact hed, rfl, rfl, fun _ => rfl, fun h => absurd he h⟩
        · rw [upd_ne _ _ he] at hx
          exact ⟨x, hx, rfl, rfl, fun h => absurd h he, fun _ => rfl⟩
      · intro e' he _
        exact upd_ne _ _ he
    | true =>
      rw [if_neg (by decide)]
      obtain ⟨n, hn⟩ := h.edge.src e ed hed
      obtain ⟨m, hm⟩ := h.edge.dst e ed hed
      have hne := h.edge.ne e ed hed
      rw [hn]
      dsimp only
      rw [remove_mem ((h.edge.mem _ n e hn).2 ⟨ed, hed, rfl⟩)]
      dsimp only
      have hm2 : (db.setNode ed.src { n with edges := n.edges.erase e }).nodes ed.dst = some m := by
        show upd db.nodes ed.src _ ed.dst = _
        rw [upd_ne _ _ hne.symm]
        exact hm
      rw [hm2]
      dsimp only
      rw [remove_mem ((h.edge.mem _ m ed.inv hm).2 ⟨inv, hinv, i2⟩)]
      dsimp only
      have w := unhooked_wf h hed hn hm
      have edgeU : ∀ e' x, (unhooked db e ed n m).edges e' = some x → ∃ y, db.edges e' = some y ∧ x.src = y.src ∧ x.dst = y.dst ∧ (e' = e → x.virt = true) ∧ (e' ≠ e → x = y) := by
        intro e' x hx
        obtain ⟨a, b, hx⟩ := unhooked_edge hx
        exact ⟨x, hx, rfl, rfl, fun h => absurd h a, fun _ => rfl⟩
      by_cases hc : m.edges.erase ed.inv = [] ∧ true = true ∧ m.timer = false
      · rw [if_pos hc]
        -- the destination is removed
        let db1 : Db := (db.setNode ed.src { n with edges := n.edges.erase e }).setNode ed.dst { m with edges := m.edges.erase ed.inv }
        have hd : db1.nodes ed.dst = some { m with edges := m.edges.erase ed.inv } := upd_same _ _ _
        have hU : db1.withEdges (unhooked db e ed n m).edges = unhooked db e ed n m := rfl
        obtain ⟨db', d1, d2, d3, d4, d5, d6, d7⟩ := nodeDrop_spec w (i := ed.dst) (n := { m with edges := m.edges.erase ed.inv }) (upd_same _ _ _)
        -- run with the edges still allocated
        have hrun : ∃ dbx, nodeRemove (d + 1) db1 ed.dst = some dbx ∧ dbx.withEdges (unhooked db e ed n m).edges = db' ∧ dbx.edges = db.edges := by
          rw [nodeRemove_noedges hd hc.1]
          have hh := nodeDrop_edges (unhooked db e ed n m).edges db1 ed.dst
          rw [hU, d1] at hh
          cases hx : nodeDrop db1 ed.dst with
          | none => rw [hx] at hh; cases hh
          | some dbx =>
            rw [hx] at hh
            injection hh with hh
            refine ⟨dbx, rfl, hh.symm, ?_⟩
            have hb := nodeDrop_edges db.edges db1 ed.dst
            have : db1.withEdges db.edges = db1 := rfl
            rw [this, hx] at hb
            injection hb with hb
            rw [hb]
            rfl
        obtain ⟨dbx, r1, r2, r3⟩ := hrun
        refine ⟨db', ?_, d2, ⟨?_, ?_, ?_, ?_, ?_, fun a x hx hs => (d6 a x).2 ⟨hx, hs⟩, d7⟩⟩
        · show (nodeRemove (d + 1) db1 ed.dst).map _ = _
          rw [r1]
          show some _ = _
          rw [← r2]
          show some { dbx with edges := upd (upd dbx.edges ed.inv none) e none } = some (dbx.withEdges (upd (upd db.edges ed.inv none) e none))
          rw [r3]
          rfl
        · intro e' x hx
          rw [d3] at hx
          exact edgeU e' x hx
        · intro e' a b
          rw [d3]
          exact unhooked_edge_old a b
        · intro j x hj hx
          by_cases hjd : j = ed.dst
          · rcases d5 with ⟨_, _, hnone⟩ | ⟨hcond, n', hn', q1, q2, q3, q4, q5⟩
            · rw [hjd, hnone] at hx; cases hx
            · rw [hjd, hn'] at hx
              injection hx with hx
              rw [hjd]
              refine ⟨m, hm, ⟨?_, ?_, ?_, ?_, ?_⟩⟩
              · rw [← hx, q1]
              · rw [← hx, q2]
              · rw [← hx, q3]
              · rw [← hx, q5, hc.2.2]
              · right; right; right
                rw [← hx, q3]
                cases hmd : m.direct with
                | true => rfl
                | false => exact absurd ⟨hc.1, hmd⟩ hcond
          · have h4 := d4 j hjd
            rw [hx] at h4
            have hU : (unhooked db e ed n m).nodes j = db.nodes j := by
              show upd (upd db.nodes ed.src _) ed.dst _ j = _
              rw [upd_ne _ _ hjd, upd_ne _ _ hj]
            rw [hU] at h4
            cases hy : db.nodes j with
            | none => rw [hy] at h4; cases h4
            | some y =>
              rw [hy] at h4
              injection h4 with h4
              unfold main at h4
              injection h4 with m1 h4
              injection h4 with m2 h4
              injection h4 with m3 h4
              injection h4 with m4 m5
              exact ⟨y, rfl, ⟨m1, m2, m3, m4, .inl m5⟩⟩
        · intro y hy
          rw [hn] at hy
          injection hy with hy
          rw [← hy]
          have h4 := d4 ed.src hne
          have hU : (unhooked db e ed n m).nodes ed.src = some { n with edges := n.edges.erase e } := by
            show upd (upd db.nodes ed.src _) ed.dst _ ed.src = _
            rw [upd_ne _ _ hne, upd_same]
          rw [hU] at h4
          cases hx : db'.nodes ed.src with
          | none => rw [hx] at h4; cases h4
          | some x =>
            rw [hx] at h4
            injection h4 with h4
            unfold main at h4
            injection h4 with m1 h4
            injection h4 with m2 h4
            injection h4 with m3 h4
            injection h4 with m4 m5
            exact ⟨x, rfl, m1, m2, m3, m4⟩
        · intro a x hx
          exact ((d6 a x).1 hx).1
      · rw [if_neg hc]
        refine ⟨unhooked db e ed n m, rfl, w, ⟨edgeU, ?_, ?_, ?_, fun a x hx => hx, fun a x hx _ => hx, fun i y hy => ⟨y, hy, rfl⟩⟩⟩
        · intro e' a b
          exact unhooked_edge_old a b
        · intro j x hj hx
          rcases unhooked_node hx with ⟨hi, rfl⟩ | ⟨_, hi, _⟩ | ⟨_, _, hx⟩
          · rw [hi]
            refine ⟨m, hm, ⟨rfl, rfl, rfl, rfl, ?_⟩⟩
            show _ ∨ m.edges.erase ed.inv ≠ [] ∨ m.timer = true ∨ _
            by_cases hx' : m.edges.erase ed.inv = []
            · right; right; left
              cases ht : m.timer with
              | true => rfl
              | false => exact absurd ⟨hx', rfl, ht⟩ hc
            · exact .inr (.inl hx')
          · exact absurd hi hj
          · exact ⟨x, hx, Kept.refl x⟩
        · intro y hy
          rw [hn] at hy
          injection hy with hy
          rw [← hy]
          refine ⟨{ n with edges := n.edges.erase e }, ?_, rfl, rfl, rfl, rfl⟩
          show upd (upd db.nodes ed.src _) ed.dst _ ed.src = _
          rw [upd_ne _ _ hne, upd_same]

/-! ### nodes -/

/-- the edges of a node are removed one after the other -/
structure Removing (db db' : Db) (i : Nat) (l : List Nat) : Prop where
  edge : ∀ e' x, db'.edges e' = some x → ∃ y, db.edges e' = some y ∧ x.src = y.src ∧ x.dst = y.dst ∧ (y.src = i → e' ∉ l → x.virt = true) ∧ (y.src ≠ i → x = y)
  keep : ∀ e' ∈ l, db'.edges e' = db.edges e'
  node : ∀ j x, j ≠ i → db'.nodes j = some x → ∃ y, db.nodes j = some y ∧ Kept y x
  self : ∀ y, db.nodes i = some y → ∃ x, db'.nodes i = some x ∧ x.addr = y.addr ∧ x.ansn = y.ansn ∧ x.direct = y.direct ∧ x.timer = y.timer
  att : ∀ a x, db'.atts a = some x → db.atts a = some x

theorem removing {db0 : Db} {i : Nat} (d : Nat) : ∀ (l : List Nat) {db : Db}, WF db → l.Nodup → (∀ e ∈ l, ∃ ed, db.edges e = some ed ∧ ed.src = i) → Removing db0 db i l →
    ∃ db', l.foldlM (removeEdgeWith (nodeRemove (d + 1)) true) db = some db' ∧ WF db' ∧ Removing db0 db' i []
  | [], db, h, _, _, hr => ⟨db, rfl, h, hr⟩
  | e :: l, db, h, hd, hl, hr => by
    obtain ⟨ed, hed, hs⟩ := hl e (by simp)
    obtain ⟨db1, e1, w1, r1⟩ := removeEdge_spec h hed d
    rw [List.nodup_cons] at hd
    have hother : ∀ e' ∈ l, e' ≠ e ∧ e' ≠ ed.inv := by
      intro e' he'
      refine ⟨fun he => hd.1 (by rw [← he]; exact he'), ?_⟩
      intro he
      obtain ⟨x, hx, hxs⟩ := hl e' (by simp [he'])
      obtain ⟨inv, hinv, _, i2, _⟩ := h.edge.inv e ed hed
      rw [he, hinv] at hx
      injection hx with hx
      have hne := h.edge.ne e ed hed
      rw [← hx, i2] at hxs
      exact hne (hs.trans hxs.symm)
    obtain ⟨db2, e2, w2, r2⟩ := removing (db0 := db0) (i := i) d l w1 hd.2 (by
      intro e' he'
      obtain ⟨a, b⟩ := hother e' he'
      rw [r1.keep e' a b]
      exact hl e' (by simp [he'])) (by
      refine ⟨?_, ?_, ?_, ?_, fun a x hx => hr.att a x (r1.att a x hx)⟩
      · intro e' x hx
        obtain ⟨y, hy, s1, s2, s3, s4⟩ := r1.edge e' x hx
        obtain ⟨z, hz, t1, t2, t3, t4⟩ := hr.edge e' y hy
        refine ⟨z, hz, s1.trans t1, s2.trans t2, ?_, ?_⟩
        · intro hzi hel
          by_cases he : e' = e
          · exact s3 he
          · rw [s4 he]
            exact t3 hzi (by simp [he, hel])
        · intro hzi
          have : e' ≠ e := by
            intro he
            rw [he, hed] at hy
            injection hy with hy
            rw [← hy, hs] at t1
            exact hzi t1.symm
          rw [s4 this]
          exact t4 hzi
      · intro e' he'
        obtain ⟨a, b⟩ := hother e' he'
        rw [r1.keep e' a b]
        exact hr.keep e' (by simp [he'])
      · intro j x hj hx
        obtain ⟨y, hy, k1⟩ := r1.node j x (by rw [hs]; exact hj) hx
        obtain ⟨z, hz, k2⟩ := hr.node j y hj hy
        exact ⟨z, hz, k2.trans k1⟩
      · intro y hy
        obtain ⟨x, hx, a1, a2, a3, a4⟩ := hr.self y hy
        obtain ⟨z, hz, b1, b2, b3, b4⟩ := r1.self x (by rw [hs]; exact hx)
        rw [hs] at hz
        exact ⟨z, hz, b1.trans a1, b2.trans a2, b3.trans a3, b4.trans a4⟩)
    refine ⟨db2, ?_, w2, r2⟩
    rw [List.foldlM_cons, e1]
    exact e2

/-- what `olsrv2_tc_node_remove` does -/
structure RemovedNode (db db' : Db) (i : Nat) (n : Node) : Prop where
  edge : ∀ e' x, db'.edges e' = some x → ∃ y, db.edges e' = some y ∧ x.src = y.src ∧ x.dst = y.dst ∧ (y.src = i → x.virt = true) ∧ (y.src ≠ i → x = y)
  node : ∀ j x, j ≠ i → db'.nodes j = some x → ∃ y, db.nodes j = some y ∧ Kept y x
  self : ∀ x, db'.nodes i = some x → x.addr = n.addr ∧ x.direct = n.direct ∧ x.timer = false ∧ (x.edges ≠ [] ∨ x.direct = true)
  att : ∀ a x, db'.atts a = some x → db.atts a = some x ∧ x.src ≠ i

theorem nodeRemove_eq (d : Nat) (db : Db) (i : Nat) : nodeRemove (d + 1) db i =
    match db.nodes i with
    | none => none
    | some n =>
      match n.edges.foldlM (removeEdgeWith (nodeRemove d) true) db with
      | none => none
      | some db => nodeDrop db i := by
  conv => lhs; unfold nodeRemove
  rfl

theorem nodeRemove_spec {db : Db} (h : WF db) {i : Nat} {n : Node} (hn : db.nodes i = some n) (d : Nat) :
    ∃ db', nodeRemove (d + 2) db i = some db' ∧ WF db' ∧ RemovedNode db db' i n := by
  have hl : ∀ e ∈ n.edges, ∃ ed, db.edges e = some ed ∧ ed.src = i := fun e he => (h.edge.mem i n e hn).1 he
  obtain ⟨db1, e1, w1, r1⟩ := removing (db0 := db) (i := i) d n.edges h (h.edge.nodup i n hn) hl (by
    refine ⟨?_, fun _ _ => rfl, fun j x _ hx => ⟨x, hx, Kept.refl x⟩, fun y hy => ⟨y, hy, rfl, rfl, rfl, rfl⟩, fun a x hx => hx⟩
    intro e' x hx
    refine ⟨x, hx, rfl, rfl, ?_, fun _ => rfl⟩
    intro hs hne
    exact absurd ((h.edge.mem i n e' hn).2 ⟨x, hx, hs⟩) hne)
  obtain ⟨n1, hn1, a1, a2, a3, a4⟩ := r1.self n hn
  obtain ⟨db', d1, d2, d3, d4, d5, d6, d7⟩ := nodeDrop_spec w1 hn1
  refine ⟨db', ?_, d2, ⟨?_, ?_, ?_, ?_⟩⟩
  · rw [nodeRemove_eq, hn]
    dsimp only
    rw [e1]
    exact d1
  · intro e' x hx
    rw [d3] at hx
    obtain ⟨y, hy, s1, s2, s3, s4⟩ := r1.edge e' x hx
    exact ⟨y, hy, s1, s2, fun hs => s3 hs (by simp), s4⟩
  · intro j x hj hx
    have h4 := d4 j hj
    rw [hx] at h4
    cases hy : db1.nodes j with
    | none => rw [hy] at h4; cases h4
    | some y =>
      rw [hy] at h4
      injection h4 with h4
      unfold main at h4
      injection h4 with m1 h4
      injection h4 with m2 h4
      injection h4 with m3 h4
      injection h4 with m4 m5
      obtain ⟨z, hz, k⟩ := r1.node j y hj hy
      exact ⟨z, hz, k.trans ⟨m1, m2, m3, m4, .inl m5⟩⟩
  · intro x hx
    rcases d5 with ⟨_, _, hnone⟩ | ⟨hcond, n', hn', q1, _, q3, q4, q5⟩
    · rw [hnone] at hx; cases hx
    · rw [hn'] at hx
      injection hx with hx
      rw [← hx]
      refine ⟨q1.trans a1, q3.trans a3, q5, ?_⟩
      rw [q4, q3]
      cases hd : n1.direct with
      | true => exact .inr rfl
      | false => exact .inl (fun he => hcond ⟨he, hd⟩)
  · intro a x hx
    obtain ⟨p1, p2⟩ := (d6 a x).1 hx
    exact ⟨r1.att a x p1, p2⟩

end Verif.Tc
