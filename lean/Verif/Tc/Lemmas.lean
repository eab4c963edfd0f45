import Verif.Tc.Spec

namespace Verif.Tc
open Verif.Netaddr (Netaddr)

/-! ### heap and trees -/

@[simp] theorem upd_same {α : Type} (f : Nat → Option α) (i : Nat) (v : Option α) : upd f i v i = v := by simp [upd]
theorem upd_ne {α : Type} (f : Nat → Option α) {i j : Nat} (v : Option α) (h : j ≠ i) : upd f i v j = f j := by simp [upd, h]

theorem find_spec {κ : Type} [DecidableEq κ] {key : Nat → Option κ} {l : List Nat} (k : κ) (h : ∀ i ∈ l, ∃ x, key i = some x) :
    (find key l k = some none ∧ ∀ i ∈ l, key i ≠ some k) ∨ ∃ i ∈ l, key i = some k ∧ find key l k = some (some i) := by
  unfold find
  rw [if_pos (by
    rw [List.all_eq_true]
    intro i hi
    obtain ⟨x, hx⟩ := h i hi
    rw [hx]; rfl)]
  cases hf : l.find? fun i => decide (key i = some k) with
  | none =>
    left
    refine ⟨rfl, ?_⟩
    rw [List.find?_eq_none] at hf
    intro i hi he
    exact hf i hi (decide_eq_true he)
  | some i =>
    right
    have := List.find?_some hf
    exact ⟨i, List.mem_of_find?_eq_some hf, of_decide_eq_true this, rfl⟩

theorem insert_new {κ : Type} [DecidableEq κ] {key : Nat → Option κ} {l : List Nat} {i : Nat} (h : ∀ j ∈ l, ∃ x, key j = some x) (hn : ∀ j ∈ l, key j ≠ key i) :
    insert key l i = some (l ++ [i]) := by
  unfold insert
  rw [if_pos (by
    rw [List.all_eq_true]
    intro i hi
    obtain ⟨x, hx⟩ := h i hi
    rw [hx]; rfl), if_neg (by
    rw [List.any_eq_true]
    rintro ⟨j, hj, he⟩
    exact hn j hj (of_decide_eq_true he))]

theorem remove_mem {l : List Nat} {i : Nat} (h : i ∈ l) : remove l i = some (l.erase i) := by
  unfold remove
  rw [if_pos h]

/-! ### what the parts depend on -/

structure Fresh (db : Db) : Prop where
  nodes : ∀ i, db.next ≤ i → db.nodes i = none
  edges : ∀ i, db.next ≤ i → db.edges i = none
  atts : ∀ i, db.next ≤ i → db.atts i = none
  ends : ∀ i, db.next ≤ i → db.ends i = none

structure WF (db : Db) : Prop extends WellFormed db where
  fresh : Fresh db

theorem Fresh.lt {db : Db} (h : Fresh db) {i : Nat} {n : Node} (hi : db.nodes i = some n) : i < db.next := by
  rcases Nat.lt_or_ge i db.next with h' | h'
  · exact h'
  · rw [h.nodes i h'] at hi; cases hi

theorem Fresh.ltE {db : Db} (h : Fresh db) {i : Nat} {n : Edge} (hi : db.edges i = some n) : i < db.next := by
  rcases Nat.lt_or_ge i db.next with h' | h'
  · exact h'
  · rw [h.edges i h'] at hi; cases hi

theorem Fresh.ltA {db : Db} (h : Fresh db) {i : Nat} {n : Att} (hi : db.atts i = some n) : i < db.next := by
  rcases Nat.lt_or_ge i db.next with h' | h'
  · exact h'
  · rw [h.atts i h'] at hi; cases hi

theorem Fresh.ltX {db : Db} (h : Fresh db) {i : Nat} {n : End} (hi : db.ends i = some n) : i < db.next := by
  rcases Nat.lt_or_ge i db.next with h' | h'
  · exact h'
  · rw [h.ends i h'] at hi; cases hi

/-- nodes of `db'` are nodes of `db` with a field of interest unchanged -/
def Same {β : Type} (f : Node → β) (db db' : Db) : Prop := ∀ i, (db'.nodes i).map f = (db.nodes i).map f

theorem Same.get {β : Type} {f : Node → β} {db db' : Db} (h : Same f db db') {i : Nat} {n : Node} (hn : db'.nodes i = some n) : ∃ m, db.nodes i = some m ∧ f n = f m := by
  have := h i
  rw [hn] at this
  cases hm : db.nodes i with
  | none => rw [hm] at this; cases this
  | some m =>
    rw [hm] at this
    injection this with this
    exact ⟨m, rfl, this⟩

theorem Same.put {β : Type} {f : Node → β} {db db' : Db} (h : Same f db db') {i : Nat} {n : Node} (hn : db.nodes i = some n) : ∃ m, db'.nodes i = some m ∧ f n = f m := by
  have h' : Same f db' db := fun i => (h i).symm
  exact h'.get hn

theorem Same.setNode {β : Type} {f : Node → β} {db : Db} {i : Nat} {n n' : Node} (hn : db.nodes i = some n) (hf : f n' = f n) : Same f db (db.setNode i n') := by
  intro j
  unfold Db.setNode
  dsimp only
  by_cases hj : j = i
  · subst hj
    rw [upd_same, hn]
    simp [hf]
  · rw [upd_ne _ _ hj]

theorem TreeWF.congr {db db' : Db} (h : TreeWF db) (hs : Same (·.addr) db db') (ht : db'.tree = db.tree) : TreeWF db' := by
  refine ⟨by rw [ht]; exact h.nodup, ?_, ?_⟩
  · intro i
    rw [ht, h.mem]
    constructor
    · rintro ⟨n, hn⟩
      obtain ⟨m, hm, _⟩ := hs.put hn
      exact ⟨m, hm⟩
    · rintro ⟨n, hn⟩
      obtain ⟨m, hm, _⟩ := hs.get hn
      exact ⟨m, hm⟩
  · intro i j n m hn hm he
    obtain ⟨n', hn', e1⟩ := hs.get hn
    obtain ⟨m', hm', e2⟩ := hs.get hm
    exact h.addr i j n' m' hn' hm' (by rw [← e1, ← e2, he])

theorem EdgeWF.congr {db db' : Db} (h : EdgeWF db) (hs : Same (·.edges) db db') (he : db'.edges = db.edges) : EdgeWF db' := by
  have live : ∀ i n, db.nodes i = some n → ∃ m, db'.nodes i = some m := fun i n hn => by
    obtain ⟨m, hm, _⟩ := hs.put hn
    exact ⟨m, hm⟩
  refine ⟨?_, ?_, ?_, ?_, ?_, ?_, ?_⟩
  · intro i n hn
    obtain ⟨m, hm, e⟩ := hs.get hn
    have := h.nodup i m hm
    rw [e]; exact this
  · intro i n e hn
    obtain ⟨m, hm, e'⟩ := hs.get hn
    rw [he, e']; exact h.mem i m e hm
  · intro e ed h'
    rw [he] at h'
    obtain ⟨n, hn⟩ := h.src e ed h'
    exact live _ n hn
  · intro e ed h'
    rw [he] at h'
    obtain ⟨n, hn⟩ := h.dst e ed h'
    exact live _ n hn
  · rw [he]; exact h.ne
  · rw [he]; exact h.one
  · rw [he]; exact h.inv

theorem AttWF.congr {db db' : Db} (h : AttWF db) (hs : Same (·.atts) db db') (ha : db'.atts = db.atts) (he : db'.ends = db.ends) (ht : db'.endTree = db.endTree) : AttWF db' := by
  refine ⟨?_, ?_, by rw [he]; exact h.enodup, by rw [he, ha]; exact h.emem, ?_, by rw [he, ha]; exact h.dst, by rw [ha]; exact h.one, by rw [he]; exact h.used, by rw [ht]; exact h.tree,
    by rw [ht, he]; exact h.tmem, by rw [he]; exact h.key⟩
  · intro i n hn
    obtain ⟨m, hm, e⟩ := hs.get hn
    rw [e]; exact h.nodup i m hm
  · intro i n a hn
    obtain ⟨m, hm, e⟩ := hs.get hn
    rw [ha, e]; exact h.mem i m a hm
  · intro a at_ h'
    rw [ha] at h'
    obtain ⟨n, hn⟩ := h.src a at_ h'
    obtain ⟨m, hm, _⟩ := hs.put hn
    exact ⟨m, hm⟩

theorem Fresh.setNode {db : Db} (h : Fresh db) {i : Nat} {n n' : Node} (hn : db.nodes i = some n) : Fresh (db.setNode i n') := by
  refine ⟨?_, h.edges, h.atts, h.ends⟩
  intro j hj
  have hj' : db.next ≤ j := hj
  have := h.lt hn
  show upd db.nodes i (some n') j = none
  rw [upd_ne _ _ (by omega)]
  exact h.nodes j hj'

/-- changes of the other fields of a node -/
theorem WF.setNode {db : Db} (h : WF db) {i : Nat} {n n' : Node} (hn : db.nodes i = some n) (h1 : n'.addr = n.addr) (h2 : n'.edges = n.edges) (h3 : n'.atts = n.atts) : WF (db.setNode i n') :=
  ⟨⟨h.tree.congr (Same.setNode hn h1) rfl, h.edge.congr (Same.setNode hn h2) rfl, h.att.congr (Same.setNode hn h3) rfl rfl rfl⟩, h.fresh.setNode hn⟩

theorem TreeWF.keys {db : Db} (h : TreeWF db) : ∀ i ∈ db.tree, ∃ x, db.nodeKey i = some x := by
  intro i hi
  obtain ⟨n, hn⟩ := (h.mem i).1 hi
  exact ⟨n.addr, by unfold Db.nodeKey; rw [hn]; rfl⟩

/-- result of a lookup of a node -/
theorem nodeGet_spec {db : Db} (h : TreeWF db) (addr : Netaddr) :
    (nodeGet db addr = some none ∧ ∀ i n, db.nodes i = some n → n.addr ≠ addr) ∨ ∃ i n, nodeGet db addr = some (some i) ∧ db.nodes i = some n ∧ n.addr = addr := by
  rcases find_spec addr h.keys with ⟨h1, h2⟩ | ⟨i, hi, h1, h2⟩
  · left
    refine ⟨h1, ?_⟩
    intro i n hn he
    have := h2 i ((h.mem i).2 ⟨n, hn⟩)
    unfold Db.nodeKey at this
    rw [hn] at this
    exact this (by simp [he])
  · right
    obtain ⟨n, hn⟩ := (h.mem i).1 hi
    refine ⟨i, n, h2, hn, ?_⟩
    unfold Db.nodeKey at h1
    rw [hn] at h1
    injection h1

theorem EdgeWF.keys {db : Db} (h : EdgeWF db) {i : Nat} {n : Node} (hn : db.nodes i = some n) : ∀ e ∈ n.edges, ∃ x, db.edgeKey e = some x := by
  intro e he
  obtain ⟨ed, hed, _⟩ := (h.mem i n e hn).1 he
  obtain ⟨m, hm⟩ := h.dst e ed hed
  exact ⟨m.addr, by unfold Db.edgeKey Db.nodeKey; rw [hed]; simp [hm]⟩

theorem edgeKey_eq {db : Db} {e : Nat} {ed : Edge} {a : Netaddr} (hed : db.edges e = some ed) : db.edgeKey e = some a ↔ ∃ m, db.nodes ed.dst = some m ∧ m.addr = a := by
  unfold Db.edgeKey Db.nodeKey
  rw [hed]
  simp

/-- result of a lookup of an edge -/
theorem findEdge_spec {db : Db} (h : WellFormed db) {i : Nat} {n : Node} (hn : db.nodes i = some n) (addr : Netaddr) :
    (find db.edgeKey n.edges addr = some none ∧ ∀ e ed, db.edges e = some ed → ed.src = i → ∀ m, db.nodes ed.dst = some m → m.addr ≠ addr) ∨
    ∃ e ed m, find db.edgeKey n.edges addr = some (some e) ∧ db.edges e = some ed ∧ ed.src = i ∧ db.nodes ed.dst = some m ∧ m.addr = addr := by
  rcases find_spec addr (h.edge.keys hn) with ⟨h1, h2⟩ | ⟨e, he, h1, h2⟩
  · left
    refine ⟨h1, ?_⟩
    intro e ed hed hs m hm ha
    exact h2 e ((h.edge.mem i n e hn).2 ⟨ed, hed, hs⟩) ((edgeKey_eq hed).2 ⟨m, hm, ha⟩)
  · right
    obtain ⟨ed, hed, hs⟩ := (h.edge.mem i n e hn).1 he
    obtain ⟨m, hm, ha⟩ := (edgeKey_eq hed).1 h1
    exact ⟨e, ed, m, h2, hed, hs, hm, ha⟩

/-! ### a new node -/

/-- the database with a new node -/
def newNode (db : Db) (addr : Netaddr) (vtime : Bool) (ansn : UInt16) : Db :=
  { db with nodes := upd db.nodes db.next (some ⟨addr, ansn, false, vtime, [], []⟩), tree := db.tree ++ [db.next], next := db.next + 1 }

theorem newNode_old {db : Db} (hf : Fresh db) {addr : Netaddr} {v : Bool} {ansn : UInt16} {i : Nat} {n : Node} (hn : db.nodes i = some n) : (newNode db addr v ansn).nodes i = some n := by
  have := hf.lt hn
  show upd db.nodes db.next _ i = _
  rw [upd_ne _ _ (by omega)]
  exact hn

theorem newNode_get {db : Db} {addr : Netaddr} {v : Bool} {ansn : UInt16} {i : Nat} {n : Node} (hn : (newNode db addr v ansn).nodes i = some n) :
    (i = db.next ∧ n = ⟨addr, ansn, false, v, [], []⟩) ∨ (i ≠ db.next ∧ db.nodes i = some n) := by
  have hn : upd db.nodes db.next (some ⟨addr, ansn, false, v, [], []⟩) i = some n := hn
  by_cases hi : i = db.next
  · rw [hi, upd_same] at hn
    injection hn with hn
    exact .inl ⟨hi, hn.symm⟩
  · rw [upd_ne _ _ hi] at hn
    exact .inr ⟨hi, hn⟩

theorem WF.newNode {db : Db} (h : WF db) {addr : Netaddr} {v : Bool} {ansn : UInt16} (hnew : ∀ i n, db.nodes i = some n → n.addr ≠ addr) : WF (newNode db addr v ansn) := by
  have hf := h.fresh
  refine ⟨⟨⟨?_, ?_, ?_⟩, ⟨?_, ?_, ?_, ?_, h.edge.ne, h.edge.one, h.edge.inv⟩, ⟨?_, ?_, h.att.enodup, h.att.emem, ?_, h.att.dst, h.att.one, h.att.used, h.att.tree, h.att.tmem, h.att.key⟩⟩, ⟨?_, ?_, ?_, ?_⟩⟩
  · show (db.tree ++ [db.next]).Nodup
    rw [List.nodup_append]
    refine ⟨h.tree.nodup, by simp, ?_⟩
    intro a ha b hb
    obtain ⟨n, hn⟩ := (h.tree.mem a).1 ha
    have := hf.lt hn
    rw [List.mem_singleton] at hb
    omega
  · intro i
    show i ∈ db.tree ++ [db.next] ↔ _
    rw [List.mem_append, List.mem_singleton, h.tree.mem]
    constructor
    · rintro (⟨n, hn⟩ | rfl)
      · exact ⟨n, newNode_old hf hn⟩
      · exact ⟨_, upd_same _ _ _⟩
    · rintro ⟨n, hn⟩
      rcases newNode_get hn with ⟨hi, _⟩ | ⟨_, hn⟩
      · exact .inr hi
      · exact .inl ⟨n, hn⟩
  · intro i j n m hn hm he
    rcases newNode_get hn with ⟨hi, e1⟩ | ⟨_, hn⟩ <;> rcases newNode_get hm with ⟨hj, e2⟩ | ⟨_, hm⟩
    · rw [hi, hj]
    · rw [e1] at he; exact absurd he.symm (hnew j m hm)
    · rw [e2] at he; exact absurd he (hnew i n hn)
    · exact h.tree.addr i j n m hn hm he
  · intro i n hn
    rcases newNode_get hn with ⟨_, e1⟩ | ⟨_, hn⟩
    · rw [e1]; exact List.nodup_nil
    · exact h.edge.nodup i n hn
  · intro i n e hn
    rcases newNode_get hn with ⟨hi, e1⟩ | ⟨_, hn⟩
    · rw [e1]
      constructor
      · intro h'; cases h'
      · rintro ⟨ed, hed, hs⟩
        obtain ⟨m, hm⟩ := h.edge.src e ed hed
        have := hf.lt hm
        omega
    · exact h.edge.mem i n e hn
  · intro e ed hed
    obtain ⟨n, hn⟩ := h.edge.src e ed hed
    exact ⟨n, newNode_old hf hn⟩
  · intro e ed hed
    obtain ⟨n, hn⟩ := h.edge.dst e ed hed
    exact ⟨n, newNode_old hf hn⟩
  · intro i n hn
    rcases newNode_get hn with ⟨_, e1⟩ | ⟨_, hn⟩
    · rw [e1]; exact List.nodup_nil
    · exact h.att.nodup i n hn
  · intro i n a hn
    rcases newNode_get hn with ⟨hi, e1⟩ | ⟨_, hn⟩
    · rw [e1]
      constructor
      · intro h'; cases h'
      · rintro ⟨at_, hat, hs⟩
        obtain ⟨m, hm⟩ := h.att.src a at_ hat
        have := hf.lt hm
        omega
    · exact h.att.mem i n a hn
  · intro a at_ hat
    obtain ⟨n, hn⟩ := h.att.src a at_ hat
    exact ⟨n, newNode_old hf hn⟩
  · intro i hi
    have hi : db.next + 1 ≤ i := hi
    show upd db.nodes db.next _ i = none
    rw [upd_ne _ _ (by omega)]
    exact hf.nodes i (by omega)
  · intro i hi
    have hi : db.next + 1 ≤ i := hi
    exact hf.edges i (by omega)
  · intro i hi
    have hi : db.next + 1 ≤ i := hi
    exact hf.atts i (by omega)
  · intro i hi
    have hi : db.next + 1 ≤ i := hi
    exact hf.ends i (by omega)

/-- result of `olsrv2_tc_node_add` -/
theorem nodeAdd_spec {db : Db} (h : TreeWF db) (addr : Netaddr) (v : Bool) (ansn : UInt16) (ok : Bool) :
    ((∀ i n, db.nodes i = some n → n.addr ≠ addr) ∧ nodeAdd db addr v ansn ok = if ok then some (newNode db addr v ansn, some db.next) else some (db, none)) ∨
    ∃ i n, db.nodes i = some n ∧ n.addr = addr ∧ nodeAdd db addr v ansn ok = some (db.setNode i { n with ansn := if n.timer then n.ansn else ansn, timer := v }, some i) := by
  unfold nodeAdd
  rcases nodeGet_spec h addr with ⟨h1, h2⟩ | ⟨i, n, h1, h2, h3⟩
  · left
    rw [h1]
    exact ⟨h2, rfl⟩
  · right
    rw [h1]
    refine ⟨i, n, h2, h3, ?_⟩
    dsimp only
    rw [h2]

end Verif.Tc
