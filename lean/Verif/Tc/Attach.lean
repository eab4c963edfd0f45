import Verif.Tc.Lemmas

/-! Attachments and endpoints. -/
namespace Verif.Tc
open Verif.Netaddr (Netaddr)

/-- `AttWF` without the rule that an endpoint has an attachment -/
structure AttCore (db : Db) : Prop where
  nodup : ∀ i n, db.nodes i = some n → n.atts.Nodup
  mem : ∀ i n a, db.nodes i = some n → (a ∈ n.atts ↔ ∃ at_, db.atts a = some at_ ∧ at_.src = i)
  enodup : ∀ x en, db.ends x = some en → en.atts.Nodup
  emem : ∀ x en a, db.ends x = some en → (a ∈ en.atts ↔ ∃ at_, db.atts a = some at_ ∧ at_.dst = x)
  src : ∀ a at_, db.atts a = some at_ → ∃ n, db.nodes at_.src = some n
  dst : ∀ a at_, db.atts a = some at_ → ∃ en, db.ends at_.dst = some en
  one : ∀ a at_ a' at_', db.atts a = some at_ → db.atts a' = some at_' → at_.src = at_'.src → at_.dst = at_'.dst → a = a'
  tree : db.endTree.Nodup
  tmem : ∀ x, x ∈ db.endTree ↔ ∃ en, db.ends x = some en
  key : ∀ x y en em, db.ends x = some en → db.ends y = some em → en.key = em.key → x = y

theorem AttWF.core {db : Db} (h : AttWF db) : AttCore db := ⟨h.nodup, h.mem, h.enodup, h.emem, h.src, h.dst, h.one, h.tree, h.tmem, h.key⟩

theorem AttCore.full {db : Db} (h : AttCore db) (hu : ∀ x en, db.ends x = some en → en.atts ≠ []) : AttWF db :=
  ⟨h.nodup, h.mem, h.enodup, h.emem, h.src, h.dst, h.one, hu, h.tree, h.tmem, h.key⟩

/-- the database with a new attachment -/
def attached (db : Db) (node x : Nat) (n : Node) (en : End) : Db :=
  { db with
    atts := upd db.atts db.next (some ⟨node, x, List.replicate DOMAINS INFINITE, List.replicate DOMAINS 0, 0⟩)
    nodes := upd db.nodes node (some { n with atts := n.atts ++ [db.next] })
    ends := upd db.ends x (some { en with atts := en.atts ++ [db.next], owner := node })
    next := db.next + 1 }

section
variable {db : Db} {node x : Nat} {n : Node} {en : End}

theorem attached_att {a : Nat} {at_ : Att} (h : (attached db node x n en).atts a = some at_) :
    (a = db.next ∧ at_ = ⟨node, x, List.replicate DOMAINS INFINITE, List.replicate DOMAINS 0, 0⟩) ∨ (a ≠ db.next ∧ db.atts a = some at_) := by
  have h : upd db.atts db.next _ a = some at_ := h
  by_cases h1 : a = db.next
  · rw [h1, upd_same] at h
    injection h with h
    exact .inl ⟨h1, h.symm⟩
  · rw [upd_ne _ _ h1] at h
    exact .inr ⟨h1, h⟩

theorem attached_att_old (hf : Fresh db) {a : Nat} {at_ : Att} (h : db.atts a = some at_) : (attached db node x n en).atts a = some at_ := by
  have := hf.ltA h
  show upd db.atts db.next _ a = _
  rw [upd_ne _ _ (by omega)]
  exact h

theorem attached_att_new : (attached db node x n en).atts db.next = some ⟨node, x, List.replicate DOMAINS INFINITE, List.replicate DOMAINS 0, 0⟩ := upd_same _ _ _

theorem attached_node {i : Nat} {y : Node} (h : (attached db node x n en).nodes i = some y) :
    (i = node ∧ y = { n with atts := n.atts ++ [db.next] }) ∨ (i ≠ node ∧ db.nodes i = some y) := by
  have h : upd db.nodes node _ i = some y := h
  by_cases h1 : i = node
  · rw [h1, upd_same] at h
    injection h with h
    exact .inl ⟨h1, h.symm⟩
  · rw [upd_ne _ _ h1] at h
    exact .inr ⟨h1, h⟩

theorem attached_end {i : Nat} {y : End} (h : (attached db node x n en).ends i = some y) :
    (i = x ∧ y = { en with atts := en.atts ++ [db.next], owner := node }) ∨ (i ≠ x ∧ db.ends i = some y) := by
  have h : upd db.ends x _ i = some y := h
  by_cases h1 : i = x
  · rw [h1, upd_same] at h
    injection h with h
    exact .inl ⟨h1, h.symm⟩
  · rw [upd_ne _ _ h1] at h
    exact .inr ⟨h1, h⟩

theorem attached_same {β : Type} (f : Node → β) (hn : db.nodes node = some n) (h1 : f { n with atts := n.atts ++ [db.next] } = f n) : Same f db (attached db node x n en) := by
  intro i
  show (upd db.nodes node _ i).map f = _
  by_cases h4 : i = node
  · rw [h4, upd_same, hn]
    simp [h1]
  · rw [upd_ne _ _ h4]

theorem attached_end_live {i : Nat} (h : ∃ y, db.ends i = some y) : ∃ y, (attached db node x n en).ends i = some y := by
  by_cases h1 : i = x
  · rw [h1]; exact ⟨_, upd_same _ _ _⟩
  · obtain ⟨y, hy⟩ := h
    exact ⟨y, by rw [← hy]; exact upd_ne _ _ h1⟩

theorem attached_core (h : AttCore db) (hf : Fresh db) (hn : db.nodes node = some n) (hx : db.ends x = some en)
    (hno : ∀ a at_, db.atts a = some at_ → ¬ (at_.src = node ∧ at_.dst = x)) : AttCore (attached db node x n en) := by
  refine ⟨?_, ?_, ?_, ?_, ?_, ?_, ?_, h.tree, ?_, ?_⟩
  · intro i y hy
    rcases attached_node hy with ⟨_, rfl⟩ | ⟨_, hy⟩
    · show (n.atts ++ [db.next]).Nodup
      rw [List.nodup_append]
      refine ⟨h.nodup _ n hn, by simp, ?_⟩
      intro a ha b hb
      obtain ⟨at_, hat, _⟩ := (h.mem _ n a hn).1 ha
      have := hf.ltA hat
      rw [List.mem_singleton] at hb
      omega
    · exact h.nodup i y hy
  · intro i y a hy
    have key : ∀ z, db.nodes i = some z → (a ∈ z.atts ∨ (i = node ∧ a = db.next) ↔ ∃ at_, (attached db node x n en).atts a = some at_ ∧ at_.src = i) := by
      intro z hz
      rw [h.mem i z a hz]
      constructor
      · rintro (⟨at_, hat, hs⟩ | ⟨rfl, rfl⟩)
        · exact ⟨at_, attached_att_old hf hat, hs⟩
        · exact ⟨_, attached_att_new, rfl⟩
      · rintro ⟨at_, hat, hs⟩
        rcases attached_att hat with ⟨ha, hd⟩ | ⟨_, hat⟩
        · rw [hd] at hs
          exact .inr ⟨hs.symm, ha⟩
        · exact .inl ⟨at_, hat, hs⟩
    rcases attached_node hy with ⟨hi, rfl⟩ | ⟨h1, hy⟩
    · subst hi
      rw [← key n hn]
      simp only [List.mem_append, List.mem_singleton, true_and]
    · rw [← key y hy]
      simp only [h1, false_and, or_false]
  · intro i y hy
    rcases attached_end hy with ⟨_, rfl⟩ | ⟨_, hy⟩
    · show (en.atts ++ [db.next]).Nodup
      rw [List.nodup_append]
      refine ⟨h.enodup _ en hx, by simp, ?_⟩
      intro a ha b hb
      obtain ⟨at_, hat, _⟩ := (h.emem _ en a hx).1 ha
      have := hf.ltA hat
      rw [List.mem_singleton] at hb
      omega
    · exact h.enodup i y hy
  · intro i y a hy
    have key : ∀ z, db.ends i = some z → (a ∈ z.atts ∨ (i = x ∧ a = db.next) ↔ ∃ at_, (attached db node x n en).atts a = some at_ ∧ at_.dst = i) := by
      intro z hz
      rw [h.emem i z a hz]
      constructor
      · rintro (⟨at_, hat, hs⟩ | ⟨rfl, rfl⟩)
        · exact ⟨at_, attached_att_old hf hat, hs⟩
        · exact ⟨_, attached_att_new, rfl⟩
      · rintro ⟨at_, hat, hs⟩
        rcases attached_att hat with ⟨ha, hd⟩ | ⟨_, hat⟩
        · rw [hd] at hs
          exact .inr ⟨hs.symm, ha⟩
        · exact .inl ⟨at_, hat, hs⟩
    rcases attached_end hy with ⟨hi, rfl⟩ | ⟨h1, hy⟩
    · subst hi
      rw [← key en hx]
      simp only [List.mem_append, List.mem_singleton, true_and]
    · rw [← key y hy]
      simp only [h1, false_and, or_false]
  · intro a at_ hat
    rcases attached_att hat with ⟨_, rfl⟩ | ⟨_, hat⟩
    · exact ⟨_, upd_same _ _ _⟩
    · obtain ⟨y, hy⟩ := h.src a at_ hat
      obtain ⟨z, hz, _⟩ := (attached_same (x := x) (en := en) (·.addr) hn rfl).put hy
      exact ⟨z, hz⟩
  · intro a at_ hat
    rcases attached_att hat with ⟨_, rfl⟩ | ⟨_, hat⟩
    · exact ⟨_, upd_same _ _ _⟩
    · exact attached_end_live (h.dst a at_ hat)
  · intro a at_ a' at_' hat hat' h1 h2
    rcases attached_att hat with ⟨ha, rfl⟩ | ⟨_, hat⟩ <;> rcases attached_att hat' with ⟨hb, rfl⟩ | ⟨_, hat'⟩
    · rw [ha, hb]
    · exact absurd ⟨h1.symm, h2.symm⟩ (hno a' at_' hat')
    · exact absurd ⟨h1, h2⟩ (hno a at_ hat)
    · exact h.one a at_ a' at_' hat hat' h1 h2
  · intro i
    show i ∈ db.endTree ↔ _
    rw [h.tmem]
    constructor
    · exact attached_end_live
    · rintro ⟨y, hy⟩
      rcases attached_end hy with ⟨hi, _⟩ | ⟨_, hy⟩
      · rw [hi]; exact ⟨en, hx⟩
      · exact ⟨y, hy⟩
  · intro i j y z hy hz he
    have : ∀ i y, (attached db node x n en).ends i = some y → ∃ w, db.ends i = some w ∧ w.key = y.key := by
      intro i y hy
      rcases attached_end hy with ⟨hi, rfl⟩ | ⟨_, hy⟩
      · rw [hi]; exact ⟨en, hx, rfl⟩
      · exact ⟨y, hy, rfl⟩
    obtain ⟨y', hy', e1⟩ := this i y hy
    obtain ⟨z', hz', e2⟩ := this j z hz
    exact h.key i j y' z' hy' hz' (by rw [e1, e2, he])

theorem attached_fresh (hf : Fresh db) (hn : db.nodes node = some n) (hx : db.ends x = some en) : Fresh (attached db node x n en) := by
  have s1 := hf.lt hn
  have s2 := hf.ltX hx
  refine ⟨?_, ?_, ?_, ?_⟩
  · intro i hi
    have hi : db.next + 1 ≤ i := hi
    show upd db.nodes node _ i = none
    rw [upd_ne _ _ (by omega)]
    exact hf.nodes i (by omega)
  · intro i hi
    have hi : db.next + 1 ≤ i := hi
    exact hf.edges i (by omega)
  · intro i hi
    have hi : db.next + 1 ≤ i := hi
    show upd db.atts db.next _ i = none
    rw [upd_ne _ _ (by omega)]
    exact hf.atts i (by omega)
  · intro i hi
    have hi : db.next + 1 ≤ i := hi
    show upd db.ends x _ i = none
    rw [upd_ne _ _ (by omega)]
    exact hf.ends i (by omega)

theorem attKey_eq {a : Nat} {at_ : Att} {k : Key} (hat : db.atts a = some at_) : db.attKey a = some k ↔ ∃ en, db.ends at_.dst = some en ∧ en.key = k := by
  unfold Db.attKey Db.endKey
  rw [hat]
  simp

theorem attSrcKey_eq {a : Nat} {at_ : Att} {k : Netaddr} (hat : db.atts a = some at_) : db.attSrcKey a = some k ↔ ∃ n, db.nodes at_.src = some n ∧ n.addr = k := by
  unfold Db.attSrcKey Db.nodeKey
  rw [hat]
  simp

theorem attach_eq (ht : TreeWF db) (h : AttCore db) (hf : Fresh db) (hn : db.nodes node = some n) (hx : db.ends x = some en)
    (hno : ∀ a at_, db.atts a = some at_ → ¬ (at_.src = node ∧ at_.dst = x)) : attach db node x = some (attached db node x n en, some db.next) := by
  unfold attach
  dsimp only
  rw [hn]
  dsimp only
  let db1 : Db := { db with atts := (attached db node x n en).atts, next := db.next + 1 }
  have i1 : insert db1.attKey n.atts db.next = some (n.atts ++ [db.next]) := by
    have k : ∀ j ∈ n.atts, ∃ at_ y, db.atts j = some at_ ∧ at_.src = node ∧ db.ends at_.dst = some y ∧ db1.attKey j = some y.key := by
      intro j hj
      obtain ⟨at_, hat, hs⟩ := (h.mem _ n j hn).1 hj
      obtain ⟨y, hy⟩ := h.dst j at_ hat
      exact ⟨at_, y, hat, hs, hy, (attKey_eq (db := db1) (attached_att_old (node := node) (x := x) (n := n) (en := en) hf hat)).2 ⟨y, hy, rfl⟩⟩
    apply insert_new
    · intro j hj
      obtain ⟨_, y, _, _, _, hk⟩ := k j hj
      exact ⟨_, hk⟩
    · intro j hj he
      obtain ⟨at_, y, hat, hs, hy, hk⟩ := k j hj
      have hk2 : db1.attKey db.next = some en.key := (attKey_eq (db := db1) (attached_att_new (node := node) (x := x) (n := n) (en := en))).2 ⟨en, hx, rfl⟩
      rw [hk, hk2] at he
      injection he with he
      exact hno j at_ hat ⟨hs, h.key _ _ y en hy hx he⟩
  show (match insert db1.attKey n.atts db.next with | none => none | some l => _) = _
  rw [i1]
  dsimp only
  let db2 : Db := db1.setNode node { n with atts := n.atts ++ [db.next] }
  show (match db.ends x with | none => none | some en => _) = _
  rw [hx]
  dsimp only
  have hs2 : Same (·.addr) db db2 := Same.setNode (db := db1) hn rfl
  have i2 : insert db2.attSrcKey en.atts db.next = some (en.atts ++ [db.next]) := by
    have k : ∀ j ∈ en.atts, ∃ at_ y, db.atts j = some at_ ∧ at_.dst = x ∧ db.nodes at_.src = some y ∧ db2.attSrcKey j = some y.addr := by
      intro j hj
      obtain ⟨at_, hat, hs⟩ := (h.emem _ en j hx).1 hj
      obtain ⟨y, hy⟩ := h.src j at_ hat
      obtain ⟨z, hz, e⟩ := hs2.put hy
      exact ⟨at_, y, hat, hs, hy, (attSrcKey_eq (db := db2) (attached_att_old (node := node) (x := x) (n := n) (en := en) hf hat)).2 ⟨z, hz, e.symm⟩⟩
    apply insert_new
    · intro j hj
      obtain ⟨_, y, _, _, _, hk⟩ := k j hj
      exact ⟨_, hk⟩
    · intro j hj he
      obtain ⟨at_, y, hat, hs, hy, hk⟩ := k j hj
      have hk2 : db2.attSrcKey db.next = some n.addr := (attSrcKey_eq (db := db2) (attached_att_new (node := node) (x := x) (n := n) (en := en))).2 ⟨_, upd_same _ _ _, rfl⟩
      rw [hk, hk2] at he
      injection he with he
      exact hno j at_ hat ⟨ht.addr _ _ y n hy hn he, hs⟩
  show (match insert db2.attSrcKey en.atts db.next with | none => none | some l => _) = _
  rw [i2]
  rfl

end

/-- the database with a new endpoint -/
def newEnd (db : Db) (key : Key) (mesh : Bool) : Db :=
  { db with ends := upd db.ends db.next (some ⟨key, mesh, [], 0⟩), endTree := db.endTree ++ [db.next], next := db.next + 1 }

theorem newEnd_get {db : Db} {key : Key} {mesh : Bool} {i : Nat} {y : End} (h : (newEnd db key mesh).ends i = some y) : (i = db.next ∧ y = ⟨key, mesh, [], 0⟩) ∨ (i ≠ db.next ∧ db.ends i = some y) := by
  have h : upd db.ends db.next _ i = some y := h
  by_cases h1 : i = db.next
  · rw [h1, upd_same] at h
    injection h with h
    exact .inl ⟨h1, h.symm⟩
  · rw [upd_ne _ _ h1] at h
    exact .inr ⟨h1, h⟩

theorem newEnd_old {db : Db} (hf : Fresh db) {key : Key} {mesh : Bool} {i : Nat} {y : End} (h : db.ends i = some y) : (newEnd db key mesh).ends i = some y := by
  have := hf.ltX h
  show upd db.ends db.next _ i = _
  rw [upd_ne _ _ (by omega)]
  exact h

theorem newEnd_core {db : Db} (h : AttCore db) (hf : Fresh db) {key : Key} (mesh : Bool) (hk : ∀ x en, db.ends x = some en → en.key ≠ key) : AttCore (newEnd db key mesh) := by
  refine ⟨h.nodup, h.mem, ?_, ?_, h.src, ?_, h.one, ?_, ?_, ?_⟩
  · intro i y hy
    rcases newEnd_get hy with ⟨_, rfl⟩ | ⟨_, hy⟩
    · exact List.nodup_nil
    · exact h.enodup i y hy
  · intro i y a hy
    rcases newEnd_get hy with ⟨hi, rfl⟩ | ⟨_, hy⟩
    · constructor
      · intro h'; cases h'
      · rintro ⟨at_, hat, hd⟩
        obtain ⟨z, hz⟩ := h.dst a at_ hat
        have := hf.ltX hz
        omega
    · exact h.emem i y a hy
  · intro a at_ hat
    obtain ⟨z, hz⟩ := h.dst a at_ hat
    exact ⟨z, newEnd_old hf hz⟩
  · show (db.endTree ++ [db.next]).Nodup
    rw [List.nodup_append]
    refine ⟨h.tree, by simp, ?_⟩
    intro a ha b hb
    obtain ⟨y, hy⟩ := (h.tmem a).1 ha
    have := hf.ltX hy
    rw [List.mem_singleton] at hb
    omega
  · intro i
    show i ∈ db.endTree ++ [db.next] ↔ _
    rw [List.mem_append, List.mem_singleton, h.tmem]
    constructor
    · rintro (⟨y, hy⟩ | rfl)
      · exact ⟨y, newEnd_old hf hy⟩
      · exact ⟨_, upd_same _ _ _⟩
    · rintro ⟨y, hy⟩
      rcases newEnd_get hy with ⟨hi, _⟩ | ⟨_, hy⟩
      · exact .inr hi
      · exact .inl ⟨y, hy⟩
  · intro i j y z hy hz he
    rcases newEnd_get hy with ⟨hi, rfl⟩ | ⟨_, hy⟩ <;> rcases newEnd_get hz with ⟨hj, rfl⟩ | ⟨_, hz⟩
    · rw [hi, hj]
    · exact absurd he.symm (hk j z hz)
    · exact absurd he (hk i y hy)
    · exact h.key i j y z hy hz he

theorem newEnd_fresh {db : Db} (hf : Fresh db) {key : Key} {mesh : Bool} : Fresh (newEnd db key mesh) := by
  refine ⟨?_, ?_, ?_, ?_⟩
  · intro i hi
    have hi : db.next + 1 ≤ i := hi
    exact hf.nodes i (by omega)
  · intro i hi
    have hi : db.next + 1 ≤ i := hi
    exact hf.edges i (by omega)
  · intro i hi
    have hi : db.next + 1 ≤ i := hi
    exact hf.atts i (by omega)
  · intro i hi
    have hi : db.next + 1 ≤ i := hi
    show upd db.ends db.next _ i = none
    rw [upd_ne _ _ (by omega)]
    exact hf.ends i (by omega)

theorem attached_wf {db : Db} {node x : Nat} {n : Node} {en : End} (ht : TreeWF db) (he : EdgeWF db) (h : AttCore db) (hf : Fresh db) (hn : db.nodes node = some n) (hx : db.ends x = some en)
    (hno : ∀ a at_, db.atts a = some at_ → ¬ (at_.src = node ∧ at_.dst = x)) (hu : ∀ y em, db.ends y = some em → y ≠ x → em.atts ≠ []) : WF (attached db node x n en) := by
  refine ⟨⟨ht.congr (attached_same _ hn rfl) rfl, he.congr (attached_same _ hn rfl) rfl, (attached_core h hf hn hx hno).full ?_⟩, attached_fresh hf hn hx⟩
  intro y em hy
  rcases attached_end hy with ⟨_, rfl⟩ | ⟨hne, hy⟩
  · simp
  · exact hu y em hy hne

/-- result of a lookup of an attachment -/
theorem findAtt_spec {db : Db} (h : AttCore db) {i : Nat} {n : Node} (hn : db.nodes i = some n) (key : Key) :
    (find db.attKey n.atts key = some none ∧ ∀ a at_, db.atts a = some at_ → at_.src = i → ∀ en, db.ends at_.dst = some en → en.key ≠ key) ∨
    ∃ a at_, find db.attKey n.atts key = some (some a) ∧ db.atts a = some at_ ∧ at_.src = i ∧ ∃ en, db.ends at_.dst = some en ∧ en.key = key := by
  have hk : ∀ a ∈ n.atts, ∃ x, db.attKey a = some x := by
    intro a ha
    obtain ⟨at_, hat, _⟩ := (h.mem i n a hn).1 ha
    obtain ⟨y, hy⟩ := h.dst a at_ hat
    exact ⟨y.key, (attKey_eq hat).2 ⟨y, hy, rfl⟩⟩
  rcases find_spec key hk with ⟨h1, h2⟩ | ⟨a, ha, h1, h2⟩
  · left
    refine ⟨h1, ?_⟩
    intro a at_ hat hs en hen he
    exact h2 a ((h.mem i n a hn).2 ⟨at_, hat, hs⟩) ((attKey_eq hat).2 ⟨en, hen, he⟩)
  · right
    obtain ⟨at_, hat, hs⟩ := (h.mem i n a hn).1 ha
    exact ⟨a, at_, h2, hat, hs, (attKey_eq hat).1 h1⟩

theorem findEnd_spec {db : Db} (h : AttCore db) (key : Key) :
    (find db.endKey db.endTree key = some none ∧ ∀ x en, db.ends x = some en → en.key ≠ key) ∨ ∃ x en, find db.endKey db.endTree key = some (some x) ∧ db.ends x = some en ∧ en.key = key := by
  have hk : ∀ x ∈ db.endTree, ∃ k, db.endKey x = some k := by
    intro x hx
    obtain ⟨y, hy⟩ := (h.tmem x).1 hx
    exact ⟨y.key, by unfold Db.endKey; rw [hy]; rfl⟩
  rcases find_spec key hk with ⟨h1, h2⟩ | ⟨x, hx, h1, h2⟩
  · left
    refine ⟨h1, ?_⟩
    intro x en hen he
    apply h2 x ((h.tmem x).2 ⟨en, hen⟩)
    unfold Db.endKey
    rw [hen]
    simp [he]
  · right
    obtain ⟨en, hen⟩ := (h.tmem x).1 hx
    refine ⟨x, en, h2, hen, ?_⟩
    unfold Db.endKey at h1
    rw [hen] at h1
    injection h1

/-- what `olsrv2_tc_endpoint_add` changes -/
theorem endpointAdd_spec {db : Db} (h : WF db) {node : Nat} {n : Node} (hn : db.nodes node = some n) (key : Key) (mesh ok oke : Bool) :
    ∃ db' r, endpointAdd db node key mesh ok oke = some (db', r) ∧ WF db' ∧ db'.edges = db.edges ∧
      Same (fun n => (n.addr, n.ansn, n.direct, n.timer, n.edges)) db db' ∧
      (∀ a at_, db'.atts a = some at_ → db.atts a = some at_ ∨ (r = some a ∧ at_.src = node)) ∧ (∀ a at_, db.atts a = some at_ → db'.atts a = some at_) ∧
      (∀ a, r = some a → ∃ at_, db'.atts a = some at_ ∧ at_.src = node ∧ ∃ en, db'.ends at_.dst = some en ∧ en.key = key) ∧
      (∀ x en, db.ends x = some en → ∃ en', db'.ends x = some en' ∧ en'.key = en.key) ∧ (ok = true → oke = true → r ≠ none) := by
  unfold endpointAdd
  rw [hn]
  dsimp only
  rcases findAtt_spec h.att.core hn key with ⟨h1, h2⟩ | ⟨a, at_, h1, h2, h3, h4⟩
  · rw [h1]
    dsimp only
    cases ok with
    | false =>
      exact ⟨db, none, by rw [if_neg (by decide)], h, rfl, fun _ => rfl, fun a at_ ha => .inl ha, fun a at_ ha => ha, fun a ha => (by cases ha), fun x en hx => ⟨en, hx, rfl⟩, by simp⟩
    | true =>
      rw [if_pos rfl]
      rcases findEnd_spec h.att.core key with ⟨e1, e2⟩ | ⟨x, en, e1, e2, e3⟩
      · rw [e1]
        dsimp only
        cases oke with
        | false =>
          exact ⟨db, none, by rw [if_neg (by decide)], h, rfl, fun _ => rfl, fun a at_ ha => .inl ha, fun a at_ ha => ha, fun a ha => (by cases ha), fun x en hx => ⟨en, hx, rfl⟩, by simp⟩
        | true =>
          rw [if_pos rfl]
          have hcore := newEnd_core h.att.core h.fresh mesh e2
          have hfr : Fresh (newEnd db key mesh) := newEnd_fresh h.fresh
          have hn' : (newEnd db key mesh).nodes node = some n := hn
          have hx' : (newEnd db key mesh).ends db.next = some ⟨key, mesh, [], 0⟩ := upd_same _ _ _
          have hno : ∀ a at_, (newEnd db key mesh).atts a = some at_ → ¬ (at_.src = node ∧ at_.dst = db.next) := by
            rintro a at_ hat ⟨_, hd⟩
            obtain ⟨z, hz⟩ := h.att.dst a at_ hat
            have := h.fresh.ltX hz
            omega
          refine ⟨attached (newEnd db key mesh) node db.next n ⟨key, mesh, [], 0⟩, some (db.next + 1), ?_, ?_, rfl, attached_same _ hn' rfl, ?_, ?_, ?_, ?_, by simp⟩
          · exact attach_eq (h.tree.congr (fun _ => rfl) rfl) hcore hfr hn' hx' hno
          · refine attached_wf (h.tree.congr (fun _ => rfl) rfl) (h.edge.congr (fun _ => rfl) rfl) hcore hfr hn' hx' hno ?_
            intro y em hy hne
            rcases newEnd_get hy with ⟨hi, _⟩ | ⟨_, hy⟩
            · exact absurd hi hne
            · exact h.att.used y em hy
          · intro a at_ hat
            rcases attached_att hat with ⟨ha, rfl⟩ | ⟨_, hat⟩
            · exact .inr ⟨by rw [ha]; rfl, rfl⟩
            · exact .inl hat
          · intro a at_ hat
            exact attached_att_old hfr hat
          · intro a ha
            injection ha with ha
            rw [← ha]
            exact ⟨_, attached_att_new (db := newEnd db key mesh), rfl, _, upd_same _ _ _, rfl⟩
          · intro y em hy
            have hlt := h.fresh.ltX hy
            refine ⟨em, ?_, rfl⟩
            show upd (upd db.ends db.next _) db.next _ y = _
            rw [upd_ne _ _ (by omega), upd_ne _ _ (by omega)]
            exact hy
      · rw [e1]
        dsimp only
        have hno : ∀ a at_, db.atts a = some at_ → ¬ (at_.src = node ∧ at_.dst = x) := by
          rintro a at_ hat ⟨hs, hd⟩
          exact h2 a at_ hat hs en (by rw [hd]; exact e2) e3
        refine ⟨attached db node x n en, some db.next, attach_eq h.tree h.att.core h.fresh hn e2 hno, ?_, rfl, attached_same _ hn rfl, ?_, ?_, ?_, ?_, by simp⟩
        · exact attached_wf h.tree h.edge h.att.core h.fresh hn e2 hno (fun y em hy _ => h.att.used y em hy)
        · intro a at_ hat
          rcases attached_att hat with ⟨ha, rfl⟩ | ⟨_, hat⟩
          · exact .inr ⟨by rw [ha], rfl⟩
          · exact .inl hat
        · intro a at_ hat
          exact attached_att_old h.fresh hat
        · intro a ha
          injection ha with ha
          rw [← ha]
          exact ⟨_, attached_att_new (db := db), rfl, _, upd_same _ _ _, e3⟩
        · intro y em hy
          by_cases hyx : y = x
          · rw [hyx, e2] at hy
            injection hy with hy
            rw [hyx, ← hy]
            exact ⟨_, upd_same _ _ _, rfl⟩
          · exact ⟨em, by rw [← hy]; exact upd_ne _ _ hyx, rfl⟩
  · rw [h1]
    exact ⟨db, some a, rfl, h, rfl, fun _ => rfl, fun a at_ ha => .inl ha, fun a at_ ha => ha, fun b hb => (by injection hb with hb; rw [← hb]; exact ⟨at_, h2, h3, h4⟩), fun x en hx => ⟨en, hx, rfl⟩, by simp⟩

/-! ### removal of an attachment -/

/-- the database without an attachment -/
def detached (db : Db) (a : Nat) (at_ : Att) (n : Node) (en : End) : Db :=
  { db with
    nodes := upd db.nodes at_.src (some { n with atts := n.atts.erase a })
    atts := upd db.atts a none
    ends := upd db.ends at_.dst (if en.atts.erase a = [] then none else some { en with atts := en.atts.erase a })
    endTree := if en.atts.erase a = [] then db.endTree.erase at_.dst else db.endTree }

section
variable {db : Db} {a : Nat} {at_ : Att} {n : Node} {en : End}

theorem detached_eq (h : AttCore db) (hat : db.atts a = some at_) (hn : db.nodes at_.src = some n) (hx : db.ends at_.dst = some en) : endpointRemove db a = some (detached db a at_ n en) := by
  unfold endpointRemove detached
  rw [hat]
  dsimp only
  rw [hn]
  dsimp only
  rw [remove_mem ((h.mem _ n a hn).2 ⟨at_, hat, rfl⟩)]
  dsimp only
  show (match db.ends at_.dst with | none => none | some en => _) = _
  rw [hx]
  dsimp only
  rw [remove_mem ((h.emem _ en a hx).2 ⟨at_, hat, rfl⟩)]
  cases hl : en.atts.erase a with
  | nil =>
    dsimp only
    show (match remove db.endTree at_.dst with | none => none | some t => _) = _
    rw [remove_mem ((h.tmem at_.dst).2 ⟨en, hx⟩)]
    simp [Db.setNode]
  | cons y ys =>
    simp [Db.setNode]

theorem detached_att {b : Nat} {x : Att} (h : (detached db a at_ n en).atts b = some x) : b ≠ a ∧ db.atts b = some x := by
  have h : upd db.atts a none b = some x := h
  by_cases h1 : b = a
  · rw [h1, upd_same] at h; cases h
  · rw [upd_ne _ _ h1] at h
    exact ⟨h1, h⟩

theorem detached_att_old {b : Nat} {x : Att} (hb : b ≠ a) (h : db.atts b = some x) : (detached db a at_ n en).atts b = some x := by
  show upd db.atts a none b = some x
  rw [upd_ne _ _ hb]; exact h

theorem detached_node {i : Nat} {y : Node} (h : (detached db a at_ n en).nodes i = some y) :
    (i = at_.src ∧ y = { n with atts := n.atts.erase a }) ∨ (i ≠ at_.src ∧ db.nodes i = some y) := by
  have h : upd db.nodes at_.src _ i = some y := h
  by_cases h1 : i = at_.src
  · rw [h1, upd_same] at h
    injection h with h
    exact .inl ⟨h1, h.symm⟩
  · rw [upd_ne _ _ h1] at h
    exact .inr ⟨h1, h⟩

theorem detached_end {i : Nat} {y : End} (h : (detached db a at_ n en).ends i = some y) :
    (i = at_.dst ∧ en.atts.erase a ≠ [] ∧ y = { en with atts := en.atts.erase a }) ∨ (i ≠ at_.dst ∧ db.ends i = some y) := by
  have h : upd db.ends at_.dst (if en.atts.erase a = [] then none else some { en with atts := en.atts.erase a }) i = some y := h
  by_cases h1 : i = at_.dst
  · rw [h1, upd_same] at h
    by_cases h2 : en.atts.erase a = []
    · rw [if_pos h2] at h; cases h
    · rw [if_neg h2] at h
      injection h with h
      exact .inl ⟨h1, h2, h.symm⟩
  · rw [upd_ne _ _ h1] at h
    exact .inr ⟨h1, h⟩

theorem detached_same {β : Type} (f : Node → β) (hn : db.nodes at_.src = some n) (h1 : f { n with atts := n.atts.erase a } = f n) : Same f db (detached db a at_ n en) := by
  intro i
  show (upd db.nodes at_.src _ i).map f = _
  by_cases h4 : i = at_.src
  · rw [h4, upd_same, hn]
    simp [h1]
  · rw [upd_ne _ _ h4]

theorem detached_att_wf (h : AttWF db) (hat : db.atts a = some at_) (hn : db.nodes at_.src = some n) (hx : db.ends at_.dst = some en) : AttWF (detached db a at_ n en) := by
  have eown : ∀ i y b, db.ends i = some y → b ∈ y.atts → b ≠ a → ∃ z, (detached db a at_ n en).ends i = some z := by
    intro i y b hy hb hba
    by_cases h1 : i = at_.dst
    · rw [h1, hx] at hy
      injection hy with hy
      refine ⟨{ en with atts := en.atts.erase a }, ?_⟩
      show upd db.ends at_.dst _ i = _
      have hm : b ∈ en.atts.erase a := (List.mem_erase_of_ne hba).2 (by rw [hy]; exact hb)
      rw [h1, upd_same, if_neg (fun e => by rw [e] at hm; cases hm)]
    · exact ⟨y, by rw [← hy]; exact upd_ne _ _ h1⟩
  refine ⟨?_, ?_, ?_, ?_, ?_, ?_, ?_, ?_, ?_, ?_, ?_⟩
  · intro i y hy
    rcases detached_node hy with ⟨_, rfl⟩ | ⟨_, hy⟩
    · exact (h.nodup _ n hn).erase a
    · exact h.nodup i y hy
  · intro i y b hy
    rcases detached_node hy with ⟨hi, rfl⟩ | ⟨h1, hy⟩
    · show b ∈ n.atts.erase a ↔ _
      rw [(h.nodup _ n hn).mem_erase_iff, h.mem _ n b hn, hi]
      constructor
      · rintro ⟨hb, x, hx', hs⟩
        exact ⟨x, detached_att_old hb hx', hs⟩
      · rintro ⟨x, hx', hs⟩
        obtain ⟨hb, hx'⟩ := detached_att hx'
        exact ⟨hb, x, hx', hs⟩
    · rw [h.mem i y b hy]
      constructor
      · rintro ⟨x, hx', hs⟩
        refine ⟨x, detached_att_old ?_ hx', hs⟩
        intro hb
        rw [hb, hat] at hx'
        injection hx' with hx'
        rw [← hx'] at hs
        exact h1 hs.symm
      · rintro ⟨x, hx', hs⟩
        exact ⟨x, (detached_att hx').2, hs⟩
  · intro i y hy
    rcases detached_end hy with ⟨_, _, rfl⟩ | ⟨_, hy⟩
    · exact (h.enodup _ en hx).erase a
    · exact h.enodup i y hy
  · intro i y b hy
    rcases detached_end hy with ⟨hi, _, rfl⟩ | ⟨h1, hy⟩
    · show b ∈ en.atts.erase a ↔ _
      rw [(h.enodup _ en hx).mem_erase_iff, h.emem _ en b hx, hi]
      constructor
      · rintro ⟨hb, x, hx', hs⟩
        exact ⟨x, detached_att_old hb hx', hs⟩
      · rintro ⟨x, hx', hs⟩
        obtain ⟨hb, hx'⟩ := detached_att hx'
        exact ⟨hb, x, hx', hs⟩
    · rw [h.emem i y b hy]
      constructor
      · rintro ⟨x, hx', hs⟩
        refine ⟨x, detached_att_old ?_ hx', hs⟩
        intro hb
        rw [hb, hat] at hx'
        injection hx' with hx'
        rw [← hx'] at hs
        exact h1 hs.symm
      · rintro ⟨x, hx', hs⟩
        exact ⟨x, (detached_att hx').2, hs⟩
  · intro b x hx'
    obtain ⟨_, hx'⟩ := detached_att hx'
    obtain ⟨y, hy⟩ := h.src b x hx'
    obtain ⟨z, hz, _⟩ := (detached_same (en := en) (a := a) (·.addr) hn rfl).put hy
    exact ⟨z, hz⟩
  · intro b x hx'
    obtain ⟨hb, hx'⟩ := detached_att hx'
    obtain ⟨y, hy⟩ := h.dst b x hx'
    exact eown _ y b hy ((h.emem _ y b hy).2 ⟨x, hx', rfl⟩) hb
  · intro b x b' x' hb hb' e1 e2
    exact h.one b x b' x' (detached_att hb).2 (detached_att hb').2 e1 e2
  · intro i y hy
    rcases detached_end hy with ⟨_, he, rfl⟩ | ⟨_, hy⟩
    · exact he
    · exact h.used i y hy
  · show (if en.atts.erase a = [] then db.endTree.erase at_.dst else db.endTree).Nodup
    split
    · exact h.tree.erase _
    · exact h.tree
  · intro i
    show i ∈ (if en.atts.erase a = [] then db.endTree.erase at_.dst else db.endTree) ↔ _
    by_cases h2 : en.atts.erase a = []
    · rw [if_pos h2, h.tree.mem_erase_iff, h.tmem]
      constructor
      · rintro ⟨hne, y, hy⟩
        exact ⟨y, by rw [← hy]; exact upd_ne _ _ hne⟩
      · rintro ⟨y, hy⟩
        rcases detached_end hy with ⟨_, he, _⟩ | ⟨hne, hy⟩
        · exact absurd h2 he
        · exact ⟨hne, y, hy⟩
    · rw [if_neg h2, h.tmem]
      constructor
      · rintro ⟨y, hy⟩
        by_cases h1 : i = at_.dst
        · refine ⟨{ en with atts := en.atts.erase a }, ?_⟩
          show upd db.ends at_.dst _ i = _
          rw [h1, upd_same, if_neg h2]
        · exact ⟨y, by rw [← hy]; exact upd_ne _ _ h1⟩
      · rintro ⟨y, hy⟩
        rcases detached_end hy with ⟨hi, _, _⟩ | ⟨_, hy⟩
        · rw [hi]; exact ⟨en, hx⟩
        · exact ⟨y, hy⟩
  · intro i j y z hy hz he
    have : ∀ i y, (detached db a at_ n en).ends i = some y → ∃ w, db.ends i = some w ∧ w.key = y.key := by
      intro i y hy
      rcases detached_end hy with ⟨hi, _, rfl⟩ | ⟨_, hy⟩
      · rw [hi]; exact ⟨en, hx, rfl⟩
      · exact ⟨y, hy, rfl⟩
    obtain ⟨y', hy', e1⟩ := this i y hy
    obtain ⟨z', hz', e2⟩ := this j z hz
    exact h.key i j y' z' hy' hz' (by rw [e1, e2, he])

theorem detached_wf (h : WF db) (hat : db.atts a = some at_) (hn : db.nodes at_.src = some n) (hx : db.ends at_.dst = some en) : WF (detached db a at_ n en) := by
  refine ⟨⟨h.tree.congr (detached_same _ hn rfl) rfl, h.edge.congr (detached_same _ hn rfl) rfl, detached_att_wf h.att hat hn hx⟩, ⟨?_, h.fresh.edges, ?_, ?_⟩⟩
  · intro i hi
    have hi : db.next ≤ i := hi
    have := h.fresh.lt hn
    show upd db.nodes at_.src _ i = none
    rw [upd_ne _ _ (by omega)]
    exact h.fresh.nodes i hi
  · intro i hi
    have hi : db.next ≤ i := hi
    cases hc : (detached db a at_ n en).atts i with
    | none => rfl
    | some x =>
      have := h.fresh.ltA (detached_att hc).2
      omega
  · intro i hi
    have hi : db.next ≤ i := hi
    have := h.fresh.ltX hx
    show upd db.ends at_.dst _ i = none
    rw [upd_ne _ _ (by omega)]
    exact h.fresh.ends i hi

end

/-- what `olsrv2_tc_endpoint_remove` changes -/
theorem endpointRemove_spec {db : Db} (h : WF db) {a : Nat} {at_ : Att} (hat : db.atts a = some at_) :
    ∃ db', endpointRemove db a = some db' ∧ WF db' ∧ db'.edges = db.edges ∧ db'.tree = db.tree ∧ Same (fun n => (n.addr, n.ansn, n.direct, n.timer, n.edges)) db db' ∧
      (∀ b x, db'.atts b = some x ↔ (b ≠ a ∧ db.atts b = some x)) ∧ ∀ i y, db'.ends i = some y → ∃ z, db.ends i = some z ∧ z.key = y.key := by
  obtain ⟨n, hn⟩ := h.att.src a at_ hat
  obtain ⟨en, hx⟩ := h.att.dst a at_ hat
  exact ⟨_, detached_eq h.att.core hat hn hx, detached_wf h hat hn hx, rfl, rfl, detached_same _ hn rfl, fun b x => ⟨detached_att, fun h => detached_att_old h.1 h.2⟩, by
    intro i y hy
    rcases detached_end hy with ⟨hi, _, rfl⟩ | ⟨_, hy⟩
    · rw [hi]; exact ⟨en, hx, rfl⟩
    · exact ⟨y, hy, rfl⟩⟩

end Verif.Tc
