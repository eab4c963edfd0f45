import Verif.Tc.Model

/-
What it means for the topology database to be well-formed, in terms of the objects that exist.
-/
namespace Verif.Tc
open Verif.Netaddr (Netaddr)

/-- `_tc_tree` holds the existing nodes, once each, and their addresses differ -/
structure TreeWF (db : Db) : Prop where
  nodup : db.tree.Nodup
  mem : ∀ i, i ∈ db.tree ↔ ∃ n, db.nodes i = some n
  addr : ∀ i j n m, db.nodes i = some n → db.nodes j = some m → n.addr = m.addr → i = j

/-- the tree of edges of a node holds the existing edges that start at the node, once each; source and destination of an
edge exist and differ; there is one edge between two nodes; every edge has an inverse edge in opposite direction, which has
it as inverse; they are not both virtual -/
structure EdgeWF (db : Db) : Prop where
  nodup : ∀ i n, db.nodes i = some n → n.edges.Nodup
  mem : ∀ i n e, db.nodes i = some n → (e ∈ n.edges ↔ ∃ ed, db.edges e = some ed ∧ ed.src = i)
  src : ∀ e ed, db.edges e = some ed → ∃ n, db.nodes ed.src = some n
  dst : ∀ e ed, db.edges e = some ed → ∃ n, db.nodes ed.dst = some n
  ne : ∀ e ed, db.edges e = some ed → ed.src ≠ ed.dst
  one : ∀ e ed e' ed', db.edges e = some ed → db.edges e' = some ed' → ed.src = ed'.src → ed.dst = ed'.dst → e = e'
  inv : ∀ e ed, db.edges e = some ed → ∃ inv, db.edges ed.inv = some inv ∧ inv.inv = e ∧ inv.src = ed.dst ∧ inv.dst = ed.src ∧ ¬ (ed.virt = true ∧ inv.virt = true)

/-- node and endpoint of an attachment exist and hold it once; there is one attachment between a node and an endpoint; every
endpoint has an attachment; `_tc_endpoint_tree` holds the existing endpoints, once each, and their prefixes differ -/
structure AttWF (db : Db) : Prop where
  nodup : ∀ i n, db.nodes i = some n → n.atts.Nodup
  mem : ∀ i n a, db.nodes i = some n → (a ∈ n.atts ↔ ∃ at_, db.atts a = some at_ ∧ at_.src = i)
  enodup : ∀ x en, db.ends x = some en → en.atts.Nodup
  emem : ∀ x en a, db.ends x = some en → (a ∈ en.atts ↔ ∃ at_, db.atts a = some at_ ∧ at_.dst = x)
  src : ∀ a at_, db.atts a = some at_ → ∃ n, db.nodes at_.src = some n
  dst : ∀ a at_, db.atts a = some at_ → ∃ en, db.ends at_.dst = some en
  one : ∀ a at_ a' at_', db.atts a = some at_ → db.atts a' = some at_' → at_.src = at_'.src → at_.dst = at_'.dst → a = a'
  used : ∀ x en, db.ends x = some en → en.atts ≠ []
  tree : db.endTree.Nodup
  tmem : ∀ x, x ∈ db.endTree ↔ ∃ en, db.ends x = some en
  key : ∀ x y en em, db.ends x = some en → db.ends y = some em → en.key = em.key → x = y

structure WellFormed (db : Db) : Prop where
  tree : TreeWF db
  edge : EdgeWF db
  att : AttWF db

/-- every object is supported by information that is still valid: an edge that is not virtual and an attachment by the TC
of their node, a node by its TC, by a neighbor, or by an edge of another node -/
structure Supported (db : Db) : Prop where
  edge : ∀ e ed, db.edges e = some ed → ed.virt = false → ∃ n, db.nodes ed.src = some n ∧ n.timer = true
  att : ∀ a at_, db.atts a = some at_ → ∃ n, db.nodes at_.src = some n ∧ n.timer = true
  node : ∀ i n, db.nodes i = some n → n.timer = true ∨ n.direct = true ∨ ∃ e ed, db.edges e = some ed ∧ ed.dst = i ∧ ed.virt = false

end Verif.Tc
