import Verif.Avl.Model
/-
Specification terms for the tree theorems: order, contents, height.
-/
namespace Verif.Avl
variable {κ : Type}

/-- the comparator orders its keys: reflexive, antisymmetric in sign, transitive -/
structure Order (comp : κ → κ → Int) : Prop where
  refl : ∀ a, comp a a = 0
  swap : ∀ a b, comp a b < 0 ↔ 0 < comp b a
  trans : ∀ a b c, comp a b ≤ 0 → comp b c ≤ 0 → comp a c ≤ 0

/-- nodes of a tree from left to right -/
def inorder : Tree κ → List (Nd κ)
  | .nil => []
  | .node l n _ r => inorder l ++ n :: inorder r

/-- number of levels -/
def ht : Tree κ → Nat
  | .nil => 0
  | .node l _ _ r => max (ht l) (ht r) + 1

/-- balance fields are the height differences and at most one -/
def Bal : Tree κ → Prop
  | .nil => True
  | .node l _ b r => Bal l ∧ Bal r ∧ b = (ht r : Int) - ht l ∧ -1 ≤ b ∧ b ≤ 1

/-- Histories of a tree that started empty: `Run comp dups a s` says that the tree state `a` results
from some sequence of successful insertions of nodes that are not yet in the tree and removals of
nodes that are in the tree, and `s` lists the nodes inserted and not removed since. -/
inductive Run (comp : κ → κ → Int) (dups : Bool) : Avl κ → List (Nd κ) → Prop
  | init : Run comp dups (init dups) []
  | insert {a s a'} (new : Nd κ) : Run comp dups a s → (∀ m ∈ s, m.id ≠ new.id) →
      insert comp a new = .ok a' → Run comp dups a' (new :: s)
  | remove {a a'} (s₁ : List (Nd κ)) (n : Nd κ) (s₂ : List (Nd κ)) : Run comp dups a (s₁ ++ n :: s₂) →
      remove a n.id = .ok a' → Run comp dups a' (s₁ ++ s₂)

end Verif.Avl
