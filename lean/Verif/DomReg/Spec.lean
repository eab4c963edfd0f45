import Verif.DomReg.Model
/-! What the configuration of domains promises. -/

namespace Verif.DomReg

/-- The algorithm a configured name stands for: `*` the first one in the order of names, a name the algorithm of this name; the default
one otherwise. -/
def Wanted (tree : List Nat) (n : Name) (h : Option Nat) : Prop :=
  match n with
  | .any => (tree = [] ∧ h = none) ∨ ∃ x ∈ tree, (∀ y ∈ tree, x ≤ y) ∧ h = some x
  | .alg x => (x ∈ tree ∧ h = some x) ∨ (x ∉ tree ∧ h = none)
  | _ => h = none

/-- How many domains use an algorithm. -/
def users (doms : List Dom) (h : Option Nat) : Nat := doms.countP (·.use = h)

/-- Whether an algorithm is active after these calls. -/
def Active (h : Nat) : List Ev → Bool → Bool
  | [], a => a
  | .enable x :: l, a => Active h l (if x = h then true else a)
  | .disable x :: l, a => Active h l (if x = h then false else a)

/-- Activations and deactivations alternate: no algorithm is activated while it is active, or deactivated while it is not. -/
def Alternates (h : Nat) : List Ev → Bool → Prop
  | [], _ => True
  | .enable x :: l, a => if x = h then a = false ∧ Alternates h l true else Alternates h l a
  | .disable x :: l, a => if x = h then a = true ∧ Alternates h l false else Alternates h l a

/-- Algorithms are removed when at most one domain of the list uses them (and the flooding domain does not). -/
def FairRemove (flooding : Bool) (r : R) (h : Nat) : Prop :=
  users (r.doms.drop (if flooding then 1 else 0)) (some h) ≤ 1 ∧ (flooding = true → users (r.doms.take 1) (some h) = 0)

/-- Histories with such removals only. -/
def Fair (flooding : Bool) (r : R) : List Op → Prop
  | [] => True
  | .remove h :: ops => FairRemove flooding r h ∧ Fair flooding (step flooding r (.remove h)) ops
  | op :: ops => Fair flooding (step flooding r op) ops

end Verif.DomReg
