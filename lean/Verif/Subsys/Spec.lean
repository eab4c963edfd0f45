import Verif.Subsys.Model

/-
Specification for the order in which plugins are started and stopped, in terms of the calls of their callbacks.
-/
namespace Verif.Subsys

/-- after these calls (newest first): the dependencies of a plugin if it is running (its last successful start was not followed by a stop) -/
def running : List Ev → Name → Option (List Name)
  | [], _ => none
  | .start n ds ok :: es, x => if fold n = fold x ∧ ok = true then some ds else running es x
  | .stop n :: es, x => if fold n = fold x then none else running es x

/-- a plugin is started only if it does not run and all its dependencies run; a plugin is stopped only if it runs and no running plugin
depends on it -/
def Fine : List Ev → Prop
  | [] => True
  | .start n ds _ :: es => running es n = none ∧ (∀ d ∈ ds, (running es d).isSome) ∧ Fine es
  | .stop n :: es =>
    (running es n).isSome ∧ (∀ m ds, running es m = some ds → ∀ d ∈ ds, fold d ≠ fold n) ∧ Fine es

/-- plugin `x` depends on `y` -/
def Edge (t : List Plugin) (x y : Name) : Prop := ∃ p ∈ t, p.key = x ∧ ∃ d ∈ p.deps, fold d = y

/-- `y` is `x`, a dependency of `x`, one of a dependency, and so on -/
inductive Needs (t : List Plugin) : Name → Name → Prop
  | refl (x : Name) : Needs t x x
  | dep {x y z : Name} : Edge t x y → Needs t y z → Needs t x z

/-- `x` depends directly or indirectly on itself -/
def Cyclic (t : List Plugin) (x : Name) : Prop := ∃ y, Edge t x y ∧ Needs t y x

/-- different names of plugins and dependencies differ in more than upper and lower case -/
def Distinct (C : Name → Prop) : Prop := ∀ a b, C a → C b → fold a = fold b → a = b

/-- all names of plugins and dependencies in an operation belong to `C` -/
def Op.names (C : Name → Prop) : Op → Prop
  | .hook p => C p.name ∧ ∀ d ∈ p.deps, C d
  | .load _ file => ∀ p, file = some p → C p.name ∧ ∀ d ∈ p.deps, C d
  | .cfgLoad _ file => ∀ p, file = some p → C p.name ∧ ∀ d ∈ p.deps, C d
  | _ => True

end Verif.Subsys
