import Verif.Rfc5444.Refs
/-
Specification for C148: which users hold what.
-/
namespace Verif.Rfc5444

/-- book keeping of the users: registrations of the protocol, of each interface and of each target that were not given back -/
structure Book where
  users : Nat := 0
  owners : Nat → Nat := fun _ => 0
  holds : Nat → Nat := fun _ => 0

def set (f : Nat → Nat) (i v : Nat) : Nat → Nat := fun j => if j = i then v else f j

/-- an operation and the identity it returned -/
def Book.note (b : Book) (ret : Nat) : Op → Book
  | .addProtocol => { b with users := b.users + 1 }
  | .removeProtocol => { b with users := b.users - 1 }
  | .addIf _ _ => { b with owners := set b.owners ret (b.owners ret + 1) }
  | .removeIf i _ => { b with owners := set b.owners i (b.owners i - 1) }
  | .addTarget _ _ => { b with holds := set b.holds ret (b.holds ret + 1) }
  | .removeTarget t => { b with holds := set b.holds t (b.holds t - 1) }
  | .useTarget _ => b
  | .changed _ => b

/-- users give back and use only what they hold -/
def Legal (b : Book) : Op → Prop
  | .addProtocol => True
  | .removeProtocol => b.users > 0
  | .addIf _ _ => b.users > 0
  | .removeIf i _ => b.owners i > 0
  | .addTarget i _ => b.owners i > 0
  | .removeTarget t => b.holds t > 0
  | .useTarget t => b.holds t > 0
  | .changed _ => True

instance (b : Book) (o : Op) : Decidable (Legal b o) := by
  cases o <;> unfold Legal <;> infer_instance

/-- the additional care the code needs: listeners are new, a destination is a target only once, an interface with targets keeps an owner, and
owners with a listener leave last -/
def Careful (h : Heap) (b : Book) : Op → Prop
  | .addIf _ l => ∀ k, l = some k → k ∉ h.gone
  | .addTarget i dst => ∀ t ∈ h.tgts, ¬ (t.ifc = i ∧ t.dst = dst)
  | .removeIf i l => (b.owners i = 1 → ∀ t ∈ h.tgts, t.ifc ≠ i) ∧
      (l ≠ none → b.owners i = 1 ∧ ∀ k, l = some k → ∀ x ∈ h.ifs, x.id ≠ i → k ∉ x.listeners)
  | _ => True

/-- all operations run, each allowed by `ok`; state and book afterwards -/
inductive Runs (ok : Heap → Book → Op → Prop) : List Op → Heap → Book → Prop
  | nil : Runs ok [] {} {}
  | cons {o os h b h' r} : Runs ok os h b → ok h b o → exec h o = some (h', r) → Runs ok (o :: os) h' (b.note r o)

end Verif.Rfc5444
