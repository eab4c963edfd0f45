import Verif.WReg.Model
/-!
What users of the writer may expect, in terms of their own calls only: which message types are registered, which TLV
types and providers belong to which message.
-/

namespace Verif.WReg

/-- Registered messages, the message of each TLV type (`some none`: all messages), and the content providers with their
message, in the order of registration. -/
structure Book where
  reg : Nat → Bool
  owner : Nat → Option (Option Nat)
  prov : List (Nat × Nat)

def Book.init : Book := ⟨fun _ => false, fun _ => none, []⟩

def setAll {α : Type} (f : Nat → α) (ts : List Nat) (v : α) : Nat → α := fun t => if t ∈ ts then v else f t

/-- The message a number of the API stands for. -/
def meant (ty : Int) : Option Nat := if 0 ≤ ty ∧ ty ≤ 255 then some ty.toNat else none

/-- Bookkeeping of one call. -/
def Book.after (b : Book) : Op → Book
  | .regType t ty => { b with owner := setAll b.owner [t] (some (meant ty)) }
  | .unregType t => { b with owner := setAll b.owner [t] none }
  | .regProv p ty ts => { b with owner := setAll b.owner ts (some (some ty)), prov := b.prov ++ [(p, ty)] }
  | .unregProv p ts =>
    if p ∈ b.prov.map (·.1) then { b with owner := setAll b.owner ts none, prov := b.prov.filter (·.1 ≠ p) } else b
  | .regMsg ty => { b with reg := setAll b.reg [ty] true }
  | .unregMsg ty => { b with reg := setAll b.reg [ty] false }
  | .setHdr _ _ => b
  | .regFwd _ => b

def Book.all (b : Book) : List Op → Book
  | [] => b
  | op :: ops => (b.after op).all ops

/-- TLV types and providers are registered once at a time; message types are bytes. -/
def Fair (b : Book) : Op → Prop
  | .regType t _ => b.owner t = none
  | .regProv p ty ts => p ∉ b.prov.map (·.1) ∧ ts.Nodup ∧ (∀ t ∈ ts, b.owner t = none) ∧ ty < 256
  | .regMsg ty => ty < 256
  | _ => True

def FairAll (b : Book) : List Op → Prop
  | [] => True
  | op :: ops => Fair b op ∧ FairAll (b.after op) ops

/-- A message type is in use: registered, or with TLV types or providers of its own. -/
def Book.used (b : Book) (ty : Nat) : Prop :=
  b.reg ty = true ∨ (∃ t, b.owner t = some (some ty)) ∨ ∃ p, (p, ty) ∈ b.prov

/-- The providers of a message in the order of registration. -/
def Book.provs (b : Book) (ty : Nat) : List Nat := (b.prov.filter (·.2 = ty)).map (·.1)

/-- The order of calls: by priority, and in the order of registration for equal priority. -/
structure CallOrder (prio : Nat → Int) (registered called : List Nat) : Prop where
  sorted : called.Pairwise fun p q => prio p ≤ prio q
  stable : ∀ k, called.filter (prio · = k) = registered.filter (prio · = k)

end Verif.WReg
