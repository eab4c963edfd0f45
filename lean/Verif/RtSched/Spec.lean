import Verif.RtSched.Model
/-!
Specification of the recalculation of routes in terms of what can be observed (`Ev`).
-/

namespace Verif.RtSched

/-- Domain `d` changed and was not recalculated since then. -/
def Waits (d : Nat) (log : List Ev) : Prop :=
  ∃ l1 l2, log = l1 ++ .changed d :: l2 ∧ ∀ t f ds, .ran t f ds ∈ l2 → d ∉ ds

/-- Domain `d` was recalculated in this part of the log. -/
def Recalculated (d : Nat) (log : List Ev) : Prop := ∃ t f ds, .ran t f ds ∈ log ∧ d ∈ ds

/-- The announced topology changed since the last recalculation. -/
def Unannounced (log : List Ev) : Prop :=
  ∃ l1 l2, log = l1 ++ .announce :: l2 ∧ ∀ t f ds, .ran t f ds ∉ l2

/-- Number of changes of the announced topology. -/
def version (log : List Ev) : Nat := log.countP fun e => e = .announce

/-- Number of recalculations. -/
def runs (log : List Ev) : Nat := log.countP fun e => match e with
  | .ran _ _ _ => true
  | _ => false

/-- Calls that neither stop nor delay recalculations. -/
def Op.steady : Op → Bool
  | .freeze _ => false
  | .shutdown => false
  | .parameter _ _ _ => false
  | _ => true

/-- The call reports a change of domain `d`. -/
def Op.touches (d : Nat) : Op → Bool
  | .domainChanged none _ => true
  | .domainChanged (some x) _ => x = d
  | .nhdp none => true
  | .nhdp (some x) => x = d
  | _ => false

/-- Program start: nothing happened yet; the ANSN is a random 16 bit number. -/
def start (ansn : Nat) : St := { ansn := ansn % 65536 }

end Verif.RtSched
