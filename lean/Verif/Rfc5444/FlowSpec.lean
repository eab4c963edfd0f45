import Verif.Rfc5444.Flow
/-
Specification for C149 and C150.
-/
namespace Verif.Rfc5444

/-- each number is the successor of the next one of the list (numbers are newest first) -/
def Consecutive : List Nat → Prop
  | [] => True
  | [_] => True
  | b :: a :: l => b = (a + 1) % 65536 ∧ Consecutive (a :: l)

/-- numbers of the packets, newest first -/
def packetNumbers (ps : List Packet) : List Nat := ps.filterMap (·.seq)

/-- a fresh target -/
def fresh (now max agg rnd : Nat) : Dest := { now, max, agg, seq := rnd % 65536 }

/-- the target is never replaced -/
def Kept (es : List Ev) : Prop := ∀ r, Ev.recreate r ∉ es

/-- sizes: messages of this router fit into a packet (the writer sees to that), forwarded ones fit or are too large for any packet -/
def Sized (max : Nat) (es : List Ev) : Prop := 5 ≤ max ∧
  (∀ i s, Ev.create i s ∈ es → s + 5 ≤ max) ∧ (∀ i s, Ev.forward i s ∈ es → s + 5 ≤ max ∨ max < s + 3)

/-- messages given to the target, oldest first (events are newest first); forwarded ones that are too large are not accepted -/
def given (max : Nat) : List Ev → List Nat
  | [] => []
  | .create i _ :: es => given max es ++ [i]
  | .forward i s :: es => if s + 5 ≤ max then given max es ++ [i] else given max es
  | _ :: es => given max es

/-- messages that left, oldest first (packets are newest first) -/
def delivered : List Packet → List Nat
  | [] => []
  | p :: ps => delivered ps ++ p.msgs.map (·.id)

/-- the timer fires in time: time does not pass it -/
def Timely (d : Dest) : List Ev → Prop
  | [] => True
  | e :: es => Timely d es ∧ ∀ dt, e = .wait dt → ∀ t, (run d es).timer = some t → (run d es).now + dt ≤ t

/-- bytes of a packet on the wire: flags, sequence number, messages -/
def wire (p : Packet) : Nat := 1 + (if p.seq.isSome then 2 else 0) + (p.msgs.map (·.size)).sum

end Verif.Rfc5444
