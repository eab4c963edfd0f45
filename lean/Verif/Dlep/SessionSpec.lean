import Verif.Dlep.Session

/-!
# What a stream of DLEP messages is

A message is a type and a payload, written as two bytes of type, two bytes of length and the payload (RFC 8175,
section 11.2).
-/

namespace Verif.Dlep.Spec

/-- the bytes are the beginning of a message only -/
def Incomplete (s : Bytes) : Prop :=
  s.length < 4 ∨ ∃ t n r, s = be16 t ++ be16 n ++ r ∧ t < 65536 ∧ n < 65536 ∧ r.length < n

/-- the stream consists of these messages and an incomplete rest -/
inductive Frames : Bytes → List (Nat × Bytes) → Bytes → Prop where
  | rest {s} (h : Incomplete s) : Frames s [] s
  | cons {t p s ms r} (ht : t < 65536) (hp : p.length < 65536) (h : Frames s ms r) :
      Frames (be16 t ++ be16 p.length ++ p ++ s) ((t, p) :: ms) r

/-- the messages are handled one after the other, until the session ends: state, bytes written, end of the session -/
def replay {α : Type} (h : Handler α) (s : St α) : List (Nat × Bytes) → St α × Bytes × Bool
  | [] => (s, [], false)
  | (t, p) :: l =>
    let m := message h s t p
    if m.2.2 = false ∨ m.1.restrict = KILL then (m.1, m.2.1, true)
    else
      let r := replay h m.1 l
      (r.1, m.2.1 ++ r.2.1, r.2.2)

end Verif.Dlep.Spec
