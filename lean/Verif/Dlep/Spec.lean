import Verif.Dlep.Model

/-!
# What a stream of DLEP TLVs is

An item is a type and a value.  It is written as two bytes of type, two bytes of length and the value (RFC 8175,
section 11.3).  The table of allowed TLVs lists triples of type, smallest length and largest length.
-/

namespace Verif.Dlep.Spec

abbrev Item := Nat × Bytes

/-- the bytes of one item -/
def one (i : Item) : Bytes := be16 i.1 ++ be16 i.2.length ++ i.2

/-- the bytes of several items -/
def encode (items : List Item) : Bytes := items.flatMap one

/-- the item is listed in the table and its length is within the limits -/
def Allowed (table : List (Nat × Nat × Nat)) (i : Item) : Prop :=
  i.1 < 65536 ∧ i.2.length < 65536 ∧ ∃ e ∈ table, e.1 = i.1 ∧ e.2.1 ≤ i.2.length ∧ i.2.length ≤ e.2.2

/-- what is to be said about a stream of TLVs: after a number of allowed items it ends, or what follows is not an
allowed item -/
inductive Verdict (table : List (Nat × Nat × Nat)) (stream : Bytes) : List Item → Option PErr → Prop where
  | good {items} (h : stream = encode items) (a : ∀ i ∈ items, Allowed table i) : Verdict table stream items none
  | header {items rest} (h : stream = encode items ++ rest) (a : ∀ i ∈ items, Allowed table i)
      (r : 0 < rest.length ∧ rest.length < 4) : Verdict table stream items (some .incompleteHeader)
  | cut {items t n rest} (h : stream = encode items ++ (be16 t ++ be16 n ++ rest)) (a : ∀ i ∈ items, Allowed table i)
      (b : t < 65536 ∧ n < 65536) (r : rest.length < n) : Verdict table stream items (some .incompleteTlv)
  | unknown {items i rest} (h : stream = encode items ++ (one i ++ rest)) (a : ∀ i ∈ items, Allowed table i)
      (b : i.1 < 65536 ∧ i.2.length < 65536) (u : ∀ e ∈ table, e.1 ≠ i.1) :
      Verdict table stream items (some .unsupported)
  | length {items i rest} (h : stream = encode items ++ (one i ++ rest)) (a : ∀ i ∈ items, Allowed table i)
      (b : i.1 < 65536 ∧ i.2.length < 65536) (u : ∃ e ∈ table, e.1 = i.1) (l : ¬ Allowed table i) :
      Verdict table stream items (some .illegalLength)

/-- the values of one type among the items, in their order -/
def valuesOf (items : List Item) (type : Nat) : List Bytes := (items.filter fun i => i.1 = type).map Prod.snd

end Verif.Dlep.Spec

namespace Verif.Dlep

/-- the outcome for a verdict -/
def Outcome.of {α : Type} (v : Option PErr) (q : α) : Outcome α :=
  match v with
  | none => .ok q
  | some e => .err e q

/-- the result of an accepted stream -/
def Outcome.get? {α : Type} : Outcome α → Option α
  | .ok a => some a
  | _ => none

end Verif.Dlep
