import Verif.WReg.Build
/-!
What content providers ask for, in their own words: addresses with the flag of their first request, flags, accepted TLVs.
-/

namespace Verif.WReg

/-- The addresses in the order of their first requests with the flags of these, the addresses that have been asked for as mandatory at
any time, the accepted TLVs of each address in the order of the calls, and the sum of their lengths. -/
structure Ask where
  order : List (Nat × Bool)
  must : Nat → Bool
  tlvs : Nat → List (Nat × List Nat)
  bytes : Nat

def Ask.init : Ask := ⟨[], fun _ => false, fun _ => [], 0⟩

/-- A TLV is accepted: doubles are allowed or there is none of this type, and the values fit into the buffer. -/
def Ask.accepts (k : Ask) (size a ty : Nat) (v : List Nat) (dup : Bool) : Prop :=
  (dup = true ∨ ∀ x ∈ k.tlvs a, x.1 ≠ ty) ∧ (v = [] ∨ k.bytes + v.length ≤ size)

instance (k : Ask) (size a ty : Nat) (v : List Nat) (dup : Bool) : Decidable (k.accepts size a ty v dup) := by
  unfold Ask.accepts; infer_instance

def Ask.after (size : Nat) (k : Ask) : Call → Ask
  | .addr a m =>
    { k with order := if a ∈ k.order.map (·.1) then k.order else k.order ++ [(a, m)]
             must := fun x => k.must x || (x == a && m) }
  | .tlv a ty v dup =>
    if k.accepts size a ty v dup then
      { k with tlvs := fun x => if x = a then k.tlvs a ++ [(ty, v)] else k.tlvs x, bytes := k.bytes + v.length }
    else k

def Ask.all (size : Nat) (k : Ask) : List Call → Ask
  | [] => k
  | c :: cs => (k.after size c).all size cs

/-- TLVs are added to addresses that have been added. -/
def Proper (seen : List Nat) : List Call → Prop
  | [] => True
  | .addr a _ :: cs => Proper (a :: seen) cs
  | .tlv a _ _ _ :: cs => a ∈ seen ∧ Proper seen cs

/-- Sorted by type, in the order of the calls for each type. -/
structure ByType (asked got : List (Nat × List Nat)) : Prop where
  sorted : got.Pairwise fun x y => x.1 ≤ y.1
  stable : ∀ ty, got.filter (·.1 = ty) = asked.filter (·.1 = ty)

end Verif.WReg
