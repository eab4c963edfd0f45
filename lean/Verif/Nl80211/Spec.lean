import Verif.Nl80211.Model

/-! # Specification for wireless interfaces -/

namespace Verif.Nl80211

/-- a counter of the kernel is read again and again; it grows by less than 2^31 between two readings -/
inductive Slow : List Nat → Prop
  | one (c : Nat) : Slow [c]
  | more (c d : Nat) (l : List Nat) : c ≤ d → d < c + 2147483648 → Slow (d :: l) → Slow (c :: d :: l)

/-- the value in the database after the readings of the low 32 bit, starting without value -/
def stored (old : Nat) (cs : List Nat) : Nat := cs.foldl (fun old c => traffic old (c % 4294967296)) old

/-- the value of the plugin at a place -/
def shown (n : Net) (l : Loc) : Option Int :=
  match (n.cell l).hasMeta, (n.cell l).org with
  | true, some .data => some (n.cell l).val
  | true, some .updated => some (n.cell l).val
  | _, _ => none

/-- the values in a report, with their places -/
def values : Rep → List (Loc × Int)
  | .net i v => [(.net i, v)]
  | .dflt i v => [(.dflt i, v)]
  | .mpp _ _ => []
  | .station m vs => vs.map fun x => (.sta m x.1, x.2)

/-- the value that was reported last for a place -/
def lastOf (l : Loc) : List (Loc × Int) → Option Int
  | [] => none
  | x :: xs => match lastOf l xs with
    | some v => some v
    | none => if x.1 = l then some x.2 else none

/-- what a round should leave at a place: what was reported, and the fixed flag; nothing where someone of higher priority has written -/
def expected (n : Net) (rs : List Rep) (l : Loc) : Option Int :=
  if (n.cell l).writable then lastOf l ((rs.flatMap values) ++ [(.net mcsIdx, 1)]) else none

/-- all data of the plugin is from the last round that counted -/
def Settled (n : Net) : Prop := n.changed = false ∧ ∀ l, (n.cell l).org ≠ some .updated

/-- the queries for an interface -/
def queriesOf (i : Nat) : List Msg := [.query i 0, .query i 1, .query i 2, .query i 3, .query i 4]

/-- does the configuration want an interface: by a section of its own, or by the list -/
structure Want where
  secs : List Nat := []
  list : List Nat := []

def Want.change (w : Want) : Cfg → Want
  | .add n => { w with secs := n :: w.secs }
  | .del n => { w with secs := w.secs.filter (· ≠ n) }
  | .list l => { w with list := l }

end Verif.Nl80211
