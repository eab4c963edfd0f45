import Verif.Tc.Reader
import Verif.Tc.Spec

/-
What a TC message says, and what the database says about an originator.
-/
namespace Verif.Tc
open Verif.Netaddr (Netaddr)

/-- the address is the originator address of a neighbor (bit 0 of NBR_ADDR_TYPE) -/
def Address.neighbor (a : Address) : Bool :=
  match a.nbr with
  | some v => decide (v &&& 1 ≠ 0)
  | none => false

/-- the address is a routable address of a neighbor that is not its originator address -/
def Address.routable (a : Address) : Bool :=
  match a.nbr with
  | some v => decide (v &&& 1 = 0) && decide (v &&& 2 ≠ 0)
  | none => false

/-- prefixes that are reached over the originator according to an address -/
def Address.prefixes (a : Address) : List Key :=
  (if a.routable then [a.key] else []) ++ (match a.gw with | some g => [g.key] | none => [])

/-- the last word of a message about a neighbor -/
def lastEntry (l : List Address) (x : Netaddr) : Option Address := (l.filter fun a => a.neighbor && decide (a.addr = x)).getLast?

/-- the outgoing metrics of an address, infinite if there is none -/
def Address.metrics (a : Address) : List Nat := a.costOut.map fun c => if c ≤ METRIC_MAX then c else INFINITE

/-- the database says that node `i` has a neighbor `x`, with these metrics -/
def Neighbor (db : Db) (i : Nat) (x : Netaddr) (cost : List Nat) : Prop :=
  ∃ e ed m, db.edges e = some ed ∧ ed.src = i ∧ ed.virt = false ∧ ed.cost = cost ∧ db.nodes ed.dst = some m ∧ m.addr = x

/-- the database says that prefix `k` is reached over node `i` -/
def Reaches (db : Db) (i : Nat) (k : Key) : Prop :=
  ∃ a at_ en, db.atts a = some at_ ∧ at_.src = i ∧ db.ends at_.dst = some en ∧ en.key = k

/-- all allocations succeed -/
def Address.enough (a : Address) : Prop := a.ok = true ∧ a.okn = true ∧ a.oke = true ∧ ∀ g, a.gw = some g → g.ok = true ∧ g.oke = true

/-- sequence number `b` follows `a`: it is ahead by less than half of the circle (RFC 7181, section 21) -/
def Follows (a b : UInt16) : Prop := ∃ k : Nat, 0 < k ∧ k < 2 ^ 15 ∧ (a.toNat + k) % 2 ^ 16 = b.toNat

/-- valid information is stored for the originator of the message and its sequence number follows that of the message; an
incomplete message is outdated too if the sequence numbers are equal -/
def Outdated (db : Db) (m : Tc) : Prop :=
  ∃ i n, db.nodes i = some n ∧ n.addr = m.orig ∧ n.timer = true ∧ (Follows m.ansn n.ansn ∨ (m.complete = false ∧ m.ansn = n.ansn))

/-- the sequence number of the message follows or is that of the valid information which is stored for the originator -/
def Current (db : Db) (m : Tc) : Prop :=
  ∀ i n, db.nodes i = some n → n.addr = m.orig → n.timer = true → m.ansn = n.ansn ∨ Follows n.ansn m.ansn

/-- no information about the originator carries the sequence number of the message -/
def NewNumber (db : Db) (m : Tc) : Prop :=
  ∀ i n, db.nodes i = some n → n.addr = m.orig →
    (∀ e ed, db.edges e = some ed → ed.src = i → ed.virt = false → ed.ansn ≠ m.ansn) ∧ ∀ a at_, db.atts a = some at_ → at_.src = i → at_.ansn ≠ m.ansn

/-- the originator is not listed as its own neighbor -/
def Tc.NotSelf (m : Tc) : Prop := ∀ a ∈ m.addrs, a.neighbor = true → a.addr ≠ m.orig

/-- all messages of a history carry the mandatory TLVs, and their originators do not list themselves -/
def Plain (es : List Event) : Prop := ∀ m, Event.tc m ∈ es → m.constraints = true ∧ m.NotSelf

end Verif.Tc
