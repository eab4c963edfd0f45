import Verif.Mpr.Model

/-
What is expected from a selection of relays (RFC 7181, section 18), without reference to the selection itself.
-/
namespace Verif.Mpr
open Verif.Netaddr (Netaddr)

/-! ### flooding relays of an interface -/

/-- link `k` may be used: symmetric, on the interface, with a usable metric, and the neighbor is willing -/
def Eligible (db : Db) (iface k : Nat) : Prop :=
  k < db.links.length ∧ (db.link k).iface = iface ∧ (db.link k).metricOut ≤ METRIC_MAX ∧ (db.link k).symmetric = true ∧ (db.link k).will > 0

/-- the two-hop address `y` is reached over link `k` with cost `c` -/
def Via (db : Db) (k : Nat) (y : Netaddr) (c : Nat) : Prop :=
  ∃ t ∈ (db.link k).twohops, t.addr = y ∧ t.metricOut ≤ METRIC_MAX ∧ c = (db.link k).metricOut + t.metricOut

/-- `y` is an address of a neighbor on the interface, reached with cost `c` -/
def Direct (db : Db) (iface : Nat) (y : Netaddr) (c : Nat) : Prop :=
  ∃ k, Eligible db iface k ∧ y ∈ (db.neigh (db.link k).neigh).addrs ∧ c = (db.link k).metricOut

/-- flagged links cover the two-hop neighborhood as well as all eligible links -/
def Covers (db : Db) (iface : Nat) (flag : Nat → Bool) : Prop :=
  ∀ k y c, Eligible db iface k → Via db k y c →
    (∃ c', Direct db iface y c' ∧ c' ≤ c) ∨ ∃ k' c', k' < db.links.length ∧ flag k' = true ∧ Via db k' y c' ∧ c' ≤ c

/-- originator of the neighbor of a link -/
def originOf (db : Db) (k : Nat) : Netaddr := (db.neigh (db.link k).neigh).origin

/-- the two-hop addresses of every link differ (`_2hop` is a tree of addresses) -/
def TreeOk (db : Db) : Prop := ∀ k, ∀ t ∈ (db.link k).twohops, ∀ t' ∈ (db.link k).twohops, t.addr = t'.addr → t = t'

/-- an originator has at most one link on the interface, if one of its links is eligible -/
def OneLink (db : Db) (iface : Nat) : Prop :=
  ∀ k k', Eligible db iface k → k' < db.links.length → (db.link k').iface = iface → originOf db k = originOf db k' → k = k'

/-! ### routing relays -/

def EligibleN (db : Db) (j : Nat) : Prop :=
  j < db.neighs.length ∧ (db.neigh j).metricIn ≤ METRIC_MAX ∧ (db.neigh j).symmetric > 0 ∧ (db.neigh j).will > 0

/-- neighbor `j` is reached from the two-hop address `y` with cost `c` over one of its links -/
def ViaN (db : Db) (j : Nat) (y : Netaddr) (c : Nat) : Prop :=
  ∃ k ∈ (db.neigh j).links, ∃ t ∈ (db.link k).twohops, t.addr = y ∧ t.metricIn ≤ METRIC_MAX ∧ c = (db.neigh j).metricIn + t.metricIn

def DirectN (db : Db) (y : Netaddr) (c : Nat) : Prop := ∃ j, EligibleN db j ∧ y ∈ (db.neigh j).addrs ∧ c = (db.neigh j).metricIn

def CoversN (db : Db) (flag : Nat → Bool) : Prop :=
  ∀ j y c, EligibleN db j → ViaN db j y c →
    (∃ c', DirectN db y c' ∧ c' ≤ c) ∨ ∃ j' c', j' < db.neighs.length ∧ flag j' = true ∧ ViaN db j' y c' ∧ c' ≤ c

/-- neighbors have different originators -/
def OneNeigh (db : Db) : Prop := ∀ j j', EligibleN db j → j' < db.neighs.length → (db.neigh j).origin = (db.neigh j').origin → j = j'

/-- the links of a neighbor agree about the metric from a two-hop address -/
def Uniform (db : Db) : Prop :=
  ∀ j, EligibleN db j → ∀ k ∈ (db.neigh j).links, ∀ t ∈ (db.link k).twohops, ∀ k' ∈ (db.neigh j).links, ∀ t' ∈ (db.link k').twohops,
    t.addr = t'.addr → t.metricIn = t'.metricIn

end Verif.Mpr
