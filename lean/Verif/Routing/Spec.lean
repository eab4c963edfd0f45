import Verif.Routing.Model

/-! Specification of the routes of a router: paths in the graph of its topology information. -/
namespace Verif.Routing
open Verif.Netaddr (Netaddr)

/-- neighbor `i` can be used as first hop -/
structure Usable (w : Env) (i : Nat) : Prop where
  exists_ : i < w.neighs.length
  family : (w.neigh i).origin.type = AF_INET ∨ (w.neigh i).origin.type = AF_INET6
  symmetric : (w.neigh i).symmetric ≠ 0
  metricIn : (w.neigh i).metricIn ≤ METRIC_MAX
  metricOut : (w.neigh i).metricOut ≤ METRIC_MAX

/-- `Path w i t c h l`: there is a path to the target `t` (a router, or a network attached to routers) that starts with
the link to neighbor `i`, does not lead through this router, has the sum of link metrics `c` and `h` hops, and `l` is
the address of the last router before `t`. -/
inductive Path (w : Env) (i : Nat) : (t cost hops : Nat) → (last : Netaddr) → Prop
  | hop {t : Nat} : Usable w i → (w.neigh i).node = some t → (w.target t).loc = false →
      Path w i t (w.neigh i).metricOut 1 (w.originator (w.neigh i).origin.type)
  | edge {t c h : Nat} {l : Netaddr} {e : Edge} : Path w i t c h l → (w.target t).isNode = true → e ∈ (w.target t).edges →
      e.virtual = false → e.cost ≤ METRIC_MAX → (w.target e.dst).loc = false →
      Path w i e.dst (c + e.cost) (h + 1) (w.target t).key.dst
  | attached {t c h : Nat} {l : Netaddr} {a : Att} : Path w i t c h l → (w.target t).isNode = true → a ∈ (w.target t).atts →
      a.cost ≤ METRIC_MAX → Path w i a.dst (c + a.cost) (h + 1) (w.target t).key.dst

/-- `Reach w k i c h l`: the prefix `k` can be reached through neighbor `i` with cost `c` and `h` hops, `l` is the last
router before it: over a path of the topology, as an address of the neighbor, or as address of a two-hop neighbor -/
inductive Reach (w : Env) : (k : Key) → (i cost hops : Nat) → (last : Netaddr) → Prop
  | path {i t c h : Nat} {l : Netaddr} : Path w i t c h l → Reach w (w.target t).key i c h l
  | neighbor {i : Nat} {a : Netaddr} : i < w.neighs.length → (w.neigh i).symmetric ≠ 0 → (w.neigh i).metricOut ≤ METRIC_MAX →
      a ∈ (w.neigh i).addrs → w.nhdpRoutable = true → w.routable a = true →
      Reach w (hostKey a) i (w.neigh i).metricOut 1 (w.originator (w.neigh i).origin.type)
  | twohop {i : Nat} {link : List L2hop} {x : L2hop} : i < w.neighs.length → (w.neigh i).symmetric ≠ 0 → (w.neigh i).metricOut ≤ METRIC_MAX →
      link ∈ (w.neigh i).links → x ∈ link → x.lost = false → x.metric ≤ METRIC_MAX →
      Reach w (hostKey x.addr) i (x.metric + (w.neigh i).metricOut) 2 (w.neigh i).origin

/-- the references of the databases are valid: neighbors and edges lead to nodes, attached networks are endpoints, all of
the same address family -/
structure WF (w : Env) : Prop where
  neigh : ∀ i t, (w.neigh i).node = some t → t < w.targets.length ∧ (w.target t).isNode = true ∧ (w.target t).key.dst = (w.neigh i).origin
  edge : ∀ t, ∀ e ∈ (w.target t).edges, e.dst < w.targets.length ∧ (w.target e.dst).isNode = true ∧ (w.target e.dst).key.dst.type = (w.target t).key.dst.type
  att : ∀ t, ∀ a ∈ (w.target t).atts, a.dst < w.targets.length ∧ (w.target a.dst).isNode = false ∧ (w.target a.dst).loc = false ∧
    (w.target a.dst).key.dst.type = (w.target t).key.dst.type

end Verif.Routing
