import Verif.Netaddr.Model

/-
Model of the route calculation of OLSRv2 for one domain (`src/olsrv2/olsrv2/olsrv2_routing.c`).

Targets (TC nodes and endpoints) and neighbors are referred to by their position in a list instead of a pointer.  All
arrays with one element per domain are replaced by the element of the domain.  Trees and lists of the databases are
lists in the order they are iterated over.  The data of the databases does not change during a calculation.  Allocation
of routing entries does not fail.  Log output is left out.
-/
namespace Verif.Routing
open Verif.Netaddr (Netaddr)

/-- `struct os_route_key`, os_routing.h: destination and source prefix -/
structure Key where
  dst : Netaddr
  src : Netaddr
deriving DecidableEq, Repr

/-- `struct olsrv2_tc_edge`, olsrv2_tc.h:146-170 -/
structure Edge where
  dst : Nat
  cost : Nat
  virtual : Bool
deriving DecidableEq, Repr

/-- `struct olsrv2_tc_attachment`, olsrv2_tc.h:176-197 -/
structure Att where
  dst : Nat
  cost : Nat
  distance : Nat
deriving DecidableEq, Repr

/-- `struct olsrv2_tc_target` with the `struct olsrv2_tc_node` or `struct olsrv2_tc_endpoint` around it,
olsrv2_tc.h:77-144 and 205-214: `isNode` is `type == OLSRV2_NODE_TARGET`, `ss` is `source_specific`, `ssNets` is
`ss_attached_networks`, `loc` is the result of `olsrv2_originator_is_local`, `origin` is `_dijkstra.originator`, and
`count` is `_attached_networks.count` of an endpoint -/
structure Target where
  key : Key
  isNode : Bool
  ss : Bool
  ssNets : Bool
  loc : Bool
  origin : Netaddr
  edges : List Edge
  atts : List Att
  count : Nat
deriving DecidableEq, Repr

/-- `struct nhdp_l2hop`: address, `nhdp_db_2hop_is_lost`, outgoing metric -/
structure L2hop where
  addr : Netaddr
  lost : Bool
  metric : Nat
deriving DecidableEq, Repr

/-- `struct nhdp_neighbor` and its `struct nhdp_neighbor_domaindata`: `node` is the result of `olsrv2_tc_node_get` for its
originator, `ifindex` is `best_link_ifindex`, `linkAddr` is `best_out_link->if_addr` -/
structure Neigh where
  origin : Netaddr
  symmetric : Nat
  node : Option Nat
  metricIn : Nat
  metricOut : Nat
  ifindex : Nat
  linkAddr : Netaddr
  addrs : List Netaddr
  links : List (List L2hop)
deriving DecidableEq, Repr

/-- everything the calculation reads: the targets of the TC database, the list of neighbors, `olsrv2_originator_get`,
`nhdp_interface_addr_global_get`, `olsrv2_lan_get` with `active` and `outgoing_metric`, `routable_acl` and
`nhdp_routable` of the configuration -/
structure Env where
  targets : List Target
  neighs : List Neigh
  originator : UInt8 → Netaddr
  ifAddr : Netaddr → Bool
  lan : Key → Option (Bool × Nat)
  routable : Netaddr → Bool
  nhdpRoutable : Bool

/-- a target that does not exist -/
def noTarget : Target := ⟨⟨⟨[], 0, 0⟩, ⟨[], 0, 0⟩⟩, false, false, false, false, ⟨[], 0, 0⟩, [], [], 0⟩
/-- a neighbor that does not exist -/
def noNeigh : Neigh := ⟨⟨[], 0, 0⟩, 0, none, 0, 0, 0, ⟨[], 0, 0⟩, [], []⟩

def Env.target (w : Env) (t : Nat) : Target := w.targets.getD t noTarget
def Env.neigh (w : Env) (i : Nat) : Neigh := w.neighs.getD i noNeigh

/-- `RFC7181_METRIC_MAX`, rfc5444.h:60 -/
def METRIC_MAX : Nat := 0xffff00
/-- `RFC7181_METRIC_INFINITE_PATH`, rfc5444.h:69 -/
def INFINITE_PATH : Nat := 0xffffffff

def AF_INET : UInt8 := 2
def AF_INET6 : UInt8 := 10

/-! ### the working queue -/

/-- `struct olsrv2_dijkstra_node`, olsrv2_routing.h:69-102, the fields that change -/
structure DNode where
  cost : Nat
  hops : Nat
  distance : Nat
  first : Nat
  last : Netaddr
  single : Bool
  done : Bool
deriving DecidableEq, Repr

/-- the Dijkstra data of all targets, and the targets in `_dijkstra_working_tree` in the order of the tree -/
structure DState where
  node : Nat → DNode
  queue : List Nat

/-- `avl_insert` into `_dijkstra_working_tree`, a tree with duplicates sorted by path cost: behind all entries that are
not larger -/
def enqueue (cost : Nat → Nat) (t : Nat) : List Nat → List Nat
  | [] => [t]
  | x :: xs => if cost x ≤ cost t then x :: enqueue cost t xs else t :: x :: xs

/-- `_insert_into_working_tree`, olsrv2_routing.c:579-628 -/
def insert (w : Env) (s : DState) (t first linkCost pathCost pathHops distance : Nat) (single : Bool) (last : Netaddr) : DState :=
  if linkCost > METRIC_MAX then s
  else if (w.target t).loc = true ∨ (s.node t).done = true then s
  else
    let cost := (pathCost + linkCost) % 2 ^ 32
    let hops := (pathHops + 1) % 256
    if t ∈ s.queue ∧ (s.node t).cost ≤ cost then s
    else
      let node := fun x => if x = t then ⟨cost, hops, distance, first, last, single, (s.node t).done⟩ else s.node x
      ⟨node, enqueue (fun x => (node x).cost) t (s.queue.filter (· ≠ t))⟩

/-! ### routing entries -/

/-- `struct os_route_parameter`, os_routing.h, without the key, type and family (which do not change) -/
structure Params where
  ifindex : Nat
  gw : Option Netaddr
  metric : Nat
  table : Nat
  protocol : Nat
  srcIp : Option Netaddr
deriving DecidableEq, Repr

/-- a parameter block filled with zeros -/
def noParams : Params := ⟨0, none, 0, 0, 0, none⟩

/-- `struct olsrv2_routing_entry`, olsrv2_routing.h:107-146; `old` is `_old`, `none` for a block filled with zeros
(which differs from all parameters of an entry, because they contain the key) -/
structure Entry where
  key : Key
  p : Params
  old : Option Params
  cost : Nat
  hops : Nat
  origin : Netaddr
  next : Netaddr
  last : Netaddr
  set : Bool
  inProcessing : Bool
deriving DecidableEq, Repr

/-- a new entry of `_add_entry`, olsrv2_routing.c:520-553 -/
def newEntry (k : Key) : Entry := ⟨k, noParams, none, INFINITE_PATH, 255, ⟨[], 0, 0⟩, ⟨[], 0, 0⟩, ⟨[], 0, 0⟩, false, false⟩

/-- `_add_entry`, olsrv2_routing.c:520-553, followed by a modification of the entry.  `_routing_tree` is a list;
a new entry is put at the end (the order of the tree has no influence on the entries) -/
def modifyEntry (k : Key) (f : Entry → Entry) : List Entry → List Entry
  | [] => [f (newEntry k)]
  | e :: es => if e.key = k then f e :: es else e :: modifyEntry k f es

/-- the arguments of `_update_routing_entry`; the neighbor by its position -/
structure Call where
  key : Key
  origin : Netaddr
  first : Nat
  distance : Nat
  cost : Nat
  hops : Nat
  single : Bool
  last : Netaddr
deriving DecidableEq, Repr

/-- a locally attached network with a better metric, olsrv2_routing.c:666-676 -/
def lanBetter (w : Env) (k : Key) (cost : Nat) : Bool :=
  match w.lan k with
  | some (active, metric) => active && decide (metric < cost)
  | none => false

/-- the tests for destinations without route, olsrv2_routing.c:656-681 -/
def refused (w : Env) (c : Call) : Bool :=
  decide (w.originator c.key.dst.type = c.key.dst) || w.ifAddr c.key.dst || lanBetter w c.key c.cost || !w.routable c.key.dst

/-- `_update_routing_entry` for the entry, olsrv2_routing.c:690-728 -/
def apply (w : Env) (c : Call) (e : Entry) : Entry :=
  if e.set = true ∧ e.cost < c.cost then e
  else
    let n := w.neigh c.first
    { e with
      p := { e.p with ifindex := n.ifindex, metric := c.distance, gw := if c.single = true ∧ n.linkAddr = e.key.dst then none else some n.linkAddr }
      cost := c.cost
      hops := c.hops
      origin := c.origin
      next := n.origin
      last := c.last
      set := true }

/-- `_update_routing_entry`, olsrv2_routing.c:643-729 -/
def update (w : Env) (tbl : List Entry) (c : Call) : List Entry :=
  if refused w c then tbl else modifyEntry c.key (apply w c) tbl

/-- `_prepare_routes`, olsrv2_routing.c:736-743 -/
def prepareRoutes (tbl : List Entry) : List Entry := tbl.map fun e => { e with set := false, old := some e.p }

/-- `_prepare_nodes`, olsrv2_routing.c:749-769; the working queue is empty -/
def prepareNodes : DState := ⟨fun _ => ⟨INFINITE_PATH, 255, 0, 0, ⟨[], 0, 0⟩, false, false⟩, []⟩

/-- `_check_ssnode_split`, olsrv2_routing.c:779-805 -/
def split (w : Env) (family : UInt8) : Bool :=
  let nodes := w.targets.filter fun t => t.isNode
  let full := nodes.filter fun t => t.key.dst.type = family
  let ss := full.filter fun t => t.ss
  decide (ss.length ≠ 0) && decide (ss.length ≠ full.length) && nodes.any (·.ssNets)

/-- the flags `use_non_ss` and `use_ss` of a run -/
structure Flags where
  nonSs : Bool
  ss : Bool
deriving DecidableEq, Repr

/-- one neighbor in `_add_one_hop_nodes`, olsrv2_routing.c:826-851 -/
def addOneHop (w : Env) (family : UInt8) (fl : Flags) (s : DState) (i : Nat) : DState :=
  let n := w.neigh i
  if n.origin.type ≠ family then s
  else if n.symmetric = 0 then s
  else
    match n.node with
    | none => s
    | some t =>
      if !fl.nonSs && !((w.target t).ss && fl.ss) then s
      else if n.metricIn > METRIC_MAX ∨ n.metricOut > METRIC_MAX then s
      else insert w s t i n.metricOut 0 0 0 true (w.originator family)

/-- `_add_one_hop_nodes`, olsrv2_routing.c:815-852 -/
def addOneHopNodes (w : Env) (family : UInt8) (fl : Flags) (s : DState) : DState :=
  (List.range w.neighs.length).foldl (addOneHop w family fl) s

/-- one edge in `_handle_working_queue`, olsrv2_routing.c:900-909; `d` is the Dijkstra data of the target `t` -/
def handleEdge (w : Env) (fl : Flags) (t : Nat) (d : DNode) (s : DState) (e : Edge) : DState :=
  if e.virtual = false ∧ e.cost ≤ METRIC_MAX then
    if !fl.nonSs && !(w.target t).ss then s
    else insert w s e.dst d.first e.cost d.cost d.hops 0 false (w.target t).key.dst
  else s

/-- one attached network in `_handle_working_queue`, olsrv2_routing.c:913-935 -/
def handleAtt (w : Env) (fl : Flags) (t : Nat) (d : DNode) (st : DState × List Entry) (a : Att) : DState × List Entry :=
  let (s, tbl) := st
  if a.cost ≤ METRIC_MAX then
    let e := w.target a.dst
    if !(if e.key.src.prefixLen > 0 then fl.ss else fl.nonSs) then (s, tbl)
    else if e.count > 1 then (insert w s a.dst d.first a.cost d.cost d.hops a.distance false (w.target t).key.dst, tbl)
    else
      ({ s with node := fun x => if x = a.dst then { s.node x with done := true } else s.node x },
       update w tbl ⟨e.key, (w.target t).key.dst, d.first, a.distance, (d.cost + a.cost) % 2 ^ 32, (d.hops + 1) % 256, false, (w.target t).key.dst⟩)
  else (s, tbl)

/-- `_handle_working_queue`, olsrv2_routing.c:861-938; `t` is the first target of the queue, `q` the rest -/
def handle (w : Env) (fl : Flags) (s : DState) (tbl : List Entry) (t : Nat) (q : List Nat) : DState × List Entry :=
  let s : DState := ⟨fun x => if x = t then { s.node x with done := true } else s.node x, q⟩
  let d := s.node t
  let tbl := if fl.nonSs then update w tbl ⟨(w.target t).key, (w.target t).origin, d.first, d.distance, d.cost, d.hops, d.single, d.last⟩ else tbl
  if (w.target t).isNode then
    let s := (w.target t).edges.foldl (handleEdge w fl t d) s
    (w.target t).atts.foldl (handleAtt w fl t d) (s, tbl)
  else (s, tbl)

/-- the loop of `_run_dijkstra`, olsrv2_routing.c:508-510; the first argument bounds the number of rounds -/
def loop (w : Env) (fl : Flags) : Nat → DState → List Entry → DState × List Entry
  | 0, s, tbl => (s, tbl)
  | n + 1, s, tbl =>
    match s.queue with
    | [] => (s, tbl)
    | t :: q =>
      let r := handle w fl s tbl t q
      loop w fl n r.1 r.2

/-- `_run_dijkstra`, olsrv2_routing.c:500-511 -/
def runDijkstra (w : Env) (rounds : Nat) (family : UInt8) (fl : Flags) (s : DState) (tbl : List Entry) : DState × List Entry :=
  loop w fl rounds (addOneHopNodes w family fl s) tbl

/-- `os_routing_init_sourcespec_prefix` for a destination, os_routing_generic_init_half_route_key.c:58-73: the source
prefix is the prefix of length 0 -/
def hostKey (a : Netaddr) : Key := ⟨a, if a.type = AF_INET ∨ a.type = AF_INET6 then ⟨List.replicate 16 0, a.type, 0⟩ else ⟨List.replicate 16 0, 0, 0⟩⟩

/-- routes to the addresses of a neighbor, olsrv2_routing.c:970-986 -/
def neighCalls (w : Env) (i : Nat) : List Call :=
  ((w.neigh i).addrs.filter fun a => w.nhdpRoutable && w.routable a).map fun a =>
    ⟨hostKey a, w.originator (w.neigh i).origin.type, i, 0, (w.neigh i).metricOut, 1, true, w.originator (w.neigh i).origin.type⟩

/-- routes to the two-hop addresses of a neighbor, olsrv2_routing.c:988-1006 -/
def twohopCalls (w : Env) (i : Nat) : List Call :=
  ((w.neigh i).links.flatten.filter fun h => !h.lost && decide (h.metric ≤ METRIC_MAX)).map fun h =>
    ⟨hostKey h.addr, ⟨[], 0, 0⟩, i, 0, (h.metric + (w.neigh i).metricOut) % 2 ^ 32, 2, false, (w.neigh i).origin⟩

/-- one neighbor in `_handle_nhdp_routes`, olsrv2_routing.c:958-1007 -/
def handleNeigh (w : Env) (tbl : List Entry) (i : Nat) : List Entry :=
  if (w.neigh i).symmetric = 0 ∨ (w.neigh i).metricOut > METRIC_MAX then tbl
  else (neighCalls w i ++ twohopCalls w i).foldl (update w) tbl

/-- `_handle_nhdp_routes`, olsrv2_routing.c:945-1008 -/
def handleNhdpRoutes (w : Env) (tbl : List Entry) : List Entry := (List.range w.neighs.length).foldl (handleNeigh w) tbl

/-- the calculation for a domain in `olsrv2_routing_force_update`, olsrv2_routing.c:340-366, up to the update of the
kernel routes -/
def calculate (w : Env) (rounds : Nat) (tbl : List Entry) : List Entry :=
  let tbl := prepareRoutes tbl
  let split4 := split w AF_INET
  let split6 := split w AF_INET6
  let (s, tbl) := runDijkstra w rounds AF_INET ⟨true, !split4⟩ prepareNodes tbl
  let (_, tbl) := runDijkstra w rounds AF_INET6 ⟨true, !split6⟩ s tbl
  let tbl :=
    if split4 || split6 then
      let (s, tbl) := if split4 then runDijkstra w rounds AF_INET ⟨false, true⟩ prepareNodes tbl else (prepareNodes, tbl)
      if split6 then (runDijkstra w rounds AF_INET6 ⟨false, true⟩ s tbl).2 else tbl
    else tbl
  handleNhdpRoutes w tbl

end Verif.Routing
