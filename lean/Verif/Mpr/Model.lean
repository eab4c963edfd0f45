import Verif.Netaddr.Model

/-
Model of the selection of multipoint relays (`src/nhdp/mpr/`).

Links and neighbors are referred to by their position in the lists of the database.  AVL trees are lists in the order of
their keys; two addresses have the same place in a tree if they are equal.  The two caches (`d_x_y_cache` of the graph,
`min_d_z_y` of an address) are left out: a cached value is the value of a function of data that does not change during a
selection, and the places for the pairs of the first cache differ (x + y * count for x < count).  Allocation does not fail.
Log output and the self test of debug builds (mpr.c:236-290) are left out.
-/
namespace Verif.Mpr
open Verif.Netaddr (Netaddr)

/-- `RFC7181_METRIC_MAX`, rfc5444.h:60 -/
def METRIC_MAX : Nat := 0xffff00
/-- `RFC7181_METRIC_INFINITE`, rfc5444.h:66 -/
def INFINITE : Nat := 0xffffff
/-- `RFC7181_METRIC_INFINITE_PATH`, rfc5444.h:69 -/
def INFINITE_PATH : Nat := 0xffffffff
/-- `RFC7181_WILLINGNESS_ALWAYS`, rfc5444_iana.h:164 -/
def ALWAYS : Nat := 15

/-- `struct nhdp_l2hop`, nhdp_db.h, with the metrics of the domain -/
structure TwoHop where
  addr : Netaddr
  metricIn : Nat
  metricOut : Nat
deriving DecidableEq, Repr

/-- `struct nhdp_link`, nhdp_db.h: neighbor, local interface, outgoing metric of the domain, `status` is symmetric,
`flooding_willingness`, `_2hop` -/
structure Link where
  neigh : Nat
  iface : Nat
  metricOut : Nat
  symmetric : Bool
  will : Nat
  twohops : List TwoHop
deriving DecidableEq, Repr

/-- `struct nhdp_neighbor`, nhdp_db.h: originator, incoming metric and willingness of the domain, number of symmetric
links, addresses, links -/
structure Neigh where
  origin : Netaddr
  metricIn : Nat
  symmetric : Nat
  will : Nat
  addrs : List Netaddr
  links : List Nat
deriving DecidableEq, Repr

/-- the NHDP database -/
structure Db where
  links : List Link
  neighs : List Neigh

def Db.link (db : Db) (k : Nat) : Link := db.links.getD k ⟨0, 0, 0, false, 0, []⟩
def Db.neigh (db : Db) (j : Nat) : Neigh := db.neighs.getD j ⟨⟨[], 0, 0⟩, 0, 0, 0, [], []⟩

/-- `struct n1_node`, neighbor-graph.h:90-97 -/
structure N1 where
  addr : Netaddr
  link : Option Nat
  neigh : Nat
deriving DecidableEq, Repr

/-- the functions of `struct neighbor_graph_interface`, neighbor-graph.h:58-66, for a graph with given `set_n1` -/
structure Methods where
  d1 : Netaddr → Nat
  d : N1 → Netaddr → Nat
  d2 : N1 → Netaddr → Nat
  will : N1 → Nat

/-- `avl_insert`: before the first larger key -/
def insertN1 (x : N1) : List N1 → List N1
  | [] => [x]
  | z :: zs => if Netaddr.cmp x.addr z.addr < 0 then x :: z :: zs else z :: insertN1 x zs

/-- `mpr_add_n1_node_to_set`, neighbor-graph.c:70-84 -/
def addN1 (set : List N1) (x : N1) : List N1 := if set.any (fun z => z.addr = x.addr) then set else insertN1 x set

def insertAddr (x : Netaddr) : List Netaddr → List Netaddr
  | [] => [x]
  | z :: zs => if Netaddr.cmp x z < 0 then x :: z :: zs else z :: insertAddr x zs

/-- `mpr_add_addr_node_to_set`, neighbor-graph.c:86-99 -/
def addAddr (set : List Netaddr) (x : Netaddr) : List Netaddr := if x ∈ set then set else insertAddr x set

/-- `mpr_calculate_minimal_d_z_y`, neighbor-graph.c:170-208 -/
def minimal (m : Methods) (n1 : List N1) (y : Netaddr) : Nat :=
  n1.foldl (fun best z => if m.d z y < best then m.d z y else best) INFINITE_PATH

/-- `_calculate_n`, selection-rfc7181.c:83-116 -/
def calculateN (m : Methods) (n1 : List N1) (n2 : List Netaddr) : List Netaddr :=
  n2.foldl (fun set y => if m.d1 y = INFINITE ∨ n1.any (fun x => decide (m.d x y < m.d1 y)) then addAddr set y else set) []

/-- `_calculate_r`, selection-rfc7181.c:131-188; `sel` is `selection_is_mpr` of the neighbors -/
def calculateR (m : Methods) (n1 : List N1) (n : List Netaddr) (sel : Nat → Bool) (x : N1) : Nat :=
  if sel x.neigh then 0
  else (n.filter fun y => !decide (m.d x y > minimal m n1 y) && !n1.any (fun z => decide (m.d z y = minimal m n1 y) && sel z.neigh)).length

/-- `_process_will_always`, selection-rfc7181.c:195-212; `none`: null pointer dereference -/
def willAlways (m : Methods) : List N1 → List N1 → Option (List N1)
  | [], mpr => some mpr
  | x :: xs, mpr =>
    if m.will x = ALWAYS then
      match x.link with
      | none => none
      | some _ => willAlways m xs (addN1 mpr x)
    else willAlways m xs mpr

/-- set `selection_is_mpr` -/
def mark (sel : Nat → Bool) (j : Nat) : Nat → Bool := fun i => if i = j then true else sel i

/-- `_process_unique_mprs`, selection-rfc7181.c:220-256; `none`: the assertion fails -/
def uniqueMprs (m : Methods) (n1 : List N1) : List Netaddr → List N1 → (Nat → Bool) → Option (List N1 × (Nat → Bool))
  | [], mpr, sel => some (mpr, sel)
  | y :: ys, mpr, sel =>
    match n1.filter fun x => decide (m.d2 x y ≤ METRIC_MAX) with
    | [] => none
    | [x] => uniqueMprs m n1 ys (addN1 mpr x) (mark sel x.neigh)
    | _ :: _ :: _ => uniqueMprs m n1 ys mpr sel

/-- the loop of `_select_greatest_by_property`, selection-rfc7181.c:290-309: greatest property (0 without node), subset -/
def selectStep (prop : N1 → Nat) (st : Nat × List N1) (x : N1) : Nat × List N1 :=
  let p := prop x
  if p > 0 then
    if st.1 = 0 ∨ p > st.1 then (p, addN1 [] x)
    else if p = st.1 then (st.1, addN1 st.2 x)
    else st
  else st

/-- `_select_greatest_by_property`, selection-rfc7181.c:265-321: the new `set_mpr_candidates` -/
def selectGreatest (prop : N1 → Nat) (n1 : List N1) : List N1 :=
  (n1.foldl (selectStep prop) (0, [])).2.foldl addN1 []

/-- `_process_remaining`, selection-rfc7181.c:336-394; the first argument bounds the number of rounds, the last component
of the result is true if the loop ended -/
def remaining (m : Methods) (n1 : List N1) (n : List Netaddr) : Nat → List N1 → (Nat → Bool) → List N1 × Bool
  | 0, mpr, _ => (mpr, false)
  | k + 1, mpr, sel =>
    match selectGreatest (calculateR m n1 n sel) n1 with
    | [] => (mpr, true)
    | x :: _ => remaining m n1 n k (addN1 mpr x) (mark sel x.neigh)

/-- `mpr_calculate_mpr_rfc7181`, selection-rfc7181.c:401-433: the set of relays, and whether the loop ended -/
def select (rounds : Nat) (m : Methods) (n1 : List N1) (n2 : List Netaddr) : Option (List N1 × Bool) :=
  let n := calculateN m n1 n2
  match willAlways m n1 [] with
  | none => none
  | some mpr =>
    match uniqueMprs m n1 n mpr (fun _ => false) with
    | none => none
    | some (mpr, sel) => some (remaining m n1 n rounds mpr sel)

/-- `_calculate_d_x_y`, neighbor-graph-flooding.c:157-188 and neighbor-graph-routing.c:166-197 -/
def pathCost (cost1 cost2 : Nat) : Nat := if cost1 > METRIC_MAX ∨ cost2 > METRIC_MAX then INFINITE_PATH else cost1 + cost2

/-! ### flooding, for one interface -/

/-- `_is_allowed_link_tuple`, neighbor-graph-flooding.c:99-122 -/
def allowedLink (iface : Nat) (l : Link) : Bool :=
  decide (l.iface = iface) && decide (l.metricOut ≤ METRIC_MAX) && l.symmetric && decide (l.will > 0)

/-- `_calculate_n1`, neighbor-graph-flooding.c:219-234 -/
def floodN1 (db : Db) (iface : Nat) : List N1 :=
  (List.range db.links.length).foldl (fun set k =>
    if allowedLink iface (db.link k) then addN1 set ⟨(db.neigh (db.link k).neigh).origin, some k, (db.link k).neigh⟩ else set) []

/-- `_calculate_n2`, neighbor-graph-flooding.c:247-263, with `_is_allowed_2hop_tuple`, 124-131 (the link of a two-hop
address has the interface of the graph) -/
def floodN2 (db : Db) (n1 : List N1) : List Netaddr :=
  ((n1.flatMap fun x => (db.link (x.link.getD 0)).twohops).filter fun t => decide (t.metricOut ≤ METRIC_MAX)).foldl (fun set t => addAddr set t.addr) []

/-- `_calculate_d2_x_y`, neighbor-graph-flooding.c:141-153 -/
def floodD2 (db : Db) (x : N1) (y : Netaddr) : Nat :=
  match (db.link (x.link.getD 0)).twohops.find? fun t => t.addr = y with
  | some t => t.metricOut
  | none => INFINITE

/-- `_calculate_d1_x_of_n2_addr`, neighbor-graph-flooding.c:198-216 -/
def floodD1 (db : Db) (n1 : List N1) (y : Netaddr) : Nat :=
  match n1.find? fun x => decide (y ∈ (db.neigh x.neigh).addrs) with
  | some x => (db.link (x.link.getD 0)).metricOut
  | none => INFINITE

/-- `_api_interface`, neighbor-graph-flooding.c:83-89, with `_get_willingness_n1`, 271-274 -/
def floodMethods (db : Db) (n1 : List N1) : Methods where
  d1 := floodD1 db n1
  d := fun x y => pathCost (db.link (x.link.getD 0)).metricOut (floodD2 db x y)
  d2 := floodD2 db
  will := fun x => (db.link (x.link.getD 0)).will

/-- `_cb_update_flooding_mpr` for an interface, mpr.c:202-221, and `_update_nhdp_flooding`, mpr.c:165-176: the flag
`neigh_is_flooding_mpr` of the links of the interface -/
def flooding (rounds : Nat) (db : Db) (iface : Nat) : Option ((Nat → Bool) × Bool) :=
  let n1 := floodN1 db iface
  match select rounds (floodMethods db n1) n1 (floodN2 db n1) with
  | none => none
  | some (mpr, done) => some (fun k => decide ((db.link k).iface = iface) && mpr.any (fun x => decide (x.addr = (db.neigh (db.link k).neigh).origin)), done)

/-! ### routing -/

/-- `_is_allowed_neighbor_tuple`, neighbor-graph-routing.c:87-113 -/
def allowedNeigh (n : Neigh) : Bool := decide (n.metricIn ≤ METRIC_MAX) && decide (n.symmetric > 0) && decide (n.will > 0)

/-- `_calculate_n1`, neighbor-graph-routing.c:245-265 -/
def routeN1 (db : Db) : List N1 :=
  (List.range db.neighs.length).foldl (fun set j => if allowedNeigh (db.neigh j) then addN1 set ⟨(db.neigh j).origin, none, j⟩ else set) []

/-- the two-hop addresses of a neighbor -/
def Db.twohops (db : Db) (j : Nat) : List TwoHop := (db.neigh j).links.flatMap fun k => (db.link k).twohops

/-- `_calculate_n2`, neighbor-graph-routing.c:267-303, with `_is_allowed_2hop_tuple`, 121-126 -/
def routeN2 (db : Db) (n1 : List N1) : List Netaddr :=
  ((n1.flatMap fun x => db.twohops x.neigh).filter fun t => decide (t.metricIn ≤ METRIC_MAX)).foldl (fun set t => addAddr set t.addr) []

/-- `_calculate_d2_x_y`, neighbor-graph-routing.c:149-164: the entry of the first link that has one -/
def routeD2 (db : Db) (x : N1) (y : Netaddr) : Nat :=
  match (db.twohops x.neigh).find? fun t => t.addr = y with
  | some t => t.metricIn
  | none => INFINITE

/-- `_calculate_d1_of_y`, neighbor-graph-routing.c:206-222 -/
def routeD1 (db : Db) (n1 : List N1) (y : Netaddr) : Nat :=
  match n1.find? fun x => decide (y ∈ (db.neigh x.neigh).addrs) with
  | some x => (db.neigh x.neigh).metricIn
  | none => INFINITE

/-- `_rt_api_interface`, neighbor-graph-routing.c:78-84, with `_get_willingness_n1`, 311-317 -/
def routeMethods (db : Db) (n1 : List N1) : Methods where
  d1 := routeD1 db n1
  d := fun x y => pathCost (db.neigh x.neigh).metricIn (routeD2 db x y)
  d2 := routeD2 db
  will := fun x => (db.neigh x.neigh).will

/-- `_cb_update_routing_mpr`, mpr.c:226-245, and `_update_nhdp_routing`, mpr.c:145-158: the flag `neigh_is_mpr` of the
neighbors (that have a link) -/
def routing (rounds : Nat) (db : Db) : Option ((Nat → Bool) × Bool) :=
  let n1 := routeN1 db
  match select rounds (routeMethods db n1) n1 (routeN2 db n1) with
  | none => none
  | some (mpr, done) => some (fun j => mpr.any (fun x => decide (x.addr = (db.neigh j).origin)), done)

end Verif.Mpr
