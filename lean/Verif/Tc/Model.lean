import Verif.Netaddr.Model
import Verif.Codec.Model

/-
Model of the topology database (`src/olsrv2/olsrv2/olsrv2_tc.c`) and of its use by the TC reader
(`src/olsrv2/olsrv2/olsrv2_reader.c`).

Objects are allocated with fresh numbers, pointers are such numbers (of type `Nat`), a freed object is `none`.  AVL trees are lists of
numbers in the order of insertion; the order has no influence on the results.  A function results in `none` if it
 - reads or writes a freed object (a lookup in a tree is taken to read all keys of the tree), or
 - removes an object from a tree that does not contain it.
Memory allocation may fail: functions have arguments that say if their allocations succeed.  Class events (no listener in
the modelled code besides the neighbor listener, which is modelled), Dijkstra data apart from the pointer `originator`,
and the marking of domains for the next route calculation are left out.  The validity timer is modelled by whether it is
active (`oonf_timer_set` with 0 stops a timer, oonf_timer.c:191-199).
-/
namespace Verif.Tc
open Verif.Netaddr (Netaddr)

/-- `NHDP_MAXIMUM_DOMAINS`, nhdp.h:73 -/
def DOMAINS : Nat := 4
/-- `RFC7181_METRIC_MAX`, rfc5444.h:60 -/
def METRIC_MAX : Nat := 0xffff00
/-- `RFC7181_METRIC_INFINITE`, rfc5444.h:66 -/
def INFINITE : Nat := 0xffffff


/-- `struct os_route_key`, os_routing.h: destination and source prefix -/
abbrev Key := Netaddr × Netaddr

/-- `struct olsrv2_tc_node`, olsrv2_tc.h:110-143: `addr` is `target.prefix.dst`, `timer`: `_validity_time` is active -/
structure Node where
  addr : Netaddr
  ansn : UInt16
  direct : Bool
  timer : Bool
  edges : List Nat
  atts : List Nat

/-- `struct olsrv2_tc_edge`, olsrv2_tc.h:148-172 -/
structure Edge where
  src : Nat
  dst : Nat
  inv : Nat
  virt : Bool
  cost : List Nat
  ansn : UInt16

/-- `struct olsrv2_tc_attachment`, olsrv2_tc.h:178-199 -/
structure Att where
  src : Nat
  dst : Nat
  cost : List Nat
  dist : List Nat
  ansn : UInt16

/-- `struct olsrv2_tc_endpoint`, olsrv2_tc.h:207-216: `key` is `target.prefix`, `owner` is the node to which
`target._dijkstra.originator` points -/
structure End where
  key : Key
  mesh : Bool
  atts : List Nat
  owner : Nat

/-- the database: heap, `_tc_tree`, `_tc_endpoint_tree`, next number -/
structure Db where
  nodes : Nat → Option Node
  edges : Nat → Option Edge
  atts : Nat → Option Att
  ends : Nat → Option End
  tree : List Nat
  endTree : List Nat
  next : Nat

/-- `olsrv2_tc_init`, olsrv2_tc.c:110-121 -/
def Db.init : Db := ⟨fun _ => none, fun _ => none, fun _ => none, fun _ => none, [], [], 0⟩

/-- write to the heap -/
def upd {α : Type} (f : Nat → Option α) (i : Nat) (v : Option α) : Nat → Option α := fun j => if j = i then v else f j

/-- write a node -/
def Db.setNode (db : Db) (i : Nat) (n : Node) : Db := { db with nodes := upd db.nodes i (some n) }
/-- write an edge -/
def Db.setEdge (db : Db) (e : Nat) (ed : Edge) : Db := { db with edges := upd db.edges e (some ed) }
/-- write an attachment -/
def Db.setAtt (db : Db) (a : Nat) (at_ : Att) : Db := { db with atts := upd db.atts a (some at_) }
/-- write an endpoint -/
def Db.setEnd (db : Db) (x : Nat) (en : End) : Db := { db with ends := upd db.ends x (some en) }

/-- lookup in a tree with a function that reads the key of an element -/
def find {κ : Type} [DecidableEq κ] (key : Nat → Option κ) (l : List Nat) (k : κ) : Option (Option Nat) :=
  if l.all (fun i => (key i).isSome) then some (l.find? fun i => decide (key i = some k)) else none

/-- `avl_insert` for a tree without duplicates: no change if there is an element with the key -/
def insert {κ : Type} [DecidableEq κ] (key : Nat → Option κ) (l : List Nat) (i : Nat) : Option (List Nat) :=
  if l.all (fun i => (key i).isSome) then some (if l.any (fun j => decide (key j = key i)) then l else l ++ [i]) else none

/-- `avl_remove` -/
def remove (l : List Nat) (i : Nat) : Option (List Nat) := if i ∈ l then some (l.erase i) else none

/-- key of a node in `_tc_tree` (olsrv2_tc.c:174) -/
def Db.nodeKey (db : Db) (i : Nat) : Option Netaddr := (db.nodes i).map (·.addr)
/-- key of an edge in the tree of its source (olsrv2_tc.c:300, 313): the address of the destination -/
def Db.edgeKey (db : Db) (e : Nat) : Option Netaddr := (db.edges e).bind fun ed => db.nodeKey ed.dst
/-- key of an endpoint (olsrv2_tc.c:374) -/
def Db.endKey (db : Db) (x : Nat) : Option Key := (db.ends x).map (·.key)
/-- key of an attachment in the tree of its node (olsrv2_tc.c:388): the prefix of the endpoint -/
def Db.attKey (db : Db) (a : Nat) : Option Key := (db.atts a).bind fun at_ => db.endKey at_.dst
/-- key of an attachment in the tree of its endpoint (olsrv2_tc.c:392): the address of the node -/
def Db.attSrcKey (db : Db) (a : Nat) : Option Netaddr := (db.atts a).bind fun at_ => db.nodeKey at_.src

/-- `olsrv2_tc_node_get`, olsrv2_tc.h:244-249 -/
def nodeGet (db : Db) (addr : Netaddr) : Option (Option Nat) := find db.nodeKey db.tree addr

/-- `olsrv2_tc_node_add`, olsrv2_tc.c:161-203; `vtime`: the validity time is not 0 -/
def nodeAdd (db : Db) (addr : Netaddr) (vtime : Bool) (ansn : UInt16) (ok : Bool) : Option (Db × Option Nat) :=
  match nodeGet db addr with
  | none => none
  | some none =>
    if ok then
      some ({ db with nodes := upd db.nodes db.next (some ⟨addr, ansn, false, vtime, [], []⟩), tree := db.tree ++ [db.next], next := db.next + 1 }, some db.next)
    else some (db, none)
  | some (some i) =>
    match db.nodes i with
    | none => none
    | some n => some (db.setNode i { n with ansn := if n.timer then n.ansn else ansn, timer := vtime }, some i)

/-- allocation of an edge and its inverse, olsrv2_tc.c:289-314 -/
def linkEdge (db : Db) (src dst : Nat) : Option (Db × Option Nat) :=
  let e := db.next
  let i := db.next + 1
  let inf := List.replicate DOMAINS INFINITE
  let db := { db with edges := upd (upd db.edges e (some ⟨src, dst, i, false, inf, 0⟩)) i (some ⟨dst, src, e, true, inf, 0⟩), next := db.next + 2 }
  match db.nodes src with
  | none => none
  | some n =>
    match insert db.edgeKey n.edges e with
    | none => none
    | some es =>
      let db := db.setNode src { n with edges := es }
      match db.nodes dst with
      | none => none
      | some m =>
        match insert db.edgeKey m.edges i with
        | none => none
        | some es => some (db.setNode dst { m with edges := es }, some e)

/-- `olsrv2_tc_edge_add`, olsrv2_tc.c:246-319; `ok`: both edges are allocated, `okn`: a new node is allocated -/
def edgeAdd (db : Db) (src : Nat) (addr : Netaddr) (ok okn : Bool) : Option (Db × Option Nat) :=
  match db.nodes src with
  | none => none
  | some n =>
    match find db.edgeKey n.edges addr with
    | none => none
    | some (some e) =>
      match db.edges e with
      | none => none
      | some ed => some (db.setEdge e { ed with virt := false, cost := List.replicate DOMAINS INFINITE }, some e)
    | some none =>
      if ok then
        match nodeGet db addr with
        | none => none
        | some (some dst) => linkEdge db src dst
        | some none =>
          match nodeAdd db addr false 0 okn with
          | none => none
          | some (db, none) => some (db, none)
          | some (db, some dst) => linkEdge db src dst
      else some (db, none)

/-- `olsrv2_tc_endpoint_remove`, olsrv2_tc.c:405-428 -/
def endpointRemove (db : Db) (a : Nat) : Option Db :=
  match db.atts a with
  | none => none
  | some at_ =>
    match db.nodes at_.src with
    | none => none
    | some n =>
      match remove n.atts a with
      | none => none
      | some l =>
        let db := db.setNode at_.src { n with atts := l }
        match db.ends at_.dst with
        | none => none
        | some en =>
          match remove en.atts a with
          | none => none
          | some [] =>
            match remove db.endTree at_.dst with
            | none => none
            | some t => some { db with endTree := t, ends := upd db.ends at_.dst none, atts := upd db.atts a none }
          | some (x :: xs) => some { db with ends := upd db.ends at_.dst (some { en with atts := x :: xs }), atts := upd db.atts a none }

/-- new attachment of a node to an endpoint, olsrv2_tc.c:380-398 -/
def attach (db : Db) (node x : Nat) : Option (Db × Option Nat) :=
  let a := db.next
  let inf := List.replicate DOMAINS INFINITE
  let db := { db with atts := upd db.atts a (some ⟨node, x, inf, List.replicate DOMAINS 0, 0⟩), next := db.next + 1 }
  match db.nodes node with
  | none => none
  | some n =>
    match insert db.attKey n.atts a with
    | none => none
    | some l =>
      let db := db.setNode node { n with atts := l }
      match db.ends x with
      | none => none
      | some en =>
        match insert db.attSrcKey en.atts a with
        | none => none
        | some l => some (db.setEnd x { en with atts := l, owner := node }, some a)

/-- `olsrv2_tc_endpoint_add`, olsrv2_tc.c:342-399; `ok`: the attachment is allocated, `oke`: the endpoint is allocated -/
def endpointAdd (db : Db) (node : Nat) (key : Key) (mesh ok oke : Bool) : Option (Db × Option Nat) :=
  match db.nodes node with
  | none => none
  | some n =>
    match find db.attKey n.atts key with
    | none => none
    | some (some a) => some (db, some a)
    | some none =>
      if ok then
        match find db.endKey db.endTree key with
        | none => none
        | some (some x) => attach db node x
        | some none =>
          if oke then
            attach { db with ends := upd db.ends db.next (some ⟨key, mesh, [], 0⟩), endTree := db.endTree ++ [db.next], next := db.next + 1 } node db.next
          else some (db, none)
      else some (db, none)

/-- `_remove_edge`, olsrv2_tc.c:478-515; `rm` is `olsrv2_tc_node_remove` -/
def removeEdgeWith (rm : Db → Nat → Option Db) (cleanup : Bool) (db : Db) (e : Nat) : Option Db :=
  match db.edges e with
  | none => none
  | some ed =>
    if ed.virt then some db
    else
      match db.edges ed.inv with
      | none => none
      | some inv =>
        if !inv.virt then some (db.setEdge e { ed with virt := true })
        else
          match db.nodes ed.src with
          | none => none
          | some n =>
            match remove n.edges e with
            | none => none
            | some l =>
              let db := db.setNode ed.src { n with edges := l }
              match db.nodes ed.dst with
              | none => none
              | some m =>
                match remove m.edges ed.inv with
                | none => none
                | some l =>
                  let db := db.setNode ed.dst { m with edges := l }
                  let free := fun (db : Db) => { db with edges := upd (upd db.edges ed.inv none) e none }
                  if l = [] ∧ cleanup = true ∧ m.timer = false then (rm db ed.dst).map free else some (free db)

/-- `olsrv2_tc_node_remove`, olsrv2_tc.c:209-238; the first argument bounds the depth of the recursion (over
`olsrv2_tc_edge_remove`, 326-332) -/
def nodeRemove : Nat → Db → Nat → Option Db
  | 0, _, _ => none
  | depth + 1, db, i =>
    match db.nodes i with
    | none => none
    | some n =>
      match n.edges.foldlM (removeEdgeWith (nodeRemove depth) true) db with
      | none => none
      | some db =>
        match db.nodes i with
        | none => none
        | some n =>
          match n.atts.foldlM endpointRemove db with
          | none => none
          | some db =>
            match db.nodes i with
            | none => none
            | some n =>
              if n.edges = [] ∧ n.direct = false then
                match remove db.tree i with
                | none => none
                | some t => some { db with nodes := upd db.nodes i none, tree := t }
              else some (db.setNode i { n with timer := false })

/-- depth of the recursion: a node that is removed because its last edge is removed has no edges -/
def DEPTH : Nat := 2

/-- `olsrv2_tc_edge_remove`, olsrv2_tc.c:326-332 -/
def edgeRemove (db : Db) (e : Nat) : Option Db := removeEdgeWith (nodeRemove DEPTH) true db e

/-- `_cb_tc_node_timeout`, olsrv2_tc.c:460-468: the timer is not active any more when the callback runs -/
def timeout (db : Db) (i : Nat) : Option Db :=
  match db.nodes i with
  | none => none
  | some n => if n.timer then nodeRemove DEPTH (db.setNode i { n with timer := false }) i else some db

/-- `_cb_neighbor_remove`, olsrv2_tc.c:550-571; `orig`: originator of the neighbor -/
def neighborRemove (db : Db) (orig : Option Netaddr) : Option Db :=
  match orig with
  | none => some db
  | some addr =>
    match nodeGet db addr with
    | none => none
    | some none => some db
    | some (some i) =>
      match db.nodes i with
      | none => none
      | some n =>
        let db := db.setNode i { n with direct := false }
        if n.timer then some db else nodeRemove DEPTH db i

/-- `_cb_neighbor_change`, olsrv2_tc.c:517-548; `old`: `_old_originator`, `orig`: `originator` -/
def neighborChange (db : Db) (old orig : Option Netaddr) (ok : Bool) : Option Db :=
  if orig = old then some db
  else
    match neighborRemove db orig with
    | none => none
    | some db =>
      match orig with
      | none => some db
      | some addr =>
        match nodeGet db addr with
        | none => none
        | some (some i) =>
          match db.nodes i with
          | none => none
          | some n => some (db.setNode i { n with direct := true })
        | some none =>
          match nodeAdd db addr false 0 ok with
          | none => none
          | some (db, none) => some db
          | some (db, some i) =>
            match db.nodes i with
            | none => none
            | some n => some (db.setNode i { n with direct := true })

/-! ### the operations of the users of the database -/

/-- calls from outside; objects are found with their keys -/
inductive Op
  | nodeAdd (addr : Netaddr) (vtime : Bool) (ansn : UInt16) (ok : Bool)
  | timeout (addr : Netaddr)
  | nodeRemove (addr : Netaddr)
  | edgeAdd (src dst : Netaddr) (ok okn : Bool)
  | edgeSet (src dst : Netaddr) (cost : List Nat) (ansn : UInt16)
  | edgeRemove (src dst : Netaddr)
  | endpointAdd (node : Netaddr) (key : Key) (mesh ok oke : Bool)
  | endpointRemove (node : Netaddr) (key : Key)
  | neighborChange (old orig : Option Netaddr) (ok : Bool)
  | neighborRemove (orig : Option Netaddr)

/-- look up a node, do nothing if there is none -/
def withNode (db : Db) (addr : Netaddr) (f : Nat → Node → Option Db) : Option Db :=
  match nodeGet db addr with
  | none => none
  | some none => some db
  | some (some i) =>
    match db.nodes i with
    | none => none
    | some n => f i n

/-- look up an edge, do nothing if there is none -/
def withEdge (db : Db) (src dst : Netaddr) (f : Nat → Option Db) : Option Db :=
  withNode db src fun _ n =>
    match find db.edgeKey n.edges dst with
    | none => none
    | some none => some db
    | some (some e) => f e

/-- one operation -/
def step (db : Db) : Op → Option Db
  | .nodeAdd addr vtime ansn ok => (Tc.nodeAdd db addr vtime ansn ok).map (·.1)
  | .timeout addr => withNode db addr fun i _ => Tc.timeout db i
  | .nodeRemove addr => withNode db addr fun i _ => Tc.nodeRemove DEPTH db i
  | .edgeAdd src dst ok okn => withNode db src fun i _ => (Tc.edgeAdd db i dst ok okn).map (·.1)
  | .edgeSet src dst cost ansn => withEdge db src dst fun e =>
      match db.edges e with
      | none => none
      | some ed => some (db.setEdge e { ed with cost := cost, ansn := ansn })
  | .edgeRemove src dst => withEdge db src dst (Tc.edgeRemove db)
  | .endpointAdd node key mesh ok oke => withNode db node fun i _ => (Tc.endpointAdd db i key mesh ok oke).map (·.1)
  | .endpointRemove node key => withNode db node fun _ n =>
      match find db.attKey n.atts key with
      | none => none
      | some none => some db
      | some (some a) => Tc.endpointRemove db a
  | .neighborChange old orig ok => Tc.neighborChange db old orig ok
  | .neighborRemove orig => Tc.neighborRemove db orig

/-- a history -/
def run (db : Db) (ops : List Op) : Option Db := ops.foldlM step db

end Verif.Tc
