/-! # Import of kernel routes into the layer2 database

Model of `src/generic/layer2_import/layer2_import.c`. Interfaces, addresses, gateways (one of them is "unspecified") and the names of the sections
are numbers; two names that differ only in case or behind the 15th character are the same number. Allocation succeeds. -/

namespace Verif.L2Import

/-- the interface of a route: none, one whose name the system does not know any more (`if_indextoname` fails), or its name -/
inductive Iface
  | unset
  | gone
  | name (n : Nat)
  deriving DecidableEq

/-- the parts of `struct os_route` that are used; `special` is multicast, linklocal or loopback -/
structure Route where
  dst : Nat
  special : Bool := false
  type : Nat := 1
  plen : Nat := 32
  table : Nat := 254
  protocol : Nat := 3
  metric : Nat := 0
  iface : Iface
  gw : Nat
  deriving DecidableEq

/-- `struct _import_entry`, layer2_import.c:72-111: `none` for -1 or an empty name. `macIf` is `fixed_mac_if` after `_cb_cfg_changed` (640-642: the
interface of the filter if it was empty). -/
structure Imp where
  name : Nat
  type : Nat := 1
  plen : Option Nat := none
  accept : Nat → Bool := fun _ => true
  table : Option Nat := none
  protocol : Option Nat := none
  metric : Option Nat := none
  ifname : Option Nat := none
  l2if : Option Nat := none
  macIf : Option Nat := none

/-- a remote address in a layer2 network: the origin is the import; the gateway is the next hop of its neighbor. Each has a neighbor of its own, with
a fresh link id (C75). -/
structure Adr where
  net : Nat
  dst : Nat
  origin : Nat
  gw : Nat
  deriving DecidableEq

/-- the layer2 database: networks, addresses (those with the same key in the order of the tree), the number of neighbors without any data, and the
timer that reloads the routes -/
structure Db where
  nets : List Nat := []
  adrs : List Adr := []
  stale : Nat := 0
  timer : Bool := false
  deriving DecidableEq

def same (net dst : Nat) (a : Adr) : Bool := a.net = net ∧ a.dst = dst

/-- `_remove_old_entries`, layer2_import.c:330-358: the addresses left, is there one with the same gateway, how many were removed. The first one of
the list loses its place as leader to its follower, if it is removed; the loop ends then. -/
def removeOld (o net dst gw : Nat) (l : List Adr) : List Adr × Bool × Nat :=
  match l.filter (same net dst) with
  | [] => (l, false, 0)
  | x :: rest =>
    if x.origin = o ∧ x.gw ≠ gw then (l.eraseP (same net dst), false, 1)
    else (l.filter (fun a => !(same net dst a && a.origin == o && a.gw != gw)), (x :: rest).any (fun a => a.origin == o && a.gw == gw),
      (rest.filter (fun a => a.origin == o && a.gw != gw)).length)

/-- removal of the address found by `_remove_old_entries`: the last one -/
def removeLast (o net dst gw : Nat) (l : List Adr) : List Adr := (l.reverse.eraseP (fun a => same net dst a && a.origin == o && a.gw == gw)).reverse

/-- result of the loop body for one import: undefined (use of `ifname` without a value), return or continue -/
inductive R
  | undef
  | ret (db : Db)
  | cont (db : Db)

/-- the numbers of a filter, layer2_import.c:409-437 -/
def numbers (i : Imp) (set : Bool) (r : Route) : Bool :=
  (i.plen = none ∨ i.plen = some r.plen) ∧ i.accept r.dst = true ∧ (i.table = none ∨ i.table = some r.table) ∧
  (set = false ∨ i.protocol = none ∨ i.protocol = some r.protocol) ∧ (i.metric = none ∨ i.metric = some r.metric)

/-- layer2_import.c:440-449: `none` is the comparison with a name without value -/
def ifMatch (i : Imp) (r : Route) : Option Bool :=
  match i.ifname with
  | none => some true
  | some n => match r.iface with
    | .unset => some false
    | .gone => none
    | .name m => some (m == n)

/-- layer2_import.c:452-457 -/
def l2name (i : Imp) (r : Route) : Option Nat :=
  match i.l2if with
  | some n => some n
  | none => match r.iface with
    | .name m => some m
    | _ => none

/-- layer2_import.c:493-524 -/
def store (i : Imp) (set : Bool) (r : Route) (net : Nat) (db : Db) : Db :=
  let x := removeOld i.name net r.dst r.gw db.adrs
  if set && !x.2.1 then { db with adrs := x.1 ++ [⟨net, r.dst, i.name, r.gw⟩], stale := db.stale + x.2.2 }
  else if !set && x.2.1 then { db with adrs := removeLast i.name net r.dst r.gw x.1, stale := db.stale + x.2.2 }
  else { db with adrs := x.1, stale := db.stale + x.2.2 }

/-- `oonf_layer2_net_add` -/
def netAdd (db : Db) (n : Nat) : Db := if n ∈ db.nets then db else { db with nets := n :: db.nets }

/-- the loop body, layer2_import.c:400-525; `ready n`: the hardware address of interface `n` is known -/
def one (ready : Nat → Bool) (i : Imp) (set : Bool) (r : Route) (db : Db) : R :=
  if i.type ≠ r.type then .ret db
  else if numbers i set r = false then .cont db
  else match ifMatch i r with
  | none => .undef
  | some false => .cont db
  | some true => match l2name i r with
    | none => .undef
    | some net =>
      if set = false ∧ net ∉ db.nets then .ret db
      else
        let db := if set then netAdd db net else db
        if ready (i.macIf.getD net) then .cont (store i set r net db)
        else .ret { db with timer := true }

/-- the loop over all imports -/
def loop (ready : Nat → Bool) (set : Bool) (r : Route) : List Imp → Db → Option Db
  | [], db => some db
  | i :: is, db => match one ready i set r db with
    | .undef => none
    | .ret db => some db
    | .cont db => loop ready set r is db

/-- `_cb_rt_event`, layer2_import.c:366-526 -/
def event (ready : Nat → Bool) (is : List Imp) (db : Db) (e : Bool × Route) : Option Db :=
  if e.2.special then some db else loop ready e.1 e.2 is db

/-- a history of events -/
def events (ready : Nat → Bool) (is : List Imp) : Db → List (Bool × Route) → Option Db
  | db, [] => some db
  | db, e :: es => match event ready is db e with
    | none => none
    | some db => events ready is db es

/-- the plugin: imports in the order of their names, and the names of those whose listener is registered for an interface -/
structure World where
  imps : List Imp := []
  listeners : List Nat := []
  db : Db := {}

def insertImp (i : Imp) : List Imp → List Imp
  | [] => [i]
  | j :: js => if i.name < j.name then i :: j :: js else j :: insertImp i js

/-- `_cb_cfg_changed`, layer2_import.c:615-651, and `_remove_import`, 570-576: a section is removed (`none`) or has new content.
`oonf_layer2_origin_remove` removes the data of the origin (C69). -/
def configure (w : World) (name : Nat) (post : Option Imp) : World :=
  match post with
  | none => { w with imps := w.imps.filter (fun j => j.name ≠ name), db := { w.db with adrs := w.db.adrs.filter (fun a => a.origin ≠ name) } }
  | some i =>
    { imps := insertImp { i with name := name } (w.imps.filter fun j => j.name ≠ name)
      listeners := (w.listeners.filter fun n => n ≠ name) ++ (if i.macIf = none then [] else [name])
      db := { w.db with timer := true } }

end Verif.L2Import
