import Verif.Tc.Model

/-
Model of the TC reader (`src/olsrv2/olsrv2/olsrv2_reader.c`).

A message is modelled by what the consumers get from the RFC 5444 reader (`Verif.Reader`): the values of the TLVs after
decoding.  The keys of the endpoints (os_routing_linux.h:202-216, olsrv2_reader.c:366, 458-481) are taken as they come
out of the calculation.  Left out: forwarding (294-297), `interval_time`, `source_specific`, `ss_attached_networks`
(553-572), the flags `changed` and the class event (574).
-/
namespace Verif.Tc
open Verif.Netaddr (Netaddr)

/-- GATEWAY TLV of an address that passed the tests 453-474: key of the endpoint, and for each known domain of the MPR_TYPES
TLV the number of the domain and the distance (500-515) -/
structure Gateway where
  key : Key
  dist : List (Nat × Nat)
  /-- allocation of attachment and endpoint succeeds -/
  ok : Bool
  oke : Bool

/-- an address of a TC with its TLVs: `costIn`, `costOut` hold one decoded value per domain (358-392, infinite if there is
no TLV); `nbr`: value of the NBR_ADDR_TYPE TLV; `key`: `ssprefix` (366) -/
structure Address where
  addr : Netaddr
  key : Key
  costIn : List Nat
  costOut : List Nat
  nbr : Option UInt8
  gw : Option Gateway
  /-- allocation of the edge or attachment, of the node, of the endpoint succeeds -/
  ok : Bool
  okn : Bool
  oke : Bool

/-- a TC message.  `constraints`: the mandatory TLVs exist and all lengths fit, otherwise the reader does not call
`_cb_messagetlvs` (rfc5444_reader.c:757) but goes on with the addresses; `pre`: the tests 231-268 succeed; `process`:
`olsrv2_mpr_shall_process`; `vtime`: the validity time is not 0; `addrs`: the addresses that are presented to
`_cb_addresstlvs`; `dropped`: afterwards the message is dropped (parse error or other consumer) -/
structure Tc where
  constraints : Bool
  pre : Bool
  process : Bool
  orig : Netaddr
  complete : Bool
  ansn : UInt16
  vtime : Bool
  ok : Bool
  addrs : List Address
  dropped : Bool

/-- database and `_current` (`node`, `complete_tc`) -/
structure St where
  db : Db
  node : Option Nat
  complete : Bool

/-- `_cb_messagetlvs`, olsrv2_reader.c:213-336; the second part of the result is false if the message is dropped -/
def start (s : St) (m : Tc) : Option (St × Bool) :=
  if !m.constraints then some (s, true)
  else if !m.pre then some ({ s with node := none, complete := false }, false)
  else if !m.process then some ({ s with node := none, complete := m.complete }, false)
  else
    match nodeAdd s.db m.orig m.vtime m.ansn m.ok with
    | none => none
    | some (db, none) => some (⟨db, none, m.complete⟩, false)
    | some (db, some i) =>
      match db.nodes i with
      | none => none
      | some n =>
        if m.complete && Codec.seqnoIsSmaller m.ansn n.ansn then some (⟨db, some i, m.complete⟩, false)
        else if !m.complete && !Codec.seqnoIsLarger m.ansn n.ansn then some (⟨db, some i, m.complete⟩, false)
        else some (⟨db.setNode i { n with ansn := m.ansn, timer := m.vtime }, some i, m.complete⟩, true)

/-- metrics of an edge or attachment, olsrv2_reader.c:402-410, 411-418, 428-436 -/
def newCost (complete : Bool) (old new : List Nat) : List Nat :=
  List.zipWith (fun o c => if c ≤ METRIC_MAX then c else if complete then INFINITE else o) old new

/-- neighbor of the originator, olsrv2_reader.c:393-421 -/
def readEdge (db : Db) (complete : Bool) (i : Nat) (a : Address) : Option Db :=
  match edgeAdd db i a.addr a.ok a.okn with
  | none => none
  | some (db, none) => some db
  | some (db, some e) =>
    match db.nodes i, db.edges e with
    | some n, some ed =>
      let db := db.setEdge e { ed with ansn := n.ansn, cost := newCost complete ed.cost a.costOut }
      match db.edges ed.inv with
      | none => none
      | some inv => if inv.virt then some (db.setEdge ed.inv { inv with cost := newCost complete inv.cost a.costIn }) else some db
    | _, _ => none

/-- routable address of a neighbor, olsrv2_reader.c:422-438 -/
def readRoutable (db : Db) (complete : Bool) (i : Nat) (a : Address) : Option Db :=
  match endpointAdd db i a.key true a.ok a.oke with
  | none => none
  | some (db, none) => some db
  | some (db, some t) =>
    match db.nodes i, db.atts t with
    | some n, some at_ => some (db.setAtt t { at_ with ansn := n.ansn, cost := newCost complete at_.cost a.costOut })
    | _, _ => none

/-- metrics and distances of an attached network, olsrv2_reader.c:492-516 -/
def gwAtt (complete : Bool) (costOut : List Nat) (dist : List (Nat × Nat)) (at_ : Att) : Att :=
  let at_ := if complete then { at_ with cost := List.replicate DOMAINS INFINITE } else at_
  dist.foldl (fun at_ d => { at_ with cost := at_.cost.set d.1 (costOut.getD d.1 INFINITE), dist := at_.dist.set d.1 d.2 }) at_

/-- `_handle_gateways`, olsrv2_reader.c:448-518 -/
def readGateway (db : Db) (complete : Bool) (i : Nat) (a : Address) (g : Gateway) : Option Db :=
  match endpointAdd db i g.key false g.ok g.oke with
  | none => none
  | some (db, none) => some db
  | some (db, some t) =>
    match db.nodes i, db.atts t with
    | some n, some at_ => some (db.setAtt t (gwAtt complete a.costOut g.dist { at_ with ansn := n.ansn }))
    | _, _ => none

/-- address of a neighbor, olsrv2_reader.c:393-439 -/
def readNeighbor (db : Db) (complete : Bool) (i : Nat) (a : Address) : Option Db :=
  match a.nbr with
  | none => some db
  | some v =>
    if v &&& 1 ≠ 0 then readEdge db complete i a
    else if v &&& 2 ≠ 0 then readRoutable db complete i a
    else some db

/-- `_cb_addresstlvs`, olsrv2_reader.c:344-445 -/
def address (s : St) (a : Address) : Option St :=
  match s.node with
  | none => some s
  | some i =>
    match readNeighbor s.db s.complete i a with
    | none => none
    | some db =>
      match a.gw with
      | none => some { s with db := db }
      | some g => (readGateway db s.complete i a g).map fun db => { s with db := db }

/-- one edge, olsrv2_reader.c:540-544 -/
def sweepEdge (ansn : UInt16) (db : Db) (e : Nat) : Option Db :=
  match db.edges e with
  | none => none
  | some ed => if ed.ansn ≠ ansn then edgeRemove db e else some db

/-- one attachment, olsrv2_reader.c:546-550 -/
def sweepAtt (ansn : UInt16) (db : Db) (a : Nat) : Option Db :=
  match db.atts a with
  | none => none
  | some at_ => if at_.ansn ≠ ansn then endpointRemove db a else some db

/-- `_cb_messagetlvs_end` for a message that was not dropped, olsrv2_reader.c:527-581 -/
def finish (s : St) : Option St :=
  match s.node with
  | none => some s
  | some i =>
    match s.db.nodes i with
    | none => none
    | some n =>
      match n.edges.foldlM (sweepEdge n.ansn) s.db with
      | none => none
      | some db =>
        match db.nodes i with
        | none => none
        | some n =>
          match n.atts.foldlM (sweepAtt n.ansn) db with
          | none => none
          | some db => some { s with db := db, node := none }

/-- reception of a TC; for a dropped message `_cb_messagetlvs_end` does nothing (536-538) -/
def receive (s : St) (m : Tc) : Option St :=
  match start s m with
  | none => none
  | some (s, false) => some s
  | some (s, true) =>
    match m.addrs.foldlM address s with
    | none => none
    | some s => if m.dropped then some s else finish s

/-- what happens to the database of a router -/
inductive Event
  | tc (m : Tc)
  | timeout (addr : Netaddr)
  | neighborChange (old orig : Option Netaddr) (ok : Bool)
  | neighborRemove (orig : Option Netaddr)

/-- one event -/
def event (s : St) : Event → Option St
  | .tc m => receive s m
  | .timeout addr => (step s.db (.timeout addr)).map fun db => { s with db := db }
  | .neighborChange old orig ok => (step s.db (.neighborChange old orig ok)).map fun db => { s with db := db }
  | .neighborRemove orig => (step s.db (.neighborRemove orig)).map fun db => { s with db := db }

/-- initial state -/
def St.init : St := ⟨Db.init, none, false⟩

/-- a history -/
def events (s : St) (es : List Event) : Option St := es.foldlM event s

end Verif.Tc
