import Verif.DlepDest.Model

/-
Destinations at the DLEP router: src/generic/dlep/ext_base_proto/proto_router.c, with the parts of src/base/oonf_layer2.c they use.
-/
namespace Verif.DlepDest

/-- a neighbor of the layer2 network of the router: whether it holds data of the session (`l2_origin`), and data of others -/
structure Entry where
  own : Bool
  other : Bool
deriving DecidableEq, Repr

/-- the session of the router: neighbors of the layer2 network, whether the initialization was acknowledged, whether the session runs, acknowledgements sent -/
structure Router where
  db : Key → Option Entry := fun _ => none
  ready : Bool := false
  alive : Bool := true
  acks : List Msg := []

def Router.put (r : Router) (k : Key) (e : Option Entry) : Router :=
  { r with db := fun j => if j = k then e else r.db j }

/-- `oonf_layer2_neigh_remove` for the origin of the session, oonf_layer2.c:888-947: if no data of the session was there nothing happens, otherwise the neighbor goes if nothing is left -/
def strip (e : Entry) : Option Entry :=
  if e.own then (if e.other then some { e with own := false } else none) else some e

/-- end of the session: `_cb_cleanup_router`, proto_router.c:209-224, `oonf_layer2_net_remove`, oonf_layer2.c:580-603 -/
def Router.stop (r : Router) : Router :=
  { r with alive := false, db := fun k => (r.db k).bind strip }

/-- a message of the radio in an established session; `stored` tells whether its metrics put data of the session into the neighbor (it carries a metric, and no source with a higher priority holds all of
them): `_router_process_session_init_ack` proto_router.c:352-358, `_session_update` 416-438, `_destination_up` 457-505, `_destination_down` 529-558, `_destination_update` 580-611 -/
def Router.handle (r : Router) (m : Msg) (stored : Bool) : Router :=
  match m with
  | .initAck => r
  | .sessionUpdate => r
  | .up k =>
    let e := (r.db k).getD ⟨false, false⟩
    { r.put k (some { e with own := e.own || stored }) with acks := r.acks ++ [m] }
  | .down k =>
    match r.db k with
    | none => r.stop
    | some e => { r.put k (strip e) with acks := r.acks ++ [m] }
  | .update k =>
    match r.db k with
    | none => r
    | some e => r.put k (some { e with own := e.own || stored })

/-- a message of the radio: before the acknowledgement of the initialization (proto_router.c:352-408) every other message ends the session (C138) -/
def Router.read (r : Router) (m : Msg) (stored : Bool) : Router :=
  if r.alive = false then r
  else if r.ready then r.handle m stored
  else if m = .initAck then { r with ready := true }
  else r.stop

/-- messages in their order -/
def Router.readAll (r : Router) : List (Msg × Bool) → Router
  | [] => r
  | (m, b) :: l => (r.read m b).readAll l

end Verif.DlepDest
