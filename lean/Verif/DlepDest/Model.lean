/-
Destinations of a DLEP radio: src/generic/dlep/ext_base_proto/proto_radio.c, src/generic/dlep/dlep_session.c (local neighbors), src/generic/dlep/radio/dlep_radio_session.c.

One radio interface with its layer2 network is modelled; `dlep_radio_get_by_layer2_if` finds it. Memory is not exhausted. Messages are their types and the destination; writing them (C139, C140) only
fails where an extension returns an error: `dlep_extension_radio_write_destination` without layer2 neighbor. The messages that are read (C136-C138) are handed over as their destination and status.
-/
namespace Verif.DlepDest

/-- `struct oonf_layer2_neigh_key`: MAC address and link id -/
structure Key where
  mac : Nat
  lid : List Nat
deriving DecidableEq, Repr

/-- `enum dlep_neighbor_state`, dlep_session.h:183-199 -/
inductive NState where
  | idle | upSent | upAcked | downSent | downAcked
deriving DecidableEq, Repr

/-- `struct dlep_local_neighbor`, dlep_session.h:204-235: `neigh` is `neigh_key` (zeroed by the allocation), `timer` tells whether `_ack_timeout` runs -/
structure Local where
  state : NState := .idle
  changed : Bool := false
  neigh : Key := ⟨0, []⟩
  timer : Bool := false
deriving DecidableEq, Repr

/-- `send_neighbors`, `send_proxied` and `lid_length` of `struct dlep_session_config` -/
structure Cfg where
  neighbors : Bool
  proxied : Bool
  lidLen : Nat
deriving DecidableEq, Repr

/-- messages of the radio -/
inductive Msg where
  | initAck
  | sessionUpdate
  | up (k : Key)
  | down (k : Key)
  | update (k : Key)
deriving DecidableEq, Repr

/-- a session: `ready` is `restrict_signal == DLEP_ALL_SIGNALS`, otherwise the radio waits for the initialization; the tree of local neighbors; the messages written so far -/
structure Sess where
  cfg : Cfg
  ready : Bool := false
  locals : Key → Option Local := fun _ => none
  out : List Msg := []

/-- entries of the layer2 network: `(n, none)` is the neighbor `n`, `(n, some d)` its proxied destination `d`. The order of the tree is the order of the list. -/
abbrev Db := List (Key × Option Nat)

/-- key of a proxied destination: link id of the neighbor, address of the destination, proto_radio.c:311-314, 687-689, 715-716 -/
def dstKey (n : Key) (d : Nat) : Key := ⟨d, n.lid⟩

/-- key of an entry in the sessions -/
def ekey (e : Key × Option Nat) : Key :=
  match e.2 with
  | none => e.1
  | some d => dstKey e.1 d

/-- `oonf_layer2_neigh_get_lid` -/
def hasNeigh (db : Db) (k : Key) : Bool := db.contains (k, none)

def Sess.set (s : Sess) (k : Key) (l : Option Local) : Sess :=
  { s with locals := fun j => if j = k then l else s.locals j }

/-- `dlep_session_generate_signal` for a destination, dlep_session.c:571-635: DESTINATION_UP and DESTINATION_UPDATE contain the metrics of the layer2 neighbor (ext_base_metric/metric.c:124-141), which is
looked up with `neigh_key` (dlep_session.c:505-535, dlep_extension.c:382-405); if there is none the message is dropped. DESTINATION_DOWN contains the address only (proto_radio.c:133-136). -/
def gen (db : Db) (s : Sess) (m : Msg) : Sess :=
  match m with
  | .up k | .update k =>
    match s.locals k with
    | some l => if hasNeigh db l.neigh then { s with out := s.out ++ [m] } else s
    | none => s
  | _ => { s with out := s.out ++ [m] }

/-- `dlep_session_add_local_neighbor`, dlep_session.c:455-484 -/
def addLocal (s : Sess) (k : Key) : Option Local :=
  match s.locals k with
  | some l => some l
  | none => if k.lid.length ≠ 0 ∧ k.lid.length ≠ s.cfg.lidLen then none else some {}

/-- `_l2_neigh_added_to_session`, proto_radio.c:507-519 -/
def addedTo (db : Db) (s : Sess) (n k : Key) : Sess :=
  match addLocal s k with
  | none => s
  | some l =>
    let l := { l with neigh := n }
    let s := gen db (s.set k (some l)) (.up k)
    s.set k (some { l with state := .upSent, timer := true })

/-- the test for `send_proxied` and `send_neighbors`, proto_radio.c:539-544, 568-573, 622-627; `dst` tells whether `l2dest` is not NULL -/
def skipped (c : Cfg) (dst : Bool) : Bool :=
  (dst && !c.proxied) || (!dst && !c.neighbors)

/-- a session in `_l2_neigh_added`, proto_radio.c:538-546 -/
def added (db : Db) (dst : Bool) (n k : Key) (s : Sess) : Sess :=
  if skipped s.cfg dst then s else addedTo db s n k

/-- a session in `_l2_neigh_changed`, proto_radio.c:567-600 -/
def changed (db : Db) (dst : Bool) (k : Key) (s : Sess) : Sess :=
  if skipped s.cfg dst then s
  else
    match addLocal s k with
    | none => s
    | some l =>
      let l := { l with neigh := k }
      match l.state with
      | .upSent => s.set k (some { l with changed := true })
      | .upAcked => (gen db (s.set k (some l)) (.update k)).set k (some { l with changed := false })
      | _ => (gen db (s.set k (some l)) (.up k)).set k (some { l with state := .upSent, changed := false, timer := true })

/-- a session in `_l2_neigh_removed`, proto_radio.c:621-641 -/
def removed (db : Db) (dst : Bool) (k : Key) (s : Sess) : Sess :=
  if skipped s.cfg dst then s
  else
    match s.locals k with
    | none => s
    | some l => (gen db s (.down k)).set k (some { l with state := .downSent, timer := true })

/-- `_radio_process_destination_up_ack`, proto_radio.c:370-391, with the destination and `status == DLEP_STATUS_OKAY`; `none`: access through the NULL pointer -/
def upAck (db : Db) (s : Sess) (k : Key) (okay : Bool) : Option Sess :=
  if okay then
    match s.locals k with
    | none => none
    | some l =>
      if l.state = .upSent then
        let l := { l with state := .upAcked, timer := false }
        if l.changed then some ((gen db (s.set k (some l)) (.update k)).set k (some { l with changed := false }))
        else some (s.set k (some l))
      else some s
  else some s

/-- `_radio_process_destination_down_ack`, proto_radio.c:400-415 -/
def downAck (s : Sess) (k : Key) (okay : Bool) : Option Sess :=
  if okay then
    match s.locals k with
    | none => none
    | some l => if l.state = .downSent then some (s.set k none) else some s
  else some s

/-- the timer of a local neighbor fires: dlep_session.c:843-850, proto_radio.c:740-742. A timer that does not run does not fire. -/
def timeout (s : Sess) (k : Key) : Sess :=
  match s.locals k with
  | some l => if l.timer then s.set k none else s
  | none => s

/-- the tests for the two kinds of entries at the initialization, proto_radio.c:304, 310 -/
def selected (c : Cfg) (e : Key × Option Nat) : Bool :=
  match e.2 with
  | none => c.neighbors
  | some _ => c.proxied

/-- the loop of `_radio_process_session_init`, proto_radio.c:303-319 -/
def announce (db : Db) : Db → Sess → Sess
  | [], s => s
  | e :: l, s => announce db l (if selected s.cfg e then addedTo db s e.1 (ekey e) else s)

/-- `_radio_process_session_init`, proto_radio.c:252-324, for a valid message; the negotiation of extensions is C142 -/
def sessionInit (db : Db) (s : Sess) : Sess :=
  if s.ready then s
  else { announce db db { s with out := s.out ++ [.initAck] } with ready := true }

/-- the radio: database, sessions of the interface, whether the three listeners are registered, and the timers of local neighbors whose session is gone -/
structure Radio where
  db : Db := []
  sessions : List Sess := []
  listening : Bool := true
  orphans : Nat := 0

/-- a callback of a listener for all sessions -/
def Radio.notify (r : Radio) (f : Sess → Sess) : Radio :=
  if r.listening then { r with sessions := r.sessions.map f } else r

/-- `oonf_layer2_neigh_add_lid`, oonf_layer2.c:823-857, and `_cb_l2_neigh_added`, proto_radio.c:669-673 -/
def neighAdd (r : Radio) (n : Key) : Radio :=
  if hasNeigh r.db n then r
  else
    let r := { r with db := r.db ++ [(n, none)] }
    r.notify (added r.db false n n)

/-- destinations of a neighbor -/
def dests (db : Db) (n : Key) : List Nat :=
  db.filterMap fun e => if e.1 = n then e.2 else none

/-- `_cb_l2_neigh_changed`, proto_radio.c:680-693 -/
def neighChange (r : Radio) (n : Key) : Radio :=
  if hasNeigh r.db n then
    (dests r.db n).foldl (fun r d => r.notify (changed r.db true (dstKey n d))) (r.notify (changed r.db false n))
  else r

/-- `oonf_layer2_destination_add`, oonf_layer2.c:1089-1115, and `_cb_l2_dst_added`, proto_radio.c:711-718, which calls `_l2_neigh_added` with `l2dest` NULL -/
def dstAdd (r : Radio) (n : Key) (d : Nat) : Radio :=
  if hasNeigh r.db n && !r.db.contains (n, some d) then
    let r := { r with db := r.db ++ [(n, some d)] }
    r.notify (added r.db false n (dstKey n d))
  else r

/-- `oonf_layer2_destination_remove`, oonf_layer2.c:1123-1131, and `_cb_l2_dst_removed`, proto_radio.c:725-732, which calls `_l2_neigh_removed` with `l2dest` NULL -/
def dstRemove (r : Radio) (n : Key) (d : Nat) : Radio :=
  if r.db.contains (n, some d) then
    let r := r.notify (removed r.db false (dstKey n d))
    { r with db := r.db.filter fun e => e != (n, some d) }
  else r

/-- `_neigh_remove`, oonf_layer2.c:1520-1541, and `_cb_l2_neigh_removed`, proto_radio.c:700-704 -/
def neighRemove (r : Radio) (n : Key) : Radio :=
  if hasNeigh r.db n then
    let r := (dests r.db n).foldl (fun r d => dstRemove r n d) r
    let r := r.notify (removed r.db false n)
    { r with db := r.db.filter fun e => e != (n, none) }
  else r

/-- `_cb_l2_net_changed`, proto_radio.c:645-662 -/
def netChange (r : Radio) : Radio :=
  r.notify fun s => if s.ready then { s with out := s.out ++ [.sessionUpdate] } else s

/-- `_cb_incoming_tcp`, radio/dlep_radio_session.c:118-157 -/
def accept (r : Radio) (c : Cfg) : Radio :=
  { r with sessions := r.sessions ++ [{ cfg := c }] }

/-- one session handles a message or a timer -/
def Radio.on (r : Radio) (i : Nat) (f : Sess → Sess) : Radio :=
  { r with sessions := r.sessions.modify i f }

/-- running timers of the destinations `ks` in a session -/
def timers (s : Sess) (ks : List Key) : Nat :=
  (ks.filter fun k => match s.locals k with | some l => l.timer | none => false).length

/-- `_cb_tcp_lost`, radio/dlep_radio_session.c:164-186, with `_cb_cleanup_radio` (proto_radio.c:219-225) and `dlep_session_remove` (dlep_session.c:182-209): the listeners are removed, the local neighbors
are neither freed nor are their timers stopped; `ks` are the keys of the local neighbors -/
def lost (r : Radio) (i : Nat) (ks : List Key) : Radio :=
  match r.sessions[i]? with
  | none => r
  | some s => { r with sessions := r.sessions.eraseIdx i, listening := false, orphans := r.orphans + timers s ks }

/-- events of the radio: changes of the layer2 database, sessions and their messages and timers -/
inductive Ev where
  | neighAdd (n : Key)
  | neighChange (n : Key)
  | neighRemove (n : Key)
  | dstAdd (n : Key) (d : Nat)
  | dstRemove (n : Key) (d : Nat)
  | netChange
  | accept (c : Cfg)
  | init (i : Nat)
  | upAck (i : Nat) (k : Key) (okay : Bool)
  | downAck (i : Nat) (k : Key) (okay : Bool)
  | timeout (i : Nat) (k : Key)
  | lost (i : Nat) (ks : List Key)
deriving DecidableEq, Repr

/-- one event; `none`: the program crashes -/
def step (r : Radio) : Ev → Option Radio
  | .neighAdd n => some (neighAdd r n)
  | .neighChange n => some (neighChange r n)
  | .neighRemove n => some (neighRemove r n)
  | .dstAdd n d => some (dstAdd r n d)
  | .dstRemove n d => some (dstRemove r n d)
  | .netChange => some (netChange r)
  | .accept c => some (accept r c)
  | .init i => some (r.on i (sessionInit r.db))
  | .upAck i k okay =>
    match r.sessions[i]? with
    | none => some r
    | some s => (upAck r.db s k okay).map fun s' => r.on i fun _ => s'
  | .downAck i k okay =>
    match r.sessions[i]? with
    | none => some r
    | some s => (downAck s k okay).map fun s' => r.on i fun _ => s'
  | .timeout i k => some (r.on i fun s => timeout s k)
  | .lost i ks => some (lost r i ks)

def run (r : Radio) : List Ev → Option Radio
  | [] => some r
  | e :: l => (step r e).bind fun r => run r l

end Verif.DlepDest
