/-!
# When routes are recalculated

Model of the part of `src/olsrv2/olsrv2/olsrv2_routing.c` that decides when the shortest paths of a domain are recalculated and when the
answer set number (ANSN) of this router changes: the flags `_domain_changed`, `_update_ansn`, `_trigger_dijkstra`, `_freeze_routes`,
`_initiate_shutdown` and the timer `_rate_limit_timer`.  What a recalculation does is the subject of C40-C42 and C54.
-/

namespace Verif.RtSched

/-- What can be observed, in the order it happened. -/
inductive Ev where
  /-- somebody reported that domain `d` changed -/
  | changed (d : Nat)
  /-- the announced topology of this router changed (`autoupdate_ansn` or an event of NHDP) -/
  | announce
  /-- paths of the domains `ds` were recalculated at time `t`; `forced`: by `olsrv2_routing_force_update(true)` -/
  | ran (t : Nat) (forced : Bool) (ds : List Nat)
  /-- the kernel routes of domain `d` were removed because its parameters changed -/
  | flushed (d : Nat)
  /-- a TC message with this ANSN was sent -/
  | tc (ansn : Nat)
deriving DecidableEq, Repr

/-- State: time in milliseconds, clock of `_rate_limit_timer` (`none`: not running), the flags and the ANSN (16 bit); `log` is not part of
the program. -/
structure St where
  now : Nat := 0
  due : Option Nat := none
  trigger : Bool := false
  changed : Nat → Bool := fun _ => false
  upd : Bool := false
  ansn : Nat := 0
  frozen : Bool := false
  shutdown : Bool := false
  log : List Ev := []

/-- Clock of a timer started at `now`, `_calc_clock` without jitter, oonf_timer.c:336-359: the next multiple of `OONF_TIMER_SLICE`
(100 ms). -/
def clock (now first : Nat) : Nat := (now + first + 100) / 100 * 100

/-- `OLSRv2_DIJKSTRA_RATE_LIMITATION`, olsrv2_routing.h:63 -/
def rate : Nat := 1000

/-- `olsrv2_routing_trigger_update`, olsrv2_routing.c:240-249 -/
def trigger (s : St) : St :=
  { s with trigger := true, due := match s.due with
      | none => some (clock s.now 1)
      | some x => some x }

/-- `olsrv2_routing_domain_changed` for one domain, olsrv2_routing.c:286-291 -/
def mark (s : St) (d : Nat) : St :=
  trigger { s with changed := fun x => if x = d then true else s.changed x, log := s.log ++ [.changed d] }

/-- The flag `_update_ansn` is set. -/
def announce (s : St) : St := { s with upd := true, log := s.log ++ [.announce] }

/-- `olsrv2_routing_domain_changed`, olsrv2_routing.c:283-296 (`none`: all domains). -/
def domainChanged (doms : List Nat) (s : St) (d : Option Nat) (ansn : Bool) : St :=
  let s := if ansn then announce s else s
  match d with
  | some d => mark s d
  | none => doms.foldl mark s

/-- `_cb_mpr_update` and `_cb_metric_update`, olsrv2_routing.c:455-489, for one domain -/
def nhdpEvent1 (s : St) (d : Nat) : St := mark (announce s) d

/-- `_cb_mpr_update` and `_cb_metric_update`, olsrv2_routing.c:455-489 -/
def nhdpEvent (doms : List Nat) (s : St) : Option Nat → St
  | some d => nhdpEvent1 s d
  | none => doms.foldl nhdpEvent1 s

/-- `olsrv2_routing_force_update` from the update of the ANSN on, olsrv2_routing.c:324-376: all changed domains are recalculated, the timer
is started. -/
def recalculate (doms : List Nat) (s : St) (forced : Bool) : St :=
  { s with
    ansn := if s.upd then (s.ansn + 1) % 65536 else s.ansn
    upd := false
    changed := fun d => if d ∈ doms then false else s.changed d
    due := some (clock s.now rate)
    log := s.log ++ [.ran s.now forced (doms.filter s.changed)] }

/-- `olsrv2_routing_force_update`, olsrv2_routing.c:302-376 -/
def force (doms : List Nat) (s : St) (skip : Bool) : St :=
  if s.shutdown || s.frozen then s
  else if s.due ≠ none ∧ skip = false then { s with trigger := true }
  else recalculate doms s skip

/-- `_cb_trigger_dijkstra`, olsrv2_routing.c:1140-1146; a timer that fires is not running any more (oonf_timer.c:272-275). -/
def fire (doms : List Nat) (s : St) : St :=
  let s := { s with due := none }
  if s.trigger then force doms { s with trigger := false } false else s

/-- The main loop is entered at time `t` and calls `oonf_timer_walk`. -/
def walk (doms : List Nat) (s : St) (t : Nat) : St :=
  let s := { s with now := max s.now t }
  match s.due with
  | none => s
  | some x => if x ≤ s.now then fire doms s else s

/-- `olsrv2_routing_freeze_routes`, olsrv2_routing.c:256-267 -/
def freeze (s : St) (b : Bool) : St :=
  if s.frozen = b then s
  else
    let s := { s with frozen := b }
    if b then s else trigger s

/-- `olsrv2_routing_set_domain_parameter`, olsrv2_routing.c:394-430; `same`: the parameters are the old ones, `routes`: there are routes in
this domain. -/
def setParameter (s : St) (d : Nat) (same routes : Bool) : St :=
  if same then s
  else if routes = false then s
  else { s with due := some (clock s.now 100), trigger := true, log := s.log ++ [.flushed d] }

/-- Calls of the interface and what happens outside. -/
inductive Op where
  | domainChanged (d : Option Nat) (ansn : Bool)
  | nhdp (d : Option Nat)
  | trigger
  | force (skip : Bool)
  | walk (t : Nat)
  | freeze (b : Bool)
  | parameter (d : Nat) (same routes : Bool)
  /-- `olsrv2_routing_force_ansn_increment`, olsrv2_routing.c:231-234 -/
  | increment (k : Nat)
  /-- flags of `olsrv2_routing_initiate_shutdown`, olsrv2_routing.c:170-172 -/
  | shutdown
  /-- a TC is generated, `_cb_finishMessageTLVs`, olsrv2_writer.c:531-541 -/
  | tc
deriving DecidableEq, Repr

def step (doms : List Nat) (s : St) : Op → St
  | .domainChanged d a => domainChanged doms s d a
  | .nhdp d => nhdpEvent doms s d
  | .trigger => trigger s
  | .force skip => force doms s skip
  | .walk t => walk doms s t
  | .freeze b => freeze s b
  | .parameter d same routes => setParameter s d same routes
  | .increment k => { s with ansn := (s.ansn + k) % 65536 }
  | .shutdown => { s with shutdown := true, frozen := false }
  | .tc => { s with log := s.log ++ [.tc s.ansn] }

def run (doms : List Nat) : St → List Op → St
  | s, [] => s
  | s, op :: l => run doms (step doms s op) l

end Verif.RtSched
