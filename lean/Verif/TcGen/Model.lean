/-
When TC messages are generated: /repo/src/olsrv2/olsrv2/olsrv2.c:343-360, 527-577, 696-710, olsrv2_writer.c:158-212.
-/
namespace Verif.TcGen

/-- The variables which decide about the generation of TCs, olsrv2.c:99-114, 227, 238, 251-255, olsrv2_writer.c:124.
`timer` is the period of `_tc_timer`, `none` when it is not active. `_generate_tcs` is never assigned and stays true.
Before the first configuration all static variables are 0. Times are in milliseconds. -/
structure State where
  timer : Option Nat := none
  overInterval : Nat := 0
  overValidity : Nat := 0
  cfgInterval : Nat := 0
  cfgValidity : Nat := 0
  factor : Nat := 0
  count : Nat := 0
  closed : Bool := false
deriving DecidableEq, Repr

/-- A TC handed to the writer: family of its addresses, announced interval and validity
(olsrv2_writer.c:261-262, before the encoding as time TLV). -/
structure Msg where
  v6 : Bool
  interval : Nat
  validity : Nat
deriving DecidableEq, Repr

/-- `olsrv2_get_tc_interval`, olsrv2.c:343-348. -/
def getInterval (s : State) : Nat := if s.overInterval != 0 then s.overInterval else s.cfgInterval

/-- `olsrv2_get_tc_validity`, olsrv2.c:354-359. -/
def getValidity (s : State) : Nat := if s.overValidity != 0 then s.overValidity else s.cfgValidity

/-- `oonf_timer_set`, oonf_timer.c:230-239, oonf_timer.h: time 0 stops the timer, everything else starts it again. -/
def timerSet (i : Nat) : Option Nat := if i = 0 then none else some i

/-- `olsrv2_generate_tcs`, olsrv2.c:527-540. -/
def generate (s : State) (on : Bool) : State :=
  if on && s.timer.isNone then { s with timer := timerSet (getInterval s) }
  else if !on && s.timer.isSome then { s with timer := none }
  else s

/-- `olsrv2_set_tc_interval`, olsrv2.c:542-549, with the returned value. -/
def setInterval (s : State) (i : Nat) : State × Nat := ({ s with overInterval := i }, s.overInterval)

/-- `olsrv2_set_tc_validity`, olsrv2.c:551-558, with the returned value. -/
def setValidity (s : State) (v : Nat) : State × Nat := ({ s with overValidity := v }, s.overValidity)

/-- `_cb_cfg_olsrv2_changed`, olsrv2.c:696-710, without the originators. `ok` is whether `cfg_schema_tobin`
succeeds; when it does not, it may already have written values, so arbitrary values are written in both cases. -/
def config (s : State) (ok : Bool) (interval validity factor : Nat) : State :=
  let s := { s with cfgInterval := interval, cfgValidity := validity, factor := factor }
  if !ok then s
  else if s.overInterval == 0 then { s with timer := timerSet s.cfgInterval } else s

/-- `olsrv2_writer_send_tc`, `_send_tc`, olsrv2_writer.c:173-181, 204-212: one message for each family with an
originator (`v4`, `v6`). What the writer makes of it is elsewhere. -/
def sendTc (s : State) (v4 v6 : Bool) : List Msg :=
  if s.closed then []
  else
    (if v4 then [⟨false, getInterval s, getValidity s⟩] else []) ++
      (if v6 then [⟨true, getInterval s, getValidity s⟩] else [])

/-- `_cb_generate_tc`, olsrv2.c:565-576: `mpr` is `nhdp_domain_node_is_mpr()`, `lans` whether the tree of attached
networks is not empty. The counter has 64 bits. -/
def fire (s : State) (mpr lans v4 v6 : Bool) : State × List Msg :=
  let s := { s with count := if mpr || lans then 0 else (s.count + 1) % 2 ^ 64 }
  (s, if s.count ≤ s.factor then sendTc s v4 v6 else [])

/-- What can happen. -/
inductive Event where
  | generate (on : Bool)
  | setInterval (i : Nat)
  | setValidity (v : Nat)
  | config (ok : Bool) (interval validity factor : Nat)
  | fire (mpr lans v4 v6 : Bool)
  | shutdown
deriving DecidableEq, Repr

/-- One event. The timer fires only while it is active and is periodic (oonf_timer.c:246-310).
`shutdown` is `olsrv2_writer_cleanup`, olsrv2_writer.c:160-167, called by `_initiate_shutdown`, olsrv2.c:311-315. -/
def step (s : State) : Event → State × List Msg
  | .generate on => (generate s on, [])
  | .setInterval i => ((setInterval s i).1, [])
  | .setValidity v => ((setValidity s v).1, [])
  | .config ok i v f => (config s ok i v f, [])
  | .fire m l v4 v6 => if s.timer.isSome then fire s m l v4 v6 else (s, [])
  | .shutdown => ({ s with closed := true }, [])

/-- A sequence of events with all messages. -/
def run (s : State) : List Event → State × List Msg
  | [] => (s, [])
  | e :: es =>
    let r := run (step s e).1 es
    (r.1, (step s e).2 ++ r.2)

end Verif.TcGen
