/-
Model of `src/nhdp/hysteresis_olsrv1/hysteresis_olsrv1.c`: the link hysteresis of RFC 3626 with exponential aging.
The timers are represented by the duration they are started with; the call of `nhdp_db_link_update_status` by a flag.
-/
namespace Verif.Metric

/-! ### C integers -/

/-- result of an operation of type `int`: `none` is the undefined overflow -/
def i32? (x : Int) : Option Int := if -2147483648 ≤ x ∧ x ≤ 2147483647 then some x else none

/-! ### Configuration -/

/-- `struct _config`, hysteresis_olsrv1.c:68-77 -/
structure HCfg where
  accept : Int
  reject : Int
  scaling : Int
  deriving DecidableEq

/-- the values that the schema of the section allows, hysteresis_olsrv1.c:121-126, together with `_cb_cfg_validate`,
hysteresis_olsrv1.c:402-420 -/
def cfgValidate (c : HCfg) : Bool :=
  decide (0 ≤ c.accept) && decide (c.accept ≤ 1000) && decide (0 ≤ c.reject) && decide (c.reject ≤ 1000)
    && decide (1 ≤ c.scaling) && decide (c.scaling ≤ 1000) && !decide (c.accept ≤ c.reject)

/-- the default values, hysteresis_olsrv1.c:122-125 -/
def HCfg.default : HCfg := ⟨700, 300, 250⟩

/-! ### Links -/

/-- `struct link_hysteresis_data`, hysteresis_olsrv1.c:82-100; `timer`: duration of the last start of `interval_timer`,
`none` before the first one -/
structure HLink where
  quality : Int
  pending : Bool
  lost : Bool
  itime : Nat
  timer : Option Nat
  deriving DecidableEq

/-- `_cb_link_added`, hysteresis_olsrv1.c:249-259 -/
def HLink.init : HLink := ⟨0, true, false, 0, none⟩

/-- the new quality, hysteresis_olsrv1.c:223-228; `none`: overflow of an `int` -/
def age (c : HCfg) (q : Int) (lost : Bool) : Option Int := do
  let f ← i32? (1000 - c.scaling)
  let p ← i32? (q * f)
  let p ← i32? (p + 999)
  let q := p.tdiv 1000
  if lost then some q else i32? (q + c.scaling)

/-- the two flags, hysteresis_olsrv1.c:230-242; the last component tells if `nhdp_db_link_update_status` is called -/
def judge (c : HCfg) (q : Int) (pending lost : Bool) : Bool × Bool × Bool :=
  if !pending && !lost then
    if q < c.reject then (pending, true, true) else (pending, lost, false)
  else
    if q > c.accept then (false, false, true) else (pending, lost, false)

/-- `_update_hysteresis`, hysteresis_olsrv1.c:220-243 -/
def updateHysteresis (c : HCfg) (l : HLink) (lost : Bool) : Option (HLink × Bool) :=
  match age c l.quality lost with
  | none => none
  | some q =>
    let r := judge c q l.pending l.lost
    some ({ l with quality := q, pending := r.1, lost := r.2.1 }, r.2.2)

/-- what happens to a link; `hello`: `itime_value` and `vtime_value` of the link -/
inductive HEvent where
  | hello (itime vtime : Nat)
  | timeout
  deriving DecidableEq

/-- tells if the event is the loss of a HELLO -/
def HEvent.isLoss : HEvent → Bool
  | .hello _ _ => false
  | .timeout => true

/-- `_cb_update_hysteresis`, hysteresis_olsrv1.c:279-296, and `_cb_timer_hello_lost`, hysteresis_olsrv1.c:347-358 -/
def hstep (c : HCfg) (l : HLink) (e : HEvent) : Option (HLink × Bool) :=
  match updateHysteresis c l e.isLoss with
  | none => none
  | some (l, call) =>
    match e with
    | .hello itime vtime =>
      let it := if itime = 0 then vtime else itime
      some ({ l with itime := it, timer := some (it * 3 / 2) }, call)
    | .timeout => some ({ l with timer := some l.itime }, call)

/-- a sequence of events, each with the configuration that holds at its time -/
def hrun : HLink → List (HCfg × HEvent) → Option HLink
  | l, [] => some l
  | l, (c, e) :: es =>
    match hstep c l e with
    | none => none
    | some (l, _) => hrun l es

end Verif.Metric
