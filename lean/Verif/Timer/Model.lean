import Verif.Avl.Model
/-
Model of the timer scheduler `src/base/oonf_timer.c`.

Timers and timer classes are identified by numbers (their addresses).  The tree of running timers is
the tree model of `Verif.Avl.Model` with the due time as key: the key of a node is a pointer to the
timer and the comparator reads its field `_clock`, which changes only while the node is outside of the
tree (lines 165-188, 210-211).
The clock value `oonf_clock_getNow()` is constant during a walk (it is only set by `oonf_clock_update`,
src/base/oonf_clock.c:98-109, called by the main loop).  Random numbers are an arbitrary sequence.
A callback is an arbitrary list of timer operations depending on the timer and the complete state.
Not modelled: logging, the statistics field `_stat_long`, memory of a timer being freed by its
callback.
-/
namespace Verif.Timer
open Verif.Avl (Avl Nd Res)

/-- `OONF_TIMER_SLICE`, oonf_timer.h:61 -/
def slice : Nat := 100

/-- `struct oonf_timer_instance`, oonf_timer.h:104-123 -/
structure Timer where
  cls : Nat
  jitter : Nat
  period : Nat
  random : Nat
  clock : Nat
deriving Repr

/-- `struct oonf_timer_class`, oonf_timer.h:67-99 -/
structure Class where
  periodic : Bool
  usage : Nat
  changes : Nat
  fired : Nat
  inCallback : Option Nat
  stopped : Bool
deriving Repr

/-- timer operations a program (or a callback) can do -/
inductive Op
  | start (t first interval : Nat)
  | stop (t : Nat)
deriving DecidableEq, Repr

/-- the timer an operation applies to -/
def Op.target : Op → Nat
  | .start t _ _ => t
  | .stop t => t

/-- state of the scheduler; `nrand` counts the random numbers used.  `fired` and `ops` record the
timers fired and the operations done by callbacks, newest first (not part of the code). -/
structure W where
  timers : Nat → Timer
  classes : Nat → Class
  tree : Avl Nat
  now : Nat
  nrand : Nat
  fired : List Nat
  ops : List Op

def setTimer (w : W) (t : Nat) (x : Timer) : W := { w with timers := fun i => if i = t then x else w.timers i }
def setClass (w : W) (c : Nat) (x : Class) : W := { w with classes := fun i => if i = c then x else w.classes i }

/-- `x++` and `x--` of the 32 bit statistics fields -/
def inc32 (n : Nat) : Nat := (n + 1) % 2 ^ 32
def dec32 (n : Nat) : Nat := (n + 2 ^ 32 - 1) % 2 ^ 32

/-- `_avlcomp_timer`, oonf_timer.c:368-382 -/
def comp (a b : Nat) : Int := if a > b then 1 else if a < b then -1 else 0

/-- `_calc_clock`, oonf_timer.c:337-359 with `oonf_clock_get_absolute`, oonf_clock.h:215-218 -/
def calcClock (now jitter random rel : Nat) : Nat :=
  let rel :=
    if jitter ≠ 0 then
      let rj := random / ((2 ^ 32 - 1) / jitter)
      let t := (rj * rel % 2 ^ 64) / 100
      (rel + 2 ^ 64 - t) % 2 ^ 64
    else rel
  let c := (now + rel) % 2 ^ 64
  let c := (c + slice) % 2 ^ 64
  c - c % slice

/-- a random number: `os_core_get_random` (0 if it fails, lines 177-180 and 290-293) -/
def getRandom (rnd : Nat → Option Nat) (w : W) : Nat := (rnd w.nrand).getD 0 % 2 ^ 32

/-- `oonf_timer_start_ext`, oonf_timer.c:160-195; `none` is a NULL access in the tree -/
def startExt (rnd : Nat → Option Nat) (w : W) (t first interval : Nat) : Option W :=
  let tm := w.timers t
  let cl := w.classes tm.cls
  let pre :=
    if tm.clock ≠ 0 then
      match Avl.remove w.tree t with
      | .ok a => some (a, { cl with changes := inc32 cl.changes })
      | _ => none
    else some (w.tree, { cl with usage := inc32 cl.usage })
  match pre with
  | none => none
  | some (tree, cl) =>
    let random := if tm.random = 0 then getRandom rnd w else tm.random
    let nrand := if tm.random = 0 then w.nrand + 1 else w.nrand
    let clock := calcClock w.now tm.jitter random first
    match Avl.insert comp tree ⟨t, clock⟩ with
    | .ok tree =>
      some (setClass (setTimer { w with tree := tree, nrand := nrand } t
        { tm with random := random, clock := clock, period := if cl.periodic then interval else 0 }) tm.cls cl)
    | _ => none

/-- `oonf_timer_stop`, oonf_timer.c:202-218 -/
def stop (w : W) (t : Nat) : Option W :=
  let tm := w.timers t
  if tm.clock = 0 then some w
  else
    match Avl.remove w.tree t with
    | .ok tree =>
      let cl := w.classes tm.cls
      let cl := { cl with usage := dec32 cl.usage,
                          stopped := if cl.inCallback = some t then true else cl.stopped }
      some (setClass (setTimer { w with tree := tree } t { tm with clock := 0, random := 0 }) tm.cls cl)
    | _ => none

/-- `oonf_timer_set_ext`, oonf_timer.c:230-239, as the operation it leads to -/
def setExt (t first interval : Nat) : Op := if first = 0 then .stop t else .start t first interval

def doOp (rnd : Nat → Option Nat) (w : W) : Op → Option W
  | .start t first interval => startExt rnd w t first interval
  | .stop t => stop w t

/-- the operations of a callback in sequence -/
def doOps (rnd : Nat → Option Nat) : W → List Op → Option W
  | w, [] => some w
  | w, o :: os =>
    match doOp rnd w o with
    | none => none
    | some w => doOps rnd { w with ops := o :: w.ops } os

/-- outcome of (a number of) iterations of the loop: `done` loop left, `more` not yet, `crash` NULL
access -/
inductive Step | done (w : W) | more (w : W) | crash

/-- class and statistics when a timer is about to fire, oonf_timer.c:262-270 -/
def markFired (w : W) (t : Nat) : W :=
  let c := (w.timers t).cls
  let cl := w.classes c
  { setClass w c { cl with inCallback := some t, stopped := false, fired := inc32 cl.fired } with
    fired := t :: w.fired }

/-- a single shot timer is stopped before its callback, oonf_timer.c:272-275 -/
def stopSingle (w : W) (t : Nat) : Option W := if (w.timers t).period = 0 then stop w t else some w

/-- new random number of a periodic timer, oonf_timer.c:296-299 -/
def rehash (rnd : Nat → Option Nat) (w : W) (t : Nat) : W :=
  { setTimer w t { w.timers t with random := getRandom rnd w } with nrand := w.nrand + 1 }

/-- one iteration of the loop of `oonf_timer_walk`, oonf_timer.c:253-302 -/
def walkStep (rnd : Nat → Option Nat) (cb : Nat → W → List Op) (w : W) : Step :=
  match w.tree.list with
  | [] => .done w
  | e :: _ =>
    let t := e.nd.id
    if (w.timers t).clock > w.now then .done w
    else
      let c := (w.timers t).cls
      match stopSingle (markFired w t) t with
      | none => .crash
      | some w =>
        match doOps rnd w (cb t w) with
        | none => .crash
        | some w =>
          if (w.classes c).stopped then .more w
          else
            let w := rehash rnd w t
            match startExt rnd w t (w.timers t).period (w.timers t).period with
            | none => .crash
            | some w => .more w

/-- at most `n` iterations of the loop of `oonf_timer_walk`, oonf_timer.c:246-305 -/
def walk (rnd : Nat → Option Nat) (cb : Nat → W → List Op) : Nat → W → Step
  | 0, w => .more w
  | n + 1, w =>
    match walkStep rnd cb w with
    | .more w => walk rnd cb n w
    | s => s

/-- `oonf_timer_getNextEvent`, oonf_timer.c:311-321 -/
def nextEvent (w : W) : Nat :=
  match w.tree.list with
  | [] => 2 ^ 64 - 1
  | e :: _ => (w.timers e.nd.id).clock

end Verif.Timer
