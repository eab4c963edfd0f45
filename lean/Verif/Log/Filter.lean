import Verif.Log.Model
/-
The telnet command `log` with `add` and `remove`: /repo/src/generic/remotecontrol/remotecontrol.c.
-/
namespace Verif.Log
open Str

/-- `LOG_SEVERITY_NAMES`, oonf_logging.c:88-93: DEBUG, INFO, WARN, ASSERT. -/
def sevName : Sev → Name
  | 0 => [68, 69, 66, 85, 71]
  | 1 => [73, 78, 70, 79]
  | 2 => [87, 65, 82, 78]
  | 3 => [65, 83, 83, 69, 82, 84]

/-- The loop over the severities, remotecontrol.c:255-259. -/
def findSev (p : List UInt8) : Option (Sev × List UInt8) :=
  (List.finRange 4).findSome? fun s => (strHasNextWord p (sevName s)).map fun r => (s, r)

/-- The loop over the sources, remotecontrol.c:267-277. -/
def findSrc (names : List Name) (p : List UInt8) : Option (Nat × List UInt8) :=
  (List.range names.length).findSome? fun i =>
    names[i]?.bind fun k => (strHasNextWord p k).map fun r => (i, r)

/-- What the command prints. -/
inductive Answer where
  | nothing
  | badSeverity
  | badSource
deriving DecidableEq, Repr

/-- The loop over the words, remotecontrol.c:265-283; `fuel` is at least the length of the text. -/
def filterLoop (names : List Name) (add : Bool) (sev : Sev) : Nat → List UInt8 → Mask → Mask × Answer
  | 0, _, m => (m, .nothing)
  | fuel + 1, p, m =>
    if p = [] then (m, .nothing)
    else
      match findSrc names p with
      | none => (m, .badSource)
      | some (i, r) => filterLoop names add sev fuel r (if add then set m i sev else reset m i sev)

/-- `_update_logfilter`, remotecontrol.c:249-288, for the mask of the session. If no severity fits,
the loop leaves `sev` at twice `LOG_SEVERITY_MAX` and `next` at NULL; the check compares with
`LOG_SEVERITY_MAX`, which is the severity `assert`. The call of `oonf_log_updatemask` has no effect,
because the mask of the session is not the mask of a handler. -/
def updateFilter (names : List Name) (add : Bool) (m : Mask) (p : List UInt8) : Mask × Answer :=
  match findSev p with
  | none => (m, .nothing)
  | some (s, r) => if s = 3 then (m, .badSeverity) else filterLoop names add s (r.length + 1) r m

/-- A new session of remote control: a copy of the global mask, remotecontrol.c:723. -/
def sessionMask (st : State) : Mask := st.glob

end Verif.Log
