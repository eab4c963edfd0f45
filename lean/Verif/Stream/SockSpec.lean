/-
Vocabulary of the properties of TCP sockets.
-/
import Verif.Stream.Sock
namespace Verif.Stream

/-- Number of sessions that were admitted (not refused) and created. -/
def admitted (log : List Ev) : Nat :=
  log.countP (fun e => match e with | .opened _ r => !r | _ => false)

/-- Number of admitted sessions whose `init_session` failed. -/
def broken (log : List Ev) : Nat :=
  log.countP (fun e => match e with | .failed _ r => !r | _ => false)

/-- Number of admitted sessions that have been closed. -/
def ended (log : List Ev) : Nat :=
  log.countP (fun e => match e with | .closed _ r => !r | _ => false)

/-- Number of refused sessions that have been closed. -/
def turnedAway (log : List Ev) : Nat :=
  log.countP (fun e => match e with | .closed _ r => r | _ => false)

/-- Number of admitted sessions that are open. -/
def live (log : List Ev) : Int := (admitted log : Int) - ended log

/-- How often a session of this name has been created. -/
def openedN (id : Nat) (log : List Ev) : Nat :=
  log.countP (fun e => match e with | .opened i _ => i == id | _ => false)

/-- How often a session of this name has been closed. -/
def closedN (id : Nat) (log : List Ev) : Nat :=
  log.countP (fun e => match e with | .closed i _ => i == id | _ => false)

end Verif.Stream
