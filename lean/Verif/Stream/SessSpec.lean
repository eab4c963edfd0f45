/-
Vocabulary of the properties of a TCP session, in terms of what was observed.
-/
import Verif.Stream.Sess
namespace Verif.Stream

/-- The bytes put into the output buffer by one observed action: by a
callback, as an error message, or by other code. -/
def putBy : Obs → List Nat
  | .flood _ err => err
  | .call _ r => r.put
  | .under _ r => r.put
  | .wrote bs => bs
  | _ => []

/-- The bytes one observed action handed to the peer. -/
def sentBy : Obs → List Nat
  | .sent bs => bs
  | _ => []

/-- The bytes one observed action received from the peer. -/
def gotBy : Obs → List Nat
  | .got bs => bs
  | .flood bs _ => bs
  | _ => []

/-- The bytes a callback took off the front of the input it saw. -/
def takenBy : Obs → List Nat
  | .call seen r => seen.take r.take
  | .under seen r => seen.take r.take
  | _ => []

/-- Everything a function collects from the observations, in order. -/
def collect (f : Obs → List Nat) (tr : List (Nat × Obs)) : List Nat :=
  tr.flatMap (fun o => f o.2)

/-- Does this observation mean that a callback or a failure wants the session
to go away at once: a fault, a callback that returns `CLEANUP`, or a callback
that closes the session? -/
def aborts : Obs → Bool
  | .fault => true
  | .call _ r => r.close || r.st == .cleanup
  | .under _ r => r.close || r.st == .cleanup
  | _ => false

/-- Is this the call of a callback? -/
def isCall : Obs → Bool
  | .call _ _ => true
  | .under _ _ => true
  | _ => false

/-- Does this observation end the active phase of a session: a callback that
returns another state, an oversized request, a failure? -/
def ends : Obs → Bool
  | .fault => true
  | .flood _ _ => true
  | .call _ r => r.st != .active
  | .under _ r => r.st != .active
  | _ => false

/-- Time of the last byte that went through the two buffers (`t0` if there
was none). -/
def lastByte (t0 : Nat) : List (Nat × Obs) → Nat
  | [] => t0
  | (t, .got _) :: r => lastByte t r
  | (t, .sent _) :: r => lastByte t r
  | _ :: r => lastByte t0 r

end Verif.Stream
