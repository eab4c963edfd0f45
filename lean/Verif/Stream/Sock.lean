/-
Model of the TCP sockets of src/base/oonf_stream_socket.c: creation and end of
sessions, the limit on sessions, and removal of the socket.
-/
namespace Verif.Stream

/-- A session in the list of its socket, as far as the socket is concerned:
`refused` (created in the state `SEND_AND_QUIT` because there were too many
sessions), `pend` (output buffer not empty) and `busy`. -/
structure Ses where
  id : Nat
  refused : Bool
  pend : Bool
  busy : Bool
deriving DecidableEq, Repr

/-- What happened to sessions, seen from outside. -/
inductive Ev where
  /-- a session was created -/
  | opened (id : Nat) (refused : Bool)
  /-- `init_session` of the user failed for a new session -/
  | failed (id : Nat) (refused : Bool)
  /-- a session was closed and freed -/
  | closed (id : Nat) (refused : Bool)
deriving DecidableEq, Repr

/-- `struct oonf_stream_socket` (include/oonf/base/oonf_stream_socket.h:250-288)
with `listed` = "in the global list of sockets".  `counter` is
`session_counter`, `rem` is `remove`.  `corrupt` is set when `oonf_stream_add`
reinitialises the list of sessions while it still has members: the list
pointers of these sessions are stale from then on.  `log` is a history. -/
structure Sock where
  listed : Bool
  counter : Int
  allowed : Nat
  sess : List Ses
  busy : Bool
  rem : Bool
  corrupt : Bool
  log : List Ev
deriving DecidableEq, Repr

/-- A socket in zeroed memory with its configured limit. -/
def fresh (allowed : Nat) : Sock :=
  { listed := false, counter := 0, allowed := allowed, sess := [], busy := false, rem := false,
    corrupt := false, log := [] }

/-- `_stream_close` (oonf_stream_socket.c:454-473): the counter is decremented
for every session. -/
def closeSes (k : Sock) (x : Ses) : Sock :=
  { k with counter := k.counter - 1, sess := k.sess.filter (fun y => y.id != x.id),
           log := k.log ++ [.closed x.id x.refused] }

/-- `oonf_stream_close_all_sessions` (oonf_stream_socket.c:239-254). -/
def closeAll (k : Sock) : Sock :=
  if k.listed then
    (k.sess.filter (fun x => !x.pend && !x.busy)).foldl closeSes k
  else k

/-- `oonf_stream_remove` (oonf_stream_socket.c:211-232).  The user's
`cleanup_socket` is taken not to free the memory. -/
def remove (k : Sock) (force : Bool) : Sock :=
  if k.busy ∧ ¬ force then { k with rem := true }
  else if k.listed then { closeAll k with listed := false }
  else k

/-- `oonf_stream_add` (oonf_stream_socket.c:158-203) of a socket that is not
in the list; system calls succeed. -/
def add (k : Sock) : Sock :=
  if k.listed then k
  else { k with listed := true, sess := [], corrupt := k.corrupt || !k.sess.isEmpty }

/-- `_create_session` (oonf_stream_socket.c:606-687) with a flag for the
success of `init_session` and one for "`create_error` wrote a message".
System calls and allocations succeed.  After a failed `init_session` the
session is freed without giving its place back. -/
def open' (k : Sock) (id : Nat) (initOk pend : Bool) : Sock :=
  if k.counter < k.allowed then
    if initOk then
      { k with counter := k.counter + 1, sess := k.sess ++ [⟨id, false, false, false⟩], log := k.log ++ [.opened id false] }
    else { k with counter := k.counter + 1, log := k.log ++ [.failed id false] }
  else
    if initOk then { k with sess := k.sess ++ [⟨id, true, pend, false⟩], log := k.log ++ [.opened id true] }
    else { k with log := k.log ++ [.failed id true] }

/-- Set `pend`/`busy` of a session. -/
def update (k : Sock) (id : Nat) (f : Ses → Ses) : Sock :=
  { k with sess := k.sess.map (fun x => if x.id = id then f x else x) }

/-- The end of an event for a session (oonf_stream_socket.c:853-854). -/
def idle (k : Sock) (id : Nat) (pend : Bool) : Sock :=
  { update k id (fun x => { x with busy := false, pend := pend }) with busy := false }

/-- The session is closed if it asked for it (oonf_stream_socket.c:857-864). -/
def endSes (k : Sock) (x : Ses) (cleanup : Bool) : Sock := if cleanup then closeSes k x else k

/-- Removal that was deferred (oonf_stream_socket.c:866-869). -/
def lazyRemove (k : Sock) : Sock := if k.rem then remove k false else k

/-- What can happen to a socket. -/
inductive KOp where
  /-- a client connects, or an outgoing session is created; the identifier
  names the session -/
  | connect (id : Nat) (initOk pend : Bool)
  /-- an event of a session begins (`_cb_parse_connection`, 717-720) -/
  | enter (id : Nat)
  /-- the event ends (853-871): output pending?, end of the session? -/
  | leave (id : Nat) (pend cleanup : Bool)
  /-- other code writes to a session -/
  | write (id : Nat)
  /-- a session that is not busy is closed by its timeout or by other code -/
  | close (id : Nat)
  | closeAll
  | remove (force : Bool)
  | add
deriving DecidableEq, Repr

/-- One operation.  Sessions get a new identifier each; events of a session
begin only while no other event runs (the scheduler is not re-entrant). -/
def kstep (k : Sock) : KOp → Sock
  | .connect id initOk pend =>
    if k.listed ∧ (∀ x ∈ k.sess, x.id ≠ id) then open' k id initOk pend else k
  | .enter id =>
    if ¬ k.busy ∧ (∃ x ∈ k.sess, x.id = id) then
      { update k id (fun x => { x with busy := true }) with busy := true }
    else k
  | .leave id pend cleanup =>
    match k.sess.find? (fun x => x.id == id && x.busy) with
    | none => k
    | some x => lazyRemove (endSes (idle k id pend) x cleanup)
  | .write id => update k id (fun x => { x with pend := true })
  | .close id =>
    match k.sess.find? (fun x => x.id == id && !x.busy) with
    | none => k
    | some x => closeSes k x
  | .closeAll => closeAll k
  | .remove force => remove k force
  | .add => add k

/-- All operations on a socket, newest first. -/
def krun (allowed : Nat) : List KOp → Sock
  | [] => fresh allowed
  | o :: os => kstep (krun allowed os) o

end Verif.Stream
