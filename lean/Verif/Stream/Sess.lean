/-
Model of one TCP session of src/base/oonf_stream_socket.c: the event handler
of the scheduler, the timeout, and the ways other code touches a session.
-/
namespace Verif.Stream

/-- `enum oonf_stream_session_state`
(include/oonf/base/oonf_stream_socket.h:66-79). -/
inductive St where
  /-- `STREAM_SESSION_INACTIVE` -/
  | inactive
  /-- `STREAM_SESSION_ACTIVE` -/
  | active
  /-- `STREAM_SESSION_SEND_AND_QUIT` -/
  | quit
  /-- `STREAM_SESSION_CLEANUP` -/
  | cleanup
deriving DecidableEq, Repr

/-- The two settings of `struct oonf_stream_config` a session uses
(include/oonf/base/oonf_stream_socket.h:164-242): `session_timeout` (0: none)
and `maximum_input_buffer`.  `receive_data` is taken to be set, which is the
case for all three users of the module (HTTP, telnet, DLEP). -/
structure Cfg where
  timeout : Nat
  maxIn : Nat
deriving DecidableEq, Repr

/-- What a callback of the user (`receive_data` or `buffer_underrun`) does to
the session: the state it returns, the number of bytes it pulls from the
front of the input buffer, the bytes it appends to the output buffer, whether
it calls `oonf_stream_close` on the session, and the size of a file it hands
over in `copy_fd`/`copy_total_size`.  Callbacks that change a buffer in
another way, or call `oonf_stream_set_timeout`, are not modelled. -/
structure Reply where
  st : St
  take : Nat
  put : List Nat
  close : Bool
  file : Option Nat
deriving DecidableEq, Repr

/-- `struct oonf_stream_session`
(include/oonf/base/oonf_stream_socket.h:99-160).  `file` is the number of
bytes of `copy_fd` not copied yet (`none`: no file), `readOn`/`writeOn` the
events the scheduler waits for, `deadline` the time the timeout fires. -/
structure Sess where
  st : St
  inb : List Nat
  out : List Nat
  file : Option Nat
  waiting : Bool
  sendFirst : Bool
  readOn : Bool
  writeOn : Bool
  removed : Bool
  deadline : Option Nat
deriving DecidableEq, Repr

/-- Result of `os_fd_recvfrom`. -/
inductive Recv where
  | data (bs : List Nat)
  /-- 0 bytes: the peer has closed the connection -/
  | eof
  /-- EINTR, EAGAIN, EWOULDBLOCK -/
  | again
  | error
deriving DecidableEq, Repr

/-- Result of `os_fd_sendto`/`os_fd_sendfile`: number of bytes accepted. -/
inductive Send where
  | bytes (n : Nat)
  | again
  | error
deriving DecidableEq, Repr

/-- Everything the world decides during one event of the scheduler: the time,
the events reported, the results of the system calls and what the callbacks
do.  Quantifying over all `Event`s quantifies over all peers, all kernels and
all (stateful) callbacks. -/
structure Event where
  now : Nat
  isRead : Bool
  isWrite : Bool
  /-- `getsockopt` fails or reports a failed connect -/
  sockErr : Bool
  recv : Recv
  /-- `abuf_memcpy` of the input fails -/
  oom : Bool
  /-- what `create_error` writes for a request that is too large -/
  errText : List Nat
  /-- `receive_data`, called because the peer closed -/
  eofReply : Reply
  /-- `receive_data`, called because of input -/
  reply : Reply
  send : Send
  copy : Send
  /-- `buffer_underrun`, if set -/
  under : Option Reply

/-- What can be observed of a session from outside. -/
inductive Obs where
  /-- the peer's bytes arrived in the input buffer -/
  | got (bs : List Nat)
  /-- the peer's bytes exceeded the input buffer, the second list is the
  error message -/
  | flood (bs err : List Nat)
  /-- `receive_data` was called and saw this input buffer -/
  | call (seen : List Nat) (r : Reply)
  /-- `buffer_underrun` was called and saw this input buffer -/
  | under (seen : List Nat) (r : Reply)
  /-- other code appended to the output buffer -/
  | wrote (bs : List Nat)
  /-- the kernel took these bytes for the peer -/
  | sent (bs : List Nat)
  /-- the kernel took this number of bytes of the file for the peer -/
  | copied (n : Nat)
  /-- a system call or an allocation failed -/
  | fault
deriving DecidableEq, Repr

/-- `oonf_timer_set(&session->timeout, …)` by `oonf_stream_set_timeout`
(oonf_stream_socket.c:313-316); a timeout of 0 stops the timer. -/
def refresh (c : Cfg) (now : Nat) : Option Nat :=
  if c.timeout = 0 then none else some (now + c.timeout)

/-- Effect of a callback on the session; `oonf_stream_close` on a busy
session only marks it (oonf_stream_socket.c:322-330). -/
def answer (s : Sess) (r : Reply) : Sess :=
  { s with st := r.st, inb := s.inb.drop r.take, out := s.out ++ r.put,
           removed := s.removed || r.close,
           file := match r.file with | some n => some n | none => s.file }

/-- First part of `_cb_parse_connection`: end of an outgoing connect
(oonf_stream_socket.c:722-745). -/
def connectStage (e : Event) (s : Sess) : Sess × List Obs :=
  if s.waiting ∧ e.isWrite then
    if e.sockErr then ({ s with st := .cleanup }, [.fault])
    else ({ s with waiting := false }, [])
  else (s, [])

/-- Reading (oonf_stream_socket.c:753-791). -/
def readStage (c : Cfg) (e : Event) (s : Sess) : Sess × List Obs :=
  if s.st = .active ∧ e.isRead then
    match e.recv with
    | .data bs =>
      if e.oom then ({ s with st := .cleanup }, [.fault])
      else if (s.inb ++ bs).length > c.maxIn then
        ({ s with inb := s.inb ++ bs, out := s.out ++ e.errText, st := .quit },
          [.flood bs e.errText])
      else ({ s with inb := s.inb ++ bs, deadline := refresh c e.now }, [.got bs])
    | .error => ({ s with st := .cleanup }, [.fault])
    | .again => (s, [])
    | .eof =>
      ({ answer { s with st := .quit } e.eofReply with readOn := false },
        [.call s.inb e.eofReply])
  else (s, [])

/-- The call of `receive_data` (oonf_stream_socket.c:793-797). -/
def handleStage (e : Event) (s : Sess) : Sess × List Obs :=
  if s.st = .active ∧ (s.inb ≠ [] ∨ s.sendFirst) then
    ({ answer s e.reply with sendFirst := false }, [.call s.inb e.reply])
  else (s, [])

/-- Sending the output buffer (oonf_stream_socket.c:800-819). -/
def sendStage (c : Cfg) (e : Event) (s : Sess) : Sess × List Obs :=
  if s.st ≠ .cleanup ∧ s.out ≠ [] then
    if e.isWrite then
      match e.send with
      | .bytes n =>
        if n = 0 then (s, [])
        else ({ s with out := s.out.drop n, deadline := refresh c e.now },
          [.sent (s.out.take n)])
      | .again => (s, [])
      | .error => ({ s with st := .cleanup }, [.fault])
    else ({ s with writeOn := true }, [])
  else (s, [])

/-- Sending the file (oonf_stream_socket.c:822-836): every result that is not
positive, EAGAIN included, ends the session. -/
def copyStage (e : Event) (s : Sess) : Sess × List Obs :=
  if s.st = .quit ∧ s.out = [] ∧ e.isWrite then
    match s.file with
    | none => (s, [])
    | some left =>
      match e.copy with
      | .bytes n =>
        if n = 0 ∨ left = 0 then ({ s with st := .cleanup }, [.fault])
        else ({ s with file := some (left - n) }, [.copied (min n left)])
      | _ => ({ s with st := .cleanup }, [.fault])
  else (s, [])

/-- The call of `buffer_underrun` (oonf_stream_socket.c:839-842). -/
def underStage (e : Event) (s : Sess) : Sess × List Obs :=
  if s.st = .active ∧ s.out = [] then
    match e.under with
    | none => (s, [])
    | some r => (answer s r, [.under s.inb r])
  else (s, [])

/-- Is there nothing left of the file (`copy_bytes_sent == copy_total_size`)? -/
def fileDone (s : Sess) : Bool :=
  match s.file with
  | none => true
  | some n => n == 0

/-- Switching output off (oonf_stream_socket.c:844-851). -/
def doneStage (s : Sess) : Sess :=
  if s.out = [] ∧ fileDone s then
    { s with writeOn := false, st := if s.st = .quit then .cleanup else s.st }
  else s

/-- `_cb_parse_connection` (oonf_stream_socket.c:705-871) for the session: new
session, "the session has been closed by `_stream_close`", observations. -/
def event (c : Cfg) (e : Event) (s : Sess) : Sess × Bool × List Obs :=
  let r0 := connectStage e s
  if r0.1.waiting then (r0.1, false, r0.2)
  else
    let r1 := readStage c e r0.1
    let r2 := handleStage e r1.1
    let r3 := sendStage c e r2.1
    let r4 := copyStage e r3.1
    let r5 := underStage e r4.1
    let s6 := doneStage r5.1
    (s6, s6.st = .cleanup ∨ s6.removed, r0.2 ++ r1.2 ++ r2.2 ++ r3.2 ++ r4.2 ++ r5.2)

/-- What can happen to a session. -/
inductive Op where
  /-- the scheduler reports an event (never while the session is busy) -/
  | io (e : Event)
  /-- the clock reaches this time (`_cb_timeout_handler`, lines 693-699) -/
  | tick (now : Nat)
  /-- other code appends to the output buffer and calls `oonf_stream_flush`
  (oonf_stream_socket.c:146-148) -/
  | write (bs : List Nat)
  /-- other code calls `oonf_stream_close` -/
  | close

/-- A session, whether it has been closed, and all that was observed. -/
structure Run where
  s : Sess
  closed : Bool
  tr : List (Nat × Obs)

/-- One operation; nothing happens to a closed session (its memory is gone). -/
def step (c : Cfg) (r : Run) : Op → Run
  | .io e =>
    if r.closed then r
    else
      let x := event c e r.s
      { s := x.1, closed := x.2.1, tr := r.tr ++ x.2.2.map (fun o => (e.now, o)) }
  | .tick now =>
    if r.closed then r
    else match r.s.deadline with
      | none => r
      | some d => if d ≤ now then { r with closed := true } else r
  | .write bs =>
    if r.closed then r
    else { r with s := { r.s with out := r.s.out ++ bs, writeOn := true }, tr := r.tr ++ [(0, .wrote bs)] }
  | .close => if r.closed then r else { r with closed := true }

/-- A new session (`_create_session`, oonf_stream_socket.c:606-687): `refused`
sessions start in the state `SEND_AND_QUIT` with the text of `create_error`
in the output buffer. -/
def create (c : Cfg) (now : Nat) (sendFirst waiting : Bool) (refused : Option (List Nat)) : Sess :=
  { st := if refused.isSome then .quit else .active, inb := [], out := refused.getD [], file := none,
    waiting := waiting, sendFirst := sendFirst, readOn := true, writeOn := true, removed := false,
    deadline := refresh c now }

/-- All operations on a session, newest first. -/
def run (c : Cfg) (s0 : Sess) : List Op → Run
  | [] => { s := s0, closed := false, tr := [] }
  | o :: os => step c (run c s0 os) o

end Verif.Stream
