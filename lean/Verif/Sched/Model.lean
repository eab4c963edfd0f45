import Verif.Timer.Props

/-!
# The event scheduler

`src/base/oonf_socket.c`, `src/base/os_linux/os_fd_linux.c` with `include/oonf/base/os_linux/os_fd_linux.h`, and the main loop of
`src/libcore/oonf_main.c`.  The kernel (epoll), the callbacks of the sockets and the clock are parameters.
-/

namespace Verif.Sched

/-! ## Sockets -/

/-- events of a socket: EPOLLIN, EPOLLOUT, and one of EPOLLHUP and EPOLLERR, which the kernel always reports -/
structure Ev where
  read : Bool
  write : Bool
  hup : Bool
deriving DecidableEq, Repr

/-- `struct oonf_socket_entry`, oonf_socket.h:61-91, with its `struct os_fd`, os_fd_linux.h:72-84.  `kern` is what the kernel knows: `none` if
the descriptor is not in the epoll set, else the events for read and write that are asked for. -/
structure Sock where
  listed : Bool := false
  wantRead : Bool := false
  wantWrite : Bool := false
  kern : Option (Bool × Bool) := none
  got : Ev := ⟨false, false, false⟩
  handler : Bool := true
  nrecv : Nat := 0
  nsend : Nat := 0
  nlong : Nat := 0
deriving DecidableEq, Repr

/-- `os_fd_linux_event_socket_modify`, os_fd_linux.c:129-141: EPOLL_CTL_MOD fails if the descriptor is not in the set -/
def modify (s : Sock) : Sock := { s with kern := s.kern.map fun _ => (s.wantRead, s.wantWrite) }

/-- `oonf_socket_add`, oonf_socket.c:142-148, `os_fd_event_socket_add`, os_fd_linux.h:339-348: EPOLL_CTL_ADD with no events; it fails if the
descriptor is already in the set -/
def sockAdd (s : Sock) : Sock := { s with listed := true, kern := match s.kern with | none => some (false, false) | some k => some k }

/-- `oonf_socket_remove`, oonf_socket.c:155-162 -/
def sockRemove (s : Sock) : Sock := if s.listed then { s with listed := false, kern := none } else s

/-- `oonf_socket_set_read`, oonf_socket.c:176-178, os_fd_linux.h:358-367 -/
def setRead (s : Sock) (b : Bool) : Sock := modify { s with wantRead := b }

/-- `oonf_socket_set_write`, oonf_socket.c:185-187, os_fd_linux.h:387-396 -/
def setWrite (s : Sock) (b : Bool) : Sock := modify { s with wantWrite := b }

/-- operations on a socket; `fresh` is `os_fd_invalidate` or zeroed memory, os_fd_linux.h:249-252, of a socket that is not in the scheduler -/
inductive Op where
  | add | remove | read (b : Bool) | write (b : Bool) | fresh
deriving DecidableEq, Repr

def Op.run (s : Sock) : Op → Sock
  | .add => sockAdd s
  | .remove => sockRemove s
  | .read b => setRead s b
  | .write b => setWrite s b
  | .fresh => if s.listed then s else { s with wantRead := false, wantWrite := false }

/-! ## Events -/

/-- the memory: the objects that are not freed -/
abbrev World := Nat → Option Sock

def World.set (w : World) (i : Nat) (s : Sock) : World := fun j => if j = i then some s else w j

/-- `OONF_TIMER_SLICE`, oonf_timer.h:61 -/
def SLICE : Nat := 100

/-- world and calls of handlers with the events they see -/
structure St where
  w : World
  log : List (Nat × Ev) := []

/-- the events of `epoll_wait` are written into the sockets, os_fd_linux.c:113-118; `none`: freed memory is used -/
def report (w : World) : List (Nat × Ev) → Option World
  | [] => some w
  | (i, e) :: l =>
    match w i with
    | none => none
    | some s => report (w.set i { s with got := e }) l

/-- the counters, oonf_socket.c:253-258 -/
def count (s : Sock) : Sock := { s with nrecv := s.nrecv + (if s.got.read then 1 else 0), nsend := s.nsend + (if s.got.write then 1 else 0) }

/-- one event, oonf_socket.c:239-269.  The handler changes the world and takes some milliseconds; `none`: freed memory is used. -/
def event (cb : Nat → World → World × Nat) (st : St) (i : Nat) : Option St :=
  match st.w i with
  | none => none
  | some s =>
    if (s.got.read || s.got.write) && s.handler then
      let r := cb i (st.w.set i (count s))
      let st' : St := ⟨r.1, st.log ++ [(i, s.got)]⟩
      if r.2 > SLICE then
        match r.1 i with
        | none => none
        | some s' => some { st' with w := r.1.set i { s' with nlong := s'.nlong + 1 } }
      else some st'
    else some st

/-- all events of a call of `epoll_wait`, oonf_socket.c:238-270 -/
def events (cb : Nat → World → World × Nat) (st : St) : List Nat → Option St
  | [] => some st
  | i :: l => (event cb st i).bind fun st => events cb st l

/-- a call of `epoll_wait` with its events -/
def dispatch (cb : Nat → World → World × Nat) (w : World) (batch : List (Nat × Ev)) : Option St :=
  (report w batch).bind fun w => events cb ⟨w, []⟩ (batch.map (·.1))

/-! ## The loop -/

/-- `~0ull` and UINT64_MAX -/
def NEVER : Nat := 2 ^ 64 - 1

/-- the delay for `epoll_wait`, os_fd_linux.c:104-107: the difference of two signed numbers is put into an unsigned one -/
def delay (now deadline : Nat) : Nat := min ((deadline + 2 ^ 64 - now) % 2 ^ 64) (2 ^ 31 - 1)

/-- results of `epoll_wait` -/
inductive Res where
  | timeout
  | error
  | got (batch : List (Nat × Ev))
deriving DecidableEq, Repr

/-- what happens to one round of the loop: the clock (`none`: it fails); the first timer after the due ones are fired; is the loop asked to
return then (`oonf_main_shall_stop_scheduler`); waits that are interrupted by a signal, each with the answer to the same question after it;
the result of the wait; does the second reading of the clock work -/
structure Round where
  now : Option Nat
  next : Nat
  stop : Bool := false
  intr : List Bool := []
  res : Res := .timeout
  clock2 : Bool := true
deriving DecidableEq, Repr

/-- what the loop does -/
inductive Act where
  | walk (now : Nat)
  | wait (delay : Nat)
  | handle (batch : List (Nat × Ev))
deriving DecidableEq, Repr

/-- `_shall_end_scheduler`, oonf_socket.c:192-195 -/
def shallEnd (limit : Nat) (stop : Bool) : Bool := limit = NEVER && stop

/-- the loop around `epoll_wait`, oonf_socket.c:225-231; the result is `true` if the wait came to an end -/
def waits (limit d : Nat) (stop : Bool) : List Bool → List Act × Bool
  | [] => if shallEnd limit stop then ([], false) else ([.wait d], true)
  | b :: l =>
    if shallEnd limit stop then ([], false)
    else
      let r := waits limit d b l
      (.wait d :: r.1, r.2)

/-- one round of `_handle_scheduling`, oonf_socket.c:208-270; the second result is the return value, `none` for the next round -/
def round (limit : Nat) (r : Round) : List Act × Option Int :=
  match r.now with
  | none => ([], some (-1))
  | some now =>
    if now ≥ limit then ([], some (-1))
    else if shallEnd limit r.stop then ([.walk now], some 0)
    else
      let x := waits limit (delay now (if r.next > limit then limit else r.next)) r.stop r.intr
      if !x.2 then (.walk now :: x.1, some 0)
      else
        match r.res with
        | .timeout => (.walk now :: x.1, some 0)
        | .error => (.walk now :: x.1, some (-1))
        | .got batch => if r.clock2 then (.walk now :: x.1 ++ [.handle batch], none) else (.walk now :: x.1, some (-1))

/-- the loop with the rounds it meets; the result is the return value and the rounds it leaves, `none` if they are too few -/
def handle (limit : Nat) : List Round → List Act × Option (Int × List Round)
  | [] => ([], none)
  | r :: l =>
    match round limit r with
    | (a, some v) => (a, some (v, l))
    | (a, none) =>
      let x := handle limit l
      (a ++ x.1, x.2)

/-- the end of the program, oonf_main.c:281-283: `fuel` bounds the number of calls -/
def shutdown (limit : Nat) : Nat → List Round → List Act × Option (List Round)
  | 0, _ => ([], none)
  | fuel + 1, l =>
    match handle limit l with
    | (a, none) => (a, none)
    | (a, some (v, l')) =>
      if v = 0 then
        let x := shutdown limit fuel l'
        (a ++ x.1, x.2)
      else (a, some l')

/-- the time at which the loop around `epoll_wait` ends if there are no events: it begins at `start`, signals arrive at the given times -/
def waitEnd (start d : Nat) : List Nat → Nat
  | [] => start + d
  | t :: l => if t < start + d then waitEnd t d l else start + d

/-! ## The main loop -/

/-- `_running`, `_trigger_reload`, `_trigger_commit`, oonf_cfg.c:78-79 -/
structure Flags where
  running : Bool
  reload : Bool
  commit : Bool
deriving DecidableEq, Repr

/-- `oonf_main_shall_stop_scheduler`, oonf_main.c:337-339 -/
def Flags.stop (f : Flags) : Bool := f.commit || f.reload || !f.running

/-- one turn of the main loop: result of the scheduler and the flags afterwards (callbacks and signals change them); do clearing the database
and reading the command line with the configuration work; do the two calls of `oonf_cfg_apply` work -/
structure Turn where
  sched : Bool
  flags : Flags
  clear : Bool := true
  parse : Bool := true
  apply1 : Bool := true
  apply2 : Bool := true
deriving Repr

/-- the flags after `oonf_cfg_apply`, oonf_cfg.c:410-412 -/
def applied (f : Flags) : Flags := { f with reload := false, commit := false }

/-- result of a turn: the exit code, or the next flags; and how often a configuration was applied -/
structure After where
  exit : Option Nat
  flags : Flags
  applies : Nat
deriving DecidableEq, Repr

/-- the commit, oonf_main.c:425-430 -/
def turnCommit (t : Turn) (f : Flags) (n : Nat) : After :=
  if f.commit then (if t.apply2 then ⟨none, applied f, n + 1⟩ else ⟨some 0, f, n⟩) else ⟨none, f, n⟩

/-- the body of the main loop, oonf_main.c:404-431 -/
def turn (t : Turn) : After :=
  if !t.sched then ⟨some 1, t.flags, 0⟩
  else if t.flags.reload then
    if !t.clear then ⟨some 0, t.flags, 0⟩
    else if t.parse then
      if t.apply1 then turnCommit t (applied t.flags) 1 else ⟨some 0, t.flags, 0⟩
    else turnCommit t t.flags 0
  else turnCommit t t.flags 0

/-- `mainloop`, oonf_main.c:396-435, with the turns it meets: the exit code and the number of configurations applied -/
def mainloop (f : Flags) : List Turn → Option (Nat × Nat)
  | [] => if f.running then none else some (0, 0)
  | t :: l =>
    if !f.running then some (0, 0)
    else
      let a := turn t
      match a.exit with
      | some c => some (c, a.applies)
      | none => (mainloop a.flags l).map fun x => (x.1, x.2 + a.applies)

end Verif.Sched
