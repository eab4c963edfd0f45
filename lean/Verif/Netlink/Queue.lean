/-
The queue of netlink messages: src/base/os_linux/os_system_linux.c:337-388 and 467-731.

Simplifications: one socket and its client, the subsystem that uses it: any state machine, which may send messages in its callbacks.
Memory allocation succeeds. The content of messages is not modelled, only number and length; messages given to `cb_message` do not
make the client send. The numbers of other sockets are left out.
-/
namespace Verif.Netlink

/-- callbacks of the client -/
inductive Call where
  | done (seq : Nat)
  | error (seq e : Nat)
  | timeout
deriving DecidableEq, Repr

structure Msg where
  seq : Nat
  len : Nat
deriving DecidableEq, Repr

/-- `struct os_system_netlink`, os_system_linux.h:77-130: `nl->out`, `nl->buffered` (oldest first), `msg_in_transit`, interest in writing, timer
for answers, `nl->in->nlmsg_seq`; and as history, oldest first: all messages accepted, buffers given to `sendmsg` and whether it
took them, callbacks. -/
structure State (σ : Type) where
  client : σ
  seqUsed : Nat := 0
  out : List Msg := []
  buffered : List (List Msg) := []
  transit : Nat := 0
  write : Bool := false
  timer : Bool := false
  inSeq : Nat := 0
  accepted : List Msg := []
  left : List (Bool × List Msg) := []
  calls : List Call := []
deriving Repr

/-- `sizeof(struct os_system_netlink_buffer)` and `getpagesize()` -/
def HDR : Nat := 24
def PAGE : Nat := 4096

variable {σ : Type}

/-- `_enqueue_netlink_buffer`, os_system_linux.c:341-357 -/
def enqueue (st : State σ) : State σ := { st with buffered := st.buffered ++ [st.out], out := [] }

/-- `os_system_linux_netlink_send`, os_system_linux.c:365-388 -/
def send (st : State σ) (len : Nat) : State σ :=
  let seq := (st.seqUsed + 1) % 2 ^ 31
  let s := if len + (HDR + (st.out.map (·.len)).sum) > PAGE then enqueue st else st
  { s with seqUsed := seq, out := s.out ++ [⟨seq, len⟩], accepted := s.accepted ++ [⟨seq, len⟩], write := s.write || s.transit == 0 }

def sendAll (st : State σ) (lens : List Nat) : State σ := lens.foldl send st

/-- a callback of the client -/
def call (cb : σ → Call → σ × List Nat) (st : State σ) (c : Call) : State σ :=
  sendAll { st with client := (cb st.client c).1, calls := st.calls ++ [c] } (cb st.client c).2

/-- results of `sendmsg`: success, EAGAIN, another error -/
inductive Res where
  | ok | again | fail (e : Nat)
deriving DecidableEq, Repr

/-- the end of `_flush_netlink_buffer`, os_system_linux.c:508-545 -/
def flushFirst (cb : σ → Call → σ × List Nat) (st : State σ) (res : Res) : State σ :=
  match st.buffered with
  | [] => st
  | b :: _ =>
    let s := match res with
      | .ok => { st with transit := st.transit + b.length, timer := true }
      | .again => st
      | .fail e => call cb st (.error st.inSeq e)
    { s with buffered := s.buffered.tail, left := s.left ++ [(decide (res = .ok), b)], write := !s.buffered.tail.isEmpty }

/-- `_flush_netlink_buffer`, os_system_linux.c:487-545 -/
def flush (cb : σ → Call → σ × List Nat) (st : State σ) (res : Res) : State σ :=
  if st.transit > 0 then { st with write := false }
  else if st.buffered = [] then
    if st.out = [] then { st with write := false } else flushFirst cb (enqueue st) res
  else flushFirst cb st res

/-- `_netlink_job_finished`, os_system_linux.c:552-565 -/
def jobFinished (st : State σ) : State σ :=
  if st.transit - 1 = 0 then { st with transit := 0, timer := false, write := st.write || !st.buffered.isEmpty || !st.out.isEmpty }
  else { st with transit := st.transit - 1 }

/-- messages of the kernel: NLMSG_DONE, NLMSG_ERROR (with the number of the request it belongs to and the error, 0 for an
acknowledgement), any other -/
inductive In where
  | done (seq : Nat)
  | err (seq req e : Nat)
  | other (seq : Nat)
deriving DecidableEq, Repr

def In.seq : In → Nat
  | .done s => s
  | .err s _ _ => s
  | .other s => s

/-- callback of `_handle_nl_err`, os_system_linux.c:710-731 -/
def answer (req e : Nat) : Call := if e = 0 then .done req else .error req e

/-- one message in the loop of `_netlink_handler`, os_system_linux.c:651-689: state, `current_seq`, `trigger_is_done` -/
def one (cb : σ → Call → σ × List Nat) (x : State σ × Nat × Bool) (m : In) : State σ × Nat × Bool :=
  let y := if x.2.1 ≠ m.seq ∧ x.2.2 = true then (call cb x.1 (.done x.2.1), x.2.1, false) else x
  match m with
  | .done _ => (y.1, y.2.1, true)
  | .err _ req e => (jobFinished (call cb y.1 (answer req e)), y.2.1, false)
  | .other _ => y

/-- `_netlink_handler`, os_system_linux.c:571-703, after a datagram has been read -/
def datagram (cb : σ → Call → σ × List Nat) (st : State σ) : List In → State σ
  | [] => st
  | m :: ms =>
    let x := (m :: ms).foldl (one cb) ({ st with inSeq := m.seq }, m.seq, false)
    if x.2.2 then jobFinished (call cb { x.1 with timer := false } (.done x.2.1)) else x.1

/-- what happens: the client does something, the socket is writable, a datagram arrives, the timer fires -/
inductive Ev (σ : Type) where
  | act (f : σ → σ × List Nat)
  | writable (res : Res)
  | datagram (ms : List In)
  | timeout

/-- one event; `_cb_handle_netlink_timeout`: os_system_linux.c:471-481 -/
def step (cb : σ → Call → σ × List Nat) (st : State σ) : Ev σ → State σ
  | .act f => sendAll { st with client := (f st.client).1 } (f st.client).2
  | .writable res => if st.write then flush cb st res else st
  | .datagram ms => datagram cb st ms
  | .timeout => if st.timer then { call cb { st with timer := false } .timeout with transit := 0 } else st

/-- events, the first one first -/
def run (cb : σ → Call → σ × List Nat) (st : State σ) (es : List (Ev σ)) : State σ := es.foldl (step cb) st

end Verif.Netlink
