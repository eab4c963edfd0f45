/-
Rate limit for warnings about EPERM of UDP sockets.
/repo/src/base/oonf_packet_socket.c:458-513.
-/
namespace Verif.Packet

/-- `_errno1_suppression`, `_errno1_measurement_time`, `_errno1_count`; oonf_packet_socket.h:125-132. -/
structure Lim where
  supp : Bool
  time : Nat
  count : Nat
deriving DecidableEq, Repr

/-- The warning: without a number, or with the number of suppressed ones. -/
inductive Warn where
  | plain
  | summary (n : Nat)
deriving DecidableEq, Repr

/-- After `_packet_add`, oonf_packet_socket.c:175, of a cleared structure. -/
def start (now : Nat) : Lim := ⟨false, now, 0⟩

/-- `normalized`, oonf_packet_socket.c:467-472. -/
def normalized (s : Lim) (now : Nat) : Nat :=
  if now - s.time ≥ 60000 then s.count / ((now - s.time) / 60000) else s.count

/-- `_handle_errno1`, oonf_packet_socket.c:458-513, at time `now` (milliseconds, not before
`s.time`). -/
def eperm (s : Lim) (now : Nat) : Lim × Option Warn :=
  let old := decide (now - s.time ≥ 60000)
  let off := old && s.supp && decide (normalized s now < 5)
  let on := !off && !s.supp && decide (normalized s now > 10)
  let supp := if off then false else if on then true else s.supp
  let count := if on then 0 else s.count
  let s' : Lim := if old || on then ⟨supp, now, 1⟩ else ⟨supp, s.time, (s.count + 1) % 2 ^ 32⟩
  if supp && count != 0 then
    if s'.count > 1 then (s', none) else (s', some (.summary count))
  else (s', some .plain)

/-- Errors at the given times, newest first; the warnings with their times, newest first. -/
def errors (t0 : Nat) : List Nat → Lim × List (Nat × Warn)
  | [] => (start t0, [])
  | t :: ts =>
    let r := errors t0 ts
    let e := eperm r.1 t
    (e.1, match e.2 with
      | some w => (t, w) :: r.2
      | none => r.2)

end Verif.Packet
