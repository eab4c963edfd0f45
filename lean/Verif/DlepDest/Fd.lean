/-
C203: file descriptors and objects of outgoing DLEP connections: src/generic/dlep/router/dlep_router_session.c, with `oonf_stream_add`, `oonf_stream_connect_to`, `oonf_stream_remove` and
`_stream_close` of src/base/oonf_stream_socket.c for sockets without listening port.
-/
namespace Verif.DlepDest.Fd

/-- who opened a descriptor -/
inductive Owner where
  | router
  | other (i : Nat)
deriving DecidableEq, Repr

/-- open descriptors of the process, descriptors of the sessions in the tree of the interface, number of allocated `struct dlep_router_session` -/
structure World where
  fds : Nat → Option Owner := fun _ => none
  tree : List Nat := []
  objects : Nat := 0

def World.setFd (w : World) (n : Nat) (o : Option Owner) : World :=
  { w with fds := fun m => if m = n then o else w.fds m }

/-- `os_fd_close`, os_fd_linux.h:289-297: closes every descriptor but -1 -/
def World.close (w : World) (n : Nat) : World := w.setFd n none

/-- `tcp.scheduler_entry.fd` of a new session: the object is zeroed when it is allocated (oonf_class.c), and `oonf_stream_add` (157-200) opens no socket for port 0. So it is descriptor 0. -/
def tcpFd : Nat := 0

/-- `dlep_router_add_session`, 115-191, when the kernel returns the new socket `n`. If `connect` fails (256-270), `oonf_stream_connect_to` closes the descriptor of `tcp`, not the new one (283-285), and sets it to
-1, so `oonf_stream_remove` closes nothing; the object is freed. -/
def connect (w : World) (n : Nat) (ok : Bool) : World :=
  let w := w.setFd n (some .router)
  if ok then { w with tree := n :: w.tree, objects := w.objects + 1 }
  else w.close tcpFd

/-- no socket: `oonf_stream_connect_to` returns without closing (253-255), `dlep_router_remove_session` -> `oonf_stream_remove` (213-232) closes the descriptor of `tcp` -/
def noSocket (w : World) : World := w.close tcpFd

/-- the other side closes the connection, it is refused later, or a timeout: `_stream_close`, 456-475, with `_cb_tcp_lost`, 226-250: the session leaves the tree, its object stays -/
def peerClose (w : World) (n : Nat) : World :=
  { w.close n with tree := w.tree.erase n }

/-- `dlep_router_remove_session`, 197-204, at once or at the end of the event: as before, then `oonf_stream_remove` closes the descriptor of `tcp` and `_cb_socket_terminated` (210-217) frees the object -/
def remove (w : World) (n : Nat) : World :=
  let w := { w.close n with tree := w.tree.erase n }
  { w.close tcpFd with objects := w.objects - 1 }

/-- events: sessions, and descriptors of the rest of the program -/
inductive Ev where
  | connect (n : Nat) (ok : Bool)
  | noSocket
  | peerClose (n : Nat)
  | remove (n : Nat)
  | opens (n i : Nat)
  | closes (n i : Nat)
deriving DecidableEq, Repr

/-- the kernel only returns free descriptors, sessions are in the tree, others close their own descriptors -/
def Ok (w : World) : Ev → Prop
  | .connect n _ => w.fds n = none
  | .noSocket => True
  | .peerClose n => n ∈ w.tree
  | .remove n => n ∈ w.tree
  | .opens n _ => w.fds n = none
  | .closes n i => w.fds n = some (.other i)

def step (w : World) : Ev → World
  | .connect n ok => connect w n ok
  | .noSocket => noSocket w
  | .peerClose n => peerClose w n
  | .remove n => remove w n
  | .opens n i => w.setFd n (some (.other i))
  | .closes n _ => w.close n

def run (w : World) : List Ev → World
  | [] => w
  | e :: l => run (step w e) l

def OkRun (w : World) : List Ev → Prop
  | [] => True
  | e :: l => Ok w e ∧ OkRun (step w e) l

/-! ### C203 -/

/-- the descriptors of the router are those of its sessions -/
structure Tidy (w : World) : Prop where
  nodup : w.tree.Nodup
  fds : ∀ n, w.fds n = some .router ↔ n ∈ w.tree

/-- events that do not reach a removal of the socket: connections that are established (or still waiting for it), connections closed by the other side, everything of others -/
def Plain : Ev → Prop
  | .connect _ ok => ok = true
  | .noSocket => False
  | .remove _ => False
  | _ => True

/-- descriptors of others that are opened and not closed in a history -/
def others (f : Nat → Option Nat) : Ev → Nat → Option Nat
  | .opens n i => fun m => if m = n then some i else f m
  | .closes n _ => fun m => if m = n then none else f m
  | _ => f

theorem tidy_step {w : World} {e : Ev} {f : Nat → Option Nat} (h : Tidy w) (hf : ∀ n i, w.fds n = some (.other i) ↔ f n = some i) (ho : Ok w e) (hp : Plain e) :
    Tidy (step w e) ∧ ∀ n i, (step w e).fds n = some (.other i) ↔ others f e n = some i := by
  cases e with
  | connect n ok =>
    cases (show ok = true from hp)
    have hn : n ∉ w.tree := fun hm => by
      have h1 : w.fds n = none := ho
      rw [(h.fds n).2 hm] at h1
      cases h1
    refine ⟨⟨List.nodup_cons.2 ⟨hn, h.nodup⟩, fun m => ?_⟩, fun m i => ?_⟩
    · simp only [step, connect, World.setFd, if_true]
      by_cases e : m = n
      · simp [e]
      · simp [e, h.fds m]
    · simp only [step, connect, World.setFd, if_true, others]
      by_cases e : m = n
      · subst e
        simp only [if_true]
        rw [← hf, show w.fds m = none from ho]
        simp
      · simp only [e, if_false]
        exact hf m i
  | noSocket => exact hp.elim
  | remove n => exact hp.elim
  | peerClose n =>
    have hn : w.fds n = some .router := (h.fds n).2 ho
    refine ⟨⟨h.nodup.erase n, fun m => ?_⟩, fun m i => ?_⟩
    · simp only [step, peerClose, World.close, World.setFd]
      rw [h.nodup.mem_erase_iff]
      by_cases e : m = n
      · simp [e]
      · simp [e, h.fds m]
    · simp only [step, peerClose, World.close, World.setFd, others]
      by_cases e : m = n
      · subst e
        simp only [if_true]
        rw [← hf, hn]
        simp
      · simp only [e, if_false]
        exact hf m i
  | opens n i =>
    have ho' : w.fds n = none := ho
    refine ⟨⟨h.nodup, fun m => ?_⟩, fun m j => ?_⟩
    · simp only [step, World.setFd]
      by_cases e : m = n
      · subst e
        rw [← h.fds]
        simp [ho']
      · simp only [e, if_false]
        exact h.fds m
    · simp only [step, World.setFd, others]
      by_cases e : m = n
      · simp [e]
      · simp only [e, if_false]
        exact hf m j
  | closes n i =>
    have ho' : w.fds n = some (.other i) := ho
    refine ⟨⟨h.nodup, fun m => ?_⟩, fun m j => ?_⟩
    · simp only [step, World.close, World.setFd]
      by_cases e : m = n
      · subst e
        rw [← h.fds]
        simp [ho']
      · simp only [e, if_false]
        exact h.fds m
    · simp only [step, World.close, World.setFd, others]
      by_cases e : m = n
      · simp [e]
      · simp only [e, if_false]
        exact hf m j

/-- C203, the part that holds: as long as connections only end because the other side closes them, the open descriptors of the router are those of its sessions, and the descriptors of the rest of the program are
open from their opening to their closing. Missing: sessions the router removes itself, connections that fail at once, and objects; see the counterexamples. -/
theorem C203_descriptors_partial (evs : List Ev) (ho : OkRun {} evs) (hp : ∀ e ∈ evs, Plain e) :
    (∀ n, (run {} evs).fds n = some .router ↔ n ∈ (run {} evs).tree) ∧
      ∀ n i, (run {} evs).fds n = some (.other i) ↔ evs.foldl others (fun _ => none) n = some i := by
  have h0 : Tidy {} := ⟨List.nodup_nil, fun n => by simp⟩
  have hf0 : ∀ n i, ({} : World).fds n = some (.other i) ↔ (fun _ => none : Nat → Option Nat) n = some i := fun n i => by simp
  generalize ({} : World) = w at ho h0 hf0
  generalize (fun _ => none : Nat → Option Nat) = f at hf0
  induction evs generalizing w f with
  | nil => exact ⟨h0.fds, hf0⟩
  | cons e l ih =>
    obtain ⟨h1, h2⟩ := tidy_step h0 hf0 ho.1 (hp e (by simp))
    exact ih (fun x hx => hp x (by simp [hx])) (step w e) ho.2 h1 (others f e) h2

example : OkRun {} [.opens 0 7, .connect 3 true, .connect 4 true, .opens 5 8, .peerClose 3, .opens 3 9, .closes 5 8] := by
  refine ⟨rfl, rfl, rfl, rfl, ?_, rfl, rfl, trivial⟩
  show 3 ∈ [4, 3]
  decide

/-- C203 fails whenever the router removes a session: descriptor 0 is closed, whoever it belongs to -/
theorem C203_zero_counterexample (w : World) (n : Nat) : (remove w n).fds 0 = none ∧ (connect w n false).fds 0 = none ∧ (noSocket w).fds 0 = none := by
  simp [remove, connect, noSocket, World.close, World.setFd, tcpFd]

/-- a socket of somebody else: after the first removal descriptor 0 is free, the next socket of the program gets it, and the second removal closes it -/
theorem C203_victim_counterexample : ∃ evs, OkRun {} evs ∧ (∀ e ∈ evs, ∀ i, e ≠ .closes 0 i) ∧ (.opens 0 8) ∈ evs ∧ (run {} evs).fds 0 = none := by
  refine ⟨[.opens 0 7, .connect 3 true, .remove 3, .opens 0 8, .connect 3 true, .remove 3], ⟨rfl, rfl, ?_, rfl, rfl, ?_, trivial⟩, ?_, by simp, rfl⟩
  · show 3 ∈ [3]
    simp
  · show 3 ∈ [3]
    simp
  · intro e he i h
    subst h
    simp at he

/-- C203 fails for connections that are refused at once: every attempt leaves an open socket that no session knows -/
theorem C203_refused_counterexample (ns : List Nat) (w : World) (hnd : ns.Nodup) (h0 : 0 ∉ ns) :
    (∀ n ∈ ns, (run w (ns.map fun n => .connect n false)).fds n = some .router) ∧ (run w (ns.map fun n => .connect n false)).tree = w.tree := by
  have keep : ∀ (ns : List Nat) (w : World) (n : Nat), n ≠ 0 → n ∉ ns → (run w (ns.map fun n => .connect n false)).fds n = w.fds n := by
    intro ns
    induction ns with
    | nil => intro w n _ _; rfl
    | cons m ns ih =>
      intro w n hn hm
      simp only [List.map_cons, run]
      rw [ih _ n hn (fun h => hm (by simp [h]))]
      have h1 : n ≠ m := fun h => hm (by simp [h])
      simp [step, connect, World.close, World.setFd, tcpFd, hn, h1]
  induction ns generalizing w with
  | nil => exact ⟨fun n h => (nomatch h), rfl⟩
  | cons m ns ih =>
    simp only [List.map_cons, run]
    rw [List.nodup_cons] at hnd
    obtain ⟨h1, h2⟩ := ih (step w (.connect m false)) hnd.2 (fun h => h0 (by simp [h]))
    refine ⟨fun n hn => ?_, h2⟩
    rcases List.mem_cons.1 hn with rfl | hn
    · have hn0 : n ≠ 0 := fun h => h0 (by simp [h])
      rw [keep ns _ n hn0 hnd.1]
      simp [step, connect, World.close, World.setFd, tcpFd, hn0]
    · exact h1 n hn

example : [3, 4, 5].Nodup ∧ 0 ∉ [3, 4, 5] := by decide

/-- C203 fails for sessions the other side closes: their object is never freed -/
theorem C203_objects_counterexample (w : World) (n : Nat) : (peerClose (connect w n true) n).objects = w.objects + 1 ∧ (peerClose (connect w n true) n).tree = w.tree := by
  simp [peerClose, connect, World.close, World.setFd]

/-- C203: a session the router removes itself is gone, with its descriptor and its object -/
theorem C203_remove (w : World) (n : Nat) : (remove (connect w n true) n).objects = w.objects ∧ (remove (connect w n true) n).tree = w.tree ∧ (remove (connect w n true) n).fds n = none := by
  simp [remove, connect, World.close, World.setFd]

end Verif.DlepDest.Fd
