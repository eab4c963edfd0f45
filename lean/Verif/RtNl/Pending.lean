/-
Requests for routes that wait for the answer of the kernel: src/base/os_linux/os_routing_linux.c:165-174, 203-330, 368-375, 612-716.

Simplifications: a route object is a number; the tree `_rtnetlink_feedback` is the list of the waiting objects in the order of their sequence numbers. Sequence
numbers only grow (`os_system_linux_netlink_send` starts again with 0 after 2^31-1 messages). Messages contain a parsed route that passes or does not pass a filter.
-/
namespace Verif.RtNl

/-- what a callback does: a new request for a route, or `os_routing_interrupt` -/
inductive Act where
  | set (id : Nat)
  | interrupt (id : Nat)
deriving DecidableEq, Repr

/-- objects and sequence numbers that wait; last sequence number; calls of `cb_finished`: object, sequence number, error; calls of `cb_get` for queries: object, route; calls
of the listeners: route, is it set. `sent` records all requests. -/
structure P where
  wait : List (Nat × Nat) := []
  seq : Nat := 0
  told : List (Nat × Nat × Int) := []
  got : List (Nat × Nat) := []
  heard : List (Nat × Bool) := []
  sent : List (Nat × Nat) := []
deriving DecidableEq, Repr

/-- is the object in the tree, os_routing_linux.c:328-330 -/
def P.has (p : P) (id : Nat) : Bool := p.wait.any (·.1 = id)

/-- results: the state, a failed assertion or an operation with an object that is not in the tree, and a loop that has not ended yet -/
inductive Res where
  | ok (p : P)
  | crash
  | running
deriving DecidableEq, Repr

/-- `os_routing_linux_set` (with a proper route and a callback) and `os_routing_linux_query`, os_routing_linux.c:203-309. The assertion of `os_routing_linux_set`,
line 264, fails for a waiting object; `os_routing_linux_query` changes the key of a node in the tree. -/
def send (p : P) (id : Nat) : Option P := if p.has id then none else some { p with seq := p.seq + 1, wait := p.wait ++ [(id, p.seq + 1)], sent := p.sent ++ [(id, p.seq + 1)] }

/-- `_routing_finished` for an object in the tree, os_routing_linux.c:368-375, without what the callback does -/
def finish (p : P) (x : Nat × Nat) (error : Int) : P := { p with wait := p.wait.erase x, told := p.told ++ [(x.1, x.2, error)] }

/-- `_cb_rtnetlink_error` and `_cb_rtnetlink_done`, os_routing_linux.c:666-682 and 703-716, without what the callback does -/
def answer (p : P) (seq : Nat) (error : Int) : P :=
  match p.wait.find? (fun x => x.2 = seq) with
  | none => p
  | some x => finish p x error

/-- `os_routing_linux_interrupt`, os_routing_linux.c:316-320 -/
def interrupt (p : P) (id : Nat) : P :=
  match p.wait.find? (fun x => x.1 = id) with
  | none => p
  | some x => finish p x (-1)

/-- an action of a callback; the callbacks of interrupted objects do nothing themselves -/
def act (p : P) : Act → Option P
  | .set id => send p id
  | .interrupt id => some (interrupt p id)

def acts (p : P) (l : List Act) : Option P := l.foldl (fun p a => p.bind fun p => act p a) (some p)

/-- the loop `avl_for_each_element_safe` of `_cb_rtnetlink_timeout`, os_routing_linux.c:688-696, and `_cleanup`, 165-174, at an element: the next element is looked up before the
call of `_routing_finished` -/
def loop (cb : Nat → List Act) (error : Int) : Nat → P → Option (Nat × Nat) → Res
  | _, p, none => .ok p
  | 0, _, some _ => .running
  | fuel + 1, p, some x =>
    if x ∈ p.wait then
      let next := (p.wait.drop (p.wait.idxOf x + 1)).head?
      match acts (finish p x error) (cb x.1) with
      | none => .crash
      | some p => loop cb error fuel p next
    else .crash

/-- `_cb_rtnetlink_timeout` (error -1), `_cleanup` (error 1) -/
def timeout (cb : Nat → List Act) (error : Int) (fuel : Nat) (p : P) : Res := loop cb error fuel p p.wait.head?

/-- `_cb_rtnetlink_message`, os_routing_linux.c:612-658, for a message with sequence number, route, RTM_NEWROUTE or RTM_DELROUTE; `query`: the objects with `cb_get` and their filters -/
def message (query : Nat → Option (Nat → Bool)) (p : P) (seq route : Nat) (new : Bool) : P :=
  match if seq = 0 then none else p.wait.find? (fun x => x.2 = seq) with
  | some x => match query x.1 with
    | some filter => if filter route then { p with got := p.got ++ [(x.1, route)] } else p
    | none => p
  | none => { p with heard := p.heard ++ [(route, new)] }

/-- histories -/
inductive Ev where
  | send (id : Nat)
  | answer (seq : Nat) (error : Int)
  | interrupt (id : Nat)
  | timeout (error : Int)
  | message (seq route : Nat) (new : Bool)
deriving DecidableEq, Repr

def ev (query : Nat → Option (Nat → Bool)) (p : P) : Ev → Option P
  | .send id => send p id
  | .answer seq error => some (answer p seq error)
  | .interrupt id => some (interrupt p id)
  | .timeout error => match timeout (fun _ => []) error (p.wait.length + 1) p with | .ok p => some p | _ => none
  | .message seq route new => some (message query p seq route new)

def run (query : Nat → Option (Nat → Bool)) (p : P) : List Ev → Option P
  | [] => some p
  | e :: es => (ev query p e).bind fun p => run query p es

end Verif.RtNl
