/-
Listeners of a network interface: /repo/src/base/os_linux/os_interface_linux.c:306-390, 911-938, 1395-1429; answers to requests for addresses,
os_interface_linux.c:439-502, 1254-1316.
-/
namespace Verif.OsIf

/-- `struct os_interface_listener`: `_dirty`; `unseen` (not in the code): the interface has changed since the handler was called last -/
structure Lst where
  id : Nat
  dirty : Bool
  unseen : Bool
deriving DecidableEq, Repr

/-- `struct os_interface`: flag `any`, listeners, whether the timer runs, `_link_initialized`, `_addr_initialized` -/
structure Ifc where
  any : Bool := false
  ls : List Lst := []
  timer : Bool := false
  link : Bool := false
  addr : Bool := false
deriving DecidableEq, Repr

/-- all data are there, os_interface_linux.c:1402 -/
def Ifc.ready (s : Ifc) : Bool := s.any || (s.link && s.addr)

inductive Ev where
  | add (id : Nat)
  | remove (id : Nat)
  | trigger (id : Nat)
  | change (link addr : Bool)
  | fire (fails : Nat → Bool)

/-- `os_interface_linux_add`, os_interface_linux.c:322-337, of a listener that is not there -/
def addL (s : Ifc) (id : Nat) : Ifc := { s with ls := s.ls ++ [⟨id, true, true⟩], timer := true }

/-- `os_interface_linux_trigger_handler`, os_interface_linux.c:385-390 -/
def triggerL (s : Ifc) (id : Nat) : Ifc := { s with ls := s.ls.map fun l => if l.id = id then { l with dirty := true } else l, timer := true }

/-- `_trigger_if_change`, os_interface_linux.c:911-923, after new data for the link or the addresses (for the interface `any`: of any interface) -/
def change (s : Ifc) (link addr : Bool) : Ifc :=
  let ls := s.ls.map fun l => { l with unseen := true }
  { s with link := s.link || link, addr := s.addr || addr, timer := true, ls := if s.timer then ls else ls.map fun l => { l with dirty := true } }

/-- `_cb_delayed_interface_changed`, os_interface_linux.c:1395-1429: the listeners whose handlers are called, and the new state;
`fails`: the handler asks to be called again -/
def fire (s : Ifc) (fails : Nat → Bool) : Ifc × List Nat :=
  if !s.timer then (s, [])
  else if !s.ready then ({ s with timer := false }, [])
  else
    ({ s with timer := s.ls.any (fun l => l.dirty && fails l.id), ls := s.ls.map fun l => if l.dirty then { l with dirty := fails l.id, unseen := false } else l },
      (s.ls.filter (·.dirty)).map (·.id))

def ev (s : Ifc) : Ev → Ifc × List Nat
  | .add id => (addL s id, [])
  | .remove id => ({ s with ls := s.ls.filter (fun l => l.id ≠ id) }, [])
  | .trigger id => (triggerL s id, [])
  | .change l a => (change s l a, [])
  | .fire f => fire s f

/-- the state and all calls of handlers -/
def evs (x : Ifc × List Nat) (es : List Ev) : Ifc × List Nat := es.foldl (fun x e => ((ev x.1 e).1, x.2 ++ (ev x.1 e).2)) x

/-! ### answers to requests -/

/-- requests that wait for an answer: `_rtnetlink_feedback`, with their numbers; calls of `cb_finished` -/
structure Pend where
  waiting : List (Nat × Nat) := []
  told : List (Nat × Int) := []
deriving DecidableEq, Repr

/-- `os_interface_linux_address_set`, os_interface_linux.c:477-485: the request `id` gets the number `seq` -/
def request (p : Pend) (id seq : Nat) : Pend := { p with waiting := p.waiting ++ [(id, seq)] }

/-- `_cb_rtnetlink_error` and `_cb_rtnetlink_done`, os_interface_linux.c:1254-1266 and 1287-1316: the first request with this number -/
def answered (p : Pend) (seq : Nat) (error : Int) : Pend :=
  match p.waiting.find? (fun x => x.2 = seq) with
  | none => p
  | some x => { waiting := p.waiting.erase x, told := p.told ++ [(x.1, error)] }

/-- `os_interface_linux_address_interrupt`, os_interface_linux.c:493-502 -/
def interrupt (p : Pend) (id : Nat) : Pend :=
  match p.waiting.find? (fun x => x.1 = id) with
  | none => p
  | some x => { waiting := p.waiting.erase x, told := p.told ++ [(x.1, -1)] }

/-- `_cb_rtnetlink_timeout`, os_interface_linux.c:1272-1280: `list_for_each_element` reads `next` of a node that `_address_finished` has taken out
of the list, which makes it null. `none`: null is dereferenced. -/
def timedOut (p : Pend) : Option Pend :=
  match p.waiting with
  | [] => some p
  | _ :: _ => none

end Verif.OsIf
