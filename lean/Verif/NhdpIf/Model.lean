import Verif.Netaddr.Model
/-
Model of `src/nhdp/nhdp/nhdp_interfaces.c` (families used for flooding, life cycle of interface addresses, removal of interfaces) and of
`_forwarding_selector` of `src/nhdp/nhdp/nhdp.c`.
-/
namespace Verif.NhdpIf
open Verif.Netaddr

/-! ### flooding -/

/-- what the flooding decision reads of a `struct nhdp_link` (nhdp_db.h): its status is `NHDP_LINK_SYMMETRIC`, its dualstack partner
(the identity of a link is a number) and the family of the originator of its neighbor -/
structure Link where
  id : Nat
  sym : Bool
  partner : Option Nat
  fam : UInt8
deriving DecidableEq, Repr

/-- the three counters of `nhdp_interface_update_status` (32 bit, no wrap around with fewer than 2^32 links) -/
structure Counts where
  v4 : Nat := 0
  v6 : Nat := 0
  dual : Nat := 0
deriving DecidableEq, Repr

/-- one round of the loop of `nhdp_interface_update_status`, nhdp_interfaces.c:154-176 -/
def countLink (c : Counts) (l : Link) : Counts :=
  if l.sym = false then c
  else if l.partner ≠ none then
    if l.fam = AF_INET then { c with dual := c.dual + 1 } else c
  else if l.fam = AF_INET then { c with v4 := c.v4 + 1 }
  else if l.fam = AF_INET6 then { c with v6 := c.v6 + 1 }
  else c

/-- the cached decision in `struct nhdp_interface` (nhdp_interfaces.h): `use_ipv4_for_flooding`, `use_ipv6_for_flooding`,
`dualstack_af_type` -/
structure Flood where
  use4 : Bool
  use6 : Bool
  dualAf : UInt8
deriving DecidableEq, Repr

/-- `nhdp_interface_update_status`, nhdp_interfaces.c:146-199 -/
def updateStatus (links : List Link) : Flood :=
  let c := links.foldl countLink {}
  { use4 := decide (c.v4 > 0)
    use6 := decide (c.v6 > 0 ∨ (c.v4 = 0 ∧ c.dual > 0))
    dualAf := if c.dual > 0 then (if c.v4 = 0 then AF_INET6 else if c.v6 = 0 then AF_INET else AF_UNSPEC) else AF_UNSPEC }

/-- the kinds of targets of an rfc5444 interface: the two multicast targets and unicast ones -/
inductive Target | multicast4 | multicast6 | unicast
deriving DecidableEq, Repr

/-- `_forwarding_selector`, nhdp.c:325-363 (`none`: the interface is not known to NHDP) -/
def forwardingSelector (f : Option Flood) (t : Target) : Bool :=
  let isV4 := t = .multicast4
  if ¬ isV4 ∧ t ≠ .multicast6 then false
  else
    match f with
    | none => false
    | some f => if isV4 then f.use4 || decide (f.dualAf = AF_INET) else f.use6 || decide (f.dualAf = AF_INET6)

/-! ### addresses of interfaces -/

/-- `struct nhdp_interface_addr` (nhdp_interfaces.h) with the interface (a number) and the time when its timer `_vtime` fires (`none`: the
timer does not run).  One list holds the addresses of all interfaces: each is always in the tree of its interface and in the global one. -/
structure Entry where
  ifc : Nat
  addr : Netaddr
  toBeRemoved : Bool := false
  removed : Bool := false
  due : Option Nat := none
deriving DecidableEq, Repr

/-- what `_cb_interface_event` sees of the operating system and the rfc5444 layer: interface data is available and has the flag "up", loopback
flag, the multicast targets are active, the addresses of the interface, the decision of the address filter (C22) -/
structure Env where
  up : Bool
  loopback : Bool
  active4 : Bool
  active6 : Bool
  addrs : List Netaddr
  accept : Netaddr → Bool

/-- state: addresses of all interfaces and `i_hold_time` of each interface (0 for a new one, memory is zeroed) -/
structure St where
  entries : List Entry := []
  hold : Nat → Nat := fun _ => 0

def Entry.is (i : Nat) (a : Netaddr) (e : Entry) : Bool := decide (e.ifc = i ∧ e.addr = a)

/-- `avl_find_element(&interf->_if_addresses, ...)`: the comparator compares family, bytes and prefix length (C20) -/
def find (es : List Entry) (i : Nat) (a : Netaddr) : Option Entry := es.find? (Entry.is i a)

/-- `_addr_add`, nhdp_interfaces.c:408-446; allocation succeeds -/
def addrAdd (es : List Entry) (i : Nat) (a : Netaddr) : List Entry :=
  match find es i a with
  | none => es ++ [{ ifc := i, addr := a }]
  | some _ => es.map fun e => if e.is i a then { e with due := none, toBeRemoved := false, removed := false } else e

/-- loop over the addresses of the operating system, nhdp_interfaces.c:559-577 -/
def addLoop (env : Env) (i : Nat) : List Entry → List Netaddr → List Entry
  | es, [] => es
  | es, a :: as =>
    if a.type = AF_INET ∧ ¬ (env.loopback || env.active4) then addLoop env i es as
    else if a.type = AF_INET6 ∧ ¬ (env.loopback || env.active6) then addLoop env i es as
    else if env.accept a then addLoop env i (addrAdd es i a) as
    else addLoop env i es as

/-- `oonf_timer_set`, oonf_timer.c:230-239: relative time 0 stops the timer.  Timers fire at their exact time, the granularity of the
scheduler is part of C26-C28. -/
def timerSet (now vtime : Nat) : Option Nat := if vtime = 0 then none else some (now + vtime)

/-- `_addr_has_been_removed`, nhdp_interfaces.c:453-464 -/
def hasBeenRemoved (now vtime : Nat) (e : Entry) : Entry := { e with removed := true, due := timerSet now vtime }

/-- first loop of `_cb_interface_event`, nhdp_interfaces.c:542-545 -/
def markAll (i : Nat) (es : List Entry) : List Entry := es.map fun e => if e.ifc = i then { e with toBeRemoved := true } else e

/-- last address loop of `_cb_interface_event`, nhdp_interfaces.c:580-586 -/
def removeOld (now vtime i : Nat) (es : List Entry) : List Entry :=
  es.map fun e => if e.ifc = i ∧ e.toBeRemoved = true ∧ e.removed = false then hasBeenRemoved now vtime { e with toBeRemoved := false } else e

/-- the address part of `_cb_interface_event`, nhdp_interfaces.c:525-586 -/
def interfaceEvent (s : St) (now i : Nat) (env : Env) : St :=
  let es := markAll i s.entries
  let es := if env.up then addLoop env i es env.addrs else es
  { s with entries := removeOld now (s.hold i) i es }

/-- `has_active_addr` of `_cb_interface_event`, nhdp_interfaces.c:547, 575; the links become unsymmetric if it is false (588-595) -/
def hasActiveAddr (env : Env) : Bool :=
  env.up && env.addrs.any fun a => !(decide (a.type = AF_INET) && !(env.loopback || env.active4)) &&
    !(decide (a.type = AF_INET6) && !(env.loopback || env.active6)) && env.accept a

/-- `nhdp_interface_apply_settings`, nhdp_interfaces.c:319-346: the event first, then the new hold time (`validity` is the configured time,
`overwrite` the one set by `nhdp_set_hello_validity`) -/
def applySettings (s : St) (now i : Nat) (env : Env) (overwrite validity : Nat) : St :=
  let s := interfaceEvent s now i env
  { s with hold := fun j => if j = i then (if overwrite = 0 then validity else overwrite) else s.hold j }

/-- timers which are due fire: `_cb_addr_timeout`, nhdp_interfaces.c:484-490, with `_remove_addr`, nhdp_interfaces.c:470-478 -/
def expire (t : Nat) (s : St) : St := { s with entries := s.entries.filter fun e => !(match e.due with | some d => decide (d ≤ t) | none => false) }

/-- last user of an interface is gone, `nhdp_interface_remove`, nhdp_interfaces.c:286-312: all its addresses are removed; the memory of a
later interface of this name is zeroed -/
def removeInterface (s : St) (i : Nat) : St :=
  { entries := s.entries.filter fun e => decide (e.ifc ≠ i), hold := fun j => if j = i then 0 else s.hold j }

inductive Ev
  | change (i : Nat) (env : Env)
  | settings (i : Nat) (env : Env) (overwrite validity : Nat)
  | remove (i : Nat)
  | wait

/-- an event at a time, timers fire before it -/
def step (s : St) (t : Nat) (e : Ev) : St :=
  let s := expire t s
  match e with
  | .change i env => interfaceEvent s t i env
  | .settings i env o v => applySettings s t i env o v
  | .remove i => removeInterface s i
  | .wait => s

/-- state after a history of timed events, newest event first -/
def run : List (Nat × Ev) → St
  | [] => {}
  | (t, e) :: h => step (run h) t e

/-- first part of `avl_comp_ifaddr`, nhdp_interfaces.c:498-510, as equality: family and the 16 bytes, without prefix length -/
def sameHost (a b : Netaddr) : Bool := decide (a.type = b.type ∧ a.addr = b.addr)

/-- `nhdp_interface_addr_global_get`, nhdp_interfaces.h: search in the tree of all addresses -/
def globalGet (s : St) (a : Netaddr) : Option Entry := s.entries.find? fun e => sameHost e.addr a

/-! ### users of an interface -/

/-- the `_refcount` of an interface (0: there is none of this name), how many interfaces of this name were allocated so far, and the links:
number, interface they point to (`local_if`) and which of the interfaces of this name it is -/
structure Reg where
  refs : Nat → Nat := fun _ => 0
  gen : Nat → Nat := fun _ => 0
  links : List (Nat × Nat × Nat) := []

/-- `nhdp_interface_add`, nhdp_interfaces.c:206-266: allocates if the interface is unknown -/
def ifAdd (r : Reg) (i : Nat) : Reg :=
  { r with gen := fun j => if j = i ∧ r.refs i = 0 then r.gen i + 1 else r.gen j
           refs := fun j => if j = i then r.refs i + 1 else r.refs j }

/-- `nhdp_interface_remove`, nhdp_interfaces.c:272-313: the interface is freed with its last user, its links stay.  Callers look up the
interface before (nhdp.c:405-419): nothing happens if there is none. -/
def ifRemove (r : Reg) (i : Nat) : Reg := { r with refs := fun j => if j = i then r.refs i - 1 else r.refs j }

/-- `nhdp_db_link_add`, nhdp_db.c:530-572: a HELLO of an unknown neighbor arrived on an interface (if NHDP does not know the interface the
HELLO is dropped, nhdp_reader.c) -/
def linkAdd (r : Reg) (l i : Nat) : Reg := if r.refs i = 0 then r else { r with links := (l, i, r.gen i) :: r.links }

/-- `nhdp_db_link_remove`, nhdp_db.c:607-645: unhooks the link from trees and lists of its interface; `none`: the memory of the interface is
freed -/
def linkRemove (r : Reg) (l : Nat) : Option Reg :=
  match r.links.find? (fun p => p.1 = l) with
  | none => some r
  | some p => if r.refs p.2.1 = 0 ∨ r.gen p.2.1 ≠ p.2.2 then none else some { r with links := r.links.filter fun q => decide (q.1 ≠ l) }

inductive RegEv
  | add (i : Nat)
  | remove (i : Nat)
  | hello (l i : Nat)
  | timeout (l : Nat)
deriving DecidableEq, Repr

def regStep (r : Reg) : RegEv → Option Reg
  | .add i => some (ifAdd r i)
  | .remove i => some (ifRemove r i)
  | .hello l i => some (if r.links.any (fun p => p.1 = l) then r else linkAdd r l i)
  | .timeout l => linkRemove r l

/-- state after a history, newest event first; `none`: freed memory was used -/
def regRun : List RegEv → Option Reg
  | [] => some {}
  | e :: h => (regRun h).bind fun r => regStep r e

end Verif.NhdpIf
