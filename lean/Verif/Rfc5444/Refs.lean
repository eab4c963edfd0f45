/-
Model of the reference counts of `src/base/oonf_rfc5444.c`: one protocol, its interfaces and their unicast targets.
-/
namespace Verif.Rfc5444

/-- `struct oonf_rfc5444_interface`, oonf_rfc5444.h: identity of the memory, name, `_refcount` and `_listener` list (identities of the
listeners, which are part of structures of the users) -/
structure Ifc where
  id : Nat
  name : Nat
  refs : Nat
  listeners : List Nat
deriving DecidableEq, Repr

/-- `struct oonf_rfc5444_target`: identity, interface, destination, `_refcount` -/
structure Tgt where
  id : Nat
  ifc : Nat
  dst : Nat
  refs : Nat
deriving DecidableEq, Repr

/-- all memory: `_refcount` of the protocol (`none`: freed), existing interfaces and unicast targets, next identity, listeners whose memory was
freed by their users -/
structure Heap where
  proto : Option Nat := none
  ifs : List Ifc := []
  tgts : List Tgt := []
  next : Nat := 1
  gone : List Nat := []
deriving DecidableEq, Repr

/-- `oonf_rfc5444_add_protocol`, oonf_rfc5444.c:434-477, for one name; allocation succeeds -/
def addProtocol (h : Heap) : Heap := { h with proto := some (h.proto.getD 0 + 1) }

/-- `oonf_rfc5444_remove_protocol`, oonf_rfc5444.c:483-508; `none`: use of freed memory.  If the last reference is given up while there are
interfaces, removing them calls this function again, which frees the protocol twice or leaves interfaces of a freed protocol. -/
def removeProtocol (h : Heap) : Option Heap :=
  match h.proto with
  | none => none
  | some r => if r > 1 then some { h with proto := some (r - 1) } else if h.ifs = [] then some { h with proto := none } else none

/-- `oonf_rfc5444_add_interface`, oonf_rfc5444.c:558-621; random numbers and allocation succeed; result with the identity of the interface -/
def addIf (h : Heap) (name : Nat) (l : Option Nat) : Option (Heap × Nat) :=
  match h.proto with
  | none => none
  | some r =>
    match h.ifs.find? (fun x => x.name = name) with
    | none => some ({ h with proto := some (r + 1), ifs := ⟨h.next, name, 1, l.toList⟩ :: h.ifs, next := h.next + 1 }, h.next)
    | some x => some ({ h with ifs := h.ifs.map fun y =>
        if y.id = x.id then { y with refs := y.refs + 1, listeners := y.listeners ++ l.toList } else y }, x.id)

/-- `oonf_rfc5444_remove_interface`, oonf_rfc5444.c:628-673: with other users only the counter changes.  Unhooking the listener uses its
neighbors in the list (here: all of them). -/
def removeIf (h : Heap) (i : Nat) (l : Option Nat) : Option Heap :=
  match h.ifs.find? (fun x => x.id = i) with
  | none => none
  | some x =>
    if x.refs > 1 then some { h with ifs := h.ifs.map fun y => if y.id = i then { y with refs := y.refs - 1 } else y }
    else if l ≠ none ∧ x.listeners.any (fun k => h.gone.contains k) then none
    else removeProtocol { h with ifs := h.ifs.filter fun y => decide (y.id ≠ i), tgts := h.tgts.filter fun t => decide (t.ifc ≠ i) }

/-- a user gives up its interface with its listener, and frees the listener (nhdp_interfaces.c:310-312) -/
def leaveIf (h : Heap) (i : Nat) (l : Option Nat) : Option Heap := (removeIf h i l).map fun h => { h with gone := l.toList ++ h.gone }

/-- `oonf_rfc5444_add_target`, oonf_rfc5444.c:813-838: the reference count of an existing target is not changed, that of the interface always -/
def addTarget (h : Heap) (i dst : Nat) : Option (Heap × Nat) :=
  match h.ifs.find? (fun x => x.id = i) with
  | none => none
  | some _ =>
    let ifs := h.ifs.map fun y => if y.id = i then { y with refs := y.refs + 1 } else y
    match h.tgts.find? (fun t => t.ifc = i ∧ t.dst = dst) with
    | none => some ({ h with ifs, tgts := ⟨h.next, i, dst, 1⟩ :: h.tgts, next := h.next + 1 }, h.next)
    | some t => some ({ h with ifs }, t.id)

/-- `oonf_rfc5444_remove_target`, oonf_rfc5444.c:844-869: the interface is given up before `_destroy_target` (oonf_rfc5444.c:1020-1029)
reads interface and protocol -/
def removeTarget (h : Heap) (t : Nat) : Option Heap :=
  match h.tgts.find? (fun x => x.id = t) with
  | none => none
  | some x =>
    if x.refs > 1 then some { h with tgts := h.tgts.map fun y => if y.id = t then { y with refs := y.refs - 1 } else y }
    else
      match removeIf { h with tgts := h.tgts.filter fun y => decide (y.id ≠ t) } x.ifc none with
      | none => none
      | some h' => if h'.proto = none ∨ h'.ifs.all (fun y => decide (y.id ≠ x.ifc)) then none else some h'

/-- calls of users and an event of the operating system for an interface -/
inductive Op
  | addProtocol
  | removeProtocol
  | addIf (name : Nat) (listener : Option Nat)
  | removeIf (i : Nat) (listener : Option Nat)
  | addTarget (i dst : Nat)
  | removeTarget (t : Nat)
  | useTarget (t : Nat)
  | changed (i : Nat)
deriving DecidableEq, Repr

/-- effect and returned identity (0 if the function returns nothing); `none`: use of freed memory.  `useTarget`: for example
`oonf_rfc5444_send_if`.  `changed`: `_cb_interface_changed`, oonf_rfc5444.c:1440-1455, calls all listeners. -/
def exec (h : Heap) : Op → Option (Heap × Nat)
  | .addProtocol => some (addProtocol h, 0)
  | .removeProtocol => (removeProtocol h).map fun h => (h, 0)
  | .addIf name l => addIf h name l
  | .removeIf i l => (leaveIf h i l).map fun h => (h, 0)
  | .addTarget i dst => addTarget h i dst
  | .removeTarget t => (removeTarget h t).map fun h => (h, 0)
  | .useTarget t => if h.tgts.any (fun x => x.id = t) then some (h, 0) else none
  | .changed i =>
    match h.ifs.find? (fun x => x.id = i) with
    | none => some (h, 0)
    | some x => if x.listeners.any (fun k => h.gone.contains k) then none else some (h, 0)

end Verif.Rfc5444
