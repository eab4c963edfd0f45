/-!
Model of the registry of the RFC 5444 writer (librfc5444/rfc5444_writer.c): message creators, types of address
TLVs, content providers, and the life of the message objects they share.

Simplifications: memory does not run out. Messages, TLV types and providers are numbers; a message object has an
identity of its own (its number in `heap`), so that an object that was freed is never mistaken for a later one of
the same type. A TLV type is linked in a list and points to its message at the same time (628-637, set together),
which is one field here (`tin`), as are the node and the message of a content provider (`pin`, 354-357). Addresses
exist only while a message is created, so the list of addresses (`_addr_head`) is empty in all of these functions.
-/

namespace Verif.WReg

/-- `struct rfc5444_writer_message` (rfc5444_writer.h:310-405): whether it is registered, the header callback its owner
has written into it, the TLV types and the content providers. -/
structure Msg where
  type : Nat
  reg : Bool
  hdr : Option Nat
  types : List Nat
  provs : List Nat
deriving Repr, DecidableEq

/-- `struct rfc5444_writer` (rfc5444_writer.h:511-620): the message objects, the tree `_msgcreators`, the list of TLV
types for all messages, the postprocessors and forward handlers; the links of TLV types (none: not added, `some none`:
list for all messages, `some (some o)`: message o) and content providers. -/
structure W where
  heap : Nat → Option Msg
  tree : Nat → Option Nat
  gen : List Nat
  procs : List Nat
  fwd : List Nat
  next : Nat
  tin : Nat → Option (Option Nat)
  pin : Nat → Option Nat

/-- `rfc5444_writer_init` (rfc5444_writer.c:83-114). -/
def W.init : W := ⟨fun _ => none, fun _ => none, [], [], [], 0, fun _ => none, fun _ => none⟩

/-- Write of one place of a table. -/
def put {α : Type} (f : Nat → α) (k : Nat) (v : α) : Nat → α := fun x => if x = k then v else f x

/-- `_get_message` (rfc5444_writer.c:577-605). -/
def getMessage (w : W) (ty : Nat) : W × Nat :=
  match w.tree ty with
  | some o => (w, o)
  | none =>
    ({ w with heap := put w.heap w.next (some ⟨ty, false, none, [], []⟩), tree := put w.tree ty (some w.next),
              next := w.next + 1 }, w.next)

/-- `_lazy_free_message` (rfc5444_writer.c:688-695): nothing if the object does not exist any more. -/
def lazyFree (w : W) (o : Nat) : Option W :=
  match w.heap o with
  | none => none
  | some m =>
    if !m.reg && m.types.isEmpty && m.provs.isEmpty then
      some { w with heap := put w.heap o none, tree := put w.tree m.type none }
    else some w

/-- `_register_addrtlvtype` (rfc5444_writer.c:617-641): nothing for the failed assertion (a type which is added already)
and for a message which does not exist. -/
def registerType (w : W) (o : Option Nat) (t : Nat) : Option W :=
  match w.tin t with
  | some _ => none
  | none =>
    match o with
    | none => some { w with gen := w.gen ++ [t], tin := put w.tin t (some none) }
    | some o =>
      match w.heap o with
      | none => none
      | some m => some { w with heap := put w.heap o (some { m with types := m.types ++ [t] }), tin := put w.tin t (some (some o)) }

/-- `rfc5444_writer_unregister_addrtlvtype` (rfc5444_writer.c:309-323). -/
def unregisterType (w : W) (t : Nat) : Option W :=
  match w.tin t with
  | none => some w
  | some none => some { w with gen := w.gen.filter (· ≠ t), tin := put w.tin t none }
  | some (some o) =>
    match w.heap o with
    | none => none
    | some m =>
      lazyFree { w with heap := put w.heap o (some { m with types := m.types.filter (· ≠ t) }), tin := put w.tin t none } o

/-- The loop over the TLV types of a provider (rfc5444_writer.c:350-352). -/
def registerTypes (w : W) (o : Nat) : List Nat → Option W
  | [] => some w
  | t :: ts => (registerType w (some o) t).bind fun w => registerTypes w o ts

/-- The loops of unregistering (rfc5444_writer.c:378-380, 166-168). -/
def unregisterTypes (w : W) : List Nat → Option W
  | [] => some w
  | t :: ts => (unregisterType w t).bind fun w => unregisterTypes w ts

/-- Insertion into a tree with equal keys: behind the equal ones (avl.c:164-222, area Avl). -/
def insertProv (prio : Nat → Int) (p : Nat) : List Nat → List Nat
  | [] => [p]
  | q :: qs => if prio p < prio q then p :: q :: qs else q :: insertProv prio p qs

/-- `rfc5444_writer_register_addrtlvtype` (rfc5444_writer.c:284-299): a message type outside 0..255 stands for all. -/
def registerAddrType (w : W) (t : Nat) (ty : Int) : Option W :=
  if 0 ≤ ty ∧ ty ≤ 255 then
    let (w, o) := getMessage w ty.toNat
    registerType w (some o) t
  else registerType w none t

/-- `rfc5444_writer_register_msgcontentprovider` (rfc5444_writer.c:336-358): nothing for a provider which is added
already (its node would be linked twice). -/
def registerProvider (prio : Nat → Int) (w : W) (p ty : Nat) (ts : List Nat) : Option W :=
  let (w, o) := getMessage w ty
  (registerTypes w o ts).bind fun w =>
    match w.pin p, w.heap o with
    | none, some m => some { w with heap := put w.heap o (some { m with provs := insertProv prio p m.provs }), pin := put w.pin p (some o) }
    | _, _ => none

/-- `rfc5444_writer_unregister_content_provider` (rfc5444_writer.c:369-385). -/
def unregisterProvider (w : W) (p : Nat) (ts : List Nat) : Option W :=
  match w.pin p with
  | none => some w
  | some o =>
    (unregisterTypes w ts).bind fun w =>
      match w.heap o with
      | none => none
      | some m => lazyFree { w with heap := put w.heap o (some { m with provs := m.provs.filter (· ≠ p) }), pin := put w.pin p none } o

/-- `rfc5444_writer_register_message` (rfc5444_writer.c:398-422): the object, or nothing if it is registered already. -/
def registerMessage (w : W) (ty : Nat) : W × Option Nat :=
  let (w, o) := getMessage w ty
  match w.heap o with
  | none => (w, none)
  | some m => if m.reg then (w, none) else ({ w with heap := put w.heap o (some { m with reg := true }) }, some o)

/-- `rfc5444_writer_unregister_message` (rfc5444_writer.c:432-447): nothing for an object which does not exist. -/
def unregisterMessage (w : W) (o : Nat) : Option W :=
  match w.heap o with
  | none => none
  | some m => lazyFree { w with heap := put w.heap o (some { m with reg := false }) } o

/-- The owner of a message writes its header callback into the object it got (e.g. nhdp_writer.c:118-120). -/
def setHeader (w : W) (o cb : Nat) : Option W :=
  match w.heap o with
  | none => none
  | some m => some { w with heap := put w.heap o (some { m with hdr := some cb }) }

/-- What `rfc5444_writer_create_message` (rfc5444_msg_generator.c:129-133, 213, 231-235) uses of the registry: nothing if there
is no message creator, otherwise the header callback and the content providers in the order of their calls. -/
def create (w : W) (ty : Nat) : Option (Option Nat × List Nat) :=
  match w.tree ty with
  | none => none
  | some o => (w.heap o).map fun m => (m.hdr, m.provs)

/-- The providers of a message are removed one after the other (rfc5444_writer.c:160-163). -/
def unregisterProvs (w : W) : List Nat → Option W
  | [] => some w
  | p :: ps => (unregisterProvider w p []).bind fun w => unregisterProvs w ps

/-- One message of `rfc5444_writer_cleanup` (rfc5444_writer.c:155-173). -/
def cleanupMsg (w : W) (ty : Nat) : Option W :=
  match w.tree ty with
  | none => some w
  | some o =>
    match w.heap o with
    | none => none
    | some m =>
      (unregisterProvs { w with heap := put w.heap o (some { m with reg := true }) } m.provs).bind fun w =>
        (unregisterTypes w m.types).bind fun w => unregisterMessage w o

/-- All messages in the order of their types. -/
def cleanupMsgs (w : W) : List Nat → Option W
  | [] => some w
  | ty :: tys => (cleanupMsg w ty).bind fun w => cleanupMsgs w tys

/-- The message types. -/
def allTypes : List Nat := List.range 256

/-- `rfc5444_writer_cleanup` (rfc5444_writer.c:123-174): TLV types for all messages, postprocessors, then the messages;
the forward handlers are not mentioned there. -/
def cleanup (w : W) : Option W :=
  (unregisterTypes w w.gen).bind fun w => cleanupMsgs { w with procs := [] } allTypes

/-- The calls of the users of the writer. A message is unregistered with the object that its registration returned. -/
inductive Op
  | regType (t : Nat) (ty : Int)
  | unregType (t : Nat)
  | regProv (p ty : Nat) (ts : List Nat)
  | unregProv (p : Nat) (ts : List Nat)
  | regMsg (ty : Nat)
  | unregMsg (ty : Nat)
  | setHdr (ty cb : Nat)
  | regFwd (f : Nat)
deriving Repr, DecidableEq

/-- The writer and the objects its users have got. -/
structure St where
  w : W
  held : Nat → Option Nat

def St.init : St := ⟨W.init, fun _ => none⟩

/-- The result of a registration goes to its user. -/
def keep (held : Nat → Option Nat) (ty : Nat) : Option Nat → (Nat → Option Nat)
  | none => held
  | some o => put held ty (some o)

/-- One call; nothing if it does something undefined. `rfc5444_writer_register_forward_handler` is rfc5444_writer.c:478-481. -/
def step (prio : Nat → Int) (s : St) : Op → Option St
  | .regType t ty => (registerAddrType s.w t ty).map fun w => { s with w := w }
  | .unregType t => (unregisterType s.w t).map fun w => { s with w := w }
  | .regProv p ty ts => (registerProvider prio s.w p ty ts).map fun w => { s with w := w }
  | .unregProv p ts => (unregisterProvider s.w p ts).map fun w => { s with w := w }
  | .regMsg ty => some ⟨(registerMessage s.w ty).1, keep s.held ty (registerMessage s.w ty).2⟩
  | .unregMsg ty =>
    match s.held ty with
    | none => some s
    | some o => (unregisterMessage s.w o).map fun w => ⟨w, put s.held ty none⟩
  | .setHdr ty cb =>
    match s.held ty with
    | none => some s
    | some o => (setHeader s.w o cb).map fun w => { s with w := w }
  | .regFwd f => some { s with w := { s.w with fwd := s.w.fwd ++ [f] } }

def run (prio : Nat → Int) (s : St) : List Op → Option St
  | [] => some s
  | op :: ops => (step prio s op).bind fun s => run prio s ops

end Verif.WReg
