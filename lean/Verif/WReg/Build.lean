/-!
Model of the functions by which content providers put addresses and address TLVs into a message
(librfc5444/rfc5444_writer.c:190-273, 649-680) up to the list the generator works on.

Simplifications: memory for the objects does not run out; addresses and TLV types are numbers (in the order of the trees); the
sum of used bytes and length does not overflow a `size_t`.
-/

namespace Verif.WReg

/-- `struct rfc5444_writer_address` (rfc5444_writer.h:196-227): `_mandatory_addr` and the tree of TLVs: type, place of the value in the
buffer of the writer, length. -/
structure Addr where
  mand : Bool
  tlvs : List (Nat × Nat × Nat)
deriving Repr, DecidableEq

/-- The lists `_addr_head` and `_non_mandatory_addr_head`, the tree of addresses, the buffer for values of TLVs, and how much of it is used. -/
structure Bld where
  mand : List Nat
  opt : List Nat
  ent : Nat → Option Addr
  buf : Nat → Nat
  used : Nat

/-- The state in which the callbacks of the providers start (rfc5444_writer.c:83-114, 601-603, 679). -/
def Bld.init : Bld := ⟨[], [], fun _ => none, fun _ => 0, 0⟩

/-- `rfc5444_writer_add_address` (rfc5444_writer.c:238-273). -/
def addAddress (b : Bld) (a : Nat) (m : Bool) : Bld :=
  match b.ent a with
  | some e => { b with ent := fun x => if x = a then some { e with mand := e.mand || m } else b.ent x }
  | none =>
    { b with
      mand := if m then b.mand ++ [a] else b.mand
      opt := if m then b.opt else b.opt ++ [a]
      ent := fun x => if x = a then some ⟨m, []⟩ else b.ent x }

/-- Insertion of a TLV into its tree, behind those of the same type (avl.c:164-222). -/
def insertTlv (x : Nat × Nat × Nat) : List (Nat × Nat × Nat) → List (Nat × Nat × Nat)
  | [] => [x]
  | y :: ys => if x.1 < y.1 then x :: y :: ys else y :: insertTlv x ys

/-- Results of `rfc5444_writer_add_addrtlv`. -/
inductive Res
  | okay | duplicate | outOfMem
deriving Repr, DecidableEq

/-- `rfc5444_writer_add_addrtlv` with `_copy_addrtlv_value` (rfc5444_writer.c:190-224, 649-662); nothing for an address object that does
not exist. -/
def addTlv (size : Nat) (b : Bld) (a ty : Nat) (v : List Nat) (dup : Bool) : Option (Bld × Res) :=
  match b.ent a with
  | none => none
  | some e =>
    if !dup && e.tlvs.any (·.1 = ty) then some (b, .duplicate)
    else if v.length > 0 then
      if b.used + v.length > size then some (b, .outOfMem)
      else
        some ({ b with
          ent := fun x => if x = a then some { e with tlvs := insertTlv (ty, b.used, v.length) e.tlvs } else b.ent x
          buf := fun i => if b.used ≤ i ∧ i < b.used + v.length then v.getD (i - b.used) 0 else b.buf i
          used := b.used + v.length }, .okay)
    else
      some ({ b with ent := fun x => if x = a then some { e with tlvs := insertTlv (ty, 0, 0) e.tlvs } else b.ent x }, .okay)

/-- `list_merge` before the generator starts (rfc5444_msg_generator.c:257). -/
def merged (b : Bld) : List Nat := b.mand ++ b.opt

/-- `_rfc5444_writer_free_addresses` (rfc5444_writer.c:669-681): the lists and the tree are empty, the buffer can be used again. -/
def freeAddresses (b : Bld) : Bld := { b with mand := [], opt := [], ent := fun _ => none, used := 0 }

/-- The TLVs of an address as the generator sees them: types and values in the order of the tree. -/
def tlvsOf (b : Bld) (a : Nat) : List (Nat × List Nat) :=
  match b.ent a with
  | none => []
  | some e => e.tlvs.map fun x => (x.1, (List.range x.2.2).map fun i => b.buf (x.2.1 + i))

/-- What a content provider does. -/
inductive Call
  | addr (a : Nat) (m : Bool)
  | tlv (a ty : Nat) (v : List Nat) (dup : Bool)
deriving Repr, DecidableEq

def call (size : Nat) (b : Bld) : Call → Option Bld
  | .addr a m => some (addAddress b a m)
  | .tlv a ty v dup => (addTlv size b a ty v dup).map (·.1)

def calls (size : Nat) (b : Bld) : List Call → Option Bld
  | [] => some b
  | c :: cs => (call size b c).bind fun b => calls size b cs

end Verif.WReg
