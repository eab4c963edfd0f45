/-! # The additional checks of HELLO messages

Model of `src/nhdp/nhdpcheck/nhdpcheck.c`, with the part of the reader (`src/librfc5444/rfc5444_reader.c`) that decides which consumer sees which
TLVs. -/

namespace Verif.NhdpCheck

/-- a TLV as the reader delivers it: type, length of a single value and its first byte -/
structure Tlv where
  type : Nat
  len : Nat
  val : Nat
  deriving DecidableEq

/-- a HELLO: length of its addresses, the optional fields of the header, its TLVs and the TLVs of each of its addresses -/
structure Hello where
  addrLen : Nat
  hopLimit : Option Nat
  hopCount : Option Nat
  tlvs : List Tlv
  addrs : List (List Tlv)
  deriving DecidableEq

/-- `_cb_message_start_callback`, nhdpcheck.c:160-190: `true` is RFC5444_OKAY -/
def start (h : Hello) : Bool :=
  if h.addrLen ≠ 4 ∧ h.addrLen ≠ 16 then false
  else match h.hopLimit with
  | some 1 | none => (match h.hopCount with | some 0 | none => true | some _ => false)
  | some _ => false

/-- the TLVs a consumer entry points to: all of its type, chained by `next_entry` -/
def ofType (ts : List Tlv) (t : Nat) : List Tlv := ts.filter fun x => x.type = t

/-- `_cb_messagetlvs`, nhdpcheck.c:197-236; INTERVAL_TIME has type 0, VALIDITY_TIME type 1 -/
def messageTlvs (ts : List Tlv) : Bool :=
  match ofType ts 1 with
  | [v] =>
    if v.len ≠ 1 then false
    else match ofType ts 0 with
    | [] => true
    | [i] => if i.len ≠ 1 then false else if i.val > v.val then false else true
    | _ => false
  | _ => false

/-- the tests of one type of TLV, e.g. nhdpcheck.c:251-263: at most one, with a value of one byte -/
def single (ts : List Tlv) : Bool :=
  match ts with
  | [] => true
  | [t] => if t.len ≠ 1 then false else true
  | _ => false

/-- `_cb_addresstlvs`, nhdpcheck.c:245-308: LOCAL_IF is 2, LINK_STATUS 3, OTHER_NEIGHB 4 -/
def addressTlvs (ts : List Tlv) : Bool :=
  if ofType ts 2 ≠ [] ∧ (single (ofType ts 2) = false ∨ ofType ts 3 ≠ [] ∨ ofType ts 4 ≠ []) then false
  else if single (ofType ts 3) = false then false
  else single (ofType ts 4)

/-- a consumer: is it for addresses (`addrblock_consumer`), and its callback -/
structure Consumer where
  addrblock : Bool
  block : List Tlv → Bool

/-- the reader: consumers for messages get the TLVs of the message, those for addresses the TLVs of each address (rfc5444_reader.c:1195-1225) -/
def Consumer.accepts (c : Consumer) (h : Hello) : Bool := if c.addrblock then h.addrs.all c.block else c.block h.tlvs

/-- `_nhdp_message_consumer` and `_nhdp_address_consumer`, nhdpcheck.c:103-124; none of them sets `addrblock_consumer` -/
def messageConsumer : Consumer := ⟨false, messageTlvs⟩
def addressConsumer : Consumer := ⟨false, addressTlvs⟩

/-- does the message reach NHDP -/
def passes (h : Hello) : Bool := start h && messageConsumer.accepts h && addressConsumer.accepts h

end Verif.NhdpCheck
