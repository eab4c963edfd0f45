/-!
# DLEP signals and TLVs

Model of the TLV parser and the signal loop of src/generic/dlep/dlep_session.c and of the TLV writer of
src/generic/dlep/dlep_writer.c.

Simplifications:
* The tree `allowed_tlvs` (an AVL tree without duplicate keys, area Avl) is a list of entries which is searched
  by its id.
* Logging is left out.
-/

namespace Verif.Dlep

abbrev Bytes := List UInt8

/-- a 16-bit number in network byte order (`htons`) -/
def be16 (n : Nat) : Bytes := [(n / 256).toUInt8, (n % 256).toUInt8]

/-- two bytes as a number (`ntohs`) -/
def num16 (hi lo : UInt8) : Nat := hi.toNat * 256 + lo.toNat

/-! ### the parser -/

/-- the errors of `enum dlep_parser_error`, include/oonf/generic/dlep/dlep_session.h:67-98 -/
inductive PErr where
  | terminated
  | incompleteHeader
  | incompleteTlv
  | unsupported
  | illegalLength
  | missingMandatory
  | duplicate
  | outOfMemory
  | internal
deriving DecidableEq, Repr

/-- `struct dlep_parser_tlv`, dlep_session.h:103-124; `none` is the index -1 -/
structure Tlv where
  id : Nat
  min : Nat
  max : Nat
  first : Option Nat := none
  last : Option Nat := none
deriving DecidableEq, Repr

/-- `struct dlep_parser_value`, dlep_session.h:129-138; `none` is the index -1 -/
structure Value where
  next : Option Nat
  index : Nat
  length : Nat
deriving DecidableEq, Repr

/-- the part of `struct dlep_session_parser` (dlep_session.h:143-164) which the parser of TLVs uses.  `alloc` is
the number of elements of the memory block behind `values`; elements which have not been written have no content,
so `values` is the list of the elements written for the current signal. -/
structure Parser where
  tlvs : List Tlv
  values : List Value
  maxCount : Nat
  alloc : Nat
deriving DecidableEq, Repr

/-- `SESSION_VALUE_STEP`, dlep_session.c:64 -/
def STEP : Nat := 128

/-- result of a run of the parser: parser error, accepted, or an access outside of a block of memory -/
inductive Outcome (α : Type) where
  | ok (a : α)
  | err (e : PErr) (a : α)
  | fault
deriving DecidableEq, Repr

/-- `dlep_parser_get_tlv`, dlep_session.h:381-385 -/
def getTlv (tlvs : List Tlv) (id : Nat) : Option Tlv := tlvs.find? (fun t => t.id == id)

/-- change of the entry found by `getTlv` -/
def setTlv (tlvs : List Tlv) (id : Nat) (f : Tlv → Tlv) : List Tlv := tlvs.map (fun t => if t.id = id then f t else t)

/-- the element `parser->values[i]`; `none` outside of what has been written -/
def setNext (values : List Value) (i n : Nat) : Option (List Value) :=
  match values[i]? with
  | none => none
  | some v => some (values.set i { v with next := some n })

/-- "remember tlv value", dlep_session.c:930-946 -/
def remember (p : Parser) (t : Tlv) (idx len : Nat) : Option Parser :=
  let count := p.values.length
  if p.alloc ≤ count then none
  else
    let values := p.values ++ [⟨none, idx % 65536, len⟩]
    match t.last with
    | none => some { p with values, tlvs := setTlv p.tlvs t.id fun t => { t with first := some count, last := some count } }
    | some l =>
      match setNext values l count with
      | none => none
      | some values => some { p with values, tlvs := setTlv p.tlvs t.id fun t => { t with last := some count } }

/-- "check if we need to allocate more space for value pointers", dlep_session.c:917-926; `mem` tells whether
`realloc` succeeds for this number of elements -/
def grow (mem : Nat → Bool) (p : Parser) : Option Parser :=
  if p.maxCount = p.values.length then
    if mem (p.values.length + STEP) then
      some { p with alloc := p.values.length + STEP, maxCount := p.maxCount + STEP }
    else none
  else some p

/-- the loop of `_parse_tlvstream`, dlep_session.c:878-951: `buffer` is the memory behind the pointer, `length` the
length of the stream of TLVs.  `fuel` bounds the number of rounds (each round advances by at least four bytes). -/
def parseLoop (mem : Nat → Bool) (buffer : Bytes) (length : Nat) : Nat → Nat → Parser → Outcome Parser
  | 0, _, _ => .fault
  | fuel + 1, idx, p =>
    if length ≤ idx then .ok p
    else if length - idx < 4 then .err .incompleteHeader p
    else
      match buffer[idx]?, buffer[idx + 1]?, buffer[idx + 2]?, buffer[idx + 3]? with
      | some t1, some t0, some l1, some l0 =>
        let type := num16 t1 t0
        let len := num16 l1 l0
        if length < idx + 4 + len then .err .incompleteTlv p
        else
          match getTlv p.tlvs type with
          | none => .err .unsupported p
          | some t =>
            if t.max < len ∨ len < t.min then .err .illegalLength p
            else
              match grow mem p with
              | none => .err .outOfMemory p
              | some p =>
                match remember p t (idx + 4) len with
                | none => .fault
                | some p => parseLoop mem buffer length fuel (idx + 4 + len) p
      | _, _, _, _ => .fault

/-- `_parse_tlvstream`, dlep_session.c:859-952 -/
def parseStream (mem : Nat → Bool) (buffer : Bytes) (length : Nat) (p : Parser) : Outcome Parser :=
  parseLoop mem buffer length (length + 1) 0
    { p with values := [], tlvs := p.tlvs.map fun t => { t with first := none, last := none } }

/-- the parser after `dlep_session_add` (dlep_session.c:121-175) for the given TLVs; `value_max_count` is zero
although 128 elements have been allocated -/
def newParser (tlvs : List Tlv) : Parser := ⟨tlvs, [], 0, STEP⟩

/-- `dlep_session_get_tlv_first_value` / `dlep_session_get_tlv_value`, dlep_session.h:393-399 and
dlep_session.c:667-687: the index of the first value (`none`: NULL) -/
def firstValue (p : Parser) (type : Nat) : Option Nat := (getTlv p.tlvs type).bind Tlv.first

/-- the loop "while (value) ... dlep_session_get_next_tlv_value" (dlep_session.h:407-413) of the users: the values
of a chain -/
def chain (values : List Value) : Nat → Option Nat → List Value
  | 0, _ => []
  | _, none => []
  | fuel + 1, some i =>
    match values[i]? with
    | none => []
    | some v => v :: chain values fuel v.next

/-- the bytes of a value, `dlep_session_get_tlv_binary`, dlep_session.h:432-435; `none`: outside of the buffer -/
def bytesOf (buffer : Bytes) (v : Value) : Option Bytes :=
  if v.index + v.length ≤ buffer.length then some ((buffer.drop v.index).take v.length) else none

/-- all values of a type, in the order of the chain -/
def valuesOf (p : Parser) (type : Nat) : List Value := chain p.values p.values.length (firstValue p type)

/-! ### the writer -/

/-- `struct dlep_writer`, dlep_session.h:169-178 and the autobuf behind it -/
structure Writer where
  out : Bytes
  type : Nat := 0
  start : Nat := 0
deriving DecidableEq, Repr

/-- `dlep_writer_start_signal`, dlep_writer.c:67-74 -/
def startSignal (w : Writer) (type : Nat) : Writer :=
  { w with type := type % 65536, start := w.out.length, out := w.out ++ be16 (type % 65536) ++ [0, 0] }

/-- `dlep_writer_add_tlv`, dlep_writer.c:83-88: the length is a 16-bit number, `data` is the memory behind the
pointer; `none`: it is too short -/
def addTlv (w : Writer) (type : Nat) (data : Bytes) (len : Nat) : Option Writer :=
  let len := len % 65536
  if data.length < len then none
  else some { w with out := w.out ++ be16 (type % 65536) ++ be16 len ++ data.take len }

/-- `dlep_writer_add_tlv2`, dlep_writer.c:99-106: both lengths and their sum are 16-bit numbers -/
def addTlv2 (w : Writer) (type : Nat) (d1 : Bytes) (len1 : Nat) (d2 : Bytes) (len2 : Nat) : Option Writer :=
  let len1 := len1 % 65536
  let len2 := len2 % 65536
  if d1.length < len1 ∨ d2.length < len2 then none
  else some { w with
    out := w.out ++ be16 (type % 65536) ++ be16 ((len1 + len2) % 65536) ++ d1.take len1 ++ d2.take len2 }

/-- `dlep_writer_finish_signal`, dlep_writer.c:114-141 (the buffer has not failed): true for success -/
def finishSignal (w : Writer) : Writer × Bool :=
  let length := w.out.length - w.start
  if length > 65535 + 4 then (w, false)
  else ({ w with out := w.out.take (w.start + 2) ++ be16 ((length - 4) % 65536) ++ w.out.drop (w.start + 4) }, true)

end Verif.Dlep
