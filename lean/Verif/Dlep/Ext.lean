import Verif.Dlep.Model

/-!
# Extensions of DLEP sessions

Model of the rules of extensions for messages and of the negotiation of extensions in
src/generic/dlep/dlep_session.c, with the tables of the seven extensions in src/generic/dlep/ext_*.

Simplifications:
* The callbacks of extensions are functions on an application state; the callbacks of the session initialisation,
  which change the list of active extensions, are the negotiation part.
* The tree of extensions is a list ordered by id; extensions are identified by their id.
* The allocation of TLV entries succeeds.
-/

namespace Verif.Dlep

/-- `struct dlep_extension_signal`, dlep_extension.h:59-116: one callback for the role (radio or router) of the
session; its result tells whether it succeeded -/
structure Signal (α : Type) where
  id : Int
  supported : List Nat := []
  mandatory : List Nat := []
  duplicate : List Nat := []
  process : Option (α → α × Bool) := none

/-- `struct dlep_extension`, dlep_extension.h:267-: `deactivate` tells whether the callbacks
`cb_session_deactivate_radio` and `_router` are set -/
structure Ext (α : Type) where
  id : Int
  signals : List (Signal α) := []
  tlvs : List (Nat × Nat × Nat) := []
  deactivate : Bool := false

variable {α : Type}

/-- the loop over the mandatory TLVs, dlep_session.c:982-1000 -/
def mandatoryLoop (q : Parser) : List Nat → Option PErr
  | [] => none
  | t :: l =>
    match getTlv q.tlvs t with
    | none => some .internal
    | some tlv => if tlv.first = none then some .missingMandatory else mandatoryLoop q l

/-- `_check_mandatory`, dlep_session.c:961-1002; `none` is DLEP_NEW_PARSER_OKAY -/
def checkMandatory (q : Parser) (e : Ext α) (sig : Int) : Option PErr :=
  match e.signals.find? (fun s => s.id == sig) with
  | none => none
  | some s => mandatoryLoop q s.mandatory

/-- the loop over the supported TLVs, dlep_session.c:1033-1054 -/
def duplicateLoop (q : Parser) (dup : List Nat) : List Nat → Option PErr
  | [] => none
  | t :: l =>
    match getTlv q.tlvs t with
    | none => duplicateLoop q dup l
    | some tlv =>
      if tlv.first = tlv.last then duplicateLoop q dup l
      else if dup.contains tlv.id then duplicateLoop q dup l
      else some .duplicate

/-- the signal whose rules `_check_duplicate` uses, dlep_session.c:1020-1027: the variable keeps the last signal of the
extension if none has the type -/
def duplicateSignal (e : Ext α) (sig : Int) : Option (Signal α) :=
  match e.signals.find? (fun s => s.id == sig) with
  | none => e.signals.getLast?
  | some s => some s

/-- `_check_duplicate`, dlep_session.c:1011-1056 -/
def checkDuplicate (q : Parser) (e : Ext α) (sig : Int) : Option PErr :=
  match duplicateSignal e sig with
  | none => none
  | some s => duplicateLoop q s.duplicate s.supported

/-- `_call_extension_processing`, dlep_session.c:1065-1091 -/
def callProcessing (e : Ext α) (sig : Int) (a : α) : α × Option PErr :=
  match e.signals.find? (fun s => s.id == sig) with
  | none => (a, none)
  | some s =>
    match s.process with
    | none => (a, none)
    | some f => if (f a).2 then ((f a).1, none) else ((f a).1, some .terminated)

/-- `_handle_extension`, dlep_session.c:757-794 -/
def handleExtension (q : Parser) (active : List Int) (e : Ext α) (sig : Int) (a : α) : α × Option PErr :=
  if active.contains e.id = false then (a, none)
  else
    match checkMandatory q e sig with
    | some r => (a, some r)
    | none =>
      match checkDuplicate q e sig with
      | some r => (a, some r)
      | none => callProcessing e sig a

/-- the loop of `_process_tlvs`, dlep_session.c:815-819 -/
def handleExtensions (q : Parser) (active : List Int) (sig : Int) : List (Ext α) → α → α × Option PErr
  | [], a => (a, none)
  | e :: l, a =>
    match handleExtension q active e sig a with
    | (a, some r) => (a, some r)
    | (a, none) => handleExtensions q active sig l a

/-- `_process_tlvs`, dlep_session.c:804-821: parser, application, result; `none`: access outside of memory -/
def processTlvs (mem : Nat → Bool) (active : List Int) (sig : Int) (exts : List (Ext α)) (buffer : Bytes) (length : Nat)
    (p : Parser) (a : α) : Option (Parser × α × Option PErr) :=
  match parseStream mem buffer length p with
  | .fault => none
  | .err e q => some (q, a, some e)
  | .ok q => some (q, handleExtensions q active sig exts a)

/-! ### negotiation -/

/-- `DLEP_EXTENSION_BASE_COUNT`, dlep_iana.h:85 -/
def BASE_COUNT : Nat := 3

/-- size of the array of active extensions, dlep_session.h:154 -/
def EXT_SLOTS : Nat := 7

/-- one TLV of an extension, dlep_session.c:715-735; `none`: conflict -/
def allowTlv (tlvs : List (Tlv × Bool)) (e : Nat × Nat × Nat) : Option (List (Tlv × Bool)) :=
  match tlvs.find? (fun t => t.1.id == e.1) with
  | none => some (tlvs ++ [(⟨e.1, e.2.1, e.2.2, none, none⟩, false)])
  | some t =>
    if t.1.min ≠ e.2.1 ∨ t.1.max ≠ e.2.2 then none
    else some (tlvs.map fun t => if t.1.id = e.1 then (t.1, false) else t)

/-- the TLVs of several extensions, dlep_session.c:711-737 -/
def allowTlvs : List (Nat × Nat × Nat) → List (Tlv × Bool) → Option (List (Tlv × Bool))
  | [], tlvs => some tlvs
  | e :: l, tlvs => (allowTlv tlvs e).bind (allowTlvs l)

/-- `_update_allowed_tlvs`, dlep_session.c:695-748; the flag is `remove`; `none`: conflict -/
def updateAllowed (tlvs : List Tlv) (exts : List (Ext α)) : Option (List Tlv) :=
  (allowTlvs (exts.flatMap fun e => e.tlvs) (tlvs.map fun t => (t, true))).map fun l =>
    (l.filter fun t => t.2 = false).map Prod.fst

/-- result of the negotiation -/
inductive Nego (α : Type) where
  | ok (active : List (Ext α)) (tlvs : List Tlv)
  | conflict
  | fault
deriving Inhabited

/-- the ids of the TLV: pairs of bytes, a last single byte is ignored -/
def idsOf : Bytes → List Nat
  | a :: b :: l => num16 a b :: idsOf l
  | _ => []

/-- the new list of extensions, dlep_session.c:264-275; `none`: written behind the array -/
def addExtensions (exts : List (Ext α)) : List Nat → List (Ext α) → Option (List (Ext α))
  | [], act => some act
  | i :: l, act =>
    match exts.find? (fun e => e.id == (i : Int)) with
    | none => addExtensions exts l act
    | some e => if EXT_SLOTS ≤ act.length then none else addExtensions exts l (act ++ [e])

/-- `dlep_session_update_extensions`, dlep_session.c:233-277 (the deactivation callbacks of the link id extension
change the configured length of link ids only, lid.c:187-189); a call through a null pointer is a fault -/
def updateExtensions (exts active : List (Ext α)) (tlvs : List Tlv) (value : Bytes) : Nego α :=
  let ids := idsOf value
  let gone := (active.drop BASE_COUNT).filter fun e => !(ids.any fun i => (i : Int) == e.id)
  if gone.any (fun e => !e.deactivate) then .fault
  else
    match addExtensions exts ids (active.take BASE_COUNT) with
    | none => .fault
    | some act =>
      match updateAllowed tlvs act with
      | none => .conflict
      | some t => .ok act t

/-- the extension part of `dlep_session_add`, dlep_session.c:156-168: all extensions, as long as they fit -/
def sessionExtensions (exts : List (Ext α)) : Nego α :=
  if EXT_SLOTS < exts.length then .fault
  else
    match updateAllowed [] exts with
    | none => .conflict
    | some t => .ok exts t

/-! ### the extensions of the daemon -/

/-- ext_base_proto/proto.c:60-337, without callbacks -/
def extProto : Ext α where
  id := -3
  signals := [⟨65537, [], [], [], none⟩, ⟨65538, [4, 2, 3], [], [], none⟩, ⟨1, [5, 4, 6], [5, 4], [], none⟩,
    ⟨2, [5, 1, 4, 6], [5, 1, 4], [], none⟩, ⟨3, [8, 9], [], [8, 9], none⟩, ⟨4, [1], [1], [], none⟩,
    ⟨5, [1], [], [], none⟩, ⟨6, [1], [], [], none⟩, ⟨7, [7, 8, 9, 10, 11], [7], [8, 9, 10, 11], none⟩,
    ⟨8, [7, 1], [7, 1], [], none⟩, ⟨11, [7], [7], [], none⟩, ⟨12, [7, 1], [7, 1], [], none⟩,
    ⟨13, [7, 8, 9, 10, 11], [7], [8, 9, 10, 11], none⟩, ⟨16, [], [], [], none⟩, ⟨14, [7, 14, 15, 16], [7], [], none⟩,
    ⟨15, [7, 12, 13, 14, 15, 16, 17, 18, 19, 1], [7], [], none⟩]
  tlvs := [(1, 1, 65535), (2, 5, 7), (3, 17, 19), (4, 1, 255), (5, 4, 4), (6, 2, 65534), (7, 6, 8), (12, 8, 8),
    (13, 8, 8), (14, 8, 8), (15, 8, 8), (16, 8, 8), (17, 1, 1), (18, 1, 1), (19, 1, 1)]

/-- ext_base_ip/ip.c:80-158 -/
def extIp : Ext α where
  id := -2
  signals := [2, 3, 7, 13].map fun i => ⟨i, [8, 10, 9, 11], [], [8, 10, 9, 11], none⟩
  tlvs := [(7, 6, 8), (8, 5, 5), (10, 6, 6), (9, 17, 17), (11, 18, 18)]

/-- ext_base_metric/metric.c:58-155 -/
def extMetric : Ext α where
  id := -1
  signals := [⟨2, [12, 13, 14, 15, 16, 17, 18, 19, 20], [12, 13, 14, 15, 16], [], none⟩,
    ⟨3, [12, 13, 14, 15, 16, 17, 18, 19], [], [], none⟩, ⟨7, [7, 12, 13, 14, 15, 16, 17, 18, 19], [7], [], none⟩,
    ⟨13, [7, 12, 13, 14, 15, 16, 17, 18, 19], [7], [], none⟩]
  tlvs := [(7, 6, 8), (12, 8, 8), (13, 8, 8), (14, 8, 8), (15, 8, 8), (16, 8, 8), (17, 1, 1), (18, 1, 1), (19, 1, 1)]

/-- ext_l1_statistics/l1_statistics.c:72-160 -/
def extL1 : Ext α where
  id := 65520
  signals := [⟨2, [65408, 65409, 65410, 65411, 65412, 65413, 65414, 65415, 65416], [65408, 65409], [], none⟩,
    ⟨3, [65408, 65409, 65410, 65411, 65412, 65413, 65414, 65415, 65416], [], [], none⟩,
    ⟨7, [7, 65415, 65416], [7], [], none⟩, ⟨13, [7, 65415, 65416], [7], [], none⟩]
  tlvs := [(65408, 8, 16), (65409, 8, 16), (65410, 4, 4), (65411, 8, 8), (65412, 8, 8), (65413, 8, 8), (65414, 8, 8),
    (65415, 4, 4), (65416, 4, 4)]

/-- ext_l2_statistics/l2_statistics.c:57-142 -/
def extL2 : Ext α where
  id := 65521
  signals := [⟨2, [65417, 65418, 65422, 65423, 65419, 65420, 65421, 65427], [], [], none⟩,
    ⟨3, [65417, 65418, 65422, 65423, 65419, 65420, 65421, 65427], [], [], none⟩,
    ⟨7, [7, 65417, 65418, 65422, 65423, 65419, 65420, 65421, 65427], [7], [], none⟩,
    ⟨13, [7, 65417, 65418, 65422, 65423, 65419, 65420, 65421, 65427], [7], [], none⟩]
  tlvs := [(65417, 8, 8), (65418, 8, 8), (65422, 8, 8), (65423, 8, 8), (65419, 8, 8), (65420, 8, 8), (65421, 8, 8),
    (65427, 8, 8)]

/-- ext_radio_attributes/radio_attributes.c:56-93 -/
def extAttributes : Ext α where
  id := 65522
  signals := [⟨2, [65424, 65425, 65426], [], [], none⟩, ⟨3, [65424, 65425, 65426], [], [], none⟩]
  tlvs := [(65424, 1, 1), (65425, 1, 1), (65426, 1, 1)]

/-- ext_lid/lid.c:63-174, the only extension with callbacks for its deactivation -/
def extLid : Ext α where
  id := 65523
  signals := [⟨2, [22], [], [], none⟩, ⟨7, [21], [], [], none⟩, ⟨8, [21], [], [], none⟩, ⟨11, [21], [], [], none⟩,
    ⟨12, [21], [], [], none⟩, ⟨13, [21], [], [], none⟩, ⟨14, [21], [], [], none⟩, ⟨15, [21], [], [], none⟩]
  tlvs := [(21, 1, 16), (22, 2, 2)]
  deactivate := true

/-- the tree of extensions of the daemon, ordered by id (dlep_extension.c:71, 98): radio/dlep_radio_interface.c:107-113,
router/dlep_router_interface.c:121-127 -/
def allExts : List (Ext α) := [extProto, extIp, extMetric, extL1, extL2, extAttributes, extLid]

end Verif.Dlep
