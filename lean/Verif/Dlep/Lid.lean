/-
Link ids in DLEP sessions: /repo/src/generic/dlep/ext_lid/lid.c:176-247, /repo/src/generic/dlep/dlep_extension.c:200-217,
/repo/src/generic/dlep/ext_base_proto/proto_router.c:455-596. The TLVs themselves are in Verif.Dlep.Tlvs, the order of the
messages of the radio in Verif.DlepDest.
-/
namespace Verif.Dlep.Lid

/-- `struct oonf_layer2_neigh_key`: MAC address and the `link_id_length` first bytes of `link_id`. The rest of the array is 0. -/
structure Key where
  mac : Nat
  lid : List UInt8
deriving DecidableEq, Repr

/-- `OONF_LAYER2_MAX_LINK_ID`, oonf_layer2.h:77. -/
def maxLid : Nat := 16

/-- `DLEP_DEFAULT_LID_LENGTH`, dlep_iana.h:73. -/
def defaultLid : Nat := 4

/-- `_write_session_init_ack`, lid.c:213-221: the value of the link id length TLV; `n` is `lid_length` of the radio. -/
def writeInitAck (n : Nat) : Option Nat :=
  if n = 0 ∨ n = defaultLid then none else some (n % 65536)

/-- `_process_session_init_ack`, lid.c:229-247: the new `lid_length` of the router; `none`: the session is terminated. -/
def processInitAck (tlv : Option Nat) : Option Nat :=
  match tlv with
  | none => some defaultLid
  | some l => if l > maxLid then none else some l

/-- The part of `dlep_session_add_local_neighbor` about the length, dlep_session.c:461-464: does the radio with `lid_length` `n` announce
this neighbor? -/
def announces (n : Nat) (k : Key) : Bool := !(k.lid.length != 0 && k.lid.length != n)

/-- The address TLVs of a message about a destination. -/
structure Tlvs where
  mac : Option Nat
  lid : Option (List UInt8)
deriving DecidableEq, Repr

/-- `dlep_writer_add_mac_tlv` and `_write_lid_only`, lid.c:199-203, dlep_writer.c:203-208. -/
def write (k : Key) : Tlvs := ⟨some k.mac, if k.lid.length > 0 then some k.lid else none⟩

/-- `dlep_extension_get_l2_neighbor_key`, dlep_extension.c:200-217; `len`: `lid_length` of the router. -/
def readKey (len : Nat) (t : Tlvs) : Option Key :=
  match t.mac with
  | none => none
  | some m =>
    match t.lid with
    | none => some ⟨m, []⟩
    | some l => if l.length ≠ len then none else some ⟨m, l⟩

/-- Messages about destinations. -/
inductive Msg where
  | up (t : Tlvs) | down (t : Tlvs) | update (t : Tlvs)
deriving DecidableEq, Repr

/-- Answers of the router. -/
inductive Answer where
  | upAck (k : Key) | downAck (k : Key)
deriving DecidableEq, Repr

/-- The router: whether the session lives, its layer2 neighbors, the answers. -/
structure Router where
  alive : Bool := true
  neigh : List Key := []
  out : List Answer := []
deriving DecidableEq, Repr

/-- A parser error ends the session, dlep_session.c:436-439. -/
def Router.terminate (r : Router) : Router := { r with alive := false }

/-- `_router_process_destination_up`, `_down`, `_update`, proto_router.c:455-596. Memory does not run out, the metrics are correct
(C140), the database changes through this session only. -/
def process (len : Nat) (r : Router) (m : Msg) : Router :=
  if !r.alive then r
  else
    match m with
    | .up t =>
      match readKey len t with
      | none => r.terminate
      | some k => { r with neigh := if r.neigh.contains k then r.neigh else k :: r.neigh, out := r.out ++ [.upAck k] }
    | .down t =>
      match readKey len t with
      | none => r.terminate
      | some k =>
        if r.neigh.contains k then { r with neigh := r.neigh.filter (· != k), out := r.out ++ [.downAck k] }
        else r.terminate
    | .update t =>
      match readKey len t with
      | none => r.terminate
      | some _ => r

/-- A sequence of messages. -/
def run (len : Nat) (r : Router) (ms : List Msg) : Router := ms.foldl (process len) r

/-- The link id made by `oonf_layer2_neigh_generate_lid`, oonf_layer2.c:802-812: always four bytes. -/
def generated (mac origin next : Nat) : Key :=
  ⟨mac, [UInt8.ofNat origin, UInt8.ofNat (next / 65536), UInt8.ofNat (next / 256), UInt8.ofNat next]⟩

end Verif.Dlep.Lid
