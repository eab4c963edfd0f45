import Verif.Dlep.Model
import Verif.Netaddr.Model

/-!
# The values of DLEP TLVs

Model of the functions of src/generic/dlep/dlep_writer.c and src/generic/dlep/dlep_reader.c which write and read
the value of one TLV.

Simplifications:
* A reader gets the bytes of the value; an access behind the value is a fault (in the code it may hit the next TLV
  or the end of the input buffer).
* `dlep_writer_add_uint64`, `dlep_writer_add_int64` and their readers have no callers; they are included.
* The machine is little endian.
-/

namespace Verif.Dlep

open Verif.Netaddr

/-- a number in network byte order with `k` bytes -/
def beN : Nat → Nat → Bytes
  | 0, _ => []
  | k + 1, n => (n / 256 ^ k % 256).toUInt8 :: beN k n

/-- the number of some bytes in network byte order -/
def beNum (l : Bytes) : Nat := l.foldl (fun a b => a * 256 + b.toNat) 0

/-- result of a reader -/
inductive R (α : Type) where
  | ok (a : α)
  | err
  | fault
deriving DecidableEq, Repr

/-- `memcpy` of `n` bytes at an offset of the value -/
def cut (v : Bytes) (off n : Nat) : Option Bytes := if off + n ≤ v.length then some ((v.drop off).take n) else none

/-! ### numbers -/

/-- `dlep_writer_add_heartbeat_tlv`, dlep_writer.c:148-155: the 64-bit interval becomes a 32-bit number -/
def addHeartbeat (w : Writer) (interval : Nat) : Option Writer := addTlv w 5 (beN 4 (interval % 2 ^ 32)) 4

/-- `dlep_reader_heartbeat_tlv`, dlep_reader.c:61-77 -/
def readHeartbeat (v : Bytes) : R Nat :=
  match cut v 0 4 with
  | none => .fault
  | some b => .ok (beNum b)

/-- `dlep_writer_add_lid_length_tlv`, dlep_writer.c:216-223 -/
def addLidLength (w : Writer) (n : Nat) : Option Writer := addTlv w 22 (beN 2 n) 2

/-- `dlep_reader_lid_length_tlv`, dlep_reader.c:178-194 -/
def readLidLength (v : Bytes) : R Nat :=
  match cut v 0 2 with
  | none => .fault
  | some b => .ok (beNum b)

/-- `dlep_writer_add_uint64`, dlep_writer.c:321-328 -/
def addUint64 (w : Writer) (n tlv : Nat) : Option Writer := addTlv w tlv (beN 8 n) 8

/-- `dlep_writer_add_int64`, dlep_writer.c:336-343: `htonl` of the lower half, stored as a 64-bit number of the
host -/
def addInt64 (w : Writer) (n : Int) (tlv : Nat) : Option Writer :=
  addTlv w tlv (beN 4 ((n % 2 ^ 64).toNat % 2 ^ 32) ++ [0, 0, 0, 0]) 8

/-- `dlep_reader_uint64`, dlep_reader.c:397-413 -/
def readUint64 (v : Bytes) : R Nat :=
  match cut v 0 8 with
  | none => .fault
  | some b => .ok (beNum b)

/-- an unsigned number of `k` bytes as a signed number -/
def signed (k n : Nat) : Int := if n < 2 ^ (8 * k - 1) then n else (n : Int) - 2 ^ (8 * k)

/-- `dlep_reader_int64`, dlep_reader.c:424-440 -/
def readInt64 (v : Bytes) : R Int :=
  match cut v 0 8 with
  | none => .fault
  | some b => .ok (signed 8 (beNum b))

/-- the encoding of `dlep_writer_map_identity`, dlep_writer.c:416-438, for a value of the layer-2 database -/
def addMetric (w : Writer) (tlv length : Nat) (x : Int) : Option Writer :=
  if length = 8 ∨ length = 4 ∨ length = 2 ∨ length = 1 then
    addTlv w tlv (beN length (x % (256 : Int) ^ length).toNat) length
  else none

/-- the decoding of `dlep_reader_map_identity`, dlep_reader.c:508-527 -/
def readMetric (v : Bytes) : R Int :=
  if v.length = 8 ∨ v.length = 4 ∨ v.length = 2 ∨ v.length = 1 then .ok (signed v.length (beNum v)) else .err

/-! ### texts -/

/-- `dlep_writer_add_peer_type_tlv`, dlep_writer.c:163-170; the text ends before the zero byte -/
def addPeerType (w : Writer) (text : Bytes) (secured : Bool) : Option Writer :=
  addTlv2 w 4 [if secured then 1 else 0] 1 text text.length

/-- `dlep_writer_add_status`, dlep_writer.c:352-365; `none`: too long -/
def addStatus (w : Writer) (status : Nat) (text : Bytes) : Option Writer :=
  if text.length > 65534 then none else addTlv2 w 1 [status.toUInt8] 1 text text.length

/-- `dlep_reader_status`, dlep_reader.c:452-482: status and what is written into the buffer for the text (`none`:
nothing) -/
def readStatus (v : Bytes) (textLength : Nat) : R (Nat × Option Bytes) :=
  match v with
  | [] => .fault
  | s :: t =>
    if v.length > 1 ∧ textLength > 0 then
      if textLength ≥ v.length then .ok (s.toNat, some (t.take (v.length - 1) ++ [0]))
      else .ok (s.toNat, some (t.take (textLength - 1) ++ [0]))
    else if textLength ≠ 0 then .ok (s.toNat, some [0])
    else .ok (s.toNat, none)

/-- `dlep_reader_peer_type`, dlep_reader.c:89-120: flag and what is written into the buffer for the text; with a
buffer of one byte `text_length - 2u` wraps around -/
def readPeerType (v : Bytes) (textLength : Nat) : R (Bool × Option Bytes) :=
  match v with
  | [] => .err
  | f :: t =>
    let secured := f &&& 1 ≠ 0
    if v.length > 1 ∧ textLength > 0 then
      if textLength - 1 > v.length - 1 then .ok (secured, some (t.take (v.length - 1) ++ [0]))
      else if textLength < 2 then .fault
      else .ok (secured, some (t.take (textLength - 2) ++ [0]))
    else .ok (secured, none)

/-! ### addresses -/

/-- `dlep_writer_add_mac_tlv`, dlep_writer.c:178-194; `none`: wrong type of address -/
def addMac (w : Writer) (mac : Netaddr) : Option Writer :=
  if mac.type = AF_MAC48 ∨ mac.type = AF_EUI64 then
    (toBinary mac 8).bind fun b => addTlv w 7 b (maxPrefix mac >>> 3)
  else none

/-- the result of `netaddr_from_binary_prefix` for a reader -/
def ofOut : Out Netaddr → R Netaddr
  | .ok a => .ok a
  | .err _ => .err
  | .ub => .fault

/-- `dlep_reader_mac_tlv`, dlep_reader.c:130-143 -/
def readMac (v : Bytes) : R Netaddr := ofOut (fromBinaryPrefix v 0 255)

/-- `dlep_writer_add_lid_tlv`, dlep_writer.c:202-208, for a link id which is not empty -/
def addLid (w : Writer) (lid : Bytes) : Option Writer := addTlv w 21 lid lid.length

/-- `OONF_LAYER2_MAX_LINK_ID`, oonf_layer2.h:77 -/
def MAX_LINK_ID : Nat := 16

/-- `dlep_reader_lid_tlv`, dlep_reader.c:153-168: copy into the array of the key -/
def readLid (v : Bytes) : R Bytes := if v.length ≤ MAX_LINK_ID then .ok v else .fault

/-- `dlep_writer_add_ip_tlv`, dlep_writer.c:231-261; `none`: wrong type of address -/
def addIp (w : Writer) (ip : Netaddr) (add : Bool) : Option Writer :=
  let flag : UInt8 := if add then 1 else 0
  if ip.type = AF_INET then
    (toBinary ip 16).bind fun b =>
      if ip.prefixLen ≠ 32 then addTlv w 10 (flag :: b ++ [ip.prefixLen]) 6
      else addTlv w 8 (flag :: b ++ [ip.prefixLen]) 5
  else if ip.type = AF_INET6 then
    (toBinary ip 16).bind fun b =>
      if ip.prefixLen ≠ 128 then addTlv w 11 (flag :: b ++ [ip.prefixLen]) 18
      else addTlv w 9 (flag :: b ++ [ip.prefixLen]) 17
  else none

/-- the readers `dlep_reader_ipv4_tlv`, `dlep_reader_ipv6_tlv`, `dlep_reader_ipv4_subnet_tlv` and
`dlep_reader_ipv6_subnet_tlv`, dlep_reader.c:205-296, for the TLVs 8 to 11 -/
def readIp (type : Nat) (v : Bytes) : R (Netaddr × Bool) :=
  let go (n : Nat) (af : UInt8) (p : Option UInt8) : R (Netaddr × Bool) :=
    match v[0]?, cut v 1 n, p with
    | some f, some b, some p =>
      match fromBinaryPrefix b af p with
      | .ok a => .ok (a, f &&& 1 = 1)
      | .err _ => .err
      | .ub => .fault
    | _, _, _ => .fault
  if type = 8 then go 4 AF_INET (some 255)
  else if type = 9 then go 16 AF_INET6 (some 255)
  else if type = 10 then go 4 AF_INET v[5]?
  else if type = 11 then go 16 AF_INET6 v[17]?
  else .err

/-- `dlep_writer_add_ipv4_conpoint_tlv` and `dlep_writer_add_ipv6_conpoint_tlv`, dlep_writer.c:270-313 (`v6` selects
the function); another type of address writes nothing -/
def addConpoint (w : Writer) (v6 : Bool) (addr : Netaddr) (port : Nat) (tls : Bool) : Option Writer :=
  let flag : UInt8 := if tls then 1 else 0
  if addr.type ≠ (if v6 then AF_INET6 else AF_INET) then some w
  else (toBinary addr (if v6 then 19 else 7)).bind fun b =>
    addTlv w (if v6 then 3 else 2) (flag :: b ++ beN 2 port) (if v6 then 19 else 7)

/-- `DLEP_PORT`, dlep_iana.h:69 -/
def DLEP_PORT : Nat := 854

/-- `dlep_reader_ipv4_conpoint_tlv` and `dlep_reader_ipv6_conpoint_tlv`, dlep_reader.c:308-386 -/
def readConpoint (v6 : Bool) (v : Bytes) : R (Netaddr × Nat × Bool) :=
  let n := if v6 then 16 else 4
  if v.length ≠ 1 + n ∧ v.length ≠ 3 + n then .err
  else
    let port : Option Nat := if v.length = 3 + n then (cut v (1 + n) 2).map beNum else some DLEP_PORT
    match v[0]?, cut v 1 n, port with
    | some f, some b, some port =>
      match fromBinaryPrefix b (if v6 then AF_INET6 else AF_INET) 255 with
      | .ok a => .ok (a, port, f &&& 1 = 1)
      | .err _ => .err
      | .ub => .fault
    | _, _, _ => .fault

end Verif.Dlep
