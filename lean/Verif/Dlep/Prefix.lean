import Verif.Dlep.Tlvs
import Verif.Dlep.Spec

/-!
# The announcement of IP addresses and prefixes by a DLEP radio

Source: `/repo/src/generic/dlep/ext_base_ip/ip.c`.  The radio remembers which prefixes the router has been told
(`prefix_modification`, an AVL tree, here a list without repetitions) and writes the difference to the layer-2 database
into each update.  The router stores for each address who registered it (`local_peer_ips` and `remote_neighbor_ips`:
AVL trees, see C23; here functions).  Lack of memory is not modelled.
-/

namespace Verif.Dlep

open Verif.Netaddr

/-- announcement of new prefixes, ip.c:237-256 and 320-342: the writer, what the router has been told, whether it worked -/
def addLoop : List Netaddr → Writer → List Netaddr → Writer × List Netaddr × Bool
  | [], w, known => (w, known, true)
  | a :: l, w, known =>
    if a ∈ known then addLoop l w known
    else
      match addIp w a true with
      | none => (w, known, false)
      | some w => addLoop l w (known ++ [a])

/-- withdrawal of prefixes, ip.c:258-276 and 344-363; the list is the tree when the loop starts -/
def dropLoop (cur : List Netaddr) : List Netaddr → Writer → List Netaddr → Writer × List Netaddr × Bool
  | [], w, known => (w, known, true)
  | a :: l, w, known =>
    if a ∈ cur then dropLoop cur l w known
    else
      match addIp w a false with
      | none => (w, known, false)
      | some w => dropLoop cur l w (known.filter (· ≠ a))

/-- `_radio_write_destination_update`, ip.c:296-365 and the first part of `_radio_write_session_update`, ip.c:225-276; `cur`:
the prefixes in the layer-2 database, none if the object does not exist -/
def writePrefixes (cur : List Netaddr) (w : Writer) (known : List Netaddr) : Writer × List Netaddr × Bool :=
  match addLoop cur w known with
  | (w, known, false) => (w, known, false)
  | (w, known, true) => dropLoop cur known w known

/-- an address of the interface, as far as the router has been told -/
structure Radio where
  known : List Netaddr
  if4 : Netaddr
  if6 : Netaddr

/-- `netaddr_is_unspec`, netaddr.h -/
def isUnspec (a : Netaddr) : Bool := a.type = AF_UNSPEC

/-- `_handle_if_ip`, ip.c:205-223; the result of the writer is ignored -/
def handleIf (w : Writer) (last first second : Netaddr) : Writer × Netaddr :=
  let ip := if isUnspec first then second else first
  if last = ip then (w, last)
  else
    let w := if isUnspec last then w else (addIp w last false).getD w
    let w := if isUnspec ip then w else (addIp w ip true).getD w
    (w, ip)

/-- what the radio finds when it writes an update: the prefixes of the layer-2 network, the link-local and routable IPv4
address of the interface, the same for IPv6 -/
structure Snapshot where
  cur : List Netaddr
  ll4 : Netaddr
  v4 : Netaddr
  ll6 : Netaddr
  v6 : Netaddr

/-- `_radio_write_session_update`, ip.c:225-294 -/
def writeSession (x : Snapshot) (w : Writer) (r : Radio) : Writer × Radio × Bool :=
  match writePrefixes x.cur w r.known with
  | (w, known, false) => (w, { r with known := known }, false)
  | (w, known, true) =>
    let (w, if4) := handleIf w r.if4 x.ll4 x.v4
    let (w, if6) := handleIf w r.if6 x.ll6 x.v6
    (w, { known := known, if4 := if4, if6 := if6 }, true)

/-- for each address the origin which registered it -/
abbrev Addrs := Netaddr → Option Nat

/-- `_process_session_ip_tlvs`, ip.c:367-379, and `_process_destination_ip_tlv`, ip.c:440-464 without next hops:
`oonf_layer2_net_add_ip`, `_remove_ip`, oonf_layer2.c:682-733, the same for neighbors 1025-1078 -/
def applyIp (me : Nat) (s : Addrs) (e : Netaddr × Bool) : Addrs := fun b =>
  if b = e.1 then (if e.2 then some me else if s b = some me then none else s b) else s b

/-- one loop of `_router_process_session_update`, ip.c:395-403: the values of one type of TLV -/
def processValues (me type : Nat) : List Bytes → Addrs → R Addrs
  | [], s => .ok s
  | v :: l, s =>
    match readIp type v with
    | .ok e => processValues me type l (applyIp me s e)
    | .err => .err
    | .fault => .fault

/-- the loops for several types -/
def processTypes (me : Nat) (values : Nat → List Bytes) : List Nat → Addrs → R Addrs
  | [], s => .ok s
  | t :: l, s =>
    match processValues me t (values t) s with
    | .ok s => processTypes me values l s
    | .err => .err
    | .fault => .fault

/-- `_router_process_session_update`, ip.c:381-435, `_router_process_destination_update`, ip.c:466-520 (an existing
object); `values`: the values of each type of TLV in the message -/
def processUpdate (me : Nat) (values : Nat → List Bytes) (s : Addrs) : R Addrs :=
  processTypes me values [8, 9, 10, 11] s

end Verif.Dlep
