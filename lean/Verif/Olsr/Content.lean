import Verif.Olsr.Lan
import Verif.Tc.Reader

/-
Model of the addresses and address TLVs of a TC: how they are generated (`src/olsrv2/olsrv2/olsrv2_writer.c`) and how they
are read (`src/olsrv2/olsrv2/olsrv2_reader.c`).

The TLVs of one address are a list; the order in which they get to the reader is not fixed, the RFC 5444 writer and reader in
between are modelled in `Verif.Writer` and `Verif.Reader`.
-/
namespace Verif.Olsr
open Verif.Netaddr (Netaddr AF_INET AF_INET6)
open Verif.Codec (MetricField metricEncode metricDecode metricSetFlag metricHasFlag metricMax metricInfinite)
open Verif.Tc (Key)

/-- what is used of `struct nhdp_domain`: `index` and `ext` -/
structure Domain where
  index : Nat
  ext : Nat
deriving DecidableEq, Repr

/-- address TLVs: `RFC7181_ADDRTLV_LINK_METRIC`, `RFC7181_ADDRTLV_NBR_ADDR_TYPE`, `RFC7181_ADDRTLV_GATEWAY`,
`SRCSPEC_GW_ADDRTLV_SRC_PREFIX` -/
inductive TlvType
  | linkMetric
  | nbrAddrType
  | gateway
  | srcPrefix
deriving DecidableEq, Repr

/-- address TLV with type extension and bytes of the value -/
structure ATlv where
  type : TlvType
  ext : Nat
  value : List Nat
deriving DecidableEq, Repr

/-- `RFC7181_LINKMETRIC_INCOMING_NEIGH`, rfc5444_iana.h:313 -/
def INCOMING_NEIGH : Nat := 32
/-- `RFC7181_LINKMETRIC_OUTGOING_NEIGH`, rfc5444_iana.h:314 -/
def OUTGOING_NEIGH : Nat := 16

/-! ### Writer -/

/-- what is used of `struct nhdp_neighbor_domaindata`: `local_is_mpr`, `metric.in`, `metric.out` -/
structure NeighData where
  mpr : Bool
  metricIn : Nat
  metricOut : Nat
deriving DecidableEq, Repr

/-- LINK_METRIC TLV -/
def metricTlv (d : Domain) (f : MetricField) : ATlv := ⟨.linkMetric, d.ext, [f.b0, f.b1]⟩

/-- body of the loop of `_generate_neighbor_metric_tlvs`, olsrv2_writer.c:273-320 -/
def neighMetricTlvs (d : Domain) (n : NeighData) : List ATlv :=
  if !n.mpr then []
  else if n.metricIn > metricMax then []
  else
    match metricEncode n.metricIn with
    | none => []
    | some fi =>
      match metricEncode n.metricOut with
      | none => [metricTlv d (metricSetFlag fi INCOMING_NEIGH)]
      | some fo =>
        if metricSetFlag fi INCOMING_NEIGH = fo then [metricTlv d (metricSetFlag (metricSetFlag fi INCOMING_NEIGH) OUTGOING_NEIGH)]
        else if n.metricOut ≤ metricMax then [metricTlv d (metricSetFlag fi INCOMING_NEIGH), metricTlv d (metricSetFlag fo OUTGOING_NEIGH)]
        else [metricTlv d (metricSetFlag fi INCOMING_NEIGH)]

/-- TLVs of a neighbor address, olsrv2_writer.c:436-443; `v`: `nbr_addrtype_value`, `nd`: data by `domain->index` -/
def neighTlvs (v : Nat) (doms : List Domain) (nd : Nat → NeighData) : List ATlv :=
  ⟨.nbrAddrType, 0, [v]⟩ :: doms.flatMap fun d => neighMetricTlvs d (nd d.index)

/-- metric of an attached network that is sent, olsrv2_writer.c:481-492 -/
def lanField (x : LanData) : Option MetricField := if x.metric > metricMax then none else metricEncode x.metric

/-- data of a domain -/
def lanData (lan : Lan) (i : Nat) : LanData := if h : i < 4 then lan.data ⟨i, h⟩ else ⟨METRIC_INFINITE, 0, false⟩

/-- metric TLV of an attached network for one domain, olsrv2_writer.c:480-499 -/
def lanMetricTlv (lan : Lan) (d : Domain) : List ATlv :=
  match lanField (lanData lan d.index) with
  | none => []
  | some f => [metricTlv d (metricSetFlag f OUTGOING_NEIGH)]

/-- assignment to `distance_vector`, olsrv2_writer.c:501 -/
def distStep (lan : Lan) (v : List Nat) (d : Domain) : List Nat :=
  match lanField (lanData lan d.index) with
  | none => v
  | some _ => v.set d.index (lanData lan d.index).dist

/-- `distance_vector`, olsrv2_writer.c:478-502 -/
def distVector (lan : Lan) (doms : List Domain) : List Nat := doms.foldl (distStep lan) (List.replicate 4 0)

/-- `_mprtypes_size`, olsrv2_writer.c:273-275, nhdp_domain.c:762-777 -/
def mprtypesSize (doms : List Domain) : Nat := if doms.length > 1 then min doms.length 4 else 0

/-- extension of the GATEWAY TLV: `RFC7181_DSTSPEC_GATEWAY` 0, `RFC7181_SRCSPEC_GATEWAY` 1, `RFC7181_SRCSPEC_DEF_GATEWAY` 2,
olsrv2_writer.c:459-472 -/
def gatewayExt (k : Key) : Nat :=
  if k.1.prefixLen > 0 ∨ k.2.prefixLen = 0 then (if k.2.prefixLen = 0 then 0 else 1) else 2

/-- address that stands for an attached network, olsrv2_writer.c:459-472 -/
def lanAddress (k : Key) : Netaddr := if k.1.prefixLen > 0 ∨ k.2.prefixLen = 0 then k.1 else k.2

/-- SRC_PREFIX TLV, olsrv2_writer.c:513-520 -/
def srcPrefixTlv (k : Key) : List ATlv :=
  if gatewayExt k = 1 then
    [⟨.srcPrefix, 0, k.2.prefixLen.toNat :: (k.2.addr.take ((k.2.prefixLen.toNat + 7) / 8)).map UInt8.toNat⟩]
  else []

/-- TLVs of an attached network, olsrv2_writer.c:477-520 -/
def lanTlvs (k : Key) (lan : Lan) (doms : List Domain) : List ATlv :=
  doms.flatMap (lanMetricTlv lan) ++
    ⟨.gateway, gatewayExt k, (distVector lan doms).take (if lan.same then 1 else mprtypesSize doms)⟩ :: srcPrefixTlv k

/-! ### Reader -/

/-- `nhdp_domain_get_by_ext`, nhdp_domain.c:331-341 -/
def getByExt (doms : List Domain) (ext : Nat) : Option Domain := doms.find? fun d => d.ext == ext

/-- `metric_value` of a TLV (its length is at least 2, olsrv2_reader.c:153-157) -/
def metricOf (t : ATlv) : MetricField := ⟨t.value.getD 0 0, t.value.getD 1 0⟩

/-- `cost_in` or `cost_out`, olsrv2_reader.c:368-391 -/
def readStep (doms : List Domain) (flag : Nat) (c : List Nat) (t : ATlv) : List Nat :=
  if t.type = .linkMetric then
    match getByExt doms t.ext with
    | none => c
    | some d => if metricHasFlag (metricOf t) flag then c.set d.index (metricDecode (metricOf t)) else c
  else c

/-- `cost_in` or `cost_out`, olsrv2_reader.c:359-391 -/
def readCost (doms : List Domain) (flag : Nat) (tlvs : List ATlv) : List Nat :=
  tlvs.foldl (readStep doms flag) (List.replicate 4 metricInfinite)

/-- `nhdp_domain_process_mprtypes_tlv`, nhdp_domain.c:599-621; `tlv`: the message has a MPR_TYPES TLV (its value is not used).
With an empty list of domains the C code reads the list head as a domain; this is left out (`Domains` requires a domain). -/
def processMprtypes (doms : List Domain) (tlv : Bool) : List Nat :=
  if tlv then (doms.take 4).map (·.ext) else (doms.take 1).map (·.ext)

/-- `NETADDR_IPV4_ANY`, `NETADDR_IPV6_ANY`, netaddr.c:70-73, or an invalidated address -/
def anyOf (a : Netaddr) : Netaddr :=
  if a.type = AF_INET then ⟨List.replicate 16 0, AF_INET, 0⟩
  else if a.type = AF_INET6 then ⟨List.replicate 16 0, AF_INET6, 0⟩
  else ⟨List.replicate 16 0, 0, 0⟩

/-- key according to the extension of the GATEWAY TLV, olsrv2_reader.c:458-474, os_routing_linux.h:189-216; the first part is
false for unknown extensions, `none`: undefined behaviour of `netaddr_truncate` -/
def gatewayKey (ext : Nat) (addr : Netaddr) : Option (Bool × Key) :=
  if ext = 0 ∨ ext = 1 then (Netaddr.truncate addr).map fun a => (true, (a, anyOf addr))
  else if ext = 2 then (Netaddr.truncate addr).map fun a => (true, (anyOf addr, a))
  else some (false, (addr, anyOf addr))

/-- source prefix, olsrv2_reader.c:476-481; `none`: more than 16 bytes are copied (excluded by the length constraint of the
consumer, olsrv2_reader.c:167-171) -/
def readSrcPrefix (k : Key) (tlvs : List ATlv) : Option Key :=
  match tlvs.find? fun t => t.type = .srcPrefix with
  | none => some k
  | some t =>
    if t.value.length - 1 > 16 then none
    else some (k.1, { k.2 with prefixLen := UInt8.ofNat (t.value.getD 0 0),
                               addr := (t.value.drop 1).map UInt8.ofNat ++ k.2.addr.drop (t.value.length - 1) })

/-- distances, olsrv2_reader.c:500-515 -/
def readDist (doms : List Domain) (value : List Nat) : Nat → List Nat → List (Nat × Nat)
  | _, [] => []
  | i, x :: xs =>
    match getByExt doms x with
    | none => readDist doms value (i + 1) xs
    | some d => (d.index, if value.length = 1 then value.getD 0 0 else value.getD i 0) :: readDist doms value (i + 1) xs

/-- `_handle_gateways` up to the allocation of the endpoint, olsrv2_reader.c:448-483, and what is stored (500-515); the GATEWAY
TLV has at least one byte (olsrv2_reader.c:162-166) -/
def readGatewayTlv (doms : List Domain) (mprtypes : List Nat) (addr : Netaddr) (tlvs : List ATlv) : Option (Option Tc.Gateway) :=
  match tlvs.find? fun t => t.type = .gateway with
  | none => some none
  | some t =>
    if t.value.length > 1 ∧ t.value.length < mprtypes.length then some none
    else
      match gatewayKey t.ext addr with
      | none => none
      | some (false, _) => some none
      | some (true, k) => (readSrcPrefix k tlvs).map fun k => some ⟨k, readDist doms t.value 0 mprtypes, true, true⟩

/-- `_cb_addresstlvs`, olsrv2_reader.c:344-445: what `Verif.Tc.address` works on; all allocations succeed -/
def readAddress (doms : List Domain) (mprtypes : List Nat) (addr : Netaddr) (tlvs : List ATlv) : Option Tc.Address :=
  (readGatewayTlv doms mprtypes addr tlvs).map fun gw =>
    { addr := addr
      key := (addr, anyOf addr)
      costIn := readCost doms INCOMING_NEIGH tlvs
      costOut := readCost doms OUTGOING_NEIGH tlvs
      nbr := (tlvs.find? fun t => t.type = .nbrAddrType).map fun t => UInt8.ofNat (t.value.getD 0 0)
      gw := gw
      ok := true
      okn := true
      oke := true }

end Verif.Olsr
