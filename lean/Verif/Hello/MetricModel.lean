import Verif.Codec.Props

/-
Model of the metric TLVs of HELLOs: `_write_metric_tlv` of `src/nhdp/nhdp/nhdp_writer.c` and the processing in
`src/nhdp/nhdp/nhdp_domain.c` and `nhdp_reader.c`, for one domain (a TLV belongs to the domain with its extended type).
-/
namespace Verif.Hello
open Verif.Codec

/-- `flags`, nhdp_writer.c:430-435 -/
def flag (i : Nat) : Nat := [128, 64, 32, 16].getD i 0

/-- incoming and outgoing metric of a link or neighbor (32 bit), `struct nhdp_metric` -/
structure Pair where
  min : Nat
  mout : Nat
deriving DecidableEq, Repr

/-- `metrics`, nhdp_writer.c:450, 457-478; `lnk`, `neigh`: `none` if NULL; the status of link and neighbor is checked by the caller
too (nhdp_writer.c:405-411) -/
def metricsOf (lnk neigh : Option Pair) : List Nat :=
  let m : List Nat :=
    (match lnk with | none => [0, 0] | some p => [p.min, p.mout]) ++ (match neigh with | none => [0, 0] | some p => [p.min, p.mout])
  m.map fun x => if x > metricMax then 0 else x

/-- an element of `metric_encoded`; not set if the metric is 0 -/
def encoded (encs : List (Option MetricField)) (i : Nat) : MetricField := (encs.getD i none).getD ⟨0, 0⟩

/-- inner loop, nhdp_writer.c:500-507: TLV and remaining metrics -/
def innerStep (encs : List (Option MetricField)) (i : Nat) (s : MetricField × List Nat) (j : Nat) : MetricField × List Nat :=
  if s.2.getD j 0 > 0 ∧ encoded encs i = encoded encs j then (metricSetFlag s.1 (flag j), s.2.set j 0) else s

/-- outer loop, nhdp_writer.c:491-510: remaining metrics and TLVs -/
def outerStep (encs : List (Option MetricField)) (s : List Nat × List MetricField) (i : Nat) : List Nat × List MetricField :=
  if s.1.getD i 0 = 0 then s
  else
    let r := (([3, 2, 1].filter fun j => decide (j > i))).foldl (innerStep encs i) (metricSetFlag (encoded encs i) (flag i), s.1)
    (r.2, s.2 ++ [r.1])

/-- `_write_metric_tlv`, nhdp_writer.c:427-512: the values of the metric TLVs of an address -/
def writeMetrics (lnk neigh : Option Pair) : List MetricField :=
  if lnk = none ∧ neigh = none then []
  else
    let metrics := metricsOf lnk neigh
    if metrics.any fun m => decide (m > 0) && (metricEncode m).isNone then []
    else ([0, 1, 2, 3].foldl (outerStep (metrics.map metricEncode)) (metrics, [])).2

/-- `nhdp_domain_process_metric_linktlv`, nhdp_domain.c:440-454: outgoing metric of link and neighbor -/
def linkTlv (s : Nat × Nat) (f : MetricField) : Nat × Nat :=
  (if metricHasFlag f 128 then metricDecode f else s.1, if metricHasFlag f 32 then metricDecode f else s.2)

/-- metrics of a HELLO with an address of this router, nhdp_reader.c:722-752: outgoing metric of link and neighbor -/
def receiveLink (tlvs : List MetricField) : Nat × Nat := tlvs.foldl linkTlv (metricInfinite, metricInfinite)

/-- `nhdp_domain_process_metric_2hoptlv`, nhdp_domain.c:462-478: incoming and outgoing metric -/
def hopTlv (s : Pair) (f : MetricField) : Pair :=
  ⟨if metricHasFlag f 32 then metricDecode f else s.min, if metricHasFlag f 16 then metricDecode f else s.mout⟩

/-- metrics of a two-hop neighbor, nhdp_reader.c:761-796 -/
def receiveHop (tlvs : List MetricField) : Pair := tlvs.foldl hopTlv ⟨metricInfinite, metricInfinite⟩

end Verif.Hello
