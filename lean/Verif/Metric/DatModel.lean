import Verif.Codec.Model

/-
Model of the calculation of `src/nhdp/ff_dat_metric/ff_dat_metric.c`: sampling of packets in a ring buffer, median of the link speed,
loss with hysteresis, cost of the throughput and shaping of the metric.

What the layer-2 database says about the neighbor is input of a sampling step: speed, broadcast loss, RLQ and throughput, the last three
already restricted to entries with an origin other than the plugin. The values the plugin itself writes into the database
(ff_dat_metric.c:729-735, 745-751, 838-844) and the timers are not modelled; the expiration of the timer is an event.
-/
namespace Verif.Metric

/-! ### C integers and constants -/

/-- result of an operation of type `int64_t`: `none` is the undefined overflow -/
def i64? (x : Int) : Option Int := if -9223372036854775808 ≤ x ∧ x ≤ 9223372036854775807 then some x else none

/-- reduction of `uint32_t` -/
def u32 (x : Nat) : Nat := x % 4294967296

/-- conversion to `int`, as done by the supported compilers -/
def toInt (x : Int) : Int := x.bmod 4294967296

/-- `DATFF_FRAME_SUCCESS_RANGE`, ff_dat_metric.h:58 -/
def SUCCESS_RANGE : Nat := 8
/-- `DATFF_LINKSPEED_MINIMUM`, ff_dat_metric.h:64 -/
def SPEED_MIN : Int := 1024
/-- `DATFF_LINKSPEED_RANGE`, ff_dat_metric.h:65 -/
def SPEED_RANGE : Int := 2097152
/-- `DAT_SAMPLING_COUNT`, ff_dat_metric.c:72 -/
def COUNT : Nat := 32

/-! ### Data -/

/-- index of the option `ffdat_loss_exponent`, ff_dat_metric.c:204-217 -/
inductive Exponent where
  | linear | quadratic | cubic | dynamic
  deriving DecidableEq

/-- `struct ff_dat_if_config`, ff_dat_metric.c:78-96; `ett` is set by the option `ffdat_airtime` -/
structure DCfg where
  ett : Bool
  exponent : Exponent
  mic : Bool
  deriving DecidableEq

/-- `struct link_datff_bucket`, ff_dat_metric.c:102-111 -/
structure Bucket where
  received : Nat
  total : Nat
  speed : Int
  deriving DecidableEq

/-- `struct link_datff_data`, ff_dat_metric.c:116-146, without timer -/
structure DLink where
  contains : Bool
  missed : Nat
  active : Nat
  lastSeq : Nat
  lastLoss : Int
  interval : Nat
  neighborhood : Nat
  buckets : List Bucket
  deriving DecidableEq

/-- `_cb_link_added`, ff_dat_metric.c:458-489; `itime` and `vtime` of the link -/
def DLink.init (itime vtime : Nat) : DLink :=
  { contains := false, missed := 0, active := 0, lastSeq := 0, lastLoss := 8000, interval := if itime > 0 then itime else vtime,
    neighborhood := 0, buckets := List.replicate COUNT ⟨0, 1, 0⟩ }

/-- the bucket at a position, changed -/
def DLink.atActive (d : DLink) (f : Bucket → Bucket) : DLink := { d with buckets := d.buckets.modify d.active f }

/-! ### Link speed -/

/-- insertion of `qsort` -/
def insertInt (x : Int) : List Int → List Int
  | [] => [x]
  | y :: ys => if x ≤ y then x :: y :: ys else y :: insertInt x ys

/-- `qsort` with `_int_comparator`, ff_dat_metric.c:559-572 -/
def sortInt (l : List Int) : List Int := l.foldr insertInt []

/-- `_get_median_rx_linkspeed`, ff_dat_metric.c:579-601; the array `_rx_sort_array` has elements of type `int` -/
def median (buckets : List Bucket) : Int :=
  let arr := buckets.map (fun b => toInt b.speed)
  let zeroCount := arr.countP (fun x => decide (x ≤ 0))
  let window := arr.length - zeroCount
  if window = 0 then -1 else (sortInt arr).getD (zeroCount + window / 2) 0

/-- `_scale_linkspeed`, ff_dat_metric.c:644-669 -/
def scale (raw : Int) : Int :=
  let r := raw.tdiv SPEED_MIN
  let r := if raw.tmod SPEED_MIN > 0 then r + 1 else r
  if r < 1 then 1 else if r > SPEED_RANGE then SPEED_RANGE else r

/-- `_get_bitrate_cost_factor`, ff_dat_metric.c:671-692 -/
def bitrateCost (buckets : List Bucket) : Int :=
  let m := median buckets
  if m = -1 then -1
  else
    let r := scale m
    if r < 0 then -1
    else if r > SPEED_RANGE then 1000 * SPEED_RANGE
    else (1000 * SPEED_RANGE).tdiv r

/-! ### Loss -/

/-- `_calculate_dynamic_loss_exponent`, ff_dat_metric.c:1020-1032 -/
def dynamicExponent (n : Nat) : Nat := if n < 4 then 1 else if n < 9 then 2 else if n < 15 then 3 else 4

/-- `loss_exponent`, ff_dat_metric.c:762-778 -/
def exponentOf (e : Exponent) (neighborhood : Nat) : Nat :=
  match e with
  | .linear => 1
  | .quadratic => 2
  | .cubic => 3
  | .dynamic => dynamicExponent neighborhood

/-- success of the received packets, scaled by 1000, ff_dat_metric.c:717-721; `none`: no data point -/
def probe (received total : Nat) : Option Int :=
  if total ≠ 0 ∧ u32 (received * SUCCESS_RANGE) > total then some ((1000 * (received : Int)).tdiv total) else none

/-- adds a data point -/
def addPoint (s : Int × Nat) (v : Int) : Option (Int × Nat) := (i64? (s.1 + v)).map (fun x => (x, s.2 + 1))

/-- received packets, ff_dat_metric.c:716-721 -/
def pointProbe (received total : Nat) : Option (Int × Nat) :=
  match probe received total with
  | none => some (0, 0)
  | some p => addPoint (0, 0) p

/-- broadcast loss of layer 2, ff_dat_metric.c:723-729 -/
def pointBcLoss (bcLoss : Option Int) (s : Int × Nat) : Option (Int × Nat) :=
  match bcLoss with
  | none => some s
  | some b => (i64? (1000 - b)).bind (addPoint s)

/-- RLQ of layer 2, ff_dat_metric.c:737-743 -/
def pointRlq (rlq : Option Int) (s : Int × Nat) : Option (Int × Nat) :=
  match rlq with
  | none => some s
  | some q => addPoint s q

/-- sum and number of the data points, ff_dat_metric.c:712-751; `none`: overflow -/
def points (received total : Nat) (bcLoss rlq : Option Int) : Option (Int × Nat) :=
  ((pointProbe received total).bind (pointBcLoss bcLoss)).bind (pointRlq rlq)

/-- loop with the exponent, ff_dat_metric.c:780-784; `n` is the exponent reduced by one -/
def power : Nat → Int → Option Int
  | 0, s => some s
  | n + 1, s =>
    match i64? (s * s) with
    | none => none
    | some q => power n (q.tdiv 1000)

/-- hysteresis, ff_dat_metric.c:792-803 -/
def hysteresis (last loss : Int) : Int :=
  if loss > 1000 ∧ loss < 1000 * SUCCESS_RANGE ∧ loss ≥ last - 100 ∧ loss ≤ last + 100 then last else loss

/-- `_get_lossrate_cost_factor`, ff_dat_metric.c:704-806: result and new `last_packet_loss_rate`; `none`: overflow -/
def lossCost (e : Exponent) (neighborhood : Nat) (last : Int) (received total : Nat) (bcLoss rlq : Option Int) : Option (Int × Int) :=
  match points received total bcLoss rlq with
  | none => none
  | some (sum, n) =>
    if n = 0 then some (1000 * SUCCESS_RANGE, last)
    else
      match power (exponentOf e neighborhood - 1) (sum.tdiv n) with
      | none => none
      | some s =>
        if s = 0 then some (1000 * SUCCESS_RANGE, last)
        else
          let h := hysteresis last ((1000 * 1000 : Int).tdiv s)
          some (h, h)

/-! ### Metric -/

/-- what the layer-2 database and the two-hop neighborhood contribute to a sample; `refresh`: `refresh_interval` of the interface,
`speed`: result of `_get_raw_rx_linkspeed`, `neighbors`: result of `_calculate_link_neighborhood` -/
structure Inputs where
  refresh : Nat
  speed : Int
  bcLoss : Option Int
  rlq : Option Int
  throughput : Option Int
  neighbors : Nat

/-- cost of bitrate and loss, ff_dat_metric.c:827-830: sum and number -/
def bitrateLoss (bitrate loss : Int) : Option (Int × Nat) :=
  if bitrate > 0 ∧ loss > 0 then (i64? (bitrate * loss)).map (fun p => (p.tdiv 1000, 1)) else some (0, 0)

/-- throughput of layer 2, ff_dat_metric.c:832-838 -/
def pointThroughput (throughput : Option Int) (s : Int × Nat) : Option (Int × Nat) :=
  match throughput with
  | none => some s
  | some t => addPoint s ((1000 * SPEED_RANGE).tdiv (scale t))

/-- `_get_throughput_cost_factor`, ff_dat_metric.c:808-863, with the results of its two helpers -/
def throughputCost (bitrate loss : Int) (throughput : Option Int) : Option Int :=
  match bitrateLoss bitrate loss with
  | none => none
  | some s =>
    match pointThroughput throughput s with
    | none => none
    | some (cost, n) =>
      if n = 0 then
        if loss > 0 then i64? (SPEED_RANGE * loss) else some (1000 * SPEED_RANGE * SUCCESS_RANGE)
      else some (cost.tdiv n)

/-- `_get_mic_cost_factor`, ff_dat_metric.c:865-874: factor and new `link_neigborhood` -/
def micCost (mic : Bool) (neighborhood neighbors : Nat) : Nat × Nat :=
  if mic = true ∧ neighborhood > 1 then (neighbors * 1000, neighbors) else (1000, neighborhood)

/-- `_shape_metric`, ff_dat_metric.c:876-902 -/
def shape (m : Nat) : Nat :=
  if m > Codec.metricMax then Codec.metricMax
  else if m < Codec.metricMin then Codec.metricMin
  else
    match Codec.metricEncode m with
    | some f => Codec.metricDecode f
    | none => Codec.metricMax

/-- conversion to `uint64_t` -/
def u64 (x : Int) : Nat := (x % 18446744073709551616).toNat

/-- `dat_metric` and `metric_value`, ff_dat_metric.c:967-970 -/
def metricOf (throughputCost : Int) (mic : Nat) : Nat := shape (u64 ((u64 throughputCost * mic : Nat) : Int) / 1000000)

/-- sums of the buckets, ff_dat_metric.c:939-942 -/
def counters (buckets : List Bucket) : Nat × Nat :=
  (u32 (buckets.map (·.received)).sum, u32 (buckets.map (·.total)).sum)

/-- influence of missed HELLOs, ff_dat_metric.c:944-952; `none`: division by zero -/
def adjust (missed interval refresh received : Nat) : Option Nat :=
  if missed > 0 then
    if refresh = 0 then none
    else
      let missing := u32 (missed * interval % 18446744073709551616 / refresh)
      if missing > COUNT then some 0 else some (u32 (received * (COUNT - missing) / COUNT))
  else some received

/-- rolling buffer, ff_dat_metric.c:979-985 -/
def advance (d : DLink) : DLink :=
  let a := if d.active + 1 ≥ COUNT then 0 else d.active + 1
  { d with active := a }.atActive (fun b => { b with received := 0, total := 0 })

/-- `_cb_dat_sampling` for one link, ff_dat_metric.c:927-986: the new data and the metric that is set, if any; `none`: undefined -/
def sample (c : DCfg) (i : Inputs) (d : DLink) : Option (DLink × Option Nat) :=
  if d.contains = false then some (d, none)
  else
    let t := (counters d.buckets).2
    match adjust d.missed d.interval i.refresh (counters d.buckets).1 with
    | none => none
    | some r =>
      let d := d.atActive (fun b => { b with speed := i.speed })
      match lossCost c.exponent d.neighborhood d.lastLoss r t i.bcLoss i.rlq with
      | none => none
      | some (loss, last) =>
        match throughputCost (bitrateCost d.buckets) loss i.throughput with
        | none => none
        | some cost =>
          let m := micCost c.mic d.neighborhood i.neighbors
          some (advance { d with lastLoss := last, neighborhood := m.2 }, some (metricOf cost m.1))

/-! ### Events -/

/-- `_cb_process_packet` for a packet that counts, ff_dat_metric.c:1145-1166 -/
def packet (seq : Nat) (d : DLink) : DLink :=
  if d.contains = false then
    { { d with contains := true, active := 0, lastSeq := seq } with
      buckets := d.buckets.modify 0 (fun b => { b with received := 1, total := 1 }) }
  else
    let total := if seq ≥ d.lastSeq then seq - d.lastSeq else seq + 65536 - d.lastSeq
    { d.atActive (fun b => { b with received := u32 (b.received + 1), total := u32 (b.total + total) }) with lastSeq := seq, missed := 0 }

/-- `_cb_hello_lost`, ff_dat_metric.c:1038-1051 -/
def helloLost (d : DLink) : DLink := if d.contains = true then { d with missed := u32 (d.missed + 1) } else d

/-- `_cb_link_changed`, ff_dat_metric.c:496-511 -/
def linkChanged (itime vtime : Nat) (d : DLink) : DLink :=
  { d with interval := if itime > 0 then itime else vtime, missed := 0 }

/-- what happens to a link -/
inductive DEvent where
  | packet (seq : Nat)
  | helloLost
  | changed (itime vtime : Nat)
  | sample (c : DCfg) (i : Inputs)

/-- one event: new data and the metric that is set, if any -/
def dstep (d : DLink) : DEvent → Option (DLink × Option Nat)
  | .packet seq => some (packet seq d, none)
  | .helloLost => some (helloLost d, none)
  | .changed it vt => some (linkChanged it vt d, none)
  | .sample c i => sample c i d

/-- a sequence of events: the final data and all metrics in the order they are set -/
def drun : DLink → List DEvent → Option (DLink × List Nat)
  | d, [] => some (d, [])
  | d, e :: es =>
    match dstep d e with
    | none => none
    | some (d, m) => (drun d es).map (fun r => (r.1, m.toList ++ r.2))

end Verif.Metric
