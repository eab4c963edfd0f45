/-
Model of the value codecs of `src/librfc5444/rfc5444.c` and
`include/oonf/librfc5444/rfc5444.h`.
-/
namespace Verif.Codec

/-- `RFC5497_TIMETLV_MAX`, include/oonf/librfc5444/rfc5444.h:54 -/
def timeMax : Nat := 0xdac00000
/-- `RFC5497_TIMETLV_MIN`, include/oonf/librfc5444/rfc5444.h:57 -/
def timeMin : Nat := 1
/-- `RFC7181_METRIC_MAX`, include/oonf/librfc5444/rfc5444.h:60 -/
def metricMax : Nat := 0xffff00
/-- `RFC7181_METRIC_MIN`, include/oonf/librfc5444/rfc5444.h:63 -/
def metricMin : Nat := 1
/-- `RFC7181_METRIC_INFINITE`, include/oonf/librfc5444/rfc5444.h:66 -/
def metricInfinite : Nat := 0xffffff

/-- Reading `vector[i]`; `none` is the out-of-bounds read (undefined behaviour in C). -/
def readAt (v : List UInt8) (i : Nat) : Option UInt8 := v[i]?

/-- The `for` loop of `rfc5497_timetlv_get_from_vector`, rfc5444.c:68-76.
`fuel` bounds the number of iterations (the caller passes the vector length);
running out of fuel is reported like an out-of-bounds access so that it cannot hide. -/
def vecLoop (v : List UInt8) (hop : UInt8) : Nat → Nat → Option UInt8
  | 0, _ => none
  | fuel + 1, i =>
    if i < v.length then do
      let limit ← readAt v i
      if hop ≤ limit then readAt v (i - 1) else vecLoop v hop fuel (i + 2)
    else readAt v (i - 1)

/-- `rfc5497_timetlv_get_from_vector`, rfc5444.c:59-77.  `none` = out-of-bounds read. -/
def timeFromVector (v : List UInt8) (hop : UInt8) : Option UInt8 :=
  if v.length % 2 = 0 then some 255 else vecLoop v hop (v.length + 1) 1

/-- `while (decoded > 1875)` loop, rfc5444.c:108-114.  Returns the final `(decoded, b)`.
`fuel` replaces the unbounded loop (64 halvings suffice for a 64 bit value). -/
def timeHalve : Nat → Nat → Nat → Nat × Nat
  | 0, d, b => (d, b)
  | fuel + 1, d, b => if d > 1875 then timeHalve fuel ((d + 1) / 2) (b + 1) else (d, b)

/-- `while (decoded < 1000)` loop, rfc5444.c:118-121 (`b` is a `uint32_t` that wraps). -/
def timeDouble : Nat → Nat → Nat → Nat × Nat
  | 0, d, b => (d, b)
  | fuel + 1, d, b =>
    if d < 1000 then timeDouble fuel (d * 2 % 2 ^ 64) ((b + (2 ^ 32 - 1)) % 2 ^ 32) else (d, b)

/-- `rfc5497_timetlv_encode`, rfc5444.c:90-126.  The final addition wraps to 8 bit, the
subtraction `decoded - 1000 + 124` wraps to 64 bit like the C code. -/
def timeEncode (t : Nat) : Nat :=
  if t < timeMin then 0
  else if t > timeMax then 255
  else
    let (d, b) := if t ≥ 1000 then timeHalve 64 t 10 else timeDouble 64 t 10
    let a := (d + (2 ^ 64 - 1000) + 124) % 2 ^ 64 / 125
    (a + b * 8) % 256

/-- `rfc5497_timetlv_decode`, rfc5444.c:136-173 (argument is a `uint8_t`). -/
def timeDecode (c : Nat) : Nat :=
  if c = 0 then 0
  else if c = 255 then 2 ^ 64 - 1
  else
    let a := c % 8
    let b := c / 8
    if b ≤ 10 then (1000 + 125 * a) >>> (10 - b) else (1000 + 125 * a) <<< (b - 10)

/-- `struct rfc7181_metric_field`, rfc5444.h:75-78 -/
structure MetricField where
  b0 : Nat
  b1 : Nat
deriving DecidableEq, Repr

/-- `while (decoded > 512)` loop, rfc5444.c:205-211. Returns `(decoded, a)`. -/
def metricHalve : Nat → Nat → Nat → Nat × Nat
  | 0, d, a => (d, a)
  | fuel + 1, d, a => if d > 512 then metricHalve fuel ((d + 1) / 2) (a + 1) else (d, a)

/-- `rfc7181_metric_encode`, rfc5444.c:185-219.  `none` is the error return `-1`.
Both output bytes are truncated to 8 bit. -/
def metricEncode (m : Nat) : Option MetricField :=
  if m < metricMin ∨ m ≥ metricInfinite then none
  else if m > metricMax then some ⟨0x0f, 0xff⟩
  else
    let (d, a) := metricHalve 32 (m + 256) 0
    some ⟨a % 256, (d + (2 ^ 32 - 257)) % 2 ^ 32 % 256⟩

/-- `rfc7181_metric_decode`, rfc5444.c:227-230. -/
def metricDecode (f : MetricField) : Nat :=
  (257 + f.b1) <<< (f.b0 % 16) - 256

/-- `rfc7181_metric_set_flag`, rfc5444.h:134-136 -/
def metricSetFlag (f : MetricField) (flag : Nat) : MetricField := { f with b0 := f.b0 ||| flag }
/-- `rfc7181_metric_reset_flag`, rfc5444.h:144-146 (`~` on a `uint8_t`) -/
def metricResetFlag (f : MetricField) (flag : Nat) : MetricField :=
  { f with b0 := f.b0 &&& (255 - flag) }
/-- `rfc7181_metric_has_flag`, rfc5444.h:124-126 -/
def metricHasFlag (f : MetricField) (flag : Nat) : Bool := (f.b0 &&& flag) != 0

/-- `rfc5444_seqno_difference`, rfc5444.c:239-250 -/
def seqnoDifference (s1 s2 : UInt16) : Int :=
  let diff : Int := (s1.toNat : Int) - (s2.toNat : Int)
  if diff > 2 ^ 15 then diff - 2 ^ 16
  else if diff < -(2 ^ 15) then diff + 2 ^ 16
  else diff

/-- `rfc5444_seqno_is_larger`, rfc5444.h:96-104 (operands are promoted to `int`) -/
def seqnoIsLarger (s1 s2 : UInt16) : Bool :=
  (s1 > s2 && (s1.toNat : Int) - s2.toNat < 2 ^ 15)
    || (s2 > s1 && (s2.toNat : Int) - s1.toNat > 2 ^ 15)

/-- `rfc5444_seqno_is_smaller`, rfc5444.h:113-115 -/
def seqnoIsSmaller (s1 s2 : UInt16) : Bool :=
  s1 != s2 && !seqnoIsLarger s1 s2

end Verif.Codec
