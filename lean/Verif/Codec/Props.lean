import Verif.Codec.Lemmas
/-
Property theorems for the value codecs (C01 - C05).
-/
namespace Verif.Codec

/-! ## C01, C02: RFC 5497 time codes -/

/-- Specification: the time (ms, rounded down) denoted by a finite time code
`c = 8*b + a` is `(1 + a/8) * 2^b * 1000/1024` (RFC 5497, section 5). -/
def specTime (c : Nat) : Nat := (8 + c % 8) * 125 * 2 ^ (c / 8) / 1024

/-- C01/C02: the decoder computes the RFC 5497 value of every finite non-zero code. -/
theorem C01_timetlv_decode_is_rfc5497 (c : Nat) (h0 : 0 < c) (h1 : c < 255) :
    timeDecode c = specTime c := by
  rw [timeDecode_formula c h0 h1]; unfold specTime; congr 2; omega

/-- The two special codes: 0 is the zero time, 255 is "infinite" (`UINT64_MAX`). -/
theorem C01_timetlv_decode_special : timeDecode 0 = 0 ∧ timeDecode 255 = 2 ^ 64 - 1 := by decide

/-- C01: for every interval between 1 ms and the maximum, a code denotes a time of at least
`t` iff it is not below `timeEncode t`; i.e. the encoder picks the least adequate code. -/
theorem C01_timetlv_encode_least (t : Nat) (h0 : 0 < t) (h1 : t ≤ timeMax) (c : Nat)
    (hc : c ≤ 255) : timeEncode t ≤ c ↔ t ≤ timeDecode c := by
  obtain ⟨e1, e2, e3, e4⟩ := timeEncode_spec t h0 h1
  constructor
  · intro h; exact Nat.le_trans e2 (timeDecode_mono h hc)
  · intro h
    rcases Nat.lt_or_ge c (timeEncode t) with hlt | hge
    · exfalso
      have := timeDecode_mono (c := c) (d := timeEncode t - 1) (by omega) (by omega)
      omega
    · exact hge

/-- C01: the round trip never shortens the interval and no code decodes to a value in between. -/
theorem C01_timetlv_roundtrip (t : Nat) (h0 : 0 < t) (h1 : t ≤ timeMax) :
    timeEncode t ≤ 255 ∧ t ≤ timeDecode (timeEncode t) ∧
      ∀ c ≤ 255, ¬ (t ≤ timeDecode c ∧ timeDecode c < timeDecode (timeEncode t)) := by
  obtain ⟨e1, e2, _, _⟩ := timeEncode_spec t h0 h1
  refine ⟨by omega, e2, ?_⟩
  rintro c hc ⟨h2, h3⟩
  have := (C01_timetlv_encode_least t h0 h1 c hc).2 h2
  have := timeDecode_mono this hc
  omega

/-- C01: the boundaries: zero encodes to zero, everything above the maximum to "infinite",
and the maximum itself is a finite code. -/
theorem C01_timetlv_encode_bounds (t : Nat) :
    (t = 0 → timeEncode t = 0) ∧ (t > timeMax → timeEncode t = 255) ∧
      (t ≤ timeMax → timeEncode t < 255) := by
  refine ⟨?_, ?_, ?_⟩
  · rintro rfl; decide
  · intro h
    have h1 : ¬ t < timeMin := by simp [timeMin, timeMax] at *; omega
    simp [timeEncode, h1, h]
  · intro h
    rcases Nat.eq_zero_or_pos t with h0 | h0
    · subst h0; decide
    · have := (C01_timetlv_encode_least t h0 h 254 (by omega)).2
        (by have : timeDecode 254 = timeMax := by decide +kernel
            omega)
      omega

example : (0 < 6000 ∧ 6000 ≤ timeMax) ∧ timeEncode 6000 = 100 ∧ timeDecode 100 = 6000 := by
  decide +kernel
example : timeEncode 6001 = 101 ∧ timeDecode 101 = 6500 := by decide +kernel

/-- C02: decoding is monotone over all codes. -/
theorem C02_timetlv_decode_monotone (c d : Nat) (h : c ≤ d) (hd : d ≤ 255) :
    timeDecode c ≤ timeDecode d := timeDecode_mono h hd

/-- C02: from 7 ms on (code 24) distinct codes denote distinct, strictly increasing times. -/
theorem C02_timetlv_decode_strict (c d : Nat) (h0 : 24 ≤ c) (h : c < d) (hd : d ≤ 255) :
    timeDecode c < timeDecode d := by
  have hs : ∀ c, c < 255 → 24 ≤ c → timeDecode c < timeDecode (c + 1) := by decide +kernel
  exact Nat.lt_of_lt_of_le (hs c (by omega) h0) (timeDecode_mono (by omega) hd)

/-- C02: below that the one-millisecond resolution makes codes collide. -/
theorem C02_timetlv_low_codes_collide : timeDecode 1 = timeDecode 8 := by decide +kernel

/-- C02: relaying a time code (decode, then encode again) never changes the denoted time. -/
theorem C02_timetlv_relay_stable (c : Nat) (hc : c ≤ 255) :
    timeDecode (timeEncode (timeDecode c)) = timeDecode c := by
  have : ∀ c, c < 256 → timeDecode (timeEncode (timeDecode c)) = timeDecode c := by
    decide +kernel
  exact this c (by omega)

/-- C02: and from code 25 on it returns the identical code. -/
theorem C02_timetlv_relay_code (c : Nat) (h0 : 25 ≤ c) (hc : c ≤ 255) :
    timeEncode (timeDecode c) = c := by
  have : ∀ c, c < 256 → 25 ≤ c → timeEncode (timeDecode c) = c := by decide +kernel
  exact this c (by omega) h0

/-! ## C03: time vectors -/

/-- Specification of RFC 5497 section 5.1: in `t₀ h₁ t₁ h₂ … tₙ` entry `k` applies if it is
the last one or the hop count does not exceed the limit behind it, and no earlier entry
applies. -/
def VectorEntry (v : List UInt8) (hop : UInt8) (k : Nat) : Prop :=
  (2 * k + 1 = v.length ∨ ∃ l, v[2 * k + 1]? = some l ∧ hop ≤ l) ∧
  ∀ j < k, ∃ l, v[2 * j + 1]? = some l ∧ ¬ hop ≤ l

theorem vecLoop_spec (v : List UInt8) (hop : UInt8) (hodd : v.length % 2 = 1) (fuel k : Nat)
    (hf : v.length < 2 * k + 1 + 2 * fuel) (hk : 2 * k + 1 ≤ v.length)
    (hprev : ∀ j < k, ∃ l, v[2 * j + 1]? = some l ∧ ¬ hop ≤ l) :
    ∃ r k', vecLoop v hop fuel (2 * k + 1) = some r ∧ v[2 * k']? = some r ∧
      VectorEntry v hop k' := by
  induction fuel generalizing k with
  | zero => omega
  | succ n ih =>
    unfold vecLoop
    by_cases hi : 2 * k + 1 < v.length
    · simp only [hi, if_true, readAt, Option.bind_eq_bind]
      rw [List.getElem?_eq_getElem hi]
      simp only [Option.bind_some]
      by_cases hh : hop ≤ v[2 * k + 1]
      · simp only [hh, if_true]
        have : 2 * k < v.length := by omega
        refine ⟨v[2 * k], k, ?_, ?_, ?_, hprev⟩
        · simp [List.getElem?_eq_getElem this]
        · simp [List.getElem?_eq_getElem this]
        · right; exact ⟨_, List.getElem?_eq_getElem hi, hh⟩
      · simp only [hh, if_false]
        have e : 2 * k + 1 + 2 = 2 * (k + 1) + 1 := by omega
        rw [e]
        apply ih (k + 1) (by omega) (by omega)
        intro j hj
        rcases Nat.lt_or_ge j k with h | h
        · exact hprev j h
        · have : j = k := by omega
          subst this
          exact ⟨_, List.getElem?_eq_getElem hi, hh⟩
    · simp only [hi, if_false, readAt]
      have : 2 * k < v.length := by omega
      refine ⟨v[2 * k], k, ?_, ?_, ?_, hprev⟩
      · simp [List.getElem?_eq_getElem this]
      · simp [List.getElem?_eq_getElem this]
      · left; omega

/-- C03: for every legal (odd length) vector the lookup stays inside the vector and returns
the value of the entry selected by RFC 5497. -/
theorem C03_timetlv_vector_lookup (v : List UInt8) (hop : UInt8) (hodd : v.length % 2 = 1) :
    ∃ r k, timeFromVector v hop = some r ∧ v[2 * k]? = some r ∧ VectorEntry v hop k := by
  have h : ¬ v.length % 2 = 0 := by omega
  simp only [timeFromVector, h, if_false]
  exact vecLoop_spec v hop hodd (v.length + 1) 0 (by omega) (by omega) (by omega)

/-- C03: the specification selects at most one entry, so the lookup result is determined. -/
theorem C03_vector_entry_unique (v : List UInt8) (hop : UInt8) (k k' : Nat)
    (hk : 2 * k < v.length) (hk' : 2 * k' < v.length)
    (h : VectorEntry v hop k) (h' : VectorEntry v hop k') : k = k' := by
  have key : ∀ a b, 2 * b < v.length → VectorEntry v hop a → VectorEntry v hop b → ¬ a < b := by
    intro a b hb ha hb' hlt
    obtain ⟨l, hl, hn⟩ := hb'.2 a hlt
    rcases ha.1 with h1 | ⟨l', hl', hle⟩
    · omega
    · rw [hl] at hl'; cases hl'; exact hn hle
  have := key k k' hk' h h'
  have := key k' k hk h' h
  omega

/-- C03: illegal (even length, in particular empty) vectors yield the infinite code and are
never read. -/
theorem C03_timetlv_vector_illegal (v : List UInt8) (hop : UInt8) (h : v.length % 2 = 0) :
    timeFromVector v hop = some 255 := by simp [timeFromVector, h]

example : timeFromVector [10, 2, 20, 5, 30] 3 = some 20 ∧ VectorEntry [10, 2, 20, 5, 30] 3 1 := by
  refine ⟨by decide, ?_, ?_⟩
  · right; exact ⟨5, by decide, by decide⟩
  · intro j hj
    have : j = 0 := by omega
    subst this; exact ⟨2, by decide, by decide⟩

/-! ## C04: RFC 7181 metric codes -/

/-- The 12 bit number `256*a + b` of a metric field. -/
def metricCode (f : MetricField) : Nat := 256 * f.b0 + f.b1

/-- The metric denoted by a 12 bit code `256*a + b`: `(257+b) * 2^a - 256` (RFC 7181, 6.2). -/
def specMetric (c : Nat) : Nat := (257 + c % 256) * 2 ^ (c / 256) - 256

/-- C04: the decoder computes the RFC 7181 value; the upper four bits of the first byte
(direction flags) are ignored. -/
theorem C04_metric_decode_is_rfc7181 (f : MetricField) (h1 : f.b1 < 256) :
    metricDecode f = specMetric (256 * (f.b0 % 16) + f.b1) := by
  unfold metricDecode specMetric
  rw [Nat.shiftLeft_eq]
  have e1 : (256 * (f.b0 % 16) + f.b1) % 256 = f.b1 := by omega
  have e2 : (256 * (f.b0 % 16) + f.b1) / 256 = f.b0 % 16 := by omega
  rw [e1, e2]

/-- C04: metric values are strictly increasing in the code. -/
theorem C04_metric_strict_mono (c d : Nat) (h : c < d) : specMetric c < specMetric d := by
  have key : ∀ c, specMetric c < specMetric (c + 1) := by
    intro c
    unfold specMetric
    have hp : 0 < 2 ^ (c / 256) := Nat.pow_pos (by omega)
    have hA : 257 * 1 ≤ (257 + c % 256) * 2 ^ (c / 256) :=
      Nat.mul_le_mul (by omega) hp
    by_cases hc : c % 256 = 255
    · have e1 : (c + 1) % 256 = 0 := by omega
      have e2 : (c + 1) / 256 = c / 256 + 1 := by omega
      rw [e1, e2, hc, Nat.pow_succ]; omega
    · have e1 : (c + 1) % 256 = c % 256 + 1 := by omega
      have e2 : (c + 1) / 256 = c / 256 := by omega
      rw [e1, e2]
      have : (257 + (c % 256 + 1)) * 2 ^ (c / 256)
          = (257 + c % 256) * 2 ^ (c / 256) + 2 ^ (c / 256) := by
        rw [← Nat.succ_mul]; rfl
      omega
  induction d with
  | zero => omega
  | succ n ih =>
    rcases Nat.lt_or_ge c n with h' | h'
    · exact Nat.lt_trans (ih h') (key n)
    · have : c = n := by omega
      subst this; exact key c

/-- C04: for every legal metric up to the maximum the encoder succeeds with a 12 bit code and a
code denotes at least `m` iff it is not below the chosen one (least adequate code). -/
theorem C04_metric_encode_least (m : Nat) (h0 : 0 < m) (h1 : m ≤ metricMax) :
    ∃ f, metricEncode m = some f ∧ f.b0 < 16 ∧ f.b1 < 256 ∧ m ≤ metricDecode f ∧
      ∀ c, metricCode f ≤ c ↔ m ≤ specMetric c := by
  obtain ⟨a, b, he, ha, hb, hle, hlt⟩ := metricEncode_spec m h0 h1
  have hdec := metricDecode_eq a b ha
  have hle' : m ≤ metricDecode ⟨a, b⟩ := by omega
  refine ⟨⟨a, b⟩, he, ha, hb, hle', ?_⟩
  intro c
  have hd : specMetric (metricCode ⟨a, b⟩) = metricDecode ⟨a, b⟩ := by
    rw [C04_metric_decode_is_rfc7181 _ hb, metricCode, Nat.mod_eq_of_lt ha]
  constructor
  · intro hc
    rcases Nat.eq_or_lt_of_le hc with h | h
    · rw [← h, hd]; exact hle'
    · have := C04_metric_strict_mono _ _ h; omega
  · intro hc
    rcases Nat.lt_or_ge c (metricCode ⟨a, b⟩) with h | h
    · exfalso
      -- everything below the code is at most its predecessor
      have hpos : 0 < metricCode ⟨a, b⟩ := by omega
      have hpred : specMetric (metricCode ⟨a, b⟩ - 1) < m := by
        simp only [metricCode] at hpos ⊢
        unfold specMetric
        have hp : 0 < 2 ^ a := Nat.pow_pos (by omega)
        by_cases hb0 : b = 0
        · subst hb0
          obtain ⟨a', rfl⟩ : ∃ a', a = a' + 1 := ⟨a - 1, by omega⟩
          have e1 : (256 * (a' + 1) + 0 - 1) % 256 = 255 := by omega
          have e2 : (256 * (a' + 1) + 0 - 1) / 256 = a' := by omega
          rw [e1, e2]; rw [Nat.pow_succ] at hlt; omega
        · have e1 : (256 * a + b - 1) % 256 = b - 1 := by omega
          have e2 : (256 * a + b - 1) / 256 = a := by omega
          rw [e1, e2, show 257 + (b - 1) = 256 + b by omega]; omega
      rcases Nat.eq_or_lt_of_le (Nat.le_sub_one_of_lt h) with h' | h'
      · rw [← h'] at hpred; omega
      · have := C04_metric_strict_mono _ _ h'; omega
    · exact h

/-- C04: exactly 0 and the values from "infinite" on are rejected. -/
theorem C04_metric_encode_rejects (m : Nat) :
    metricEncode m = none ↔ (m = 0 ∨ m ≥ metricInfinite) := by
  constructor
  · intro h
    rcases Nat.eq_zero_or_pos m with h0 | h0
    · exact Or.inl h0
    · rcases Nat.lt_or_ge m metricInfinite with h1 | h1
      · exfalso
        rcases Nat.lt_or_ge metricMax m with h2 | h2
        · have : ¬ (m < metricMin ∨ m ≥ metricInfinite) := by simp [metricMin]; omega
          simp [metricEncode, this, h2] at h
        · obtain ⟨f, hf, _⟩ := C04_metric_encode_least m h0 h2
          rw [hf] at h; cases h
      · exact Or.inr h1
  · intro h
    have : m < metricMin ∨ m ≥ metricInfinite := by simp [metricMin]; omega
    simp [metricEncode, this]

/-- C04: values between the largest representable metric and "infinite" saturate to code 4095. -/
theorem C04_metric_encode_saturates (m : Nat) (h : metricMax < m) (h1 : m < metricInfinite) :
    ∃ f, metricEncode m = some f ∧ metricCode f = 4095 ∧ metricDecode f = metricMax := by
  have : ¬ (m < metricMin ∨ m ≥ metricInfinite) := by simp [metricMin]; omega
  exact ⟨⟨0x0f, 0xff⟩, by simp [metricEncode, this, h], by decide, by decide +kernel⟩

/-- C04: decoding any 12 bit code and encoding the result gives the code back. -/
theorem C04_metric_code_roundtrip (a b : Nat) (ha : a < 16) (hb : b < 256) :
    metricEncode (metricDecode ⟨a, b⟩) = some ⟨a, b⟩ := by
  have hd : specMetric (metricCode ⟨a, b⟩) = metricDecode ⟨a, b⟩ := by
    rw [C04_metric_decode_is_rfc7181 _ hb, metricCode, Nat.mod_eq_of_lt ha]
  have hmax : metricDecode ⟨a, b⟩ ≤ metricMax := by
    rw [← hd]
    have : specMetric 4095 = metricMax := by decide +kernel
    rw [← this]
    rcases Nat.eq_or_lt_of_le (show metricCode ⟨a, b⟩ ≤ 4095 by simp [metricCode]; omega) with h | h
    · rw [h]; exact Nat.le_refl _
    · exact Nat.le_of_lt (C04_metric_strict_mono _ _ h)
  have hpos : 0 < metricDecode ⟨a, b⟩ := by
    have := metricDecode_eq a b ha
    have hp : 0 < 2 ^ a := Nat.pow_pos (by omega)
    have : (257 + b) * 1 ≤ (257 + b) * 2 ^ a := Nat.mul_le_mul_left _ hp
    omega
  obtain ⟨f, hf, h0, h1, _, hl⟩ := C04_metric_encode_least _ hpos hmax
  rw [hf]
  have hcode : metricCode f = metricCode ⟨a, b⟩ := by
    have hle := (hl (metricCode ⟨a, b⟩)).2 (by rw [hd]; exact Nat.le_refl _)
    have hge : metricDecode ⟨a, b⟩ ≤ specMetric (metricCode f) := (hl (metricCode f)).1 (Nat.le_refl _)
    rcases Nat.eq_or_lt_of_le hle with h | h
    · exact h
    · have := C04_metric_strict_mono _ _ h; omega
  obtain ⟨x, y⟩ := f
  simp only [metricCode] at hcode h0 h1
  have e1 : x = a := by omega
  have e2 : y = b := by omega
  rw [e1, e2]

/-- The four direction flags of a metric TLV (`enum rfc7181_linkmetric_flags`,
include/oonf/librfc5444/rfc5444_iana.h:309-315). -/
def linkmetricFlags : List Nat := [128, 64, 32, 16]

/-- C04: setting or clearing direction flags never changes the metric value, and a flag reads
back as set/cleared without disturbing the other flags. -/
theorem C04_metric_flags_independent (a b : Nat) (ha : a < 256) (flag : Nat)
    (hf : flag ∈ linkmetricFlags) :
    metricDecode (metricSetFlag ⟨a, b⟩ flag) = metricDecode ⟨a, b⟩ ∧
    metricDecode (metricResetFlag ⟨a, b⟩ flag) = metricDecode ⟨a, b⟩ ∧
    metricHasFlag (metricSetFlag ⟨a, b⟩ flag) flag = true ∧
    metricHasFlag (metricResetFlag ⟨a, b⟩ flag) flag = false ∧
    ∀ other ∈ linkmetricFlags, other ≠ flag →
      metricHasFlag (metricSetFlag ⟨a, b⟩ flag) other = metricHasFlag ⟨a, b⟩ other ∧
      metricHasFlag (metricResetFlag ⟨a, b⟩ flag) other = metricHasFlag ⟨a, b⟩ other := by
  have h : ∀ a < 256, ∀ flag ∈ linkmetricFlags,
      (a ||| flag) % 16 = a % 16 ∧ (a &&& (255 - flag)) % 16 = a % 16 ∧
      (a ||| flag) &&& flag ≠ 0 ∧ (a &&& (255 - flag)) &&& flag = 0 ∧
      ∀ other ∈ linkmetricFlags, other ≠ flag →
        ((a ||| flag) &&& other = a &&& other) ∧ ((a &&& (255 - flag)) &&& other = a &&& other) := by
    decide +kernel
  obtain ⟨h1, h2, h3, h4, h5⟩ := h a ha flag hf
  refine ⟨?_, ?_, ?_, ?_, ?_⟩
  · unfold metricDecode metricSetFlag; simp only; rw [h1]
  · unfold metricDecode metricResetFlag; simp only; rw [h2]
  · simpa [metricHasFlag, metricSetFlag] using h3
  · simpa [metricHasFlag, metricResetFlag] using h4
  · intro o ho hne
    simp [metricHasFlag, metricSetFlag, metricResetFlag, (h5 o ho hne).1, (h5 o ho hne).2]

example : (0 < 1000 ∧ 1000 ≤ metricMax) ∧ metricEncode 1000 = some ⟨2, 57⟩ ∧
    metricDecode ⟨2, 57⟩ = 1000 := by decide +kernel
example : metricEncode 1001 = some ⟨2, 58⟩ ∧ metricDecode ⟨2, 58⟩ = 1004 := by decide +kernel

/-! ## C05: sequence numbers -/

/-- C05: `s1` is larger than `s2` exactly if it is `1 .. 2^15-1` steps ahead of `s2` on the
circle of 16 bit numbers. -/
theorem C05_seqno_larger_iff (s1 s2 : UInt16) :
    seqnoIsLarger s1 s2 = true ↔
      ∃ k, 0 < k ∧ k < 2 ^ 15 ∧ s1.toNat = (s2.toNat + k) % 2 ^ 16 := by
  have h1 := s1.toNat_lt
  have h2 := s2.toNat_lt
  simp only [seqnoIsLarger, Bool.or_eq_true, Bool.and_eq_true, decide_eq_true_eq, GT.gt,
    UInt16.lt_iff_toNat_lt]
  constructor
  · intro h
    refine ⟨(s1.toNat + 2 ^ 16 - s2.toNat) % 2 ^ 16, ?_, ?_, ?_⟩ <;> omega
  · rintro ⟨k, hk0, hk1, hk⟩
    omega

/-- C05: the order is irreflexive and antisymmetric. -/
theorem C05_seqno_larger_asymm (s1 s2 : UInt16) :
    seqnoIsLarger s1 s1 = false ∧ (seqnoIsLarger s1 s2 = true → seqnoIsLarger s2 s1 = false) := by
  have h1 := s1.toNat_lt
  have h2 := s2.toNat_lt
  simp only [seqnoIsLarger, Bool.or_eq_true, Bool.and_eq_true, decide_eq_true_eq, GT.gt,
    UInt16.lt_iff_toNat_lt, Bool.or_eq_false_iff, Bool.and_eq_false_iff, decide_eq_false_iff_not]
  constructor <;> omega

/-- C05: the order only depends on the distance: it is invariant under a common offset
(e.g. wrap-around of both counters). -/
theorem C05_seqno_larger_shift (s1 s2 k : UInt16) :
    seqnoIsLarger (s1 + k) (s2 + k) = seqnoIsLarger s1 s2 := by
  rw [Bool.eq_iff_iff, C05_seqno_larger_iff, C05_seqno_larger_iff]
  have h1 := s1.toNat_lt
  have h2 := s2.toNat_lt
  have h3 := k.toNat_lt
  simp only [UInt16.toNat_add]
  constructor <;> rintro ⟨j, a, b, c⟩ <;> exact ⟨j, a, b, by omega⟩

/-- C05: "smaller" is the mirror image of "larger" and exactly one of them holds between
distinct numbers, except at the antipodal distance `2^15`. -/
theorem C05_seqno_trichotomy_partial (s1 s2 : UInt16) (hne : s1 ≠ s2)
    (hanti : s1.toNat ≠ (s2.toNat + 2 ^ 15) % 2 ^ 16) :
    (seqnoIsLarger s1 s2 = true ↔ ¬ seqnoIsLarger s2 s1 = true) ∧
    (seqnoIsSmaller s1 s2 = seqnoIsLarger s2 s1) := by
  have h1 := s1.toNat_lt
  have h2 := s2.toNat_lt
  have hne' : s1.toNat ≠ s2.toNat := fun h => hne (UInt16.toNat_inj.1 h)
  have key : seqnoIsLarger s1 s2 = true ↔ ¬ seqnoIsLarger s2 s1 = true := by
    simp only [seqnoIsLarger, Bool.or_eq_true, Bool.and_eq_true, decide_eq_true_eq, GT.gt,
      UInt16.lt_iff_toNat_lt]
    omega
  refine ⟨key, ?_⟩
  have : (s1 != s2) = true := by simpa using hne
  simp only [seqnoIsSmaller, this, Bool.true_and]
  cases ha : seqnoIsLarger s1 s2 <;> cases hb : seqnoIsLarger s2 s1 <;> simp_all

/-- C05 is false at the antipodal distance: neither number is larger, and each is reported as
smaller than the other. -/
theorem C05_seqno_trichotomy_counterexample :
    seqnoIsLarger 0 32768 = false ∧ seqnoIsLarger 32768 0 = false ∧
    seqnoIsSmaller 0 32768 = true ∧ seqnoIsSmaller 32768 0 = true := by decide

/-- C05: the signed difference is congruent to `s1 - s2`, at most `2^15` in size, and positive
below `2^15` exactly when `s1` is larger. -/
theorem C05_seqno_difference (s1 s2 : UInt16) :
    (seqnoDifference s1 s2 - ((s1.toNat : Int) - s2.toNat)) % 2 ^ 16 = 0 ∧
    -(2 ^ 15) ≤ seqnoDifference s1 s2 ∧ seqnoDifference s1 s2 ≤ 2 ^ 15 ∧
    (seqnoIsLarger s1 s2 = true ↔ 0 < seqnoDifference s1 s2 ∧ seqnoDifference s1 s2 < 2 ^ 15) := by
  have h1 := s1.toNat_lt
  have h2 := s2.toNat_lt
  simp only [seqnoIsLarger, Bool.or_eq_true, Bool.and_eq_true, decide_eq_true_eq, GT.gt,
    UInt16.lt_iff_toNat_lt, seqnoDifference]
  split
  · omega
  · split <;> omega

/-- C05: for distances below half the number space the difference recovers the offset. -/
theorem C05_seqno_difference_recovers (s : UInt16) (k : Nat) (hk : k < 2 ^ 15) :
    seqnoDifference (s + UInt16.ofNat k) s = k ∧ seqnoDifference s (s + UInt16.ofNat k) = -k := by
  have h1 := s.toNat_lt
  have hk' : (UInt16.ofNat k).toNat = k := by
    rw [UInt16.toNat_ofNat']; omega
  simp only [seqnoDifference, UInt16.toNat_add, hk']
  constructor <;> split <;> (try split) <;> omega

example : seqnoIsLarger 3 65530 = true ∧ seqnoDifference 3 65530 = 9 := by decide

end Verif.Codec
