import Verif.Codec.Props
import Verif.Metric.DatWindow
import Verif.Metric.DatSpeed
import Verif.Metric.DatLoss

/-
The metric of the plugin: C88 (always legal, no undefined operation), C89 (options), C90 (faster and more reliable links are not worse).
-/
namespace Verif.Metric
open Verif.Codec (metricMax metricEncode metricDecode metricCode specMetric C04_metric_encode_least C04_metric_decode_is_rfc7181
  C04_metric_code_roundtrip C04_metric_strict_mono)

/-! ### Shaping -/

/-- a metric that can be transmitted in a TLV without change -/
def Legal (m : Nat) : Prop := 1 ≤ m ∧ m ≤ 0xffff00 ∧ ∃ f, metricEncode m = some f ∧ metricDecode f = m

theorem legal_max : Legal 0xffff00 := ⟨by omega, by omega, ⟨15, 255⟩, by decide +kernel, by decide +kernel⟩
theorem legal_min : Legal 1 := ⟨by omega, by omega, ⟨0, 0⟩, by decide +kernel, by decide +kernel⟩

theorem specMetric_mono (a b : Nat) (h : a ≤ b) : specMetric a ≤ specMetric b := by
  rcases Nat.eq_or_lt_of_le h with h | h
  · rw [h]; exact Nat.le_refl _
  · exact Nat.le_of_lt (C04_metric_strict_mono a b h)

/-- shaping in terms of the values that can be transmitted -/
theorem shape_spec (m : Nat) (h0 : 1 ≤ m) (h1 : m ≤ 0xffff00) :
    ∃ c, c < 4096 ∧ shape m = specMetric c ∧ ∀ c', m ≤ specMetric c' ↔ c ≤ c' := by
  obtain ⟨f, he, hb0, hb1, -, hl⟩ := C04_metric_encode_least m h0 h1
  refine ⟨metricCode f, by unfold metricCode; omega, ?_, fun c' => (hl c').symm⟩
  unfold shape
  rw [if_neg (show ¬ m > metricMax by show ¬ m > 0xffff00; omega), if_neg (show ¬ m < Codec.metricMin by show ¬ m < 1; omega), he]
  dsimp only
  rw [C04_metric_decode_is_rfc7181 f hb1]
  unfold metricCode
  rw [Nat.mod_eq_of_lt hb0]

theorem shape_legal (m : Nat) : Legal (shape m) := by
  by_cases h1 : m > 0xffff00
  · have : shape m = 0xffff00 := if_pos h1
    rw [this]; exact legal_max
  · by_cases h0 : m < 1
    · have : shape m = 1 := by
        unfold shape
        rw [if_neg (show ¬ m > metricMax from h1), if_pos (show m < Codec.metricMin from h0)]
        rfl
      rw [this]; exact legal_min
    · obtain ⟨c, hc, he, hl⟩ := shape_spec m (by omega) (by omega)
      have e : specMetric c = metricDecode ⟨c / 256, c % 256⟩ := by
        rw [C04_metric_decode_is_rfc7181 _ (Nat.mod_lt _ (by omega))]
        dsimp only
        rw [Nat.mod_eq_of_lt (show c / 256 < 16 by omega), Nat.div_add_mod]
      have hle : m ≤ specMetric c := (hl c).mpr (Nat.le_refl _)
      have hmax : specMetric c ≤ 0xffff00 := by
        have h4 := specMetric_mono c 4095 (by omega)
        have : specMetric 4095 = 0xffff00 := by decide +kernel
        omega
      rw [he]
      refine ⟨by omega, hmax, ⟨c / 256, c % 256⟩, ?_, e.symm⟩
      rw [e]
      exact C04_metric_code_roundtrip _ _ (by omega) (Nat.mod_lt _ (by omega))

theorem shape_mono (a b : Nat) (h : a ≤ b) : shape a ≤ shape b := by
  by_cases hb : b > 0xffff00
  · have : shape b = 0xffff00 := if_pos hb
    rw [this]; exact (shape_legal a).2.1
  · by_cases ha : a < 1
    · have : shape a = 1 := by
        unfold shape
        rw [if_neg (show ¬ a > metricMax by show ¬ a > 0xffff00; omega), if_pos (show a < Codec.metricMin from ha)]
        rfl
      rw [this]; exact (shape_legal b).1
    · obtain ⟨c, -, e, hl⟩ := shape_spec a (by omega) (by omega)
      obtain ⟨c', -, e', hl'⟩ := shape_spec b (by omega) (by omega)
      rw [e, e']
      apply specMetric_mono
      rw [← hl]
      have := (hl' c').mpr (Nat.le_refl _)
      omega

/-! ### C88 -/

/-- C88: every metric the plugin sets, in any execution, with any configuration and any layer-2 data, is a legal metric: between 1 and the
maximum of RFC 7181, and the encoding of a TLV transmits it unchanged. -/
theorem C88_metric_legal (es : List DEvent) : ∀ (d d' : DLink) (ms : List Nat), drun d es = some (d', ms) → ∀ m ∈ ms, Legal m := by
  induction es with
  | nil => intro d d' ms h m hm; cases h; simp at hm
  | cons e es ih =>
    intro d d' ms h m hm
    rw [drun_cons] at h
    cases he : dstep d e with
    | none => rw [he] at h; cases h
    | some r =>
      rw [he] at h
      simp only [Option.bind_some] at h
      cases hd : drun r.1 es with
      | none => rw [hd] at h; cases h
      | some q =>
        rw [hd] at h
        simp only [Option.map_some, Option.some.injEq, Prod.mk.injEq] at h
        rw [← h.2] at hm
        rcases List.mem_append.mp hm with hm | hm
        · cases e with
          | packet s => simp only [dstep, Option.some.injEq] at he; rw [← he] at hm; simp at hm
          | helloLost => simp only [dstep, Option.some.injEq] at he; rw [← he] at hm; simp at hm
          | changed it vt => simp only [dstep, Option.some.injEq] at he; rw [← he] at hm; simp at hm
          | sample c i =>
            simp only [dstep] at he
            unfold sample at he
            by_cases hc : d.contains = false
            · rw [if_pos hc] at he; cases he; simp at hm
            · rw [if_neg hc] at he
              dsimp only at he
              split at he
              · cases he
              split at he
              · cases he
              split at he
              · cases he
              cases he
              simp only [Option.toList_some, List.mem_singleton] at hm
              rw [hm]
              exact shape_legal _
        · exact ih r.1 q.1 q.2 hd m hm

/-- data from layer 2 that is not absurdly large -/
def Modest (o : Option Int) : Prop := ∀ v, o = some v → -1000000000000000000 ≤ v ∧ v ≤ 1000000000000000000

/-- the remembered loss is bounded -/
def LastOk (d : DLink) : Prop := -1000000 ≤ d.lastLoss ∧ d.lastLoss ≤ 1000000

theorem counters_lt (b : List Bucket) : (counters b).1 < 4294967296 := Nat.mod_lt _ (by omega)

theorem adjust_some (missed interval refresh received : Nat) (h : 0 < refresh) (hr : received < 4294967296) :
    ∃ r, adjust missed interval refresh received = some r ∧ r ≤ received := by
  unfold adjust
  split
  · rw [if_neg (by omega)]
    dsimp only
    split
    · exact ⟨0, rfl, by omega⟩
    · refine ⟨_, rfl, ?_⟩
      refine Nat.le_trans (Nat.mod_le _ _) ?_
      refine Nat.div_le_of_le_mul ?_
      rw [Nat.mul_comm COUNT]
      exact Nat.mul_le_mul_left _ (Nat.sub_le _ _)
  · exact ⟨received, rfl, Nat.le_refl _⟩

theorem million_div (s : Int) (h : s ≠ 0) : -1000000 ≤ (1000 * 1000 : Int).tdiv s ∧ (1000 * 1000 : Int).tdiv s ≤ 1000000 := by
  have key : ∀ t : Nat, 0 < t → (1000000 / t : Nat) ≤ 1000000 := fun t _ => Nat.div_le_self _ _
  rcases Int.lt_or_le s 0 with hs | hs
  · obtain ⟨t, rfl⟩ : ∃ t : Nat, s = -(t : Int) := ⟨(-s).toNat, by omega⟩
    rw [Int.tdiv_neg]
    have e : (1000 * 1000 : Int).tdiv (t : Int) = ((1000000 / t : Nat) : Int) := tdiv_nat 1000000 t
    rw [e]
    have := key t (by omega)
    generalize 1000000 / t = x at *
    omega
  · obtain ⟨t, rfl⟩ : ∃ t : Nat, s = (t : Int) := ⟨s.toNat, by omega⟩
    have e : (1000 * 1000 : Int).tdiv (t : Int) = ((1000000 / t : Nat) : Int) := tdiv_nat 1000000 t
    rw [e]
    have := key t (by omega)
    generalize 1000000 / t = x at *
    omega

theorem addPoint_some (s : Int × Nat) (v : Int) (h : -9223372036854775808 ≤ s.1 + v) (h' : s.1 + v ≤ 9223372036854775807) :
    addPoint s v = some (s.1 + v, s.2 + 1) := by
  unfold addPoint; rw [i64_eq _ h h']; rfl

/-- bounds of the first data point -/
theorem probe_bounds (r t : Nat) (hr : r < 4294967296) (p : Int) (h : probe r t = some p) : 0 ≤ p ∧ p ≤ 4294967296000 := by
  unfold probe at h
  split at h
  · cases h
    have e : (1000 * (r : Int)).tdiv (t : Int) = ((1000 * r / t : Nat) : Int) := by
      have : (1000 * (r : Int)) = ((1000 * r : Nat) : Int) := by omega
      rw [this, tdiv_nat]
    rw [e]
    have : 1000 * r / t ≤ 1000 * r := Nat.div_le_self _ _
    generalize 1000 * r / t = x at *
    omega
  · cases h

theorem points_some (r t : Nat) (bc rlq : Option Int) (hr : r < 4294967296) (hb : Modest bc) (hq : Modest rlq) :
    ∃ s, points r t bc rlq = some s := by
  unfold points
  have h1 : ∃ s : Int × Nat, pointProbe r t = some s ∧ 0 ≤ s.1 ∧ s.1 ≤ 4294967296000 := by
    unfold pointProbe
    cases hp : probe r t with
    | none => exact ⟨_, rfl, by show (0 : Int) ≤ 0; omega, by show (0 : Int) ≤ 4294967296000; omega⟩
    | some p =>
      obtain ⟨g1, g2⟩ := probe_bounds r t hr p hp
      dsimp only
      rw [addPoint_some _ _ (by dsimp only; omega) (by dsimp only; omega)]
      exact ⟨_, rfl, by dsimp only; omega, by dsimp only; omega⟩
  obtain ⟨s, e1, b1, b2⟩ := h1
  rw [e1, Option.bind_some]
  have h2 : ∃ s' : Int × Nat, pointBcLoss bc s = some s' ∧
      -1000000000000010000 ≤ s'.1 ∧ s'.1 ≤ 1000010000000000000 := by
    unfold pointBcLoss
    cases bc with
    | none => exact ⟨_, rfl, by omega, by omega⟩
    | some b =>
      obtain ⟨g1, g2⟩ := hb b rfl
      dsimp only
      rw [i64_eq _ (by omega) (by omega), Option.bind_some, addPoint_some _ _ (by omega) (by omega)]
      exact ⟨_, rfl, by dsimp only; omega, by dsimp only; omega⟩
  obtain ⟨s', e2, b3, b4⟩ := h2
  rw [e2, Option.bind_some]
  unfold pointRlq
  cases rlq with
  | none => exact ⟨_, rfl⟩
  | some q =>
    obtain ⟨g1, g2⟩ := hq q rfl
    dsimp only
    rw [addPoint_some _ _ (by omega) (by omega)]
    exact ⟨_, rfl⟩

/-- the second half of the calculation of the loss -/
theorem lossCost_some (e : Exponent) (nb : Nat) (last : Int) (r t : Nat) (bc rlq : Option Int) (hl : -1000000 ≤ last ∧ last ≤ 1000000)
    (s : Int × Nat) (hp : points r t bc rlq = some s) (hw : s.2 ≠ 0 → ∃ w, power (exponentOf e nb - 1) (s.1.tdiv s.2) = some w) :
    ∃ c last', lossCost e nb last r t bc rlq = some (c, last') ∧ -1000000 ≤ c ∧ c ≤ 1000000 ∧ -1000000 ≤ last' ∧ last' ≤ 1000000 := by
  obtain ⟨sum, n⟩ := s
  unfold lossCost
  rw [hp]
  dsimp only at hw ⊢
  by_cases hn : n = 0
  · rw [if_pos hn]
    exact ⟨_, _, rfl, by decide, by decide, hl.1, hl.2⟩
  · rw [if_neg hn]
    obtain ⟨w, hw⟩ := hw hn
    rw [hw]
    dsimp only
    by_cases h0 : w = 0
    · rw [if_pos h0]
      exact ⟨_, _, rfl, by decide, by decide, hl.1, hl.2⟩
    · rw [if_neg h0]
      have hm := million_div w h0
      generalize (1000 * 1000 : Int).tdiv w = x at *
      refine ⟨_, _, rfl, ?_⟩
      rcases hysteresis_cases last x with h | ⟨h, -⟩ <;> rw [h] <;> omega

theorem scale_bounds (raw : Int) : 1 ≤ scale raw ∧ scale raw ≤ 2097152 := by
  rw [C85_scale]; unfold specScale; omega

theorem range_div (k : Int) (h : 1 ≤ k) (h' : k ≤ 2097152) : 1000 ≤ (1000 * SPEED_RANGE).tdiv k ∧ (1000 * SPEED_RANGE).tdiv k ≤ 2097152000 := by
  obtain ⟨t, rfl⟩ : ∃ t : Nat, k = (t : Int) := ⟨k.toNat, by omega⟩
  have e : (1000 * SPEED_RANGE).tdiv (t : Int) = ((2097152000 / t : Nat) : Int) := tdiv_nat 2097152000 t
  rw [e]
  have h1 : 2097152000 / t ≤ 2097152000 := Nat.div_le_self _ _
  have h2 : 1000 ≤ 2097152000 / t := (Nat.le_div_iff_mul_le (by omega)).mpr (by omega)
  generalize 2097152000 / t = x at *
  omega

theorem bitrateCost_eq (b : List Bucket) : bitrateCost b = if median b = -1 then -1 else (1000 * SPEED_RANGE).tdiv (scale (median b)) := by
  unfold bitrateCost
  dsimp only
  split
  · rfl
  · obtain ⟨h1, h2⟩ := scale_bounds (median b)
    rw [if_neg (by omega), if_neg (by unfold SPEED_RANGE; omega)]

theorem bitrate_bounds (b : List Bucket) : -1 ≤ bitrateCost b ∧ bitrateCost b ≤ 2097152000 := by
  rw [bitrateCost_eq]
  split
  · omega
  · obtain ⟨h1, h2⟩ := scale_bounds (median b)
    have := range_div _ h1 h2
    omega

theorem throughput_some (b loss : Int) (t : Option Int) (hb : b ≤ 2097152000) (hl : loss ≤ 1000000) : ∃ c, throughputCost b loss t = some c := by
  have h1 : ∃ s : Int × Nat, bitrateLoss b loss = some s ∧ 0 ≤ s.1 ∧ s.1 ≤ 2097152000000 := by
    unfold bitrateLoss
    split
    · rename_i h
      obtain ⟨x, rfl⟩ : ∃ x : Nat, b = (x : Int) := ⟨b.toNat, by omega⟩
      obtain ⟨y, rfl⟩ : ∃ y : Nat, loss = (y : Int) := ⟨loss.toNat, by omega⟩
      have hm : x * y ≤ 2097152000 * 1000000 := Nat.mul_le_mul (by omega) (by omega)
      have e : (x : Int) * (y : Int) = ((x * y : Nat) : Int) := (Int.natCast_mul _ _).symm
      rw [e, i64_eq _ (by omega) (by omega)]
      have e2 : (((x * y : Nat) : Int)).tdiv 1000 = ((x * y / 1000 : Nat) : Int) := tdiv_nat (x * y) 1000
      simp only [Option.map_some]
      rw [e2]
      exact ⟨_, rfl, by dsimp only; omega, by dsimp only; omega⟩
    · exact ⟨_, rfl, by show (0 : Int) ≤ 0; omega, by show (0 : Int) ≤ 2097152000000; omega⟩
  obtain ⟨s, e1, b1, b2⟩ := h1
  unfold throughputCost
  rw [e1]
  dsimp only
  have h2 : ∃ s' : Int × Nat, pointThroughput t s = some s' := by
    unfold pointThroughput
    cases t with
    | none => exact ⟨_, rfl⟩
    | some t =>
      obtain ⟨g1, g2⟩ := scale_bounds t
      have := range_div _ g1 g2
      dsimp only
      rw [addPoint_some _ _ (by omega) (by omega)]
      exact ⟨_, rfl⟩
  obtain ⟨s', e2⟩ := h2
  rw [e2]
  obtain ⟨cost, n⟩ := s'
  dsimp only
  split
  · split
    · rename_i hpos
      unfold SPEED_RANGE
      rw [i64_eq _ (by omega) (by omega)]
      exact ⟨_, rfl⟩
    · exact ⟨_, rfl⟩
  · exact ⟨_, rfl⟩

/-- a sampling step is defined if the power is -/
theorem sample_some (c : DCfg) (i : Inputs) (d : DLink) (hr : 0 < i.refresh) (hb : Modest i.bcLoss) (hq : Modest i.rlq) (hl : LastOk d)
    (hw : ∀ r s, r ≤ (counters d.buckets).1 → points r (counters d.buckets).2 i.bcLoss i.rlq = some s → s.2 ≠ 0 →
      ∃ w, power (exponentOf c.exponent d.neighborhood - 1) (s.1.tdiv s.2) = some w) :
    ∃ d' m, sample c i d = some (d', m) ∧ LastOk d' := by
  unfold sample
  by_cases hc : d.contains = false
  · rw [if_pos hc]; exact ⟨_, _, rfl, hl⟩
  · rw [if_neg hc]
    dsimp only
    obtain ⟨r, hr', hle⟩ := adjust_some d.missed d.interval i.refresh _ hr (counters_lt d.buckets)
    rw [hr']
    dsimp only
    have hlt := counters_lt d.buckets
    obtain ⟨s, hp⟩ := points_some r (counters d.buckets).2 i.bcLoss i.rlq (by omega) hb hq
    obtain ⟨loss, last, e1, b1, b2, b3, b4⟩ := lossCost_some c.exponent d.neighborhood d.lastLoss r (counters d.buckets).2 i.bcLoss i.rlq hl s hp
      (hw r s hle hp)
    have e1' : lossCost c.exponent (d.atActive (fun b => { b with speed := i.speed })).neighborhood
        (d.atActive (fun b => { b with speed := i.speed })).lastLoss r (counters d.buckets).2 i.bcLoss i.rlq = some (loss, last) := e1
    rw [e1']
    dsimp only
    obtain ⟨cost, e2⟩ := throughput_some (bitrateCost (d.atActive (fun b => { b with speed := i.speed })).buckets) loss i.throughput
      (bitrate_bounds _).2 b2
    rw [e2]
    exact ⟨_, _, rfl, b3, b4⟩

/-- everything outside of the samples is harmless, the samples are linear (or dynamic) and have sane inputs -/
def SaneLinear (es : List DEvent) : Prop := ∀ c i, DEvent.sample c i ∈ es →
  (c.exponent = .linear ∨ c.exponent = .dynamic) ∧ 0 < i.refresh ∧ Modest i.bcLoss ∧ Modest i.rlq

/-- the size of the neighborhood is never calculated -/
theorem neighborhood_zero (d d' : DLink) (e : DEvent) (m : Option Nat) (h : dstep d e = some (d', m)) (h0 : d.neighborhood = 0) : d'.neighborhood = 0 := by
  cases e with
  | packet s =>
    simp only [dstep, Option.some.injEq, Prod.mk.injEq] at h
    obtain ⟨rfl, -⟩ := h
    unfold packet; split <;> exact h0
  | helloLost =>
    simp only [dstep, Option.some.injEq, Prod.mk.injEq] at h
    obtain ⟨rfl, -⟩ := h
    unfold helloLost; split <;> exact h0
  | changed it vt =>
    simp only [dstep, Option.some.injEq, Prod.mk.injEq] at h
    obtain ⟨rfl, -⟩ := h
    exact h0
  | sample c i =>
    simp only [dstep] at h
    by_cases hc : d.contains = false
    · unfold sample at h; rw [if_pos hc] at h; cases h; exact h0
    · obtain ⟨last, nb, rfl, hn⟩ := sample_shape c i d d' m h (by simpa using hc)
      rw [h0] at hn
      have : nb = 0 := by rw [hn]; unfold micCost; rw [if_neg (by omega)]
      exact this

/-- C88: with the linear and the dynamic exponent no sequence of packets, whatever their sequence numbers, and no layer-2 data below 10^18
leads to an overflow or a division by zero. -/
theorem C88_defined_partial (es : List DEvent) (hs : SaneLinear es) : ∀ (d : DLink), LastOk d → d.neighborhood = 0 → ∃ r, drun d es = some r := by
  induction es with
  | nil => intro d _ _; exact ⟨_, rfl⟩
  | cons e es ih =>
    intro d hl hn
    have hs' : SaneLinear es := fun c i h => hs c i (List.mem_cons_of_mem _ h)
    have hstep : ∃ d' m, dstep d e = some (d', m) ∧ LastOk d' := by
      cases e with
      | packet s =>
        refine ⟨_, _, rfl, ?_⟩
        unfold packet; split <;> exact hl
      | helloLost =>
        refine ⟨_, _, rfl, ?_⟩
        unfold helloLost; split <;> exact hl
      | changed it vt => exact ⟨_, _, rfl, hl⟩
      | sample c i =>
        obtain ⟨h1, h2, h3, h4⟩ := hs c i (by simp)
        refine sample_some c i d h2 h3 h4 hl ?_
        intro r s _ _ _
        have : exponentOf c.exponent d.neighborhood - 1 = 0 := by
          rcases h1 with h1 | h1 <;> rw [h1] <;> simp [exponentOf, dynamicExponent, hn]
        rw [this]
        exact ⟨_, rfl⟩
    obtain ⟨d', m, h1, h2⟩ := hstep
    obtain ⟨r, hr⟩ := ih hs' d' h2 (neighborhood_zero d d' e m h1 hn)
    rw [drun_cons, h1, Option.bind_some, hr]
    exact ⟨_, rfl⟩

/-- a new link meets the hypotheses of `C88_defined_partial` -/
example (it vt : Nat) : LastOk (DLink.init it vt) ∧ (DLink.init it vt).neighborhood = 0 := ⟨⟨by show (-1000000 : Int) ≤ 8000; decide, by show (8000 : Int) ≤ 1000000; decide⟩, rfl⟩

/-- probabilities in 1/1000 -/
def Probability (o : Option Int) : Prop := ∀ v, o = some v → 0 ≤ v ∧ v ≤ 1000

theorem mean_bounds (s : Int × Nat) (h0 : 0 ≤ s.1) (h1 : s.1 ≤ 1000 * s.2) : ∃ q : Nat, s.1.tdiv s.2 = (q : Int) ∧ q ≤ 1000 := by
  obtain ⟨x, hx⟩ : ∃ x : Nat, s.1 = (x : Int) := ⟨s.1.toNat, by omega⟩
  refine ⟨x / s.2, by rw [hx, tdiv_nat], ?_⟩
  refine Nat.div_le_of_le_mul ?_
  rw [Nat.mul_comm]; omega

theorem points_mean (r t : Nat) (bc rlq : Option Int) (s : Int × Nat) (hr : r ≤ t) (hb : Probability bc) (hq : Probability rlq)
    (h : points r t bc rlq = some s) : 0 ≤ s.1 ∧ s.1 ≤ 1000 * s.2 := by
  unfold points at h
  have h1 : ∀ s : Int × Nat, pointProbe r t = some s → 0 ≤ s.1 ∧ s.1 ≤ 1000 * s.2 := by
    intro s h
    unfold pointProbe at h
    cases hp : probe r t with
    | none => rw [hp] at h; cases h; exact ⟨by decide, by decide⟩
    | some p =>
      rw [hp] at h
      dsimp only at h
      have hb : 0 ≤ p ∧ p ≤ 1000 := by
        unfold probe at hp
        split at hp
        · rename_i h0
          cases hp
          have e : (1000 * (r : Int)).tdiv (t : Int) = ((1000 * r / t : Nat) : Int) := by
            have : (1000 * (r : Int)) = ((1000 * r : Nat) : Int) := by omega
            rw [this, tdiv_nat]
          rw [e]
          have : 1000 * r / t ≤ 1000 := Nat.div_le_of_le_mul (by omega)
          generalize 1000 * r / t = x at *
          omega
        · cases hp
      rw [addPoint_some _ _ (by dsimp only; omega) (by dsimp only; omega)] at h
      cases h
      constructor
      · dsimp only; omega
      · show (0 : Int) + p ≤ 1000 * ((0 + 1 : Nat) : Int); omega
  generalize pointProbe r t = o at h h1
  cases o with
  | none => cases h
  | some s1 =>
    obtain ⟨a1, a2⟩ := h1 s1 rfl
    rw [Option.bind_some] at h
    have h2 : ∀ s : Int × Nat, pointBcLoss bc s1 = some s → 0 ≤ s.1 ∧ s.1 ≤ 1000 * s.2 := by
      intro s h
      unfold pointBcLoss at h
      cases bc with
      | none => cases h; exact ⟨a1, a2⟩
      | some b =>
        obtain ⟨g1, g2⟩ := hb b rfl
        dsimp only at h
        rw [i64_eq _ (by omega) (by omega), Option.bind_some] at h
        unfold addPoint at h
        cases hi : i64? (s1.1 + (1000 - b)) with
        | none => rw [hi] at h; cases h
        | some x =>
          rw [hi] at h
          cases h
          have hx : x = s1.1 + (1000 - b) := by unfold i64? at hi; split at hi <;> cases hi; rfl
          subst hx
          constructor
          · dsimp only; omega
          · dsimp only; omega
    generalize pointBcLoss bc s1 = o at h h2
    cases o with
    | none => cases h
    | some s2 =>
      obtain ⟨a1, a2⟩ := h2 s2 rfl
      rw [Option.bind_some] at h
      unfold pointRlq at h
      cases rlq with
      | none => cases h; exact ⟨a1, a2⟩
      | some q =>
        obtain ⟨g1, g2⟩ := hq q rfl
        dsimp only at h
        unfold addPoint at h
        cases hi : i64? (s2.1 + q) with
        | none => rw [hi] at h; cases h
        | some x =>
          rw [hi] at h
          cases h
          have hx : x = s2.1 + q := by unfold i64? at hi; split at hi <;> cases hi; rfl
          subst hx
          constructor
          · dsimp only; omega
          · dsimp only; omega

/-- C88: with every exponent a sample is defined if no more packets are received than transmitted (see C83) and the layer-2 data are probabilities. -/
theorem C88_sample_defined_partial (c : DCfg) (i : Inputs) (d : DLink) (hr : 0 < i.refresh) (hb : Probability i.bcLoss) (hq : Probability i.rlq)
    (hl : LastOk d) (hle : (counters d.buckets).1 ≤ (counters d.buckets).2) : ∃ d' m, sample c i d = some (d', m) ∧ LastOk d' := by
  refine sample_some c i d hr (fun v hv => ?_) (fun v hv => ?_) hl ?_
  · have := hb v hv; omega
  · have := hq v hv; omega
  · intro r s hrs hp hn
    obtain ⟨h1, h2⟩ := points_mean r _ i.bcLoss i.rlq s (by omega) hb hq hp
    obtain ⟨q, e, hq⟩ := mean_bounds s h1 h2
    rw [e]
    obtain ⟨w, hw, -⟩ := C87_loop (exponentOf c.exponent d.neighborhood - 1) q hq
    exact ⟨_, hw⟩

theorem drun_append (a b : List DEvent) : ∀ d, drun d (a ++ b) = (drun d a).bind (fun r => (drun r.1 b).map (fun q => (q.1, r.2 ++ q.2))) := by
  induction a with
  | nil => intro d; simp [drun]
  | cons e a ih =>
    intro d
    rw [List.cons_append, drun_cons, drun_cons]
    cases dstep d e with
    | none => rfl
    | some r =>
      simp only [Option.bind_some]
      rw [ih r.1]
      cases drun r.1 a with
      | none => rfl
      | some q =>
        simp only [Option.map_some, Option.bind_some]
        cases drun q.1 b with
        | none => rfl
        | some w => simp

/-- effect of `n` copies of the last packet -/
def copies (n : Nat) (d : DLink) : DLink :=
  { d with missed := 0, buckets := d.buckets.modify d.active (fun b => { b with received := u32 (b.received + n), total := u32 b.total }) }

theorem modify_modify {α : Type} (l : List α) (i : Nat) (f g : α → α) : (l.modify i f).modify i g = l.modify i (fun x => g (f x)) := by
  apply List.ext_getElem?
  intro k
  by_cases h : i = k
  · subst h
    rw [List.getElem?_modify_eq, List.getElem?_modify_eq, List.getElem?_modify_eq]
    cases l[i]? <;> rfl
  · rw [List.getElem?_modify_ne _ _ h, List.getElem?_modify_ne _ _ h, List.getElem?_modify_ne _ _ h]

theorem packet_copy (s : Nat) (d : DLink) (hc : d.contains = true) (hs : d.lastSeq = s) : packet s d = copies 1 d := by
  unfold packet copies DLink.atActive
  rw [if_neg (by rw [hc]; decide)]
  rw [hs]
  simp

theorem copies_run (s n : Nat) : ∀ (d : DLink), d.contains = true → d.lastSeq = s →
    drun d (List.replicate (n + 1) (.packet s)) = some (copies (n + 1) d, []) := by
  induction n with
  | zero =>
    intro d hc hs
    show drun d [.packet s] = _
    rw [drun_cons]
    simp only [dstep, Option.bind_some, drun]
    rw [packet_copy s d hc hs]
    rfl
  | succ n ih =>
    intro d hc hs
    rw [List.replicate_succ, drun_cons]
    simp only [dstep, Option.bind_some]
    rw [packet_copy s d hc hs, ih (copies 1 d) hc hs]
    simp only [Option.map_some, Option.toList_none, List.nil_append]
    unfold copies
    dsimp only
    rw [modify_modify]
    have e : (fun b : Bucket => (⟨u32 (u32 (b.received + 1) + (n + 1)), u32 (u32 b.total), b.speed⟩ : Bucket))
        = (fun b => ⟨u32 (b.received + (n + 1 + 1)), u32 b.total, b.speed⟩) := by
      funext b
      have e1 : u32 (u32 (b.received + 1) + (n + 1)) = u32 (b.received + (n + 1 + 1)) := by unfold u32; omega
      have e2 : u32 (u32 b.total) = u32 b.total := by unfold u32; omega
      rw [e1, e2]
    rw [e]

/-- cubic exponent, everything else default -/
def cubicCfg : DCfg := ⟨true, .cubic, false⟩

/-- a packet, 32 samples and a second packet -/
def quiet : List DEvent := .packet 0 :: List.replicate 32 (.sample cubicCfg plain) ++ [.packet 1]

/-- ... and then many copies of the second packet -/
def flood : List DEvent := quiet ++ List.replicate 1800 (.packet 1)

/-- state before the copies -/
def quietEnd : DLink × List Nat := (drun (DLink.init 2000 6000) quiet).getD (DLink.init 0 0, [])

/-- C88 is false for the cubic exponent: after enough copies of one packet the square of the ratio of received packets overflows. -/
theorem C88_defined_counterexample :
    SeqOk flood ∧ (∃ r, drun (DLink.init 2000 6000) flood = some r) ∧
    drun (DLink.init 2000 6000) (flood ++ [.sample cubicCfg plain]) = none := by
  have hq : drun (DLink.init 2000 6000) quiet = some quietEnd := by decide +kernel
  have hc : quietEnd.1.contains = true ∧ quietEnd.1.lastSeq = 1 := by decide +kernel
  have hn : drun (copies (1799 + 1) quietEnd.1) [.sample cubicCfg plain] = none := by decide +kernel
  have hf : drun (DLink.init 2000 6000) flood = some (copies (1799 + 1) quietEnd.1, quietEnd.2 ++ []) := by
    unfold flood
    rw [drun_append, hq, Option.bind_some, copies_run 1 1799 _ hc.1 hc.2]
    rfl
  refine ⟨?_, ⟨_, hf⟩, ?_⟩
  · intro s hs
    unfold flood quiet at hs
    rcases List.mem_append.mp hs with hs | hs
    · rcases List.mem_append.mp hs with hs | hs
      · rcases List.mem_cons.mp hs with hs | hs
        · cases hs; omega
        · have := List.eq_of_mem_replicate hs; cases this
      · rcases List.mem_cons.mp hs with hs | hs
        · cases hs; omega
        · cases hs
    · have := List.eq_of_mem_replicate hs; cases this; omega
  · rw [drun_append, hf, Option.bind_some, hn]
    rfl

/-! ### C89 -/

/-- the same event with the options for airtime and neighborhood switched off, the dynamic exponent replaced by the linear one and an
empty neighborhood -/
def withoutOptions : DEvent → DEvent
  | .sample c i => .sample ⟨false, if c.exponent = .dynamic then .linear else c.exponent, false⟩ { i with neighbors := 0 }
  | e => e

theorem withoutOptions_step (d : DLink) (e : DEvent) (h0 : d.neighborhood = 0) : dstep d (withoutOptions e) = dstep d e := by
  cases e with
  | packet s => rfl
  | helloLost => rfl
  | changed it vt => rfl
  | sample c i =>
    simp only [withoutOptions, dstep]
    have hm : ∀ b n, micCost b d.neighborhood n = (1000, 0) := by
      intro b n; unfold micCost; rw [h0, if_neg (by omega)]
    have he : ∀ last r t bc rlq, lossCost (if c.exponent = .dynamic then .linear else c.exponent) d.neighborhood last r t bc rlq
        = lossCost c.exponent d.neighborhood last r t bc rlq := by
      intro last r t bc rlq
      split
      · rename_i h
        unfold lossCost
        have : exponentOf .linear d.neighborhood = exponentOf c.exponent d.neighborhood := by
          rw [h, h0]; rfl
        rw [this]
      · rfl
    unfold sample
    simp only [DLink.atActive, hm, he]

/-- C89 is false: the options have no effect. In all executions of a new link the metrics are the same with and without the options for airtime and
for the neighborhood, with the dynamic and the linear exponent, and whatever the size of the neighborhood is. -/
theorem C89_options_counterexample (es : List DEvent) : ∀ (d : DLink), d.neighborhood = 0 → drun d (es.map withoutOptions) = drun d es := by
  induction es with
  | nil => intro d _; rfl
  | cons e es ih =>
    intro d h0
    rw [List.map_cons, drun_cons, drun_cons, withoutOptions_step d e h0]
    cases he : dstep d e with
    | none => rfl
    | some r =>
      rw [Option.bind_some, Option.bind_some, ih r.1 (neighborhood_zero d r.1 e r.2 he h0)]

/-- with a neighborhood the factor would be its size -/
example : micCost true 5 7 = (7000, 7) ∧ micCost true 0 7 = (1000, 0) := by decide

/-- C89: the part that works: if the size of the neighborhood was known, the factor is the size of the current one. -/
theorem C89_mic_partial (n m : Nat) (h : 1 < n) : (micCost true n m).1 = 1000 * m := by
  unfold micCost; rw [if_pos ⟨rfl, h⟩, Nat.mul_comm]

/-- C89: the exponent grows with the neighborhood in four steps. -/
theorem C89_dynamic_partial (n m : Nat) (h : n ≤ m) :
    dynamicExponent n ≤ dynamicExponent m ∧ 1 ≤ dynamicExponent n ∧ dynamicExponent n ≤ 4 := by
  unfold dynamicExponent
  split <;> split <;> (try split) <;> (try split) <;> (try split) <;> (try split) <;> omega

/-! ### C90 -/

/-- the metric of a link without throughput from layer 2 -/
def linkMetric (b : List Bucket) (loss : Int) : Option Nat := (throughputCost (bitrateCost b) loss none).map (fun c => metricOf c 1000)

/-- the speed in units of 1024 bit/s, rounded up -/
def units (speed : Int) : Nat := ((speed + 1023) / 1024).toNat

/-- cost of airtime: 2^21 divided by the speed in units and multiplied by the loss (in 1/1000), with the roundings of the code -/
def airtime (u loss : Nat) : Nat := 2097152000 / u * loss / 1000 / 1000

theorem metricOf_nat (x : Nat) (h : x ≤ 2097152000000) : metricOf (x : Int) 1000 = shape (x / 1000) := by
  unfold metricOf
  have e7 : u64 (x : Int) = x := by unfold u64; omega
  rw [e7]
  have e8 : u64 ((x * 1000 : Nat) : Int) = x * 1000 := by unfold u64; omega
  rw [e8]
  have e9 : x * 1000 / 1000000 = x / 1000 := by omega
  rw [e9]

theorem linkMetric_eq (b : List Bucket) (loss : Nat) (hs : SpeedsSmall b) (hk : knownSpeeds b ≠ []) (hl : 1 ≤ loss) (hl' : loss ≤ 1000000) :
    linkMetric b loss = some (shape (airtime (units (median b)) loss)) ∧ 1 ≤ units (median b) := by
  obtain ⟨h1, h2⟩ := C85_median_partial b hs
  have hm := (h2 hk).1
  have hpos : 0 < median b := by
    unfold knownSpeeds at hm
    simpa using (List.mem_filter.mp hm).2
  have hlt : median b < 2147483648 := by
    unfold knownSpeeds at hm
    obtain ⟨x, hx, hxe⟩ := List.mem_map.mp (List.mem_filter.mp hm).1
    have := (hs x hx).2
    omega
  have hsc : scale (median b) = ((units (median b) : Nat) : Int) ∧ 1 ≤ units (median b) ∧ units (median b) ≤ 2097152 := by
    rw [C85_scale]; unfold specScale units; omega
  obtain ⟨e1, e2, e3⟩ := hsc
  refine ⟨?_, e2⟩
  generalize units (median b) = u at *
  unfold linkMetric throughputCost
  rw [bitrateCost_eq, if_neg (by omega), e1]
  have e : (1000 * SPEED_RANGE).tdiv (u : Int) = ((2097152000 / u : Nat) : Int) := tdiv_nat 2097152000 u
  have hb1 : 1000 ≤ 2097152000 / u := (Nat.le_div_iff_mul_le (by omega)).mpr (by omega)
  have hb2 : 2097152000 / u ≤ 2097152000 := Nat.div_le_self _ _
  rw [e]
  unfold airtime
  generalize 2097152000 / u = q at *
  have hmul : q * loss ≤ 2097152000 * 1000000 := Nat.mul_le_mul hb2 hl'
  have e4 : (q : Int) * (loss : Int) = ((q * loss : Nat) : Int) := (Int.natCast_mul _ _).symm
  unfold bitrateLoss
  rw [if_pos ⟨by omega, by omega⟩, e4, i64_eq _ (by omega) (by omega)]
  have e5 : (((q * loss : Nat) : Int)).tdiv 1000 = ((q * loss / 1000 : Nat) : Int) := tdiv_nat (q * loss) 1000
  simp only [Option.map_some]
  rw [e5]
  simp only [pointThroughput]
  rw [if_neg (by decide)]
  simp only [Option.map_some]
  have e6 : (((q * loss / 1000 : Nat) : Int)).tdiv ((1 : Nat) : Int) = ((q * loss / 1000 : Nat) : Int) := by rw [tdiv_nat, Nat.div_one]
  rw [e6]
  have hx : q * loss / 1000 ≤ 2097152000000 := by omega
  rw [metricOf_nat _ hx]

/-- C90: the metric of a link with known speed below 2^31 bit/s is its airtime, rounded up to the next metric that can be transmitted (and within
the range of legal metrics). -/
theorem C90_airtime_partial (b : List Bucket) (loss : Nat) (hs : SpeedsSmall b) (hk : knownSpeeds b ≠ []) (hl : 1 ≤ loss) (hl' : loss ≤ 1000000) :
    ∃ m, linkMetric b loss = some m ∧ Legal m ∧
      (1 ≤ airtime (units (median b)) loss → airtime (units (median b)) loss ≤ 0xffff00 →
        airtime (units (median b)) loss ≤ m ∧ ∀ m', Legal m' → airtime (units (median b)) loss ≤ m' → m ≤ m') := by
  obtain ⟨h, -⟩ := linkMetric_eq b loss hs hk hl hl'
  refine ⟨_, h, shape_legal _, fun h0 h1 => ?_⟩
  generalize airtime (units (median b)) loss = x at *
  obtain ⟨c, hc, he, hl⟩ := shape_spec x h0 h1
  rw [he]
  refine ⟨(hl c).mpr (Nat.le_refl _), fun m' hm hx => ?_⟩
  obtain ⟨g0, g1, f, hf, hd⟩ := hm
  obtain ⟨c', -, he', hl'⟩ := shape_spec m' g0 g1
  have hsh : shape m' = m' := by
    unfold shape
    rw [if_neg (show ¬ m' > metricMax by show ¬ m' > 0xffff00; omega), if_neg (show ¬ m' < Codec.metricMin by show ¬ m' < 1; omega), hf]
    exact hd
  rw [hsh] at he'
  rw [he']
  apply specMetric_mono
  rw [← hl, ← he']
  exact hx

/-- C90: a link that is at least as fast and loses at most as much never gets a higher metric. -/
theorem C90_monotone_partial (b b' : List Bucket) (loss loss' : Nat) (hs : SpeedsSmall b) (hs' : SpeedsSmall b') (hk : knownSpeeds b ≠ [])
    (hk' : knownSpeeds b' ≠ []) (h1 : 1 ≤ loss') (h2 : loss' ≤ loss) (h3 : loss ≤ 1000000) (hm : median b ≤ median b') :
    ∃ m m', linkMetric b loss = some m ∧ linkMetric b' loss' = some m' ∧ m' ≤ m := by
  obtain ⟨e1, u1⟩ := linkMetric_eq b loss hs hk (by omega) h3
  obtain ⟨e2, u2⟩ := linkMetric_eq b' loss' hs' hk' h1 (by omega)
  refine ⟨_, _, e1, e2, shape_mono _ _ ?_⟩
  have hu : units (median b) ≤ units (median b') := by unfold units; omega
  unfold airtime
  refine Nat.div_le_div_right (Nat.div_le_div_right (Nat.mul_le_mul ?_ h2))
  exact Nat.div_le_div_left hu u1

/-- C90: these are the metrics of the samples: the metric set by a sample without layer-2 throughput is that of the recorded speeds, the present one
included, and of the cost of the loss. -/
theorem C90_sample (c : DCfg) (i : Inputs) (d d' : DLink) (m : Nat) (h0 : d.neighborhood = 0) (ht : i.throughput = none)
    (h : sample c i d = some (d', some m)) :
    ∃ received loss last, adjust d.missed d.interval i.refresh (counters d.buckets).1 = some received ∧
      lossCost c.exponent 0 d.lastLoss received (counters d.buckets).2 i.bcLoss i.rlq = some (loss, last) ∧ d'.lastLoss = last ∧
      linkMetric (d.buckets.modify d.active (fun b => { b with speed := i.speed })) loss = some m := by
  unfold sample at h
  by_cases hc : d.contains = false
  · rw [if_pos hc] at h; cases h
  · rw [if_neg hc] at h
    dsimp only at h
    cases ha : adjust d.missed d.interval i.refresh (counters d.buckets).1 with
    | none => rw [ha] at h; cases h
    | some r =>
      rw [ha] at h
      dsimp only [DLink.atActive] at h
      rw [h0, ht] at h
      cases hl : lossCost c.exponent 0 d.lastLoss r (counters d.buckets).2 i.bcLoss i.rlq with
      | none => rw [hl] at h; cases h
      | some p =>
        obtain ⟨loss, last⟩ := p
        rw [hl] at h
        dsimp only at h
        refine ⟨r, loss, last, rfl, hl, ?_⟩
        unfold linkMetric
        cases hx : throughputCost (bitrateCost (d.buckets.modify d.active (fun b => { b with speed := i.speed }))) loss none with
        | none => rw [hx] at h; cases h
        | some cost =>
          rw [hx] at h
          have hm : micCost c.mic 0 i.neighbors = (1000, 0) := by unfold micCost; rw [if_neg (by omega)]
          rw [hm] at h
          cases h
          exact ⟨rfl, rfl⟩

/-- C90 is false for faster links (see C85): without loss a link with 2.5 Gbit/s has a metric almost a thousand times higher than a link with 1 Mbit/s. -/
theorem C90_monotone_counterexample :
    linkMetric (List.replicate 32 ⟨1, 1, 2500000000⟩) 1000 = some 2105088 ∧ linkMetric (List.replicate 32 ⟨1, 1, 1000000⟩) 1000 = some 2152 := by
  decide +kernel

example : linkMetric (List.replicate 32 ⟨1, 1, 54000000⟩) 1142 = some 45 := by decide +kernel
example : airtime (units 54000000) 1142 = 45 := by decide +kernel
example : SpeedsSmall (List.replicate 32 ⟨1, 1, 54000000⟩) ∧ knownSpeeds (List.replicate 32 ⟨1, 1, 54000000⟩) ≠ [] := by
  refine ⟨?_, by decide +kernel⟩
  intro b hb
  rw [List.eq_of_mem_replicate hb]
  decide

end Verif.Metric
