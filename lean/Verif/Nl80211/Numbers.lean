import Verif.Nl80211.Spec

/-! # Wireless interfaces: counters and rates -/

namespace Verif.Nl80211

theorem traffic_step (base c d : Nat) (hb : base % 4294967296 = 0) (h0 : base ≤ c) (h1 : c ≤ d) (h2 : d < c + 2147483648) :
    traffic (c - base) (d % 4294967296) = d - base := by
  unfold traffic
  simp only
  split <;> omega

/-- the differences of a counter are right although only its low half is reported -/
theorem C219_counter_partial (c : Nat) (cs : List Nat) (h : Slow (c :: cs)) :
    stored 0 (c :: cs) = (c :: cs).getLast (by simp) - (c - c % 4294967296) := by
  have h0 : traffic 0 (c % 4294967296) = c - (c - c % 4294967296) := by
    unfold traffic; simp only; split <;> omega
  have key : ∀ (cs : List Nat) (b x : Nat), b % 4294967296 = 0 → b ≤ x → Slow (x :: cs) →
      cs.foldl (fun old c => traffic old (c % 4294967296)) (x - b) = (x :: cs).getLast (by simp) - b := by
    intro cs
    induction cs with
    | nil => intro b x _ _ _; rfl
    | cons d cs ih =>
      intro b x hb hx hs
      cases hs with
      | more _ _ _ h1 h2 h3 =>
        rw [List.foldl_cons, traffic_step b x d hb hx h1 h2, ih b d hb (by omega) h3]
        rfl
  show cs.foldl _ (traffic 0 (c % 4294967296)) = _
  rw [h0]
  exact key cs _ c (by omega) (by omega) h

example : Slow [4294967000, 4294967290, 4294967300, 6000000000] ∧ stored 0 [4294967000, 4294967290, 4294967300, 6000000000] = 6000000000 := by
  refine ⟨.more _ _ _ (by decide) (by decide) (.more _ _ _ (by decide) (by decide) (.more _ _ _ (by decide) (by decide) (.one _))), by decide⟩

theorem first_reading (c : Nat) (hc : c < 4294967296) : traffic 0 (c % 4294967296) = c := by
  unfold traffic; simp only; split <;> omega

theorem two_readings (c d : Nat) (hc : c < 4294967296) : stored 0 [c, d] = traffic c (d % 4294967296) := by
  have h : stored 0 [c, d] = traffic (traffic 0 (c % 4294967296)) (d % 4294967296) := by
    unfold stored
    rw [List.foldl_cons, List.foldl_cons, List.foldl_nil]
  exact h.trans (congrArg (fun x => traffic x (d % 4294967296)) (first_reading c hc))

/-- a faster counter: 2^32 are lost when it wraps -/
theorem C219_fast_counterexample (c d : Nat) (hc : c < 4294967296) (hd : 4294967296 ≤ d) (h1 : c + 2147483648 ≤ d) (h2 : d < c + 4294967296) :
    stored 0 [c, d] = d - 4294967296 := by
  rw [two_readings c d hc]
  have e1 : c / 4294967296 = 0 := Nat.div_eq_of_lt hc
  have e2 : d % 4294967296 = d - 4294967296 := by omega
  unfold traffic
  simp only [e1, e2]
  split <;> omega

/-- a counter that starts again (the station has connected anew): either it seems to have grown by nearly 2^32, or it runs backwards -/
theorem C219_restart_counterexample (c d : Nat) (hc : c < 4294967296) (hd : d < c) :
    stored 0 [c, d] = if d + 2147483648 < c then d + 4294967296 else d := by
  rw [two_readings c d hc]
  have e1 : c / 4294967296 = 0 := Nat.div_eq_of_lt hc
  have e2 : d % 4294967296 = d := by omega
  unfold traffic
  simp only [e1, e2, Nat.zero_mul, Nat.zero_add, Nat.mod_eq_of_lt (Nat.lt_trans hd hc)]

/-- the kernel reports rates in 100 kbit/s: the stored rate is never too low and less than 5 % too high -/
theorem C219_bitrate_partial (r : Nat) (h : r < 2147483648) (r16 : Option Nat) :
    (100000 * r : Int) ≤ bitrate (some r) r16 ∧ bitrate (some r) r16 ≤ 105000 * r := by
  have : toInt r = r := by unfold toInt; rw [if_pos (by omega)]; omega
  have ht : (1048576 * (r : Int)).tdiv 10 = 1048576 * (r : Int) / 10 := Int.tdiv_eq_ediv_of_nonneg (by omega)
  simp only [bitrate, this, ht]
  omega

theorem C219_bitrate16_partial (r : Nat) (h : r < 65536) : bitrate none (some r) = bitrate (some r) none := by
  have : toInt r = r := by unfold toInt; rw [if_pos (by omega)]; omega
  simp only [bitrate, this]
  rw [Nat.mod_eq_of_lt h]

/-- but it is wrong for each rate: a Megabit is not 1024 * 1024 bit -/
theorem C219_mega_counterexample (r : Nat) (h0 : 0 < r) (h : r < 2147483648) (r16 : Option Nat) : bitrate (some r) r16 ≠ 100000 * r := by
  have : toInt r = r := by unfold toInt; rw [if_pos (by omega)]; omega
  have ht : (1048576 * (r : Int)).tdiv 10 = 1048576 * (r : Int) / 10 := Int.tdiv_eq_ediv_of_nonneg (by omega)
  simp only [bitrate, this, ht]
  omega

example : bitrate (some 10) none = 1048576 ∧ bitrate none (some 540) = 56623104 ∧ bitrate (some 540) (some 1) = 56623104 := by decide

/-- the rate of multicasts is right for 20 MHz only: 6 Mbit/s in a channel of 20 MHz, in proportion to the bandwidth of others -/
theorem C219_multicast_partial : mcRate 20000000 = 6000000 := by decide

theorem C219_multicast_counterexample (w : Nat) (h : w < 8) (hw : bandwidth w ≠ 20000000) : mcRate (bandwidth w) ≠ 6000000 * bandwidth w / 20000000 := by
  match w, h with
  | 0, _ | 1, _ => exact absurd rfl hw
  | 2, _ | 3, _ | 4, _ | 5, _ | 6, _ | 7, _ => decide

theorem maxLoop_spec (rate : Nat → Nat) (mcs : List Nat) : ∀ n, (∀ k, k < n → bit mcs k = true → rate k ≤ maxLoop rate mcs n) ∧
    (maxLoop rate mcs n = 0 ∨ ∃ k, k < n ∧ bit mcs k = true ∧ maxLoop rate mcs n = rate k) := by
  intro n
  induction n with
  | zero => exact ⟨fun k h => absurd h (by omega), .inl rfl⟩
  | succ n ih =>
    obtain ⟨h1, h2⟩ := ih
    simp only [maxLoop]
    by_cases hc : (bit mcs n && decide (maxLoop rate mcs n < rate n)) = true
    · rw [if_pos hc]
      simp only [Bool.and_eq_true, decide_eq_true_eq] at hc
      refine ⟨fun k hk hb => ?_, .inr ⟨n, by omega, hc.1, rfl⟩⟩
      rcases Nat.lt_succ_iff_lt_or_eq.1 hk with hk | rfl
      · have := h1 k hk hb; omega
      · exact Nat.le_refl _
    · rw [if_neg hc]
      simp only [Bool.and_eq_true, decide_eq_true_eq, not_and] at hc
      refine ⟨fun k hk hb => ?_, ?_⟩
      · rcases Nat.lt_succ_iff_lt_or_eq.1 hk with hk | rfl
        · exact h1 k hk hb
        · have := hc hb; omega
      · rcases h2 with h2 | ⟨k, hk, hb, he⟩
        · exact .inl h2
        · exact .inr ⟨k, by omega, hb, he⟩

/-- the rate of a row for a guard interval -/
def Rate.of (r : Rate) (short : Bool) : Nat := if short then r.sgi else r.lgi

/-- the maximal rate is that of the fastest supported index of the table for the bandwidth -/
theorem C219_max (t20 t40 : Nat → Rate) (wide : Bool) (mcs : List Nat) (s20 s40 : Bool) :
    let x := maxBitrate t20 t40 (some (if wide then 40000000 else 20000000)) mcs s20 s40
    let rate := fun k => if wide then (t40 k).of s40 else (t20 k).of s20
    (∀ k, k < 77 → bit mcs k = true → rate k ≤ x) ∧ (x = 0 ∨ ∃ k, k < 77 ∧ bit mcs k = true ∧ x = rate k) := by
  intro x rate
  have e : x = maxLoop rate mcs 77 := by cases wide <;> simp [x, rate, maxBitrate, Rate.of]
  rw [e]
  exact maxLoop_spec rate mcs 77

/-- no rate for other channels -/
theorem C219_max_other (t20 t40 : Nat → Rate) (b : Nat) (h1 : b ≠ 20000000) (h2 : b ≠ 40000000) (mcs : List Nat) (s20 s40 : Bool) :
    maxBitrate t20 t40 (some b) mcs s20 s40 = 0 ∧ maxBitrate t20 t40 none mcs s20 s40 = 0 := by
  simp [maxBitrate, h1, h2]

example : maxLoop (fun k => 65 * (k + 1)) [0b10101] 6 = 325 := by decide

/-- rates of 802.11n: the maxima are at least those of the array, and nothing else -/
theorem C219_ht (rate : Nat) (mcs : List Nat) (b : Best) :
    (ht rate mcs b).tx = max b.tx (1048576 * rate / 10) ∧
    (ht rate mcs b).rx = max b.rx (if mcs.getD 10 0 + mcs.getD 11 0 % 4 * 256 = 0 then 1048576 * rate / 10 else 1048576 * (mcs.getD 10 0 + mcs.getD 11 0 % 4 * 256)) := by
  unfold ht
  simp only
  refine ⟨?_, ?_⟩
  · split <;> omega
  · generalize mcs.getD 10 0 + mcs.getD 11 0 % 4 * 256 = x
    by_cases h : x = 0
    · subst h; simp only [ne_eq, not_true_eq_false, if_true, if_false]; split <;> omega
    · simp only [ne_eq, h, not_false_eq_true, if_true, if_false]; split <;> omega

/-- rates of 802.11ac: that for sending is taken for a rate of reception, the maximum for sending is never set -/
theorem C219_vht_counterexample (mcs : List Nat) (b : Best) :
    (vht mcs b).tx = b.tx ∧ 1048576 * (mcs.getD 6 0 + mcs.getD 7 0 * 256) ≤ (vht mcs b).rx ∧ 1048576 * (mcs.getD 4 0 + mcs.getD 5 0 * 256) ≤ (vht mcs b).rx := by
  simp only [vht]
  generalize 1048576 * (mcs.getD 6 0 + mcs.getD 7 0 * 256) = x
  generalize 1048576 * (mcs.getD 4 0 + mcs.getD 5 0 * 256) = y
  refine ⟨trivial, ?_, ?_⟩ <;> (by_cases h : b.rx < y <;> simp only [h, if_true, if_false] <;> split <;> omega)

end Verif.Nl80211
