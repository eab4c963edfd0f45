import Verif.Metric.DatModel

/-
Link speed in the metric plugin: C85.
-/
namespace Verif.Metric

/-! ### Specification -/

/-- `x` is the upper median of a list: at most half of the elements are smaller, more than half are not larger -/
def IsUpperMedian (x : Int) (l : List Int) : Prop :=
  x ∈ l ∧ l.countP (fun y => decide (y < x)) ≤ l.length / 2 ∧ l.length / 2 < l.countP (fun y => decide (y ≤ x))

/-- the known speeds of the samples -/
def knownSpeeds (buckets : List Bucket) : List Int := (buckets.map (·.speed)).filter (fun x => decide (0 < x))

/-- all speeds are representable as `int` -/
def SpeedsSmall (buckets : List Bucket) : Prop := ∀ b ∈ buckets, -2147483648 ≤ b.speed ∧ b.speed < 2147483648

/-! ### Lemmas -/

theorem toInt_small (x : Int) (h : -2147483648 ≤ x) (h' : x < 2147483648) : toInt x = x := by
  unfold toInt
  rw [Int.bmod_def]
  split <;> omega

theorem insert_perm (x : Int) (l : List Int) : (insertInt x l).Perm (x :: l) := by
  induction l with
  | nil => exact List.Perm.refl _
  | cons y ys ih =>
    unfold insertInt
    split
    · exact List.Perm.refl _
    · exact (List.Perm.cons y ih).trans (List.Perm.swap x y ys)

theorem sort_perm (l : List Int) : (sortInt l).Perm l := by
  induction l with
  | nil => exact List.Perm.refl _
  | cons x xs ih => exact (insert_perm x _).trans (List.Perm.cons x ih)

theorem insert_sorted (x : Int) (l : List Int) (h : l.Pairwise (· ≤ ·)) : (insertInt x l).Pairwise (· ≤ ·) := by
  induction l with
  | nil => exact List.pairwise_singleton _ _
  | cons y ys ih =>
    unfold insertInt
    have hy := List.pairwise_cons.mp h
    split
    · rename_i hle
      refine List.pairwise_cons.mpr ⟨fun z hz => ?_, h⟩
      rcases List.mem_cons.mp hz with rfl | hz
      · exact hle
      · have := hy.1 z hz; omega
    · rename_i hle
      refine List.pairwise_cons.mpr ⟨fun z hz => ?_, ih hy.2⟩
      rcases List.mem_cons.mp ((insert_perm x ys).mem_iff.mp hz) with rfl | hz
      · omega
      · exact hy.1 z hz

theorem sort_sorted (l : List Int) : (sortInt l).Pairwise (· ≤ ·) := by
  induction l with
  | nil => exact List.Pairwise.nil
  | cons x xs ih => exact insert_sorted x _ ih

theorem countP_none {α : Type} (p : α → Bool) (l : List α) (h : ∀ x ∈ l, p x = false) : l.countP p = 0 := by
  rw [List.countP_eq_zero]
  intro x hx; rw [h x hx]; decide

/-- the element at a position of a sorted list -/
theorem sorted_counts (l : List Int) (h : l.Pairwise (· ≤ ·)) (k : Nat) (hk : k < l.length) :
    l.countP (fun y => decide (y < l[k])) ≤ k ∧ k < l.countP (fun y => decide (y ≤ l[k])) := by
  have hp := List.pairwise_iff_getElem.mp h
  constructor
  · have e : l.countP (fun y => decide (y < l[k])) = (l.take k).countP (fun y => decide (y < l[k])) + (l.drop k).countP (fun y => decide (y < l[k])) := by
      rw [← List.countP_append, List.take_append_drop]
    have h0 : (l.drop k).countP (fun y => decide (y < l[k])) = 0 := by
      apply countP_none
      intro y hy
      obtain ⟨j, hj, rfl⟩ := List.getElem_of_mem hy
      rw [List.getElem_drop]
      rw [List.length_drop] at hj
      by_cases h0 : j = 0
      · subst h0; simp
      · have := hp k (k + j) hk (by omega) (by omega)
        exact decide_eq_false (by omega)
    have h1 := List.countP_le_length (p := fun y => decide (y < l[k])) (l := l.take k)
    rw [List.length_take] at h1
    omega
  · have e : l.countP (fun y => decide (y ≤ l[k])) = (l.take (k + 1)).countP (fun y => decide (y ≤ l[k])) + (l.drop (k + 1)).countP (fun y => decide (y ≤ l[k])) := by
      rw [← List.countP_append, List.take_append_drop]
    have h0 : (l.take (k + 1)).countP (fun y => decide (y ≤ l[k])) = (l.take (k + 1)).length := by
      rw [List.countP_eq_length]
      intro y hy
      obtain ⟨j, hj, rfl⟩ := List.getElem_of_mem hy
      rw [List.getElem_take]
      rw [List.length_take] at hj
      by_cases h0 : j = k
      · subst h0; simp
      · have := hp j k (by omega) hk (by omega)
        exact decide_eq_true (by omega)
    rw [List.length_take] at h0
    omega

theorem countP_le_of_imp {α : Type} (p q : α → Bool) (l : List α) (h : ∀ x, p x = true → q x = true) : l.countP p ≤ l.countP q :=
  List.countP_mono_left (fun x _ hx => h x hx)

theorem countP_split (l : List Int) (p : Int → Bool) (hp : ∀ x, x ≤ 0 → p x = true) :
    l.countP p = l.countP (fun x => decide (x ≤ 0)) + (l.filter (fun x => decide (0 < x))).countP p := by
  induction l with
  | nil => rfl
  | cons x xs ih =>
    by_cases h : x ≤ 0
    · rw [List.countP_cons_of_pos (hp x h), List.countP_cons_of_pos (p := fun x => decide (x ≤ 0)) (by simpa using h),
        List.filter_cons_of_neg (by simp; omega)]
      omega
    · rw [List.countP_cons_of_neg (p := fun x => decide (x ≤ 0)) (by simpa using h), List.filter_cons_of_pos (by simp; omega),
        List.countP_cons, List.countP_cons]
      omega

theorem length_split (l : List Int) : l.length = l.countP (fun x => decide (x ≤ 0)) + (l.filter (fun x => decide (0 < x))).length := by
  have := countP_split l (fun _ => true) (fun _ _ => rfl)
  simpa using this

/-- the middle of the sorted array is the median of its positive elements -/
theorem middle (arr : List Int) (h : arr.length - arr.countP (fun x => decide (x ≤ 0)) ≠ 0) :
    IsUpperMedian ((sortInt arr).getD (arr.countP (fun x => decide (x ≤ 0)) + (arr.length - arr.countP (fun x => decide (x ≤ 0))) / 2) 0)
      (arr.filter (fun x => decide (0 < x))) := by
  have hl := length_split arr
  generalize hz : arr.countP (fun x => decide (x ≤ 0)) = z at *
  have hlen : (sortInt arr).length = arr.length := (sort_perm arr).length_eq
  generalize hw : arr.length - z = w at *
  have hk : z + w / 2 < (sortInt arr).length := by omega
  rw [List.getD_eq_getElem?_getD, List.getElem?_eq_getElem hk, Option.getD_some]
  obtain ⟨h1, h2⟩ := sorted_counts _ (sort_sorted arr) _ hk
  have hm : (sortInt arr)[z + w / 2] ∈ arr := (sort_perm arr).mem_iff.mp (List.getElem_mem hk)
  generalize (sortInt arr)[z + w / 2] = x at *
  rw [(sort_perm arr).countP_eq] at h1 h2
  have hx : 0 < x := by
    refine Int.lt_of_not_ge fun hx => ?_
    have := countP_le_of_imp (fun y => decide (y ≤ x)) (fun y => decide (y ≤ 0)) arr (fun y hy => by
      have := of_decide_eq_true hy
      exact decide_eq_true (by omega))
    omega
  rw [countP_split arr (fun y => decide (y < x)) (fun y hy => decide_eq_true (by omega)), hz] at h1
  rw [countP_split arr (fun y => decide (y ≤ x)) (fun y hy => decide_eq_true (by omega)), hz] at h2
  refine ⟨List.mem_filter.mpr ⟨hm, by simpa using hx⟩, ?_, ?_⟩ <;> omega

/-! ### C85 -/

/-- C85: the reported speed is unknown (-1) exactly if no sample has a positive speed, and otherwise the upper median of the positive ones;
for speeds below 2^31 bit/s. -/
theorem C85_median_partial (buckets : List Bucket) (hs : SpeedsSmall buckets) :
    (median buckets = -1 ↔ knownSpeeds buckets = []) ∧
    (knownSpeeds buckets ≠ [] → IsUpperMedian (median buckets) (knownSpeeds buckets)) := by
  have e : buckets.map (fun b => toInt b.speed) = buckets.map (·.speed) :=
    List.map_congr_left (fun b hb => toInt_small b.speed (hs b hb).1 (hs b hb).2)
  have hl := length_split (buckets.map (·.speed))
  have hm : knownSpeeds buckets ≠ [] → IsUpperMedian (median buckets) (knownSpeeds buckets) := by
    intro hne
    unfold median
    dsimp only
    rw [e]
    have hpos : 0 < (knownSpeeds buckets).length := List.length_pos_iff.mpr hne
    unfold knownSpeeds at hpos ⊢
    have hw : (buckets.map (·.speed)).length - (buckets.map (·.speed)).countP (fun x => decide (x ≤ 0)) ≠ 0 := by omega
    rw [if_neg hw]
    exact middle _ hw
  refine ⟨⟨fun h => Classical.byContradiction fun hne => ?_, fun h => ?_⟩, hm⟩
  · have h1 := (hm hne).1
    rw [h] at h1
    unfold knownSpeeds at h1
    have := (List.mem_filter.mp h1).2
    simp at this
  · unfold median
    dsimp only
    rw [e]
    unfold knownSpeeds at h
    rw [h] at hl
    simp only [List.length_nil, Nat.add_zero] at hl
    rw [if_pos (by omega)]

/-- C85 is false for faster links: the samples are copied into an array of `int`. A link of 2.5 Gbit/s has no known speed,
one of 5 Gbit/s is taken for a link of about 705 Mbit/s. -/
theorem C85_median_counterexample :
    median (List.replicate 32 ⟨1, 1, 2500000000⟩) = -1 ∧ median (List.replicate 32 ⟨1, 1, 5000000000⟩) = 705032704 := by
  decide +kernel

/-- a median of this kind is unique -/
theorem C85_median_unique (x y : Int) (l : List Int) (hx : IsUpperMedian x l) (hy : IsUpperMedian y l) : x = y := by
  have key : ∀ x y : Int, IsUpperMedian x l → IsUpperMedian y l → ¬ x < y := by
    intro x y hx hy hlt
    have := countP_le_of_imp (fun z => decide (z ≤ x)) (fun z => decide (z < y)) l (fun z hz => by
      have := of_decide_eq_true hz
      exact decide_eq_true (by omega))
    have h1 := hx.2.2
    have h2 := hy.2.1
    omega
  have h1 := key x y hx hy
  have h2 := key y x hy hx
  omega

/-- speed in steps of 1024 bit/s, rounded up, at least 1 and at most 2^21 -/
def specScale (raw : Int) : Int := max 1 (min 2097152 ((raw + 1023) / 1024))

/-- C85: the speed is scaled to 1 kbit/s ... 2 Gbit/s in units of 1024 bit/s, rounded up. -/
theorem C85_scale (raw : Int) : scale raw = specScale raw := by
  unfold scale specScale SPEED_MIN SPEED_RANGE
  dsimp only
  rcases Int.lt_or_le raw 0 with h | h
  · have h1 : raw.tmod 1024 ≤ 0 := by
      have h2 := Int.tmod_eq_emod_of_nonneg (a := -raw) (b := 1024) (by omega)
      rw [Int.neg_tmod] at h2
      omega
    have h2 : raw.tdiv 1024 ≤ 0 := by
      have h2 := Int.tdiv_eq_ediv_of_nonneg (a := -raw) (b := 1024) (by omega)
      rw [Int.neg_tdiv] at h2
      omega
    have h3 : ¬ raw.tmod 1024 > 0 := by omega
    simp only [if_neg h3]
    rw [if_pos (by omega)]
    omega
  · rw [Int.tmod_eq_emod_of_nonneg h, Int.tdiv_eq_ediv_of_nonneg h]
    split <;> split <;> (try split) <;> omega

example : IsUpperMedian 6 (knownSpeeds [⟨0, 0, 6⟩, ⟨0, 0, -1⟩, ⟨0, 0, 11⟩, ⟨0, 0, 2⟩, ⟨0, 0, 0⟩, ⟨0, 0, 5⟩]) := by
  unfold IsUpperMedian; decide +kernel
example : median [⟨0, 0, 6⟩, ⟨0, 0, -1⟩, ⟨0, 0, 11⟩, ⟨0, 0, 2⟩, ⟨0, 0, 0⟩, ⟨0, 0, 5⟩] = 6 := by decide +kernel
example : SpeedsSmall [⟨0, 0, 6⟩, ⟨0, 0, -1⟩] := by unfold SpeedsSmall; decide
example : scale 1000000 = 977 ∧ scale 1 = 1 ∧ scale 0 = 1 ∧ scale 10000000000 = 2097152 := by decide +kernel

end Verif.Metric
