import Verif.Layer2.Model
/-
C67: which originator's value an object holds.  C68: fixed point conversion.  C77: comparison.
-/
namespace Verif.Layer2
open Verif.Netaddr

/-! ### Specification of C67 -/

/-- a write to an object: who, what kind of value, which value -/
abbrev Write := Oid × Meta × Value

/-- `o` is the first originator in the history that has the highest priority of all writers -/
def Winner (prio : Oid → Nat) (h : List Write) (o : Oid) : Prop :=
  ∃ before w after, h = before ++ w :: after ∧ w.1 = o ∧
    (∀ x ∈ before, prio x.1 < prio o) ∧ (∀ x ∈ after, prio x.1 ≤ prio o)

/-- the last write of originator `o` in the history -/
def LastBy (h : List Write) (o : Oid) (m : Meta) (v : Value) : Prop :=
  ∃ before after, h = before ++ (o, m, v) :: after ∧ ∀ x ∈ after, x.1 ≠ o

/-- a history of writes -/
def setAll (prio : Oid → Nat) : Data → List Write → Option Data
  | d, [] => some d
  | d, w :: ws =>
    match dataSet prio d w.1 (some w.2.1) w.2.2 with
    | none => none
    | some r => setAll prio r.2 ws

/-! ### C67 -/

theorem setAll_append (prio : Oid → Nat) (w : Write) : ∀ (h : List Write) (d : Data),
    setAll prio d (h ++ [w]) =
      (setAll prio d h).bind (fun e => (dataSet prio e w.1 (some w.2.1) w.2.2).map (·.2))
  | [], d => by
    simp only [List.nil_append, setAll, Option.bind_some]
    cases dataSet prio d w.1 (some w.2.1) w.2.2 <;> rfl
  | x :: h, d => by
    simp only [List.cons_append, setAll]
    cases dataSet prio d x.1 (some x.2.1) x.2.2 with
    | none => rfl
    | some r => exact setAll_append prio w h r.2

/-- **C67** (arbitration): after any non-empty sequence of writes to an object without a value, the
object holds the last value written by the first originator of the highest priority. -/
theorem C67_arbitration (prio : Oid → Nat) (d0 : Data) (h0 : d0.origin = none) (h : List Write)
    (hne : h ≠ []) :
    ∃ o m v, Winner prio h o ∧ LastBy h o m v ∧ setAll prio d0 h = some ⟨v, some m, some o⟩ := by
  -- induction over the history from its end
  have key : ∀ (l : List Write), l.reverse ≠ [] →
      ∃ o m v, Winner prio l.reverse o ∧ LastBy l.reverse o m v ∧
        setAll prio d0 l.reverse = some ⟨v, some m, some o⟩ := by
    intro l
    induction l with
    | nil => intro h; exact absurd rfl h
    | cons w l ih =>
      intro _
      obtain ⟨wo, wm, wv⟩ := w
      by_cases hl : l.reverse = []
      · rw [List.reverse_cons, hl]
        refine ⟨wo, wm, wv, ⟨[], _, [], rfl, rfl, by simp, by simp⟩, ⟨[], [], rfl, by simp⟩, ?_⟩
        simp [setAll, dataSet, h0]
      · obtain ⟨o, m, v, ⟨b, x, a, e, hx, hb, ha⟩, ⟨b', a', e', ha'⟩, hs⟩ := ih hl
        rw [List.reverse_cons, setAll_append, hs]
        by_cases hsame : o = wo
        · subst hsame
          refine ⟨o, wm, wv, ⟨b, x, a ++ [(o, wm, wv)], by rw [e]; simp, hx, hb, ?_⟩,
            ⟨l.reverse, [], rfl, by simp⟩, ?_⟩
          · intro y hy
            rcases List.mem_append.1 hy with hy | hy
            · exact ha y hy
            · simp at hy; subst hy; exact Nat.le_refl _
          · simp [dataSet]
        · by_cases hp : prio o < prio wo
          · refine ⟨wo, wm, wv, ⟨l.reverse, _, [], rfl, rfl, ?_, by simp⟩, ⟨l.reverse, [], rfl, by simp⟩, ?_⟩
            · intro y hy
              rw [e] at hy
              rcases List.mem_append.1 hy with hy | hy
              · exact Nat.lt_trans (hb y hy) hp
              · rcases List.mem_cons.1 hy with hy | hy
                · subst hy; rw [hx]; exact hp
                · exact Nat.lt_of_le_of_lt (ha y hy) hp
            · simp [dataSet, hp]
          · refine ⟨o, m, v, ⟨b, x, a ++ [(wo, wm, wv)], by rw [e]; simp, hx, hb, ?_⟩,
              ⟨b', a' ++ [(wo, wm, wv)], by rw [e']; simp, ?_⟩, ?_⟩
            · intro y hy
              rcases List.mem_append.1 hy with hy | hy
              · exact ha y hy
              · simp at hy; subst hy; exact Nat.le_of_not_lt hp
            · intro y hy
              rcases List.mem_append.1 hy with hy | hy
              · exact ha' y hy
              · simp at hy; subst hy; exact fun h => hsame h.symm
            · simp [dataSet, hp, hsame]
  have := key h.reverse (by simpa using hne)
  simpa using this

example : (blank ⟨3, .integer, 1⟩).origin = none ∧
    setAll (fun o => o) (blank ⟨3, .integer, 1⟩)
      [(1, ⟨3, .integer, 1⟩, .int 5), (2, ⟨3, .integer, 1⟩, .int 6), (1, ⟨3, .integer, 1⟩, .int 7)]
      = some ⟨.int 6, some ⟨3, .integer, 1⟩, some 2⟩ := by decide +kernel

/-- **C67** (unique): the winner does not depend on the way it is found. -/
theorem C67_winner_unique (prio : Oid → Nat) (h : List Write) (o p : Oid) (ho : Winner prio h o)
    (hp : Winner prio h p) : o = p := by
  obtain ⟨b, x, a, e, rfl, hb, ha⟩ := ho
  obtain ⟨b', x', a', e', rfl, hb', ha'⟩ := hp
  rw [e] at e'
  rcases List.append_eq_append_iff.1 e' with ⟨l, h1, h2⟩ | ⟨l, h1, h2⟩
  · cases l with
    | nil => simp at h2; rw [h2.1]
    | cons y l =>
      simp only [List.cons_append, List.cons.injEq] at h2
      obtain ⟨rfl, h2⟩ := h2
      have h3 := hb' x (by rw [h1]; simp)
      have h4 := ha x' (by rw [h2]; simp)
      omega
  · cases l with
    | nil => simp at h2; rw [← h2.1]
    | cons y l =>
      simp only [List.cons_append, List.cons.injEq] at h2
      obtain ⟨rfl, h2⟩ := h2
      have h3 := hb x' (by rw [h1]; simp)
      have h4 := ha' x (by rw [h2]; simp)
      omega

/-- **C67** (notification): the returned flag tells exactly whether kind or value of the object
changed. -/
theorem C67_changed_flag (prio : Oid → Nat) (d d' : Data) (o : Oid) (m : Option Meta) (v : Value) (b : Bool)
    (h : dataSet prio d o m v = some (b, d')) :
    b = true ↔ (d'.meta? ≠ d.meta? ∨ d'.value ≠ d.value) := by
  unfold dataSet at h
  split at h
  · cases h
  · split at h
    · simp only [Option.some.injEq, Prod.mk.injEq] at h
      rw [← h.1, ← h.2, decide_eq_true_eq]
      exact ⟨fun h => h.imp Ne.symm Ne.symm, fun h => h.imp Ne.symm Ne.symm⟩
    · simp only [Option.some.injEq, Prod.mk.injEq] at h
      rw [← h.1, ← h.2]
      simp

example : dataSet (fun o => o) ⟨.int 5, some ⟨3, .integer, 1⟩, some 1⟩ 2 none (.int 5)
    = some (false, ⟨.int 5, some ⟨3, .integer, 1⟩, some 2⟩) := by decide +kernel

/-- **C67** (fails after a removal): the originators write without naming the kind of value, as the
objects know it.  This works for a new object, but a removed value takes the kind with it: the next
such write is a failed assertion. -/
theorem C67_reset_counterexample (prio : Oid → Nat) (m : Meta) (o p : Oid) (v w : Value) :
    ∃ d, dataSet prio (blank m) o none v = some (decide (Value.int 0 ≠ v), d) ∧
      cleanup o [d] = [d.reset] ∧ dataSet prio d.reset p none w = none := by
  refine ⟨⟨v, some m, some o⟩, ?_, ?_, ?_⟩
  · simp [dataSet, blank]
  · simp [cleanup]
  · simp [dataSet, Data.reset]

/-! ### C68 -/

theorem u64_nonneg (v : Int) (h0 : 0 ≤ v) (h : v < 2 ^ 63) : u64 v = v.toNat := by
  unfold u64
  rw [Int.emod_eq_of_lt h0 (by omega)]

theorem s64_small (n : Nat) (h : n < 2 ^ 63) : s64 n = (n : Int) := by
  unfold s64
  rw [if_pos (by omega)]; omega

theorem mulU_eq (v : Int) (f : Nat) (h1 : -(2 ^ 63) ≤ v * f) (h2 : v * f < 2 ^ 63) :
    mulU v f = v * f := by
  unfold mulU
  have key : ((u64 v * f : Nat) : Int) % 2 ^ 64 = (v * f) % 2 ^ 64 := by
    unfold u64
    rw [Int.natCast_mul, Int.toNat_of_nonneg (Int.emod_nonneg _ (by decide)), Int.mul_emod, Int.emod_emod_of_dvd _ (Int.dvd_refl _),
      ← Int.mul_emod]
  unfold s64
  generalize hn : u64 v * f = n at *
  generalize hw : v * (f : Int) = w at *
  omega

theorem divU_nonneg (v : Int) (f : Nat) (hf : 0 < f) (h0 : 0 ≤ v) (h : v < 2 ^ 63) :
    divU v f = some (v / f) := by
  unfold divU
  rw [if_neg (by omega), u64_nonneg v h0 h, s64_small]
  · congr 1
    rw [Int.natCast_ediv, Int.toNat_of_nonneg h0]
  · have := Nat.div_le_self v.toNat f; omega

/-- An `int64_t`. -/
def Int64Range (v : Int) : Prop := -(2 ^ 63) ≤ v ∧ v < 2 ^ 63

/-- **C68** (reading, partial): reading a stored number `v` (in units of `1/m.scaling`) in units of
`1/scale` yields `v * scale / m.scaling`, rounded towards zero, if one of the two factors is a
multiple of the other and the result fits.  Missing: negative numbers when the requested scale is
smaller than the stored one (`C68_negative_counterexample`). -/
theorem C68_read_partial (m : Meta) (o : Oid) (v : Int) (scale : Nat) (hm : m.type = .integer) (hs : 0 < m.scaling)
    (hs' : 0 < scale) (hdvd : m.scaling ∣ scale ∨ scale ∣ m.scaling) (hv : Int64Range v)
    (hr : Int64Range (Int.tdiv (v * scale) m.scaling)) (hneg : 0 ≤ v ∨ m.scaling ≤ scale) :
    readInt64 ⟨.int v, some m, some o⟩ scale = .value (Int.tdiv (v * scale) m.scaling) := by
  have main : scaleOut m v scale = some (Int.tdiv (v * scale) m.scaling) := by
    unfold scaleOut quot
    simp only
    rw [if_neg (Nat.ne_of_gt hs')]
    by_cases hgt : scale > m.scaling
    · rw [if_pos hgt, if_neg (Nat.ne_of_gt hs)]
      rcases hdvd with ⟨c, e⟩ | h
      · subst e
        rw [Nat.mul_div_cancel_left c hs]
        have e2 : Int.tdiv (v * ((m.scaling * c : Nat) : Int)) m.scaling = v * c := by
          rw [Int.natCast_mul, Int.mul_left_comm, Int.mul_tdiv_cancel_left _ (by omega)]
        rw [e2] at hr
        rw [e2]
        simp only [Option.map_some]
        rw [mulU_eq v c hr.1 hr.2]
      · exact absurd (Nat.le_of_dvd hs h) (by omega)
    · rw [if_neg hgt, if_neg (Nat.ne_of_gt hs')]
      by_cases hsame : scale = m.scaling
      · rw [hsame, Nat.div_self hs]
        have e2 : Int.tdiv (v * (m.scaling : Int)) m.scaling = v := Int.mul_tdiv_cancel _ (by omega)
        rw [e2]
        simp only [Option.bind_some, divU]
        rw [if_neg (by decide), Nat.div_one]
        congr 1
        have := hv.1; have := hv.2
        unfold s64 u64; omega
      · have h0 : 0 ≤ v := by
          rcases hneg with h | h
          · exact h
          · omega
        rcases hdvd with h | ⟨c, e⟩
        · exact absurd (Nat.le_of_dvd hs' h) (by omega)
        · have hc : 0 < c := by
            rcases Nat.eq_zero_or_pos c with h | h
            · subst h; omega
            · exact h
          rw [e, Nat.mul_div_cancel_left c hs']
          simp only [Option.bind_some]
          rw [divU_nonneg v c hc h0 hv.2]
          congr 1
          rw [Int.natCast_mul, Int.mul_comm v, Int.mul_tdiv_mul_of_pos _ _ (by omega), Int.tdiv_eq_ediv_of_nonneg h0]
  unfold readInt64 Data.hasValue
  simp only [Option.isSome_some, Bool.and_self]
  rw [if_neg (by simp [hm]), main]

example : readInt64 ⟨.int 12345, some ⟨1, .integer, 1000⟩, some 7⟩ 10 = .value 123 ∧
    (Int.tdiv (12345 * 10) 1000 = 123) := by decide +kernel
example : readInt64 ⟨.int (-12), some ⟨1, .integer, 10⟩, some 7⟩ 1000 = .value (-1200) := by decide +kernel

/-- **C68** (fails for negative numbers): a signal strength of -50 dBm, stored in units of 1/1000 dBm
like the metadata of the database demands, read in dBm. -/
theorem C68_negative_counterexample :
    readInt64 ⟨.int (-50000), neighMeta[1]?, some 7⟩ 1 = .value 18446744073709501 ∧
    Int.tdiv (-50000 * 1) 1000 = -50 := by decide +kernel

/-- **C68** (storing, partial): storing `v` given in units of `1/scaling` stores `v * m.scaling /
scaling`, rounded towards zero.  Missing: negative numbers given in a larger scale
(`C68_store_counterexample`). -/
theorem C68_store_partial (prio : Oid → Nat) (m : Meta) (o : Oid) (v : Int) (scaling : Nat) (hs : 0 < m.scaling)
    (hs' : 0 < scaling) (hdvd : m.scaling ∣ scaling ∨ scaling ∣ m.scaling) (hv : Int64Range v)
    (hr : Int64Range (Int.tdiv (v * m.scaling) scaling)) (hneg : 0 ≤ v ∨ scaling ≤ m.scaling) :
    ∃ b, dataSetInt64 prio (blank m) o none v scaling
      = some (b, ⟨.int (Int.tdiv (v * m.scaling) scaling), some m, some o⟩) := by
  have main : scaleIn m v scaling = some (Int.tdiv (v * m.scaling) scaling) := by
    unfold scaleIn quot
    rw [if_neg (Nat.ne_of_gt hs')]
    by_cases hgt : scaling > m.scaling
    · rw [if_pos hgt, if_neg (Nat.ne_of_gt hs)]
      have h0 : 0 ≤ v := by
        rcases hneg with h | h
        · exact h
        · omega
      rcases hdvd with ⟨c, e⟩ | h
      · have hc : 0 < c := by
          rcases Nat.eq_zero_or_pos c with h | h
          · subst h; omega
          · exact h
        rw [e, Nat.mul_div_cancel_left c hs]
        simp only [Option.bind_some]
        rw [divU_nonneg v c hc h0 hv.2]
        congr 1
        rw [Int.natCast_mul, Int.mul_comm v, Int.mul_tdiv_mul_of_pos _ _ (by omega), Int.tdiv_eq_ediv_of_nonneg h0]
      · exact absurd (Nat.le_of_dvd hs h) (by omega)
    · rw [if_neg hgt, if_neg (Nat.ne_of_gt hs')]
      have hd : scaling ∣ m.scaling := by
        rcases hdvd with h | h
        · have := Nat.le_of_dvd hs' h
          have e : scaling = m.scaling := by omega
          rw [e]; exact Nat.dvd_refl _
        · exact h
      obtain ⟨c, e⟩ := hd
      rw [e] at hr ⊢
      rw [Nat.mul_div_cancel_left c hs']
      have e2 : Int.tdiv (v * ((scaling * c : Nat) : Int)) scaling = v * c := by
        rw [Int.natCast_mul, Int.mul_left_comm, Int.mul_tdiv_cancel_left _ (by omega)]
      rw [e2] at hr ⊢
      simp only [Option.map_some]
      rw [mulU_eq v c hr.1 hr.2]
  unfold dataSetInt64
  simp only [blank, Option.none_or]
  rw [main]
  simp [dataSet]
  exact Classical.em _

example : dataSetInt64 (fun _ => 10) (blank ⟨4, .integer, 1000⟩) 7 none (-3) 10
    = some (true, ⟨.int (-300), some ⟨4, .integer, 1000⟩, some 7⟩) := by decide +kernel

/-- **C68** (storing fails for negative numbers): -1.5 given in thousandths to an object that counts
tenths. -/
theorem C68_store_counterexample :
    dataSetInt64 (fun _ => 10) (blank ⟨4, .integer, 10⟩) 7 none (-1500) 1000
      = some (true, ⟨.int 184467440737095501, some ⟨4, .integer, 10⟩, some 7⟩) ∧
    Int.tdiv (-1500 * 10) 1000 = -15 := by decide +kernel

/-- **C68** (lossless): a number stored in a scale that is not larger than that of the object and
read back in the same scale is unchanged, if it is not negative or the scales agree. -/
theorem C68_roundtrip_partial (prio : Oid → Nat) (m : Meta) (o : Oid) (v : Int) (scaling : Nat) (hm : m.type = .integer)
    (hs' : 0 < scaling) (hdvd : scaling ∣ m.scaling) (hs : 0 < m.scaling)
    (hv : Int64Range v) (hr : Int64Range (v * (m.scaling / scaling : Nat))) (hneg : 0 ≤ v ∨ scaling = m.scaling) :
    ∃ b d, dataSetInt64 prio (blank m) o none v scaling = some (b, d) ∧ readInt64 d scaling = .value v := by
  obtain ⟨c, e⟩ := hdvd
  have hc : 0 < c := by
    rcases Nat.eq_zero_or_pos c with h | h
    · subst h; omega
    · exact h
  have hcm : m.scaling / scaling = c := by rw [e, Nat.mul_div_cancel_left c hs']
  rw [hcm] at hr
  have e2 : Int.tdiv (v * (m.scaling : Int)) scaling = v * c := by
    rw [e, Int.natCast_mul, Int.mul_left_comm, Int.mul_tdiv_cancel_left _ (by omega)]
  have e3 : Int.tdiv (v * c * (scaling : Int)) m.scaling = v := by
    rw [e, Int.natCast_mul, Int.mul_assoc, Int.mul_comm (c : Int), Int.mul_tdiv_cancel _ (by
      have : (0 : Int) < (scaling : Int) * c := Int.mul_pos (by omega) (by omega)
      omega)]
  obtain ⟨b, h1⟩ := C68_store_partial prio m o v scaling hs hs' (Or.inr ⟨c, e⟩) hv (by rw [e2]; exact hr)
    (Or.inr (by rw [e]; exact Nat.le_mul_of_pos_right _ hc))
  refine ⟨b, _, h1, ?_⟩
  rw [e2]
  have := C68_read_partial m o (v * c) scaling hm hs hs' (Or.inr ⟨c, e⟩) hr (by rw [e3]; exact hv)
    (by
      rcases hneg with h | h
      · exact Or.inl (Int.mul_nonneg h (by omega))
      · exact Or.inr (by omega))
  rw [e3] at this
  exact this

/-! ### C77 -/

/-- **C77** (numbers): the comparators decide the usual order of the numbers. -/
theorem C77_integer (l r : Int) :
    (dataCompare (.int l) (.int r) .eq = true ↔ l = r) ∧ (dataCompare (.int l) (.int r) .ne = true ↔ l ≠ r) ∧
    (dataCompare (.int l) (.int r) .lt = true ↔ l < r) ∧ (dataCompare (.int l) (.int r) .le = true ↔ l ≤ r) ∧
    (dataCompare (.int l) (.int r) .gt = true ↔ l > r) ∧ (dataCompare (.int l) (.int r) .ge = true ↔ l ≥ r) := by
  unfold dataCompare threeWay
  simp only [beq_iff_eq, bne_iff_ne, decide_eq_true_eq]
  by_cases h1 : l > r
  · rw [if_pos h1]; omega
  · rw [if_neg h1]
    by_cases h2 : l < r
    · rw [if_pos h2]; omega
    · rw [if_neg h2]; omega

/-- **C77** (truth values): no is less than yes. -/
theorem C77_boolean : ∀ l r : Bool,
    dataCompare (.bool l) (.bool r) .eq = (l == r) ∧ dataCompare (.bool l) (.bool r) .ne = (l != r) ∧
    dataCompare (.bool l) (.bool r) .lt = (!l && r) ∧ dataCompare (.bool l) (.bool r) .le = (!l || r) ∧
    dataCompare (.bool l) (.bool r) .gt = (l && !r) ∧ dataCompare (.bool l) (.bool r) .ge = (l || !r) := by
  decide +kernel

/-- two values of the same kind -/
def SameKind : Value → Value → Prop
  | .int _, .int _ => True
  | .bool _, .bool _ => True
  | .net _, .net _ => True
  | _, _ => False

theorem threeWay_isSome (l r : Value) : SameKind l r ↔ ∃ i, threeWay l r = some i := by
  cases l <;> cases r <;> simp [SameKind, threeWay]

/-- **C77** (complement): for two values of the same kind exactly one of `==` and `!=`, of `<` and
`>=`, and of `>` and `<=` holds; values of different kinds satisfy no comparator. -/
theorem C77_complement (l r : Value) :
    (SameKind l r →
      dataCompare l r .ne = !dataCompare l r .eq ∧ dataCompare l r .ge = !dataCompare l r .lt ∧
      dataCompare l r .le = !dataCompare l r .gt) ∧
    (¬ SameKind l r → ∀ c, dataCompare l r c = false) := by
  constructor
  · intro h
    obtain ⟨i, hi⟩ := (threeWay_isSome l r).1 h
    unfold dataCompare
    rw [hi]
    refine ⟨rfl, ?_, ?_⟩
    · by_cases h : i < 0 <;> simp [h] <;> omega
    · by_cases h : i > 0 <;> simp [h] <;> omega
  · intro h c
    unfold dataCompare
    cases ht : threeWay l r with
    | none => rfl
    | some i => exact absurd ((threeWay_isSome l r).2 ⟨i, ht⟩) h

example : SameKind (.net unspec) (.net unspec) := trivial
example : dataCompare (.int 3) (.bool true) .ne = false := by decide +kernel

/-- **C77** (text): every comparator is read back from its text, and nothing else is accepted. -/
theorem C77_text (c : Cmp) (s : String) : getComparator s = some c ↔ s = comparatorText c := by
  constructor
  · intro h
    have := List.find?_some h
    simpa using this
  · rintro rfl
    cases c <;> decide +kernel

end Verif.Layer2
