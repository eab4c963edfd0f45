import Verif.Writer.Compress

/-! Lemmas about the TLVs of address blocks. -/
namespace Verif.Writer
open Verif.Reader (Bytes)

/-- what a run says about address `i` of the block -/
def Run.at (i : Nat) (r : Run) : Option ATlv :=
  if r.first ≤ i ∧ i ≤ r.last then some ⟨r.type, r.ext, r.values.getD (i - r.first) []⟩ else none

/-- a sensible run -/
structure Run.WF (r : Run) : Prop where
  le : r.first ≤ r.last
  count : r.values.length = r.last - r.first + 1
  len : ∀ v ∈ r.values, v.length = (r.values.headD []).length
  same : r.same = true → ∀ v ∈ r.values, v = r.values.headD []
  multi : r.same = false → r.first < r.last ∧ 0 < (r.values.headD []).length

theorem full_inj {t u : ATlv} (h : t.full = u.full) : t.type = u.type ∧ t.ext = u.ext := by
  unfold ATlv.full at h
  have h1 := t.ext.toNat_lt
  have h2 := u.ext.toNat_lt
  exact ⟨UInt8.toNat_inj.1 (by omega), UInt8.toNat_inj.1 (by omega)⟩

/-- different TLV types -/
def Distinct (ts : List ATlv) : Prop := ts.Pairwise fun t u => t.full ≠ u.full

/-- `lastTlv` finds the TLV of the previous address -/
theorem lastTlv_eq {p : WAddr} (hd : Distinct p.tlvs) {t l : ATlv} (hl : l ∈ p.tlvs) (h : l.full = t.full) : lastTlv (some p) t = some l := by
  unfold lastTlv
  dsimp only
  unfold Distinct at hd
  generalize p.tlvs = ts at hd hl
  induction ts with
  | nil => simp at hl
  | cons u ts ih =>
    rw [List.find?_cons]
    rcases List.mem_cons.1 hl with rfl | hl
    · simp [h]
    · have := (List.pairwise_cons.1 hd).1 l hl
      rw [show decide (u.full = t.full) = false by
        rw [decide_eq_false_iff_not, ← h]
        exact this]
      exact ih (List.pairwise_cons.1 hd).2 hl

theorem sameValue_eq {p : WAddr} (hd : Distinct p.tlvs) {t l : ATlv} (hl : l ∈ p.tlvs) (h : l.full = t.full) :
    sameValue (some p) t = decide (t.value = l.value) := by
  unfold sameValue
  rw [lastTlv_eq hd hl h]
  by_cases he : t.value = l.value <;> simp [he]

theorem headD_append {l : List Bytes} {v : Bytes} (h : l ≠ []) : (l ++ [v]).headD [] = l.headD [] := by
  cases l with
  | nil => exact absurd rfl h
  | cons a l => rfl

theorem getLastD_mem {l : List Bytes} (h : l ≠ []) : l.getLastD [] ∈ l := by
  rw [List.getLastD_eq_getLast?, List.getLast?_eq_some_getLast h]
  exact List.getLast_mem h

/-- a new run -/
theorem wf_new (t : ATlv) (j : Nat) : (⟨t.type, t.ext, j, j, [t.value], true⟩ : Run).WF :=
  ⟨Nat.le_refl _, by simp, by simp, by simp, by simp⟩

theorem at_new (t : ATlv) (j i : Nat) : (⟨t.type, t.ext, j, j, [t.value], true⟩ : Run).at i = if i = j then some t else none := by
  unfold Run.at
  dsimp only
  by_cases h : i = j
  · subst h
    simp
  · rw [if_neg (by omega), if_neg h]

/-- a longer run -/
theorem wf_extend {r : Run} (h : r.WF) {t : ATlv} {s : Bool} (hl : (r.values.getLastD []).length = t.value.length)
    (hs : s = decide (t.value = r.values.getLastD [])) : (⟨r.type, r.ext, r.first, r.last + 1, r.values ++ [t.value], r.same && s⟩ : Run).WF := by
  have hne : r.values ≠ [] := by
    intro h0
    have := h.count
    rw [h0] at this
    simp at this
  have hlast := getLastD_mem hne
  have hlen : t.value.length = (r.values.headD []).length := by rw [← hl, h.len _ hlast]
  refine ⟨by have := h.le; dsimp only; omega, ?_, ?_, ?_, ?_⟩
  · have := h.count
    have := h.le
    simp only [List.length_append, List.length_cons, List.length_nil]
    omega
  · intro v hv
    dsimp only at hv ⊢
    rw [headD_append hne]
    rcases List.mem_append.1 hv with hv | hv
    · exact h.len v hv
    · rw [List.mem_singleton.1 hv, hlen]
  · intro he v hv
    dsimp only at he hv ⊢
    rw [headD_append hne]
    rw [Bool.and_eq_true] at he
    rcases List.mem_append.1 hv with hv | hv
    · exact h.same he.1 v hv
    · rw [List.mem_singleton.1 hv]
      rw [hs, decide_eq_true_eq] at he
      rw [he.2]
      exact h.same he.1 _ hlast
  · intro he
    dsimp only at he ⊢
    rw [headD_append hne]
    refine ⟨by have := h.le; omega, ?_⟩
    rw [Bool.and_eq_false_iff] at he
    rcases he with he | he
    · exact (h.multi he).2
    · rw [hs, decide_eq_false_iff_not] at he
      rw [← hlen]
      apply Nat.pos_of_ne_zero
      intro h0
      apply he
      rw [h0] at hl
      rw [List.length_eq_zero_iff.1 h0, List.length_eq_zero_iff.1 hl]

theorem at_extend {r : Run} (h : r.WF) (t : ATlv) (s : Bool) (ht : r.type = t.type ∧ r.ext = t.ext) (i : Nat) :
    (⟨r.type, r.ext, r.first, r.last + 1, r.values ++ [t.value], s⟩ : Run).at i = if i = r.last + 1 then some t else r.at i := by
  have hc := h.count
  have hle := h.le
  unfold Run.at
  dsimp only
  by_cases hi : i = r.last + 1
  · rw [if_pos ⟨by omega, by omega⟩, if_pos hi]
    rw [List.getD_eq_getElem?_getD, List.getElem?_append_right (by omega), show i - r.first - r.values.length = 0 by omega]
    rw [ht.1, ht.2]
    rfl
  · rw [if_neg hi]
    by_cases hr : r.first ≤ i ∧ i ≤ r.last
    · rw [if_pos hr, if_pos ⟨hr.1, by omega⟩, List.getD_eq_getElem?_getD, List.getD_eq_getElem?_getD,
        List.getElem?_append_left (by omega)]
    · rw [if_neg hr, if_neg (by omega)]

theorem at_last {r : Run} (h : r.WF) : r.at r.last = some ⟨r.type, r.ext, r.values.getLastD []⟩ := by
  unfold Run.at
  rw [if_pos ⟨h.le, Nat.le_refl _⟩, List.getD_eq_getElem?_getD, List.getLastD_eq_getLast?, List.getLast?_eq_getElem?]
  have := h.count
  rw [show r.last - r.first = r.values.length - 1 by omega]

/-- the condition on the previous address -/
def PrevOk (prev : Option WAddr) (j : Nat) (active : List Run) : Prop :=
  ∀ r ∈ active, r.last + 1 = j → ∃ p, prev = some p ∧ Distinct p.tlvs ∧ ⟨r.type, r.ext, r.values.getLastD []⟩ ∈ p.tlvs

theorem addTlv_spec {prev : Option WAddr} {j : Nat} {t : ATlv} : ∀ {active : List Run} {active' d : List Run},
    addTlv prev j active t = (active', d) → (∀ r ∈ active, r.WF) → (∀ r ∈ active, r.type = t.type → r.ext = t.ext → r.last < j) →
    PrevOk prev j active →
    (∀ r ∈ active' ++ d, r.WF) ∧ (∀ r ∈ active', r ∈ active ∨ (r.type = t.type ∧ r.ext = t.ext ∧ r.last = j)) ∧ (∀ r ∈ d, r ∈ active) ∧
    ∀ i, ((active' ++ d).filterMap (Run.at i)).Perm ((if i = j then [t] else []) ++ active.filterMap (Run.at i))
  | [], active', d, h, _, _, _ => by
    unfold addTlv at h
    cases h
    refine ⟨?_, ?_, by simp, ?_⟩
    · intro r hr
      rw [List.append_nil, List.mem_singleton] at hr
      subst hr
      exact wf_new t j
    · intro r hr
      rw [List.mem_singleton] at hr
      subst hr
      exact Or.inr ⟨rfl, rfl, rfl⟩
    · intro i
      simp only [List.append_nil, List.filterMap_cons, List.filterMap_nil, at_new]
      by_cases h : i = j <;> simp [h]
  | r :: rs, active', d, h, hw, hl, hp => by
    unfold addTlv at h
    by_cases ht : r.type = t.type ∧ r.ext = t.ext
    · rw [if_pos ht] at h
      by_cases hc : r.last + 1 ≠ j ∨ (r.values.getLastD []).length ≠ t.value.length
      · rw [if_pos hc] at h
        cases h
        refine ⟨?_, ?_, ?_, ?_⟩
        · intro x hx
          simp only [List.cons_append, List.mem_cons, List.mem_append, List.not_mem_nil, or_false] at hx
          rcases hx with rfl | hx | rfl
          · exact wf_new t j
          · exact hw x (List.mem_cons_of_mem _ hx)
          · exact hw x List.mem_cons_self
        · intro x hx
          rcases List.mem_cons.1 hx with rfl | hx
          · exact Or.inr ⟨rfl, rfl, rfl⟩
          · exact Or.inl (List.mem_cons_of_mem _ hx)
        · intro x hx
          rw [List.mem_singleton.1 hx]
          exact List.mem_cons_self
        · intro i
          have e : (⟨t.type, t.ext, j, j, [t.value], true⟩ :: rs ++ [r]).filterMap (Run.at i) =
              (if i = j then [t] else []) ++ (rs ++ [r]).filterMap (Run.at i) := by
            rw [List.cons_append, List.filterMap_cons, at_new]
            by_cases h : i = j <;> simp [h]
          rw [e]
          apply List.Perm.append_left
          apply List.Perm.filterMap
          exact List.perm_append_singleton r rs
      · rw [if_neg hc] at h
        cases h
        have hc1 : r.last + 1 = j := Decidable.not_not.1 fun h => hc (Or.inl h)
        have hc2 : (r.values.getLastD []).length = t.value.length := Decidable.not_not.1 fun h => hc (Or.inr h)
        subst hc1
        obtain ⟨p, hpe, hd, hm⟩ := hp r List.mem_cons_self rfl
        have hs : sameValue prev t = decide (t.value = r.values.getLastD []) := by
          rw [hpe]
          exact sameValue_eq hd hm (by unfold ATlv.full; rw [ht.1, ht.2])
        have hwr := hw r List.mem_cons_self
        refine ⟨?_, ?_, by simp, ?_⟩
        · intro x hx
          rw [List.append_nil] at hx
          rcases List.mem_cons.1 hx with rfl | hx
          · exact wf_extend hwr hc2 hs
          · exact hw x (List.mem_cons_of_mem _ hx)
        · intro x hx
          rcases List.mem_cons.1 hx with rfl | hx
          · exact Or.inr ⟨ht.1, ht.2, rfl⟩
          · exact Or.inl (List.mem_cons_of_mem _ hx)
        · intro i
          rw [List.append_nil, List.filterMap_cons, at_extend hwr t _ ht]
          by_cases hi : i = r.last + 1
          · rw [if_pos hi, if_pos hi]
            have : r.at i = none := by
              unfold Run.at
              rw [if_neg (by omega)]
            rw [List.filterMap_cons, this]
            exact List.Perm.refl _
          · rw [if_neg hi, if_neg hi, List.filterMap_cons]
            exact List.Perm.refl _
    · rw [if_neg ht] at h
      obtain ⟨rs', d', h'⟩ : ∃ rs' d', addTlv prev j rs t = (rs', d') := ⟨_, _, rfl⟩
      rw [h'] at h
      cases h
      obtain ⟨i1, i2, i3, i4⟩ := addTlv_spec h' (fun x hx => hw x (List.mem_cons_of_mem _ hx)) (fun x hx => hl x (List.mem_cons_of_mem _ hx))
        (fun x hx => hp x (List.mem_cons_of_mem _ hx))
      refine ⟨?_, ?_, ?_, ?_⟩
      · intro x hx
        rw [List.cons_append] at hx
        rcases List.mem_cons.1 hx with rfl | hx
        · exact hw _ List.mem_cons_self
        · exact i1 x hx
      · intro x hx
        rcases List.mem_cons.1 hx with rfl | hx
        · exact Or.inl List.mem_cons_self
        · rcases i2 x hx with h | h
          · exact Or.inl (List.mem_cons_of_mem _ h)
          · exact Or.inr h
      · intro x hx
        exact List.mem_cons_of_mem _ (i3 x hx)
      · intro i
        rw [List.cons_append, List.filterMap_cons, List.filterMap_cons]
        cases r.at i with
        | none => exact i4 i
        | some v =>
          dsimp only
          exact ((i4 i).cons v).trans List.perm_middle.symm

theorem addTlvs_spec {prev : Option WAddr} {j : Nat} : ∀ (ts : List ATlv) {active done active' done' : List Run},
    addTlvs prev j ts (active, done) = (active', done') → Distinct ts → (∀ r ∈ active ++ done, r.WF) →
    (∀ r ∈ active, ∀ t ∈ ts, r.type = t.type → r.ext = t.ext → r.last < j) → (∀ r ∈ active ++ done, r.last ≤ j) → PrevOk prev j active →
    (∀ r ∈ active' ++ done', r.WF) ∧ (∀ r ∈ active' ++ done', r.last ≤ j) ∧
    ∀ i, ((active' ++ done').filterMap (Run.at i)).Perm ((if i = j then ts else []) ++ (active ++ done).filterMap (Run.at i))
  | [], active, done, active', done', h, _, hw, _, hl, _ => by
    unfold addTlvs at h
    cases h
    refine ⟨hw, hl, ?_⟩
    intro i
    have : (if i = j then ([] : List ATlv) else []) = [] := by split <;> rfl
    rw [this, List.nil_append]
  | t :: ts, active, done, active', done', h, hd, hw, hf, hl, hp => by
    unfold addTlvs at h
    obtain ⟨a1, d1, h1⟩ : ∃ a1 d1, addTlv prev j active t = (a1, d1) := ⟨_, _, rfl⟩
    rw [h1] at h
    dsimp only at h
    obtain ⟨s1, s2, s3, s4⟩ := addTlv_spec h1 (fun r hr => hw r (List.mem_append_left _ hr)) (fun r hr => hf r hr t List.mem_cons_self) hp
    obtain ⟨r1, r2, r3⟩ := addTlvs_spec ts h (List.pairwise_cons.1 hd).2
      (by
        intro r hr
        rcases List.mem_append.1 hr with hr | hr
        · exact s1 r (List.mem_append_left _ hr)
        · rcases List.mem_append.1 hr with hr | hr
          · exact hw r (List.mem_append_right _ hr)
          · exact s1 r (List.mem_append_right _ hr))
      (by
        intro r hr u hu e1 e2
        rcases s2 r hr with h | ⟨h1, h2, _⟩
        · exact hf r h u (List.mem_cons_of_mem _ hu) e1 e2
        · exact absurd (show t.full = u.full by unfold ATlv.full; rw [← h1, ← h2, e1, e2]) ((List.pairwise_cons.1 hd).1 u hu))
      (by
        intro r hr
        rcases List.mem_append.1 hr with hr | hr
        · rcases s2 r hr with h | ⟨_, _, h⟩
          · exact hl r (List.mem_append_left _ h)
          · omega
        · rcases List.mem_append.1 hr with hr | hr
          · exact hl r (List.mem_append_right _ hr)
          · exact hl r (List.mem_append_left _ (s3 r hr)))
      (by
        intro r hr e
        rcases s2 r hr with h | ⟨_, _, h⟩
        · exact hp r h e
        · omega)
    refine ⟨r1, r2, ?_⟩
    intro i
    refine (r3 i).trans ?_
    have e1 : (a1 ++ (done ++ d1)).filterMap (Run.at i) = a1.filterMap (Run.at i) ++ (done.filterMap (Run.at i) ++ d1.filterMap (Run.at i)) := by
      simp only [List.filterMap_append]
    have p1 : ((a1 ++ (done ++ d1)).filterMap (Run.at i)).Perm ((if i = j then [t] else []) ++ (active ++ done).filterMap (Run.at i)) := by
      rw [e1]
      have p2 : (a1.filterMap (Run.at i) ++ (done.filterMap (Run.at i) ++ d1.filterMap (Run.at i))).Perm
          ((a1.filterMap (Run.at i) ++ d1.filterMap (Run.at i)) ++ done.filterMap (Run.at i)) := by
        rw [List.append_assoc]
        exact List.Perm.append_left _ List.perm_append_comm
      refine p2.trans ?_
      rw [← List.filterMap_append]
      refine ((s4 i).append_right _).trans ?_
      rw [List.append_assoc, ← List.filterMap_append]
    refine (List.Perm.append_left _ p1).trans ?_
    by_cases hi : i = j
    · simp only [if_pos hi]
      rw [← List.append_assoc]
      exact List.Perm.append_right _ (List.perm_append_singleton t ts)
    · simp only [if_neg hi]
      exact List.Perm.refl _

theorem collect_spec : ∀ (as : List WAddr) (prev : Option WAddr) (j : Nat) {active done active' done' : List Run},
    collect prev j as (active, done) = (active', done') → (∀ a ∈ as, Distinct a.tlvs) → (∀ r ∈ active ++ done, r.WF) →
    (∀ r ∈ active ++ done, r.last < j) → PrevOk prev j active →
    (∀ r ∈ active' ++ done', r.WF) ∧ (∀ r ∈ active' ++ done', r.last < j + as.length) ∧
    (∀ i, i < j → ((active' ++ done').filterMap (Run.at i)).Perm ((active ++ done).filterMap (Run.at i))) ∧
    ∀ i (h : i < as.length), ((active' ++ done').filterMap (Run.at (j + i))).Perm as[i].tlvs
  | [], prev, j, active, done, active', done', h, _, hw, hl, _ => by
    unfold collect at h
    cases h
    exact ⟨hw, by simpa using hl, fun _ _ => List.Perm.refl _, by simp⟩
  | a :: as, prev, j, active, done, active', done', h, hd, hw, hl, hp => by
    unfold collect at h
    obtain ⟨a1, d1, h1⟩ : ∃ a1 d1, addTlvs prev j a.tlvs (active, done) = (a1, d1) := ⟨_, _, rfl⟩
    rw [h1] at h
    obtain ⟨s1, s2, s3⟩ := addTlvs_spec a.tlvs h1 (hd a List.mem_cons_self) hw
      (fun r hr t ht _ _ => hl r (List.mem_append_left _ hr)) (fun r hr => Nat.le_of_lt (hl r hr)) hp
    have hj : ((a1 ++ d1).filterMap (Run.at j)).Perm a.tlvs := by
      have := s3 j
      rw [if_pos rfl] at this
      have h0 : (active ++ done).filterMap (Run.at j) = [] := by
        rw [List.filterMap_eq_nil_iff]
        intro r hr
        unfold Run.at
        have := hl r hr
        rw [if_neg (by omega)]
      rw [h0, List.append_nil] at this
      exact this
    obtain ⟨r1, r2, r3, r4⟩ := collect_spec as (some a) (j + 1) h (fun x hx => hd x (List.mem_cons_of_mem _ hx)) s1
      (fun r hr => Nat.lt_succ_of_le (s2 r hr)) (by
        intro r hr e
        refine ⟨a, rfl, hd a List.mem_cons_self, ?_⟩
        apply hj.subset
        rw [List.mem_filterMap]
        refine ⟨r, List.mem_append_left _ hr, ?_⟩
        have : r.last = j := by omega
        rw [← this]
        exact at_last (s1 r (List.mem_append_left _ hr)))
    refine ⟨r1, ?_, ?_, ?_⟩
    · intro r hr
      have := r2 r hr
      rw [List.length_cons]
      omega
    · intro i hi
      refine (r3 i (by omega)).trans ?_
      have := s3 i
      rw [if_neg (by omega)] at this
      exact this
    · intro i hi
      cases i with
      | zero => exact (r3 j (by omega)).trans hj
      | succ i =>
        have := r4 i (by simpa using hi)
        rw [show j + (i + 1) = j + 1 + i by omega]
        exact this

/-- the TLVs written for a block: every address gets exactly its TLVs -/
theorem runs_spec (prev : Option WAddr) {as : List WAddr} (hd : ∀ a ∈ as, Distinct a.tlvs) :
    (∀ r ∈ runs prev as, r.WF ∧ r.last < as.length) ∧ ∀ i (h : i < as.length), ((runs prev as).filterMap (Run.at i)).Perm as[i].tlvs := by
  obtain ⟨active, done, h⟩ : ∃ active done, collect prev 0 as ([], []) = (active, done) := ⟨_, _, rfl⟩
  obtain ⟨h1, h2, -, h4⟩ := collect_spec as prev 0 h hd (by simp) (by simp) (by intro r hr; simp at hr)
  unfold runs
  rw [h]
  dsimp only
  constructor
  · intro r hr
    have hr : r ∈ active ++ done := by
      rw [List.mem_append] at hr ⊢
      exact hr.symm
    have := h2 r hr
    exact ⟨h1 r hr, by omega⟩
  · intro i hi
    have := h4 i hi
    rw [Nat.zero_add] at this
    refine List.Perm.trans ?_ this
    exact List.Perm.filterMap _ List.perm_append_comm

end Verif.Writer
