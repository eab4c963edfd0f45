import Verif.Olsr.Content
import Verif.Codec.Props

namespace Verif.Olsr
open Verif.Netaddr (Netaddr AF_INET AF_INET6)
open Verif.Codec (MetricField metricEncode metricDecode metricSetFlag metricHasFlag metricMax metricInfinite metricMin specMetric
  linkmetricFlags C04_metric_encode_least C04_metric_flags_independent C04_metric_encode_rejects)

/-! ### Folds -/

theorem getD_set (c : List Nat) (i v k x : Nat) : (c.set i v).getD k x = if i = k ∧ k < c.length then v else c.getD k x := by
  rw [List.getD_eq_getElem?_getD, List.getD_eq_getElem?_getD, List.getElem?_set]
  by_cases h : i = k
  · subst h
    rw [if_pos rfl]
    by_cases h2 : i < c.length
    · rw [if_pos h2, if_pos ⟨rfl, h2⟩]
      rfl
    · rw [if_neg h2, if_neg fun hh => h2 hh.2, List.getElem?_eq_none (by omega)]
  · rw [if_neg h, if_neg fun hh => h hh.1]

/-- the TLV gives a value for the domain with index `k` -/
def Relevant (doms : List Domain) (flag k : Nat) (t : ATlv) : Prop :=
  t.type = .linkMetric ∧ metricHasFlag (metricOf t) flag = true ∧ ∃ d, getByExt doms t.ext = some d ∧ d.index = k

theorem readStep_length (doms : List Domain) (flag : Nat) (c : List Nat) (t : ATlv) : (readStep doms flag c t).length = c.length := by
  unfold readStep
  split
  · split
    · rfl
    · split
      · exact List.length_set
      · rfl
  · rfl

theorem readStep_other (doms : List Domain) (flag k x : Nat) (c : List Nat) (t : ATlv) (h : ¬ Relevant doms flag k t) :
    (readStep doms flag c t).getD k x = c.getD k x := by
  unfold readStep
  by_cases h1 : t.type = .linkMetric
  · rw [if_pos h1]
    cases h2 : getByExt doms t.ext with
    | none => rfl
    | some d =>
      dsimp only
      by_cases h3 : metricHasFlag (metricOf t) flag = true
      · rw [if_pos h3, getD_set, if_neg]
        exact fun hh => h ⟨h1, h3, d, h2, hh.1⟩
      · rw [if_neg h3]
  · rw [if_neg h1]

theorem readStep_relevant (doms : List Domain) (flag k x : Nat) (c : List Nat) (t : ATlv) (hk : k < c.length) (h : Relevant doms flag k t) :
    (readStep doms flag c t).getD k x = metricDecode (metricOf t) := by
  obtain ⟨h1, h2, d, h3, h4⟩ := h
  unfold readStep
  rw [if_pos h1, h3]
  dsimp only
  rw [if_pos h2, getD_set, if_pos ⟨h4, hk⟩]

theorem readFold_none (doms : List Domain) (flag k x : Nat) (tlvs : List ATlv) (c : List Nat) (h : ∀ t ∈ tlvs, ¬ Relevant doms flag k t) :
    (tlvs.foldl (readStep doms flag) c).getD k x = c.getD k x := by
  induction tlvs generalizing c with
  | nil => rfl
  | cons t tlvs ih =>
    rw [List.foldl_cons, ih _ fun t ht => h t (List.mem_cons_of_mem _ ht), readStep_other]
    exact h t (List.mem_cons_self ..)

theorem readFold_some (doms : List Domain) (flag k x v : Nat) (tlvs : List ATlv) (c : List Nat) (hk : k < c.length)
    (hv : ∀ t ∈ tlvs, Relevant doms flag k t → metricDecode (metricOf t) = v) (h : c.getD k x = v ∨ ∃ t ∈ tlvs, Relevant doms flag k t) :
    (tlvs.foldl (readStep doms flag) c).getD k x = v := by
  induction tlvs generalizing c with
  | nil =>
    rcases h with h | ⟨t, ht, _⟩
    · exact h
    · cases ht
  | cons t tlvs ih =>
    rw [List.foldl_cons]
    refine ih _ (by rw [readStep_length]; exact hk) (fun t ht => hv t (List.mem_cons_of_mem _ ht)) ?_
    by_cases hr : Relevant doms flag k t
    · left
      rw [readStep_relevant doms flag k x c t hk hr]
      exact hv t (List.mem_cons_self ..) hr
    · rw [readStep_other doms flag k x c t hr]
      rcases h with h | ⟨t', ht', hr'⟩
      · exact .inl h
      · rcases List.mem_cons.1 ht' with rfl | ht'
        · exact absurd hr' hr
        · exact .inr ⟨t', ht', hr'⟩

theorem readCost_length (doms : List Domain) (flag : Nat) (tlvs : List ATlv) : (readCost doms flag tlvs).length = 4 := by
  have : ∀ c : List Nat, (tlvs.foldl (readStep doms flag) c).length = c.length := by
    induction tlvs with
    | nil => exact fun _ => rfl
    | cons t tlvs ih =>
      intro c
      rw [List.foldl_cons, ih, readStep_length]
  unfold readCost
  rw [this, List.length_replicate]

theorem readCost_none (doms : List Domain) (flag k : Nat) (tlvs : List ATlv) (h : ∀ t ∈ tlvs, ¬ Relevant doms flag k t) :
    (readCost doms flag tlvs).getD k metricInfinite = metricInfinite := by
  unfold readCost
  rw [readFold_none _ _ _ _ _ _ h, List.getD_eq_getElem?_getD, List.getElem?_replicate]
  split <;> rfl

theorem readCost_some (doms : List Domain) (flag k v : Nat) (tlvs : List ATlv) (hk : k < 4)
    (hv : ∀ t ∈ tlvs, Relevant doms flag k t → metricDecode (metricOf t) = v) (h : ∃ t ∈ tlvs, Relevant doms flag k t) :
    (readCost doms flag tlvs).getD k metricInfinite = v :=
  readFold_some _ _ _ _ _ _ _ (by rw [List.length_replicate]; exact hk) hv (.inr h)

theorem find_unique {β : Type} (p : β → Bool) (l : List β) (t : β) (h1 : t ∈ l) (h2 : p t = true) (h3 : ∀ x ∈ l, p x = true → x = t) :
    l.find? p = some t := by
  cases hf : l.find? p with
  | none => exact absurd h2 (List.find?_eq_none.1 hf t h1)
  | some x => rw [h3 x (List.mem_of_find?_eq_some hf) (List.find?_some hf)]

theorem find_absent {β : Type} (p : β → Bool) (l : List β) (h : ∀ x ∈ l, p x = false) : l.find? p = none :=
  List.find?_eq_none.2 fun x hx hp => by rw [h x hx] at hp; cases hp

/-! ### Domains -/

/-- the domains as `nhdp_domain_add` creates them (nhdp_domain.c:1090-1150; they are never removed one by one): between one and four, numbered in the order of the list, with different
extensions -/
structure Domains (doms : List Domain) : Prop where
  index : ∀ (i : Nat) (d : Domain), doms[i]? = some d → d.index = i
  ext : ∀ d e : Domain, d ∈ doms → e ∈ doms → d.ext = e.ext → d = e
  nonempty : doms ≠ []
  few : doms.length ≤ 4

theorem Domains.lt {doms : List Domain} (h : Domains doms) {d : Domain} (hd : d ∈ doms) : d.index < doms.length := by
  obtain ⟨i, hi, he⟩ := List.mem_iff_getElem.1 hd
  have := h.index i d (by rw [List.getElem?_eq_getElem hi, he])
  omega

theorem Domains.at {doms : List Domain} (h : Domains doms) {d : Domain} (hd : d ∈ doms) : doms[d.index]? = some d := by
  obtain ⟨i, hi, he⟩ := List.mem_iff_getElem.1 hd
  have h1 : doms[i]? = some d := by rw [List.getElem?_eq_getElem hi, he]
  rw [h.index i d h1]
  exact h1

theorem Domains.inj {doms : List Domain} (h : Domains doms) {d e : Domain} (hd : d ∈ doms) (he : e ∈ doms) (hi : d.index = e.index) : d = e := by
  have h1 := h.at hd
  rw [hi, h.at he] at h1
  injection h1 with h1
  exact h1.symm

theorem getByExt_some {doms : List Domain} {x : Nat} {d : Domain} (h : getByExt doms x = some d) : d ∈ doms ∧ d.ext = x := by
  unfold getByExt at h
  exact ⟨List.mem_of_find?_eq_some h, by simpa using List.find?_some h⟩

theorem getByExt_self {doms : List Domain} (h : Domains doms) {d : Domain} (hd : d ∈ doms) : getByExt doms d.ext = some d := by
  unfold getByExt
  refine find_unique _ _ _ hd (by simp) fun x hx hp => ?_
  exact h.ext x d hx hd (by simpa using hp)

/-! ### Metrics -/

/-- value `v` is the smallest representable metric (RFC 7181, 6.2) that is not smaller than `m` -/
def Advertised (m v : Nat) : Prop := ∃ c, c < 4096 ∧ v = specMetric c ∧ m ≤ v ∧ ∀ c', m ≤ specMetric c' → c ≤ c'

theorem encode_advertised {m : Nat} {f : MetricField} (hm : m ≤ metricMax) (h : metricEncode m = some f) :
    f.b0 < 16 ∧ 0 < m ∧ Advertised m (metricDecode f) := by
  have h0 : 0 < m := by
    rcases Nat.eq_zero_or_pos m with h0 | h0
    · rw [(C04_metric_encode_rejects m).2 (.inl h0)] at h
      cases h
    · exact h0
  obtain ⟨f', e, b0, b1, hle, hl⟩ := C04_metric_encode_least m h0 hm
  rw [h] at e
  injection e with e
  subst e
  have hd : metricDecode f = specMetric (Codec.metricCode f) := by
    rw [Codec.C04_metric_decode_is_rfc7181 f b1, Nat.mod_eq_of_lt b0]
    rfl
  refine ⟨b0, h0, Codec.metricCode f, ?_, hd, hle, fun c' hc => (hl c').2 hc⟩
  unfold Codec.metricCode
  omega

theorem metricOf_tlv (d : Domain) (f : MetricField) : metricOf (metricTlv d f) = f := rfl

theorem flag_in (f : MetricField) (h : f.b0 < 16) : metricDecode (metricSetFlag f INCOMING_NEIGH) = metricDecode f ∧
    metricHasFlag (metricSetFlag f INCOMING_NEIGH) INCOMING_NEIGH = true ∧ metricHasFlag (metricSetFlag f INCOMING_NEIGH) OUTGOING_NEIGH = false := by
  obtain ⟨a, b⟩ := f
  have h : a < 16 := h
  obtain ⟨h1, _, h3, _, h5⟩ := C04_metric_flags_independent a b (by omega) INCOMING_NEIGH (by decide)
  refine ⟨h1, h3, (h5 OUTGOING_NEIGH (by decide) (by decide)).1.trans ?_⟩
  have : ∀ a < 16, (a &&& OUTGOING_NEIGH != 0) = false := by decide +kernel
  exact this a h

theorem flag_out (f : MetricField) (h : f.b0 < 16) : metricDecode (metricSetFlag f OUTGOING_NEIGH) = metricDecode f ∧
    metricHasFlag (metricSetFlag f OUTGOING_NEIGH) OUTGOING_NEIGH = true ∧ metricHasFlag (metricSetFlag f OUTGOING_NEIGH) INCOMING_NEIGH = false := by
  obtain ⟨a, b⟩ := f
  have h : a < 16 := h
  obtain ⟨h1, _, h3, _, h5⟩ := C04_metric_flags_independent a b (by omega) OUTGOING_NEIGH (by decide)
  refine ⟨h1, h3, (h5 INCOMING_NEIGH (by decide) (by decide)).1.trans ?_⟩
  have : ∀ a < 16, (a &&& INCOMING_NEIGH != 0) = false := by decide +kernel
  exact this a h

/-- a flagged metric differs from every metric without flags -/
theorem flag_ne (f g : MetricField) (hg : g.b0 < 16) (hf : f.b0 < 16) : metricSetFlag f INCOMING_NEIGH ≠ g := by
  intro h
  have h1 := (flag_in f hf).2.1
  rw [h] at h1
  have : ∀ a < 16, (a &&& INCOMING_NEIGH != 0) = false := by decide +kernel
  have h2 := this g.b0 hg
  unfold metricHasFlag at h1
  rw [h1] at h2
  cases h2

/-- the neighbor is mentioned in the TC for this domain -/
def NeighData.Usable (n : NeighData) : Prop := n.mpr = true ∧ 0 < n.metricIn ∧ n.metricIn ≤ metricMax

/-- the TLVs of one domain -/
theorem neighMetricTlvs_cases (d : Domain) (n : NeighData) :
    (¬ n.Usable ∧ neighMetricTlvs d n = []) ∨
    (n.Usable ∧ ∃ fi, fi.b0 < 16 ∧ Advertised n.metricIn (metricDecode fi) ∧
      ((¬ (0 < n.metricOut ∧ n.metricOut ≤ metricMax) ∧ neighMetricTlvs d n = [metricTlv d (metricSetFlag fi INCOMING_NEIGH)]) ∨
      (0 < n.metricOut ∧ n.metricOut ≤ metricMax ∧ ∃ fo, fo.b0 < 16 ∧ Advertised n.metricOut (metricDecode fo) ∧
        neighMetricTlvs d n = [metricTlv d (metricSetFlag fi INCOMING_NEIGH), metricTlv d (metricSetFlag fo OUTGOING_NEIGH)]))) := by
  unfold neighMetricTlvs
  cases hm : n.mpr with
  | false =>
    refine .inl ⟨fun h => ?_, rfl⟩
    have := h.1
    rw [hm] at this
    cases this
  | true =>
    rw [if_neg (by decide)]
    by_cases h1 : n.metricIn > metricMax
    · rw [if_pos h1]
      exact .inl ⟨fun h => absurd h.2.2 (by omega), rfl⟩
    · rw [if_neg h1]
      cases he : metricEncode n.metricIn with
      | none =>
        refine .inl ⟨fun h => ?_, rfl⟩
        rcases (C04_metric_encode_rejects _).1 he with h0 | h0
        · have := h.2.1
          omega
        · have := h.2.2
          unfold metricInfinite at h0
          unfold metricMax at this
          omega
      | some fi =>
        obtain ⟨b0, h0, hA⟩ := encode_advertised (by omega) he
        refine .inr ⟨⟨hm, h0, by omega⟩, fi, b0, hA, ?_⟩
        dsimp only
        cases ho : metricEncode n.metricOut with
        | none =>
          refine .inl ⟨fun h => ?_, rfl⟩
          rcases (C04_metric_encode_rejects _).1 ho with h0 | h0
          · have := h.1
            omega
          · have := h.2
            unfold metricInfinite at h0
            unfold metricMax at this
            omega
        | some fo =>
          dsimp only
          by_cases h2 : n.metricOut ≤ metricMax
          · obtain ⟨c0, d0, hB⟩ := encode_advertised h2 ho
            rw [if_neg (flag_ne fi fo c0 b0), if_pos h2]
            exact .inr ⟨d0, h2, fo, c0, hB, rfl⟩
          · have h3 : metricSetFlag fi INCOMING_NEIGH ≠ fo := by
              have : metricEncode n.metricOut = some ⟨0x0f, 0xff⟩ := by
                have hlt : n.metricOut < metricInfinite := by
                  rcases Nat.lt_or_ge n.metricOut metricInfinite with h | h
                  · exact h
                  · rw [(C04_metric_encode_rejects _).2 (.inr h)] at ho
                    cases ho
                have hc : ¬ (n.metricOut < metricMin ∨ n.metricOut ≥ metricInfinite) := by
                  unfold metricMin
                  omega
                unfold metricEncode
                rw [if_neg hc, if_pos (by omega)]
              rw [this] at ho
              injection ho with ho
              exact flag_ne fi fo (by rw [← ho]; decide) b0
            rw [if_neg h3, if_neg h2]
            exact .inl ⟨fun h => h2 h.2, rfl⟩

theorem neighMetricTlvs_type (d : Domain) (n : NeighData) (t : ATlv) (h : t ∈ neighMetricTlvs d n) : t.type = .linkMetric ∧ t.ext = d.ext := by
  rcases neighMetricTlvs_cases d n with ⟨_, h1⟩ | ⟨_, fi, _, _, ⟨_, h1⟩ | ⟨_, _, fo, _, _, h1⟩⟩
  · rw [h1] at h
    cases h
  · rw [h1] at h
    simp only [List.mem_cons, List.not_mem_nil, or_false] at h
    subst h
    exact ⟨rfl, rfl⟩
  · rw [h1] at h
    simp only [List.mem_cons, List.not_mem_nil, or_false] at h
    rcases h with rfl | rfl <;> exact ⟨rfl, rfl⟩

end Verif.Olsr
