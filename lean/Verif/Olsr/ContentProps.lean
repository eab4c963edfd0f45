import Verif.Olsr.ContentLemmas
import Verif.Olsr.LanProps
import Verif.Tc.ReadSpec

/-
C63: what a router says in a TC about its neighbors and attached networks is what the receivers read.
-/
namespace Verif.Olsr
open Verif.Netaddr (Netaddr AF_INET AF_INET6)
open Verif.Codec (MetricField metricEncode metricDecode metricSetFlag metricHasFlag metricMax metricInfinite specMetric)
open Verif.Tc (Key)

/-! ### Neighbors -/

/-- the metric the receiver has to use: none for a metric which is not valid, else the value of the TLV -/
def Received (valid : Prop) (m v : Nat) : Prop := (valid → Advertised m v) ∧ (¬ valid → v = metricInfinite)

theorem relevant_neigh {sdoms rdoms : List Domain} (hr : Domains rdoms) {nd : Nat → NeighData} {v : Nat} {flag : Nat} {r : Domain} (hrm : r ∈ rdoms)
    {t : ATlv} (ht : t ∈ neighTlvs v sdoms nd) (h : Relevant rdoms flag r.index t) :
    ∃ s ∈ sdoms, s.ext = r.ext ∧ t ∈ neighMetricTlvs s (nd s.index) := by
  obtain ⟨h1, h2, d, h3, h4⟩ := h
  obtain ⟨hd, he⟩ := getByExt_some h3
  have hdr : d = r := hr.inj hd hrm h4
  subst hdr
  rcases List.mem_cons.1 ht with rfl | ht
  · cases h1
  · obtain ⟨s, hsm, hts⟩ := List.mem_flatMap.1 ht
    exact ⟨s, hsm, by rw [he, (neighMetricTlvs_type s _ t hts).2], hts⟩

theorem neigh_relevant {sdoms rdoms : List Domain} (hr : Domains rdoms) {nd : Nat → NeighData} {v : Nat} {flag : Nat} {r s : Domain} (hrm : r ∈ rdoms)
    (hsm : s ∈ sdoms) (he : s.ext = r.ext) {t : ATlv} (ht : t ∈ neighMetricTlvs s (nd s.index)) (hf : metricHasFlag (metricOf t) flag = true) :
    t ∈ neighTlvs v sdoms nd ∧ Relevant rdoms flag r.index t := by
  refine ⟨List.mem_cons_of_mem _ (List.mem_flatMap.2 ⟨s, hsm, ht⟩), (neighMetricTlvs_type s _ t ht).1, hf, r, ?_, rfl⟩
  rw [(neighMetricTlvs_type s _ t ht).2, he]
  exact getByExt_self hr hrm

/-- C63: for every neighbor address in a TC the receiver gets the kind of the address, and for every domain with the same
extension the metrics of the sender, rounded up to the next representable value; in domains which only one of the two knows,
and for neighbors which did not select the sender or whose incoming metric is not valid
(`C63_incoming_counterexample`), there is no metric.  The TLVs may arrive in any order, and the
domains may have different numbers at sender and receiver. -/
theorem C63_neighbor {sdoms rdoms : List Domain} (hs : Domains sdoms) (hr : Domains rdoms) (nd : Nat → NeighData) (v : Nat) (hv : v < 256)
    (addr : Netaddr) (mprtypes : List Nat) (tlvs : List ATlv) (hp : tlvs.Perm (neighTlvs v sdoms nd)) :
    ∃ a, readAddress rdoms mprtypes addr tlvs = some a ∧ a.addr = addr ∧ a.nbr.map UInt8.toNat = some v ∧ a.gw = none ∧
      ∀ r ∈ rdoms,
        (∀ s ∈ sdoms, s.ext = r.ext →
          Received (nd s.index).Usable (nd s.index).metricIn (a.costIn.getD r.index metricInfinite) ∧
          Received ((nd s.index).Usable ∧ 0 < (nd s.index).metricOut ∧ (nd s.index).metricOut ≤ metricMax) (nd s.index).metricOut (a.costOut.getD r.index metricInfinite)) ∧
        ((∀ s ∈ sdoms, s.ext ≠ r.ext) → a.costIn.getD r.index metricInfinite = metricInfinite ∧ a.costOut.getD r.index metricInfinite = metricInfinite) := by
  have htype : ∀ t ∈ tlvs, t = ⟨.nbrAddrType, 0, [v]⟩ ∨ t.type = .linkMetric := by
    intro t ht
    rcases List.mem_cons.1 (hp.mem_iff.1 ht) with h | h
    · exact .inl h
    · obtain ⟨s, _, hts⟩ := List.mem_flatMap.1 h
      exact .inr (neighMetricTlvs_type s _ t hts).1
  have hgw : readGatewayTlv rdoms mprtypes addr tlvs = some none := by
    unfold readGatewayTlv
    rw [find_absent]
    intro t ht
    rcases htype t ht with rfl | h
    · rfl
    · rw [h]
      rfl
  have hnbr : tlvs.find? (fun t => t.type = .nbrAddrType) = some ⟨.nbrAddrType, 0, [v]⟩ := by
    refine find_unique _ _ _ (hp.mem_iff.2 (List.mem_cons_self ..)) rfl fun t ht hh => ?_
    rcases htype t ht with h | h
    · exact h
    · rw [h] at hh
      cases hh
  unfold readAddress
  rw [hgw, hnbr]
  refine ⟨_, rfl, rfl, ?_, rfl, fun r hrm => ⟨fun s hsm he => ?_, fun hno => ⟨?_, ?_⟩⟩⟩
  · show some (UInt8.ofNat v).toNat = some v
    rw [UInt8.toNat_ofNat_of_lt' (by simpa using hv)]
  · have hk : r.index < 4 := Nat.lt_of_lt_of_le (hr.lt hrm) hr.few
    have only : ∀ flag, ∀ t ∈ tlvs, Relevant rdoms flag r.index t → t ∈ neighMetricTlvs s (nd s.index) := by
      intro flag t ht hrel
      obtain ⟨s', hs', he', hts⟩ := relevant_neigh hr hrm (hp.mem_iff.1 ht) hrel
      rw [← hs.ext s' s hs' hsm (he'.trans he.symm)]
      exact hts
    have into : ∀ flag, ∀ t ∈ neighMetricTlvs s (nd s.index), metricHasFlag (metricOf t) flag = true → t ∈ tlvs ∧ Relevant rdoms flag r.index t := by
      intro flag t ht hf
      obtain ⟨h1, h2⟩ := neigh_relevant (v := v) hr hrm hsm he ht hf
      exact ⟨hp.mem_iff.2 h1, h2⟩
    show Received _ _ ((readCost rdoms INCOMING_NEIGH tlvs).getD r.index metricInfinite) ∧ Received _ _ ((readCost rdoms OUTGOING_NEIGH tlvs).getD r.index metricInfinite)
    rcases neighMetricTlvs_cases s (nd s.index) with ⟨hu, h1⟩ | ⟨hu, fi, b0, hA, hrest⟩
    · have none : ∀ flag, (readCost rdoms flag tlvs).getD r.index metricInfinite = metricInfinite := by
        intro flag
        refine readCost_none _ _ _ _ fun t ht hrel => ?_
        have := only flag t ht hrel
        rw [h1] at this
        cases this
      exact ⟨⟨fun h => absurd h hu, fun _ => none _⟩, ⟨fun h => absurd h.1 hu, fun _ => none _⟩⟩
    · obtain ⟨i1, i2, i3⟩ := flag_in fi b0
      rcases hrest with ⟨ho, h1⟩ | ⟨ho1, ho2, fo, c0, hB, h1⟩
      · have hin : (readCost rdoms INCOMING_NEIGH tlvs).getD r.index metricInfinite = metricDecode fi := by
          refine readCost_some _ _ _ _ _ hk (fun t ht hrel => ?_) ⟨_, into INCOMING_NEIGH (metricTlv s (metricSetFlag fi INCOMING_NEIGH)) (by rw [h1]; exact List.mem_cons_self ..) i2⟩
          have := only _ t ht hrel
          rw [h1] at this
          simp only [List.mem_cons, List.not_mem_nil, or_false] at this
          subst this
          exact i1
        have hout : (readCost rdoms OUTGOING_NEIGH tlvs).getD r.index metricInfinite = metricInfinite := by
          refine readCost_none _ _ _ _ fun t ht hrel => ?_
          have := only _ t ht hrel
          rw [h1] at this
          simp only [List.mem_cons, List.not_mem_nil, or_false] at this
          subst this
          have := hrel.2.1
          rw [metricOf_tlv, i3] at this
          cases this
        exact ⟨⟨fun _ => hin ▸ hA, fun h => absurd hu h⟩, ⟨fun h => absurd h.2 ho, fun _ => hout⟩⟩
      · obtain ⟨o1, o2, o3⟩ := flag_out fo c0
        have hin : (readCost rdoms INCOMING_NEIGH tlvs).getD r.index metricInfinite = metricDecode fi := by
          refine readCost_some _ _ _ _ _ hk (fun t ht hrel => ?_) ⟨_, into INCOMING_NEIGH (metricTlv s (metricSetFlag fi INCOMING_NEIGH)) (by rw [h1]; exact List.mem_cons_self ..) i2⟩
          have := only _ t ht hrel
          rw [h1] at this
          simp only [List.mem_cons, List.not_mem_nil, or_false] at this
          rcases this with rfl | rfl
          · exact i1
          · have := hrel.2.1
            rw [metricOf_tlv, o3] at this
            cases this
        have hout : (readCost rdoms OUTGOING_NEIGH tlvs).getD r.index metricInfinite = metricDecode fo := by
          refine readCost_some _ _ _ _ _ hk (fun t ht hrel => ?_)
            ⟨_, into OUTGOING_NEIGH (metricTlv s (metricSetFlag fo OUTGOING_NEIGH)) (by rw [h1]; exact List.mem_cons_of_mem _ (List.mem_cons_self ..)) o2⟩
          have := only _ t ht hrel
          rw [h1] at this
          simp only [List.mem_cons, List.not_mem_nil, or_false] at this
          rcases this with rfl | rfl
          · have := hrel.2.1
            rw [metricOf_tlv, i3] at this
            cases this
          · exact o1
        exact ⟨⟨fun _ => hin ▸ hA, fun h => absurd hu h⟩, ⟨fun _ => hout ▸ hB, fun h => absurd ⟨hu, ho1, ho2⟩ h⟩⟩
  · refine readCost_none _ _ _ _ fun t ht hrel => ?_
    obtain ⟨s, h1, h2, _⟩ := relevant_neigh hr hrm (hp.mem_iff.1 ht) hrel
    exact hno s h1 h2
  · refine readCost_none _ _ _ _ fun t ht hrel => ?_
    obtain ⟨s, h1, h2, _⟩ := relevant_neigh hr hrm (hp.mem_iff.1 ht) hrel
    exact hno s h1 h2

/-! ### Attached networks -/

theorem distStep_length (lan : Lan) (v : List Nat) (d : Domain) : (distStep lan v d).length = v.length := by
  unfold distStep
  split
  · rfl
  · exact List.length_set

theorem distFold_length (lan : Lan) (doms : List Domain) (v : List Nat) : (doms.foldl (distStep lan) v).length = v.length := by
  induction doms generalizing v with
  | nil => rfl
  | cons d doms ih => rw [List.foldl_cons, ih, distStep_length]

theorem distFold (lan : Lan) (doms : List Domain) (v : List Nat) (k : Nat) (hk : k < v.length)
    (h : v.getD k 0 = (lanData lan k).dist ∨ ∃ d ∈ doms, d.index = k ∧ lanField (lanData lan k) ≠ none) :
    (doms.foldl (distStep lan) v).getD k 0 = (lanData lan k).dist := by
  induction doms generalizing v with
  | nil =>
    rcases h with h | ⟨d, hd, _⟩
    · exact h
    · cases hd
  | cons d doms ih =>
    rw [List.foldl_cons]
    refine ih _ (by rw [distStep_length]; exact hk) ?_
    unfold distStep
    cases hf : lanField (lanData lan d.index) with
    | none =>
      rcases h with h | ⟨e, he, h1, h2⟩
      · exact .inl h
      · rcases List.mem_cons.1 he with rfl | he
        · rw [← h1] at h2
          exact absurd hf h2
        · exact .inr ⟨e, he, h1, h2⟩
    | some f =>
      dsimp only
      rw [getD_set]
      by_cases hi : d.index = k
      · rw [if_pos ⟨hi, hk⟩, hi]
        exact .inl rfl
      · rw [if_neg fun hh => hi hh.1]
        rcases h with h | ⟨e, he, h1, h2⟩
        · exact .inl h
        · rcases List.mem_cons.1 he with rfl | he
          · exact absurd h1 hi
          · exact .inr ⟨e, he, h1, h2⟩

theorem distVector_length (lan : Lan) (doms : List Domain) : (distVector lan doms).length = 4 := by
  unfold distVector
  rw [distFold_length, List.length_replicate]

theorem take_getD (v : List Nat) (n k : Nat) (h : k < n) : (v.take n).getD k 0 = v.getD k 0 := by
  rw [List.getD_eq_getElem?_getD, List.getD_eq_getElem?_getD, List.getElem?_take, if_pos h]

theorem mem_readDist (doms : List Domain) (hd : Domains doms) (v : List Nat) (l : List Domain) (hl : ∀ d ∈ l, d ∈ doms) (i : Nat) (y : Nat × Nat) :
    y ∈ readDist doms v i (l.map (·.ext)) ↔ ∃ j d, l[j]? = some d ∧ y = (d.index, if v.length = 1 then v.getD 0 0 else v.getD (i + j) 0) := by
  induction l generalizing i with
  | nil =>
    constructor
    · intro h
      cases h
    · rintro ⟨j, d, h, _⟩
      cases h
  | cons d l ih =>
    rw [List.map_cons]
    unfold readDist
    rw [getByExt_self hd (hl d (List.mem_cons_self ..))]
    dsimp only
    rw [List.mem_cons, ih fun e he => hl e (List.mem_cons_of_mem _ he)]
    constructor
    · rintro (h | ⟨j, e, h1, h2⟩)
      · exact ⟨0, d, rfl, h⟩
      · refine ⟨j + 1, e, h1, ?_⟩
        rw [h2, show i + (j + 1) = i + 1 + j by omega]
    · rintro ⟨j, e, h1, h2⟩
      cases j with
      | zero =>
        left
        injection h1 with h1
        subst h1
        exact h2
      | succ j =>
        right
        refine ⟨j, e, h1, ?_⟩
        rw [h2, show i + (j + 1) = i + 1 + j by omega]

theorem gwFold (costOut : List Nat) (dist : List (Nat × Nat)) (at_ : Tc.Att) (k x : Nat) (hc : k < at_.cost.length) (hd : k < at_.dist.length)
    (hx : ∀ y ∈ dist, y.1 = k → y.2 = x) (h : (at_.cost.getD k metricInfinite = costOut.getD k metricInfinite ∧ at_.dist.getD k 0 = x) ∨ ∃ y ∈ dist, y.1 = k) :
    (dist.foldl (fun (at_ : Tc.Att) d => { at_ with cost := at_.cost.set d.1 (costOut.getD d.1 Tc.INFINITE), dist := at_.dist.set d.1 d.2 }) at_).cost.getD k metricInfinite =
        costOut.getD k metricInfinite ∧
    (dist.foldl (fun (at_ : Tc.Att) d => { at_ with cost := at_.cost.set d.1 (costOut.getD d.1 Tc.INFINITE), dist := at_.dist.set d.1 d.2 }) at_).dist.getD k 0 = x := by
  induction dist generalizing at_ with
  | nil =>
    rcases h with h | ⟨y, hy, _⟩
    · exact h
    · cases hy
  | cons d dist ih =>
    rw [List.foldl_cons]
    refine ih _ (by show k < (List.set _ _ _).length; rw [List.length_set]; exact hc) (by show k < (List.set _ _ _).length; rw [List.length_set]; exact hd)
      (fun y hy => hx y (List.mem_cons_of_mem _ hy)) ?_
    show ((List.set _ _ _).getD _ _ = _ ∧ (List.set _ _ _).getD _ _ = _) ∨ _
    by_cases h1 : d.1 = k
    · left
      rw [getD_set, getD_set, if_pos ⟨h1, hc⟩, if_pos ⟨h1, hd⟩, h1]
      exact ⟨rfl, hx d (List.mem_cons_self ..) h1⟩
    · rw [getD_set, getD_set, if_neg fun hh => h1 hh.1, if_neg fun hh => h1 hh.1]
      rcases h with h | ⟨y, hy, hyk⟩
      · exact .inl h
      · rcases List.mem_cons.1 hy with rfl | hy
        · exact absurd hyk h1
        · exact .inr ⟨y, hy, hyk⟩

/-- a prefix without host bits -/
def HostFree (a : Netaddr) : Prop := a.WF ∧ a.prefixLen.toNat ≤ 128 ∧ Netaddr.truncate a = some a

/-- the key of an attached network: destination and source prefix of the same family, without host bits -/
structure LanKey (k : Key) : Prop where
  dst : HostFree k.1
  src : HostFree k.2
  family : k.1.type = AF_INET ∨ k.1.type = AF_INET6
  same : k.2.type = k.1.type

theorem hostFree_any {a : Netaddr} (h : HostFree a) (hp : a.prefixLen = 0) (ht : a.type = AF_INET ∨ a.type = AF_INET6) : anyOf a = a := by
  obtain ⟨hw, _, h⟩ := h
  unfold Netaddr.truncate at h
  rw [hp] at h
  have h1 : ¬ ((0 : UInt8).toNat / 8 > 16) := by decide
  have h2 : ¬ ((0 : UInt8).toNat % 8 ≠ 0) := by decide
  dsimp only at h
  rw [if_neg h1, if_neg h2] at h
  injection h with h
  have h3 : a.addr = List.replicate 16 0 := by
    rw [← h]
    rfl
  unfold anyOf
  rcases ht with ht | ht
  · rw [if_pos ht]
    obtain ⟨x, y, z⟩ := a
    cases h3
    cases ht
    cases hp
    rfl
  · rw [if_neg (by rw [ht]; decide), if_pos ht]
    obtain ⟨x, y, z⟩ := a
    cases h3
    cases ht
    cases hp
    rfl

theorem hostFree_take {a : Netaddr} (h : HostFree a) : a.addr = a.addr.take ((a.prefixLen.toNat + 7) / 8) ++ List.replicate (16 - (a.prefixLen.toNat + 7) / 8) 0 := by
  obtain ⟨hw, hp, h⟩ := h
  unfold Netaddr.Netaddr.WF at hw
  unfold Netaddr.truncate at h
  dsimp only at h
  rw [if_neg (by omega)] at h
  by_cases hb : a.prefixLen.toNat % 8 ≠ 0
  · rw [if_pos hb] at h
    cases hx : a.addr[a.prefixLen.toNat / 8]? with
    | none =>
      rw [hx] at h
      cases h
    | some x =>
      rw [hx] at h
      dsimp only at h
      injection h with h
      have h1 : a.addr = a.addr.take (a.prefixLen.toNat / 8) ++ [x &&& Netaddr.MASK.getD (a.prefixLen.toNat % 8) 0] ++ List.replicate (16 - (a.prefixLen.toNat / 8 + 1)) 0 := (congrArg Netaddr.Netaddr.addr h).symm
      have h2 : (a.prefixLen.toNat + 7) / 8 = a.prefixLen.toNat / 8 + 1 := by omega
      rw [h2]
      have h3 : (a.addr.take (a.prefixLen.toNat / 8) ++ [x &&& Netaddr.MASK.getD (a.prefixLen.toNat % 8) 0]).length = a.prefixLen.toNat / 8 + 1 := by
        rw [List.length_append, List.length_take, List.length_singleton]
        omega
      have h4 : a.addr.take (a.prefixLen.toNat / 8 + 1) = a.addr.take (a.prefixLen.toNat / 8) ++ [x &&& Netaddr.MASK.getD (a.prefixLen.toNat % 8) 0] := by
        exact (congrArg (List.take (a.prefixLen.toNat / 8 + 1)) h1).trans (List.take_left' h3)
      rw [h4]
      exact h1
  · rw [if_neg hb] at h
    injection h with h
    have h1 : a.addr = a.addr.take (a.prefixLen.toNat / 8) ++ List.replicate (16 - a.prefixLen.toNat / 8) 0 := (congrArg Netaddr.Netaddr.addr h).symm
    rw [show (a.prefixLen.toNat + 7) / 8 = a.prefixLen.toNat / 8 by omega]
    exact h1

theorem map_bytes (l : List UInt8) : (l.map UInt8.toNat).map UInt8.ofNat = l := by
  rw [List.map_map]
  have : UInt8.ofNat ∘ UInt8.toNat = id := funext fun x => UInt8.ofNat_toNat
  rw [this, List.map_id]

/-- the attached network is announced in a domain: it is active and has a valid metric -/
def Sent (x : LanData) : Prop := x.active = true ∧ 0 < x.metric ∧ x.metric ≤ metricMax

theorem lanField_sent {x : LanData} (hs : 0 < x.metric ∧ x.metric ≤ metricMax) : ∃ f, lanField x = some f ∧ f.b0 < 16 ∧ Advertised x.metric (metricDecode f) := by
  unfold lanField
  rw [if_neg (by omega)]
  cases h : metricEncode x.metric with
  | none =>
    exfalso
    rcases (Codec.C04_metric_encode_rejects _).1 h with h0 | h0
    · omega
    · unfold metricInfinite at h0
      have := hs.2
      unfold metricMax at this
      omega
  | some f =>
    obtain ⟨h1, _, h3⟩ := encode_advertised hs.2 h
    exact ⟨f, rfl, h1, h3⟩

theorem lanField_none {x : LanData} (hs : ¬ (0 < x.metric ∧ x.metric ≤ metricMax)) : lanField x = none := by
  unfold lanField
  by_cases h : x.metric > metricMax
  · rw [if_pos h]
  · rw [if_neg h]
    exact (Codec.C04_metric_encode_rejects _).2 (.inl (by omega))

theorem lanMetricTlv_type (lan : Lan) (d : Domain) (t : ATlv) (h : t ∈ lanMetricTlv lan d) : t.type = .linkMetric ∧ t.ext = d.ext := by
  unfold lanMetricTlv at h
  cases hf : lanField (lanData lan d.index) with
  | none =>
    rw [hf] at h
    cases h
  | some f =>
    rw [hf] at h
    simp only [List.mem_cons, List.not_mem_nil, or_false] at h
    subst h
    exact ⟨rfl, rfl⟩

theorem mem_lanTlvs (k : Key) (lan : Lan) (doms : List Domain) (t : ATlv) :
    t ∈ lanTlvs k lan doms ↔ (∃ d ∈ doms, t ∈ lanMetricTlv lan d) ∨ t = ⟨.gateway, gatewayExt k, (distVector lan doms).take (if lan.same then 1 else mprtypesSize doms)⟩ ∨ t ∈ srcPrefixTlv k := by
  unfold lanTlvs
  rw [List.mem_append, List.mem_cons, List.mem_flatMap]

theorem lanTlvs_nbr (k : Key) (lan : Lan) (doms : List Domain) (t : ATlv) (ht : t ∈ lanTlvs k lan doms) : t.type ≠ .nbrAddrType := by
  intro hs
  rcases (mem_lanTlvs k lan doms t).1 ht with ⟨d, _, h⟩ | h | h
  · rw [(lanMetricTlv_type lan d t h).1] at hs
    cases hs
  · rw [h] at hs
    cases hs
  · unfold srcPrefixTlv at h
    split at h
    · simp only [List.mem_cons, List.not_mem_nil, or_false] at h
      rw [h] at hs
      cases hs
    · cases h

/-- the key is read back -/
theorem lan_key {k : Key} (hk : LanKey k) {lan : Lan} {doms : List Domain} {tlvs : List ATlv} (hp : tlvs.Perm (lanTlvs k lan doms)) :
    ∃ k', gatewayKey (gatewayExt k) (lanAddress k) = some (true, k') ∧ readSrcPrefix k' tlvs = some k := by
  have htype : ∀ t ∈ tlvs, t.type = .srcPrefix → t ∈ srcPrefixTlv k := by
    intro t ht hs
    rcases (mem_lanTlvs k lan doms t).1 (hp.mem_iff.1 ht) with ⟨d, _, h⟩ | h | h
    · rw [(lanMetricTlv_type lan d t h).1] at hs
      cases hs
    · rw [h] at hs
      cases hs
    · exact h
  by_cases hc : k.1.prefixLen > 0 ∨ k.2.prefixLen = 0
  · have ha : lanAddress k = k.1 := if_pos hc
    by_cases hs : k.2.prefixLen = 0
    · have he : gatewayExt k = 0 := by
        unfold gatewayExt
        rw [if_pos hc, if_pos hs]
      refine ⟨k, ?_, ?_⟩
      · unfold gatewayKey
        rw [he, if_pos (.inl rfl), ha, hk.dst.2.2, Option.map_some]
        have h2 : anyOf k.1 = k.2 := by
          have := hostFree_any hk.src hs (by rw [hk.same]; exact hk.family)
          rw [← this]
          unfold anyOf
          rw [hk.same]
        rw [h2]
      · unfold readSrcPrefix
        rw [find_absent]
        intro t ht
        refine decide_eq_false fun h => ?_
        have := htype t ht h
        unfold srcPrefixTlv at this
        rw [he, if_neg (by decide)] at this
        cases this
    · have he : gatewayExt k = 1 := by
        unfold gatewayExt
        rw [if_pos hc, if_neg hs]
      refine ⟨(k.1, anyOf k.1), ?_, ?_⟩
      · unfold gatewayKey
        rw [he, if_pos (.inr rfl), ha, hk.dst.2.2, Option.map_some]
      · have hsrc : srcPrefixTlv k = [⟨.srcPrefix, 0, k.2.prefixLen.toNat :: (k.2.addr.take ((k.2.prefixLen.toNat + 7) / 8)).map UInt8.toNat⟩] := by
          unfold srcPrefixTlv
          rw [if_pos he]
        have hf : tlvs.find? (fun t => t.type = .srcPrefix) =
            some ⟨.srcPrefix, 0, k.2.prefixLen.toNat :: (k.2.addr.take ((k.2.prefixLen.toNat + 7) / 8)).map UInt8.toNat⟩ := by
          refine find_unique _ _ _ (hp.mem_iff.2 ((mem_lanTlvs ..).2 (.inr (.inr (by rw [hsrc]; exact List.mem_cons_self ..))))) rfl fun t ht h => ?_
          have := htype t ht (by simpa using h)
          rw [hsrc] at this
          simpa using this
        unfold readSrcPrefix
        rw [hf]
        have hw : k.2.addr.length = 16 := hk.src.1
        have hp2 := hk.src.2.1
        have hlen : ((k.2.prefixLen.toNat :: (k.2.addr.take ((k.2.prefixLen.toNat + 7) / 8)).map UInt8.toNat).length - 1) = (k.2.prefixLen.toNat + 7) / 8 := by
          rw [List.length_cons, List.length_map, List.length_take]
          omega
        dsimp only
        rw [hlen, if_neg (by omega)]
        have hany : (anyOf k.1).addr = List.replicate 16 0 ∧ (anyOf k.1).type = k.2.type := by
          unfold anyOf
          rcases hk.family with h | h
          · rw [if_pos h, hk.same, h]
            exact ⟨rfl, rfl⟩
          · rw [if_neg (by rw [h]; decide), if_pos h, hk.same, h]
            exact ⟨rfl, rfl⟩
        have e1 : UInt8.ofNat ((k.2.prefixLen.toNat :: (k.2.addr.take ((k.2.prefixLen.toNat + 7) / 8)).map UInt8.toNat).getD 0 0) = k.2.prefixLen := UInt8.ofNat_toNat
        have e2 : (List.drop 1 (k.2.prefixLen.toNat :: (k.2.addr.take ((k.2.prefixLen.toNat + 7) / 8)).map UInt8.toNat)).map UInt8.ofNat ++
            (anyOf k.1).addr.drop ((k.2.prefixLen.toNat + 7) / 8) = k.2.addr := by
          rw [List.drop_one, List.tail_cons, map_bytes, hany.1, List.drop_replicate]
          exact (hostFree_take hk.src).symm
        rw [e1, e2, hany.2]
  · have ha : lanAddress k = k.2 := if_neg hc
    have he : gatewayExt k = 2 := if_neg hc
    have hd0 : k.1.prefixLen = 0 := by
      by_cases h : k.1.prefixLen = 0
      · exact h
      · refine absurd (.inl ?_) hc
        exact UInt8.pos_iff_ne_zero.2 h
    refine ⟨k, ?_, ?_⟩
    · unfold gatewayKey
      rw [he, if_neg (by decide), if_pos rfl, ha, hk.src.2.2, Option.map_some]
      have h2 : anyOf k.2 = k.1 := by
        have := hostFree_any hk.dst hd0 hk.family
        rw [← this]
        unfold anyOf
        rw [hk.same]
      rw [h2]
    · unfold readSrcPrefix
      rw [find_absent]
      intro t ht
      refine decide_eq_false fun h => ?_
      have := htype t ht h
      unfold srcPrefixTlv at this
      rw [he, if_neg (by decide)] at this
      cases this

theorem gwAtt_none (costOut : List Nat) (dist : List (Nat × Nat)) (at_ : Tc.Att) (k : Nat) (h : ∀ y ∈ dist, y.1 ≠ k) :
    (dist.foldl (fun (at_ : Tc.Att) d => { at_ with cost := at_.cost.set d.1 (costOut.getD d.1 Tc.INFINITE), dist := at_.dist.set d.1 d.2 }) at_).cost.getD k metricInfinite =
        at_.cost.getD k metricInfinite := by
  induction dist generalizing at_ with
  | nil => rfl
  | cons d dist ih =>
    rw [List.foldl_cons, ih _ fun y hy => h y (List.mem_cons_of_mem _ hy)]
    show (List.set _ _ _).getD _ _ = _
    rw [getD_set, if_neg fun hh => h d (List.mem_cons_self ..) hh.1]

/-- C63: an attached network that is read from a complete TC has the prefixes of the sender, and in every domain in which it is
announced the metric (rounded up) and distance of the sender; in the other domains it is not reachable.  The TLVs may
arrive in any order.
Missing: routers with different lists of domains (`C63_domains_counterexample`), networks that were removed from one domain
(`C63_removed_counterexample`), networks with "same distance" that are not announced in the first domain
(`C63_first_domain_counterexample`), several networks with the same destination (`C63_destination_counterexample`). -/
theorem C63_lan_partial {doms : List Domain} (hd : Domains doms) {k : Key} (hk : LanKey k) (lan : Lan)
    (hinactive : ∀ d ∈ doms, (lanData lan d.index).active = false → (lanData lan d.index).metric = metricInfinite)
    (hsame : lan.same = true → Sent (lanData lan 0) ∧ ∀ d ∈ doms, Sent (lanData lan d.index) → (lanData lan d.index).dist = (lanData lan 0).dist)
    (hmore : lan.same = false → 1 < doms.length)
    (tlvs : List ATlv) (hp : tlvs.Perm (lanTlvs k lan doms)) :
    ∃ a g, readAddress doms (processMprtypes doms (decide (1 < doms.length))) (lanAddress k) tlvs = some a ∧ a.nbr = none ∧ a.gw = some g ∧ g.key = k ∧
      ∀ at_ : Tc.Att, at_.cost.length = 4 → at_.dist.length = 4 → ∀ d ∈ doms,
        (Sent (lanData lan d.index) → Advertised (lanData lan d.index).metric ((Tc.gwAtt true a.costOut g.dist at_).cost.getD d.index metricInfinite) ∧
          (Tc.gwAtt true a.costOut g.dist at_).dist.getD d.index 0 = (lanData lan d.index).dist) ∧
        (¬ Sent (lanData lan d.index) → (Tc.gwAtt true a.costOut g.dist at_).cost.getD d.index metricInfinite = metricInfinite) := by
  obtain ⟨k', hk1, hk2⟩ := lan_key hk hp
  have hm : processMprtypes doms (decide (1 < doms.length)) = doms.map (·.ext) := by
    unfold processMprtypes
    by_cases h : 1 < doms.length
    · rw [if_pos (decide_eq_true h), List.take_of_length_le hd.few]
    · rw [if_neg (by simpa using h), List.take_of_length_le (by omega)]
  have hpos : 0 < doms.length := List.length_pos_iff.2 hd.nonempty
  -- the gateway TLV
  have hsize : lan.same = false → mprtypesSize doms = doms.length := by
    intro h
    unfold mprtypesSize
    rw [if_pos (hmore h)]
    have := hd.few
    omega
  have htype : ∀ t ∈ tlvs, t.type = .gateway → t = ⟨.gateway, gatewayExt k, (distVector lan doms).take (if lan.same then 1 else mprtypesSize doms)⟩ := by
    intro t ht hs
    rcases (mem_lanTlvs k lan doms t).1 (hp.mem_iff.1 ht) with ⟨d, _, h⟩ | h | h
    · rw [(lanMetricTlv_type lan d t h).1] at hs
      cases hs
    · exact h
    · unfold srcPrefixTlv at h
      split at h
      · simp only [List.mem_cons, List.not_mem_nil, or_false] at h
        rw [h] at hs
        cases hs
      · cases h
  have hgwf : tlvs.find? (fun t => t.type = .gateway) = some ⟨.gateway, gatewayExt k, (distVector lan doms).take (if lan.same then 1 else mprtypesSize doms)⟩ :=
    find_unique _ _ _ (hp.mem_iff.2 ((mem_lanTlvs ..).2 (.inr (.inl rfl)))) rfl fun t ht h => htype t ht (by simpa using h)
  have hnbr : tlvs.find? (fun t => t.type = .nbrAddrType) = none := find_absent _ _ fun t ht => decide_eq_false (lanTlvs_nbr k lan doms t (hp.mem_iff.1 ht))
  have hlen : ((distVector lan doms).take (if lan.same then 1 else mprtypesSize doms)).length = if lan.same then 1 else doms.length := by
    rw [List.length_take, distVector_length]
    cases h : lan.same with
    | true => rfl
    | false =>
      rw [hsize h]
      have := hd.few
      show min doms.length 4 = doms.length
      omega
  have hread : readGatewayTlv doms (doms.map (·.ext)) (lanAddress k) tlvs =
      some (some ⟨k, readDist doms ((distVector lan doms).take (if lan.same then 1 else mprtypesSize doms)) 0 (doms.map (·.ext)), true, true⟩) := by
    unfold readGatewayTlv
    rw [hgwf]
    dsimp only
    rw [if_neg, hk1]
    · dsimp only
      rw [hk2]
      rfl
    · rw [hlen, List.length_map]
      cases lan.same with
      | true => exact fun h => absurd h.1 (Nat.lt_irrefl 1)
      | false => exact fun h => absurd h.2 (Nat.lt_irrefl _)
  unfold readAddress
  rw [hm, hread, hnbr]
  refine ⟨_, _, rfl, rfl, rfl, rfl, fun at_ hc4 hd4 d hdm => ?_⟩
  have hlt := hd.lt hdm
  have hlt4 : d.index < 4 := Nat.lt_of_lt_of_le hlt hd.few
  -- metrics
  have hrel : ∀ t ∈ tlvs, Relevant doms OUTGOING_NEIGH d.index t → t ∈ lanMetricTlv lan d := by
    intro t ht ⟨h1, _, e, h3, h4⟩
    obtain ⟨hem, hee⟩ := getByExt_some h3
    have hed := hd.inj hem hdm h4
    subst hed
    rcases (mem_lanTlvs k lan doms t).1 (hp.mem_iff.1 ht) with ⟨d', hd', h⟩ | h | h
    · rw [← hd.ext d' e hd' hem ((lanMetricTlv_type lan d' t h).2.symm.trans hee.symm)]
      exact h
    · rw [h] at h1
      cases h1
    · unfold srcPrefixTlv at h
      split at h
      · simp only [List.mem_cons, List.not_mem_nil, or_false] at h
        rw [h] at h1
        cases h1
      · cases h
  have hmetric : (0 < (lanData lan d.index).metric ∧ (lanData lan d.index).metric ≤ metricMax → Advertised (lanData lan d.index).metric ((readCost doms OUTGOING_NEIGH tlvs).getD d.index metricInfinite)) ∧
      (¬ (0 < (lanData lan d.index).metric ∧ (lanData lan d.index).metric ≤ metricMax) → (readCost doms OUTGOING_NEIGH tlvs).getD d.index metricInfinite = metricInfinite) := by
    refine ⟨fun hs => ?_, fun hs => ?_⟩
    · obtain ⟨f, hf, b0, hA⟩ := lanField_sent hs
      obtain ⟨o1, o2, _⟩ := flag_out f b0
      have hl : lanMetricTlv lan d = [metricTlv d (metricSetFlag f OUTGOING_NEIGH)] := by
        unfold lanMetricTlv
        rw [hf]
      rw [readCost_some doms OUTGOING_NEIGH d.index (metricDecode f) tlvs hlt4]
      · exact hA
      · intro t ht hr
        have := hrel t ht hr
        rw [hl] at this
        simp only [List.mem_cons, List.not_mem_nil, or_false] at this
        subst this
        exact o1
      · exact ⟨metricTlv d (metricSetFlag f OUTGOING_NEIGH), hp.mem_iff.2 ((mem_lanTlvs ..).2 (.inl ⟨d, hdm, by rw [hl]; exact List.mem_cons_self ..⟩)), rfl, o2, d, getByExt_self hd hdm, rfl⟩
    · refine readCost_none _ _ _ _ fun t ht hr => ?_
      have := hrel t ht hr
      unfold lanMetricTlv at this
      rw [lanField_none hs] at this
      cases this
  -- distances
  generalize hval : (distVector lan doms).take (if lan.same then 1 else mprtypesSize doms) = val at *
  have hmem : ∀ y, y ∈ readDist doms val 0 (doms.map (·.ext)) → y.1 = d.index → y.2 = if val.length = 1 then val.getD 0 0 else val.getD d.index 0 := by
    intro y hy hyi
    obtain ⟨j, e, h1, h2⟩ := (mem_readDist doms hd val doms (fun _ h => h) 0 y).1 hy
    rw [h2] at hyi ⊢
    have := hd.index j e h1
    dsimp only at hyi ⊢
    rw [Nat.zero_add, ← this, hyi]
  have hex : ∃ y ∈ readDist doms val 0 (doms.map (·.ext)), y.1 = d.index :=
    ⟨_, (mem_readDist doms hd val doms (fun _ h => h) 0 _).2 ⟨d.index, d, hd.at hdm, rfl⟩, rfl⟩
  have hfold := gwFold (readCost doms OUTGOING_NEIGH tlvs) (readDist doms val 0 (doms.map (·.ext))) { at_ with cost := List.replicate Tc.DOMAINS Tc.INFINITE } d.index _
    (by show d.index < (List.replicate 4 Tc.INFINITE).length; rw [List.length_replicate]; exact hlt4) (by show d.index < at_.dist.length; rw [hd4]; exact hlt4) hmem (.inr hex)
  have hcost : (Tc.gwAtt true (readCost doms OUTGOING_NEIGH tlvs) (readDist doms val 0 (doms.map (·.ext))) at_).cost.getD d.index metricInfinite =
      (readCost doms OUTGOING_NEIGH tlvs).getD d.index metricInfinite := hfold.1
  have hdist : (Tc.gwAtt true (readCost doms OUTGOING_NEIGH tlvs) (readDist doms val 0 (doms.map (·.ext))) at_).dist.getD d.index 0 =
      if val.length = 1 then val.getD 0 0 else val.getD d.index 0 := hfold.2
  show (_ → Advertised _ ((Tc.gwAtt true (readCost doms OUTGOING_NEIGH tlvs) (readDist doms val 0 (doms.map (·.ext))) at_).cost.getD d.index metricInfinite) ∧
      (Tc.gwAtt true (readCost doms OUTGOING_NEIGH tlvs) (readDist doms val 0 (doms.map (·.ext))) at_).dist.getD d.index 0 = _) ∧
    (_ → (Tc.gwAtt true (readCost doms OUTGOING_NEIGH tlvs) (readDist doms val 0 (doms.map (·.ext))) at_).cost.getD d.index metricInfinite = _)
  rw [hcost, hdist]
  refine ⟨fun hs => ⟨hmetric.1 hs.2, ?_⟩, fun hs => ?_⟩
  · have hvec : ∀ e ∈ doms, Sent (lanData lan e.index) → (distVector lan doms).getD e.index 0 = (lanData lan e.index).dist := by
      intro e he hes
      refine distFold lan doms _ e.index (by rw [List.length_replicate]; exact Nat.lt_of_lt_of_le (hd.lt he) hd.few) (.inr ⟨e, he, rfl, ?_⟩)
      obtain ⟨f, hf, _⟩ := lanField_sent hes.2
      rw [hf]
      exact fun h => (by cases h)
    cases hsm : lan.same with
    | true =>
      rw [hsm] at hlen hval
      have hlen : val.length = 1 := hlen
      have hval : (distVector lan doms).take 1 = val := hval
      rw [if_pos hlen, ← hval, take_getD _ _ _ (by decide)]
      obtain ⟨h0, heq⟩ := hsame hsm
      obtain ⟨e, he⟩ : ∃ e, doms[0]? = some e := by
        cases h : doms[0]? with
        | none =>
          rw [List.getElem?_eq_none_iff] at h
          omega
        | some e => exact ⟨e, rfl⟩
      have hi := hd.index 0 e he
      have := hvec e (List.mem_of_getElem? he) (by rw [hi]; exact h0)
      rw [hi] at this
      rw [this, heq d hdm hs]
    | false =>
      rw [hsm] at hlen hval
      have h1 := hmore hsm
      have hlen : val.length = doms.length := hlen
      rw [if_neg (by omega), ← hval]
      have h2 : d.index < mprtypesSize doms := by
        rw [hsize hsm]
        exact hlt
      rw [show (if false = true then 1 else mprtypesSize doms) = mprtypesSize doms from rfl, take_getD _ _ _ h2]
      exact hvec d hdm hs
  · refine hmetric.2 fun h => hs ⟨?_, h⟩
    cases ha : (lanData lan d.index).active with
    | true => rfl
    | false =>
      have := hinactive d hdm ha
      rw [this] at h
      exact absurd h.2 (by decide)

/-! ### Examples and counterexamples -/

/-- two domains -/
def doms01 : List Domain := [⟨0, 0⟩, ⟨1, 1⟩]

theorem doms01_ok : Domains doms01 := by
  refine ⟨fun i d h => ?_, fun d e hd he => ?_, by decide, by decide⟩
  · match i with
    | 0 => cases h; rfl
    | 1 => cases h; rfl
    | i + 2 => cases h
  · have : ∀ d ∈ doms01, ∀ e ∈ doms01, d.ext = e.ext → d = e := by decide
    exact this d hd e he

/-- 10.0.0.0/8 -/
def net10 : Netaddr := ⟨[10, 0, 0, 0, 0, 0, 0, 0, 0, 0, 0, 0, 0, 0, 0, 0], AF_INET, 8⟩
/-- 192.168.0.0/16 -/
def net192 : Netaddr := ⟨[192, 168, 0, 0, 0, 0, 0, 0, 0, 0, 0, 0, 0, 0, 0, 0], AF_INET, 16⟩
/-- 0.0.0.0/0 -/
def net0 : Netaddr := ⟨[0, 0, 0, 0, 0, 0, 0, 0, 0, 0, 0, 0, 0, 0, 0, 0], AF_INET, 0⟩

/-- key, metrics and distances that a receiver stores for an address of a complete TC -/
def stored (doms : List Domain) (mprtypes : Bool) (addr : Netaddr) (tlvs : List ATlv) : Option (Key × List Nat × List Nat) :=
  (readAddress doms (processMprtypes doms mprtypes) addr tlvs).bind fun a => a.gw.map fun g =>
    (g.key, (Tc.gwAtt true a.costOut g.dist ⟨0, 0, List.replicate 4 metricInfinite, List.replicate 4 0, 0⟩).cost,
      (Tc.gwAtt true a.costOut g.dist ⟨0, 0, List.replicate 4 metricInfinite, List.replicate 4 0, 0⟩).dist)

/-- what the other routers store for an attached network after a history of calls -/
def announced (sdoms rdoms : List Domain) (ops : List (LanOp Key)) (k : Key) : Option (Key × List Nat × List Nat) :=
  (lanRun ops k).bind fun lan => stored rdoms true (lanAddress k) (lanTlvs k lan sdoms)

/-- an attached network with source prefix and different distances, TLVs in reversed order -/
example : ∃ lan, lanRun [LanOp.add 0 (net10, net192) 256 2 true, .add 1 (net10, net192) 1000 3 true] (net10, net192) = some lan ∧ LanKey (net10, net192) ∧
    (∀ d ∈ doms01, (lanData lan d.index).active = false → (lanData lan d.index).metric = metricInfinite) ∧ lan.same = false ∧ 1 < doms01.length ∧
    stored doms01 true (lanAddress (net10, net192)) (lanTlvs (net10, net192) lan doms01).reverse =
      some ((net10, net192), [256, 1000, 0xffffff, 0xffffff], [2, 3, 0, 0]) := by
  refine ⟨_, rfl, ⟨?_, ?_, .inl rfl, rfl⟩, ?_, rfl, by decide, by decide +kernel⟩
  · exact ⟨rfl, by decide, by decide +kernel⟩
  · exact ⟨rfl, by decide, by decide +kernel⟩
  · decide +kernel

/-- a neighbor that selected the sender in one of two domains -/
example : ((readAddress [⟨0, 1⟩, ⟨1, 0⟩] [] net10 (neighTlvs 3 doms01 fun i => if i = 0 then ⟨true, 1000, 1001⟩ else ⟨false, 7, 7⟩).reverse).map fun a => (a.costIn, a.costOut, a.nbr)) =
    some ([0xffffff, 1000, 0xffffff, 0xffffff], [0xffffff, 1004, 0xffffff, 0xffffff], some 3) := by decide +kernel

/-- a neighbor that selected this router is announced without its valid outgoing metric if the incoming metric is not known -/
theorem C63_incoming_counterexample : ∃ (d : Domain) (n : NeighData), n.mpr = true ∧ 0 < n.metricOut ∧ n.metricOut ≤ metricMax ∧ neighMetricTlvs d n = [] :=
  ⟨⟨0, 0⟩, ⟨true, metricInfinite, 256⟩, rfl, by decide, by decide, by decide +kernel⟩

/-- a network which was removed from one domain and is still attached in another is still announced in the first -/
theorem C63_removed_counterexample :
    configured [LanOp.remove 1 (net10, net0), .add 1 (net10, net0) 1000 2 true, .add 0 (net10, net0) 256 2 true] (net10, net0) 1 = none ∧
    announced doms01 doms01 [LanOp.add 0 (net10, net0) 256 2 true, .add 1 (net10, net0) 1000 2 true, .remove 1 (net10, net0)] (net10, net0) =
      some ((net10, net0), [256, 1000, 0xffffff, 0xffffff], [2, 2, 0, 0]) := by
  refine ⟨by decide +kernel, by decide +kernel⟩

/-- a network which is attached in the second domain only is announced with distance 0 instead of its distance 2 -/
theorem C63_first_domain_counterexample :
    announced doms01 doms01 [LanOp.add 1 (net10, net0) 1000 2 true] (net10, net0) = some ((net10, net0), [0xffffff, 1000, 0xffffff, 0xffffff], [0, 0, 0, 0]) := by
  decide +kernel

/-- a receiver with the same domains in another order mixes up the distances (the value of the MPR_TYPES TLV is not used) -/
theorem C63_domains_counterexample :
    announced doms01 [⟨0, 1⟩, ⟨1, 0⟩] [LanOp.add 0 (net10, net0) 256 2 true, .add 1 (net10, net0) 1000 3 true] (net10, net0) =
      some ((net10, net0), [1000, 256, 0xffffff, 0xffffff], [2, 3, 0, 0]) := by
  decide +kernel

/-- two networks with the same destination and different sources are announced with one address; a receiver gets at most one of them,
in whatever order the TLVs arrive -/
theorem C63_destination_counterexample (lan lan' : Lan) (doms rdoms : List Domain) (m : List Nat) :
    ∃ k k' : Key, LanKey k ∧ LanKey k' ∧ k ≠ k' ∧ lanAddress k = lanAddress k' ∧
      ∀ tlvs, tlvs.Perm (lanTlvs k lan doms ++ lanTlvs k' lan' doms) → ∀ a, readAddress rdoms m (lanAddress k) tlvs = some a → ¬ (k ∈ a.prefixes ∧ k' ∈ a.prefixes) := by
  refine ⟨(net10, net0), (net10, net192), ⟨?_, ?_, .inl rfl, rfl⟩, ⟨?_, ?_, .inl rfl, rfl⟩, by decide, rfl, ?_⟩
  · exact ⟨rfl, by decide, by decide +kernel⟩
  · exact ⟨rfl, by decide, by decide +kernel⟩
  · exact ⟨rfl, by decide, by decide +kernel⟩
  · exact ⟨rfl, by decide, by decide +kernel⟩
  · intro tlvs hp a ha
    have hnbr : tlvs.find? (fun t => t.type = .nbrAddrType) = none := by
      refine find_absent _ _ fun t ht => decide_eq_false ?_
      rcases List.mem_append.1 (hp.mem_iff.1 ht) with h | h
      · exact lanTlvs_nbr _ _ _ t h
      · exact lanTlvs_nbr _ _ _ t h
    unfold readAddress at ha
    cases hg : readGatewayTlv rdoms m (lanAddress (net10, net0)) tlvs with
    | none =>
      rw [hg] at ha
      cases ha
    | some gw =>
      rw [hg, hnbr] at ha
      injection ha with ha
      subst ha
      unfold Tc.Address.prefixes
      cases gw with
      | none =>
        intro h
        cases h.1
      | some g =>
        intro h
        have h1 : (net10, net0) = g.key := by simpa [Tc.Address.routable] using h.1
        have h2 : (net10, net192) = g.key := by simpa [Tc.Address.routable] using h.2
        exact absurd (h1.trans h2.symm) (by decide)

end Verif.Olsr
