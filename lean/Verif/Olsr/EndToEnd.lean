import Verif.Olsr.ContentProps
import Verif.Tc.Props

/-
C63 and C62 together: from the neighbors and attached networks of one router to the topology database of another.
-/
namespace Verif.Olsr
open Verif.Netaddr (Netaddr)
open Verif.Codec (metricMax metricInfinite specMetric)
open Verif.Tc (Key St Event events Plain Current NewNumber Neighbor Reaches)

/-- a neighbor address in a TC: address, kind of the address, data of the neighbor by the index of the domain -/
structure NbrEntry where
  addr : Netaddr
  kind : Nat
  nd : Nat → NeighData

/-- `a` is what a receiver gets for the neighbor address -/
def ReadsNbr (sdoms rdoms : List Domain) (mprtypes : List Nat) (x : NbrEntry) (a : Tc.Address) : Prop :=
  ∃ tlvs, tlvs.Perm (neighTlvs x.kind sdoms x.nd) ∧ readAddress rdoms mprtypes x.addr tlvs = some a

/-- `a` is what a receiver gets for the attached network -/
def ReadsLan (sdoms rdoms : List Domain) (mprtypes : List Nat) (x : Key × Lan) (a : Tc.Address) : Prop :=
  ∃ tlvs, tlvs.Perm (lanTlvs x.1 x.2 sdoms) ∧ readAddress rdoms mprtypes (lanAddress x.1) tlvs = some a

/-- the addresses of the message are the neighbor addresses and the attached networks of the sender -/
structure Carries (sdoms rdoms : List Domain) (mprtypes : List Nat) (nbrs : List NbrEntry) (lans : List (Key × Lan)) (m : Tc.Tc) : Prop where
  only : ∀ a ∈ m.addrs, (∃ x ∈ nbrs, ReadsNbr sdoms rdoms mprtypes x a) ∨ ∃ x ∈ lans, ReadsLan sdoms rdoms mprtypes x a
  nbrs : ∀ x ∈ nbrs, ∃ a ∈ m.addrs, ReadsNbr sdoms rdoms mprtypes x a
  lans : ∀ x ∈ lans, ∃ a ∈ m.addrs, ReadsLan sdoms rdoms mprtypes x a

theorem advertised_le {m v : Nat} (h : Advertised m v) : v ≤ metricMax := by
  obtain ⟨c, hc, hv, _, _⟩ := h
  rw [hv]
  have h1 : specMetric 4095 = metricMax := by decide +kernel
  rw [← h1]
  rcases Nat.lt_or_ge c 4095 with h | h
  · exact Nat.le_of_lt (Codec.C04_metric_strict_mono c 4095 h)
  · have : c = 4095 := by omega
    rw [this]
    exact Nat.le_refl _

theorem readAddress_fields {rdoms : List Domain} {m : List Nat} {addr : Netaddr} {tlvs : List ATlv} {a : Tc.Address} (h : readAddress rdoms m addr tlvs = some a) :
    a.addr = addr ∧ a.ok = true ∧ a.okn = true ∧ a.oke = true ∧ (∀ g, a.gw = some g → g.ok = true ∧ g.oke = true) ∧ a.costOut.length = 4 ∧
      a.nbr = (tlvs.find? fun t => t.type = .nbrAddrType).map fun t => UInt8.ofNat (t.value.getD 0 0) := by
  unfold readAddress at h
  cases hg : readGatewayTlv rdoms m addr tlvs with
  | none =>
    rw [hg] at h
    cases h
  | some gw =>
    rw [hg] at h
    injection h with h
    subst h
    refine ⟨rfl, rfl, rfl, rfl, fun g hgw => ?_, readCost_length _ _ _, rfl⟩
    have hgw : gw = some g := hgw
    unfold readGatewayTlv at hg
    cases hf : tlvs.find? (fun t => t.type = .gateway) with
    | none =>
      rw [hf] at hg
      injection hg with hg
      rw [← hg] at hgw
      cases hgw
    | some t =>
      rw [hf] at hg
      dsimp only at hg
      by_cases hl : t.value.length > 1 ∧ t.value.length < m.length
      · rw [if_pos hl] at hg
        injection hg with hg
        rw [← hg] at hgw
        cases hgw
      · rw [if_neg hl] at hg
        cases hk : gatewayKey t.ext addr with
        | none =>
          rw [hk] at hg
          cases hg
        | some bk =>
          obtain ⟨b, k⟩ := bk
          rw [hk] at hg
          cases b with
          | false =>
            injection hg with hg
            rw [← hg] at hgw
            cases hgw
          | true =>
            dsimp only at hg
            cases hr : readSrcPrefix k tlvs with
            | none =>
              rw [hr] at hg
              cases hg
            | some k' =>
              rw [hr] at hg
              injection hg with hg
              rw [← hg] at hgw
              injection hgw with hgw
              rw [← hgw]
              exact ⟨rfl, rfl⟩

theorem bit0 (v : UInt8) : (v &&& 1 ≠ 0) ↔ v.toNat % 2 = 1 := by
  have h : v.toNat % 2 = (v &&& 1).toNat := by
    rw [UInt8.toNat_and]
    exact (Nat.and_one_is_mod _).symm
  rw [h]
  constructor
  · intro hn
    have h1 : (v &&& 1).toNat < 2 := by
      rw [← h]
      omega
    have h2 : (v &&& 1).toNat ≠ 0 := fun h0 => hn (UInt8.toNat_inj.1 (by rw [h0]; rfl))
    omega
  · intro h1 h0
    rw [h0] at h1
    cases h1

theorem readsNbr_spec {sdoms rdoms : List Domain} (hs : Domains sdoms) (hr : Domains rdoms) {mp : List Nat} {x : NbrEntry} (hx : x.kind < 256) {a : Tc.Address}
    (h : ReadsNbr sdoms rdoms mp x a) : a.addr = x.addr ∧ (a.neighbor = true ↔ x.kind % 2 = 1) ∧
      ∀ r ∈ rdoms, (∀ s ∈ sdoms, s.ext = r.ext →
          Received ((x.nd s.index).Usable ∧ 0 < (x.nd s.index).metricOut ∧ (x.nd s.index).metricOut ≤ metricMax) (x.nd s.index).metricOut (a.metrics.getD r.index metricInfinite)) ∧
        ((∀ s ∈ sdoms, s.ext ≠ r.ext) → a.metrics.getD r.index metricInfinite = metricInfinite) := by
  obtain ⟨tlvs, hp, hread⟩ := h
  obtain ⟨a', e, h1, h2, h3, h4⟩ := C63_neighbor hs hr x.nd x.kind hx x.addr mp tlvs hp
  rw [hread] at e
  injection e with e
  subst e
  have hm : ∀ k, a.metrics.getD k metricInfinite = if a.costOut.getD k metricInfinite ≤ metricMax then a.costOut.getD k metricInfinite else metricInfinite := by
    intro k
    show (List.map _ a.costOut).getD k metricInfinite = _
    rw [List.getD_eq_getElem?_getD, List.getD_eq_getElem?_getD, List.getElem?_map]
    cases a.costOut[k]? with
    | none => rfl
    | some c => rfl
  refine ⟨h1, ?_, fun r hrm => ⟨fun s hsm he => ?_, fun hno => ?_⟩⟩
  · unfold Tc.Address.neighbor
    cases hn : a.nbr with
    | none =>
      rw [hn] at h2
      cases h2
    | some v =>
      rw [hn] at h2
      injection h2 with h2
      dsimp only
      rw [decide_eq_true_iff, bit0, h2]
  · obtain ⟨_, h5⟩ := (h4 r hrm).1 s hsm he
    refine ⟨fun hv => ?_, fun hv => ?_⟩
    · rw [hm, if_pos (advertised_le (h5.1 hv))]
      exact h5.1 hv
    · rw [hm, h5.2 hv, if_neg (by decide)]
  · rw [hm, ((h4 r hrm).2 hno).2, if_neg (by decide)]

theorem readsLan_neighbor {sdoms rdoms : List Domain} {mp : List Nat} {x : Key × Lan} {a : Tc.Address} (h : ReadsLan sdoms rdoms mp x a) : a.neighbor = false := by
  obtain ⟨tlvs, hp, hread⟩ := h
  obtain ⟨_, _, _, _, _, _, hn⟩ := readAddress_fields hread
  rw [find_absent _ _ fun t ht => decide_eq_false (lanTlvs_nbr _ _ _ t (hp.mem_iff.1 ht))] at hn
  unfold Tc.Address.neighbor
  rw [hn]
  rfl

/-- C63: after a complete TC with a new sequence number the receiver knows exactly the neighbors that the sender announces, and
in every domain known to both the metric to each neighbor is that of the sender, rounded up to the next representable value; it is
infinite where the sender has no valid metric or the domain is unknown to the sender -/
theorem C63_database {sdoms rdoms : List Domain} (hs : Domains sdoms) (hr : Domains rdoms) {mp : List Nat} {nbrs : List NbrEntry} {lans : List (Key × Lan)}
    (hkind : ∀ x ∈ nbrs, x.kind < 256) (hdistinct : ∀ x ∈ nbrs, ∀ y ∈ nbrs, x.addr = y.addr → x = y)
    {es : List Event} {s : St} (he : Plain es) (hst : events St.init es = some s) {m : Tc.Tc} (hc : m.constraints = true) (hpre : m.pre = true) (hq : m.process = true)
    (hm : m.complete = true) (hok : m.ok = true) (hdr : m.dropped = false) (hself : ∀ x ∈ nbrs, x.addr ≠ m.orig) (hcur : Current s.db m) (hnew : NewNumber s.db m)
    (hcar : Carries sdoms rdoms mp nbrs lans m) :
    ∃ s' i n, Tc.receive s m = some s' ∧ s'.db.nodes i = some n ∧ n.addr = m.orig ∧
      (∀ x, (∃ c, Neighbor s'.db i x c) ↔ ∃ y ∈ nbrs, y.addr = x ∧ y.kind % 2 = 1) ∧
      ∀ y ∈ nbrs, ∀ c, Neighbor s'.db i y.addr c → ∀ r ∈ rdoms,
        (∀ d ∈ sdoms, d.ext = r.ext →
          Received ((y.nd d.index).Usable ∧ 0 < (y.nd d.index).metricOut ∧ (y.nd d.index).metricOut ≤ metricMax) (y.nd d.index).metricOut (c.getD r.index metricInfinite)) ∧
        ((∀ d ∈ sdoms, d.ext ≠ r.ext) → c.getD r.index metricInfinite = metricInfinite) := by
  have hen : ∀ a ∈ m.addrs, a.enough ∧ a.costOut.length = Tc.DOMAINS := by
    intro a ha
    have : ∃ addr tlvs, readAddress rdoms mp addr tlvs = some a := by
      rcases hcar.only a ha with ⟨x, _, t, _, h⟩ | ⟨x, _, t, _, h⟩
      · exact ⟨_, t, h⟩
      · exact ⟨_, t, h⟩
    obtain ⟨addr, tlvs, h⟩ := this
    obtain ⟨_, h1, h2, h3, h4, h5, _⟩ := readAddress_fields h
    exact ⟨⟨h1, h2, h3, h4⟩, h5⟩
  have hns : m.NotSelf := by
    intro a ha hn
    rcases hcar.only a ha with ⟨x, hx, h⟩ | ⟨x, _, h⟩
    · rw [(readsNbr_spec hs hr (hkind x hx) h).1]
      exact hself x hx
    · rw [readsLan_neighbor h] at hn
      cases hn
  obtain ⟨s', i, n, h1, h2, h3, _, h5, _⟩ := Tc.C62_complete he hst hc hpre hq hm hok hdr hns hen hcur hnew
  have hlast : ∀ x a, Tc.lastEntry m.addrs x = some a → a ∈ m.addrs ∧ a.neighbor = true ∧ a.addr = x := by
    intro x a h
    have := List.mem_filter.1 (List.mem_of_getLast? h)
    simp only [Bool.and_eq_true, decide_eq_true_eq] at this
    exact ⟨this.1, this.2.1, this.2.2⟩
  refine ⟨s', i, n, h1, h2, h3, fun x => ⟨?_, ?_⟩, fun y hy c hc r hrm => ?_⟩
  · rintro ⟨c, hc⟩
    obtain ⟨a, ha, _⟩ := (h5 x c).1 hc
    obtain ⟨b1, b2, b3⟩ := hlast x a ha
    rcases hcar.only a b1 with ⟨y, hy, h⟩ | ⟨y, _, h⟩
    · have := readsNbr_spec hs hr (hkind y hy) h
      exact ⟨y, hy, this.1 ▸ b3, this.2.1.1 b2⟩
    · rw [readsLan_neighbor h] at b2
      cases b2
  · rintro ⟨y, hy, hyx, hyk⟩
    obtain ⟨a, ha, h⟩ := hcar.nbrs y hy
    have sp := readsNbr_spec hs hr (hkind y hy) h
    cases hl : Tc.lastEntry m.addrs x with
    | some b => exact ⟨b.metrics, (h5 x _).2 ⟨b, hl, rfl⟩⟩
    | none =>
      have hmem : a ∈ m.addrs.filter fun a => a.neighbor && decide (a.addr = x) := by
        rw [List.mem_filter]
        refine ⟨ha, ?_⟩
        rw [sp.2.1.2 hyk, sp.1, hyx]
        simp
      unfold Tc.lastEntry at hl
      rw [List.getLast?_eq_none_iff] at hl
      rw [hl] at hmem
      cases hmem
  · obtain ⟨a, ha, hac⟩ := (h5 _ c).1 hc
    obtain ⟨b1, b2, b3⟩ := hlast _ a ha
    rcases hcar.only a b1 with ⟨z, hz, h⟩ | ⟨z, _, h⟩
    · have sp := readsNbr_spec hs hr (hkind z hz) h
      have : z = y := hdistinct z hz y hy (sp.1.symm.trans b3)
      subst this
      rw [← hac]
      exact sp.2.2 r hrm
    · rw [readsLan_neighbor h] at b2
      cases b2

/-- a neighbor of the example: 10.0.0.2, originator, selected the sender in both domains -/
def nbr2 : NbrEntry := ⟨Tc.ip 2, 3, fun i => if i = 0 then ⟨true, 256, 300⟩ else ⟨true, 1000, 1001⟩⟩

/-- the message of the example -/
def tc1 : Tc.Tc :=
  { Tc.msg 1 1 [] with addrs := (readAddress doms01 [] nbr2.addr (neighTlvs nbr2.kind doms01 nbr2.nd)).toList ++ (readAddress doms01 [] net10 (lanTlvs (net10, net0) (lanUpdate lanNew 0 256 2) doms01)).toList }

/-- the premises are met -/
example : Carries doms01 doms01 [] [nbr2] [((net10, net0), lanUpdate lanNew 0 256 2)] tc1 ∧ Current St.init.db tc1 ∧ NewNumber St.init.db tc1 ∧
    ((Tc.receive St.init tc1).map fun s => (s.db.nodes 0).map fun n => n.edges.filterMap fun e => (s.db.edges e).map (·.cost)) =
      some (some [[300, 1004, 0xffffff, 0xffffff]]) := by
  have h1 : ∃ a, readAddress doms01 [] nbr2.addr (neighTlvs nbr2.kind doms01 nbr2.nd) = some a := ⟨_, rfl⟩
  have h2 : ∃ a, readAddress doms01 [] net10 (lanTlvs (net10, net0) (lanUpdate lanNew 0 256 2) doms01) = some a := ⟨_, rfl⟩
  obtain ⟨a, h1⟩ := h1
  obtain ⟨b, h2⟩ := h2
  have ht : tc1.addrs = [a, b] := by
    show _ ++ _ = _
    rw [h1, h2]
    rfl
  refine ⟨⟨fun x hx => ?_, fun x hx => ?_, fun x hx => ?_⟩, fun i n h => (by cases h), fun i n h => (by cases h), by decide +kernel⟩
  · rw [ht] at hx
    simp only [List.mem_cons, List.not_mem_nil, or_false] at hx
    rcases hx with rfl | rfl
    · exact .inl ⟨nbr2, List.mem_cons_self .., _, List.Perm.refl _, h1⟩
    · exact .inr ⟨_, List.mem_cons_self .., _, List.Perm.refl _, h2⟩
  · rw [ht]
    simp only [List.mem_cons, List.not_mem_nil, or_false] at hx
    subst hx
    exact ⟨a, List.mem_cons_self .., _, List.Perm.refl _, h1⟩
  · rw [ht]
    simp only [List.mem_cons, List.not_mem_nil, or_false] at hx
    subst hx
    exact ⟨b, List.mem_cons_of_mem _ (List.mem_cons_self ..), _, List.Perm.refl _, h2⟩

end Verif.Olsr
