import Verif.Routing.Table

/-! Properties of the route calculation. -/
namespace Verif.Routing
open Verif.Netaddr (Netaddr)

/-! ### from runs to the routing table -/

theorem PathF.of_path {w : Env} (wf : WF w) {ss : Bool} {i t c h : Nat} {l : Netaddr} (hp : Path w i t c h l)
    (hk : (w.target t).key.src.prefixLen = 0 ∨ ss = true ∨ (w.target t).isNode = true) : PathF w (w.neigh i).origin.type ⟨true, ss⟩ i t c h l := by
  induction hp with
  | hop h1 h2 h3 => exact .hop h1.1 rfl h1.3 h1.4 h1.5 h2 h3 (.inl rfl)
  | edge _ h2 h3 h4 h5 h6 ih => exact .edge (ih (.inr (.inr h2))) h2 h3 h4 h5 h6 (.inl rfl)
  | attached _ h2 h3 h4 ih =>
    refine .attached (ih (.inr (.inr h2))) h2 h3 h4 ?_
    rcases hk with h | h | h
    · rw [if_neg (by rw [h]; decide)]
    · subst h; simp
    · rw [(wf.att _ _ h3).2.1] at h; cases h

theorem Path.usable {w : Env} {i t c h : Nat} {l : Netaddr} (hp : Path w i t c h l) : Usable w i := by
  induction hp with
  | hop h1 => exact h1
  | edge _ _ _ _ _ _ ih => exact ih
  | attached _ _ _ _ ih => exact ih

theorem Reach.symmetric {w : Env} {k : Key} {i c h : Nat} {l : Netaddr} (hr : Reach w k i c h l) : i < w.neighs.length ∧ (w.neigh i).symmetric ≠ 0 := by
  cases hr with
  | path hp => exact ⟨hp.usable.exists_, hp.usable.symmetric⟩
  | neighbor h1 h2 => exact ⟨h1, h2⟩
  | twohop h1 h2 => exact ⟨h1, h2⟩

/-- a call describes a way to reach its key -/
def Good (w : Env) (c : Call) : Prop := ∃ h, Reach w c.key c.first c.cost h c.last ∧ c.hops = h % 256 ∧ c.single = decide (h = 1)

theorem Sound.good {w : Env} {f : UInt8} (hf : f = AF_INET ∨ f = AF_INET6) {fl : Flags} {c : Call} (h : Sound w f fl c) : Good w c := by
  obtain ⟨⟨t, h, a1, a2, a3, a4⟩, _⟩ := h
  refine ⟨h, ?_, a3, a4⟩
  rw [a2]
  exact .path (a1.path hf)

theorem nhdp_spec {w : Env} (tbl : List Entry) : ∃ log : List Call, handleNhdpRoutes w tbl = log.foldl (update w) tbl ∧ (∀ c ∈ log, Good w c) ∧
    (∀ i a, i < w.neighs.length → (w.neigh i).symmetric ≠ 0 → (w.neigh i).metricOut ≤ METRIC_MAX → a ∈ (w.neigh i).addrs → w.nhdpRoutable = true → w.routable a = true →
      ∃ c ∈ log, c.key = hostKey a ∧ c.cost = (w.neigh i).metricOut) ∧
    (∀ i link x, i < w.neighs.length → (w.neigh i).symmetric ≠ 0 → (w.neigh i).metricOut ≤ METRIC_MAX → link ∈ (w.neigh i).links → x ∈ link → x.lost = false → x.metric ≤ METRIC_MAX →
      ∃ c ∈ log, c.key = hostKey x.addr ∧ c.cost = x.metric + (w.neigh i).metricOut) := by
  have key : ∀ (l : List Nat) (tbl : List Entry), (∀ i ∈ l, i < w.neighs.length) → ∃ log : List Call, l.foldl (handleNeigh w) tbl = log.foldl (update w) tbl ∧ (∀ c ∈ log, Good w c) ∧
      (∀ i ∈ l, (w.neigh i).symmetric ≠ 0 → (w.neigh i).metricOut ≤ METRIC_MAX → ∀ c ∈ neighCalls w i ++ twohopCalls w i, c ∈ log) := by
    intro l
    induction l with
    | nil => intro tbl _; exact ⟨[], rfl, fun c hc => (by cases hc), fun i hi => by cases hi⟩
    | cons i l ih =>
      intro tbl hl
      have hi := hl i (by simp)
      rw [List.foldl_cons]
      by_cases hu : (w.neigh i).symmetric = 0 ∨ (w.neigh i).metricOut > METRIC_MAX
      · obtain ⟨log, b1, b2, b3⟩ := ih tbl (fun j hj => hl j (by simp [hj]))
        refine ⟨log, ?_, b2, ?_⟩
        · unfold handleNeigh
          rw [if_pos hu]
          exact b1
        · intro j hj hs hm
          rcases List.mem_cons.1 hj with rfl | hj
          · exfalso
            rcases hu with h | h
            · exact hs h
            · omega
          · exact b3 j hj hs hm
      · obtain ⟨hs, hm⟩ : (w.neigh i).symmetric ≠ 0 ∧ (w.neigh i).metricOut ≤ METRIC_MAX := by
          rw [not_or] at hu
          exact ⟨hu.1, by omega⟩
        obtain ⟨log, b1, b2, b3⟩ := ih ((neighCalls w i ++ twohopCalls w i).foldl (update w) tbl) (fun j hj => hl j (by simp [hj]))
        refine ⟨(neighCalls w i ++ twohopCalls w i) ++ log, ?_, ?_, ?_⟩
        · have : handleNeigh w tbl i = (neighCalls w i ++ twohopCalls w i).foldl (update w) tbl := by
            unfold handleNeigh
            rw [if_neg hu]
          rw [this, b1, List.foldl_append (l' := log)]
        · intro c hc
          rcases List.mem_append.1 hc with hc | hc
          · rcases List.mem_append.1 hc with hc | hc
            · unfold neighCalls at hc
              obtain ⟨a, ha, rfl⟩ := List.mem_map.1 hc
              rw [List.mem_filter, Bool.and_eq_true] at ha
              exact ⟨1, .neighbor hi hs hm ha.1 ha.2.1 ha.2.2, rfl, rfl⟩
            · unfold twohopCalls at hc
              obtain ⟨x, hx, rfl⟩ := List.mem_map.1 hc
              rw [List.mem_filter, Bool.and_eq_true, Bool.not_eq_true', decide_eq_true_eq, List.mem_flatten] at hx
              obtain ⟨⟨link, hl1, hl2⟩, hlost, hx⟩ := hx
              refine ⟨2, ?_, rfl, rfl⟩
              dsimp only
              rw [Nat.mod_eq_of_lt (by unfold METRIC_MAX at hm hx; omega)]
              exact .twohop hi hs hm hl1 hl2 hlost hx
          · exact b2 c hc
        · intro j hj hs hm c hc
          rcases List.mem_cons.1 hj with rfl | hj
          · exact List.mem_append_left _ hc
          · exact List.mem_append_right _ (b3 j hj hs hm c hc)
  obtain ⟨log, a1, a2, a3⟩ := key (List.range w.neighs.length) tbl (fun i hi => List.mem_range.1 hi)
  refine ⟨log, a1, a2, ?_, ?_⟩
  · intro i a hi hs hm ha h1 h2
    refine ⟨_, a3 i (List.mem_range.2 hi) hs hm _ (List.mem_append_left _ (List.mem_map.2 ⟨a, List.mem_filter.2 ⟨ha, by simp [h1, h2]⟩, rfl⟩)), rfl, rfl⟩
  · intro i link x hi hs hm hl hx hlost hmx
    refine ⟨_, a3 i (List.mem_range.2 hi) hs hm _ (List.mem_append_right _ (List.mem_map.2 ⟨x, List.mem_filter.2 ⟨List.mem_flatten.2 ⟨link, hl, hx⟩, by simp [hlost, hmx]⟩, rfl⟩)), rfl, ?_⟩
    exact Nat.mod_eq_of_lt (by unfold METRIC_MAX at hm hmx; omega)

/-- the runs for source specific networks in a split topology -/
theorem second_runs {w : Env} (wf : WF w) (hcost : CostOk w) {n : Nat} (hn : w.targets.length ≤ n) (split4 split6 : Bool) (tbl : List Entry) :
    ∃ log : List Call, (if split4 || split6 then
        let (s, tbl) := if split4 then runDijkstra w n AF_INET ⟨false, true⟩ prepareNodes tbl else (prepareNodes, tbl)
        if split6 then (runDijkstra w n AF_INET6 ⟨false, true⟩ s tbl).2 else tbl
      else tbl) = log.foldl (update w) tbl ∧ (∀ c ∈ log, Good w c ∧ c.key.src.prefixLen > 0) ∧ (split4 = false → split6 = false → log = []) := by
  have one : ∀ (f : UInt8) (hf : f = AF_INET ∨ f = AF_INET6) (s : DState) (tbl : List Entry), s.queue = [] →
      (∀ t, (w.target t).key.dst.type = f → Queued w t → (s.node t).done = false) →
      ∃ (s' : DState) (log : List Call), runDijkstra w n f ⟨false, true⟩ s tbl = (s', log.foldl (update w) tbl) ∧ s'.queue = [] ∧ (∀ c ∈ log, Good w c ∧ c.key.src.prefixLen > 0) ∧
      ∀ v, (w.target v).key.dst.type ≠ f → Queued w v → (s'.node v).done = (s.node v).done := by
    intro f hf s tbl hq hd
    obtain ⟨s', log, a1, a2, a3, _, a5⟩ := run_spec wf hcost hf ⟨false, true⟩ n hn s tbl hq hd
    exact ⟨s', log, a1, a2, fun c hc => ⟨(a3 c hc).good hf, (a3 c hc).2 rfl⟩, a5⟩
  cases split4 with
  | false =>
    cases split6 with
    | false => exact ⟨[], rfl, fun c hc => (by cases hc), fun _ _ => rfl⟩
    | true =>
      obtain ⟨s', log, a1, a2, a3, _⟩ := one AF_INET6 (.inr rfl) prepareNodes tbl rfl (fun _ _ _ => rfl)
      refine ⟨log, ?_, a3, fun _ h => by cases h⟩
      simp only [Bool.or_true, if_true, Bool.false_eq_true, if_false]
      rw [a1]
  | true =>
    obtain ⟨s', log, a1, a2, a3, a4⟩ := one AF_INET (.inl rfl) prepareNodes tbl rfl (fun _ _ _ => rfl)
    cases split6 with
    | false =>
      refine ⟨log, ?_, a3, fun h => by cases h⟩
      simp only [Bool.or_false, if_true, Bool.false_eq_true, if_false]
      rw [a1]
    | true =>
      obtain ⟨s2, log2, b1, b2, b3, _⟩ := one AF_INET6 (.inr rfl) s' (log.foldl (update w) tbl) a2 (fun t ht hq => by
        rw [a4 t (by rw [ht]; decide) hq]; rfl)
      refine ⟨log ++ log2, ?_, ?_, fun h => by cases h⟩
      · simp only [Bool.or_true, if_true]
        rw [a1]
        dsimp only
        rw [b1, List.foldl_append]
      · intro c hc
        rcases List.mem_append.1 hc with hc | hc
        · exact a3 c hc
        · exact b3 c hc

/-- the whole calculation is a list of calls: they describe ways to reach their keys, and every way is matched by a call
that is not more expensive -/
theorem calculate_spec {w : Env} (wf : WF w) (hcost : CostOk w) {n : Nat} (hn : w.targets.length ≤ n) (tbl : List Entry) :
    ∃ log : List Call, calculate w n tbl = log.foldl (update w) (prepareRoutes tbl) ∧ (∀ c ∈ log, Good w c) ∧
      ∀ k, (k.src.prefixLen = 0 ∨ (split w AF_INET = false ∧ split w AF_INET6 = false)) → ∀ i c h l, Reach w k i c h l → ∃ x ∈ log, x.key = k ∧ x.cost ≤ c := by
  obtain ⟨s1, log1, a1, a2, a3, a4, a5⟩ := run_spec wf hcost (.inl rfl) ⟨true, !split w AF_INET⟩ n hn prepareNodes (prepareRoutes tbl) rfl (fun _ _ _ => rfl)
  obtain ⟨s2, log2, b1, b2, b3, b4, b5⟩ := run_spec wf hcost (.inr rfl) ⟨true, !split w AF_INET6⟩ n hn s1 (log1.foldl (update w) (prepareRoutes tbl)) a2 (fun t ht hq => by
    rw [a5 t (by rw [ht]; decide) hq]; rfl)
  obtain ⟨log3, c1, c2, _⟩ := second_runs wf hcost hn (split w AF_INET) (split w AF_INET6) (log2.foldl (update w) (log1.foldl (update w) (prepareRoutes tbl)))
  obtain ⟨log4, d1, d2, d3, d4⟩ := nhdp_spec (w := w) (log3.foldl (update w) (log2.foldl (update w) (log1.foldl (update w) (prepareRoutes tbl))))
  refine ⟨log1 ++ log2 ++ log3 ++ log4, ?_, ?_, ?_⟩
  · unfold calculate
    dsimp only
    rw [a1]
    dsimp only
    rw [b1]
    dsimp only
    rw [List.foldl_append, List.foldl_append, List.foldl_append, ← d1, ← c1]
  · intro c hc
    simp only [List.mem_append] at hc
    rcases hc with ((hc | hc) | hc) | hc
    · exact (a3 c hc).good (.inl rfl)
    · exact (b3 c hc).good (.inr rfl)
    · exact (c2 c hc).1
    · exact d2 c hc
  · intro k hk i c h l hr
    simp only [List.mem_append]
    cases hr with
    | path hp =>
      rename_i t
      rcases hp.usable.family with hf | hf
      · obtain ⟨x, hx, y⟩ := a4 rfl _ _ _ _ _ (hf ▸ PathF.of_path wf hp (by
          rcases hk with h | ⟨h, _⟩
          · exact .inl h
          · rw [h]; exact .inr (.inl rfl)))
        exact ⟨x, .inl (.inl (.inl hx)), y⟩
      · obtain ⟨x, hx, y⟩ := b4 rfl _ _ _ _ _ (hf ▸ PathF.of_path wf hp (by
          rcases hk with h | ⟨_, h⟩
          · exact .inl h
          · rw [h]; exact .inr (.inl rfl)))
        exact ⟨x, .inl (.inl (.inr hx)), y⟩
    | neighbor h1 h2 h3 h4 h5 h6 =>
      obtain ⟨x, hx, y, z⟩ := d3 _ _ h1 h2 h3 h4 h5 h6
      exact ⟨x, .inr hx, y, by omega⟩
    | twohop h1 h2 h3 h4 h5 h6 h7 =>
      obtain ⟨x, hx, y, z⟩ := d4 _ _ _ h1 h2 h3 h4 h5 h6 h7
      exact ⟨x, .inr hx, y, by omega⟩

/-! ### C40, C41 -/

/-- the destination is not this router itself and may have a route -/
structure Wanted (w : Env) (k : Key) : Prop where
  originator : k.dst ≠ w.originator k.dst.type
  interface : w.ifAddr k.dst = false
  routable : w.routable k.dst = true

/-- the locally attached network `k` is not better than a route of this cost -/
def NotLocal (w : Env) (k : Key) (cost : Nat) : Prop := ∀ m, w.lan k = some (true, m) → cost ≤ m

theorem refused_iff {w : Env} {c : Call} (hw : Wanted w c.key) : refused w c = false ↔ NotLocal w c.key c.cost := by
  unfold refused
  rw [hw.interface, hw.routable]
  have : decide (w.originator c.key.dst.type = c.key.dst) = false := by
    rw [decide_eq_false_iff_not]
    exact fun h => hw.originator h.symm
  rw [this]
  simp only [Bool.false_or, Bool.not_true, Bool.or_false]
  unfold lanBetter NotLocal
  cases hl : w.lan c.key with
  | none => simp
  | some x =>
    obtain ⟨a, m⟩ := x
    cases a <;> simp

/-- a routing entry for `k` describes a way to reach it over neighbor `i` with `h` hops: next hop, interface and
gateway are those of the neighbor (no gateway, if the destination is the neighbor itself) -/
structure Describes (w : Env) (e : Entry) (i h : Nat) : Prop where
  reach : Reach w e.key i e.cost h e.last
  hops : e.hops = h % 256
  next : e.next = (w.neigh i).origin
  ifindex : e.p.ifindex = (w.neigh i).ifindex
  gw : e.p.gw = if h = 1 ∧ (w.neigh i).linkAddr = e.key.dst then none else some (w.neigh i).linkAddr

/-- **C40** (part): after the calculation a destination has a route exactly if it can be reached (and the locally
attached network is not better), and its cost is the minimum over all ways to reach it.
`CostOk`: no path as long as the number of routers costs more than 32 bits can hold.
Missing: larger costs (counterexample below), and source specific destinations in a topology where only some routers
support them (counterexample below). -/
theorem C40_partial {w : Env} (wf : WF w) (hcost : CostOk w) (tbl : List Entry) (hn : (tbl.map Entry.key).Nodup) (n : Nat) (hrounds : w.targets.length ≤ n)
    (k : Key) (hk : k.src.prefixLen = 0 ∨ (split w AF_INET = false ∧ split w AF_INET6 = false)) (hw : Wanted w k) :
    ((∃ e ∈ calculate w n tbl, e.key = k ∧ e.set = true) ↔ ∃ i c h l, Reach w k i c h l ∧ NotLocal w k c) ∧
    ∀ e ∈ calculate w n tbl, e.key = k → e.set = true → (∃ i h l, Reach w k i e.cost h l) ∧ ∀ i c h l, Reach w k i c h l → e.cost ≤ c := by
  obtain ⟨log, a1, a2, a3⟩ := calculate_spec wf hcost hrounds tbl
  obtain ⟨p1, p2⟩ := prepare_result (w := w) (k := k) hn
  obtain ⟨r, _⟩ := updates_result log [] p2 p1
  rw [List.nil_append, ← a1] at r
  refine ⟨⟨?_, ?_⟩, ?_⟩
  · rintro ⟨e, he, hek, hes⟩
    obtain ⟨c, hc, rfl, hr, hwr, _⟩ := r.best e he hek hes
    obtain ⟨h, hg, _⟩ := a2 c hc
    exact ⟨_, _, _, _, hg, (refused_iff hw).1 hr⟩
  · rintro ⟨i, c, h, l, hr, hl⟩
    obtain ⟨x, hx, rfl, hxc⟩ := a3 k hk i c h l hr
    exact r.some_ ⟨x, hx, rfl, (refused_iff hw).2 (fun m hm => Nat.le_trans hxc (hl m hm))⟩
  · intro e he hek hes
    obtain ⟨c, hc, rfl, hr, hwr, hmin⟩ := r.best e he hek hes
    obtain ⟨h, hg, _⟩ := a2 c hc
    refine ⟨⟨_, _, _, by rw [hwr.cost]; exact hg⟩, ?_⟩
    intro i c' h l hr'
    obtain ⟨x, hx, hxk, hxc⟩ := a3 c.key hk i c' h l hr'
    by_cases hle : c.cost ≤ x.cost
    · rw [hwr.cost]; omega
    · have : refused w x = false := (refused_iff (by rw [hxk]; exact hw)).2 (fun m hm => by
        have := (refused_iff hw).1 hr m (by rw [← hxk]; exact hm)
        omega)
      have := hmin x hx hxk this
      omega

/-- **C40**: the calculation ends after at most as many rounds as there are targets. -/
theorem C40_terminates {w : Env} (wf : WF w) (hcost : CostOk w) {f : UInt8} (hf : f = AF_INET ∨ f = AF_INET6) (fl : Flags) (tbl : List Entry) :
    (runDijkstra w w.targets.length f fl prepareNodes tbl).1.queue = [] ∧
    ∀ k, runDijkstra w (w.targets.length + k) f fl prepareNodes tbl = runDijkstra w w.targets.length f fl prepareNodes tbl := by
  obtain ⟨s', log, a1, a2, _⟩ := run_spec wf hcost hf fl w.targets.length (Nat.le_refl _) prepareNodes tbl rfl (fun _ _ _ => rfl)
  have : (runDijkstra w w.targets.length f fl prepareNodes tbl).1.queue = [] := by rw [a1]; exact a2
  exact ⟨this, fun k => loop_more _ k _ _ this⟩

/-- **C41** (part): every route leads over a symmetric neighbor that is the first hop of a way to the destination with
minimum cost; hop count (modulo 256), last router, interface and gateway are those of this way.
Missing: as for C40, and hop counts above 255. -/
theorem C41_partial {w : Env} (wf : WF w) (hcost : CostOk w) (tbl : List Entry) (hn : (tbl.map Entry.key).Nodup) (n : Nat) (hrounds : w.targets.length ≤ n)
    {e : Entry} (he : e ∈ calculate w n tbl) (hes : e.set = true) (hk : e.key.src.prefixLen = 0 ∨ (split w AF_INET = false ∧ split w AF_INET6 = false)) (hw : Wanted w e.key) :
    ∃ i h, i < w.neighs.length ∧ (w.neigh i).symmetric ≠ 0 ∧ Describes w e i h ∧ ∀ i' c h' l, Reach w e.key i' c h' l → e.cost ≤ c := by
  have hmin := ((C40_partial wf hcost tbl hn n hrounds e.key hk hw).2 e he rfl hes).2
  obtain ⟨log, a1, a2, a3⟩ := calculate_spec wf hcost hrounds tbl
  obtain ⟨p1, p2⟩ := prepare_result (w := w) (k := e.key) hn
  obtain ⟨r, _⟩ := updates_result log [] p2 p1
  rw [List.nil_append, ← a1] at r
  obtain ⟨c, hc, hck, hr, hwr, _⟩ := r.best e he rfl hes
  obtain ⟨h, hg, hh, hs⟩ := a2 c hc
  have hsym := hg.symmetric
  refine ⟨c.first, h, hsym.1, hsym.2, ⟨?_, ?_, hwr.next, hwr.ifindex, ?_⟩, hmin⟩
  · rw [hwr.cost, hwr.last, ← hck]; exact hg
  · rw [hwr.hops, hh]
  · rw [hwr.gw, hs]
    simp

/-- a path costs at most the maximum metric per hop -/
theorem Path.cost_le {w : Env} {i t c h : Nat} {l : Netaddr} (hp : Path w i t c h l) : c ≤ h * METRIC_MAX := by
  induction hp with
  | hop h1 => have := h1.metricOut; omega
  | edge _ _ _ _ h5 _ ih => rw [Nat.add_mul]; omega
  | attached _ _ _ h4 ih => rw [Nat.add_mul]; omega

/-- **C40**: the condition on the path cost holds in every network with at most 255 routers. -/
theorem C40_small_network {w : Env} (h : nodeCount w ≤ 255) : CostOk w := by
  intro i t c hops l hp hh
  have h1 := hp.cost_le
  have h2 : hops * METRIC_MAX ≤ 255 * METRIC_MAX := Nat.mul_le_mul_right _ (by omega)
  have h3 : 255 * METRIC_MAX + METRIC_MAX < 2 ^ 32 := by decide
  omega

/-! ### a small network -/

namespace Ex
/-- the address 10.0.a.b/len -/
def ip (a b : Nat) (len : UInt8 := 32) : Netaddr := ⟨[10, 0, a.toUInt8, b.toUInt8] ++ List.replicate 12 0, 2, len⟩
/-- the prefix for all sources -/
def any : Netaddr := ⟨List.replicate 16 0, 2, 0⟩
def node (n : Nat) (edges : List Edge) (atts : List Att) : Target := ⟨⟨ip 0 n, any⟩, true, false, false, false, ip 0 n, edges, atts, 0⟩
def net (n count : Nat) : Target := ⟨⟨ip n 0 24, any⟩, false, false, false, false, ip 0 0, [], [], count⟩

/-- Two neighbors 1 and 2 with metrics 10 and 2; a link from 2 to 1 with metric 3; network 5 is attached to 1 (metric 1),
network 6 to both (metrics 2 and 9).  Router 2 also has the address 10.0.9.9 and the two-hop neighbor address 10.0.9.8. -/
def w : Env where
  targets := [node 1 [⟨1, 4, false⟩] [⟨2, 1, 2⟩, ⟨3, 2, 2⟩], node 2 [⟨0, 3, false⟩] [⟨3, 9, 2⟩], net 5 1, net 6 2]
  neighs := [⟨ip 0 1, 1, some 0, 10, 10, 3, ip 0 1, [], []⟩, ⟨ip 0 2, 1, some 1, 2, 2, 3, ip 7 2, [ip 9 9], [[⟨ip 9 8, false, 6⟩, ⟨ip 9 7, true, 6⟩]]⟩]
  originator := fun _ => ip 0 100
  ifAddr := fun a => a == ip 0 100
  lan := fun _ => none
  routable := fun _ => true
  nhdpRoutable := true

def show_ (e : Entry) := (e.key.dst, e.cost, e.hops, e.next, e.p.gw)

/-- the routing table of the network -/
theorem table : ((calculate w 4 []).filter Entry.set).map show_ =
    [(ip 0 2, 2, 1, ip 0 2, some (ip 7 2)), (ip 0 1, 5, 2, ip 0 2, some (ip 7 2)), (ip 5 0 24, 6, 3, ip 0 2, some (ip 7 2)), (ip 6 0 24, 7, 3, ip 0 2, some (ip 7 2)),
      (ip 9 9, 2, 1, ip 0 2, some (ip 7 2)), (ip 9 8, 8, 2, ip 0 2, some (ip 7 2))] := by decide +kernel

/-- the four targets -/
theorem cases4 {P : Nat → Prop} (h0 : P 0) (h1 : P 1) (h2 : P 2) (h3 : P 3) (h4 : ∀ n, P (n + 4)) : ∀ n, P n
  | 0 => h0
  | 1 => h1
  | 2 => h2
  | 3 => h3
  | n + 4 => h4 n

theorem wf : WF w := by
  refine ⟨?_, ?_, ?_⟩
  · intro i t h
    match i with
    | 0 => cases h; decide
    | 1 => cases h; decide
    | n + 2 => cases h
  · intro t
    exact cases4 (P := fun t => ∀ e ∈ (w.target t).edges, e.dst < w.targets.length ∧ (w.target e.dst).isNode = true ∧ (w.target e.dst).key.dst.type = (w.target t).key.dst.type)
      (by decide) (by decide) (by decide) (by decide) (fun n e he => by cases he) t
  · intro t
    exact cases4 (P := fun t => ∀ a ∈ (w.target t).atts, a.dst < w.targets.length ∧ (w.target a.dst).isNode = false ∧ (w.target a.dst).loc = false ∧
      (w.target a.dst).key.dst.type = (w.target t).key.dst.type) (by decide) (by decide) (by decide) (by decide) (fun n e he => by cases he) t

theorem costOk : CostOk w := C40_small_network (by decide)
end Ex

example : WF Ex.w ∧ CostOk Ex.w ∧ Wanted Ex.w ⟨Ex.ip 6 0 24, Ex.any⟩ ∧ Reach Ex.w ⟨Ex.ip 6 0 24, Ex.any⟩ 1 7 3 (Ex.ip 0 1) := by
  refine ⟨Ex.wf, Ex.costOk, ⟨by decide, by decide, by decide⟩, ?_⟩
  exact .path (t := 3) (.attached (t := 0) (c := 5) (a := ⟨3, 2, 2⟩) (.edge (t := 1) (c := 2) (e := ⟨0, 3, false⟩) (.hop ⟨by decide, by decide, by decide, by decide, by decide⟩ rfl rfl)
    rfl (by decide) rfl (by decide) rfl) rfl (by decide) (by decide))

/-! ### where the claim is false -/

namespace ExSplit
/-- Neighbors 1 and 2; both support source specific routing and announce the network 5 for sources in 10.0.7.0/24, a third
router does not support it.  -/
def key : Key := ⟨Ex.ip 5 0 24, Ex.ip 7 0 24⟩
def node (n : Nat) (ss : Bool) (atts : List Att) : Target := ⟨⟨Ex.ip 0 n, Ex.any⟩, true, ss, ss, false, Ex.ip 0 n, [], atts, 0⟩
def w : Env where
  targets := [node 1 true [⟨3, 1, 2⟩], node 2 true [⟨3, 1, 2⟩], node 3 false [], ⟨key, false, false, false, false, Ex.ip 0 2, [], [], 2⟩]
  neighs := [⟨Ex.ip 0 1, 1, some 0, 1, 1, 3, Ex.ip 0 1, [], []⟩, ⟨Ex.ip 0 2, 1, some 1, 1, 1, 3, Ex.ip 0 2, [], []⟩]
  originator := fun _ => Ex.ip 0 100
  ifAddr := fun _ => false
  lan := fun _ => none
  routable := fun _ => true
  nhdpRoutable := true
end ExSplit

/-- **C40** is false for a source specific network that is announced by two routers while some other router does not
support source specific routing: the network can be reached, but never gets a route. -/
theorem C40_split_counterexample : Reach ExSplit.w ExSplit.key 0 2 2 (Ex.ip 0 1) ∧ Wanted ExSplit.w ExSplit.key ∧
    ∀ n, ∀ e ∈ calculate ExSplit.w (4 + n) [], e.key = ExSplit.key → e.set = false := by
  refine ⟨?_, ⟨by decide, by decide, by decide⟩, ?_⟩
  · exact .path (t := 3) (.attached (t := 0) (c := 1) (a := ⟨3, 1, 2⟩) (.hop ⟨by decide, by decide, by decide, by decide, by decide⟩ rfl rfl) rfl (by decide) (by decide))
  · intro n
    have h1 : ∀ (f : UInt8) (fl : Flags) (s : DState) (tbl : List Entry), (runDijkstra ExSplit.w 4 f fl s tbl).1.queue = [] → runDijkstra ExSplit.w (4 + n) f fl s tbl = runDijkstra ExSplit.w 4 f fl s tbl :=
      fun f fl s tbl h => loop_more 4 n _ _ h
    have : calculate ExSplit.w (4 + n) [] = calculate ExSplit.w 4 [] := by
      unfold calculate
      dsimp only
      rw [show split ExSplit.w AF_INET = true by decide +kernel, show split ExSplit.w AF_INET6 = false by decide +kernel]
      simp only [Bool.or_false, if_true, Bool.false_eq_true, if_false, Bool.not_true, Bool.not_false]
      rw [h1 AF_INET ⟨true, false⟩ prepareNodes (prepareRoutes []) (by decide +kernel)]
      generalize hr : runDijkstra ExSplit.w 4 AF_INET ⟨true, false⟩ prepareNodes (prepareRoutes []) = r1
      rw [h1 AF_INET6 ⟨true, true⟩ r1.1 r1.2 (by rw [← hr]; decide +kernel)]
      generalize hr2 : runDijkstra ExSplit.w 4 AF_INET6 ⟨true, true⟩ r1.1 r1.2 = r2
      rw [h1 AF_INET ⟨false, true⟩ prepareNodes r2.2 (by rw [← hr2, ← hr]; decide +kernel)]
    rw [this]
    decide +kernel

namespace ExChain
/-- a chain of 257 routers, all links have the maximum metric -/
def w : Env where
  targets := (List.range 257).map fun n => ⟨⟨Ex.ip (n / 256) (n % 256), Ex.any⟩, true, false, false, false, Ex.ip (n / 256) (n % 256), if n < 256 then [⟨n + 1, METRIC_MAX, false⟩] else [], [], 0⟩
  neighs := [⟨Ex.ip 0 0, 1, some 0, 1, METRIC_MAX, 3, Ex.ip 0 0, [], []⟩]
  originator := fun _ => Ex.ip 5 5
  ifAddr := fun _ => false
  lan := fun _ => none
  routable := fun _ => true
  nhdpRoutable := true

theorem target_lt {n : Nat} (h : n < 257) : w.target n = ⟨⟨Ex.ip (n / 256) (n % 256), Ex.any⟩, true, false, false, false, Ex.ip (n / 256) (n % 256), if n < 256 then [⟨n + 1, METRIC_MAX, false⟩] else [], [], 0⟩ := by
  unfold Env.target w
  rw [List.getD_eq_getElem?_getD, List.getElem?_map, List.getElem?_range h]
  rfl

theorem target_ge {n : Nat} (h : 257 ≤ n) : w.target n = noTarget := by
  unfold Env.target w
  rw [List.getD_eq_getElem?_getD, List.getElem?_eq_none (by rw [List.length_map, List.length_range]; exact h)]
  rfl

theorem path_cost {i t c h : Nat} {l : Netaddr} (hp : Path w i t c h l) : t < 257 ∧ c = (t + 1) * METRIC_MAX := by
  induction hp with
  | hop h1 h2 =>
    have : i = 0 := by
      have := h1.exists_
      have hl : w.neighs.length = 1 := rfl
      omega
    subst this
    cases h2
    exact ⟨by decide, rfl⟩
  | edge _ _ h3 _ _ _ ih =>
    rw [target_lt ih.1] at h3
    dsimp only at h3
    split at h3
    · rw [List.mem_singleton] at h3
      subst h3
      dsimp only
      refine ⟨by omega, ?_⟩
      rw [ih.2, Nat.add_mul (_ + 1) 1, Nat.one_mul]
    · cases h3
  | attached _ _ h3 _ ih =>
    rw [target_lt ih.1] at h3
    cases h3
end ExChain

/-- **C40** is false if the cost of a path does not fit into 32 bit: in a chain of 257 routers with links of maximum
metric the route to the last router gets a cost that is smaller than the cost of every path. -/
theorem C40_overflow_counterexample : (∃ e ∈ calculate ExChain.w 257 [], e.key = (ExChain.w.target 256).key ∧ e.set = true ∧ e.cost = 16711424) ∧
    ∀ i c h l, Path ExChain.w i 256 c h l → c = 4311678720 := by
  refine ⟨?_, fun i c h l hp => (ExChain.path_cost hp).2⟩
  have : ((calculate ExChain.w 257 []).any fun e => decide (e.key = (ExChain.w.target 256).key) && e.set && decide (e.cost = 16711424)) = true := by decide +kernel
  rw [List.any_eq_true] at this
  obtain ⟨e, he, h⟩ := this
  simp only [Bool.and_eq_true, decide_eq_true_eq] at h
  exact ⟨e, he, h.1.1, h.1.2, h.2⟩

end Verif.Routing
