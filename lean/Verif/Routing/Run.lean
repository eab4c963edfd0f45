import Verif.Routing.Core

/-! A run of the Dijkstra algorithm. -/
namespace Verif.Routing
open Verif.Netaddr (Netaddr)

theorem nodup_length {n : Nat} : ∀ {l : List Nat}, l.Nodup → (∀ x ∈ l, x < n) → l.length ≤ n := by
  induction n with
  | zero =>
    intro l _ h
    cases l with
    | nil => simp
    | cons x l => exact absurd (h x (by simp)) (by omega)
  | succ n ih =>
    intro l hl h
    have h1 : (l.filter (· ≠ n)).length ≤ n := by
      apply ih (hl.filter _)
      intro x hx
      simp at hx
      have := h x hx.1
      omega
    have h2 : l.length ≤ (l.filter (· ≠ n)).length + 1 := by
      have hc : l.count n ≤ 1 := List.nodup_iff_count.1 hl n
      have : l.length = (l.filter (· ≠ n)).length + l.count n := by
        clear hl h h1 hc
        induction l with
        | nil => rfl
        | cons x l ih =>
          by_cases hx : x = n
          · subst hx; simp at ih ⊢; omega
          · simp [hx] at ih ⊢; omega
      omega
    omega

/-- the number of nodes of the topology -/
def nodeCount (w : Env) : Nat := nodes w (List.range w.targets.length)

theorem nodes_le {w : Env} {D : List Nat} (hn : D.Nodup) (hr : ∀ t ∈ D, t < w.targets.length) : nodes w D ≤ nodeCount w := by
  unfold nodeCount nodes
  -- positions of the nodes in the list of all nodes
  have key : ∀ (L l : List Nat), l.Nodup → (∀ x ∈ l, x ∈ L) → l.length ≤ L.length := by
    intro L
    induction L with
    | nil =>
      intro l _ h
      cases l with
      | nil => simp
      | cons x l => exact absurd (h x (by simp)) (by simp)
    | cons y L ih =>
      intro l hl h
      by_cases hy : y ∈ l
      · have := ih (l.erase y) (hl.erase y) (by
          intro x hx
          rw [hl.mem_erase_iff] at hx
          rcases List.mem_cons.1 (h x hx.2) with h' | h'
          · exact absurd h' hx.1
          · exact h')
        rw [List.length_erase_of_mem hy] at this
        simp only [List.length_cons]
        omega
      · have := ih l hl (by
          intro x hx
          rcases List.mem_cons.1 (h x hx) with h' | h'
          · exact absurd (h' ▸ hx) hy
          · exact h')
        simp only [List.length_cons]
        omega
  apply key
  · exact hn.filter _
  · intro x hx
    rw [List.mem_filter] at hx ⊢
    exact ⟨List.mem_range.2 (hr x hx.1), hx.2⟩

/-- no path without loops is too expensive for 32 bits -/
def CostOk (w : Env) : Prop := ∀ i t c h l, Path w i t c h l → h ≤ nodeCount w → c + METRIC_MAX < 2 ^ 32

theorem PathF.path {w : Env} {f : UInt8} {fl : Flags} (hf : f = AF_INET ∨ f = AF_INET6) {i t c h : Nat} {l : Netaddr} (hp : PathF w f fl i t c h l) : Path w i t c h l := by
  induction hp with
  | hop h1 h2 h3 h4 h5 h6 h7 h8 =>
    rw [← h2]
    exact .hop ⟨h1, by rw [h2]; exact hf, h3, h4, h5⟩ h6 h7
  | edge _ h2 h3 h4 h5 h6 h7 ih => exact .edge ih h2 h3 h4 h5 h6
  | attached _ h2 h3 h4 h5 ih => exact .attached ih h2 h3 h4

/-! ### the first hops -/

theorem oneHop_spec {w : Env} (wf : WF w) {f : UInt8} {fl : Flags} {s : DState} (hb : Base w f fl s [] 1) (i : Nat) (hi : i < w.neighs.length) :
    Base w f fl (addOneHop w f fl s i) [] 1 ∧ (∀ v c, Covered s [] v c → Covered (addOneHop w f fl s i) [] v c) ∧
    ∀ t c h l, PathF w f fl i t c h l → h = 1 → (w.neigh i).node = some t → Covered (addOneHop w f fl s i) [] t c := by
  unfold addOneHop
  dsimp only
  -- if the neighbor is not used there is no path of one hop
  have none_ : ∀ t c h l, PathF w f fl i t c h l → h = 1 → (w.neigh i).origin.type = f ∧ (w.neigh i).symmetric ≠ 0 ∧ (w.neigh i).metricIn ≤ METRIC_MAX ∧
      (w.neigh i).metricOut ≤ METRIC_MAX ∧ (w.neigh i).node = some t ∧ (w.target t).loc = false ∧ (fl.nonSs = true ∨ ((w.target t).ss = true ∧ fl.ss = true)) ∧ c = (w.neigh i).metricOut := by
    intro t c h l hp h1
    cases hp with
    | hop h1 h2 h3 h4 h5 h6 h7 h8 => exact ⟨h2, h3, h4, h5, h6, h7, h8, rfl⟩
    | edge hp _ => exfalso; cases hp <;> omega
    | attached hp _ => exfalso; cases hp <;> omega
  by_cases c1 : (w.neigh i).origin.type ≠ f
  · rw [if_pos c1]
    exact ⟨hb, fun _ _ h => h, fun t c h l hp h1 _ => absurd (none_ t c h l hp h1).1 c1⟩
  rw [if_neg c1]
  have c1 : (w.neigh i).origin.type = f := Classical.not_not.1 c1
  by_cases c2 : (w.neigh i).symmetric = 0
  · rw [if_pos c2]
    exact ⟨hb, fun _ _ h => h, fun t c h l hp h1 _ => absurd c2 (none_ t c h l hp h1).2.1⟩
  rw [if_neg c2]
  cases hn : (w.neigh i).node with
  | none => exact ⟨hb, fun _ _ h => h, fun t c h l hp h1 hx => by cases hx⟩
  | some t =>
    dsimp only
    by_cases c3 : fl.nonSs = true ∨ ((w.target t).ss = true ∧ fl.ss = true)
    · rw [if_neg (by rcases c3 with h | h <;> simp [h])]
      by_cases c4 : (w.neigh i).metricIn > METRIC_MAX ∨ (w.neigh i).metricOut > METRIC_MAX
      · rw [if_pos c4]
        refine ⟨hb, fun _ _ h => h, ?_⟩
        intro t' c h l hp h1 hx
        obtain ⟨_, _, x, y, _⟩ := none_ t' c h l hp h1
        omega
      · rw [if_neg c4]
        obtain ⟨w1, w2, w3⟩ := wf.neigh i t hn
        by_cases c5 : (w.target t).loc = true
        · have : insert w s t i (w.neigh i).metricOut 0 0 0 true (w.originator f) = s := by
            unfold insert
            rw [if_neg (by omega), if_pos (.inl c5)]
          rw [this]
          refine ⟨hb, fun _ _ h => h, ?_⟩
          intro t' c h l hp h1 hx
          cases hx
          have := (none_ t c h l hp h1).2.2.2.2.2.1
          rw [c5] at this
          cases this
        · have c5 : (w.target t).loc = false := by simpa using c5
          have hp : PathF w f fl i t (0 + (w.neigh i).metricOut) (0 + 1) (w.originator f) := by
            rw [Nat.zero_add]
            exact .hop hi c1 c2 (by omega) (by omega) hn c5 c3
          have h := insert_spec hb (dist := 0) (by omega) c5 hp (by omega) rfl (by unfold METRIC_MAX at c4; omega) w1 (.inl w2) (by rw [w3]; exact c1)
            (by intro d hd; cases hd)
          rw [Nat.zero_mod] at h
          refine ⟨h.1, h.2.2.1, ?_⟩
          intro t' c h' l hp' h1 hx
          cases hx
          have := (none_ t c h' l hp' h1).2.2.2.2.2.2.2
          subst this
          have := h.2.1
          rwa [Nat.zero_add] at this
    · rw [if_pos (by
        cases h1 : fl.nonSs <;> cases h2 : (w.target t).ss <;> cases h3 : fl.ss <;> simp_all)]
      refine ⟨hb, fun _ _ h => h, ?_⟩
      intro t' c h l hp h1 hx
      cases hx
      exact absurd (none_ t c h l hp h1).2.2.2.2.2.2.1 c3

theorem oneHops_spec {w : Env} (wf : WF w) {f : UInt8} {fl : Flags} : ∀ (l : List Nat) (s : DState), Base w f fl s [] 1 → (∀ i ∈ l, i < w.neighs.length) →
    Base w f fl (l.foldl (addOneHop w f fl) s) [] 1 ∧ (∀ v c, Covered s [] v c → Covered (l.foldl (addOneHop w f fl) s) [] v c) ∧
    ∀ i ∈ l, ∀ t c h la, PathF w f fl i t c h la → h = 1 → (w.neigh i).node = some t → Covered (l.foldl (addOneHop w f fl) s) [] t c
  | [], s, hb, _ => ⟨hb, fun _ _ h => h, fun _ h => by cases h⟩
  | i :: l, s, hb, hi => by
    obtain ⟨a1, a2, a3⟩ := oneHop_spec wf hb i (hi i (by simp))
    obtain ⟨b1, b2, b3⟩ := oneHops_spec wf l _ a1 (fun j hj => hi j (by simp [hj]))
    refine ⟨b1, fun v c h => b2 v c (a2 v c h), ?_⟩
    intro j hj t c h la hp h1 hn
    rcases List.mem_cons.1 hj with rfl | hj
    · exact b2 _ _ (a3 t c h la hp h1 hn)
    · exact b3 j hj t c h la hp h1 hn

/-! ### one round -/

/-- an edge that is used -/
def EdgeOk (w : Env) (fl : Flags) (t : Nat) (e : Edge) : Prop :=
  e.virtual = false ∧ e.cost ≤ METRIC_MAX ∧ (w.target e.dst).loc = false ∧ (fl.nonSs = true ∨ (w.target t).ss = true)

/-- an attached network that is used -/
def AttOk (w : Env) (fl : Flags) (a : Att) : Prop :=
  a.cost ≤ METRIC_MAX ∧ (if (w.target a.dst).key.src.prefixLen > 0 then fl.ss else fl.nonSs) = true

theorem edges_spec {w : Env} (wf : WF w) {f : UInt8} {fl : Flags} {t b h : Nat} {D : List Nat} {d : DNode} (hn : (w.target t).isNode = true)
    (htf : (w.target t).key.dst.type = f)
    (hp : PathF w f fl d.first t d.cost h d.last) (hh : d.hops = h % 256) (hb : h + 1 ≤ b) (hc : d.cost + METRIC_MAX < 2 ^ 32) (h1 : 1 ≤ h) :
    ∀ (l : List Edge) (s : DState), (∀ e ∈ l, e ∈ (w.target t).edges) → Base w f fl s D b → (∀ v ∈ D, (s.node v).cost ≤ d.cost) →
      Base w f fl (l.foldl (handleEdge w fl t d) s) D b ∧ (∀ v c, Covered s D v c → Covered (l.foldl (handleEdge w fl t d) s) D v c) ∧
      (∀ v ∈ D, (l.foldl (handleEdge w fl t d) s).node v = s.node v) ∧
      ∀ e ∈ l, EdgeOk w fl t e → Covered (l.foldl (handleEdge w fl t d) s) D e.dst (d.cost + e.cost)
  | [], s, _, hB, _ => ⟨hB, fun _ _ h => h, fun _ _ => rfl, fun _ h => by cases h⟩
  | e :: l, s, hl, hB, hD => by
    have he := hl e (by simp)
    obtain ⟨w1, w2, w3⟩ := wf.edge t e he
    have key : Base w f fl (handleEdge w fl t d s e) D b ∧ (∀ v c, Covered s D v c → Covered (handleEdge w fl t d s e) D v c) ∧
        (∀ v ∈ D, (handleEdge w fl t d s e).node v = s.node v) ∧ (EdgeOk w fl t e → Covered (handleEdge w fl t d s e) D e.dst (d.cost + e.cost)) := by
      unfold handleEdge
      by_cases c1 : e.virtual = false ∧ e.cost ≤ METRIC_MAX
      · rw [if_pos c1]
        by_cases c2 : fl.nonSs = true ∨ (w.target t).ss = true
        · rw [if_neg (by rcases c2 with h | h <;> simp [h])]
          by_cases c3 : (w.target e.dst).loc = true
          · have : insert w s e.dst d.first e.cost d.cost d.hops 0 false (w.target t).key.dst = s := by
              unfold insert
              rw [if_neg (by omega), if_pos (.inl c3)]
            rw [this]
            refine ⟨hB, fun _ _ h => h, fun _ _ => rfl, fun h => ?_⟩
            have := h.2.2.1
            rw [c3] at this
            cases this
          · have c3 : (w.target e.dst).loc = false := by simpa using c3
            have := insert_spec hB (dist := 0) (single := false) c1.2 c3 (.edge hp hn he c1.1 c1.2 c3 c2) hb (by simp; omega) (by omega) w1 (.inl w2) (by rw [w3]; exact htf)
              (fun v hv => by have := hD v hv; omega)
            rw [hh]
            exact ⟨this.1, this.2.2.1, this.2.2.2, fun _ => this.2.1⟩
        · rw [if_pos (by cases h1 : fl.nonSs <;> cases h2 : (w.target t).ss <;> simp_all)]
          exact ⟨hB, fun _ _ h => h, fun _ _ => rfl, fun h => absurd h.2.2.2 c2⟩
      · rw [if_neg c1]
        exact ⟨hB, fun _ _ h => h, fun _ _ => rfl, fun h => absurd ⟨h.1, h.2.1⟩ c1⟩
    obtain ⟨k1, k2, k3, k4⟩ := key
    obtain ⟨a1, a2, a3, a4⟩ := edges_spec wf hn htf hp hh hb hc h1 l _ (fun x hx => hl x (by simp [hx])) k1 (fun v hv => by rw [k3 v hv]; exact hD v hv)
    refine ⟨a1, fun v c h => a2 v c (k2 v c h), fun v hv => by rw [List.foldl_cons, a3 v hv, k3 v hv], ?_⟩
    intro x hx hok
    rcases List.mem_cons.1 hx with rfl | hx
    · exact a2 _ _ (k4 hok)
    · exact a4 x hx hok

/-- marking a target that is never in the queue -/
theorem mark_spec {w : Env} {f : UInt8} {fl : Flags} {s : DState} {D : List Nat} {b x : Nat} (hB : Base w f fl s D b) (hx : ¬ Queued w x) :
    let s' : DState := { s with node := fun v => if v = x then { s.node v with done := true } else s.node v }
    Base w f fl s' D b ∧ (∀ v c, Covered s D v c → Covered s' D v c) ∧ ∀ v ∈ D, s'.node v = s.node v := by
  intro s'
  have hcost : ∀ v, (s'.node v).cost = (s.node v).cost := by
    intro v
    show (if v = x then { s.node v with done := true } else s.node v).cost = _
    split <;> rfl
  have hne : ∀ v, v ∈ D ∨ v ∈ s.queue → v ≠ x := by
    rintro v hv rfl
    exact hx (hB.range v hv).2.1
  have hnode : ∀ v, v ≠ x → s'.node v = s.node v := fun v hv => if_neg hv
  refine ⟨⟨?_, ?_, hB.range, hB.disj, hB.nodupQ, hB.nodupD, ?_, ?_⟩, ?_, ?_⟩
  · intro v hv
    rw [hnode v (hne v hv)]
    exact hB.real v hv
  · intro v hvf hvq
    rw [hnode v (fun e => hx (e ▸ hvq))]
    exact hB.done v hvf hvq
  · refine hB.sorted.imp ?_
    intro a b hab
    rw [hcost, hcost]
    exact hab
  · intro d hd q hq
    rw [hcost, hcost]
    exact hB.mono d hd q hq
  · intro v c hv
    exact ⟨hv.1, by rw [hcost]; exact hv.2⟩
  · intro v hv
    exact hnode v (hne v (.inl hv))

/-- the call for an attached network of the target `t` -/
def attCall (w : Env) (t : Nat) (d : DNode) (a : Att) : Call :=
  ⟨(w.target a.dst).key, (w.target t).key.dst, d.first, a.distance, d.cost + a.cost, (d.hops + 1) % 256, false, (w.target t).key.dst⟩

/-- the call for a target -/
def nodeCall (w : Env) (t : Nat) (d : DNode) : Call :=
  ⟨(w.target t).key, (w.target t).origin, d.first, d.distance, d.cost, d.hops, d.single, d.last⟩

/-- a call describes a path -/
def Sound (w : Env) (f : UInt8) (fl : Flags) (c : Call) : Prop :=
  (∃ t h, PathF w f fl c.first t c.cost h c.last ∧ c.key = (w.target t).key ∧ c.hops = h % 256 ∧ c.single = decide (h = 1)) ∧
  (fl.nonSs = false → c.key.src.prefixLen > 0)

theorem atts_spec {w : Env} (wf : WF w) {f : UInt8} {fl : Flags} {t b h : Nat} {D : List Nat} {d : DNode} (hn : (w.target t).isNode = true)
    (htf : (w.target t).key.dst.type = f)
    (hp : PathF w f fl d.first t d.cost h d.last) (hh : d.hops = h % 256) (hb : h + 1 ≤ b) (hc : d.cost + METRIC_MAX < 2 ^ 32) (h1 : 1 ≤ h) :
    ∀ (l : List Att) (s : DState) (tbl : List Entry), (∀ a ∈ l, a ∈ (w.target t).atts) → Base w f fl s D b → (∀ v ∈ D, (s.node v).cost ≤ d.cost) →
      ∃ (s' : DState) (log : List Call), l.foldl (handleAtt w fl t d) (s, tbl) = (s', log.foldl (update w) tbl) ∧ Base w f fl s' D b ∧ (∀ v c, Covered s D v c → Covered s' D v c) ∧
      (∀ v ∈ D, s'.node v = s.node v) ∧ (∀ a ∈ l, AttOk w fl a → 1 < (w.target a.dst).count → Covered s' D a.dst (d.cost + a.cost)) ∧
      (∀ a ∈ l, AttOk w fl a → ¬ 1 < (w.target a.dst).count → attCall w t d a ∈ log) ∧ ∀ c ∈ log, Sound w f fl c
  | [], s, tbl, _, hB, _ => ⟨s, [], rfl, hB, fun _ _ h => h, fun _ _ => rfl, fun _ h => (by cases h), fun _ h => (by cases h), fun _ h => by cases h⟩
  | a :: l, s, tbl, hl, hB, hD => by
    have ha := hl a (by simp)
    obtain ⟨w1, w2, w3, w4⟩ := wf.att t a ha
    have key : ∃ (s' : DState) (log : List Call), handleAtt w fl t d (s, tbl) a = (s', log.foldl (update w) tbl) ∧ Base w f fl s' D b ∧ (∀ v c, Covered s D v c → Covered s' D v c) ∧
        (∀ v ∈ D, s'.node v = s.node v) ∧ (AttOk w fl a → 1 < (w.target a.dst).count → Covered s' D a.dst (d.cost + a.cost)) ∧
        (AttOk w fl a → ¬ 1 < (w.target a.dst).count → attCall w t d a ∈ log) ∧ ∀ c ∈ log, Sound w f fl c := by
      unfold handleAtt
      dsimp only
      by_cases c1 : a.cost ≤ METRIC_MAX
      · rw [if_pos c1]
        by_cases c2 : (if (w.target a.dst).key.src.prefixLen > 0 then fl.ss else fl.nonSs) = true
        · rw [if_neg (by rw [c2]; simp)]
          have hp' := PathF.attached hp hn ha c1 c2
          by_cases c3 : (w.target a.dst).count > 1
          · rw [if_pos c3]
            have := insert_spec hB (dist := a.distance) (single := false) c1 w3 hp' hb (by simp; omega) (by omega) w1 (.inr c3) (by rw [w4]; exact htf)
              (fun v hv => by have := hD v hv; omega)
            refine ⟨_, [], rfl, ?_⟩
            rw [hh]
            exact ⟨this.1, this.2.2.1, this.2.2.2, fun _ _ => this.2.1, fun _ h => absurd c3 h, fun _ h => by cases h⟩
          · rw [if_neg c3]
            obtain ⟨m1, m2, m3⟩ := mark_spec hB (x := a.dst) (by
              rintro (h | h)
              · rw [w2] at h; cases h
              · exact c3 h)
            refine ⟨_, [attCall w t d a], ?_, m1, m2, m3, fun _ h => absurd h c3, fun _ _ => by simp, ?_⟩
            · rw [Nat.mod_eq_of_lt (by omega)]
              rfl
            · intro c hc
              rw [List.mem_singleton] at hc
              subst hc
              refine ⟨⟨a.dst, h + 1, hp', rfl, ?_, ?_⟩, ?_⟩
              · show (d.hops + 1) % 256 = _
                omega
              · show false = _
                rw [eq_comm, decide_eq_false_iff_not]
                omega
              · intro h0
                show (w.target a.dst).key.src.prefixLen > 0
                by_cases h' : (w.target a.dst).key.src.prefixLen > 0
                · exact h'
                · rw [if_neg h', h0] at c2
                  cases c2
        · rw [if_pos (by simpa using c2)]
          exact ⟨s, [], rfl, hB, fun _ _ h => h, fun _ _ => rfl, fun h => absurd h.2 c2, fun h => absurd h.2 c2, fun _ h => by cases h⟩
      · rw [if_neg c1]
        exact ⟨s, [], rfl, hB, fun _ _ h => h, fun _ _ => rfl, fun h => absurd h.1 c1, fun h => absurd h.1 c1, fun _ h => by cases h⟩
    obtain ⟨s1, log1, k1, k2, k3, k4, k5, k6, k7⟩ := key
    obtain ⟨s2, log2, a1, a2, a3, a4, a5, a6, a7⟩ := atts_spec wf hn htf hp hh hb hc h1 l s1 (log1.foldl (update w) tbl) (fun x hx => hl x (by simp [hx])) k2
      (fun v hv => by rw [k4 v hv]; exact hD v hv)
    refine ⟨s2, log1 ++ log2, ?_, a2, fun v c h => a3 v c (k3 v c h), fun v hv => by rw [a4 v hv, k4 v hv], ?_, ?_, ?_⟩
    · rw [List.foldl_cons, k1, a1, List.foldl_append]
    · intro x hx hok hcnt
      rcases List.mem_cons.1 hx with rfl | hx
      · exact a3 _ _ (k5 hok hcnt)
      · exact a5 x hx hok hcnt
    · intro x hx hok hcnt
      rcases List.mem_cons.1 hx with rfl | hx
      · exact List.mem_append_left _ (k6 hok hcnt)
      · exact List.mem_append_right _ (a6 x hx hok hcnt)
    · intro c hc
      rcases List.mem_append.1 hc with hc | hc
      · exact k7 c hc
      · exact a7 c hc

/-! ### the loop -/

/-- everything behind a target that is done is done or in the queue -/
def Closed (w : Env) (fl : Flags) (s : DState) (D : List Nat) (t : Nat) : Prop :=
  (w.target t).isNode = true → (∀ e ∈ (w.target t).edges, EdgeOk w fl t e → Covered s D e.dst ((s.node t).cost + e.cost)) ∧
    ∀ a ∈ (w.target t).atts, AttOk w fl a → 1 < (w.target a.dst).count → Covered s D a.dst ((s.node t).cost + a.cost)

/-- the invariant of the loop -/
structure Inv (w : Env) (f : UInt8) (fl : Flags) (s : DState) (D : List Nat) : Prop where
  base : Base w f fl s D (nodes w D + 1)
  start : ∀ i t c h l, PathF w f fl i t c h l → h = 1 → (w.neigh i).node = some t → Covered s D t c
  closed : ∀ t ∈ D, Closed w fl s D t

theorem PathF.hops_pos {w : Env} {f : UInt8} {fl : Flags} {i t c h : Nat} {l : Netaddr} (hp : PathF w f fl i t c h l) : 1 ≤ h := by
  cases hp <;> omega

/-- every path is behind the queue or done -/
theorem Inv.front {w : Env} (wf : WF w) {f : UInt8} {fl : Flags} {s : DState} {D : List Nat} (hI : Inv w f fl s D)
    {i t c h : Nat} {l : Netaddr} (hp : PathF w f fl i t c h l) : Queued w t → (t ∈ D ∧ (s.node t).cost ≤ c) ∨ ∃ q ∈ s.queue, (s.node q).cost ≤ c := by
  induction hp with
  | hop h1 h2 h3 h4 h5 h6 h7 h8 =>
    intro _
    have := hI.start _ _ _ _ _ (.hop h1 h2 h3 h4 h5 h6 h7 h8) rfl h6
    rcases this.1 with h | h
    · exact .inl ⟨h, this.2⟩
    · exact .inr ⟨_, h, this.2⟩
  | edge _ h2 h3 h4 h5 h6 h7 ih =>
    intro _
    rcases ih (.inl h2) with ⟨hd, hc⟩ | ⟨q, hq, hc⟩
    · have := (hI.closed _ hd h2).1 _ h3 ⟨h4, h5, h6, h7⟩
      rcases this.1 with h | h
      · exact .inl ⟨h, by have := this.2; omega⟩
      · exact .inr ⟨_, h, by have := this.2; omega⟩
    · exact .inr ⟨q, hq, by omega⟩
  | attached _ h2 h3 h4 h5 ih =>
    rename_i t' c' h' l' a hp'
    intro hq
    rcases ih (.inl h2) with ⟨hd, hc⟩ | ⟨q, hq, hc⟩
    · by_cases hcount : 1 < (w.target a.dst).count
      · have := (hI.closed _ hd h2).2 _ h3 ⟨h4, h5⟩ hcount
        rcases this.1 with h | h
        · exact .inl ⟨h, by have := this.2; omega⟩
        · exact .inr ⟨_, h, by have := this.2; omega⟩
      · exfalso
        rcases hq with h | h
        · rw [(wf.att _ a h3).2.1] at h; cases h
        · exact hcount h
    · exact .inr ⟨q, hq, by omega⟩

/-- the log of a run: every target that is done and every attached network behind it has its call, all calls describe
paths -/
structure Log (w : Env) (f : UInt8) (fl : Flags) (s : DState) (D : List Nat) (log : List Call) : Prop where
  node : fl.nonSs = true → ∀ t ∈ D, nodeCall w t (s.node t) ∈ log
  att : ∀ t ∈ D, (w.target t).isNode = true → ∀ a ∈ (w.target t).atts, AttOk w fl a → ¬ 1 < (w.target a.dst).count → attCall w t (s.node t) a ∈ log
  sound : ∀ c ∈ log, Sound w f fl c

theorem handle_spec {w : Env} (wf : WF w) (hcost : CostOk w) {f : UInt8} (hf : f = AF_INET ∨ f = AF_INET6) {fl : Flags} {s : DState} {D : List Nat} (hI : Inv w f fl s D)
    {t : Nat} {q : List Nat} (hq : s.queue = t :: q) (tbl : List Entry) {log : List Call} (hL : Log w f fl s D log) :
    ∃ (s' : DState) (log' : List Call), handle w fl s tbl t q = (s', log'.foldl (update w) tbl) ∧ Inv w f fl s' (t :: D) ∧ Log w f fl s' (t :: D) (log ++ log') := by
  have hB := hI.base
  have htq : t ∈ s.queue := by rw [hq]; simp
  obtain ⟨htr, htQ, htf⟩ := hB.range t (.inr htq)
  have htD := hB.disj t htq
  have hnodup := hB.nodupQ
  rw [hq, List.nodup_cons] at hnodup
  have hsorted := hB.sorted
  rw [hq, List.pairwise_cons] at hsorted
  obtain ⟨h, hp, hhops, hbound, hsingle⟩ := hB.real t (.inr htq)
  -- the state after the target is removed from the queue
  let s1 : DState := ⟨fun x => if x = t then { s.node x with done := true } else s.node x, q⟩
  have hnode : ∀ v, v ≠ t → s1.node v = s.node v := fun v hv => if_neg hv
  have hnodet : s1.node t = { s.node t with done := true } := if_pos rfl
  have hc1 : ∀ v, (s1.node v).cost = (s.node v).cost := by
    intro v
    by_cases hv : v = t
    · subst hv; rw [hnodet]
    · rw [hnode v hv]
  have hne : ∀ v ∈ D, v ≠ t := fun v hv e => htD (e ▸ hv)
  have hcov : ∀ v c, Covered s D v c → Covered s1 (t :: D) v c := by
    intro v c hv
    refine ⟨?_, by rw [hc1]; exact hv.2⟩
    rcases hv.1 with h | h
    · exact .inl (by simp [h])
    · rw [hq] at h
      rcases List.mem_cons.1 h with rfl | h
      · exact .inl (by simp)
      · exact .inr h
  have hreal : ∀ v b, Real w f fl (s.node v) v b → Real w f fl (s1.node v) v b := by
    intro v b hv
    by_cases e : v = t
    · subst e
      obtain ⟨h, a1, a2, a3, a4⟩ := hv
      rw [hnodet]
      exact ⟨h, a1, a2, a3, a4⟩
    · rw [hnode v e]
      exact hv
  have hB1 : Base w f fl s1 (t :: D) (nodes w (t :: D) + 1) := by
    have hle : nodes w D ≤ nodes w (t :: D) := by
      unfold nodes
      rw [List.filter_cons]
      split <;> simp
    refine ⟨?_, ?_, ?_, ?_, hnodup.2, List.nodup_cons.2 ⟨htD, hB.nodupD⟩, ?_, ?_⟩
    · intro v hv
      apply hreal
      obtain ⟨h, a1, a2, a3, a4⟩ := hB.real v (by
        rcases hv with hv | hv
        · rcases List.mem_cons.1 hv with rfl | hv
          · exact .inr htq
          · exact .inl hv
        · exact .inr (by rw [hq]; exact List.mem_cons_of_mem _ hv))
      exact ⟨h, a1, a2, by omega, a4⟩
    · intro v hvf hvq
      by_cases e : v = t
      · subst e; rw [hnodet]; simp
      · rw [hnode v e, hB.done v hvf hvq]
        simp [e]
    · intro v hv
      apply hB.range
      rcases hv with hv | hv
      · rcases List.mem_cons.1 hv with rfl | hv
        · exact .inr htq
        · exact .inl hv
      · exact .inr (by rw [hq]; exact List.mem_cons_of_mem _ hv)
    · intro v hv hvD
      rcases List.mem_cons.1 hvD with rfl | hvD
      · exact hnodup.1 hv
      · exact hB.disj v (by rw [hq]; exact List.mem_cons_of_mem _ hv) hvD
    · refine hsorted.2.imp ?_
      intro a b hab
      rw [hc1, hc1]
      exact hab
    · intro d hd v hv
      rw [hc1, hc1]
      rcases List.mem_cons.1 hd with rfl | hd
      · exact hsorted.1 v hv
      · exact hB.mono d hd v (by rw [hq]; exact List.mem_cons_of_mem _ hv)
  -- the call for the target
  let d := s1.node t
  have hd : d = { s.node t with done := true } := hnodet
  let log1 : List Call := if fl.nonSs then [nodeCall w t d] else []
  have hlog1 : ∀ c ∈ log1, Sound w f fl c := by
    intro c hc
    by_cases e : fl.nonSs = true
    · have : log1 = [nodeCall w t d] := if_pos e
      rw [this, List.mem_singleton] at hc
      subst hc
      refine ⟨⟨t, h, ?_, rfl, ?_, ?_⟩, fun h0 => by rw [e] at h0; cases h0⟩
      · show PathF w f fl d.first t d.cost h d.last
        rw [hd]; exact hp
      · show d.hops = _
        rw [hd]; exact hhops
      · show d.single = _
        rw [hd]; exact hsingle
    · have : log1 = [] := if_neg e
      rw [this] at hc
      cases hc
  have hcall : ∀ c, nodeCall w t c = ⟨(w.target t).key, (w.target t).origin, c.first, c.distance, c.cost, c.hops, c.single, c.last⟩ := fun _ => rfl
  have htbl : (if fl.nonSs then update w tbl ⟨(w.target t).key, (w.target t).origin, d.first, d.distance, d.cost, d.hops, d.single, d.last⟩ else tbl) =
      log1.foldl (update w) tbl := by
    show _ = List.foldl (update w) tbl (if fl.nonSs then [nodeCall w t d] else [])
    split <;> rfl
  have hhandle : handle w fl s tbl t q = if (w.target t).isNode then
      (w.target t).atts.foldl (handleAtt w fl t d) ((w.target t).edges.foldl (handleEdge w fl t d) s1, log1.foldl (update w) tbl) else (s1, log1.foldl (update w) tbl) := by
    rw [← htbl]
    rfl
  rw [hhandle]
  have logNode : ∀ (s' : DState) (log2 : List Call), (∀ v ∈ t :: D, s'.node v = s1.node v) →
      fl.nonSs = true → ∀ v ∈ t :: D, nodeCall w v (s'.node v) ∈ log ++ (log1 ++ log2) := by
    intro s' log2 hs' hns v hv
    rw [hs' v hv]
    rcases List.mem_cons.1 hv with rfl | hv
    · apply List.mem_append_right
      apply List.mem_append_left
      have : log1 = [nodeCall w v d] := if_pos hns
      rw [this]
      simp [d]
    · rw [hnode v (hne v hv)]
      exact List.mem_append_left _ (hL.node hns v hv)
  by_cases hn : (w.target t).isNode = true
  · rw [if_pos hn]
    have hN : nodes w (t :: D) = nodes w D + 1 := by
      unfold nodes
      rw [List.filter_cons, if_pos hn, List.length_cons]
    have hNle : nodes w (t :: D) ≤ nodeCount w := nodes_le (List.nodup_cons.2 ⟨htD, hB.nodupD⟩) (fun v hv => (hB1.range v (.inl hv)).1)
    have hcb : d.cost + METRIC_MAX < 2 ^ 32 := by
      rw [hd]
      exact hcost _ _ _ _ _ (hp.path hf) (by omega)
    have hpd : PathF w f fl d.first t d.cost h d.last := by rw [hd]; exact hp
    have hDle : ∀ v ∈ t :: D, (s1.node v).cost ≤ d.cost := by
      intro v hv
      rw [hc1]
      show _ ≤ (s1.node t).cost
      rw [hc1]
      rcases List.mem_cons.1 hv with rfl | hv
      · exact Nat.le_refl _
      · exact hB.mono v hv t htq
    obtain ⟨e1, e2, e3, e4⟩ := edges_spec wf hn htf hpd (by rw [hd]; exact hhops) (b := nodes w (t :: D) + 1) (by omega) hcb hp.hops_pos
      (w.target t).edges s1 (fun _ h => h) hB1 hDle
    obtain ⟨s', log2, a1, a2, a3, a4, a5, a6, a7⟩ := atts_spec wf hn htf hpd (by rw [hd]; exact hhops) (b := nodes w (t :: D) + 1) (by omega) hcb hp.hops_pos
      (w.target t).atts _ (log1.foldl (update w) tbl) (fun _ h => h) e1 (fun v hv => by rw [e3 v hv]; exact hDle v hv)
    have hs' : ∀ v ∈ t :: D, s'.node v = s1.node v := fun v hv => by rw [a4 v hv, e3 v hv]
    have hcov' : ∀ v c, Covered s D v c → Covered s' (t :: D) v c := fun v c hv => a3 v c (e2 v c (hcov v c hv))
    refine ⟨s', log1 ++ log2, ?_, ⟨a2, ?_, ?_⟩, ⟨?_, ?_, ?_⟩⟩
    · rw [a1, List.foldl_append]
    · intro i v c h l hpv h1 hnv
      exact hcov' v c (hI.start i v c h l hpv h1 hnv)
    · intro v hv hvn
      rcases List.mem_cons.1 hv with rfl | hv'
      · rw [hs' v hv]
        exact ⟨fun e he hok => a3 _ _ (e4 e he hok), fun a ha hok hcnt => a5 a ha hok hcnt⟩
      · rw [hs' v hv, hnode v (hne v hv')]
        obtain ⟨x, y⟩ := hI.closed v hv' hvn
        exact ⟨fun e he hok => hcov' _ _ (x e he hok), fun a ha hok hcnt => hcov' _ _ (y a ha hok hcnt)⟩
    · exact logNode s' log2 hs'
    · intro v hv hvn a ha hok hcnt
      rcases List.mem_cons.1 hv with rfl | hv'
      · rw [hs' v hv]
        exact List.mem_append_right _ (List.mem_append_right _ (a6 a ha hok hcnt))
      · rw [hs' v hv, hnode v (hne v hv')]
        exact List.mem_append_left _ (hL.att v hv' hvn a ha hok hcnt)
    · intro c hc
      rcases List.mem_append.1 hc with hc | hc
      · exact hL.sound c hc
      · rcases List.mem_append.1 hc with hc | hc
        · exact hlog1 c hc
        · exact a7 c hc
  · rw [if_neg hn]
    refine ⟨s1, log1, rfl, ⟨hB1, ?_, ?_⟩, ⟨?_, ?_, ?_⟩⟩
    · intro i v c h l hpv h1 hnv
      exact hcov v c (hI.start i v c h l hpv h1 hnv)
    · intro v hv hvn
      rcases List.mem_cons.1 hv with rfl | hv'
      · exact absurd hvn hn
      · rw [hnode v (hne v hv')]
        obtain ⟨x, y⟩ := hI.closed v hv' hvn
        exact ⟨fun e he hok => hcov _ _ (x e he hok), fun a ha hok hcnt => hcov _ _ (y a ha hok hcnt)⟩
    · have := logNode s1 [] (fun _ _ => rfl)
      rwa [List.append_nil] at this
    · intro v hv hvn a ha hok hcnt
      rcases List.mem_cons.1 hv with rfl | hv'
      · exact absurd hvn hn
      · rw [hnode v (hne v hv')]
        exact List.mem_append_left _ (hL.att v hv' hvn a ha hok hcnt)
    · intro c hc
      rcases List.mem_append.1 hc with hc | hc
      · exact hL.sound c hc
      · exact hlog1 c hc

/-- only the target itself and endpoints outside of the queue are marked -/
theorem handle_done {w : Env} (wf : WF w) {fl : Flags} {s : DState} {t v : Nat} {q : List Nat} {tbl : List Entry} (hv : v ≠ t) (hq : Queued w v) :
    ((handle w fl s tbl t q).1.node v).done = (s.node v).done := by
  have edges : ∀ (d : DNode) (l : List Edge) (s : DState), ((l.foldl (handleEdge w fl t d) s).node v).done = (s.node v).done := by
    intro d l
    induction l with
    | nil => intro s; rfl
    | cons e l ih =>
      intro s
      rw [List.foldl_cons, ih]
      unfold handleEdge
      split
      · split
        · rfl
        · exact insert_done v
      · rfl
  have atts : ∀ (d : DNode) (l : List Att) (st : DState × List Entry), (∀ a ∈ l, a ∈ (w.target t).atts) →
      ((l.foldl (handleAtt w fl t d) st).1.node v).done = (st.1.node v).done := by
    intro d l
    induction l with
    | nil => intro st _; rfl
    | cons a l ih =>
      intro st hl
      rw [List.foldl_cons, ih _ (fun x hx => hl x (by simp [hx]))]
      unfold handleAtt
      dsimp only
      generalize (if (w.target a.dst).key.src.prefixLen > 0 then fl.ss else fl.nonSs) = b
      split
      · split
        · rfl
        · split
          · exact insert_done v
          · rename_i hcnt
            dsimp only
            rw [if_neg]
            rintro rfl
            rcases hq with h | h
            · rw [(wf.att t a (hl a (by simp))).2.1] at h; cases h
            · exact hcnt h
      · rfl
  unfold handle
  dsimp only
  split
  · rw [atts _ _ _ (fun _ h => h)]
    dsimp only
    rw [edges]
    dsimp only
    rw [if_neg hv]
  · dsimp only
    rw [if_neg hv]

theorem oneHops_done {w : Env} {f : UInt8} {fl : Flags} {s : DState} (v : Nat) : ((addOneHopNodes w f fl s).node v).done = (s.node v).done := by
  unfold addOneHopNodes
  generalize List.range w.neighs.length = l
  induction l generalizing s with
  | nil => rfl
  | cons i l ih =>
    rw [List.foldl_cons, ih]
    unfold addOneHop
    dsimp only
    split
    · rfl
    · split
      · rfl
      · split
        · rfl
        · split
          · rfl
          · split
            · rfl
            · exact insert_done v

theorem Inv.length {w : Env} {f : UInt8} {fl : Flags} {s : DState} {D : List Nat} (hI : Inv w f fl s D) {t : Nat} (ht : t ∈ s.queue) : D.length + 1 ≤ w.targets.length := by
  have := nodup_length (n := w.targets.length) (l := t :: D) (List.nodup_cons.2 ⟨hI.base.disj t ht, hI.base.nodupD⟩) (by
    intro v hv
    rcases List.mem_cons.1 hv with rfl | hv
    · exact (hI.base.range v (.inr ht)).1
    · exact (hI.base.range v (.inl hv)).1)
  simpa using this

theorem loop_spec {w : Env} (wf : WF w) (hcost : CostOk w) {f : UInt8} (hf : f = AF_INET ∨ f = AF_INET6) {fl : Flags} :
    ∀ (n : Nat) (s : DState) (D : List Nat) (tbl : List Entry) (log : List Call), Inv w f fl s D → Log w f fl s D log → w.targets.length ≤ n + D.length →
      ∃ (s' : DState) (D' : List Nat) (log' : List Call), loop w fl n s tbl = (s', log'.foldl (update w) tbl) ∧ s'.queue = [] ∧ Inv w f fl s' D' ∧ Log w f fl s' D' (log ++ log') ∧
        ∀ v, (w.target v).key.dst.type ≠ f → Queued w v → (s'.node v).done = (s.node v).done
  | 0, s, D, tbl, log, hI, hL, hn => by
    refine ⟨s, D, [], rfl, ?_, hI, by rwa [List.append_nil], fun _ _ _ => rfl⟩
    cases hq : s.queue with
    | nil => rfl
    | cons t q =>
      have := hI.length (t := t) (by rw [hq]; simp)
      omega
  | n + 1, s, D, tbl, log, hI, hL, hn => by
    unfold loop
    cases hq : s.queue with
    | nil => exact ⟨s, D, [], rfl, hq, hI, by rwa [List.append_nil], fun _ _ _ => rfl⟩
    | cons t q =>
      dsimp only
      obtain ⟨s1, log1, a1, a2, a3⟩ := handle_spec wf hcost hf hI hq tbl hL
      have hdone : ∀ v, (w.target v).key.dst.type ≠ f → Queued w v → (s1.node v).done = (s.node v).done := by
        intro v hv hvq
        have := handle_done wf (fl := fl) (s := s) (t := t) (q := q) (tbl := tbl) (fun e => hv (by rw [e]; exact (hI.base.range t (.inr (by rw [hq]; simp))).2.2)) hvq
        rwa [a1] at this
      rw [a1]
      obtain ⟨s2, D2, log2, b1, b2, b3, b4, b5⟩ := loop_spec wf hcost hf n s1 (t :: D) (log1.foldl (update w) tbl) (log ++ log1) a2 a3 (by simp; omega)
      refine ⟨s2, D2, log1 ++ log2, ?_, b2, b3, by rw [← List.append_assoc]; exact b4, fun v hv hvq => by rw [b5 v hv hvq, hdone v hv hvq]⟩
      rw [b1, List.foldl_append]

/-- the number of rounds does not matter once it is large enough -/
theorem loop_more {w : Env} {fl : Flags} : ∀ (n k : Nat) (s : DState) (tbl : List Entry), (loop w fl n s tbl).1.queue = [] → loop w fl (n + k) s tbl = loop w fl n s tbl
  | 0, k, s, tbl, h => by
    have h : s.queue = [] := h
    cases k with
    | zero => rfl
    | succ k =>
      rw [Nat.zero_add]
      unfold loop
      rw [h]
  | n + 1, k, s, tbl, h => by
    rw [show n + 1 + k = n + k + 1 by omega]
    unfold loop at h ⊢
    cases hq : s.queue with
    | nil => rfl
    | cons t q =>
      rw [hq] at h
      dsimp only at h ⊢
      exact loop_more n k _ _ h

/-- a run: it ends with an empty queue, the calls for routing entries describe paths, and for every path there is a call
for its target that is not more expensive -/
theorem run_spec {w : Env} (wf : WF w) (hcost : CostOk w) {f : UInt8} (hf : f = AF_INET ∨ f = AF_INET6) (fl : Flags) (n : Nat) (hn : w.targets.length ≤ n)
    (s : DState) (tbl : List Entry) (hq : s.queue = []) (hdone : ∀ t, (w.target t).key.dst.type = f → Queued w t → (s.node t).done = false) :
    ∃ (s' : DState) (log : List Call), runDijkstra w n f fl s tbl = (s', log.foldl (update w) tbl) ∧ s'.queue = [] ∧ (∀ c ∈ log, Sound w f fl c) ∧
      (fl.nonSs = true → ∀ i t c h l, PathF w f fl i t c h l → ∃ x ∈ log, x.key = (w.target t).key ∧ x.cost ≤ c) ∧
      ∀ v, (w.target v).key.dst.type ≠ f → Queued w v → (s'.node v).done = (s.node v).done := by
  have hB : Base w f fl s [] 1 := by
    refine ⟨?_, ?_, ?_, ?_, ?_, List.nodup_nil, ?_, fun d hd => by cases hd⟩
    · intro t ht; rw [hq] at ht; simp at ht
    · intro t h1 h2; simp [hdone t h1 h2]
    · intro t ht; rw [hq] at ht; simp at ht
    · intro t ht; rw [hq] at ht; cases ht
    · rw [hq]; exact List.nodup_nil
    · rw [hq]; exact List.Pairwise.nil
  obtain ⟨o1, o2, o3⟩ := oneHops_spec wf (List.range w.neighs.length) s hB (fun i hi => List.mem_range.1 hi)
  have hI : Inv w f fl (addOneHopNodes w f fl s) [] := by
    refine ⟨o1, ?_, fun t ht => by cases ht⟩
    intro i t c h l hp h1 hnode
    refine o3 i ?_ t c h l hp h1 hnode
    rw [List.mem_range]
    clear o3 h1 hnode
    induction hp with
    | hop h1 => exact h1
    | edge _ _ _ _ _ _ _ ih => exact ih
    | attached _ _ _ _ _ ih => exact ih
  have hL : Log w f fl (addOneHopNodes w f fl s) [] [] := ⟨fun _ t ht => (by cases ht), fun t ht => (by cases ht), fun c hc => by cases hc⟩
  obtain ⟨s', D', log, l1, l2, l3, l4, l5⟩ := loop_spec wf hcost hf n _ [] tbl [] hI hL (by simp; omega)
  rw [List.nil_append] at l4
  refine ⟨s', log, l1, l2, l4.sound, ?_, fun v hv hvq => by rw [l5 v hv hvq, oneHops_done]⟩
  intro hns i t c h l hp
  have hdone : ∀ {i t c h : Nat} {l : Netaddr}, PathF w f fl i t c h l → Queued w t → t ∈ D' ∧ (s'.node t).cost ≤ c := by
    intro i t c h l hp hqt
    rcases l3.front wf hp hqt with h | ⟨q, hq, _⟩
    · exact h
    · rw [l2] at hq; cases hq
  by_cases hqt : Queued w t
  · obtain ⟨a, b⟩ := hdone hp hqt
    exact ⟨_, l4.node hns t a, rfl, b⟩
  · cases hp with
    | hop h1 h2 h3 h4 h5 h6 h7 h8 => exact absurd (.inl (wf.neigh _ _ h6).2.1) hqt
    | edge _ h2 h3 => exact absurd (.inl (wf.edge _ _ h3).2.1) hqt
    | attached hp' h2 h3 h4 h5 =>
      obtain ⟨a, b⟩ := hdone hp' (.inl h2)
      refine ⟨_, l4.att _ a h2 _ h3 ⟨h4, h5⟩ (fun h => hqt (.inr h)), rfl, ?_⟩
      show _ + _ ≤ _
      omega

end Verif.Routing
