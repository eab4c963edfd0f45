import Verif.Tc.ReadRun

/-
Properties of the topology database and the TC reader: C45, C46, C62.
-/
namespace Verif.Tc
open Verif.Netaddr (Netaddr)

/-! ### values for the examples -/

/-- the address 10.0.0.n -/
def ip (n : UInt8) : Netaddr := ⟨[10, 0, 0, n, 0, 0, 0, 0, 0, 0, 0, 0, 0, 0, 0, 0], 2, 32⟩
/-- the prefix 10.1.n.0/24 without source prefix -/
def net (n : UInt8) : Key := (⟨[10, 1, n, 0, 0, 0, 0, 0, 0, 0, 0, 0, 0, 0, 0, 0], 2, 24⟩, ⟨List.replicate 16 0, 2, 0⟩)
/-- a neighbor with metric `c` in domain 0 -/
def nb (n : UInt8) (c : Nat) : Address := ⟨ip n, net 0, [INFINITE, INFINITE, INFINITE, INFINITE], [c, INFINITE, INFINITE, INFINITE], some 1, none, true, true, true⟩
/-- an attached network -/
def lan (n : UInt8) : Address := ⟨ip 0, net n, [INFINITE, INFINITE, INFINITE, INFINITE], [1, INFINITE, INFINITE, INFINITE], none, some ⟨net n, [(0, 2)], true, true⟩, true, true, true⟩
/-- a complete TC -/
def msg (orig : UInt8) (ansn : UInt16) (addrs : List Address) : Tc := ⟨true, true, true, ip orig, true, ansn, true, true, addrs, false⟩

/-- history with two TCs of one router, the second drops a neighbor and moves a network -/
def hist : List Event := [.neighborChange none (some (ip 1)) true, .tc (msg 1 7 [nb 2 100, nb 3 200, lan 4]), .tc (msg 2 1 [nb 1 50]), .tc (msg 1 8 [nb 2 300, lan 5])]

theorem hist_plain : Plain hist := by
  intro m hm
  simp only [hist, List.mem_cons, List.not_mem_nil, or_false] at hm
  rcases hm with h | h | h | h
  · cases h
  · injection h with h
    subst h
    refine ⟨rfl, ?_⟩
    unfold Tc.NotSelf
    decide +kernel
  · injection h with h
    subst h
    refine ⟨rfl, ?_⟩
    unfold Tc.NotSelf
    decide +kernel
  · injection h with h
    subst h
    refine ⟨rfl, ?_⟩
    unfold Tc.NotSelf
    decide +kernel

/-! ### C45: well-formedness -/

/-- C45 for the functions of the database: a sequence of calls, in which no edge from a node to itself is added, never
touches a freed object and results in a well-formed database.  Missing: calls of `olsrv2_tc_edge_add` for the node itself,
see `C45_self_edge_counterexample`. -/
theorem C45_operations_partial (ops : List Op) (h : ∀ a b ok okn, Op.edgeAdd a b ok okn ∈ ops → a ≠ b) :
    ∃ db, run Db.init ops = some db ∧ WellFormed db := by
  obtain ⟨db, e, w⟩ := run_wf ops init_wf h
  exact ⟨db, e, w.toWellFormed⟩

example : ((run Db.init [.nodeAdd (ip 1) true 1 true, .edgeAdd (ip 1) (ip 2) true true, .nodeAdd (ip 2) true 5 true, .edgeAdd (ip 2) (ip 1) true true, .endpointAdd (ip 1) (net 1) false true true,
    .timeout (ip 1), .edgeRemove (ip 2) (ip 1)]).map fun db => (db.tree, db.endTree, (db.edges 1).isNone)) = some ([1], [], true) := by decide +kernel

/-- C45 for all that happens to the database, received TCs included: nothing freed is touched, the database is well-formed,
and if no validity time is 0 all objects are supported by valid information.  Missing: TCs without the mandatory TLVs,
TCs that list their originator, and support for TCs with validity time 0; see the counterexamples. -/
theorem C45_wellformed_partial (es : List Event) (h : Plain es) :
    ∃ s, events St.init es = some s ∧ WellFormed s.db ∧ ((∀ m, Event.tc m ∈ es → m.vtime = true) → Supported s.db) := by
  obtain ⟨s, e, w, su⟩ := events_wf es (s := St.init) init_wf h
  exact ⟨s, e, w.toWellFormed, fun hv => (su hv init_sup).supported w⟩

example : Plain hist ∧ ((events St.init hist).map fun s => s.db.tree.filterMap fun i => (s.db.nodes i).map fun n => (n.addr, n.ansn, n.direct, n.edges.length, n.atts.length)) =
    some [(ip 1, 8, true, 1, 1), (ip 2, 1, false, 1, 0)] := ⟨hist_plain, by decide +kernel⟩

/-- a TC that lists its originator as neighbor makes the next TC of the originator remove an edge from a tree that does
not contain it -/
theorem C45_self_edge_counterexample : ¬ ∀ es : List Event, (∀ m, Event.tc m ∈ es → m.constraints = true) → ∃ s, events St.init es = some s := by
  intro h
  obtain ⟨s, hs⟩ := h [.tc (msg 1 1 [nb 1 100]), .tc (msg 1 2 [])] (by
    intro m hm
    simp only [List.mem_cons, List.not_mem_nil, or_false] at hm
    rcases hm with h | h <;> (injection h with h; subst h; rfl))
  have : (events St.init [.tc (msg 1 1 [nb 1 100]), .tc (msg 1 2 [])]).isNone = true := by decide +kernel
  rw [hs] at this
  cases this

/-- `_current.node` keeps pointing to the node after an outdated TC; if the node is freed a TC without mandatory TLVs, for
which `_cb_messagetlvs` is not called, makes the reader use the freed node -/
theorem C45_freed_node_counterexample : ¬ ∀ es : List Event, (∀ m, Event.tc m ∈ es → m.NotSelf) → ∃ s, events St.init es = some s := by
  intro h
  obtain ⟨s, hs⟩ := h [.tc (msg 1 2 []), .tc (msg 1 1 []), .timeout (ip 1), .tc { msg 2 1 [nb 3 100] with constraints := false }] (by
    intro m hm
    simp only [List.mem_cons, List.not_mem_nil, or_false] at hm
    unfold Tc.NotSelf
    rcases hm with h | h | h | h
    · injection h with h; subst h; decide +kernel
    · injection h with h; subst h; decide +kernel
    · cases h
    · injection h with h; subst h; decide +kernel)
  have : (events St.init [.tc (msg 1 2 []), .tc (msg 1 1 []), .timeout (ip 1), .tc { msg 2 1 [nb 3 100] with constraints := false }]).isNone = true := by decide +kernel
  rw [hs] at this
  cases this

/-- a TC with validity time 0 leaves information that nothing supports and that is never removed -/
theorem C45_support_counterexample : ¬ ∀ es : List Event, Plain es → ∃ s, events St.init es = some s ∧ Supported s.db := by
  intro h
  have hp : Plain [.tc { msg 1 1 [nb 2 100] with vtime := false }] := by
    intro m hm
    simp only [List.mem_cons, List.not_mem_nil, or_false] at hm
    injection hm with h
    subst h
    refine ⟨rfl, ?_⟩
    unfold Tc.NotSelf
    decide +kernel
  obtain ⟨s, hs, su⟩ := h _ hp
  have hn : (events St.init [.tc { msg 1 1 [nb 2 100] with vtime := false }]).map (fun s => (s.db.edges 2).map fun e => (e.virt, (s.db.nodes e.src).map (·.timer))) = some (some (false, some false)) := by decide +kernel
  rw [hs] at hn
  cases he : s.db.edges 2 with
  | none => rw [Option.map_some, he] at hn; cases hn
  | some ed =>
    rw [Option.map_some, he, Option.map_some] at hn
    injection hn with hn
    injection hn with hn
    injection hn with h1 h2
    obtain ⟨n, k1, k2⟩ := su.edge 2 ed he h1
    rw [k1, Option.map_some, k2] at h2
    cases h2

/-- a node that belonged to a neighbor stays for ever if the originator of the neighbor changes: the neighbor got
originator 1, then 2, then vanished; no neighbor and no TC is left but node 1 is -/
theorem C45_old_originator_counterexample :
    ((events St.init [.neighborChange none (some (ip 1)) true, .neighborChange (some (ip 1)) (some (ip 2)) true, .neighborRemove (some (ip 2))]).map fun s =>
      s.db.tree.filterMap fun i => (s.db.nodes i).map fun n => (n.addr, n.direct)) = some [(ip 1, true)] := by decide +kernel

/-- the pointer `originator` of an endpoint dangles if the node that was attached last is freed -/
theorem C45_endpoint_owner_counterexample :
    ¬ ∀ ops : List Op, (∀ a b ok okn, Op.edgeAdd a b ok okn ∈ ops → a ≠ b) → ∃ db, run Db.init ops = some db ∧ ∀ x en, db.ends x = some en → ∃ n, db.nodes en.owner = some n := by
  intro h
  obtain ⟨db, hr, hd⟩ := h [.nodeAdd (ip 1) true 1 true, .nodeAdd (ip 2) true 1 true, .endpointAdd (ip 1) (net 1) false true true, .endpointAdd (ip 2) (net 1) false true true, .nodeRemove (ip 2)] (by
    intro a b ok okn hm
    simp at hm)
  have hn : (run Db.init [.nodeAdd (ip 1) true 1 true, .nodeAdd (ip 2) true 1 true, .endpointAdd (ip 1) (net 1) false true true, .endpointAdd (ip 2) (net 1) false true true, .nodeRemove (ip 2)]).map
      (fun db => (db.ends 2).map fun en => (db.nodes en.owner).isSome) = some (some false) := by decide +kernel
  rw [hr] at hn
  cases he : db.ends 2 with
  | none => rw [Option.map_some, he] at hn; cases hn
  | some en =>
    rw [Option.map_some, he, Option.map_some] at hn
    obtain ⟨n, k⟩ := hd 2 en he
    rw [k] at hn
    cases hn

/-! ### C46: outdated information -/

/-- C46: in any state that a history leads to, an outdated TC changes nothing but validity timers.  Missing: TCs without the
mandatory TLVs, see `C46_malformed_counterexample`. -/
theorem C46_outdated_partial {es : List Event} {s : St} (he : Plain es) (hs : events St.init es = some s) {m : Tc} (hc : m.constraints = true) (ho : Outdated s.db m) :
    ∃ s', receive s m = some s' ∧ s'.db.edges = s.db.edges ∧ s'.db.atts = s.db.atts ∧ s'.db.ends = s.db.ends ∧ s'.db.tree = s.db.tree ∧ s'.db.endTree = s.db.endTree ∧
      ∀ j, (s'.db.nodes j).map (fun n => { n with timer := false }) = (s.db.nodes j).map fun n => { n with timer := false } := by
  obtain ⟨s0, e0, w, _⟩ := events_wf es (s := St.init) init_wf he
  rw [hs] at e0
  injection e0 with e0
  subst e0
  obtain ⟨i, n, hn, ha, ht, hout⟩ := ho
  unfold receive start
  rw [hc, if_neg (by decide)]
  cases m.pre with
  | false => exact ⟨_, rfl, rfl, rfl, rfl, rfl, rfl, fun _ => rfl⟩
  | true =>
    rw [if_neg (by decide)]
    cases m.process with
    | false => exact ⟨_, rfl, rfl, rfl, rfl, rfl, rfl, fun _ => rfl⟩
    | true =>
      rw [if_neg (by decide)]
      rcases nodeAdd_spec w.tree m.orig m.vtime m.ansn m.ok with ⟨a1, _⟩ | ⟨j, n', a1, a2, a3⟩
      · exact absurd ha (a1 i n hn)
      · have hij : j = i := w.tree.addr j i n' n a1 hn (a2.trans ha.symm)
        subst hij
        rw [hn] at a1
        injection a1 with a1
        subst a1
        rw [a3]
        dsimp only
        have hn2 : (s.db.setNode j { n with ansn := if n.timer then n.ansn else m.ansn, timer := m.vtime }).nodes j = some { n with ansn := if n.timer then n.ansn else m.ansn, timer := m.vtime } := upd_same _ _ _
        rw [hn2]
        dsimp only
        have hnodes : ∀ k, ((s.db.setNode j { n with ansn := if n.timer then n.ansn else m.ansn, timer := m.vtime }).nodes k).map (fun n => { n with timer := false }) = (s.db.nodes k).map fun n => { n with timer := false } := by
          intro k
          show (upd s.db.nodes j _ k).map _ = _
          unfold upd
          by_cases hk : k = j
          · subst hk
            rw [if_pos rfl, hn, ht, if_pos rfl]
            rfl
          · rw [if_neg hk]
        rw [ht, if_pos rfl] at *
        cases hm : m.complete with
        | true =>
          have hf : Follows m.ansn n.ansn := hout.resolve_right (fun h => by rw [hm] at h; cases h.1)
          rw [(follows_smaller hf).1, if_pos (by decide)]
          exact ⟨_, rfl, rfl, rfl, rfl, rfl, rfl, hnodes⟩
        | false =>
          rw [if_neg (by simp)]
          have hl : Codec.seqnoIsLarger m.ansn n.ansn = false := by
            rcases hout with hf | ⟨_, hf⟩
            · exact (follows_smaller hf).2
            · rw [hf]
              simp [Codec.seqnoIsLarger]
          rw [hl, if_pos (by decide)]
          exact ⟨_, rfl, rfl, rfl, rfl, rfl, rfl, hnodes⟩

example : ∃ s, events St.init hist = some s ∧ Outdated s.db (msg 1 7 [nb 9 1]) := by
  have h : (events St.init hist).map (fun s => (s.db.nodes 0).map fun n => (n.addr, n.timer, n.ansn)) = some (some (ip 1, true, 8)) := by decide +kernel
  cases hs : events St.init hist with
  | none => rw [hs] at h; cases h
  | some s =>
    refine ⟨s, rfl, ?_⟩
    rw [hs, Option.map_some] at h
    cases hn : s.db.nodes 0 with
    | none => rw [hn] at h; cases h
    | some n =>
      rw [hn, Option.map_some] at h
      injection h with h
      injection h with h
      injection h with h1 h2
      injection h2 with h2 h3
      exact ⟨0, n, hn, h1, h2, .inl ⟨1, by decide, by decide, by rw [h3]; decide +kernel⟩⟩

/-- the stored sequence number of a router with valid information only moves forward -/
theorem C46_forward {es : List Event} {s : St} (he : Plain es) (hs : events St.init es = some s) {m : Tc} (hc : m.constraints = true) (hself : m.NotSelf) {i : Nat} {n : Node}
    (hn : s.db.nodes i = some n) (ha : n.addr = m.orig) (ht : n.timer = true) :
    ∃ s' n', receive s m = some s' ∧ s'.db.nodes i = some n' ∧ n'.addr = m.orig ∧ (n'.ansn = n.ansn ∨ Follows n.ansn n'.ansn) := by
  obtain ⟨s0, e0, w, _⟩ := events_wf es (s := St.init) init_wf he
  rw [hs] at e0
  injection e0 with e0
  subst e0
  have key : ∃ s1 b n1, start s m = some (s1, b) ∧ s1.db.nodes i = some n1 ∧ n1.addr = m.orig ∧ (n1.ansn = n.ansn ∨ Follows n.ansn n1.ansn) ∧ (b = true → s1.node = some i) := by
    unfold start
    rw [hc, if_neg (by decide)]
    cases m.pre with
    | false => exact ⟨_, _, n, rfl, hn, ha, .inl rfl, fun h => (by cases h)⟩
    | true =>
      rw [if_neg (by decide)]
      cases m.process with
      | false => exact ⟨_, _, n, rfl, hn, ha, .inl rfl, fun h => (by cases h)⟩
      | true =>
        rw [if_neg (by decide)]
        rcases nodeAdd_spec w.tree m.orig m.vtime m.ansn m.ok with ⟨a1, _⟩ | ⟨j, n', a1, a2, a3⟩
        · exact absurd ha (a1 i n hn)
        · have hij : j = i := w.tree.addr j i n' n a1 hn (a2.trans ha.symm)
          subst hij
          rw [hn] at a1
          injection a1 with a1
          subst a1
          rw [a3]
          dsimp only
          rw [ht, if_pos rfl]
          have hn2 : (s.db.setNode j { n with ansn := n.ansn, timer := m.vtime }).nodes j = some { n with ansn := n.ansn, timer := m.vtime } := upd_same _ _ _
          rw [hn2]
          dsimp only
          by_cases h1 : (m.complete && Codec.seqnoIsSmaller m.ansn n.ansn) = true
          · rw [if_pos h1]
            exact ⟨_, _, _, rfl, hn2, ha, .inl rfl, fun h => (by cases h)⟩
          · rw [if_neg h1]
            by_cases h2 : (!m.complete && !Codec.seqnoIsLarger m.ansn n.ansn) = true
            · rw [if_pos h2]
              exact ⟨_, _, _, rfl, hn2, ha, .inl rfl, fun h => (by cases h)⟩
            · rw [if_neg h2]
              refine ⟨_, _, _, rfl, upd_same _ _ _, ha, ?_, fun _ => rfl⟩
              show m.ansn = n.ansn ∨ Follows n.ansn m.ansn
              cases hm : m.complete with
              | true =>
                rw [hm] at h1
                by_cases heq : m.ansn = n.ansn
                · exact .inl heq
                · right
                  rw [← follows_iff]
                  cases hl : Codec.seqnoIsLarger m.ansn n.ansn with
                  | true => rfl
                  | false =>
                    exfalso
                    apply h1
                    unfold Codec.seqnoIsSmaller
                    rw [hl]
                    simp [heq]
              | false =>
                rw [hm] at h2
                right
                rw [← follows_iff]
                cases hl : Codec.seqnoIsLarger m.ansn n.ansn with
                | true => rfl
                | false => rw [hl] at h2; exact absurd rfl h2
  obtain ⟨s1, b, n1, e1, hn1, ha1, hf, hb⟩ := key
  obtain ⟨s1', b', e1', w1, _⟩ := start_spec (s := s) w hc
  rw [e1] at e1'
  injection e1' with e1'
  injection e1' with q1 q2
  subst q1
  unfold receive
  rw [e1]
  cases b with
  | false => exact ⟨s1, n1, rfl, hn1, ha1, hf⟩
  | true =>
    obtain ⟨s2, e2, w2, i2, _, st2, _⟩ := addresses_spec m.addrs w1 (hb rfl) hn1 (fun a h q => by rw [ha1]; exact fun e => hself a h q e.symm)
    obtain ⟨n2, hn2, b1, b2, _⟩ := st2 n1 hn1
    dsimp only
    rw [e2]
    dsimp only
    cases m.dropped with
    | true => exact ⟨s2, n2, rfl, hn2, b1.trans ha1, by rw [b2]; exact hf⟩
    | false =>
      rw [if_neg (by decide)]
      obtain ⟨s3, e3, w3, _, _, st3, _⟩ := finish_spec w2 i2 hn2
      obtain ⟨n3, hn3, c1, c2, _⟩ := st3 n2 hn2
      exact ⟨s3, n3, e3, hn3, c1.trans (b1.trans ha1), by rw [c2, b2]; exact hf⟩

example : ((events St.init (hist ++ [.tc (msg 1 0x8008 []), .tc (msg 1 9 [])])).map fun s => (s.db.nodes 0).map (·.ansn)) = some (some 9) := by decide +kernel

/-- after an outdated TC the reader still holds the node, and a TC without mandatory TLVs from any other router adds edges to it -/
theorem C46_malformed_counterexample : ¬ ∀ (es : List Event) (s : St) (m : Tc), (∀ m, Event.tc m ∈ es → m.NotSelf) → events St.init es = some s → m.constraints = false → ∃ s', receive s m = some s' ∧ s'.db.edges = s.db.edges := by
  intro h
  have hd : ((events St.init [.tc (msg 1 2 []), .tc (msg 1 1 [])]).map fun s => ((s.db.edges 2).isSome, (receive s { msg 2 1 [nb 3 100] with constraints := false }).map fun s' => (s'.db.edges 2).isSome)) = some (false, some true) := by decide +kernel
  cases hs : events St.init [.tc (msg 1 2 []), .tc (msg 1 1 [])] with
  | none => rw [hs] at hd; cases hd
  | some s =>
    obtain ⟨s', h1, h2⟩ := h _ s { msg 2 1 [nb 3 100] with constraints := false } (by
      intro m hm
      simp only [List.mem_cons, List.not_mem_nil, or_false] at hm
      unfold Tc.NotSelf
      rcases hm with h | h <;> (injection h with h; subst h; decide +kernel)) hs rfl
    rw [hs, Option.map_some, h1, Option.map_some, h2] at hd
    injection hd with hd
    injection hd with k1 k2
    injection k2 with k2
    rw [k1] at k2
    cases k2

/-- an outdated TC with validity time 0 stops the validity timer, and the next outdated TC replaces the newer information -/
theorem C46_timer_counterexample :
    ((events St.init [.tc (msg 1 9 [nb 2 100]), .tc { msg 1 8 [nb 3 100] with vtime := false }, .tc (msg 1 8 [nb 3 100])]).map fun s =>
      (s.db.nodes 0).map fun n => (n.ansn, n.edges.filterMap fun e => (s.db.edges e).bind fun ed => (s.db.nodes ed.dst).map (·.addr))) = some (some (8, [ip 3])) := by decide +kernel

/-! ### C62: the content of a TC -/

/-- C62: after a complete TC with a new sequence number the database says about the originator what the message says:
neighbors (with the metrics of the last entry of the message) and prefixes are those of the message, no more, no less -/
theorem C62_complete {es : List Event} {s : St} (he : Plain es) (hs : events St.init es = some s) {m : Tc} (hc : m.constraints = true) (hp : m.pre = true) (hq : m.process = true) (hm : m.complete = true)
    (hok : m.ok = true) (hdr : m.dropped = false) (hself : m.NotSelf) (hen : ∀ a ∈ m.addrs, a.enough ∧ a.costOut.length = DOMAINS) (hcur : Current s.db m) (hnew : NewNumber s.db m) :
    ∃ s' i n, receive s m = some s' ∧ s'.db.nodes i = some n ∧ n.addr = m.orig ∧ n.ansn = m.ansn ∧
      (∀ x c, Neighbor s'.db i x c ↔ ∃ a, lastEntry m.addrs x = some a ∧ a.metrics = c) ∧ ∀ k, Reaches s'.db i k ↔ k ∈ m.addrs.flatMap Address.prefixes := by
  obtain ⟨s0, e0, w, _⟩ := events_wf es (s := St.init) init_wf he
  rw [hs] at e0
  injection e0 with e0
  subst e0
  obtain ⟨s1, i, n, e1, w1, hi, hn, ha, hansn, d1, d2, d3, hold⟩ := start_accept w hc hp hq hm hok hcur
  have hE : ReadE s1.db i n.ansn [] := by
    refine readE_nil fun e ed hed hsrc hv => ?_
    rw [d1] at hed
    rw [hansn]
    obtain ⟨n0, hn0⟩ := w.edge.src e ed hed
    rw [hsrc] at hn0
    rcases hold with h | ⟨n0', h1, h2⟩
    · rw [h] at hn0; cases hn0
    · exact (hnew i n0' h1 h2).1 e ed hed hsrc hv
  have hA : ReadA s1.db i n.ansn (([] : List Address).flatMap Address.prefixes) := by
    refine readA_nil fun e ed hed hsrc => ?_
    rw [d2] at hed
    rw [hansn]
    obtain ⟨n0, hn0⟩ := w.att.src e ed hed
    rw [hsrc] at hn0
    rcases hold with h | ⟨n0', h1, h2⟩
    · rw [h] at hn0; cases hn0
    · exact (hnew i n0' h1 h2).2 e ed hed hsrc
  obtain ⟨s2, e2, w2, i2, _, st2, _, p2⟩ := addresses_spec m.addrs w1 hi hn (fun a h q => by rw [ha]; exact fun e => hself a h q e.symm)
  obtain ⟨n2, hn2, b1, b2, _⟩ := st2 n hn
  obtain ⟨r1, r2⟩ := p2 hen [] hE hA
  rw [List.nil_append] at r1 r2
  obtain ⟨s3, e3, w3, _, _, st3, f3⟩ := finish_spec w2 i2 hn2
  obtain ⟨n3, hn3, c1, c2, _⟩ := st3 n2 hn2
  obtain ⟨g1, g2⟩ := f3 m.addrs _ (by rw [b2]; exact r1) (by rw [b2]; exact r2)
  refine ⟨s3, i, n3, ?_, hn3, c1.trans (b1.trans ha), c2.trans (b2.trans hansn), g1, g2⟩
  unfold receive
  rw [e1]
  dsimp only
  rw [e2]
  dsimp only
  rw [hdr, if_neg (by decide)]
  exact e3

/-- the example history goes on with TC 9 of router 1: neighbors -/
example : ((events St.init (hist ++ [.tc (msg 1 9 [nb 3 10, lan 6, nb 3 20])])).map fun s => (s.db.nodes 0).map fun n =>
      n.edges.filterMap fun e => (s.db.edges e).bind fun ed => (s.db.nodes ed.dst).map fun d => (d.addr, ed.virt, ed.cost)) =
    some (some [(ip 2, true, [300, INFINITE, INFINITE, INFINITE]), (ip 3, false, [20, INFINITE, INFINITE, INFINITE])]) := by decide +kernel

/-- and attached networks -/
example : ((events St.init (hist ++ [.tc (msg 1 9 [nb 3 10, lan 6, nb 3 20])])).map fun s => (s.db.nodes 0).map fun n =>
      n.atts.filterMap fun a => (s.db.atts a).bind fun at_ => (s.db.ends at_.dst).map fun en => en.key.1) = some (some [(net 6).1]) := by decide +kernel

/-- the hypotheses of `C62_complete` hold there -/
example : ∃ s, events St.init hist = some s ∧ Current s.db (msg 1 9 [nb 3 10, lan 6, nb 3 20]) ∧ NewNumber s.db (msg 1 9 [nb 3 10, lan 6, nb 3 20]) ∧ (msg 1 9 [nb 3 10, lan 6, nb 3 20]).NotSelf := by
  have h : (events St.init hist).map (fun s => (List.range s.db.next).all fun i => (s.db.nodes i).all (fun n => decide (n.addr = ip 1 → n.ansn = 8)) && (s.db.edges i).all (fun e => decide (e.ansn ≠ 9)) &&
      (s.db.atts i).all fun a => decide (a.ansn ≠ 9)) = some true := by decide +kernel
  obtain ⟨s, hs, w, _⟩ := events_wf hist (s := St.init) init_wf hist_plain
  rw [hs, Option.map_some] at h
  injection h with h
  rw [List.all_eq_true] at h
  refine ⟨s, hs, ?_, ?_, ?_⟩
  · intro i n hn ha _
    have := h i (List.mem_range.2 (w.fresh.lt hn))
    rw [hn] at this
    simp only [Option.all_some, Bool.and_eq_true, decide_eq_true_eq] at this
    rw [this.1.1 ha]
    exact .inr ⟨1, by decide, by decide, by decide +kernel⟩
  · intro i n hn ha
    constructor
    · intro e ed hed _ _
      have hlt : e < s.db.next := by
        rcases Nat.lt_or_ge e s.db.next with h' | h'
        · exact h'
        · rw [w.fresh.edges e h'] at hed; cases hed
      have := h e (List.mem_range.2 hlt)
      rw [hed] at this
      simp only [Option.all_some, Bool.and_eq_true, decide_eq_true_eq] at this
      exact this.1.2
    · intro e ed hed _
      have hlt : e < s.db.next := by
        rcases Nat.lt_or_ge e s.db.next with h' | h'
        · exact h'
        · rw [w.fresh.atts e h'] at hed; cases hed
      have := h e (List.mem_range.2 hlt)
      rw [hed] at this
      simp only [Option.all_some, Bool.and_eq_true, decide_eq_true_eq] at this
      exact this.2
  · unfold Tc.NotSelf
    decide +kernel

/-- an incomplete TC removes the neighbors it does not list -/
theorem C62_incomplete_counterexample :
    ((events St.init [.tc (msg 1 1 [nb 2 100]), .tc { msg 1 2 [nb 3 100] with complete := false }]).map fun s =>
      (s.db.nodes 0).map fun n => n.edges.filterMap fun e => (s.db.edges e).bind fun ed => (s.db.nodes ed.dst).map (·.addr)) = some (some [ip 3]) := by decide +kernel

/-- an incomplete TC of a router that is not known is dropped -/
theorem C62_unknown_counterexample :
    ((events St.init [.tc { msg 1 2 [nb 3 100] with complete := false }]).map fun s => (s.db.nodes 0).map fun n => n.edges) = some (some []) := by decide +kernel

/-- a neighbor that is missing in a TC with the stored sequence number stays -/
theorem C62_same_number_counterexample :
    ((events St.init [.tc (msg 1 1 [nb 2 100]), .tc (msg 1 1 [])]).map fun s =>
      (s.db.nodes 0).map fun n => n.edges.filterMap fun e => (s.db.edges e).bind fun ed => (s.db.nodes ed.dst).map (·.addr)) = some (some [ip 2]) := by decide +kernel

end Verif.Tc
