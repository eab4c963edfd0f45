import Verif.Routing.Spec

/-! The invariant of the Dijkstra algorithm. -/
namespace Verif.Routing
open Verif.Netaddr (Netaddr)

/-- paths a run with these flags uses, from neighbors of one address family -/
inductive PathF (w : Env) (f : UInt8) (fl : Flags) (i : Nat) : (t cost hops : Nat) → (last : Netaddr) → Prop
  | hop {t : Nat} : i < w.neighs.length → (w.neigh i).origin.type = f → (w.neigh i).symmetric ≠ 0 → (w.neigh i).metricIn ≤ METRIC_MAX →
      (w.neigh i).metricOut ≤ METRIC_MAX → (w.neigh i).node = some t → (w.target t).loc = false → (fl.nonSs = true ∨ ((w.target t).ss = true ∧ fl.ss = true)) →
      PathF w f fl i t (w.neigh i).metricOut 1 (w.originator f)
  | edge {t c h : Nat} {l : Netaddr} {e : Edge} : PathF w f fl i t c h l → (w.target t).isNode = true → e ∈ (w.target t).edges →
      e.virtual = false → e.cost ≤ METRIC_MAX → (w.target e.dst).loc = false → (fl.nonSs = true ∨ (w.target t).ss = true) →
      PathF w f fl i e.dst (c + e.cost) (h + 1) (w.target t).key.dst
  | attached {t c h : Nat} {l : Netaddr} {a : Att} : PathF w f fl i t c h l → (w.target t).isNode = true → a ∈ (w.target t).atts →
      a.cost ≤ METRIC_MAX → (if (w.target a.dst).key.src.prefixLen > 0 then fl.ss else fl.nonSs) = true →
      PathF w f fl i a.dst (c + a.cost) (h + 1) (w.target t).key.dst

/-- targets that are put into the queue -/
def Queued (w : Env) (t : Nat) : Prop := (w.target t).isNode = true ∨ 1 < (w.target t).count

/-- number of nodes in a list of targets -/
def nodes (w : Env) (l : List Nat) : Nat := (l.filter fun t => (w.target t).isNode).length

/-- the Dijkstra data describe a path -/
def Real (w : Env) (f : UInt8) (fl : Flags) (d : DNode) (t bound : Nat) : Prop :=
  ∃ h, PathF w f fl d.first t d.cost h d.last ∧ d.hops = h % 256 ∧ h ≤ bound ∧ d.single = decide (h = 1)

/-- the invariant: `D` are the targets that are done -/
structure Base (w : Env) (f : UInt8) (fl : Flags) (s : DState) (D : List Nat) (bound : Nat) : Prop where
  real : ∀ t, t ∈ D ∨ t ∈ s.queue → Real w f fl (s.node t) t bound
  done : ∀ t, (w.target t).key.dst.type = f → Queued w t → ((s.node t).done = true ↔ t ∈ D)
  range : ∀ t, t ∈ D ∨ t ∈ s.queue → t < w.targets.length ∧ Queued w t ∧ (w.target t).key.dst.type = f
  disj : ∀ t ∈ s.queue, t ∉ D
  nodupQ : s.queue.Nodup
  nodupD : D.Nodup
  sorted : s.queue.Pairwise fun a b => (s.node a).cost ≤ (s.node b).cost
  mono : ∀ d ∈ D, ∀ q ∈ s.queue, (s.node d).cost ≤ (s.node q).cost

/-- the target is done or in the queue, with at most this cost -/
def Covered (s : DState) (D : List Nat) (t c : Nat) : Prop := (t ∈ D ∨ t ∈ s.queue) ∧ (s.node t).cost ≤ c

theorem mem_enqueue {cost : Nat → Nat} {t x : Nat} : ∀ {q : List Nat}, x ∈ enqueue cost t q ↔ x = t ∨ x ∈ q
  | [] => by simp [enqueue]
  | y :: q => by
    unfold enqueue
    split
    · rw [List.mem_cons, mem_enqueue, List.mem_cons]
      constructor
      · rintro (h | h | h)
        · exact .inr (.inl h)
        · exact .inl h
        · exact .inr (.inr h)
      · rintro (h | h | h)
        · exact .inr (.inl h)
        · exact .inl h
        · exact .inr (.inr h)
    · simp

theorem nodup_enqueue {cost : Nat → Nat} {t : Nat} : ∀ {q : List Nat}, q.Nodup → t ∉ q → (enqueue cost t q).Nodup
  | [], _, _ => by simp [enqueue]
  | y :: q, h, ht => by
    rw [List.nodup_cons] at h
    rw [List.mem_cons, not_or] at ht
    unfold enqueue
    split
    · rw [List.nodup_cons]
      refine ⟨?_, nodup_enqueue h.2 ht.2⟩
      rw [mem_enqueue, not_or]
      exact ⟨Ne.symm ht.1, h.1⟩
    · rw [List.nodup_cons, List.mem_cons, not_or]
      exact ⟨ht, List.nodup_cons.2 h⟩

theorem sorted_enqueue {cost : Nat → Nat} {t : Nat} : ∀ {q : List Nat}, q.Pairwise (fun a b => cost a ≤ cost b) →
    (enqueue cost t q).Pairwise fun a b => cost a ≤ cost b
  | [], _ => by simp [enqueue]
  | y :: q, h => by
    rw [List.pairwise_cons] at h
    unfold enqueue
    split
    · rename_i hc
      rw [List.pairwise_cons]
      refine ⟨?_, sorted_enqueue h.2⟩
      intro x hx
      rcases mem_enqueue.1 hx with rfl | hx
      · exact hc
      · exact h.1 x hx
    · rename_i hc
      rw [List.pairwise_cons]
      refine ⟨?_, List.pairwise_cons.2 h⟩
      intro x hx
      rcases List.mem_cons.1 hx with rfl | hx
      · omega
      · have := h.1 x hx; omega

/-- a target is inserted -/
theorem insert_spec {w : Env} {f : UInt8} {fl : Flags} {s : DState} {D : List Nat} {bound : Nat} (hb : Base w f fl s D bound)
    {t first link path h dist : Nat} {single : Bool} {last : Netaddr} (hl : link ≤ METRIC_MAX) (hloc : (w.target t).loc = false)
    (hp : PathF w f fl first t (path + link) (h + 1) last) (hh : h + 1 ≤ bound) (hs : single = decide (h = 0)) (hc : path + link < 2 ^ 32)
    (ht : t < w.targets.length) (hq : Queued w t) (hf : (w.target t).key.dst.type = f)
    (hD : ∀ d ∈ D, (s.node d).cost ≤ path + link) :
    Base w f fl (insert w s t first link path (h % 256) dist single last) D bound ∧
    Covered (insert w s t first link path (h % 256) dist single last) D t (path + link) ∧
    (∀ v c, Covered s D v c → Covered (insert w s t first link path (h % 256) dist single last) D v c) ∧
    (∀ v ∈ D, (insert w s t first link path (h % 256) dist single last).node v = s.node v) := by
  unfold insert
  rw [if_neg (by omega)]
  by_cases c1 : (s.node t).done = true
  · rw [if_pos (.inr c1)]
    have := (hb.done t hf hq).1 c1
    exact ⟨hb, ⟨.inl this, hD t this⟩, fun _ _ h => h, fun _ _ => rfl⟩
  rw [if_neg (by simp [hloc, c1])]
  have htD : t ∉ D := fun h => c1 ((hb.done t hf hq).2 h)
  dsimp only
  rw [Nat.mod_eq_of_lt hc]
  by_cases c2 : t ∈ s.queue ∧ (s.node t).cost ≤ path + link
  · rw [if_pos c2]
    exact ⟨hb, ⟨.inr c2.1, c2.2⟩, fun _ _ h => h, fun _ _ => rfl⟩
  rw [if_neg c2]
  have hmem : ∀ v, v ∈ s.queue.filter (· ≠ t) ↔ v ∈ s.queue ∧ v ≠ t := by intro v; simp
  have hnode : ∀ v, v ≠ t → (if v = t then (⟨path + link, (h % 256 + 1) % 256, dist, first, last, single, (s.node t).done⟩ : DNode) else s.node v) = s.node v :=
    fun v hv => if_neg hv
  refine ⟨⟨?_, ?_, ?_, ?_, ?_, hb.nodupD, ?_, ?_⟩, ?_, ?_, ?_⟩
  · intro v hv
    by_cases hvt : v = t
    · subst hvt
      refine ⟨h + 1, ?_, ?_, hh, ?_⟩
      · dsimp only; rw [if_pos rfl]; exact hp
      · dsimp only; rw [if_pos rfl]; dsimp only; omega
      · dsimp only; rw [if_pos rfl]
        dsimp only
        rw [hs]
        by_cases h0 : h = 0 <;> simp [h0]
    · dsimp only
      rw [hnode v hvt]
      apply hb.real
      rcases hv with hv | hv
      · exact .inl hv
      · rcases mem_enqueue.1 hv with hv | hv
        · exact absurd hv hvt
        · exact .inr ((hmem v).1 hv).1
  · intro v hvf hvq
    dsimp only
    by_cases hvt : v = t
    · subst hvt
      rw [if_pos rfl]
      exact hb.done v hvf hvq
    · rw [hnode v hvt]
      exact hb.done v hvf hvq
  · intro v hv
    rcases hv with hv | hv
    · exact hb.range v (.inl hv)
    · rcases mem_enqueue.1 hv with rfl | hv
      · exact ⟨ht, hq, hf⟩
      · exact hb.range v (.inr ((hmem v).1 hv).1)
  · intro v hv
    rcases mem_enqueue.1 hv with rfl | hv
    · exact htD
    · exact hb.disj v ((hmem v).1 hv).1
  · exact nodup_enqueue (hb.nodupQ.filter _) (fun hx => ((hmem t).1 hx).2 rfl)
  · apply sorted_enqueue
    refine List.Pairwise.imp_of_mem ?_ (hb.sorted.filter _)
    intro a b ha hb' hab
    dsimp only
    rw [hnode a ((hmem a).1 ha).2, hnode b ((hmem b).1 hb').2]
    exact hab
  · intro d hd q hq'
    dsimp only
    rw [hnode d (fun e => htD (e ▸ hd))]
    rcases mem_enqueue.1 hq' with rfl | hq'
    · rw [if_pos rfl]
      exact hD d hd
    · rw [hnode q ((hmem q).1 hq').2]
      exact hb.mono d hd q ((hmem q).1 hq').1
  · refine ⟨.inr (mem_enqueue.2 (.inl rfl)), ?_⟩
    dsimp only
    rw [if_pos rfl]
    exact Nat.le_refl _
  · intro v c hv
    by_cases hvt : v = t
    · subst hvt
      refine ⟨.inr (mem_enqueue.2 (.inl rfl)), ?_⟩
      dsimp only
      rw [if_pos rfl]
      dsimp only
      have hvq : v ∈ s.queue := hv.1.resolve_left htD
      have := hv.2
      have : ¬ (s.node v).cost ≤ path + link := fun h => c2 ⟨hvq, h⟩
      omega
    · refine ⟨?_, ?_⟩
      · rcases hv.1 with h | h
        · exact .inl h
        · exact .inr (mem_enqueue.2 (.inr ((hmem v).2 ⟨h, hvt⟩)))
      · dsimp only
        rw [hnode v hvt]
        exact hv.2
  · intro v hv
    dsimp only
    exact hnode v (fun e => htD (e ▸ hv))

/-- an insertion only -/
theorem insert_done {w : Env} {s : DState} {t first link path hops dist : Nat} {single : Bool} {last : Netaddr} (v : Nat) :
    ((insert w s t first link path hops dist single last).node v).done = (s.node v).done := by
  unfold insert
  split
  · rfl
  · split
    · rfl
    · dsimp only
      split
      · rfl
      · dsimp only
        split
        · rename_i h; rw [h]
        · rfl

end Verif.Routing
