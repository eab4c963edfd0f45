import Verif.Routing.Run

/-! The routing table after a list of calls of `_update_routing_entry`. -/
namespace Verif.Routing
open Verif.Netaddr (Netaddr)

/-- the entry was written by the call -/
structure Written (w : Env) (c : Call) (e : Entry) : Prop where
  set : e.set = true
  cost : e.cost = c.cost
  hops : e.hops = c.hops
  next : e.next = (w.neigh c.first).origin
  last : e.last = c.last
  ifindex : e.p.ifindex = (w.neigh c.first).ifindex
  gw : e.p.gw = if c.single = true ∧ (w.neigh c.first).linkAddr = e.key.dst then none else some (w.neigh c.first).linkAddr

/-- the entry of key `k` after the calls `log` -/
structure Result (w : Env) (k : Key) (log : List Call) (tbl : List Entry) : Prop where
  some_ : (∃ c ∈ log, c.key = k ∧ refused w c = false) → ∃ e ∈ tbl, e.key = k ∧ e.set = true
  best : ∀ e ∈ tbl, e.key = k → e.set = true → ∃ c ∈ log, c.key = k ∧ refused w c = false ∧ Written w c e ∧ ∀ c' ∈ log, c'.key = k → refused w c' = false → e.cost ≤ c'.cost

theorem modify_keys {k : Key} {f : Entry → Entry} (hf : ∀ e, (f e).key = e.key) : ∀ tbl : List Entry,
    (modifyEntry k f tbl).map Entry.key = if k ∈ tbl.map Entry.key then tbl.map Entry.key else tbl.map Entry.key ++ [k]
  | [] => by simp [modifyEntry, hf, newEntry]
  | e :: tbl => by
    unfold modifyEntry
    by_cases h : e.key = k
    · rw [if_pos h, List.map_cons, List.map_cons, hf, if_pos (by rw [h]; simp)]
    · rw [if_neg h, List.map_cons, List.map_cons, modify_keys hf tbl]
      by_cases h' : k ∈ tbl.map Entry.key
      · rw [if_pos h', if_pos (by simp [h'])]
      · rw [if_neg h', if_neg (by rw [List.mem_cons, not_or]; exact ⟨fun e => h e.symm, h'⟩), List.cons_append]

theorem apply_key {w : Env} {c : Call} (e : Entry) : (apply w c e).key = e.key := by
  unfold apply
  split <;> rfl

theorem nodup_modify {k : Key} {f : Entry → Entry} (hf : ∀ e, (f e).key = e.key) {tbl : List Entry} (h : (tbl.map Entry.key).Nodup) :
    ((modifyEntry k f tbl).map Entry.key).Nodup := by
  rw [modify_keys hf]
  split
  · exact h
  · rename_i hk
    rw [List.nodup_append]
    refine ⟨h, by simp, ?_⟩
    intro a ha b hb
    rw [List.mem_singleton] at hb
    rw [hb]
    exact fun e => hk (e ▸ ha)

theorem nodup_update {w : Env} {c : Call} {tbl : List Entry} (h : (tbl.map Entry.key).Nodup) : ((update w tbl c).map Entry.key).Nodup := by
  unfold update
  split
  · exact h
  · exact nodup_modify apply_key h

/-- members of a modified table -/
theorem mem_modify {k : Key} {f : Entry → Entry} (hf : ∀ e, (f e).key = e.key) : ∀ {tbl : List Entry}, (tbl.map Entry.key).Nodup → ∀ {x : Entry},
    x ∈ modifyEntry k f tbl ↔ (x ∈ tbl ∧ x.key ≠ k) ∨ (∃ e ∈ tbl, e.key = k ∧ x = f e) ∨ (k ∉ tbl.map Entry.key ∧ x = f (newEntry k))
  | [], _, x => by simp [modifyEntry]
  | e :: tbl, h, x => by
    rw [List.map_cons, List.nodup_cons] at h
    unfold modifyEntry
    by_cases hk : e.key = k
    · rw [if_pos hk, List.mem_cons]
      constructor
      · rintro (rfl | hx)
        · exact .inr (.inl ⟨e, by simp, hk, rfl⟩)
        · refine .inl ⟨by simp [hx], ?_⟩
          intro hxk
          exact h.1 (by rw [hk, ← hxk]; exact List.mem_map_of_mem hx)
      · rintro (⟨hx, hxk⟩ | ⟨e', he', hek, rfl⟩ | ⟨hx, _⟩)
        · rcases List.mem_cons.1 hx with rfl | hx
          · exact absurd hk hxk
          · exact .inr hx
        · rcases List.mem_cons.1 he' with rfl | he'
          · exact .inl rfl
          · exact absurd (by rw [hk, ← hek]; exact List.mem_map_of_mem he') h.1
        · exact absurd (by simp [hk]) hx
    · rw [if_neg hk, List.mem_cons, mem_modify hf h.2]
      constructor
      · rintro (rfl | ⟨hx, hxk⟩ | ⟨e', he', hek, rfl⟩ | ⟨hx, rfl⟩)
        · exact .inl ⟨by simp, hk⟩
        · exact .inl ⟨by simp [hx], hxk⟩
        · exact .inr (.inl ⟨e', by simp [he'], hek, rfl⟩)
        · refine .inr (.inr ⟨?_, rfl⟩)
          rw [List.map_cons, List.mem_cons, not_or]
          exact ⟨fun e => hk e.symm, hx⟩
      · rintro (⟨hx, hxk⟩ | ⟨e', he', hek, rfl⟩ | ⟨hx, rfl⟩)
        · rcases List.mem_cons.1 hx with rfl | hx
          · exact .inl rfl
          · exact .inr (.inl ⟨hx, hxk⟩)
        · rcases List.mem_cons.1 he' with rfl | he'
          · exact absurd hek hk
          · exact .inr (.inr (.inl ⟨e', he', hek, rfl⟩))
        · rw [List.map_cons, List.mem_cons, not_or] at hx
          exact .inr (.inr (.inr ⟨hx.2, rfl⟩))

theorem key_inj {tbl : List Entry} (h : (tbl.map Entry.key).Nodup) {a b : Entry} (ha : a ∈ tbl) (hb : b ∈ tbl) (hk : a.key = b.key) : a = b := by
  induction tbl with
  | nil => cases ha
  | cons e tbl ih =>
    rw [List.map_cons, List.nodup_cons] at h
    rcases List.mem_cons.1 ha with ha' | ha' <;> rcases List.mem_cons.1 hb with hb' | hb'
    · rw [ha', hb']
    · exact absurd (by rw [← ha', hk]; exact List.mem_map_of_mem hb') h.1
    · exact absurd (by rw [← hb', ← hk]; exact List.mem_map_of_mem ha') h.1
    · exact ih h.2 ha' hb'

theorem apply_written {w : Env} {c : Call} {e : Entry} (h : ¬ (e.set = true ∧ e.cost < c.cost)) : Written w c (apply w c e) := by
  unfold apply
  rw [if_neg h]
  exact ⟨rfl, rfl, rfl, rfl, rfl, rfl, rfl⟩

theorem update_result {w : Env} {k : Key} {log : List Call} {tbl : List Entry} (hn : (tbl.map Entry.key).Nodup) (h : Result w k log tbl) (c : Call) :
    Result w k (log ++ [c]) (update w tbl c) := by
  by_cases hr : refused w c = true
  · have : update w tbl c = tbl := by unfold update; rw [if_pos hr]
    rw [this]
    refine ⟨?_, ?_⟩
    · rintro ⟨x, hx, hk, hx'⟩
      rcases List.mem_append.1 hx with hx | hx
      · exact h.some_ ⟨x, hx, hk, hx'⟩
      · rw [List.mem_singleton] at hx; subst hx; rw [hr] at hx'; cases hx'
    · intro e he hk hs
      obtain ⟨x, hx, a, b, d, f⟩ := h.best e he hk hs
      refine ⟨x, List.mem_append_left _ hx, a, b, d, ?_⟩
      intro y hy hyk hyr
      rcases List.mem_append.1 hy with hy | hy
      · exact f y hy hyk hyr
      · rw [List.mem_singleton] at hy; subst hy; rw [hr] at hyr; cases hyr
  have hr : refused w c = false := by simpa using hr
  have hu : update w tbl c = modifyEntry c.key (apply w c) tbl := by unfold update; rw [if_neg (by simp [hr])]
  rw [hu]
  have hmem := @mem_modify c.key (apply w c) apply_key tbl hn
  by_cases hk : c.key = k
  · -- the entry itself
    have entry : ∀ e, e ∈ modifyEntry c.key (apply w c) tbl → e.key = k →
        (∃ e' ∈ tbl, e'.key = k ∧ e = apply w c e') ∨ (k ∉ tbl.map Entry.key ∧ e = apply w c (newEntry k)) := by
      intro e he hek
      rcases hmem.1 he with ⟨_, hne⟩ | ⟨e', he', a, b⟩ | ⟨a, b⟩
      · exact absurd (by rw [hk]; exact hek) hne
      · exact .inl ⟨e', he', by rw [← hk]; exact a, b⟩
      · exact .inr ⟨by rw [← hk]; exact a, by rw [← hk]; exact b⟩
    refine ⟨?_, ?_⟩
    · intro _
      by_cases hin : k ∈ tbl.map Entry.key
      · obtain ⟨e', he', hek⟩ := List.mem_map.1 hin
        refine ⟨apply w c e', hmem.2 (.inr (.inl ⟨e', he', by rw [hk]; exact hek, rfl⟩)), by rw [apply_key]; exact hek, ?_⟩
        by_cases hc : e'.set = true ∧ e'.cost < c.cost
        · unfold apply; rw [if_pos hc]; exact hc.1
        · exact (apply_written hc).set
      · refine ⟨apply w c (newEntry k), hmem.2 (.inr (.inr ⟨by rw [hk]; exact hin, by rw [hk]⟩)), by rw [apply_key]; rfl, ?_⟩
        exact (apply_written (by simp [newEntry])).set
    · intro e he hek hes
      have fresh : ∀ e', ¬ (e'.set = true ∧ e'.cost < c.cost) → e = apply w c e' → (∀ c' ∈ log, c'.key = k → refused w c' = false → c.cost ≤ c'.cost) →
          ∃ x ∈ log ++ [c], x.key = k ∧ refused w x = false ∧ Written w x e ∧ ∀ c' ∈ log ++ [c], c'.key = k → refused w c' = false → e.cost ≤ c'.cost := by
        intro e' hc hee hmin
        have hw := apply_written (w := w) hc
        rw [← hee] at hw
        refine ⟨c, by simp, hk, hr, hw, ?_⟩
        intro y hy hyk hyr
        rw [hw.cost]
        rcases List.mem_append.1 hy with hy | hy
        · exact hmin y hy hyk hyr
        · rw [List.mem_singleton] at hy; subst hy; exact Nat.le_refl _
      rcases entry e he hek with ⟨e', he', hek', hee⟩ | ⟨hin, hee⟩
      · by_cases hc : e'.set = true ∧ e'.cost < c.cost
        · have : e = e' := by rw [hee]; unfold apply; rw [if_pos hc]
          subst this
          obtain ⟨x, hx, a, b, d, f⟩ := h.best e he' hek hes
          refine ⟨x, List.mem_append_left _ hx, a, b, d, ?_⟩
          intro y hy hyk hyr
          rcases List.mem_append.1 hy with hy | hy
          · exact f y hy hyk hyr
          · rw [List.mem_singleton] at hy; subst hy; omega
        · apply fresh e' hc hee
          intro c' hc' hck hcr
          by_cases hset : e'.set = true
          · obtain ⟨x, hx, a, b, d, f⟩ := h.best e' he' hek' hset
            have := f c' hc' hck hcr
            have : ¬ e'.cost < c.cost := fun hlt => hc ⟨hset, hlt⟩
            omega
          · obtain ⟨e2, he2, hk2, hs2⟩ := h.some_ ⟨c', hc', hck, hcr⟩
            -- keys are unique
            have : e2 = e' := key_inj hn he2 he' (by rw [hk2, hek'])
            rw [this] at hs2
            exact absurd hs2 hset
      · apply fresh (newEntry k) (by simp [newEntry]) hee
        intro c' hc' hck hcr
        obtain ⟨e2, he2, hk2, hs2⟩ := h.some_ ⟨c', hc', hck, hcr⟩
        exact absurd (List.mem_map.2 ⟨e2, he2, hk2⟩) hin
  · -- another entry
    have same : ∀ e, e.key = k → (e ∈ modifyEntry c.key (apply w c) tbl ↔ e ∈ tbl) := by
      intro e hek
      rw [hmem]
      constructor
      · rintro (⟨hx, _⟩ | ⟨e', he', a, rfl⟩ | ⟨_, rfl⟩)
        · exact hx
        · rw [apply_key, a] at hek; exact absurd hek hk
        · rw [apply_key] at hek; exact absurd hek hk
      · intro he
        exact .inl ⟨he, fun e => hk (by rw [← e]; exact hek)⟩
    refine ⟨?_, ?_⟩
    · rintro ⟨x, hx, hxk, hxr⟩
      rcases List.mem_append.1 hx with hx | hx
      · obtain ⟨e, he, a, b⟩ := h.some_ ⟨x, hx, hxk, hxr⟩
        exact ⟨e, (same e a).2 he, a, b⟩
      · rw [List.mem_singleton] at hx; subst hx; exact absurd hxk hk
    · intro e he hek hes
      obtain ⟨x, hx, a, b, d, f⟩ := h.best e ((same e hek).1 he) hek hes
      refine ⟨x, List.mem_append_left _ hx, a, b, d, ?_⟩
      intro y hy hyk hyr
      rcases List.mem_append.1 hy with hy | hy
      · exact f y hy hyk hyr
      · rw [List.mem_singleton] at hy; subst hy; exact absurd hyk hk

theorem updates_result {w : Env} {k : Key} : ∀ (more log : List Call) {tbl : List Entry}, (tbl.map Entry.key).Nodup → Result w k log tbl →
    Result w k (log ++ more) (more.foldl (update w) tbl) ∧ ((more.foldl (update w) tbl).map Entry.key).Nodup
  | [], log, tbl, hn, h => by rw [List.append_nil]; exact ⟨h, hn⟩
  | c :: more, log, tbl, hn, h => by
    have := updates_result more (log ++ [c]) (nodup_update (c := c) hn) (update_result hn h c)
    rw [List.append_assoc, List.singleton_append] at this
    exact this

theorem prepare_result {w : Env} {k : Key} {tbl : List Entry} (hn : (tbl.map Entry.key).Nodup) :
    Result w k [] (prepareRoutes tbl) ∧ ((prepareRoutes tbl).map Entry.key).Nodup := by
  refine ⟨⟨?_, ?_⟩, ?_⟩
  · rintro ⟨c, hc, _⟩; cases hc
  · intro e he _ hs
    unfold prepareRoutes at he
    obtain ⟨e', _, rfl⟩ := List.mem_map.1 he
    cases hs
  · unfold prepareRoutes
    rw [List.map_map]
    exact hn

end Verif.Routing
