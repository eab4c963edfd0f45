import Verif.Routing.Kernel
import Verif.Routing.Table
import Verif.Routing.Props

/-! Properties of the update of the kernel routes. -/
namespace Verif.Routing
open Verif.Netaddr (Netaddr)

/-! ### C54: filters -/

/-- **C54** is false: the verdicts of the filters have no influence on the entries and the queue of requests. -/
theorem C54_verdict_counterexample (w : Env) (d : DomainParams) (fs : List Filter) (verdict : Key → Params → Bool → Bool) (tbl : List Entry) :
    processResult w d fs tbl = processResult w d (fs.map fun f k p set => (verdict k p set, (f k p set).2)) tbl := by
  have h : runFilters (fs.map fun f k p set => (verdict k p set, (f k p set).2)) = runFilters fs := by
    funext k set p
    unfold runFilters
    rw [List.foldl_map]
  have h2 : finish w d (fs.map fun f k p set => (verdict k p set, (f k p set).2)) = finish w d fs := by
    funext e
    unfold finish
    rw [h]
  unfold processResult
  rw [h2]

/-! ### C42: order of the requests -/

/-- the order of a queue: no direct route is set behind a route with gateway, no route with gateway is removed behind a
direct route -/
def Ordered (q : List Request) : Prop :=
  q.Pairwise fun a b => ¬ (a.set = true ∧ b.set = true ∧ direct a.p = false ∧ direct b.p = true) ∧
    ¬ (a.set = false ∧ b.set = false ∧ direct a.p = true ∧ direct b.p = false)

def Entry.req (e : Entry) : Request := ⟨e.key, e.set, e.p⟩

/-- entries that are put at the head -/
def early (e : Entry) : Bool := if e.set then direct e.p else !direct e.p

theorem addToQueue_eq (q : List Entry) (e : Entry) : addToQueue q e = if early e then e :: q else q ++ [e] := by
  unfold addToQueue early
  cases e.set <;> cases direct e.p <;> rfl

theorem queue_shape : ∀ (l a b : List Entry), (∀ e ∈ a, early e = true) → (∀ e ∈ b, early e = false) →
    ∃ a' b', l.foldl addToQueue (a ++ b) = a' ++ b' ∧ (∀ e ∈ a', early e = true) ∧ (∀ e ∈ b', early e = false) ∧ (a' ++ b').Perm (a ++ b ++ l)
  | [], a, b, ha, hb => ⟨a, b, rfl, ha, hb, by simp⟩
  | e :: l, a, b, ha, hb => by
    rw [List.foldl_cons, addToQueue_eq]
    cases he : early e with
    | true =>
      obtain ⟨a', b', h1, h2, h3, h4⟩ := queue_shape l (e :: a) b (by
        intro x hx
        rcases List.mem_cons.1 hx with rfl | hx
        · exact he
        · exact ha x hx) hb
      refine ⟨a', b', h1, h2, h3, h4.trans ?_⟩
      rw [List.cons_append, List.cons_append]
      exact List.perm_middle.symm
    | false =>
      obtain ⟨a', b', h1, h2, h3, h4⟩ := queue_shape l a (b ++ [e]) ha (by
        intro x hx
        rcases List.mem_append.1 hx with hx | hx
        · exact hb x hx
        · rw [List.mem_singleton] at hx; subst hx; exact he)
      refine ⟨a', b', ?_, h2, h3, ?_⟩
      · rw [if_neg (by decide), List.append_assoc]; exact h1
      · rw [show a ++ b ++ e :: l = a ++ (b ++ [e]) ++ l by simp]
        exact h4

theorem queue_spec (l : List Entry) : (l.foldl addToQueue []).Perm l ∧ Ordered ((l.foldl addToQueue []).map Entry.req) := by
  obtain ⟨a, b, h1, h2, h3, h4⟩ := queue_shape l [] [] (by simp) (by simp)
  rw [List.append_nil] at h1
  rw [h1]
  refine ⟨by simpa using h4, ?_⟩
  have hp : (a ++ b).Pairwise fun x y => early x = true ∨ early y = false := by
    rw [List.pairwise_append]
    refine ⟨?_, ?_, fun x hx y _ => .inl (h2 x hx)⟩
    · exact List.pairwise_of_forall_mem_list (fun x hx y _ => .inl (h2 x hx))
    · exact List.pairwise_of_forall_mem_list (fun x _ y hy => .inr (h3 y hy))
  unfold Ordered
  rw [List.pairwise_map]
  refine hp.imp ?_
  intro x y h
  unfold early at h
  unfold Entry.req
  dsimp only
  cases hx : x.set <;> cases hy : y.set <;> cases hx' : direct x.p <;> cases hy' : direct y.p <;> simp_all

/-! ### the requests of a run -/

theorem setEntry_keys {k : Key} {f : Entry → Entry} (hf : ∀ e, (f e).key = e.key) (tbl : List Entry) : (setEntry k f tbl).map Entry.key = tbl.map Entry.key := by
  unfold setEntry
  rw [List.map_map]
  apply List.map_congr_left
  intro e _
  dsimp only [Function.comp]
  split
  · exact hf e
  · rfl

/-- mark an entry -/
def mark (e : Entry) : Entry := { e with inProcessing := true }

/-- unmark an entry -/
def unmark (e : Entry) : Entry := { e with inProcessing := false }

theorem mark_fold (x : Entry) (k : Key) (l : List Key) (e : Entry) (he : e = if x.key = k then mark x else x) :
    (if e.key ∈ l then mark e else e) = if x.key ∈ k :: l then mark x else x := by
  subst he
  by_cases hk : x.key = k
  · rw [if_pos hk]
    rw [if_pos (show x.key ∈ k :: l by rw [hk]; simp)]
    split <;> rfl
  · rw [if_neg hk]
    simp [hk]

/-- entries the kernel is not working on -/
def idle (q : List Entry) : List Entry := q.filter fun e => !e.inProcessing

theorem sends : ∀ (q : List Entry) (tbl : List Entry) (rs : List Request),
    q.foldl sendOne (tbl, rs) = (tbl.map (fun e => if e.key ∈ (idle q).map Entry.key then mark e else e), rs ++ ((idle q).map Entry.req).filter sendable)
  | [], tbl, rs => by simp [idle]
  | e :: q, tbl, rs => by
    rw [List.foldl_cons]
    cases he : e.inProcessing with
    | true =>
      have h1 : sendOne (tbl, rs) e = (tbl, rs) := by
        unfold sendOne
        rw [if_pos he]
      rw [h1, sends q]
      have : idle (e :: q) = idle q := by unfold idle; rw [List.filter_cons, if_neg (by simp [he])]
      rw [this]
    | false =>
      have h1 : sendOne (tbl, rs) e = (setEntry e.key mark tbl, rs ++ [e.req].filter sendable) := by
        unfold sendOne
        rw [if_neg (by simp [he])]
        dsimp only
        unfold Entry.req mark
        by_cases hs : sendable ⟨e.key, e.set, e.p⟩ = true
        · rw [if_pos hs, List.filter_cons, if_pos hs, List.filter_nil]
        · rw [if_neg hs, List.filter_cons, if_neg hs, List.filter_nil, List.append_nil]
      have : idle (e :: q) = e :: idle q := by unfold idle; rw [List.filter_cons, if_pos (by simp [he])]
      rw [h1, sends q, this]
      congr 1
      · unfold setEntry
        rw [List.map_map]
        apply List.map_congr_left
        intro x _
        exact mark_fold x e.key ((idle q).map Entry.key) _ rfl
      · rw [List.append_assoc, List.map_cons, List.filter_cons, List.filter_cons]
        split <;> simp

/-- what a run computes -/
def computed (w : Env) (n : Nat) (d : DomainParams) (fs : List Filter) (tbl : List Entry) : List Entry := (calculate w n tbl).map (finish w d fs)

theorem run_eq (w : Env) (n : Nat) (d : DomainParams) (fs : List Filter) (s : Sys) : ∃ q, q.Perm ((computed w n d fs s.tbl).filter changed) ∧ Ordered (q.map Entry.req) ∧
    run w n d fs s = ⟨(computed w n d fs s.tbl).map (fun e => if e.key ∈ (idle q).map Entry.key then mark e else e), s.kernel, s.pending ++ ((idle q).map Entry.req).filter sendable⟩ := by
  obtain ⟨h1, h2⟩ := queue_spec ((computed w n d fs s.tbl).filter changed)
  refine ⟨_, h1, h2, ?_⟩
  unfold run processResult processQueue
  dsimp only
  rw [sends, List.nil_append]
  rfl

/-- **C42** (order): the requests of a run set direct routes before routes with gateway and remove routes with gateway
before direct ones.  (For all entries, also while the kernel still works on some of them.) -/
theorem C42_order (w : Env) (n : Nat) (d : DomainParams) (fs : List Filter) (s : Sys) :
    ∃ reqs, (run w n d fs s).pending = s.pending ++ reqs ∧ Ordered reqs := by
  obtain ⟨q, _, h2, h3⟩ := run_eq w n d fs s
  rw [h3]
  refine ⟨_, rfl, ?_⟩
  unfold Ordered at *
  exact h2.sublist ((List.filter_sublist).trans (List.Sublist.map _ List.filter_sublist))

/-- **C42** (scheduling): a run sends a request for exactly those entries that have no route any more or have other
parameters than before the run, except those the kernel is still working on and those that cannot be expressed. -/
theorem C42_scheduled (w : Env) (n : Nat) (d : DomainParams) (fs : List Filter) (s : Sys) :
    ∃ reqs, (run w n d fs s).pending = s.pending ++ reqs ∧ ∀ r, r ∈ reqs ↔
      ∃ e ∈ computed w n d fs s.tbl, r = ⟨e.key, e.set, e.p⟩ ∧ (e.set = true → e.old ≠ some e.p) ∧ e.inProcessing = false ∧ sendable r = true := by
  obtain ⟨q, h1, _, h3⟩ := run_eq w n d fs s
  rw [h3]
  refine ⟨_, rfl, ?_⟩
  intro r
  rw [List.mem_filter, List.mem_map]
  unfold idle
  constructor
  · rintro ⟨⟨e, he, rfl⟩, hs⟩
    rw [List.mem_filter, h1.mem_iff, List.mem_filter] at he
    refine ⟨e, he.1.1, rfl, ?_, by simpa using he.2, hs⟩
    intro hset heq
    have := he.1.2
    unfold changed at this
    simp [hset, heq] at this
  · rintro ⟨e, he, rfl, h, hp, hs⟩
    refine ⟨⟨e, ?_, rfl⟩, hs⟩
    rw [List.mem_filter, h1.mem_iff, List.mem_filter]
    refine ⟨⟨he, ?_⟩, by simp [hp]⟩
    unfold changed
    cases hset : e.set with
    | false => rfl
    | true => simp [h hset]

/-! ### C42: convergence -/

theorem calculate_ind {w : Env} {n : Nat} {tbl : List Entry} (P : List Entry → Prop) (hu : ∀ t c, P t → P (update w t c)) (h0 : P (prepareRoutes tbl)) :
    P (calculate w n tbl) := by
  have hatt : ∀ fl t d (l : List Att) (st : DState × List Entry), P st.2 → P (l.foldl (handleAtt w fl t d) st).2 := by
    intro fl t d l
    induction l with
    | nil => intro st h; exact h
    | cons a l ih =>
      intro st h
      rw [List.foldl_cons]
      apply ih
      unfold handleAtt
      dsimp only
      generalize (!(if (w.target a.dst).key.src.prefixLen > 0 then fl.ss else fl.nonSs)) = b
      split
      · split
        · exact h
        · split
          · exact h
          · exact hu _ _ h
      · exact h
  have hhandle : ∀ fl s t q tb, P tb → P (handle w fl s tb t q).2 := by
    intro fl s t q tb h
    unfold handle
    dsimp only
    have h2 : ∀ c, P (if fl.nonSs = true then update w tb c else tb) := by
      intro c
      split
      · exact hu _ _ h
      · exact h
    split
    · exact hatt _ _ _ _ _ (h2 _)
    · exact h2 _
  have hloop : ∀ fl n s tb, P tb → P (loop w fl n s tb).2 := by
    intro fl n
    induction n with
    | zero => intro s tb h; exact h
    | succ n ih =>
      intro s tb h
      unfold loop
      split
      · exact h
      · exact ih _ _ (hhandle _ _ _ _ _ h)
  have hrun : ∀ f fl s tb, P tb → P (runDijkstra w n f fl s tb).2 := fun f fl s tb h => hloop _ _ _ _ h
  have hfold : ∀ (l : List Call) tb, P tb → P (l.foldl (update w) tb) := by
    intro l
    induction l with
    | nil => intro tb h; exact h
    | cons c l ih => intro tb h; exact ih _ (hu _ _ h)
  have hnhdp : ∀ tb, P tb → P (handleNhdpRoutes w tb) := by
    intro tb h
    unfold handleNhdpRoutes
    generalize List.range w.neighs.length = l
    induction l generalizing tb with
    | nil => exact h
    | cons i l ih =>
      rw [List.foldl_cons]
      apply ih
      unfold handleNeigh
      split
      · exact h
      · exact hfold _ _ h
  unfold calculate
  dsimp only
  apply hnhdp
  have h1 := hrun AF_INET6 ⟨true, !split w AF_INET6⟩ (runDijkstra w n AF_INET ⟨true, !split w AF_INET⟩ prepareNodes (prepareRoutes tbl)).1 _ (hrun AF_INET ⟨true, !split w AF_INET⟩ prepareNodes _ h0)
  revert h1
  cases split w AF_INET <;> cases split w AF_INET6 <;> intro h1
  · exact h1
  · exact hrun _ _ _ _ h1
  · exact hrun _ _ _ _ h1
  · exact hrun _ _ _ _ (hrun _ _ _ _ h1)

/-- the entries after a run compared to those before -/
structure Kept (tbl0 tbl : List Entry) : Prop where
  nodup : (tbl.map Entry.key).Nodup
  all : ∀ e0 ∈ tbl0, ∃ e ∈ tbl, e.key = e0.key
  each : ∀ e ∈ tbl, e.inProcessing = false ∧ ((∃ e0 ∈ tbl0, e0.key = e.key ∧ e.old = some e0.p) ∨ (e.old = none ∧ ∀ e0 ∈ tbl0, e0.key ≠ e.key))

theorem Kept.update {tbl0 tbl : List Entry} (h : Kept tbl0 tbl) (w : Env) (c : Call) : Kept tbl0 (update w tbl c) := by
  by_cases hr : refused w c = true
  · unfold Routing.update
    rw [if_pos hr]
    exact h
  have hu : Routing.update w tbl c = modifyEntry c.key (apply w c) tbl := by unfold Routing.update; rw [if_neg hr]
  have hmem := @mem_modify c.key (apply w c) apply_key tbl h.nodup
  have happ : ∀ e, (apply w c e).old = e.old ∧ (apply w c e).inProcessing = e.inProcessing := by
    intro e
    unfold apply
    split <;> exact ⟨rfl, rfl⟩
  refine ⟨nodup_update h.nodup, ?_, ?_⟩
  · intro e0 h0
    obtain ⟨e, he, hk⟩ := h.all e0 h0
    rw [hu]
    by_cases hc : e.key = c.key
    · exact ⟨apply w c e, hmem.2 (.inr (.inl ⟨e, he, hc, rfl⟩)), by rw [apply_key]; exact hk⟩
    · exact ⟨e, hmem.2 (.inl ⟨he, hc⟩), hk⟩
  · intro e he
    rw [hu, hmem] at he
    rcases he with ⟨he, _⟩ | ⟨e', he', hk, rfl⟩ | ⟨hk, rfl⟩
    · exact h.each e he
    · rw [(happ e').1, (happ e').2, apply_key]
      exact h.each e' he'
    · rw [(happ _).1, (happ _).2, apply_key]
      refine ⟨rfl, .inr ⟨rfl, ?_⟩⟩
      intro e0 h0 hk0
      obtain ⟨e, he, hek⟩ := h.all e0 h0
      exact hk (List.mem_map.2 ⟨e, he, by rw [hek, hk0]; rfl⟩)

theorem Kept.computed {w : Env} {n : Nat} {d : DomainParams} {fs : List Filter} {tbl : List Entry} (hn : (tbl.map Entry.key).Nodup) (hp : ∀ e ∈ tbl, e.inProcessing = false) :
    Kept tbl (computed w n d fs tbl) := by
  have h : Kept tbl (calculate w n tbl) := by
    refine calculate_ind (Kept tbl) (fun t c h => h.update w c) ⟨?_, ?_, ?_⟩
    · unfold prepareRoutes
      rw [List.map_map]
      exact hn
    · intro e0 h0
      exact ⟨_, List.mem_map_of_mem h0, rfl⟩
    · intro e he
      unfold prepareRoutes at he
      obtain ⟨e0, h0, rfl⟩ := List.mem_map.1 he
      exact ⟨hp e0 h0, .inl ⟨e0, h0, rfl, rfl⟩⟩
  unfold Routing.computed
  refine ⟨?_, ?_, ?_⟩
  · rw [List.map_map]; exact h.nodup
  · intro e0 h0
    obtain ⟨e, he, hk⟩ := h.all e0 h0
    exact ⟨_, List.mem_map_of_mem he, hk⟩
  · intro e he
    obtain ⟨e', he', rfl⟩ := List.mem_map.1 he
    exact h.each e' he'

/-- the kernel has exactly the routes of the entries `tbl` -/
def Mirrors (kernel : Key → Option Params) (tbl : List Entry) : Prop :=
  ∀ k p, kernel k = some p ↔ ∃ e ∈ tbl, e.key = k ∧ e.set = true ∧ e.p = p

/-- all requests are answered, every entry is a route, the kernel has exactly these routes -/
structure Synced (s : Sys) : Prop where
  answered : s.pending = []
  nodup : (s.tbl.map Entry.key).Nodup
  set : ∀ e ∈ s.tbl, e.set = true
  idle : ∀ e ∈ s.tbl, e.inProcessing = false
  mirrors : Mirrors s.kernel s.tbl

/-- the kernel carries out all pending requests and answers them, in any order -/
inductive Answers : Sys → Sys → Prop
  | done {s : Sys} : s.pending = [] → Answers s s
  | step {s s' : Sys} {r : Request} : r ∈ s.pending → Answers (answer s r 0) s' → Answers s s'

/-- the state while answers arrive: `T` is the computed table -/
structure Between (T : List Entry) (s : Sys) : Prop where
  nodup : (s.tbl.map Entry.key).Nodup
  keys : (s.pending.map Request.key).Nodup
  pending : ∀ r ∈ s.pending, ∃ e ∈ T, r = e.req
  todo : ∀ e ∈ T, e.req ∈ s.pending → mark e ∈ s.tbl
  ready : ∀ e ∈ T, e.req ∉ s.pending → if e.set then e ∈ s.tbl ∧ s.kernel e.key = some e.p else s.kernel e.key = none
  entries : ∀ x ∈ s.tbl, ∃ e ∈ T, (e.req ∈ s.pending ∧ x = mark e) ∨ (e.req ∉ s.pending ∧ e.set = true ∧ x = e)
  other : ∀ k, (∀ e ∈ T, e.key ≠ k) → s.kernel k = none

theorem find_key {tbl : List Entry} (h : (tbl.map Entry.key).Nodup) {e : Entry} (he : e ∈ tbl) : tbl.find? (fun x => decide (x.key = e.key)) = some e := by
  cases hf : tbl.find? (fun x => decide (x.key = e.key)) with
  | none =>
    rw [List.find?_eq_none] at hf
    exact absurd (by simp) (hf e he)
  | some x =>
    have h1 := List.find?_some hf
    have h2 := List.mem_of_find?_eq_some hf
    rw [key_inj h h2 he (by simpa using h1)]

theorem Between.answer {T : List Entry} (hT : (T.map Entry.key).Nodup) (hidle : ∀ e ∈ T, e.inProcessing = false) {s : Sys} (h : Between T s) {r : Request} (hr : r ∈ s.pending) :
    Between T (answer s r 0) := by
  obtain ⟨e, he, rfl⟩ := h.pending r hr
  have hm := h.todo e he hr
  have hpn : s.pending.Nodup := by
    have := h.keys
    rw [List.Nodup, List.pairwise_map] at this
    exact this.imp (fun h e => h (by rw [e]))
  -- the table without the flag
  have hfind : (setEntry e.key unmark s.tbl).find? (fun x => decide (x.key = e.key)) = some e := by
    have h1 : e ∈ setEntry e.key unmark s.tbl := by
      unfold setEntry
      refine List.mem_map.2 ⟨mark e, hm, ?_⟩
      rw [if_pos (show (mark e).key = e.key from rfl)]
      have := hidle e he
      unfold unmark mark
      cases e
      simp_all
    exact find_key (by rw [setEntry_keys (f := unmark) (fun _ => rfl)]; exact h.nodup) h1
  have hfin : finished s.tbl e.key 0 = if e.set then setEntry e.key unmark s.tbl
      else (setEntry e.key unmark s.tbl).filter fun x => x.key ≠ e.key := by
    unfold finished
    have hu : setEntry e.key (fun e => { e with inProcessing := false }) s.tbl = setEntry e.key unmark s.tbl := rfl
    dsimp only
    rw [hu, hfind]
    dsimp only
    rw [if_neg (by intro h; exact absurd h.2 (by decide)), if_neg (by decide)]
  have hset : ∀ x, x ∈ setEntry e.key unmark s.tbl ↔ (x ∈ s.tbl ∧ x.key ≠ e.key) ∨ x = e := by
    intro x
    constructor
    · intro hx
      obtain ⟨y, hy, rfl⟩ := List.mem_map.1 hx
      by_cases hk : y.key = e.key
      · have : y = mark e := key_inj h.nodup hy hm hk
        rw [if_pos hk, this]
        right
        have := hidle e he
        unfold unmark mark
        cases e
        simp_all
      · rw [if_neg hk]
        exact .inl ⟨hy, hk⟩
    · rintro (⟨hx, hk⟩ | rfl)
      · exact List.mem_map.2 ⟨x, hx, by rw [if_neg hk]⟩
      · exact List.mem_of_find?_eq_some hfind
  have htbl : ∀ x, x ∈ finished s.tbl e.key 0 ↔ (x ∈ s.tbl ∧ x.key ≠ e.key) ∨ (e.set = true ∧ x = e) := by
    intro x
    rw [hfin]
    cases hs : e.set with
    | true =>
      rw [if_pos rfl, hset]
      simp
    | false =>
      rw [if_neg (by decide), List.mem_filter, hset]
      constructor
      · rintro ⟨h1 | rfl, h2⟩
        · exact .inl h1
        · simp at h2
      · rintro (h1 | ⟨h1, _⟩)
        · exact ⟨.inl h1, by simpa using h1.2⟩
        · cases h1
  have hreq : ∀ e' ∈ T, (e'.req ∈ s.pending.erase e.req ↔ e'.req ∈ s.pending ∧ e' ≠ e) := by
    intro e' he'
    rw [hpn.mem_erase_iff]
    constructor
    · rintro ⟨h1, h2⟩
      exact ⟨h2, fun h => h1 (by rw [h])⟩
    · rintro ⟨h1, h2⟩
      refine ⟨fun h3 => h2 (key_inj hT he' he ?_), h1⟩
      have := congrArg Request.key h3
      exact this
  have hker : (Routing.answer s e.req 0).kernel = e.req.exec s.kernel := rfl
  have hexec : ∀ k, k ≠ e.key → e.req.exec s.kernel k = s.kernel k := by
    intro k hk
    unfold Request.exec
    rw [if_neg (show ¬ k = e.req.key from hk)]
  have hexec' : e.req.exec s.kernel e.key = if e.set then some e.p else none := by
    unfold Request.exec
    rw [if_pos (show e.key = e.req.key from rfl)]
    rfl
  refine ⟨?_, ?_, ?_, ?_, ?_, ?_, ?_⟩
  · show ((finished s.tbl e.key 0).map Entry.key).Nodup
    rw [hfin]
    have hn : ((setEntry e.key unmark s.tbl).map Entry.key).Nodup := by
      rw [setEntry_keys (f := unmark) (fun _ => rfl)]; exact h.nodup
    split
    · exact hn
    · exact hn.sublist (List.Sublist.map _ List.filter_sublist)
  · exact h.keys.sublist (List.Sublist.map _ List.erase_sublist)
  · intro r hr
    exact h.pending r (List.mem_of_mem_erase hr)
  · intro e' he' hp
    have hp' := (hreq e' he').1 hp
    refine (htbl _).2 (.inl ⟨h.todo e' he' hp'.1, ?_⟩)
    intro hk
    exact hp'.2 (key_inj hT he' he hk)
  · intro e' he' hp
    rw [hker]
    show if e'.set then e' ∈ finished s.tbl e.key 0 ∧ _ else _
    by_cases hee : e' = e
    · subst hee
      rw [hexec']
      cases hs : e'.set with
      | true => exact ⟨(htbl _).2 (.inr ⟨hs, rfl⟩), rfl⟩
      | false => rfl
    · have hk : e'.key ≠ e.key := fun hk => hee (key_inj hT he' he hk)
      rw [hexec _ hk]
      have := h.ready e' he' (fun h1 => hp ((hreq e' he').2 ⟨h1, hee⟩))
      split
      · rename_i hs
        rw [if_pos hs] at this
        exact ⟨(htbl _).2 (.inl ⟨this.1, hk⟩), this.2⟩
      · rename_i hs
        rw [if_neg hs] at this
        exact this
  · intro x hx
    rcases (htbl x).1 hx with ⟨hx, hk⟩ | ⟨hs, rfl⟩
    · obtain ⟨e', he', h1 | h1⟩ := h.entries x hx
      · refine ⟨e', he', .inl ⟨(hreq e' he').2 ⟨h1.1, ?_⟩, h1.2⟩⟩
        rintro rfl
        rw [h1.2] at hk
        exact hk rfl
      · exact ⟨e', he', .inr ⟨fun h2 => h1.1 ((hreq e' he').1 h2).1, h1.2⟩⟩
    · exact ⟨x, he, .inr ⟨fun h2 => ((hreq x he).1 h2).2 rfl, hs, rfl⟩⟩
  · intro k hk
    rw [hker, hexec k (fun h => hk e he h.symm)]
    exact h.other k hk

theorem Between.synced {T : List Entry} (hidle : ∀ e ∈ T, e.inProcessing = false) {s : Sys} (h : Between T s) (hp : s.pending = []) : Synced s ∧ Mirrors s.kernel T := by
  have hent : ∀ x, x ∈ s.tbl ↔ x ∈ T ∧ x.set = true := by
    intro x
    constructor
    · intro hx
      obtain ⟨e, he, h1 | h1⟩ := h.entries x hx
      · rw [hp] at h1; cases h1.1
      · rw [h1.2.2]; exact ⟨he, h1.2.1⟩
    · rintro ⟨hx, hs⟩
      have := h.ready x hx (by rw [hp]; simp)
      rw [if_pos hs] at this
      exact this.1
  have hm : Mirrors s.kernel T := by
    intro k p
    constructor
    · intro hk
      by_cases hall : ∀ e ∈ T, e.key ≠ k
      · rw [h.other k hall] at hk; cases hk
      · simp only [Classical.not_forall] at hall
        obtain ⟨e, he, hek⟩ := hall
        have hek : e.key = k := Decidable.not_not.1 hek
        have := h.ready e he (by rw [hp]; simp)
        rw [hek, hk] at this
        split at this
        · rename_i hs
          exact ⟨e, he, hek, hs, (Option.some.inj this.2).symm⟩
        · cases this
    · rintro ⟨e, he, rfl, hs, rfl⟩
      have := h.ready e he (by rw [hp]; simp)
      rw [if_pos hs] at this
      exact this.2
  refine ⟨⟨hp, h.nodup, fun e he => ((hent e).1 he).2, fun e he => hidle e ((hent e).1 he).1, ?_⟩, hm⟩
  intro k p
  rw [hm k p]
  constructor
  · rintro ⟨e, he, h1, h2, h3⟩
    exact ⟨e, (hent e).2 ⟨he, h2⟩, h1, h2, h3⟩
  · rintro ⟨e, he, h1, h2, h3⟩
    exact ⟨e, ((hent e).1 he).1, h1, h2, h3⟩

theorem answers_synced {T : List Entry} (hT : (T.map Entry.key).Nodup) (hidle : ∀ e ∈ T, e.inProcessing = false) {s s' : Sys} (h : Between T s) (ha : Answers s s') :
    Synced s' ∧ Mirrors s'.kernel T := by
  induction ha with
  | done hp => exact h.synced hidle hp
  | step hr _ ih => exact ih (h.answer hT hidle hr)

/-- all entries of a run can be expressed as requests -/
def Expressible (tbl : List Entry) : Prop := ∀ e ∈ tbl, sendable ⟨e.key, e.set, e.p⟩ = true

/-- **C42** (part): if the kernel carries out and answers all requests of a run, in any order, before the next run, then
it has exactly the routes that were computed; every history of such runs keeps routing table and kernel identical.
Missing: runs while answers are outstanding, and errors; changes can be lost then, see the counterexamples. -/
theorem C42_converges_partial (w : Env) (n : Nat) (d : DomainParams) (fs : List Filter) {s s' : Sys} (h : Synced s) (hx : Expressible (computed w n d fs s.tbl))
    (ha : Answers (run w n d fs s) s') : Synced s' ∧ Mirrors s'.kernel (computed w n d fs s.tbl) := by
  have hk : Kept s.tbl (computed w n d fs s.tbl) := .computed h.nodup h.idle
  obtain ⟨q, h1, _, h3⟩ := run_eq w n d fs s
  revert hx hk h1 h3
  generalize computed w n d fs s.tbl = T
  intro hx hk h1 h3
  have hq : idle q = q := by
    unfold idle
    rw [List.filter_eq_self]
    intro e he
    rw [h1.mem_iff, List.mem_filter] at he
    rw [(hk.each e he.1).1]; rfl
  have hs : (q.map Entry.req).filter sendable = q.map Entry.req := by
    rw [List.filter_eq_self]
    intro r hr
    obtain ⟨e, he, rfl⟩ := List.mem_map.1 hr
    rw [h1.mem_iff, List.mem_filter] at he
    exact hx e he.1
  rw [hq, hs, h.answered, List.nil_append] at h3
  have hmem : ∀ e ∈ T, (e.key ∈ q.map Entry.key ↔ changed e = true) := by
    intro e he
    rw [List.mem_map]
    constructor
    · rintro ⟨e', he', hek⟩
      rw [h1.mem_iff, List.mem_filter] at he'
      rw [← key_inj hk.nodup he'.1 he hek]
      exact he'.2
    · intro hc
      exact ⟨e, by rw [h1.mem_iff, List.mem_filter]; exact ⟨he, hc⟩, rfl⟩
  have hreq : ∀ e ∈ T, (e.req ∈ q.map Entry.req ↔ changed e = true) := by
    intro e he
    rw [← hmem e he, List.mem_map, List.mem_map]
    constructor
    · rintro ⟨e', he', hek⟩
      exact ⟨e', he', congrArg Request.key hek⟩
    · rintro ⟨e', he', hek⟩
      rw [key_inj hk.nodup ((List.mem_filter.1 (h1.mem_iff.1 he')).1) he hek] at he'
      exact ⟨e, he', rfl⟩
  rw [h3] at ha
  refine answers_synced hk.nodup (fun e he => (hk.each e he).1) ⟨?_, ?_, ?_, ?_, ?_, ?_, ?_⟩ ha
  · dsimp only
    rw [List.map_map]
    have : (Entry.key ∘ fun e => if e.key ∈ q.map Entry.key then mark e else e) = Entry.key := by
      funext e
      dsimp only [Function.comp]
      split <;> rfl
    rw [this]
    exact hk.nodup
  · dsimp only
    rw [List.map_map]
    have : (q.map Entry.key).Nodup := (h1.map Entry.key).nodup_iff.2 (hk.nodup.sublist (List.Sublist.map _ List.filter_sublist))
    exact this
  · intro r hr
    obtain ⟨e, he, rfl⟩ := List.mem_map.1 hr
    exact ⟨e, (List.mem_filter.1 (h1.mem_iff.1 he)).1, rfl⟩
  · intro e he hp
    refine List.mem_map.2 ⟨e, he, ?_⟩
    rw [if_pos ((hmem e he).2 ((hreq e he).1 hp))]
  · intro e he hp
    have hc : ¬ changed e = true := fun hc => hp ((hreq e he).2 hc)
    have : e.set = true ∧ e.old = some e.p := by
      unfold changed at hc
      simpa using hc
    rw [if_pos this.1]
    refine ⟨List.mem_map.2 ⟨e, he, by rw [if_neg (fun hm => hc ((hmem e he).1 hm))]⟩, ?_⟩
    dsimp only
    rcases (hk.each e he).2 with ⟨e0, h0, hk0, ho⟩ | ⟨ho, _⟩
    · rw [h.mirrors]
      refine ⟨e0, h0, hk0, h.set e0 h0, ?_⟩
      rw [ho] at this
      exact Option.some.inj this.2
    · rw [ho] at this
      cases this.2
  · intro x hx
    obtain ⟨e, he, rfl⟩ := List.mem_map.1 hx
    refine ⟨e, he, ?_⟩
    by_cases hc : changed e = true
    · left
      exact ⟨(hreq e he).2 hc, by rw [if_pos ((hmem e he).2 hc)]⟩
    · right
      refine ⟨fun hp => hc ((hreq e he).1 hp), ?_, by rw [if_neg (fun hm => hc ((hmem e he).1 hm))]⟩
      unfold changed at hc
      simp at hc
      exact hc.1
  · intro k hkk
    dsimp only
    cases hv : s.kernel k with
    | none => rfl
    | some p =>
      obtain ⟨e0, h0, hk0, _⟩ := (h.mirrors k p).1 hv
      obtain ⟨e, he, hek⟩ := hk.all e0 h0
      exact absurd (by rw [hek, hk0]) (hkk e he)

/-- histories of runs, each followed by the answers to all its requests -/
inductive History : Sys → Prop
  | start : History ⟨[], fun _ => none, []⟩
  | run {s s' : Sys} (w : Env) (n : Nat) (d : DomainParams) (fs : List Filter) : History s → Expressible (computed w n d fs s.tbl) → Answers (run w n d fs s) s' → History s'

/-- **C42** (part): starting without routes, after every history of answered runs the kernel has exactly the routes of the
routing table.  Missing: as above. -/
theorem C42_history_partial {s : Sys} (h : History s) : Synced s := by
  induction h with
  | start => exact ⟨rfl, by simp, fun e he => (by cases he), fun e he => (by cases he), fun k p => ⟨fun h => (by cases h), fun ⟨e, he, _⟩ => (by cases he)⟩⟩
  | run w n d fs _ hx ha ih => exact (C42_converges_partial w n d fs ih hx ha).1

/-! ### examples -/

namespace ExKernel
/-- one neighbor, reached through the given link address -/
def w (sym : Nat) (link : Netaddr) : Env where
  targets := [Ex.node 1 [] []]
  neighs := [⟨Ex.ip 0 1, sym, some 0, 1, 1, 3, link, [], []⟩]
  originator := fun _ => Ex.ip 0 100
  ifAddr := fun _ => false
  lan := fun _ => none
  routable := fun _ => true
  nhdpRoutable := true

def d : DomainParams := ⟨true, 100, 254, 2⟩
def key : Key := ⟨Ex.ip 0 1, Ex.any⟩
def s0 : Sys := ⟨[], fun _ => none, []⟩
def p (gw : Netaddr) : Params := ⟨3, some gw, 2, 254, 100, some (Ex.ip 0 100)⟩
/-- the first run, over the link address 10.0.7.1 -/
def s1 : Sys := run (w 1 (Ex.ip 7 1)) 1 d [] s0
/-- the route changes to the link address 10.0.7.2 before the answer -/
def s2 : Sys := run (w 1 (Ex.ip 7 2)) 1 d [] s1
def s3 : Sys := answer s2 ⟨key, true, p (Ex.ip 7 1)⟩ 0
/-- the neighbor is lost before the answer -/
def t2 : Sys := run (w 0 (Ex.ip 7 1)) 1 d [] s1
def t3 : Sys := answer t2 ⟨key, true, p (Ex.ip 7 1)⟩ 0
/-- the first run with an IPv6 link address -/
def u1 : Sys := run (w 1 ⟨List.replicate 16 254, 10, 128⟩) 1 d [] s0
def u2 : Sys := run (w 1 (Ex.ip 7 1)) 1 d [] u1
end ExKernel

/-- the example for the history: a first run, its answer -/
example : History (answer ExKernel.s1 ⟨ExKernel.key, true, ExKernel.p (Ex.ip 7 1)⟩ 0) := by
  refine .run (ExKernel.w 1 (Ex.ip 7 1)) 1 ExKernel.d [] .start ?_ (.step (r := ⟨ExKernel.key, true, ExKernel.p (Ex.ip 7 1)⟩) ?_ (.done ?_))
  · unfold Expressible; decide +kernel
  · exact (by decide +kernel : (⟨ExKernel.key, true, ExKernel.p (Ex.ip 7 1)⟩ : Request) ∈ ExKernel.s1.pending)
  · exact (by decide +kernel : (answer ExKernel.s1 ⟨ExKernel.key, true, ExKernel.p (Ex.ip 7 1)⟩ 0).pending = [])

/-- **C42** is false if a route changes while the kernel works on it: the change is not sent, the entry has the new
parameters, the kernel the old ones, and the next run of the same calculation sends nothing. -/
theorem C42_lost_update_counterexample : ExKernel.s3.pending = [] ∧ ExKernel.s3.kernel ExKernel.key = some (ExKernel.p (Ex.ip 7 1)) ∧
    ExKernel.s3.tbl.map (fun e => (e.key, e.set, e.p)) = [(ExKernel.key, true, ExKernel.p (Ex.ip 7 2))] ∧
    (run (ExKernel.w 1 (Ex.ip 7 2)) 1 ExKernel.d [] ExKernel.s3).pending = [] := by decide +kernel

/-- **C42** is false if a route is lost while the kernel works on it: the removal is not sent, the answer to the first
request removes the entry, and the kernel keeps a route that no entry knows. -/
theorem C42_stale_route_counterexample : ExKernel.t3.pending = [] ∧ ExKernel.t3.tbl = [] ∧ ExKernel.t3.kernel ExKernel.key = some (ExKernel.p (Ex.ip 7 1)) := by decide +kernel

/-- **C42** is false if a request cannot be expressed (gateway of another address family): no request is sent, the entry
stays marked, and later changes of the route are not sent either. -/
theorem C42_blocked_entry_counterexample : ExKernel.u1.pending = [] ∧ ExKernel.u2.pending = [] ∧ ExKernel.u2.kernel ExKernel.key = none ∧
    ExKernel.u2.tbl.map (fun e => (e.key, e.set, e.p)) = [(ExKernel.key, true, ExKernel.p (Ex.ip 7 1))] := by decide +kernel

/-- the order of requests: two direct routes and one with gateway -/
example : Ordered [⟨ExKernel.key, true, noParams⟩, ⟨ExKernel.key, false, ExKernel.p (Ex.ip 7 1)⟩, ⟨ExKernel.key, true, ExKernel.p (Ex.ip 7 1)⟩] ∧
    ¬ Ordered [⟨ExKernel.key, true, ExKernel.p (Ex.ip 7 1)⟩, ⟨ExKernel.key, true, noParams⟩] := by
  unfold Ordered
  decide

/-- **C54** is false: a filter that rejects every route does not keep this route from the kernel. -/
theorem C54_rejected_counterexample : (run (ExKernel.w 1 (Ex.ip 7 1)) 1 ExKernel.d [fun _ p _ => (false, p)] ExKernel.s0).pending = [⟨ExKernel.key, true, ExKernel.p (Ex.ip 7 1)⟩] := by
  decide +kernel

/-- **C54** (part): every request carries the parameters as the last filter left them, called with the key and the flag of
the request.  Missing: the verdict (the claim itself), see the counterexamples. -/
theorem C54_partial (w : Env) (n : Nat) (d : DomainParams) (fs : List Filter) (f : Filter) (s : Sys) (hs : s.pending = []) {r : Request}
    (hr : r ∈ (run w n d (fs ++ [f]) s).pending) : ∃ p, r.p = (f r.key p r.set).2 := by
  obtain ⟨reqs, h1, h2⟩ := C42_scheduled w n d (fs ++ [f]) s
  rw [h1, hs, List.nil_append, h2] at hr
  obtain ⟨e, he, rfl, _⟩ := hr
  unfold computed at he
  obtain ⟨e', _, rfl⟩ := List.mem_map.1 he
  unfold finish runFilters
  dsimp only
  rw [List.foldl_append]
  exact ⟨_, rfl⟩

example : (run (ExKernel.w 1 (Ex.ip 7 1)) 1 ExKernel.d ([] ++ [fun _ p _ => (true, { p with table := 7 })]) ExKernel.s0).pending =
    [⟨ExKernel.key, true, { ExKernel.p (Ex.ip 7 1) with table := 7 }⟩] := by decide +kernel

end Verif.Routing
