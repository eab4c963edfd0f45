import Verif.Subsys.Cleanup

namespace Verif.Subsys

/-! ### Order -/

/-- C95: whatever the program does with plugins, a plugin is started only when all its dependencies run and stopped only when no plugin
which depends on it runs; the recursive search for dependencies ends.  Missing: names of plugins and dependencies which differ
only in upper and lower case, see the counterexample. -/
theorem C95_order_partial (C : Name → Prop) (hC : Distinct C) (os : List Op) (ho : ∀ o ∈ os, o.names C) :
    ∃ s, run St.start os = some s ∧ Fine s.evs := by
  obtain ⟨s, L, h1, h2⟩ := run_ok hC os (inv_start C) ho
  exact ⟨s, h1, h2.fine⟩

/-- C95: at every time the plugins which are running according to the calls of the callbacks are those marked as initialized, and their
dependencies are present and initialized. -/
theorem C95_state_partial (C : Name → Prop) (hC : Distinct C) (os : List Op) (ho : ∀ o ∈ os, o.names C) {s : St} (hs : run St.start os = some s) :
    (∀ n, (running s.evs n).isSome ↔ ∃ p ∈ s.tree, p.key = fold n ∧ p.inited = true) ∧
    ∀ p ∈ s.tree, p.inited = true → ∀ d ∈ p.deps, ∃ q ∈ s.tree, q.key = fold d ∧ q.inited = true := by
  obtain ⟨s', L, h1, h2⟩ := run_ok hC os (inv_start C) ho
  rw [hs] at h1
  cases h1
  have key : ∀ n, fold n ∈ L ↔ ∃ p ∈ s.tree, p.key = fold n ∧ p.inited = true := by
    intro n
    constructor
    · intro hn
      obtain ⟨p, hp, hk⟩ := h2.ex _ hn
      exact ⟨p, hp, hk, (h2.inL p hp).2 (hk ▸ hn)⟩
    · rintro ⟨p, hp, hk, hi⟩
      exact hk ▸ (h2.inL p hp).1 hi
  refine ⟨fun n => (h2.running_iff n).trans (key n), ?_⟩
  intro p hp hi d hd
  obtain ⟨A, B, hAB⟩ := List.append_of_mem ((h2.inL p hp).1 hi)
  refine (key d).1 ?_
  have ho := h2.ord
  rw [hAB] at ho ⊢
  exact List.mem_append_right _ (List.mem_cons_of_mem _ (ho.older hp rfl hd))

def goodEnv : Env := ⟨fun _ => true, fun _ => true⟩

/-- plugin 98 depends on 97; both are started, then 97 is unloaded -/
example : ∃ s, run St.start [.hook ⟨[98], [[97]], true, false, false, false, false, false, false⟩, .hook ⟨[97], [], true, false, false, false, false, false, false⟩,
      .init goodEnv [98], .unload [97]] = some s ∧
    s.evs = [.stop [97], .stop [98], .start [98] [[97]] true, .start [97] [] true] ∧ s.tree.map (·.name) = [[98]] := by
  refine ⟨_, rfl, by decide +kernel, by decide +kernel⟩

/-- C95: plugin "b" depends on "A", which is the plugin "a" (names are compared without case).  If "a" is unloaded it is stopped while "b"
runs (reverse dependencies are compared with case). -/
theorem C95_case_counterexample : ∃ s, run St.start [.hook { name := [97], deps := [] }, .hook { name := [98], deps := [[65]] },
      .init goodEnv [98], .unload [97]] = some s ∧ s.evs = [.stop [97], .start [98] [[65]] true, .start [97] [] true] ∧ ¬Fine s.evs := by
  refine ⟨_, rfl, by decide +kernel, ?_⟩
  intro h
  exact h.2.1 [98] [[65]] (by decide +kernel) [65] (by decide +kernel) (by decide +kernel)

/-! ### Result of starting a plugin -/

/-- the plugins which are marked as "being initialized" -/
def NoMarks (s : St) : Prop := ∀ p ∈ s.tree, p.marked = false

/-- C96: if no plugin is marked: starting a plugin succeeds if every plugin which is needed is present and can be started and there is no
circular dependency; after success all plugins which are needed run; a circular dependency is reported only if there is one, a failure only
if a needed plugin is missing or fails.  Missing: plugins marked by a failure before, see the counterexample. -/
theorem C96_result_partial (C : Name → Prop) (hC : Distinct C) (os : List Op) (ho : ∀ o ∈ os, o.names C) {s : St}
    (hs : run St.start os = some s) (hm : NoMarks s) (env : Env) (n : Name) (hn : (get s.tree n).isSome) :
    ∃ s' r, callInit env s n = some (s', r) ∧
      ((∀ y, Needs s.tree (fold n) y → ¬Cyclic s.tree y ∧ ¬Broken env s.tree y) → r = .ok) ∧
      (r = .ok → NoMarks s' ∧ (∀ y, Needs s.tree (fold n) y → ¬Cyclic s.tree y ∧ ∃ p ∈ s'.tree, p.key = y ∧ p.inited = true)) ∧
      (r = .circular → ∃ y, Needs s.tree (fold n) y ∧ Cyclic s.tree y) ∧
      (r = .failed → ∃ y, Needs s.tree (fold n) y ∧ Broken env s.tree y) := by
  obtain ⟨s0, L, h1, h2⟩ := run_ok hC os (inv_start C) ho
  rw [hs] at h1
  cases h1
  have hmk : ∀ y, ¬Marked s y := by
    rintro y ⟨p, hp, _, h⟩
    rw [hm p hp] at h
    cases h
  obtain ⟨s', r, hr⟩ := callInit_ends env h2 (isSome_iff.1 hn)
  have hw := initPlugin_why env _ s L n s' r h2 hr fun y hy => absurd hy (hmk y)
  obtain ⟨L', a, m, _, t⟩ := initPlugin_adv env _ s L n s' r h2 hr
  refine ⟨s', r, hr, ?_, ?_, hw.1, hw.2⟩
  · intro hall
    cases r with
    | ok => rfl
    | circular => obtain ⟨y, h1, h2⟩ := hw.1 rfl; exact absurd h2 (hall y h1).1
    | failed => obtain ⟨y, h1, h2⟩ := hw.2 rfl; exact absurd h2 (hall y h1).2
  · rintro rfl
    refine ⟨?_, ?_⟩
    · intro p hp
      cases hpm : p.marked with
      | false => rfl
      | true => exact absurd (m.2 rfl p.key ⟨p, hp, rfl, hpm⟩) (hmk _)
    · intro y hy
      obtain ⟨A, B, hAB⟩ := List.append_of_mem (t rfl)
      have hord := a.inv.ord
      have hex := a.inv.ex
      rw [hAB] at hord hex
      have hyB := hord.needs hex (hy.same a.same)
      have hyL : y ∈ L' := by rw [hAB]; exact List.mem_append_right _ hyB
      constructor
      · rintro ⟨z, hz1, hz2⟩
        obtain ⟨A', B', hAB'⟩ := List.append_of_mem hyL
        have hord' := a.inv.ord
        have hex' := a.inv.ex
        have hnd := hord'.nodup
        rw [hAB'] at hord' hex' hnd
        obtain ⟨p, hp, hk, d, hd, rfl⟩ := hz1.same a.same
        have hdB := hord'.older hp hk hd
        obtain ⟨B1, B2, hB⟩ := List.append_of_mem hdB
        have e : A' ++ y :: B' = (A' ++ y :: B1) ++ fold d :: B2 := by rw [hB]; simp
        have := (e ▸ hord' : OrdL s'.tree ((A' ++ y :: B1) ++ fold d :: B2)).needs (e ▸ hex') (hz2.same a.same)
        rw [List.nodup_append] at hnd
        exact (List.nodup_cons.1 hnd.2.1).1 (by rw [hB]; exact List.mem_append_right _ this)
      · obtain ⟨p, hp, hk⟩ := a.inv.ex y hyL
        exact ⟨p, hp, hk, (a.inv.inL p hp).2 (hk ▸ hyL)⟩

def retryTree : List Plugin := [{ name := [97], deps := [[98]], marked := true }, { name := [98], deps := [[99]], marked := true }, { name := [99], deps := [] }]

/-- C96: "a" depends on "b", "b" depends on "c" which is missing.  Starting "a" fails.  Then "c" is loaded; there is no circular dependency
and nothing is missing, but starting "a" reports a circular dependency (the marks of the first attempt are still there). -/
theorem C96_retry_counterexample : ∃ s s', run St.start [.hook { name := [97], deps := [[98]] }, .hook { name := [98], deps := [[99]] },
      .init goodEnv [97], .hook { name := [99], deps := [] }] = some s ∧
    callInit goodEnv s [97] = some (s', .circular) ∧ s.tree = retryTree ∧
    (∀ y, Needs s.tree [97] y → ¬Cyclic s.tree y ∧ ¬Broken goodEnv s.tree y) := by
  refine ⟨_, _, rfl, rfl, by decide +kernel, ?_⟩
  show ∀ y, Needs retryTree [97] y → ¬Cyclic retryTree y ∧ ¬Broken goodEnv retryTree y
  have edge : ∀ x y, Edge retryTree x y → (x = [97] ∧ y = [98]) ∨ (x = [98] ∧ y = [99]) := by
    rintro x y ⟨p, hp, hk, d, hd, hy⟩
    have hp' : p ∈ [({ name := [97], deps := [[98]], marked := true } : Plugin), { name := [98], deps := [[99]], marked := true }, { name := [99], deps := [] }] := hp
    simp only [List.mem_cons, List.not_mem_nil, or_false] at hp'
    rcases hp' with rfl | rfl | rfl
    · simp only [List.mem_cons, List.not_mem_nil, or_false] at hd; subst hd; exact Or.inl ⟨hk.symm, hy.symm⟩
    · simp only [List.mem_cons, List.not_mem_nil, or_false] at hd; subst hd; exact Or.inr ⟨hk.symm, hy.symm⟩
    · cases hd
  have needs : ∀ x y, Needs retryTree x y → (x = [97] → y = [97] ∨ y = [98] ∨ y = [99]) ∧ (x = [98] → y = [98] ∨ y = [99]) ∧ (x = [99] → y = [99]) := by
    intro x y h
    induction h with
    | refl x => exact ⟨fun h => Or.inl h, fun h => Or.inl h, fun h => h⟩
    | dep e _ ih =>
      rcases edge _ _ e with ⟨rfl, rfl⟩ | ⟨rfl, rfl⟩
      · exact ⟨fun _ => Or.inr (ih.2.1 rfl), fun h => absurd h (by decide), fun h => absurd h (by decide)⟩
      · exact ⟨fun h => absurd h (by decide), fun _ => Or.inr (ih.2.2 rfl), fun h => absurd h (by decide)⟩
  intro y hy
  constructor
  · rintro ⟨z, hz1, hz2⟩
    rcases edge _ _ hz1 with ⟨rfl, rfl⟩ | ⟨rfl, rfl⟩
    · have := (needs _ _ hz2).2.1 rfl
      revert this; decide
    · have := (needs _ _ hz2).2.2 rfl
      revert this; decide
  · rintro (h | ⟨p, _, _, _, h | h⟩)
    · have hin : y = [97] ∨ y = [98] ∨ y = [99] := (needs _ _ hy).1 rfl
      rcases hin with rfl | rfl | rfl
      · exact h ({ name := [97], deps := [[98]], marked := true } : Plugin) (by decide +kernel) (by decide +kernel)
      · exact h ({ name := [98], deps := [[99]], marked := true } : Plugin) (by decide +kernel) (by decide +kernel)
      · exact h ({ name := [99], deps := [] } : Plugin) (by decide +kernel) (by decide +kernel)
    · exact absurd h.2 (by simp [goodEnv])
    · exact absurd h (by simp [goodEnv])

/-! ### End of the program, unloading -/

/-- C98: at the end of the program all plugins are removed, none is running any more, and the order of all calls was fine. -/
theorem C98_cleanup_partial (C : Name → Prop) (hC : Distinct C) (os : List Op) (ho : ∀ o ∈ os, o.names C) {s : St}
    (hs : run St.start os = some s) :
    ∃ s', cleanupAll s = some s' ∧ s'.tree = [] ∧ (∀ n, running s'.evs n = none) ∧ Fine s'.evs := by
  obtain ⟨s0, L, h1, h2⟩ := run_ok hC os (inv_start C) ho
  rw [hs] at h1
  cases h1
  obtain ⟨s', g1, g2, L', g3⟩ := cleanupAll_ok hC (s.tree.map (·.name)) h2 (by rw [List.map_map]; rfl)
  refine ⟨s', g1, g2, ?_, g3.fine⟩
  intro n
  cases hr : running s'.evs n with
  | none => rfl
  | some ds =>
    obtain ⟨p, hp, _⟩ := (g3.run n ds).1 hr
    rw [g2] at hp
    cases hp

/-- C99: unloading a plugin stops exactly the running plugins which need it. -/
theorem C99_unload_partial (C : Name → Prop) (hC : Distinct C) (os : List Op) (ho : ∀ o ∈ os, o.names C) {s : St}
    (hs : run St.start os = some s) (n : Name) {s' : St} (hu : unload s n = some (s', true)) :
    (∀ p ∈ s'.tree, p.key ≠ fold n) ∧
    ∀ x, (running s.evs x).isSome → ((running s'.evs x).isSome ↔ ¬Needs s.tree (fold x) (fold n)) := by
  obtain ⟨s0, L, h1, h2⟩ := run_ok hC os (inv_start C) ho
  rw [hs] at h1
  cases h1
  unfold unload at hu
  split at hu
  · cases hu
  rename_i p hg
  obtain ⟨hp, hk⟩ := get_some hg
  split at hu
  · cases hu
  obtain ⟨s1, b, L', g1, g2, g3, g4, g5, _⟩ := unload_ok hC h2 ⟨p, hp, hk⟩ false
  rw [hu] at g1
  cases g1
  obtain ⟨hsame, hnL⟩ := g5 rfl
  have hgone : ∀ p ∈ s'.tree, p.key ≠ fold n := by
    intro q hq hkq
    obtain ⟨q0, hq0, e1, _⟩ := hsame.symm.mem hq
    unfold remove at hq0
    have := (List.mem_filter.1 hq0).2
    simp only [bne_iff_ne, ne_eq] at this
    exact this (by unfold Plugin.key at hkq ⊢; rw [e1]; exact hkq)
  refine ⟨hgone, ?_⟩
  intro x hx
  rw [h2.running_iff] at hx
  rw [g2.running_iff]
  constructor
  · intro hx' hneed
    -- what is needed by a running plugin still is in the tree
    have : ∀ a b, Needs s.tree a b → a ∈ L' → b ∈ L' := by
      intro a b hab
      induction hab with
      | refl => exact fun h => h
      | @dep a c d e _ ih =>
        intro ha
        obtain ⟨q, hq, hkq, dd, hd, rfl⟩ := e
        refine ih ?_
        obtain ⟨A, B, hAB⟩ := List.append_of_mem ha
        have ho := g2.ord
        rw [hAB] at ho ⊢
        have hqn : q.key ≠ fold n := by rw [hkq]; exact fun e => hnL (e ▸ ha)
        have hqr : q ∈ remove s.tree n := List.mem_filter.2 ⟨hq, by simpa using hqn⟩
        obtain ⟨q', hq', e1, e2⟩ := hsame.mem hqr
        exact List.mem_append_right _ (List.mem_cons_of_mem _ (ho.older hq' (by unfold Plugin.key at hkq ⊢; rw [e1]; exact hkq) (e2 ▸ hd)))
    exact hnL (this _ _ hneed hx')
  · intro hnot
    cases Classical.em (fold x ∈ L') with
    | inl h => exact h
    | inr h => exact absurd (g4 _ hx h) hnot

/-- C99: a plugin which does not support unloading is stopped if a plugin is unloaded on which it depends. -/
theorem C99_static_counterexample : ∃ s s', run St.start [.hook { name := [97], deps := [] }, .hook { name := [98], deps := [[97]], canCleanup := false },
      .init goodEnv [98]] = some s ∧ unload s [98] = some (s, false) ∧ unload s [97] = some (s', true) ∧
    (running s.evs [98]).isSome ∧ running s'.evs [98] = none := by
  refine ⟨_, _, rfl, by decide +kernel, rfl, by decide +kernel, by decide +kernel⟩

/-! ### Libraries which were closed -/

/-- a library contains the plugin with the name under which it is looked for -/
def Op.sameName : Op → Prop
  | .load lib file => ∀ p, file = some p → p.key = fold lib
  | .cfgLoad lib file => ∀ p, file = some p → p.key = fold lib
  | _ => True

theorem modify_gone {t : List Plugin} {n : Name} {f : Plugin → Plugin} (h : ∀ p ∈ t, p.gone = false) (hf : ∀ p, (f p).gone = p.gone) :
    ∀ p ∈ modify t n f, p.gone = false := by
  intro q hq
  obtain ⟨p, hp, rfl⟩ := mem_modify.1 hq
  split
  · rw [hf]; exact h p hp
  · exact h p hp

theorem hook_gone {s : St} {p : Plugin} (h : ∀ p ∈ s.tree, p.gone = false) : ∀ q ∈ (hook s p).tree, q.gone = false := by
  unfold hook
  split
  · exact h
  · intro q hq
    have hq : q ∈ insert s.tree { p with inited := false, marked := false, unloadBegun := false, gone := false, dyn := false } := hq
    unfold insert at hq
    rcases List.mem_append.1 hq with hq | hq
    · exact h q ((List.takeWhile_sublist _).mem hq)
    · rcases List.mem_cons.1 hq with rfl | hq
      · rfl
      · exact h q ((List.dropWhile_sublist _).mem hq)

theorem hook_in (s : St) (p : Plugin) {n : Name} (hn : fold n = p.key) : (get (hook s p).tree n).isSome := by
  refine isSome_iff.2 ?_
  unfold hook
  split
  · rename_i h
    rw [hn]
    exact isSome_iff.1 h
  · exact ⟨_, List.mem_append_right _ List.mem_cons_self, hn.symm⟩

theorem load_gone {s : St} {lib : Name} {file : Option Plugin} (h : ∀ p ∈ s.tree, p.gone = false) (hf : ∀ p, file = some p → p.key = fold lib) :
    ∀ q ∈ (load s lib file).1.tree, q.gone = false := by
  unfold load
  split
  · exact h
  · cases file with
    | none => exact h
    | some p =>
      dsimp only
      rw [if_pos (hook_in s p (hf p rfl).symm)]
      exact modify_gone (hook_gone h) fun _ => rfl

theorem each_gone {f : St → Name → Option St} (hf : ∀ s n s', f s n = some s' → (∀ p ∈ s.tree, p.gone = false) → ∀ p ∈ s'.tree, p.gone = false)
    (ns : List Name) (s s' : St) (h : each f s ns = some s') (hg : ∀ p ∈ s.tree, p.gone = false) : ∀ p ∈ s'.tree, p.gone = false := by
  induction ns generalizing s with
  | nil => cases h; exact hg
  | cons n ns ih =>
    unfold each at h
    split at h
    · cases h
    · rename_i s1 h1; exact ih s1 h (hf _ _ _ h1 hg)

theorem cleanup_gone (k : Nat) : ∀ s n s', cleanupPlugin k s n = some s' → (∀ p ∈ s.tree, p.gone = false) → ∀ p ∈ s'.tree, p.gone = false := by
  induction k with
  | zero => intro s n s' h; cases h
  | succ k ih =>
    intro s n s' h hg
    unfold cleanupPlugin at h
    split at h
    · cases h
    · split at h
      · split at h
        · cases h
        · rename_i s1 h1
          cases h
          exact modify_gone (each_gone ih _ _ _ h1 hg) fun _ => rfl
      · cases h; exact hg

theorem step_gone {s s' : St} {o : Op} (h : step s o = some s') (hg : ∀ p ∈ s.tree, p.gone = false)
    (ho : o.sameName) :
    ∀ p ∈ s'.tree, p.gone = false := by
  cases o with
  | hook p => cases h; exact hook_gone hg
  | load lib file =>
    cases h
    exact load_gone hg ho
  | cfgLoad lib file =>
    cases h
    unfold cfgLoad
    split
    · exact hg
    · dsimp only
      have := load_gone (lib := lib) (file := file) hg ho
      split <;> exact this
  | init env n =>
    simp only [step] at h
    split at h
    · obtain ⟨⟨s1, r⟩, h1, h2⟩ := Option.map_eq_some_iff.1 h
      cases h2
      intro q hq
      obtain ⟨p, hp, _, _, _, e⟩ := stat_mem (initPlugin_stat env _ _ _ _ _ h1).symm hq
      rw [← e]; exact hg p hp
    · cases h; exact hg
  | initiateUnload n =>
    cases h
    refine modify_gone hg fun p => ?_
    split <;> rfl
  | unload n =>
    simp only [step] at h
    split at h
    · obtain ⟨⟨s1, r⟩, h1, h2⟩ := Option.map_eq_some_iff.1 h
      cases h2
      unfold unload at h1
      split at h1
      · cases h1
      · split at h1
        · cases h1; exact hg
        · unfold unloadPlugin at h1
          split at h1
          · cases h1
          · split at h1
            · cases h1; exact hg
            · split at h1
              · cases h1
              · rename_i s2 h2
                cases h1
                intro q hq
                have hq := (List.mem_filter.1 hq).1
                split at h2
                · exact cleanup_gone _ _ _ _ h2 hg q hq
                · cases h2; exact hg q hq
    · cases h; exact hg

/-- C100: no plugin of the tree is in a library which was closed, if the plugin in a library has the name under which the library
was looked for.  Missing: other libraries, sections of the configuration schema; see the counterexamples. -/
theorem C100_tree_partial (os : List Op)
    (ho : ∀ o ∈ os, o.sameName) {s : St}
    (hs : run St.start os = some s) : ∀ p ∈ s.tree, p.gone = false := by
  have : ∀ (os : List Op) s0, (∀ o ∈ os, o.sameName) → (∀ p ∈ s0.tree, p.gone = false) → run s0 os = some s → ∀ p ∈ s.tree, p.gone = false := by
    intro os
    induction os with
    | nil => intro s0 _ h0 h; cases h; exact h0
    | cons o os ih =>
      intro s0 ho h0 h
      unfold run at h
      split at h
      · cases h
      · rename_i s1 h1
        exact ih s1 (fun o ho' => ho o (List.mem_cons_of_mem _ ho')) (step_gone h1 h0 (ho o List.mem_cons_self)) h
  exact this os St.start ho (fun _ h => (nomatch h)) hs

/-- C100: a library is opened which contains a plugin of another name: it is closed, but its plugin stays in the tree. -/
theorem C100_name_counterexample : ∃ s, run St.start [.load [97] (some { name := [98], deps := [] })] = some s ∧
    s.tree = [{ name := [98], deps := [], gone := true }] := by
  refine ⟨_, rfl, by decide +kernel⟩

/-- C100: a plugin is loaded, started and unloaded; the configuration schema still contains its section, which was in the library. -/
theorem C100_schema_counterexample : ∃ s, run St.start [.cfgLoad [97] (some { name := [97], deps := [] }), .init goodEnv [97], .unload [97]] = some s ∧
    s.tree = [] ∧ s.schema = [[97]] := by
  refine ⟨_, rfl, by decide +kernel, by decide +kernel⟩

end Verif.Subsys
