import Verif.Subsys.Props

/-
C117: loading and unloading at run time.
-/
namespace Verif.Subsys

theorem isSome_modify {t : List Plugin} {n x : Name} {f : Plugin → Plugin} (hf : ∀ p, (f p).name = p.name) :
    (get (modify t n f) x).isSome = (get t x).isSome := by
  rw [Bool.eq_iff_iff, isSome_iff, isSome_iff]
  constructor
  · rintro ⟨q, hq, hk⟩
    obtain ⟨p, hp, rfl⟩ := mem_modify.1 hq
    refine ⟨p, hp, ?_⟩
    unfold Plugin.key at hk ⊢
    split at hk
    · rw [hf] at hk; exact hk
    · exact hk
  · rintro ⟨p, hp, hk⟩
    refine ⟨_, mem_modify.2 ⟨p, hp, rfl⟩, ?_⟩
    unfold Plugin.key at hk ⊢
    split
    · rw [hf]; exact hk
    · exact hk

/-- C117: `oonf_subsystem_load` returns a plugin exactly if there is one of that name afterwards; a plugin which was there before stays as
it is, the library of a new plugin is remembered (only libraries which are remembered are closed). -/
theorem C117_load (s : St) (lib : Name) (file : Option Plugin) :
    ((load s lib file).2 = true ↔ ∃ p ∈ (load s lib file).1.tree, p.key = fold lib) ∧
    ((∃ p ∈ s.tree, p.key = fold lib) → (load s lib file).1 = s) ∧
    ((∀ p ∈ s.tree, p.key ≠ fold lib) → ∀ p ∈ (load s lib file).1.tree, p.key = fold lib → p.dyn = true) ∧
    (∀ p, file = some p → p.key = fold lib → (load s lib file).2 = true) ∧ (load s lib file).1.schema = s.schema := by
  unfold load
  by_cases h : (get s.tree lib).isSome = true
  · rw [if_pos h]
    obtain ⟨p, hp, hk⟩ := isSome_iff.1 h
    exact ⟨⟨fun _ => ⟨p, hp, hk⟩, fun _ => rfl⟩, fun _ => rfl, fun hno => absurd hk (hno p hp), fun _ _ _ => rfl, rfl⟩
  · rw [if_neg h]
    have hno : ¬∃ p ∈ s.tree, p.key = fold lib := fun hx => h (isSome_iff.2 hx)
    cases file with
    | none => exact ⟨⟨fun h => (nomatch h), fun hx => absurd hx hno⟩, fun hx => absurd hx hno, fun hn p hp hk => absurd hk (hn p hp), fun _ h => (nomatch h), rfl⟩
    | some p =>
      have hsch : (hook s p).schema = s.schema := by unfold hook; split <;> rfl
      dsimp only
      by_cases h1 : (get (hook s p).tree lib).isSome = true
      · rw [if_pos h1]
        refine ⟨⟨fun _ => ?_, fun _ => rfl⟩, fun hx => absurd hx hno, ?_, fun _ _ _ => rfl, hsch⟩
        · exact isSome_iff.1 ((isSome_modify (f := fun q => { q with dyn := true }) fun _ => rfl).trans h1)
        · intro _ q hq hk
          obtain ⟨q0, hq0, rfl⟩ := mem_modify.1 hq
          by_cases hk0 : q0.key = fold lib
          · rw [if_pos hk0]
          · rw [if_neg hk0] at hk
            exact absurd hk hk0
      · rw [if_neg h1]
        have hname : ∀ q, some p = some q → q.key = fold lib → False := by
          intro q hq hk
          cases hq
          exact h1 (hook_in s p hk.symm)
        by_cases h2 : (get s.tree p.name).isSome = true
        · rw [if_pos h2]
          refine ⟨⟨fun h => (nomatch h), fun hx => absurd (isSome_iff.2 hx) h1⟩, fun hx => absurd hx hno, ?_, fun q hq hk => (hname q hq hk).elim, hsch⟩
          intro _ q hq hk
          exact absurd (isSome_iff.2 ⟨q, hq, hk⟩) h1
        · rw [if_neg h2]
          have h3 : ∀ q ∈ modify (hook s p).tree p.name fun q => { q with gone := true }, q.key ≠ fold lib := by
            intro q hq hk
            have : (get (modify (hook s p).tree p.name fun q => { q with gone := true }) lib).isSome = true := isSome_iff.2 ⟨q, hq, hk⟩
            rw [isSome_modify (f := fun q => { q with gone := true }) fun _ => rfl] at this
            exact h1 this
          exact ⟨⟨fun h => (nomatch h), fun ⟨q, hq, hk⟩ => absurd hk (h3 q hq)⟩, fun hx => absurd hx hno, fun _ q hq hk => absurd hk (h3 q hq),
            fun q hq hk => (hname q hq hk).elim, hsch⟩

/-- C117: loading a plugin while the configuration is handled; its sections are added exactly if it is new. -/
theorem C117_cfgLoad (s : St) (lib : Name) (file : Option Plugin) :
    (cfgLoad s lib file).2 = (load s lib file).2 ∧ (cfgLoad s lib file).1.tree = (load s lib file).1.tree ∧
    (cfgLoad s lib file).1.schema = if (∀ p ∈ s.tree, p.key ≠ fold lib) ∧ (load s lib file).2 = true then fold lib :: s.schema else s.schema := by
  have hsch := (C117_load s lib file).2.2.2.2
  unfold cfgLoad
  by_cases h : (get s.tree lib).isSome = true
  · rw [if_pos h]
    obtain ⟨p, hp, hk⟩ := isSome_iff.1 h
    rw [if_neg fun hx => hx.1 p hp hk]
    unfold load
    rw [if_pos h]
    exact ⟨rfl, rfl, rfl⟩
  · rw [if_neg h]
    have hno : ∀ p ∈ s.tree, p.key ≠ fold lib := fun p hp hk => h (isSome_iff.2 ⟨p, hp, hk⟩)
    dsimp only
    by_cases h2 : (load s lib file).2 = true
    · rw [if_pos h2, if_pos ⟨hno, h2⟩]
      exact ⟨h2.symm, rfl, by rw [hsch]⟩
    · rw [if_neg h2, if_neg fun hx => h2 hx.2]
      exact ⟨rfl, rfl, hsch⟩

/-! ### Shutdown before unloading -/

/-- a property of plugins which does not depend on the state of initialization -/
def Stable (P : Plugin → Prop) : Prop := ∀ p b, P p → P { p with inited := b } ∧ P { p with marked := b }

def All (P : Plugin → Prop) (s : St) : Prop := ∀ p ∈ s.tree, P p

theorem all_modify {P : Plugin → Prop} {t : List Plugin} {n : Name} {f : Plugin → Plugin} (h : ∀ p ∈ t, P p) (hf : ∀ p, P p → P (f p)) :
    ∀ p ∈ modify t n f, P p := by
  intro q hq
  obtain ⟨p, hp, rfl⟩ := mem_modify.1 hq
  split
  · exact hf p (h p hp)
  · exact h p hp

theorem all_setMark {P : Plugin → Prop} (hP : Stable P) {s : St} (h : All P s) (n : Name) (b : Bool) : All P (setMark s n b) :=
  all_modify h fun p hp => (hP p b hp).2

theorem all_startPlugin {P : Plugin → Prop} (hP : Stable P) {s : St} (h : All P s) (env : Env) (p : Plugin) : All P (startPlugin env s p).1 := by
  unfold startPlugin
  split
  · exact h
  · split
    · exact all_modify h fun p hp => (hP p true hp).1
    · exact h

theorem all_initDeps {P : Plugin → Prop} {f : St → Name → Option (St × Res)} (hf : ∀ s n s' r, f s n = some (s', r) → All P s → All P s') (ds : List Name) :
    ∀ s s' r, initDeps f s ds = some (s', r) → All P s → All P s' := by
  induction ds with
  | nil => intro s s' r h hs; cases h; exact hs
  | cons d ds ih =>
    intro s s' r h hs
    unfold initDeps at h
    split at h
    · cases h; exact hs
    · split at h
      · cases h; exact hs
      · split at h
        · cases h
        · rename_i s1 h1
          exact ih _ _ _ h (hf _ _ _ _ h1 hs)
        · rename_i s1 r1 _ h1
          cases h
          exact hf _ _ _ _ h1 hs

theorem all_initPlugin {P : Plugin → Prop} (hP : Stable P) (env : Env) (k : Nat) : ∀ s n s' r, initPlugin env k s n = some (s', r) → All P s → All P s' := by
  induction k with
  | zero => intro s n s' r h; cases h
  | succ k ih =>
    intro s n s' r h hs
    unfold initPlugin at h
    split at h
    · cases h
    · split at h
      · cases h; exact hs
      · split at h
        · cases h
        · rename_i s1 h1
          have h2 := all_initDeps ih _ _ _ _ h1 (all_setMark hP hs n true)
          have h3 := all_startPlugin hP (all_setMark hP h2 n false) env ‹Plugin›
          rw [Option.some.inj h] at h3
          exact h3
        · rename_i s1 r1 _ h1
          cases h
          exact all_initDeps ih _ _ _ _ h1 (all_setMark hP hs n true)

theorem all_each {P : Plugin → Prop} {f : St → Name → Option St} (hf : ∀ s n s', f s n = some s' → All P s → All P s')
    (ns : List Name) : ∀ s s', each f s ns = some s' → All P s → All P s' := by
  induction ns with
  | nil => intro s s' h hs; cases h; exact hs
  | cons n ns ih =>
    intro s s' h hs
    unfold each at h
    split at h
    · cases h
    · rename_i s1 h1; exact ih _ _ h (hf _ _ _ h1 hs)

theorem all_cleanup {P : Plugin → Prop} (hP : Stable P) (k : Nat) : ∀ s n s', cleanupPlugin k s n = some s' → All P s → All P s' := by
  induction k with
  | zero => intro s n s' h; cases h
  | succ k ih =>
    intro s n s' h hs
    unfold cleanupPlugin at h
    split at h
    · cases h
    · split at h
      · split at h
        · cases h
        · rename_i s1 h1
          cases h
          exact all_modify (all_each ih _ _ _ h1 hs) fun p hp => (hP p false hp).1
      · cases h; exact hs

theorem all_unload {P : Plugin → Prop} (hP : Stable P) {s s' : St} {n : Name} {b : Bool} (h : unload s n = some (s', b)) (hs : All P s) : All P s' := by
  unfold unload at h
  split at h
  · cases h
  · split at h
    · cases h; exact hs
    · unfold unloadPlugin at h
      split at h
      · cases h
      · split at h
        · cases h; exact hs
        · split at h
          · cases h
          · rename_i s2 h2
            cases h
            intro q hq
            have hq := (List.mem_filter.1 hq).1
            split at h2
            · exact all_cleanup hP _ _ _ _ h2 hs q hq
            · cases h2; exact hs q hq

theorem all_hook {P : Plugin → Prop} {s : St} {p : Plugin} (h : All P s)
    (hp : P { p with inited := false, marked := false, unloadBegun := false, gone := false, dyn := false }) : All P (hook s p) := by
  unfold hook
  split
  · exact h
  · intro q hq
    have hq : q ∈ insert s.tree { p with inited := false, marked := false, unloadBegun := false, gone := false, dyn := false } := hq
    unfold insert at hq
    rcases List.mem_append.1 hq with hq | hq
    · exact h q ((List.takeWhile_sublist _).mem hq)
    · rcases List.mem_cons.1 hq with rfl | hq
      · exact hp
      · exact h q ((List.dropWhile_sublist _).mem hq)

/-- plugins with the name `n` are not being shut down -/
def NotBegun (n : Name) (p : Plugin) : Prop := p.key = fold n → p.unloadBegun = false

theorem notBegun_stable (n : Name) : Stable (NotBegun n) := fun _ _ h => ⟨h, h⟩

theorem notBegun_load {n : Name} {s : St} (h : All (NotBegun n) s) (lib : Name) (file : Option Plugin) : All (NotBegun n) (load s lib file).1 := by
  unfold load
  split
  · exact h
  · split
    · exact h
    · rename_i p
      have hh : All (NotBegun n) (hook s p) := all_hook h fun _ => rfl
      dsimp only
      split
      · exact all_modify hh fun _ hp => hp
      · split
        · exact hh
        · exact all_modify hh fun _ hp => hp

theorem notBegun_step {n : Name} {s s' : St} {o : Op} (h : step s o = some s') (ho : ∀ m, o = .initiateUnload m → fold m ≠ fold n) (hs : All (NotBegun n) s) :
    All (NotBegun n) s' := by
  cases o with
  | hook p => cases h; exact all_hook hs fun _ => rfl
  | load lib file => cases h; exact notBegun_load hs lib file
  | cfgLoad lib file =>
    cases h
    have := (C117_cfgLoad s lib file).2.1
    intro q hq
    rw [this] at hq
    exact notBegun_load hs lib file q hq
  | init env m =>
    simp only [step] at h
    split at h
    · obtain ⟨⟨s1, r⟩, h1, h2⟩ := Option.map_eq_some_iff.1 h
      cases h2
      exact all_initPlugin (notBegun_stable n) env _ _ _ _ _ h1 hs
    · cases h; exact hs
  | initiateUnload m =>
    cases h
    intro q hq
    obtain ⟨p, hp, rfl⟩ := mem_modify.1 hq
    by_cases hm : p.key = fold m
    · rw [if_pos hm]
      split
      · intro hk
        exact absurd (hm.symm.trans hk) (ho m rfl)
      · exact hs p hp
    · rw [if_neg hm]
      exact hs p hp
  | unload m =>
    simp only [step] at h
    split at h
    · obtain ⟨⟨s1, r⟩, h1, h2⟩ := Option.map_eq_some_iff.1 h
      cases h2
      exact all_unload (notBegun_stable n) h1 hs
    · cases h; exact hs

/-- C117: a plugin with a shutdown callback is not unloaded before the callback was called: unloading it fails and changes nothing. -/
theorem C117_shutdown (n : Name) (os : List Op) (ho : ∀ m, Op.initiateUnload m ∈ os → fold m ≠ fold n) {s : St} (hs : run St.start os = some s)
    {p : Plugin} (hp : get s.tree n = some p) (hsd : p.hasShutdown = true) : unload s n = some (s, false) := by
  have : ∀ (os : List Op) s0, (∀ m, Op.initiateUnload m ∈ os → fold m ≠ fold n) → All (NotBegun n) s0 → run s0 os = some s → All (NotBegun n) s := by
    intro os
    induction os with
    | nil => intro s0 _ h0 h; cases h; exact h0
    | cons o os ih =>
      intro s0 ho h0 h
      unfold run at h
      split at h
      · cases h
      · rename_i s1 h1
        exact ih s1 (fun m hm => ho m (List.mem_cons_of_mem _ hm)) (notBegun_step h1 (fun m hm => ho m (by rw [hm]; exact List.mem_cons_self)) h0) h
  obtain ⟨hm, hk⟩ := get_some hp
  have hb := this os St.start ho (fun _ h => (nomatch h)) hs p hm hk
  unfold unload
  rw [hp]
  dsimp only
  rw [hsd, hb]
  rfl

/-- C117: after its shutdown was started, or if there is no shutdown callback, a plugin which supports it is unloaded. -/
theorem C117_unload_partial (C : Name → Prop) (hC : Distinct C) (os : List Op) (ho : ∀ o ∈ os, o.names C) {s : St} (hs : run St.start os = some s)
    (n : Name) {p : Plugin} (hp : get s.tree n = some p) :
    (p.canCleanup = true → ∃ s', unload (initiateUnload s n) n = some (s', true) ∧ ∀ q ∈ s'.tree, q.key ≠ fold n) ∧
    (p.canCleanup = true → p.hasShutdown = false → ∃ s', unload s n = some (s', true) ∧ ∀ q ∈ s'.tree, q.key ≠ fold n) ∧
    (p.canCleanup = false → ∃ s', unload s n = some (s', false) ∧ s' = s) := by
  obtain ⟨hm, hk⟩ := get_some hp
  have key : ∀ (os : List Op) (s : St) (p : Plugin), (∀ o ∈ os, o.names C) → run St.start os = some s → get s.tree n = some p → p.canCleanup = true →
      (p.hasShutdown && !p.unloadBegun) = false → ∃ s', unload s n = some (s', true) ∧ ∀ q ∈ s'.tree, q.key ≠ fold n := by
    intro os s p ho hs hp hc hb
    obtain ⟨s0, L, h1, h2⟩ := run_ok hC os (inv_start C) ho
    rw [hs] at h1
    cases h1
    obtain ⟨hm, hk⟩ := get_some hp
    obtain ⟨s1, b, L', g1, _⟩ := unload_ok hC h2 ⟨p, hm, hk⟩ false
    have hu : unload s n = some (s1, b) := by
      unfold unload
      rw [hp]
      dsimp only
      rw [hb, if_neg (by decide)]
      exact g1
    have hbt : b = true := by
      unfold unloadPlugin at g1
      rw [hp] at g1
      dsimp only at g1
      rw [hc, if_neg (by decide)] at g1
      split at g1
      · cases g1
      · cases g1; rfl
    subst hbt
    exact ⟨s1, hu, (C99_unload_partial C hC os ho hs n hu).1⟩
  refine ⟨?_, ?_, ?_⟩
  · intro hc
    have hrun : run St.start (os ++ [.initiateUnload n]) = some (initiateUnload s n) := by
      have : ∀ (os : List Op) s0, run s0 os = some s → run s0 (os ++ [.initiateUnload n]) = some (initiateUnload s n) := by
        intro os
        induction os with
        | nil => intro s0 h; cases h; rfl
        | cons o os ih =>
          intro s0 h
          rw [List.cons_append]
          unfold run at h ⊢
          split at h
          · cases h
          · rename_i s1 h1
            exact ih s1 h
      exact this os _ hs
    have hget : get (initiateUnload s n).tree n = some (if p.hasShutdown then { p with unloadBegun := true } else p) := by
      obtain ⟨s0, L, h1, h2⟩ := run_ok hC (os ++ [.initiateUnload n]) (inv_start C) (by
        intro o hmem
        rcases List.mem_append.1 hmem with h | h
        · exact ho o h
        · rw [List.mem_singleton] at h; rw [h]; trivial)
      rw [hrun] at h1
      cases h1
      refine get_of_mem h2.uniq (mem_modify.2 ⟨p, hm, by rw [if_pos hk]⟩) ?_
      split <;> exact hk
    refine key (os ++ [.initiateUnload n]) _ _ ?_ hrun hget ?_ ?_
    · intro o hmem
      rcases List.mem_append.1 hmem with h | h
      · exact ho o h
      · rw [List.mem_singleton] at h; rw [h]; trivial
    · split <;> exact hc
    · cases hsd : p.hasShutdown <;> simp [hsd]
  · intro hc hsd
    exact key os s p ho hs hp hc (by rw [hsd]; rfl)
  · intro hc
    unfold unload
    rw [hp]
    dsimp only
    split
    · exact ⟨s, rfl, rfl⟩
    · unfold unloadPlugin
      rw [hp]
      dsimp only
      rw [hc, if_pos (by decide)]
      exact ⟨s, rfl, rfl⟩

/-- a plugin with shutdown callback is loaded, started, shut down, unloaded -/
example : ∃ s, run St.start [.load [97] (some { name := [97], deps := [], hasShutdown := true }), .init goodEnv [97]] = some s ∧
    unload s [97] = some (s, false) ∧ (∃ s', unload (initiateUnload s [97]) [97] = some (s', true) ∧ s'.tree = []) ∧
    (load s [97] none) = (s, true) ∧ (load s [98] none) = (s, false) :=
  ⟨_, rfl, by decide +kernel, ⟨_, rfl, by decide +kernel⟩, by decide +kernel, by decide +kernel⟩

end Verif.Subsys
