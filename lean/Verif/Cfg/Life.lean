import Verif.Cfg.LifeModel
import Verif.Cfg.Changes

/-
The life of the configuration: apply, rollback and clear.
-/
namespace Verif.Cfg

variable {G : Type}

/-- What happens in a daemon with the databases. -/
inductive Reach (env : Env G) (w : World) : Life G → Prop
  | init : Reach env w (lifeInit w)
  | edit {s} (os : List Op) : Reach env w s → Reach env w (edit s os)
  | apply {s s' ok} : Reach env w s → apply env s = some (s', ok) → Reach env w s'
  | rollback {s} : Reach env w s → Reach env w (rollback s)
  | clear {s} : Reach env w s → Reach env w (clearRaw s)
  | trigger {s} (r c : Bool) : Reach env w s → Reach env w { s with reload := r, commit := c }

theorem Wf.run {d : Db} (h : Wf d) (os : List Op) : Wf (run d os) := by
  induction os generalizing d with
  | nil => exact h
  | cons o os ih =>
    refine ih ?_
    cases o with
    | addSection t n => exact h.addSection t n
    | setEntry t n e v a f => exact h.setEntry t n e v a f
    | removeType t => exact h.removeType t
    | removeNamed t n => exact h.removeNamed t n
    | removeEntry t n e => exact h.removeEntry t n e
    | removeElement t n e v => exact h.removeElement t n e v

theorem wf_duplicate (d : Db) : Wf (duplicate d) := by
  unfold duplicate
  rw [append_steps]
  generalize d.flatMap (typeSteps none none none) = cs
  have : ∀ d, Wf d → Wf (cs.foldl cstep d) := by
    induction cs with
    | nil => exact fun _ h => h
    | cons c cs ih =>
      intro d h
      refine ih _ ?_
      cases c with
      | sec t n => exact h.addSection t n
      | val t n e v => exact h.setEntry t n e v true false
  exact this [] wf_nil

theorem duplicate_equal {d : Db} (hw : Wf d) : Equal (duplicate d) d := by
  constructor
  · intro t n
    have h := (C103_append [] hw none none none t n []).1
    unfold duplicate
    have h0 : has [] t n = false := rfl
    rw [h0] at h
    unfold Selected at h
    rw [Bool.eq_iff_iff, h]
    simp
  · intro t n e
    have h := (C103_append [] hw none none none t n e).2
    unfold duplicate
    rw [h]
    have h0 : vals [] t n e = none := rfl
    rw [h0]
    cases vals d t n e <;> simp

/-- What a call of `apply` did: it stopped early, it stopped late, or it succeeded. -/
inductive Outcome (env : Env G) (s : Life G) : Life G → Bool → Prop
  | noBin : env.toBin s.raw = none → Outcome env s s false
  | early {g w} : env.toBin s.raw = some g → Outcome env s { s with global := some g, world := w } false
  | late {g d r} : env.toBin s.raw = some g → validate (env.load g s.world).1.schema true false (duplicate s.raw) = some (d, r) → env.toBin d = none →
      Outcome env s { s with global := some g, world := (env.load g s.world).1, work := d, workLinked := true } false
  | done {g d r g'} : env.toBin s.raw = some g → (env.load g s.world).2 = true → s.rawLinked = true →
      validate (env.load g s.world).1.schema false (!env.failfast g) s.raw = some (s.raw, false) →
      validate (env.load g s.world).1.schema true false (duplicate s.raw) = some (d, r) → env.toBin d = some g' →
      Outcome env s
        { raw := duplicate d, rawLinked := true, work := d, workLinked := true, global := some g', world := (env.load g s.world).1,
          first := false, reload := false, commit := false,
          calls := s.calls ++ notify (env.load g s.world).1 s.first s.workLinked s.work d } true

theorem outcome {env : Env G} {s s' : Life G} {ok : Bool} (hw : Wf s.raw) (h : apply env s = some (s', ok)) : Outcome env s s' ok := by
  unfold apply updateGlobal at h
  simp only [if_true] at h
  cases hb : env.toBin s.raw with
  | none =>
    rw [hb] at h
    simp only [Bool.not_false, if_true, Option.some.injEq, Prod.mk.injEq] at h
    obtain ⟨rfl, rfl⟩ := h
    exact .noBin hb
  | some g =>
    rw [hb] at h
    simp only [Bool.not_true, Bool.false_eq_true, if_false] at h
    cases hl : (env.load g s.world).2 with
    | false =>
      rw [hl] at h
      simp only [Bool.not_false, if_true, Option.some.injEq, Prod.mk.injEq] at h
      obtain ⟨rfl, rfl⟩ := h
      exact .early hb
    | true =>
      rw [hl] at h
      simp only [Bool.not_true, Bool.false_eq_true, if_false] at h
      cases hk : s.rawLinked with
      | false =>
        unfold validateDb at h
        rw [hk] at h
        simp only [Bool.false_eq_true, if_false, Option.some.injEq, Prod.mk.injEq] at h
        obtain ⟨rfl, rfl⟩ := h
        have := Outcome.early (w := (env.load g s.world).1) hb
        rw [hk] at this
        exact this
      | true =>
        obtain ⟨r, hr, _⟩ := C105_accept_partial hw (env.load g s.world).1.schema (!env.failfast g)
        unfold validateDb at h
        rw [hk] at h
        simp only [if_true] at h
        rw [hr] at h
        simp only [Option.map_some] at h
        cases r with
        | true =>
          simp only [Bool.not_true, Option.some.injEq, Prod.mk.injEq] at h
          obtain ⟨rfl, rfl⟩ := h
          have := Outcome.early (w := (env.load g s.world).1) hb
          rw [hk] at this
          exact this
        | false =>
          simp only [Bool.not_false] at h
          cases hv : validate (env.load g s.world).1.schema true false (duplicate s.raw) with
          | none => rw [hv] at h; simp at h
          | some x =>
            obtain ⟨d, r⟩ := x
            rw [hv] at h
            simp only [Option.map_some, Option.some.injEq] at h
            unfold applyWork updateGlobal at h
            simp only [Bool.false_eq_true, if_false] at h
            cases hd : env.toBin d with
            | none =>
              rw [hd] at h
              simp only [Bool.not_false, if_true, Prod.mk.injEq] at h
              obtain ⟨rfl, rfl⟩ := h
              have := Outcome.late hb hv hd
              rw [hk] at this
              exact this
            | some g' =>
              rw [hd] at h
              simp only [Bool.not_true, Bool.false_eq_true, if_false, Prod.mk.injEq] at h
              obtain ⟨rfl, rfl⟩ := h
              exact .done hb hl hk hr hv hd

/-- C114: the databases of a daemon are well formed at every time, and the database in use has a schema after the first apply. -/
theorem C114_reachable {env : Env G} {w : World} {s : Life G} (h : Reach env w s) :
    Wf s.raw ∧ Wf s.work ∧ (s.first = false → s.workLinked = true) ∧ (s.first = true → s.calls = []) := by
  induction h with
  | init => exact ⟨wf_nil, wf_nil, fun h => (nomatch h), fun _ => rfl⟩
  | edit os _ ih => exact ⟨ih.1.run os, ih.2⟩
  | apply _ ha ih =>
    cases outcome ih.1 ha with
    | noBin => exact ih
    | early => exact ih
    | late hb hv hd => exact ⟨ih.1, C106_wellformed (wf_duplicate _) hv, fun _ => rfl, ih.2.2.2⟩
    | done hb hl hk hr hv hd => exact ⟨wf_duplicate _, C106_wellformed (wf_duplicate _) hv, fun _ => rfl, fun h => (nomatch h)⟩
  | rollback _ ih => exact ⟨wf_duplicate _, ih.2⟩
  | clear _ ih => exact ⟨wf_nil, ih.2⟩
  | trigger r c _ ih => exact ih

/-- C114: an apply which succeeds puts the accepted part of the edited database into use: no section, entry or value which is not in the edited
database, no section or value which the registered schemas do not accept, but all sections and entries which they accept.  The edited database is
the same afterwards, the binary copy is that of the database in use, and the triggers are reset. -/
theorem C114_apply {env : Env G} {w : World} {s s' : Life G} (hs : Reach env w s) (h : apply env s = some (s', true)) :
    (∀ t n, has s'.work t n = true ↔ has s.raw t n = true ∧ SectionOk s'.world.schema false t n) ∧
    (∀ t n e vs', vals s'.work t n e = some vs' → ∃ vs, vals s.raw t n e = some vs ∧ vs' <+: vs ∧ (∀ v ∈ vs', Accepted s'.world.schema t e v)) ∧
    (∀ t n e vs, vals s.raw t n e = some vs → SectionOk s'.world.schema false t n → (∀ v ∈ vs, Accepted s'.world.schema t e v) →
      (SingleEntry s'.world.schema t e → vs.length ≤ 1) → vals s'.work t n e = some vs) ∧
    Equal s'.raw s'.work ∧ s'.global = env.toBin s'.work ∧ s'.rawLinked = true ∧ s'.workLinked = true ∧
    s'.first = false ∧ s'.reload = false ∧ s'.commit = false := by
  obtain ⟨hw, _⟩ := C114_reachable hs
  have heq := duplicate_equal hw
  have hsec : ∀ t n e vs, vals s.raw t n e = some vs → has s.raw t n = true := by
    intro t n e vs hv
    unfold vals findEntry at hv
    unfold has
    cases hf : findNamed s.raw t n with
    | none => rw [hf] at hv; cases hv
    | some x => rfl
  cases outcome hw h with
  | done hb hl hk hr hv hd =>
    have hbad := C106_removes_bad (wf_duplicate _) hv
    have hgood := C106_keeps_good (wf_duplicate _) hv
    refine ⟨?_, ?_, ?_, duplicate_equal (C106_wellformed (wf_duplicate _) hv), hd.symm, rfl, rfl, rfl, rfl, rfl⟩
    · intro t n
      constructor
      · intro hh
        obtain ⟨h1, h2⟩ := (hbad t n).1 hh
        rw [heq.1] at h1
        exact ⟨h1, h2⟩
      · rintro ⟨h1, h2⟩
        rw [← heq.1] at h1
        exact (hgood t n h1 h2).1
    · intro t n e vs' hh
      obtain ⟨vs, h1, h2, h3, _⟩ := (hbad t n).2 e vs' hh
      rw [heq.2] at h1
      exact ⟨vs, h1, h2, h3⟩
    · intro t n e vs h1 h2 h3 h4
      have h5 := hsec _ _ _ _ h1
      rw [← heq.1] at h5
      rw [← heq.2] at h1
      exact (hgood t n h5 h2).2 e vs h1 h3 h4

/-- C114: which configurations are applied: there is a schema, the section `global` can be converted, the plugins can be loaded, and the database
is valid (with `failfast` without unknown parts). -/
theorem C114_accept {env : Env G} {w : World} {s s' : Life G} {ok : Bool} (hs : Reach env w s) (h : apply env s = some (s', ok))
    (hlate : env.toBin s'.work ≠ none) :
    ok = true ↔ s.rawLinked = true ∧ ∃ g, env.toBin s.raw = some g ∧ (env.load g s.world).2 = true ∧
      Valid (env.load g s.world).1.schema (!env.failfast g) s.raw := by
  obtain ⟨hw, _⟩ := C114_reachable hs
  constructor
  · rintro rfl
    cases outcome hw h with
    | done hb hl hk hr hv hd =>
      obtain ⟨r, h1, h2⟩ := C105_accept_partial hw (env.load _ s.world).1.schema (!env.failfast _)
      rw [hr] at h1
      have : r = false := by simpa using (congrArg (fun o => o.map Prod.snd) h1).symm
      exact ⟨hk, _, hb, hl, h2.1 this⟩
  · rintro ⟨hk, g, hb, hl, hV⟩
    obtain ⟨r, h1, h2⟩ := C105_accept_partial hw (env.load g s.world).1.schema (!env.failfast g)
    rw [h2.2 hV] at h1
    unfold apply updateGlobal at h
    simp only [if_true, hb, Bool.not_true, Bool.false_eq_true, if_false, hl, validateDb, hk, h1, Option.map_some, Bool.not_false] at h
    cases hv : validate (env.load g s.world).1.schema true false (duplicate s.raw) with
    | none => rw [hv] at h; simp at h
    | some x =>
      rw [hv] at h
      simp only [Option.map_some, Option.some.injEq] at h
      unfold applyWork updateGlobal at h
      simp only [Bool.false_eq_true, if_false] at h
      cases hd : env.toBin x.1 with
      | none =>
        rw [hd] at h
        simp only [Bool.not_false, if_true, Prod.mk.injEq] at h
        obtain ⟨rfl, rfl⟩ := h
        exact absurd hd hlate
      | some g' =>
        rw [hd] at h
        simp only [Bool.not_true, Bool.false_eq_true, if_false, Prod.mk.injEq] at h
        exact h.2.symm

/-- C114: an apply which fails calls no handlers and changes neither the edited database nor the triggers; the database in use is changed only if the
section `global` of the cleaned database cannot be converted. -/
theorem C114_failed_partial {env : Env G} {w : World} {s s' : Life G} (hs : Reach env w s) (h : apply env s = some (s', false)) :
    s'.raw = s.raw ∧ s'.rawLinked = s.rawLinked ∧ s'.calls = s.calls ∧ s'.first = s.first ∧ s'.reload = s.reload ∧ s'.commit = s.commit ∧
    (s'.work = s.work ∨ env.toBin s'.work = none) := by
  cases outcome (C114_reachable hs).1 h with
  | noBin => exact ⟨rfl, rfl, rfl, rfl, rfl, rfl, .inl rfl⟩
  | early => exact ⟨rfl, rfl, rfl, rfl, rfl, rfl, .inl rfl⟩
  | late hb hv hd => exact ⟨rfl, rfl, rfl, rfl, rfl, rfl, .inr hd⟩

open Classical in
/-- C114: an apply (not the first one) which succeeds tells every handler, in the order of registration, about the difference between the database
which was in use and the new one: for sections with names one call for each section which appeared, vanished or has another value, for sections
without names one call if a value changed. -/
theorem C114_notified {env : Env G} {w : World} {s s' : Life G} (hs : Reach env w s) (h : apply env s = some (s', true)) (hf : s.first = false) :
    ∃ new : List (SSec × List Event), s'.calls = s.calls ++ new ∧ new.map Prod.fst = s'.world.handlers ∧ ∀ c ∈ new,
      (NamedMode c.1.mode → ∀ x, callsFor (some x) c.2 =
        expected (Differs s'.world.schema c.1 s.work s'.work (some x)) (some x) (has s.work c.1.type (some x)) (has s'.work c.1.type (some x))) ∧
      (c.1.mode = .unnamed → callsFor none c.2 =
        if Differs s'.world.schema c.1 s.work s'.work none then [(none, has s.work c.1.type none, has s'.work c.1.type none)] else []) := by
  obtain ⟨hw, hw2, hlk, _⟩ := C114_reachable hs
  obtain ⟨_, hw2', _⟩ := C114_reachable (.apply hs h)
  cases outcome hw h with
  | done hb hl hk hr hv hd =>
    refine ⟨_, rfl, ?_, ?_⟩
    · unfold notify handleChanges
      rw [hf, hlk hf]
      simp [Function.comp_def]
    · intro c hc
      unfold notify handleChanges at hc
      rw [hf, hlk hf] at hc
      simp only [Bool.false_eq_true, if_false, if_true, List.mem_map] at hc
      obtain ⟨σ, hσ, rfl⟩ := hc
      exact ⟨fun hm x => (C107_named hw2 hw2' _ hm x).1, fun hm => C107_unnamed hw2 hw2' _ hm⟩

/-- C114: the first apply which succeeds calls the handler of every section type for each named section of the database, and for sections without
names if the type does not occur or occurs without name. -/
theorem C114_startup {env : Env G} {w : World} {s s' : Life G} (hs : Reach env w s) (h : apply env s = some (s', true)) (hf : s.first = true) :
    s'.calls.map Prod.fst = s'.world.handlers ∧ ∀ c ∈ s'.calls,
      (NamedMode c.1.mode → ∀ x, callsFor (some x) c.2 = if has s'.work c.1.type (some x) then [(fold (some x), false, true)] else []) ∧
      (c.1.mode = .unnamed → (∀ x, has s'.work c.1.type (some x) = false) →
        (findType s'.work c.1.type = none ∨ has s'.work c.1.type none = true) → callsFor none c.2 = [(none, false, has s'.work c.1.type none)]) := by
  obtain ⟨hw, hw2, _, hc0⟩ := C114_reachable hs
  obtain ⟨_, hw2', _⟩ := C114_reachable (.apply hs h)
  cases outcome hw h with
  | done hb hl hk hr hv hd =>
    unfold notify handleChanges
    rw [hf, hc0 hf]
    simp only [if_true, List.nil_append]
    constructor
    · simp [Function.comp_def]
    · intro c hc
      simp only [List.mem_map] at hc
      obtain ⟨σ, hσ, rfl⟩ := hc
      exact C107_startup hw2' _ σ

/-- C114: rollback gives up the changes which are not applied: the edited database contains what is in use; nothing else changes, except that it has
no schema. -/
theorem C114_rollback {env : Env G} {w : World} {s : Life G} (hs : Reach env w s) :
    Equal (rollback s).raw s.work ∧ (rollback s).work = s.work ∧ (rollback s).global = s.global ∧ (rollback s).calls = s.calls ∧
    (rollback s).world = s.world :=
  ⟨duplicate_equal (C114_reachable hs).2.1, rfl, rfl, rfl, rfl⟩

/-- C114: after a rollback every apply fails, whatever is edited: the new database has no schema.  So the next commit ends the main loop. -/
theorem C114_rollback_counterexample {env : Env G} (s : Life G) (os : List Op) :
    ∃ s', apply env (edit (rollback s) os) = some (s', false) ∧
      commitStep env { edit (rollback s) os with commit := true } = some ({ s' with commit := true }, false) := by
  unfold commitStep apply updateGlobal edit rollback validateDb
  simp only [if_true]
  cases env.toBin (run (duplicate s.work) os) with
  | none => exact ⟨_, rfl, rfl⟩
  | some g =>
    dsimp only
    cases hl : (env.load g s.world).2 with
    | false =>
      simp only [Bool.not_true, Bool.false_eq_true, if_false, Bool.not_false, if_true]
      exact ⟨_, rfl, rfl⟩
    | true =>
      simp only [Bool.not_true, Bool.false_eq_true, if_false]
      exact ⟨_, rfl, rfl⟩

/-- the binary copy of the examples: the first value of the entry `p` in the section `g` -/
def exEnv (load : Option Str → World → World × Bool) : Env (Option Str) :=
  ⟨fun d => some ((vals d [103] none [112]).bind List.head?), fun _ => true, load⟩

/-- C114: an apply which fails has changed the binary copy of the global section already, and a rollback does not bring it back: it is not that of the
database in use. -/
theorem C114_global_counterexample :
    let σ : SSec := ⟨[103], .unnamed, [⟨[112], none, true, some []⟩], fun _ => true⟩
    let env := exEnv fun _ w => (w, true)
    let w : World := ⟨[σ], []⟩
    ∃ s, Reach env w s ∧ s.first = false ∧ s.global ≠ env.toBin s.work := by
  intro σ env w
  let s1 := edit (lifeInit w : Life (Option Str)) [.setEntry [103] none [112] [49] true true]
  have h1 : Reach env w s1 := .edit _ .init
  have a1 : ∃ s2, apply env s1 = some (s2, true) ∧ s2.first = false ∧ (∃ s3, apply env (edit s2 [.setEntry [103] none [112] [50] true true, .addSection [104] none]) = some (s3, false) ∧
      (rollback s3).first = false ∧ (rollback s3).global ≠ env.toBin (rollback s3).work) := by
    refine ⟨_, rfl, rfl, _, rfl, rfl, ?_⟩
    decide +kernel
  obtain ⟨s2, h2, _, s3, h3, h4, h5⟩ := a1
  exact ⟨rollback s3, .rollback (.apply (.edit _ (.apply h1 h2)) h3), h4, h5⟩

/-- C114: a plugin which is loaded by a later apply is not told that its section has the default values, although it would be told at the start. -/
theorem C114_late_plugin_counterexample :
    let σ : SSec := ⟨[97], .unnamed, [⟨[98], none, false, some [[49]]⟩], fun _ => true⟩
    let g : SSec := ⟨[103], .unnamed, [⟨[112], none, true, some []⟩], fun _ => true⟩
    let env := exEnv fun p w => if p = some [97] then (⟨[g, σ], [σ]⟩, true) else (w, true)
    let w : World := ⟨[g], []⟩
    let os : List Op := [.setEntry [103] none [112] [97] true true]
    (∃ s, Reach env w s ∧ s.first = false ∧ s.work = run [] os ∧ s.calls.map Prod.snd = [[⟨none, false, false⟩]]) ∧
    (∃ s, Reach env w s ∧ s.first = false ∧ s.work = run [] os ∧ s.calls.map Prod.snd = [[]]) := by
  intro σ g env w os
  have h1 : Reach env w (edit (lifeInit w : Life (Option Str)) os) := .edit _ .init
  have h2 : ∃ s, apply env (edit (lifeInit w : Life (Option Str)) os) = some (s, true) ∧ s.first = false ∧ s.work = run [] os ∧
      s.calls.map Prod.snd = [[⟨none, false, false⟩]] := ⟨_, rfl, rfl, by decide +kernel, by decide +kernel⟩
  have h3 : ∃ s, apply env (lifeInit w : Life (Option Str)) = some (s, true) ∧ ∃ s', apply env (edit s os) = some (s', true) ∧ s'.first = false ∧ s'.work = run [] os ∧
      s'.calls.map Prod.snd = [[]] := ⟨_, rfl, _, rfl, rfl, by decide +kernel, by decide +kernel⟩
  obtain ⟨s, a, b⟩ := h2
  obtain ⟨t, c, t', d, e⟩ := h3
  exact ⟨⟨s, .apply h1 a, b⟩, ⟨t', .apply (.edit _ (.apply .init c)) d, e⟩⟩

/-- start, a change which is applied, and a change which is rolled back -/
example :
    let σ : SSec := ⟨[97], .named, [⟨[98], some fun v => v != [48], false, some [[49]]⟩], fun _ => true⟩
    let env := exEnv fun _ w => (w, true)
    let w : World := ⟨[σ], [σ]⟩
    ∃ s s' : Life (Option Str), Reach env w s ∧ apply env s = some (s', true) ∧ s.first = false ∧
      s.work = run [] [.addSection [97] (some [120]), .addSection [97] (some [121])] ∧
      s'.work = run [] [.addSection [97] (some [120]), .setEntry [97] (some [121]) [98] [50] true true] ∧
      s'.calls.map Prod.snd = [[⟨some [120], false, true⟩, ⟨some [121], false, true⟩], [⟨some [121], true, true⟩]] ∧
      (rollback (edit s' [.removeType [97]])).raw = s'.work := by
  intro σ env w
  have h : ∃ s : Life (Option Str), apply env (edit (lifeInit w) [.addSection [97] (some [120]), .addSection [97] (some [121])]) = some (s, true) ∧
      s.first = false ∧ s.work = run [] [.addSection [97] (some [120]), .addSection [97] (some [121])] ∧
      ∃ s', apply env (edit s [.setEntry [97] (some [121]) [98] [50] true true]) = some (s', true) ∧
        s'.work = run [] [.addSection [97] (some [120]), .setEntry [97] (some [121]) [98] [50] true true] ∧
        s'.calls.map Prod.snd = [[⟨some [120], false, true⟩, ⟨some [121], false, true⟩], [⟨some [121], true, true⟩]] ∧
        (rollback (edit s' [.removeType [97]])).raw = s'.work :=
    ⟨_, rfl, rfl, by decide +kernel, _, rfl, by decide +kernel, by decide +kernel, by decide +kernel⟩
  obtain ⟨s, a, b, c, s', d, e⟩ := h
  exact ⟨_, s', .edit _ (.apply (.edit _ .init) a), d, b, c, e⟩

end Verif.Cfg
