import Verif.Log.Props
/-
C164: severities and targets follow the configuration. C166: sources have their own numbers.
-/
namespace Verif.Log
open Spec

/-! ### C164: severities -/

theorem has_set (m : Mask) (src i : Nat) (sev s : Sev) :
    has (set m src sev) i s = (has m i s || (decide (i = src) && decide (s = sev))) := by
  have key : ∀ (sev s : Sev) (a : Fin 256), (BitVec.ofFin (w := 8) a ||| bit sev).getLsbD s.val =
      ((BitVec.ofFin (w := 8) a).getLsbD s.val || decide (s = sev)) := by decide +kernel
  unfold has set
  by_cases h : i = src
  · simp only [decide_true, Bool.true_and, h]
    exact key sev s (m src).toFin
  · simp [h]

theorem has_reset (m : Mask) (src i : Nat) (sev s : Sev) :
    has (reset m src sev) i s = (has m i s && !(decide (i = src) && decide (s = sev))) := by
  have key : ∀ (sev s : Sev) (a : Fin 256), (BitVec.ofFin (w := 8) a &&& ~~~ bit sev).getLsbD s.val =
      ((BitVec.ofFin (w := 8) a).getLsbD s.val && !decide (s = sev)) := by decide +kernel
  unfold has reset
  by_cases h : i = src
  · simp only [decide_true, Bool.true_and, h]
    exact key sev s (m src).toFin
  · simp [h]

theorem inner_has (names : List Name) (sev : Sev) (n : Name) (i : Nat) (s : Sev) :
    ∀ (l : List Nat) (m : Mask),
    (has (l.foldl (fun m i => match names[i]? with | some k => if same n k then set m i sev else m | none => m) m) i s = true) ↔
      (has m i s = true ∨ (s = sev ∧ i ∈ l ∧ ∃ k, names[i]? = some k ∧ n.map Str.toLower = k.map Str.toLower)) := by
  intro l
  induction l with
  | nil => intro m; simp
  | cons j l ih =>
    intro m
    rw [List.foldl_cons, ih]
    have h1 : has (match names[j]? with | some k => if same n k then set m j sev else m | none => m) i s = true ↔
        (has m i s = true ∨ (s = sev ∧ i = j ∧ ∃ k, names[i]? = some k ∧ n.map Str.toLower = k.map Str.toLower)) := by
      cases hj : names[j]? with
      | none =>
        simp only
        constructor
        · exact .inl
        · rintro (h | ⟨_, rfl, k, hk, _⟩)
          · exact h
          · rw [hj] at hk; cases hk
      | some k =>
        simp only
        by_cases hs : same n k = true
        · rw [if_pos hs, has_set]
          simp only [same, beq_iff_eq] at hs
          simp only [Bool.or_eq_true, Bool.and_eq_true, decide_eq_true_eq]
          constructor
          · rintro (h | ⟨rfl, rfl⟩)
            · exact .inl h
            · exact .inr ⟨rfl, rfl, k, hj, hs⟩
          · rintro (h | ⟨rfl, rfl, _⟩)
            · exact .inl h
            · exact .inr ⟨rfl, rfl⟩
        · rw [if_neg hs]
          constructor
          · exact .inl
          · rintro (h | ⟨_, rfl, k', hk', he⟩)
            · exact h
            · rw [hj] at hk'
              cases hk'
              simp only [same, beq_iff_eq] at hs
              exact absurd he hs
    rw [h1]
    simp only [List.mem_cons]
    constructor
    · rintro ((h | ⟨a, b, c⟩) | ⟨a, b, c⟩)
      · exact .inl h
      · exact .inr ⟨a, .inl b, c⟩
      · exact .inr ⟨a, .inr b, c⟩
    · rintro (h | ⟨a, b | b, c⟩)
      · exact .inl (.inl h)
      · exact .inl (.inr ⟨a, b, c⟩)
      · exact .inr ⟨a, b, c⟩

theorem setting_has (names : List Name) (sev : Sev) (i : Nat) (s : Sev) :
    ∀ (l : List Name) (m : Mask), (has (setting names sev l m) i s = true) ↔ (has m i s = true ∨ (s = sev ∧ Listed names l i)) := by
  intro l
  induction l with
  | nil => intro m; simp [setting, Listed]
  | cons n l ih =>
    intro m
    have hu : setting names sev (n :: l) m = setting names sev l ((List.range names.length).foldl (fun m i =>
        match names[i]? with | some k => if same n k then set m i sev else m | none => m) m) := rfl
    rw [hu, ih, inner_has]
    constructor
    · rintro ((h | ⟨a, _, k, b, c⟩) | ⟨a, n', h1, k, b, c⟩)
      · exact .inl h
      · exact .inr ⟨a, n, List.mem_cons_self, k, b, c⟩
      · exact .inr ⟨a, n', List.mem_cons_of_mem _ h1, k, b, c⟩
    · rintro (h | ⟨a, n', h1, k, b, c⟩)
      · exact .inl (.inl h)
      · rcases List.mem_cons.mp h1 with rfl | h1
        · refine .inl (.inr ⟨a, ?_, k, b, c⟩)
          rw [List.mem_range]
          exact (List.getElem?_eq_some_iff.mp b).1
        · exact .inr ⟨a, n', h1, k, b, c⟩

theorem wants_iff (m : Mask) (src : Nat) (sev : Sev) :
    wants m src sev = true ↔ ∃ s ≤ sev, has m src s = true ∨ has m 0 s = true := by
  unfold wants
  simp [List.any_eq_true]

/-- C164: with a configuration, a handler wants all warnings and assertions, information of the
sources in the lists `info` and `debug`, and debug messages of the sources in the list `debug`,
where `all` (or what source 0 is called) stands for all sources. -/
theorem C164_levels (names : List Name) (c : Cfg) (src : Nat) (sev : Sev) :
    wants (maskOf names c) src sev = true ↔
      (2 ≤ sev ∨ (1 ≤ sev ∧ (Listed names c.info src ∨ Listed names c.info 0)) ∨
        (Listed names c.debug src ∨ Listed names c.debug 0)) := by
  rw [wants_iff]
  have hh : ∀ i s, has (maskOf names c) i s = true ↔
      (2 ≤ s ∨ (s = 1 ∧ Listed names c.info i) ∨ (s = 0 ∧ Listed names c.debug i)) := by
    intro i s
    unfold maskOf
    rw [setting_has, setting_has, clear_bit, decide_eq_true_eq, or_assoc]
  constructor
  · rintro ⟨s, hs, h⟩
    rw [hh, hh] at h
    rcases h with (h | ⟨rfl, h⟩ | ⟨rfl, h⟩) | (h | ⟨rfl, h⟩ | ⟨rfl, h⟩)
    · exact .inl (Fin.le_trans h hs)
    · exact .inr (.inl ⟨hs, .inl h⟩)
    · exact .inr (.inr (.inl h))
    · exact .inl (Fin.le_trans h hs)
    · exact .inr (.inl ⟨hs, .inr h⟩)
    · exact .inr (.inr (.inr h))
  · rintro (h | ⟨h, h1 | h1⟩ | h1 | h1)
    · exact ⟨2, h, .inl ((hh _ _).mpr (.inl (Fin.le_refl _)))⟩
    · exact ⟨1, h, .inl ((hh _ _).mpr (.inr (.inl ⟨rfl, h1⟩)))⟩
    · exact ⟨1, h, .inr ((hh _ _).mpr (.inr (.inl ⟨rfl, h1⟩)))⟩
    · exact ⟨0, Fin.zero_le _, .inl ((hh _ _).mpr (.inr (.inr ⟨rfl, h1⟩)))⟩
    · exact ⟨0, Fin.zero_le _, .inr ((hh _ _).mpr (.inr (.inr ⟨rfl, h1⟩)))⟩

/-- Debug messages of `Main`, information of `config`. -/
example : let c : Cfg := ⟨[[77, 97, 105, 110]], [[99, 111, 110, 102, 105, 103]], true, false, none⟩
    (wants (maskOf core c) 1 0 = true ∧ wants (maskOf core c) 3 1 = true) ∧
    (wants (maskOf core c) 3 0 = false ∧ wants (maskOf core c) 2 1 = false ∧ wants (maskOf core c) 2 2 = true) := by
  decide +kernel

/-! ### C164: targets -/

/-- C164, while the name of the file does not change: the log file is written iff one is configured
and could be opened when it was, failure to open it is reported; syslog is used iff it is configured
or the program runs in the background without log file; stderr is used iff it is configured or
neither syslog nor file are; never is there no target at all. -/
theorem C164_targets_partial (opens : Name → Bool) (fork : Bool) (c : Cfg) (t : Targets)
    (hf : ∀ g, t.file = some g → c.file = some g ∨ c.file = none) :
    let r := targets opens fork c t
    (∀ f, r.1.file = some f ↔ c.file = some f ∧ (t.file = some f ∨ opens f = true)) ∧
    (r.2 = true ↔ ∃ f, c.file = some f ∧ r.1.file = none) ∧
    (r.1.syslog = true ↔ c.syslog = true ∨ (fork = true ∧ r.1.file = none)) ∧
    (r.1.stderr = true ↔ c.stderr = true ∨ (c.syslog = false ∧ r.1.file = none)) ∧
    (r.1.stderr = true ∨ r.1.syslog = true ∨ r.1.file ≠ none) := by
  obtain ⟨d, i, e, sy, f⟩ := c
  obtain ⟨te, ts, tf⟩ := t
  cases f with
  | none => cases tf <;> cases fork <;> cases sy <;> cases e <;> simp [targets]
  | some f =>
    cases tf with
    | none =>
      cases ho : opens f <;> cases fork <;> cases sy <;> cases e <;> simp [targets, ho] <;>
        (intro g hg; subst hg; simp [ho])
    | some g =>
      have : f = g := by simpa using hf g rfl
      subst this
      cases fork <;> cases sy <;> cases e <;> simp [targets] <;> (intro h; exact .inl h)

example : targets (fun _ => true) true ⟨[], [], false, false, some [97]⟩ noTargets = (⟨false, false, some [97]⟩, false) ∧
    targets (fun _ => false) false ⟨[], [], false, false, some [97]⟩ noTargets = (⟨true, false, none⟩, true) ∧
    targets (fun _ => true) true ⟨[], [], false, false, none⟩ ⟨false, false, some [97]⟩ = (⟨true, true, none⟩, false) := by
  decide +kernel

/-- C164 fails when the name of the file changes: the old file stays in use, whether the new one
can be opened or not, and nothing is reported. -/
theorem C164_file_counterexample (opens : Name → Bool) (fork : Bool) (c : Cfg) (t : Targets) (f g : Name)
    (hc : c.file = some f) (ht : t.file = some g) :
    (targets opens fork c t).1.file = some g ∧ (targets opens fork c t).2 = false := by
  unfold targets
  rw [hc, ht]
  exact ⟨rfl, rfl⟩

/-! ### C166: sources -/

/-- The names after some registrations (newest first). -/
def sources : List Name → List Name
  | [] => core
  | n :: l => (register (sources l) n).1

theorem register_prefix (names : List Name) (n : Name) : names <+: (register names n).1 := by
  unfold register
  split
  · exact List.prefix_refl _
  · split
    · exact List.prefix_refl _
    · exact List.prefix_append _ _

theorem findIdx_nodup {names : List Name} (n : Name) (h : names.Nodup) : (register names n).1.Nodup := by
  unfold register
  split
  · exact h
  · rename_i hn
    split
    · exact h
    · rw [List.findIdx?_eq_none_iff] at hn
      rw [List.nodup_append]
      refine ⟨h, by simp, ?_⟩
      intro a ha b hb
      simp only [List.mem_singleton] at hb
      subst hb
      intro he
      subst he
      have := hn a ha
      simp at this

theorem sources_inv (l : List Name) : (sources l).Nodup ∧ (sources l).length ≤ 128 ∧ core <+: sources l := by
  induction l with
  | nil => exact ⟨by decide +kernel, by decide +kernel, List.prefix_refl _⟩
  | cons n l ih =>
    refine ⟨findIdx_nodup n ih.1, ?_, ih.2.2.trans (register_prefix _ _)⟩
    simp only [sources, register]
    split
    · exact ih.2.1
    · split
      · exact ih.2.1
      · simp; omega

/-- C166: whatever was registered before, a source gets a number below 128 under which its name is
found, now and after all further registrations, except if there are 128 other names already: then it
gets the number of `main`. -/
theorem C166_number (l more : List Name) (n : Name) :
    let i := (register (sources l) n).2
    i < 128 ∧ ((sources (more ++ n :: l))[i]? = some n ∨
      (i = 1 ∧ (sources l).length = 128 ∧ n ∉ sources l)) := by
  have inv := sources_inv l
  have hp : sources (n :: l) <+: sources (more ++ n :: l) := by
    induction more with
    | nil => exact List.prefix_refl _
    | cons a more ih => exact ih.trans (register_prefix _ _)
  have key : ∀ i : Nat, (sources (n :: l))[i]? = some n → (sources (more ++ n :: l))[i]? = some n := by
    intro i h
    obtain ⟨t, ht⟩ := hp
    rw [← ht, List.getElem?_append_left (List.getElem?_eq_some_iff.mp h).1]
    exact h
  simp only
  cases hf : (sources l).findIdx? (· == n) with
  | some i =>
    have hr : register (sources l) n = (sources l, i) := by unfold register; rw [hf]
    rw [hr]
    have hi := List.findIdx?_eq_some_iff_getElem.mp hf
    obtain ⟨h1, h2, _⟩ := hi
    refine ⟨by simp only; omega, .inl (key i ?_)⟩
    simp only [sources, hr]
    rw [List.getElem?_eq_getElem h1]
    simpa using h2
  | none =>
    have hn : n ∉ sources l := by
      intro hm
      rw [List.findIdx?_eq_none_iff] at hf
      have := hf n hm
      simp at this
    by_cases h128 : (sources l).length = 128
    · have hr : register (sources l) n = (sources l, 1) := by unfold register; rw [hf]; simp [h128]
      rw [hr]
      exact ⟨by simp, .inr ⟨rfl, h128, hn⟩⟩
    · have hr : register (sources l) n = (sources l ++ [n], (sources l).length) := by unfold register; rw [hf]; simp [h128]
      rw [hr]
      refine ⟨by simp only; omega, .inl (key _ ?_)⟩
      simp [sources, hr]

/-- C166: two sources share a number only if they have the same name, unless there are too many. -/
theorem C166_distinct (l more : List Name) (a b : Name) (hab : a ≠ b)
    (h1 : (sources l).length < 128) (h2 : (sources (more ++ a :: l)).length < 128) :
    (register (sources l) a).2 ≠ (register (sources (more ++ a :: l)) b).2 := by
  intro he
  have ha := (C166_number l (b :: more) a).2
  have hb := (C166_number (more ++ a :: l) [] b).2
  rcases ha with ha | ⟨_, h, _⟩
  · rcases hb with hb | ⟨_, h, _⟩
    · simp only [List.nil_append] at hb
      simp only [List.cons_append] at ha
      rw [he, hb] at ha
      exact hab (Option.some.inj ha.symm)
    · omega
  · omega

example : (register (sources []) [120]).2 = 6 ∧ (register (sources [[120]]) [121]).2 = 7 ∧ (register (sources [[121], [120]]) [120]).2 = 6 := by
  decide +kernel

end Verif.Log
