import Verif.Cfg.Validate

/-
Notification about changes of the configuration.
-/
namespace Verif.Cfg

/-- an event without the case of the name -/
def view (ev : Event) : Option Str × Bool × Bool := (fold ev.name, ev.pre, ev.post)

/-- the calls of the handler for one section -/
def callsFor (x : Option Str) (evs : List Event) : List (Option Str × Bool × Bool) := (evs.filter fun ev => fold ev.name == fold x).map view

/-- The value which is used for an entry (own, inherited or default) is not the same in both databases. -/
def Differs (sch : Schema) (σ : SSec) (pre post : Db) (n : Option Str) : Prop :=
  ∃ e ∈ σ.entries, getValue (defaultOf sch) pre σ.type n e.name ≠ getValue (defaultOf sch) post σ.type n e.name

theorem valuesDiffer_iff {sch : Schema} {σ : SSec} {pre post : Db} {n : Option Str} : valuesDiffer sch σ pre post n = true ↔ Differs sch σ pre post n := by
  unfold valuesDiffer Differs
  rw [List.any_eq_true]
  simp

theorem namedChange_name {sch : Schema} {σ : SSec} {pre post : Db} {n : Option Str} {st a b : Bool} :
    ∀ ev ∈ namedChange sch σ pre post n st a b, ev.name = n := by
  intro ev hev
  unfold namedChange at hev
  split at hev
  · cases hev
  · dsimp only at hev
    split at hev
    · rw [List.mem_singleton.1 hev]
    · cases hev

theorem getValue_congr (schema : Str → Str → Option (Option (List Str))) (d : Db) (t : Str) {n n' : Option Str} (h : Same n n') (e : Str) :
    getValue schema d t n e = getValue schema d t n' e := by
  have hs : n.isSome = n'.isSome := by
    cases n <;> cases n' <;> first | rfl | cases h
  unfold getValue
  rw [findEntry_congr d ⟨rfl, h, rfl⟩, hs]

theorem isDefName_congr {σ : SSec} {n n' : Option Str} (h : Same n n') : isDefName σ n = isDefName σ n' := by
  unfold isDefName
  rw [h]

theorem namedChange_congr (sch : Schema) (σ : SSec) (pre post : Db) {n n' : Option Str} (h : Same n n') (st a b : Bool) :
    (namedChange sch σ pre post n st a b).map view = (namedChange sch σ pre post n' st a b).map view := by
  have hs : n.isNone = n'.isNone := by
    cases n <;> cases n' <;> first | rfl | cases h
  have hv : valuesDiffer sch σ pre post n = valuesDiffer sch σ pre post n' := by
    unfold valuesDiffer
    congr 1
    funext e
    rw [getValue_congr _ _ _ h, getValue_congr _ _ _ h]
  unfold namedChange
  rw [hs, findNamed_congr pre ⟨rfl, h⟩, findNamed_congr post ⟨rfl, h⟩, isDefName_congr h, hv]
  split
  · rfl
  · dsimp only
    split
    · simp only [List.map_cons, List.map_nil, view, h]
    · rfl

theorem find_namesOf (d : Db) (t : Str) (x : Option Str) : (find id (namesOf d t) x).isSome = has d t x := by
  unfold namesOf has findNamed
  cases findType d t with
  | none => rfl
  | some s =>
    simp only [Option.map_some, Option.getD_some]
    unfold find
    rw [List.find?_map, Option.isSome_map]
    rfl

theorem callsFor_append (x : Option Str) (a b : List Event) : callsFor x (a ++ b) = callsFor x a ++ callsFor x b := by
  unfold callsFor
  rw [List.filter_append, List.map_append]

theorem callsFor_named (x : Option Str) (sch : Schema) (σ : SSec) (pre post : Db) (n : Option Str) (st a b : Bool) :
    callsFor x (namedChange sch σ pre post n st a b) = if Same n x then (namedChange sch σ pre post x st a b).map view else [] := by
  unfold callsFor
  by_cases h : Same n x
  · rw [if_pos h, ← namedChange_congr sch σ pre post h]
    congr 1
    rw [List.filter_eq_self]
    intro ev hev
    rw [namedChange_name ev hev]
    simpa using h
  · rw [if_neg h]
    have : (namedChange sch σ pre post n st a b).filter (fun ev => fold ev.name == fold x) = [] := by
      rw [List.filter_eq_nil_iff]
      intro ev hev
      rw [namedChange_name ev hev]
      simpa using h
    rw [this]; rfl

theorem callsFor_flatMap {ns : List (Option Str)} (hu : Uniq id ns) (x : Option Str) (sch : Schema) (σ : SSec) (pre post : Db) (st a b : Bool) :
    callsFor x (ns.flatMap fun n => namedChange sch σ pre post n st a b) =
      if (find id ns x).isSome then (namedChange sch σ pre post x st a b).map view else [] := by
  have : callsFor x (ns.flatMap fun n => namedChange sch σ pre post n st a b) =
      ns.flatMap fun n => callsFor x (namedChange sch σ pre post n st a b) := by
    clear hu
    induction ns with
    | nil => rfl
    | cons n ns ih => rw [List.flatMap_cons, List.flatMap_cons, callsFor_append, ih]
  rw [this, flatMap_uniq hu x]
  · cases hf : find id ns x with
    | none => rfl
    | some n =>
      dsimp only
      rw [callsFor_named, if_pos (show Same n x from (find_mem hf).2)]
      rfl
  · intro n _ hn
    rw [callsFor_named, if_neg (show ¬Same n x from hn)]

theorem uniq_namesOf {d : Db} (hw : Wf d) (t : Str) : Uniq id (namesOf d t) := by
  unfold namesOf
  cases ht : findType d t with
  | none => exact List.nodup_nil
  | some s =>
    simp only [Option.map_some, Option.getD_some]
    unfold Uniq
    rw [List.map_map]
    exact hw.names s (find_mem ht).1

theorem calls {pre post : Db} (h1 : Wf pre) (h2 : Wf post) (sch : Schema) (σ : SSec) (startup : Bool) (x : Option Str) :
    let preDef := defaultMode σ.mode && !startup && needsDefault pre σ.type
    let postDef := defaultMode σ.mode && needsDefault post σ.type
    callsFor x (sectionChanges sch σ pre post startup) =
      (if has pre σ.type x || has post σ.type x then (namedChange sch σ pre post x startup preDef postDef).map view else []) ++
      (if startup && σ.mode == .unnamed && (findType pre σ.type).isNone && (findType post σ.type).isNone then
        callsFor x (namedChange sch σ pre post none true preDef postDef) else []) ++
      (if preDef != postDef then callsFor x (namedChange sch σ pre post (defName σ.mode) true preDef postDef) else []) := by
  intro preDef postDef
  unfold sectionChanges
  dsimp only
  rw [callsFor_append, callsFor_append, callsFor_append]
  congr 1
  · congr 1
    · rw [callsFor_flatMap (uniq_namesOf h2 _), find_namesOf]
      have hu : Uniq id ((namesOf pre σ.type).filter fun n => (findNamed post σ.type n).isNone) := by
        unfold Uniq
        exact List.Nodup.sublist (List.filter_sublist.map _) (uniq_namesOf h1 _)
      rw [callsFor_flatMap hu]
      have hf : (find id ((namesOf pre σ.type).filter fun n => (findNamed post σ.type n).isNone) x).isSome = (has pre σ.type x && !has post σ.type x) := by
        rw [← find_namesOf, Bool.eq_iff_iff]
        unfold find
        rw [List.find?_isSome, Bool.and_eq_true, List.find?_isSome]
        have hc : ∀ n, Same n x → ((findNamed post σ.type n).isNone = true ↔ (!has post σ.type x) = true) := by
          intro n hn
          unfold has
          rw [findNamed_congr post ⟨rfl, hn⟩]
          cases findNamed post σ.type x <;> simp
        constructor
        · rintro ⟨n, hn, hnx⟩
          rw [List.mem_filter] at hn
          exact ⟨⟨n, hn.1, hnx⟩, (hc n (by simpa using hnx)).1 hn.2⟩
        · rintro ⟨⟨n, hn, hnx⟩, hp⟩
          exact ⟨n, List.mem_filter.2 ⟨hn, (hc n (by simpa using hnx)).2 hp⟩, hnx⟩
      rw [hf]
      show (if has post σ.type x = true then _ else _) ++ _ = _
      cases has post σ.type x <;> cases has pre σ.type x <;> simp <;> rfl
    · split
      · rfl
      · rfl
  · split
    · rfl
    · rfl

theorem needsDefault_iff {d : Db} (hw : Wf d) (t : Str) : needsDefault d t = true ↔ ∀ x, has d t (some x) = false := by
  unfold needsDefault has findNamed
  cases ht : findType d t with
  | none => simp
  | some s =>
    have hu := hw.names s (find_mem ht).1
    clear ht
    obtain ⟨ty, nl⟩ := s
    dsimp only at hu ⊢
    match nl, hu with
    | [], _ => simp [find]
    | [n], _ =>
      dsimp only
      cases hn : n.name with
      | none => simp [find, hn, fold]
      | some y =>
        constructor
        · intro h; cases h
        · intro h
          have := h y
          rw [find_cons, if_pos (by rw [hn])] at this
          cases this
    | n :: n2 :: ns, hu =>
      dsimp only
      constructor
      · intro h; cases h
      · intro h
        exfalso
        cases hn : n.name with
        | some y =>
          have := h y
          rw [find_cons, if_pos (by rw [hn])] at this
          cases this
        | none =>
          cases hn2 : n2.name with
          | none => simp [hn, hn2] at hu
          | some y =>
            have := h y
            rw [find_cons, if_neg (by rw [hn]; exact fun h => (nomatch h)), find_cons, if_pos (by rw [hn2])] at this
            cases this

/-- the modes in which sections have names and there is no default section -/
def NamedMode (m : Mode) : Prop := m = .named ∨ m = .mandatory

/-- what a handler of a type with named sections has to learn about a section: one call if it appeared, vanished or if a value changed -/
def expected (changed : Prop) [Decidable changed] (x : Option Str) (a b : Bool) : List (Option Str × Bool × Bool) :=
  if a ≠ b ∨ ((a = true ∨ b = true) ∧ changed) then [(fold x, a, b)] else []

open Classical in
theorem change_named {pre post : Db} (sch : Schema) (σ : SSec) (x : Str) (hm : σ.mode ≠ .unnamed)
    {a b : Bool} (hnd : isDefName σ (some x) = true → a = false ∧ b = false) :
    (if has pre σ.type (some x) || has post σ.type (some x) then (namedChange sch σ pre post (some x) false a b).map view else []) =
      expected (Differs sch σ pre post (some x)) (some x) (has pre σ.type (some x)) (has post σ.type (some x)) := by
  have hm' : (σ.mode != .unnamed) = true := by simpa using hm
  have hA : (isDefName σ (some x) && !false && a) = false := by
    cases h : isDefName σ (some x) with
    | false => rfl
    | true => rw [(hnd h).1]; rfl
  have hB : (isDefName σ (some x) && b) = false := by
    cases h : isDefName σ (some x) with
    | false => rfl
    | true => rw [(hnd h).2]; rfl
  have hp : (findNamed pre σ.type (some x)).isSome = has pre σ.type (some x) := rfl
  have hq : (findNamed post σ.type (some x)).isSome = has post σ.type (some x) := rfl
  unfold namedChange expected
  rw [hm', hA, hB]
  dsimp only
  rw [hp, hq]
  cases has pre σ.type (some x) <;> cases has post σ.type (some x)
  · simp
  · simp [view]
  · simp [view]
  · by_cases hd : Differs sch σ pre post (some x)
    · simp [view, hd, valuesDiffer_iff.2 hd]
    · have : valuesDiffer sch σ pre post (some x) = false := by
        rw [← Bool.not_eq_true]
        exact fun h => hd (valuesDiffer_iff.1 h)
      simp [hd, this]

open Classical in
/-- C107: in the modes with names (without default name) the handler is called for a section once if it appears, vanishes or if a value which is
used for it changes, and not otherwise; there are no calls for the unnamed section. -/
theorem C107_named {pre post : Db} (h1 : Wf pre) (h2 : Wf post) (sch : Schema) {σ : SSec} (hm : NamedMode σ.mode) (x : Str) :
    callsFor (some x) (sectionChanges sch σ pre post false) =
      expected (Differs sch σ pre post (some x)) (some x) (has pre σ.type (some x)) (has post σ.type (some x)) ∧
    callsFor none (sectionChanges sch σ pre post false) = [] := by
  have hdm : defaultMode σ.mode = false := by rcases hm with h | h <;> rw [h] <;> rfl
  have hu : σ.mode ≠ .unnamed := by rcases hm with h | h <;> rw [h] <;> exact fun h => (nomatch h)
  have hi : isDefName σ (some x) = false := by unfold isDefName; rcases hm with h | h <;> rw [h]
  constructor
  · rw [calls h1 h2]
    simp only [hdm, Bool.false_and, bne_self_eq_false, Bool.false_eq_true, if_false, List.append_nil]
    exact change_named sch σ x hu fun h => (by rw [hi] at h; cases h)
  · rw [calls h1 h2]
    have hu' : (σ.mode != .unnamed) = true := by simpa using hu
    simp only [hdm, Bool.false_and, bne_self_eq_false, Bool.false_eq_true, if_false, List.append_nil]
    unfold namedChange
    simp [hu']

theorem no_section_same {pre post : Db} {sch : Schema} {σ : SSec} (h : Differs sch σ pre post none) :
    has pre σ.type none = true ∨ has post σ.type none = true := by
  obtain ⟨e, _, he⟩ := h
  rw [← Bool.or_eq_true, ← Bool.not_eq_false]
  intro hf
  rw [Bool.or_eq_false_iff] at hf
  apply he
  have hv : ∀ d, has d σ.type none = false → vals d σ.type none e.name = none := by
    intro d hd
    unfold has at hd
    rw [vals_eq]
    cases hn : findNamed d σ.type none with
    | none => rfl
    | some _ => rw [hn] at hd; cases hd
  rw [(C104_lookup (defaultOf sch) pre σ.type none e.name).2.2 (hv pre hf.1) (hv pre hf.1),
    (C104_lookup (defaultOf sch) post σ.type none e.name).2.2 (hv post hf.2) (hv post hf.2)]

open Classical in
/-- C107: in the mode without names the handler is called once if a value changes and not otherwise. -/
theorem C107_unnamed {pre post : Db} (h1 : Wf pre) (h2 : Wf post) (sch : Schema) {σ : SSec} (hm : σ.mode = .unnamed) :
    callsFor none (sectionChanges sch σ pre post false) =
      if Differs sch σ pre post none then [(none, has pre σ.type none, has post σ.type none)] else [] := by
  have hdm : defaultMode σ.mode = false := by rw [hm]; rfl
  have hi : isDefName σ none = false := by unfold isDefName; rw [hm]
  have hu : (σ.mode != .unnamed) = false := by rw [hm]; rfl
  have hp : (findNamed pre σ.type none).isSome = has pre σ.type none := rfl
  have hq : (findNamed post σ.type none).isSome = has post σ.type none := rfl
  rw [calls h1 h2]
  simp only [hdm, Bool.false_and, bne_self_eq_false, Bool.false_eq_true, if_false, List.append_nil]
  unfold namedChange
  rw [hu, hi]
  dsimp only
  rw [hp, hq]
  by_cases hd : Differs sch σ pre post none
  · have := no_section_same hd
    rw [if_pos (by simpa using this), if_pos hd]
    simp [valuesDiffer_iff.2 hd, view, fold]
  · have : valuesDiffer sch σ pre post none = false := by
      rw [← Bool.not_eq_true]
      exact fun h => hd (valuesDiffer_iff.1 h)
    rw [if_neg hd]
    simp [this]

theorem wf_empty_has (t : Str) (n : Option Str) : has [] t n = false := rfl

/-- C107: at the start the handler is called once for every named section, and once for the unnamed section in the mode without names (even if it does
not exist), if there are no named ones. -/
theorem C107_startup {post : Db} (h2 : Wf post) (sch : Schema) (σ : SSec) :
    (NamedMode σ.mode → ∀ x, callsFor (some x) (sectionChanges sch σ [] post true) =
      if has post σ.type (some x) then [(fold (some x), false, true)] else []) ∧
    (σ.mode = .unnamed → (∀ x, has post σ.type (some x) = false) → (findType post σ.type = none ∨ has post σ.type none = true) →
      callsFor none (sectionChanges sch σ [] post true) = [(none, false, has post σ.type none)]) := by
  have hq : ∀ n, (findNamed post σ.type n).isSome = has post σ.type n := fun _ => rfl
  have hp : ∀ n, (findNamed ([] : Db) σ.type n).isSome = false := fun _ => rfl
  constructor
  · intro hm x
    have hdm : defaultMode σ.mode = false := by rcases hm with h | h <;> rw [h] <;> rfl
    have hu : (σ.mode == .unnamed) = false := by rcases hm with h | h <;> rw [h] <;> rfl
    have hu' : (σ.mode != .unnamed) = true := by rcases hm with h | h <;> rw [h] <;> rfl
    have hi : isDefName σ (some x) = false := by unfold isDefName; rcases hm with h | h <;> rw [h]
    rw [calls wf_nil h2]
    simp only [hdm, hu, Bool.false_and, Bool.and_false, bne_self_eq_false, Bool.false_eq_true, if_false, List.append_nil]
    unfold namedChange
    rw [hu', hi]
    dsimp only
    rw [hp, hq, wf_empty_has]
    cases has post σ.type (some x) <;> simp [view]
  · intro hm _ hex
    have hdm : defaultMode σ.mode = false := by rw [hm]; rfl
    have hi : isDefName σ none = false := by unfold isDefName; rw [hm]
    have hu : (σ.mode == .unnamed) = true := by rw [hm]; rfl
    have hu' : (σ.mode != .unnamed) = false := by rw [hm]; rfl
    have ht : (findType ([] : Db) σ.type).isNone = true := rfl
    rw [calls wf_nil h2]
    simp only [hdm, hu, ht, Bool.false_and, Bool.true_and, bne_self_eq_false, Bool.false_eq_true, if_false, List.append_nil]
    rw [callsFor_named, if_pos rfl]
    unfold namedChange
    rw [hu', hi]
    dsimp only
    rw [hp, hq, wf_empty_has]
    rcases hex with hex | hex
    · have : has post σ.type none = false := by unfold has findNamed; rw [hex]; rfl
      rw [this, hex]
      simp [view, fold]
    · have : (findType post σ.type).isNone = false := by
        unfold has findNamed at hex
        cases hf : findType post σ.type with
        | none => rw [hf] at hex; cases hex
        | some _ => rfl
      rw [this, hex]
      simp [view, fold]

open Classical in
/-- C107: in the mode with a default name the same holds as long as there are named sections before and afterwards. -/
theorem C107_default_partial {pre post : Db} (h1 : Wf pre) (h2 : Wf post) (sch : Schema) {σ : SSec} {dn : Str} (hm : σ.mode = .withDefault dn)
    {y z : Str} (hy : has pre σ.type (some y) = true) (hz : has post σ.type (some z) = true) (x : Str) :
    callsFor (some x) (sectionChanges sch σ pre post false) =
      expected (Differs sch σ pre post (some x)) (some x) (has pre σ.type (some x)) (has post σ.type (some x)) := by
  have hn1 : needsDefault pre σ.type = false := by
    rw [← Bool.not_eq_true, needsDefault_iff h1]
    intro h
    rw [h y] at hy; cases hy
  have hn2 : needsDefault post σ.type = false := by
    rw [← Bool.not_eq_true, needsDefault_iff h2]
    intro h
    rw [h z] at hz; cases hz
  rw [calls h1 h2]
  simp only [hn1, hn2, Bool.and_false, Bool.false_and, bne_self_eq_false, Bool.false_eq_true, if_false, List.append_nil]
  exact change_named sch σ x (by rw [hm]; exact fun h => (nomatch h)) fun _ => ⟨rfl, rfl⟩

open Classical in
/-- C107: at the start the default section is announced exactly if there are no named sections. -/
theorem C107_default_startup {post : Db} (h2 : Wf post) (sch : Schema) {σ : SSec} {dn : Str} (hm : σ.mode = .withDefault dn) (x : Str) :
    callsFor (some x) (sectionChanges sch σ [] post true) =
      if has post σ.type (some x) = true ∨ (Same (some dn) (some x) ∧ ∀ y, has post σ.type (some y) = false) then [(fold (some x), false, true)] else [] := by
  have hp : ∀ n, (findNamed ([] : Db) σ.type n).isSome = false := fun _ => rfl
  have hq : ∀ n, (findNamed post σ.type n).isSome = has post σ.type n := fun _ => rfl
  have hdm : defaultMode σ.mode = true := by rw [hm]; rfl
  have hdn : defName σ.mode = some dn := by rw [hm]; rfl
  have hu : (σ.mode == .unnamed) = false := by rw [hm]; rfl
  have hu' : (σ.mode != .unnamed) = true := by rw [hm]; rfl
  have hi : isDefName σ (some x) = decide (Same (some dn) (some x)) := by
    unfold isDefName
    rw [hm, Bool.eq_iff_iff]
    simp
  have hnc : ∀ b, (namedChange sch σ [] post (some x) true false b).map view =
      [(fold (some x), false, has post σ.type (some x) || (decide (Same (some dn) (some x)) && b))] := by
    intro b
    unfold namedChange
    rw [hu', hi]
    dsimp only
    rw [hp, hq]
    simp [view]
  rw [calls wf_nil h2]
  simp only [hdm, hdn, hu, Bool.not_true, Bool.and_false, Bool.false_and, Bool.true_and, Bool.false_eq_true, if_false, List.append_nil]
  rw [callsFor_named, hnc, wf_empty_has, Bool.false_or]
  cases hn : needsDefault post σ.type with
  | false =>
    have hn' : ¬∀ y, has post σ.type (some y) = false := by
      rw [← needsDefault_iff h2, hn]; exact fun h => (nomatch h)
    cases hh : has post σ.type (some x) with
    | true => simp
    | false => simp [hn']
  | true =>
    have hn' := (needsDefault_iff h2 σ.type).1 hn
    rw [hn' x]
    by_cases hs : Same (some dn) (some x)
    · rw [if_pos hs, decide_eq_true hs]
      simp [hs, hn']
    · rw [if_neg hs]
      simp [hs]

/-- C107: the values of the default section change (its entries are set in the unnamed section), but the handler is not called. -/
theorem C107_default_value_counterexample :
    let σ : SSec := ⟨[97], .withDefault [100], [⟨[98], none, false, some [[49]]⟩], fun _ => true⟩
    let pre := run [] []
    let post := run [] [.setEntry [97] none [98] [50] true true]
    getValue (defaultOf [σ]) pre [97] (some [100]) [98] = some [[49]] ∧ getValue (defaultOf [σ]) post [97] (some [100]) [98] = some [[50]] ∧
    sectionChanges [σ] σ pre post false = [] := by
  decide +kernel

/-- C107: the section with the default name is removed and replaced by the default: the handler is called twice. -/
theorem C107_twice_counterexample :
    let σ : SSec := ⟨[97], .withDefault [100], [⟨[98], none, false, some [[49]]⟩], fun _ => true⟩
    let pre := run [] [.setEntry [97] (some [100]) [98] [50] true true]
    sectionChanges [σ] σ pre (run [] []) false = [⟨some [100], true, true⟩, ⟨some [100], true, true⟩] := by
  decide +kernel

/-- C107: a section with another name appears, the default section vanishes: the handler gets neither the section before nor the one afterwards. -/
theorem C107_vanish_counterexample :
    let σ : SSec := ⟨[97], .withDefault [100], [⟨[98], none, false, some [[49]]⟩], fun _ => true⟩
    let post := run [] [.setEntry [97] (some [101]) [98] [50] true true]
    sectionChanges [σ] σ (run [] []) post false = [⟨some [101], false, true⟩, ⟨some [100], false, false⟩] := by
  decide +kernel

example :
    let σ : SSec := ⟨[97], .named, [⟨[98], none, false, some [[49]]⟩], fun _ => true⟩
    let pre := run [] [.setEntry [97] (some [100]) [98] [50] true true, .addSection [97] (some [101])]
    let post := run [] [.setEntry [97] none [98] [51] true true, .addSection [97] (some [101]), .addSection [97] (some [102])]
    sectionChanges [σ] σ pre post false = [⟨some [101], true, true⟩, ⟨some [102], false, true⟩, ⟨some [100], true, false⟩] := by
  decide +kernel

end Verif.Cfg
