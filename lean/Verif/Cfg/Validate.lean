import Verif.Cfg.SchemaModel
import Verif.Cfg.DbProps

/-
Validation of a database with a schema.
-/
namespace Verif.Cfg

/-! ### Specification -/

/-- the schema section is about this type -/
abbrev About (σ : SSec) (t : Str) : Prop := Same (some σ.type) (some t)

/-- a database without problems; `ignore`: section types and entries without schema are no problem -/
structure Valid (sch : Schema) (ignore : Bool) (d : Db) : Prop where
  /-- section types are known -/
  types : ∀ s ∈ d, ignore = true ∨ ∃ σ ∈ sch, About σ s.type
  /-- sections without name have no name -/
  unnamed : ∀ s ∈ d, ∀ σ ∈ sch, About σ s.type → σ.mode = .unnamed → ∀ n ∈ s.names, n.name = none
  /-- names have no spaces -/
  names : ∀ s ∈ d, ∀ σ ∈ sch, About σ s.type → ∀ n ∈ s.names, ∀ x, n.name = some x → (32 : UInt8) ∉ x
  /-- entries are known -/
  known : ∀ s ∈ d, (∃ σ ∈ sch, About σ s.type) → ∀ n ∈ s.names, ∀ e ∈ n.entries,
    ignore = true ∨ ∃ σ ∈ sch, About σ s.type ∧ ∃ se ∈ σ.entries, Same (some se.name) (some e.name)
  /-- all values of lists and the first value of other entries are accepted -/
  values : ∀ s ∈ d, ∀ n ∈ s.names, ∀ e ∈ n.entries, ∀ σ ∈ sch, About σ s.type → ∀ se ∈ σ.entries, Same (some se.name) (some e.name) →
    ∀ ok, se.check = some ok → if se.list then ∀ v ∈ e.vals, ok v = true else ∀ v, e.vals.head? = some v → ok v = true
  /-- sections are accepted -/
  custom : ∀ s ∈ d, ∀ σ ∈ sch, About σ s.type → ∀ n ∈ s.names, σ.custom n = true
  /-- sections which have to exist do so -/
  sections : ∀ σ ∈ sch, σ.mode = .mandatory → ∃ x, has d σ.type (some x) = true
  /-- named sections have a value for the entries without default -/
  entries : ∀ σ ∈ sch, ∀ se ∈ σ.entries, se.dflt = none →
    vals d σ.type none se.name ≠ none ∨ ∀ x, has d σ.type (some x) = true → vals d σ.type (some x) se.name ≠ none

/-! ### Without cleanup -/

def badVals (ok : Str → Bool) (list : Bool) (vs : List Str) : Bool := if list then vs.any (fun v => !ok v) else vs.head?.any (fun v => !ok v)

theorem valLoop_keep (ok : Str → Bool) (list : Bool) (vs : List Str) (w rm : Bool) :
    valLoop ok list false w rm vs = (vs, w || (!rm && badVals ok list vs)) := by
  induction vs generalizing w rm with
  | nil => simp [valLoop, badVals]
  | cons v vs ih =>
    simp only [valLoop, ih, Bool.and_false, Bool.false_eq_true, if_false]
    congr 1
    unfold badVals
    cases list <;> cases rm <;> cases w <;> simp

def badBy (s : SEntry) (vs : List Str) : Bool :=
  match s.check with
  | none => false
  | some ok => badVals ok s.list vs

theorem entryLoop_keep {vs : List Str} (hv : vs ≠ []) (ses : List SEntry) (w : Bool) :
    entryLoop false ses vs w = some (vs, w || ses.any (badBy · vs)) := by
  induction ses generalizing w with
  | nil => simp [entryLoop]
  | cons s ses ih =>
    unfold entryLoop
    cases hc : s.check with
    | none =>
      dsimp only
      rw [ih, List.any_cons]
      simp [badBy, hc]
    | some ok =>
      dsimp only
      rw [if_neg hv, valLoop_keep]
      dsimp only
      rw [ih, List.any_cons]
      simp [badBy, hc, Bool.or_assoc]

def badEntry (sch : Schema) (t : Str) (ignore : Bool) (e : Entry) : Bool :=
  ((entriesOf sch t e.name).isEmpty && !ignore) || (entriesOf sch t e.name).any (badBy · e.vals)

theorem checkEntries_keep (sch : Schema) (t : Str) (ignore : Bool) (es : List Entry) (hv : ∀ e ∈ es, e.vals ≠ []) :
    checkEntries sch t false ignore es = some (es, es.any (badEntry sch t ignore)) := by
  induction es with
  | nil => rfl
  | cons e es ih =>
    have he := hv e List.mem_cons_self
    simp only [checkEntries, checkEntry, entryLoop_keep he, ih fun x hx => hv x (List.mem_cons_of_mem _ hx), if_neg he, List.any_cons]
    congr 2
    unfold badEntry
    cases h1 : (entriesOf sch t e.name).isEmpty && !ignore <;> simp

def badNamed (sch : Schema) (t : Str) (ignore : Bool) (σ : SSec) (n : Named) : Bool :=
  badName σ n || n.entries.any (badEntry sch t ignore) || !σ.custom n

theorem checkNamed_keep (sch : Schema) (σ : SSec) (t : Str) (ignore err : Bool) (n : Named) (hv : ∀ e ∈ n.entries, e.vals ≠ []) :
    checkNamed sch σ t false ignore err n = some (some n, err || badNamed sch t ignore σ n) := by
  unfold checkNamed badNamed
  by_cases hb : badName σ n = true
  · rw [if_pos hb, hb]; simp
  · rw [if_neg hb, checkEntries_keep _ _ _ _ hv]
    simp [hb, Bool.or_assoc]

theorem checkNames_keep (sch : Schema) (σ : SSec) (t : Str) (ignore : Bool) (ns : List Named) (err : Bool) (hv : ∀ n ∈ ns, ∀ e ∈ n.entries, e.vals ≠ []) :
    checkNames sch σ t false ignore ns err = some (ns, err || ns.any (badNamed sch t ignore σ)) := by
  induction ns generalizing err with
  | nil => simp [checkNames]
  | cons n ns ih =>
    simp only [checkNames, checkNamed_keep sch σ t ignore err n (hv n List.mem_cons_self), ih _ fun x hx => hv x (List.mem_cons_of_mem _ hx)]
    simp [Bool.or_assoc]

theorem checkSecs_keep (sch : Schema) (t : Str) (ignore : Bool) (σs : List SSec) (ns : List Named) (err : Bool)
    (hv : ∀ n ∈ ns, ∀ e ∈ n.entries, e.vals ≠ []) :
    checkSecs sch t false ignore σs ns err = some (ns, err || σs.any fun σ => ns.any (badNamed sch t ignore σ)) := by
  induction σs generalizing err with
  | nil => simp [checkSecs]
  | cons σ σs ih =>
    simp only [checkSecs, checkNames_keep _ _ _ _ _ _ hv, ih]
    simp [Bool.or_assoc]

def badType (sch : Schema) (ignore : Bool) (s : SType) : Bool :=
  ((secsOf sch s.type).isEmpty && !ignore) || (secsOf sch s.type).any fun σ => s.names.any (badNamed sch s.type ignore σ)

theorem checkTypes_keep (sch : Schema) (ignore : Bool) (d : Db) (err : Bool) (hv : ∀ s ∈ d, ∀ n ∈ s.names, ∀ e ∈ n.entries, e.vals ≠ []) :
    checkTypes sch false ignore d err = some (d, err || d.any (badType sch ignore)) := by
  induction d generalizing err with
  | nil => simp [checkTypes]
  | cons s d ih =>
    have hd := fun x hx => hv x (List.mem_cons_of_mem _ hx)
    unfold checkTypes
    by_cases hs : (secsOf sch s.type).isEmpty = true
    · rw [if_pos hs, ih _ hd]
      rw [List.any_cons]
      have : badType sch ignore s = !ignore := by
        unfold badType
        rw [List.isEmpty_iff.1 hs]; simp
      simp [this, Bool.or_assoc]
    · rw [if_neg hs, checkSecs_keep _ _ _ _ _ _ (hv s List.mem_cons_self)]
      dsimp only
      rw [ih _ hd, List.any_cons]
      have : badType sch ignore s = (secsOf sch s.type).any fun σ => s.names.any (badNamed sch s.type ignore σ) := by
        unfold badType
        simp [hs]
      simp [this, Bool.or_assoc]

theorem mem_secsOf {sch : Schema} {t : Str} {σ : SSec} : σ ∈ secsOf sch t ↔ σ ∈ sch ∧ About σ t := by
  unfold secsOf
  rw [List.mem_filter]
  simp

theorem mem_entriesOf {sch : Schema} {t e : Str} {s : SEntry} :
    s ∈ entriesOf sch t e ↔ ∃ σ ∈ sch, About σ t ∧ s ∈ σ.entries ∧ Same (some s.name) (some e) := by
  unfold entriesOf
  rw [List.mem_flatMap]
  constructor
  · rintro ⟨σ, h, hs⟩
    rw [List.mem_filter] at hs
    exact ⟨σ, (mem_secsOf.1 h).1, (mem_secsOf.1 h).2, hs.1, by simpa using hs.2⟩
  · rintro ⟨σ, h, ha, hs, hn⟩
    exact ⟨σ, mem_secsOf.2 ⟨h, ha⟩, List.mem_filter.2 ⟨hs, by simpa using hn⟩⟩

theorem badVals_false {ok : Str → Bool} {list : Bool} {vs : List Str} :
    badVals ok list vs = false ↔ if list then ∀ v ∈ vs, ok v = true else ∀ v, vs.head? = some v → ok v = true := by
  unfold badVals
  cases list with
  | true => simp
  | false => cases vs <;> simp

theorem badEntry_false {sch : Schema} {t : Str} {ignore : Bool} {e : Entry} :
    badEntry sch t ignore e = false ↔
      (ignore = true ∨ ∃ σ ∈ sch, About σ t ∧ ∃ se ∈ σ.entries, Same (some se.name) (some e.name)) ∧
      ∀ σ ∈ sch, About σ t → ∀ se ∈ σ.entries, Same (some se.name) (some e.name) → ∀ ok, se.check = some ok →
        if se.list then ∀ v ∈ e.vals, ok v = true else ∀ v, e.vals.head? = some v → ok v = true := by
  unfold badEntry
  rw [Bool.or_eq_false_iff]
  refine and_congr ?_ ?_
  · rw [Bool.and_eq_false_iff]
    constructor
    · rintro (h | h)
      · right
        rw [List.isEmpty_eq_false_iff_exists_mem] at h
        obtain ⟨s, hs⟩ := h
        obtain ⟨σ, h1, h2, h3, h4⟩ := mem_entriesOf.1 hs
        exact ⟨σ, h1, h2, s, h3, h4⟩
      · left; simpa using h
    · rintro (h | ⟨σ, h1, h2, s, h3, h4⟩)
      · right; simpa using h
      · left
        rw [List.isEmpty_eq_false_iff_exists_mem]
        exact ⟨s, mem_entriesOf.2 ⟨σ, h1, h2, h3, h4⟩⟩
  · rw [List.any_eq_false]
    constructor
    · intro h σ h1 h2 se h3 h4 ok h5
      have := h se (mem_entriesOf.2 ⟨σ, h1, h2, h3, h4⟩)
      unfold badBy at this
      rw [h5] at this
      exact badVals_false.1 (by simpa using this)
    · intro h se hse
      obtain ⟨σ, h1, h2, h3, h4⟩ := mem_entriesOf.1 hse
      unfold badBy
      cases h5 : se.check with
      | none => simp
      | some ok =>
        have := badVals_false.2 (h σ h1 h2 se h3 h4 ok h5)
        simp [this]

theorem badName_false {σ : SSec} {n : Named} : badName σ n = false ↔ (σ.mode = .unnamed → n.name = none) ∧ ∀ x, n.name = some x → (32 : UInt8) ∉ x := by
  unfold badName
  cases hn : n.name with
  | none => simp
  | some x => simp

theorem sectionMissing_false {d : Db} (hw : Wf d) {σ : SSec} :
    sectionMissing d σ = false ↔ (σ.mode = .mandatory → ∃ x, has d σ.type (some x) = true) := by
  unfold sectionMissing has findNamed
  by_cases hm : σ.mode = .mandatory
  · cases ht : findType d σ.type with
    | none => simp [hm]
    | some s =>
      have hu := hw.names s (find_mem ht).1
      clear ht
      obtain ⟨ty, nl⟩ := s
      dsimp only at hu ⊢
      cases nl with
      | nil => simp [hm, find]
      | cons n ns =>
        have hm' : (σ.mode == Mode.mandatory) = true := by simpa using hm
        simp only [hm', Bool.true_and]
        cases hnn : n.name with
        | some x =>
          constructor
          · intro _ _
            refine ⟨x, ?_⟩
            rw [find_cons, if_pos (by rw [hnn])]; rfl
          · intro _; simp
        | none =>
          cases ns with
          | nil =>
            constructor
            · intro h; simp at h
            · intro h
              obtain ⟨x, hx⟩ := h hm
              rw [find_cons, if_neg (by rw [hnn]; exact fun h => (nomatch h))] at hx
              simp [find] at hx
          | cons n2 ns =>
            constructor
            · intro _ _
              cases hn2 : n2.name with
              | none =>
                simp [hnn, hn2] at hu
              | some x =>
                refine ⟨x, ?_⟩
                rw [find_cons, if_neg (by rw [hnn]; exact fun h => (nomatch h)), find_cons, if_pos (by rw [hn2])]; rfl
            · intro _; simp
  · have : (σ.mode == Mode.mandatory) = false := by simpa using hm
    simp [this, hm]

theorem entryMissing_false {d : Db} (hw : Wf d) {σ : SSec} {se : SEntry} :
    entryMissing d σ se = false ↔ (se.dflt = none →
      vals d σ.type none se.name ≠ none ∨ ∀ x, has d σ.type (some x) = true → vals d σ.type (some x) se.name ≠ none) := by
  unfold entryMissing
  cases ht : findType d σ.type with
  | none =>
    dsimp only
    refine ⟨fun _ _ => .inr fun x hx => ?_, fun _ => rfl⟩
    unfold has findNamed at hx
    rw [ht] at hx
    cases hx
  | some s =>
    have hu := hw.names s (find_mem ht).1
    have hf : ∀ n, findNamed d σ.type n = find Named.name s.names n := by
      intro n
      unfold findNamed
      rw [ht]
    dsimp only
    cases hd : se.dflt with
    | some v => simp
    | none =>
      simp only [Option.isNone_none, Bool.true_and, forall_const]
      rw [Bool.and_eq_false_iff]
      refine or_congr ?_ ?_
      · unfold vals findEntry
        rw [hf]
        cases find Named.name s.names none with
        | none => simp
        | some u => cases hfe : find Entry.key u.entries (some se.name) <;> simp [hfe]
      · rw [List.any_eq_false]
        constructor
        · intro h x hx
          unfold has at hx
          unfold vals findEntry
          rw [hf] at hx ⊢
          cases hfx : find Named.name s.names (some x) with
          | none => rw [hfx] at hx; cases hx
          | some n =>
            have hm := find_mem hfx
            have hsome : n.name.isSome = true := by
              have := hm.2
              cases hnn : n.name with
              | none => rw [hnn] at this; cases this
              | some _ => rfl
            have := h n hm.1
            rw [hsome] at this
            simpa using this
        · intro h n hn
          cases hnn : n.name with
          | none => simp
          | some x =>
            have hfx : find Named.name s.names (some x) = some n := Uniq.find hu hn (by rw [hnn])
            have hh := h x (by unfold has; rw [hf, hfx]; rfl)
            unfold vals findEntry at hh
            rw [hf, hfx] at hh
            simpa using hh

/-- C105: without cleanup the database is not changed, and it is accepted exactly if it is valid.  (The full claim demands values of mandatory
entries in all sections, and that all values of an entry are checked.) -/
theorem C105_accept_partial {d : Db} (hw : Wf d) (sch : Schema) (ignore : Bool) :
    ∃ r, validate sch false ignore d = some (d, r) ∧ (r = false ↔ Valid sch ignore d) := by
  refine ⟨d.any (badType sch ignore) || sch.any fun σ => sectionMissing d σ || σ.entries.any (entryMissing d σ), ?_, ?_⟩
  · unfold validate
    rw [checkTypes_keep _ _ _ _ hw.vals]
    rfl
  rw [Bool.or_eq_false_iff, List.any_eq_false, List.any_eq_false]
  have hsec : ∀ s ∈ d, (¬badType sch ignore s = true ↔
      ((ignore = true ∨ ∃ σ ∈ sch, About σ s.type) ∧ ∀ σ ∈ sch, About σ s.type → ∀ n ∈ s.names,
        ((σ.mode = .unnamed → n.name = none) ∧ ∀ x, n.name = some x → (32 : UInt8) ∉ x) ∧ (∀ e ∈ n.entries, badEntry sch s.type ignore e = false) ∧ σ.custom n = true)) := by
    intro s _
    rw [Bool.not_eq_true]
    unfold badType
    rw [Bool.or_eq_false_iff]
    refine and_congr ?_ ?_
    · rw [Bool.and_eq_false_iff]
      constructor
      · rintro (h | h)
        · right
          rw [List.isEmpty_eq_false_iff_exists_mem] at h
          obtain ⟨σ, hσ⟩ := h
          exact ⟨σ, mem_secsOf.1 hσ⟩
        · left; simpa using h
      · rintro (h | ⟨σ, h⟩)
        · right; simpa using h
        · left
          rw [List.isEmpty_eq_false_iff_exists_mem]
          exact ⟨σ, mem_secsOf.2 h⟩
    · rw [List.any_eq_false]
      have hn : ∀ σ n, badNamed sch s.type ignore σ n = false ↔
          ((σ.mode = .unnamed → n.name = none) ∧ ∀ x, n.name = some x → (32 : UInt8) ∉ x) ∧ (∀ e ∈ n.entries, badEntry sch s.type ignore e = false) ∧ σ.custom n = true := by
        intro σ n
        unfold badNamed
        rw [Bool.or_eq_false_iff, Bool.or_eq_false_iff, badName_false, List.any_eq_false, and_assoc]
        refine and_congr Iff.rfl (and_congr ?_ ?_)
        · simp
        · simp
      constructor
      · intro h σ h1 h2 n hn'
        have := h σ (mem_secsOf.2 ⟨h1, h2⟩)
        rw [Bool.not_eq_true, List.any_eq_false] at this
        exact (hn σ n).1 (by simpa using this n hn')
      · intro h σ hσ
        rw [Bool.not_eq_true, List.any_eq_false]
        intro n hn'
        have := (hn σ n).2 (h σ (mem_secsOf.1 hσ).1 (mem_secsOf.1 hσ).2 n hn')
        simp [this]
  have hmand : ∀ σ ∈ sch, (¬(sectionMissing d σ || σ.entries.any (entryMissing d σ)) = true ↔
      ((σ.mode = .mandatory → ∃ x, has d σ.type (some x) = true) ∧ ∀ se ∈ σ.entries, se.dflt = none →
        vals d σ.type none se.name ≠ none ∨ ∀ x, has d σ.type (some x) = true → vals d σ.type (some x) se.name ≠ none)) := by
    intro σ _
    rw [Bool.not_eq_true, Bool.or_eq_false_iff, sectionMissing_false hw, List.any_eq_false]
    refine and_congr Iff.rfl ?_
    refine forall_congr' fun se => forall_congr' fun _ => ?_
    rw [Bool.not_eq_true, entryMissing_false hw]
  constructor
  · rintro ⟨h1, h2⟩
    refine ⟨?_, ?_, ?_, ?_, ?_, ?_, ?_, ?_⟩
    · exact fun s hs => ((hsec s hs).1 (h1 s hs)).1
    · exact fun s hs σ hσ ha hm n hn => ((((hsec s hs).1 (h1 s hs)).2 σ hσ ha n hn).1).1 hm
    · exact fun s hs σ hσ ha n hn => ((((hsec s hs).1 (h1 s hs)).2 σ hσ ha n hn).1).2
    · rintro s hs ⟨σ, hσ, ha⟩ n hn e he
      exact (badEntry_false.1 ((((hsec s hs).1 (h1 s hs)).2 σ hσ ha n hn).2.1 e he)).1
    · intro s hs n hn e he σ hσ ha
      exact (badEntry_false.1 ((((hsec s hs).1 (h1 s hs)).2 σ hσ ha n hn).2.1 e he)).2 σ hσ ha
    · exact fun s hs σ hσ ha n hn => (((hsec s hs).1 (h1 s hs)).2 σ hσ ha n hn).2.2
    · exact fun σ hσ => ((hmand σ hσ).1 (h2 σ hσ)).1
    · exact fun σ hσ => ((hmand σ hσ).1 (h2 σ hσ)).2
  · intro h
    refine ⟨fun s hs => (hsec s hs).2 ⟨h.types s hs, fun σ hσ ha n hn => ⟨⟨fun hm => h.unnamed s hs σ hσ ha hm n hn, h.names s hs σ hσ ha n hn⟩, fun e he => ?_, h.custom s hs σ hσ ha n hn⟩⟩,
      fun σ hσ => (hmand σ hσ).2 ⟨h.sections σ hσ, h.entries σ hσ⟩⟩
    exact badEntry_false.2 ⟨h.known s hs ⟨σ, hσ, ha⟩ n hn e he, h.values s hs n hn e he⟩

/-- C105: in an accepted database all entries of the schema have a value in all named sections (so they can be converted). -/
theorem C105_values {d : Db} (hw : Wf d) {sch : Schema} {ignore : Bool} (h : validate sch false ignore d = some (d, false))
    {t x e : Str} (hs : has d t (some x) = true) (he : entriesOf sch t e ≠ []) : getValue (defaultOf sch) d t (some x) e ≠ none := by
  obtain ⟨r, hr, hv⟩ := C105_accept_partial hw sch ignore
  rw [h] at hr
  have hr : r = false := by simpa using (congrArg (fun o => o.map Prod.snd) hr).symm
  have hV := hv.1 hr
  obtain ⟨l1, l2, l3⟩ := C104_lookup (defaultOf sch) d t (some x) e
  cases hv1 : vals d t (some x) e with
  | some vs => rw [l1 vs hv1]; exact fun h => (nomatch h)
  | none =>
    cases hv0 : vals d t none e with
    | some vs =>
      rw [l2 hv1 (fun h => (nomatch h)), (C104_lookup (defaultOf sch) d t none e).1 vs hv0]
      exact fun h => (nomatch h)
    | none =>
      rw [l3 hv1 hv0]
      unfold defaultOf
      cases hes : entriesOf sch t e with
      | nil => exact absurd hes he
      | cons se ses =>
        simp only [List.head?_cons, Option.map_some, Option.getD_some]
        intro hd
        obtain ⟨σ, hσ, ha, hse, hn⟩ := mem_entriesOf.1 (hes ▸ List.mem_cons_self : se ∈ entriesOf sch t e)
        have hc1 : ∀ n, vals d σ.type n se.name = vals d t n e := by
          intro n
          unfold vals
          rw [findEntry_congr d ⟨ha, rfl, hn⟩]
        have hc2 : ∀ n, has d σ.type n = has d t n := by
          intro n
          unfold has
          rw [findNamed_congr d ⟨ha, rfl⟩]
        rcases hV.entries σ hσ se hse hd with h0 | h0
        · rw [hc1] at h0; exact h0 hv0
        · have := h0 x (by rw [hc2]; exact hs)
          rw [hc1] at this
          exact this hv1

/-- C105: a missing mandatory entry of an unnamed section is not noticed, and the section has no value for it. -/
theorem C105_mandatory_counterexample :
    let sch : Schema := [⟨[97], .unnamed, [⟨[98], none, false, none⟩], fun _ => true⟩]
    let d := run [] [.addSection [97] none]
    validate sch false false d = some (d, false) ∧ getValue (defaultOf sch) d [97] none [98] = none := by
  exact ⟨rfl, rfl⟩

/-- C105: only the first value of an entry which is not a list is checked. -/
theorem C105_values_counterexample :
    let sch : Schema := [⟨[97], .unnamed, [⟨[98], some fun v => v == [49], false, some [[49]]⟩], fun _ => true⟩]
    let d := run [] [.setEntry [97] none [98] [50] true true, .setEntry [97] none [98] [49] true true]
    validate sch false false d = some (d, false) ∧ vals d [97] none [98] = some [[49], [50]] := by
  decide +kernel

/-! ### With cleanup -/

/-- the validators have nothing to complain about, and there is a single value if the entry is no list -/
def Fine (ses : List SEntry) (vs : List Str) : Prop := ∀ s ∈ ses, ∀ ok, s.check = some ok → (∀ v ∈ vs, ok v = true) ∧ (s.list = false → vs.length ≤ 1)

theorem Fine.prefix {ses : List SEntry} {vs vs' : List Str} (h : Fine ses vs) (hp : vs' <+: vs) : Fine ses vs' := by
  intro s hs ok hok
  obtain ⟨h1, h2⟩ := h s hs ok hok
  exact ⟨fun v hv => h1 v (hp.subset hv), fun hl => Nat.le_trans hp.length_le (h2 hl)⟩

theorem valLoop_warned (ok : Str → Bool) (list rm : Bool) (vs : List Str) : valLoop ok list true true rm vs = ([], true) := by
  induction vs generalizing rm with
  | nil => rfl
  | cons v vs ih => simp [valLoop, ih]

theorem valLoop_rm (ok : Str → Bool) (list w : Bool) (vs : List Str) : valLoop ok list true w true vs = ([], w) := by
  induction vs generalizing w with
  | nil => rfl
  | cons v vs ih => simp [valLoop, ih]

theorem valLoop_list (ok : Str → Bool) (vs : List Str) : valLoop ok true true false false vs = (vs.takeWhile ok, vs.any fun v => !ok v) := by
  induction vs with
  | nil => rfl
  | cons v vs ih =>
    simp only [valLoop]
    cases hv : ok v with
    | false => simp [valLoop_warned, hv]
    | true => simp [ih, hv]

theorem valLoop_single (ok : Str → Bool) (v : Str) (vs : List Str) :
    valLoop ok false true false false (v :: vs) = if ok v then ([v], false) else ([], true) := by
  simp only [valLoop]
  cases hv : ok v with
  | false => simp [valLoop_warned]
  | true => simp [valLoop_rm]

theorem valLoop_clean (ok : Str → Bool) (list w : Bool) (vs : List Str) :
    (valLoop ok list true w false vs).1 <+: vs ∧ (∀ v ∈ (valLoop ok list true w false vs).1, ok v = true) ∧
    (list = false → (valLoop ok list true w false vs).1.length ≤ 1) := by
  cases w with
  | true => rw [valLoop_warned]; simp
  | false =>
    cases list with
    | true =>
      rw [valLoop_list]
      refine ⟨List.takeWhile_prefix _, fun v hv => ?_, fun h => (nomatch h)⟩
      have h := hv
      clear hv
      induction vs with
      | nil => cases h
      | cons x xs ih =>
        dsimp only at h
        rw [List.takeWhile_cons] at h
        split at h
        · rename_i hx
          rcases List.mem_cons.1 h with rfl | h
          · exact hx
          · exact ih h
        · cases h
    | false =>
      cases vs with
      | nil => simp [valLoop]
      | cons v vs =>
        rw [valLoop_single]
        cases hv : ok v with
        | false => simp
        | true => simp [hv]

theorem entryLoop_clean (ses : List SEntry) (vs : List Str) (w : Bool) (r : List Str × Bool) (h : entryLoop true ses vs w = some r) :
    r.1 <+: vs ∧ Fine ses r.1 := by
  induction ses generalizing vs w with
  | nil =>
    simp only [entryLoop, Option.some.injEq] at h
    rw [← h]
    exact ⟨List.prefix_refl _, fun s hs => (nomatch hs)⟩
  | cons s ses ih =>
    unfold entryLoop at h
    cases hc : s.check with
    | none =>
      rw [hc] at h
      obtain ⟨h1, h2⟩ := ih _ _ h
      refine ⟨h1, fun s' hs' ok hok => ?_⟩
      rcases List.mem_cons.1 hs' with rfl | hs'
      · rw [hc] at hok; cases hok
      · exact h2 s' hs' ok hok
    | some ok =>
      rw [hc] at h
      dsimp only at h
      split at h
      · cases h
      obtain ⟨h1, h2⟩ := ih _ _ h
      obtain ⟨k1, k2, k3⟩ := valLoop_clean ok s.list w vs
      refine ⟨h1.trans k1, fun s' hs' ok' hok => ?_⟩
      rcases List.mem_cons.1 hs' with rfl | hs'
      · rw [hc] at hok
        cases hok
        exact ⟨fun v hv => k2 v (h1.subset hv), fun hl => Nat.le_trans h1.length_le (k3 hl)⟩
      · exact h2 s' hs' ok' hok

theorem entryLoop_fine {ses : List SEntry} {vs : List Str} (hf : Fine ses vs) (hv : vs ≠ []) : entryLoop true ses vs false = some (vs, false) := by
  induction ses with
  | nil => rfl
  | cons s ses ih =>
    have hf' : Fine ses vs := fun s' hs' => hf s' (List.mem_cons_of_mem _ hs')
    unfold entryLoop
    cases hc : s.check with
    | none => exact ih hf'
    | some ok =>
      dsimp only
      rw [if_neg hv]
      obtain ⟨h1, h2⟩ := hf s List.mem_cons_self ok hc
      have : valLoop ok s.list true false false vs = (vs, false) := by
        cases hl : s.list with
        | true =>
          rw [valLoop_list]
          have htw : vs.takeWhile ok = vs := by
            clear hv hf hf' ih
            induction vs with
            | nil => rfl
            | cons x xs ihx =>
              rw [List.takeWhile_cons, if_pos (h1 x List.mem_cons_self), ihx fun v hv => h1 v (List.mem_cons_of_mem _ hv)]
              intro hl; simp [hl] at *
          rw [htw]
          congr 1
          rw [List.any_eq_false]
          intro v hv
          simp [h1 v hv]
        | false =>
          cases vs with
          | nil => exact absurd rfl hv
          | cons v vs =>
            have := h2 hl
            cases vs with
            | nil => rw [valLoop_single, if_pos (h1 v List.mem_cons_self)]
            | cons _ _ => simp at this
      rw [this]
      exact ih hf'

theorem entryLoop_unchecked {ses : List SEntry} (h : ses.filter (fun s => s.check.isSome) = []) (vs : List Str) (w : Bool) :
    entryLoop true ses vs w = some (vs, w) := by
  induction ses with
  | nil => rfl
  | cons s ses ih =>
    unfold entryLoop
    rw [List.filter_cons] at h
    cases hc : s.check with
    | none =>
      rw [hc] at h
      exact ih h
    | some ok => rw [hc] at h; simp at h

theorem entryLoop_defined {ses : List SEntry} (h : (ses.filter fun s => s.check.isSome).length ≤ 1) {vs : List Str} (hv : vs ≠ []) (w : Bool) :
    entryLoop true ses vs w ≠ none := by
  induction ses generalizing w with
  | nil => exact fun h => (nomatch h)
  | cons s ses ih =>
    unfold entryLoop
    rw [List.filter_cons] at h
    cases hc : s.check with
    | none =>
      rw [hc] at h
      exact ih h w
    | some ok =>
      rw [hc] at h
      simp only [Option.isSome_some, if_true, List.length_cons] at h
      dsimp only
      rw [if_neg hv, entryLoop_unchecked (List.eq_nil_of_length_eq_zero (by omega))]
      exact fun h => (nomatch h)

/-- a list of entries after cleanup -/
structure CleanE (sch : Schema) (t : Str) (es es' : List Entry) : Prop where
  keys : (es'.map fun e => fold e.key).Sublist (es.map fun e => fold e.key)
  ne : ∀ e' ∈ es', e'.vals ≠ []
  from_ : ∀ e' ∈ es', ∃ e ∈ es, e.name = e'.name ∧ e'.vals <+: e.vals
  kept : ∀ e ∈ es, Fine (entriesOf sch t e.name) e.vals → e ∈ es'

theorem checkEntries_clean (sch : Schema) (t : Str) (ignore : Bool) (es : List Entry) (hv : ∀ e ∈ es, e.vals ≠ []) (r : List Entry × Bool)
    (h : checkEntries sch t true ignore es = some r) : CleanE sch t es r.1 ∧ ∀ e' ∈ r.1, Fine (entriesOf sch t e'.name) e'.vals := by
  induction es generalizing r with
  | nil =>
    simp only [checkEntries, Option.some.injEq] at h
    rw [← h]
    exact ⟨⟨.slnil, fun _ h => (nomatch h), fun _ h => (nomatch h), fun _ h => (nomatch h)⟩, fun _ h => (nomatch h)⟩
  | cons e es ih =>
    unfold checkEntries checkEntry at h
    cases hl : entryLoop true (entriesOf sch t e.name) e.vals false with
    | none => rw [hl] at h; cases h
    | some q =>
      rw [hl] at h
      dsimp only at h
      cases hr : checkEntries sch t true ignore es with
      | none => rw [hr] at h; cases h
      | some rs =>
        rw [hr] at h
        simp only [Option.some.injEq] at h
        rw [← h]
        dsimp only
        obtain ⟨hc, hfi⟩ := ih (fun x hx => hv x (List.mem_cons_of_mem _ hx)) rs hr
        obtain ⟨q1, q2⟩ := entryLoop_clean _ _ _ _ hl
        by_cases hq : q.1 = []
        · rw [if_pos hq]
          refine ⟨⟨hc.keys.cons _, hc.ne, fun e' he' => ?_, fun x hx hf => ?_⟩, hfi⟩
          · obtain ⟨e0, h0, h1⟩ := hc.from_ e' he'
            exact ⟨e0, List.mem_cons_of_mem _ h0, h1⟩
          · rcases List.mem_cons.1 hx with rfl | hx
            · rw [entryLoop_fine hf (hv _ List.mem_cons_self)] at hl
              simp only [Option.some.injEq] at hl
              rw [← hl] at hq
              exact absurd hq (hv _ List.mem_cons_self)
            · exact hc.kept x hx hf
        · rw [if_neg hq]
          refine ⟨⟨hc.keys.cons_cons _, fun e' he' => ?_, fun e' he' => ?_, fun x hx hf => ?_⟩, fun e' he' => ?_⟩
          · rcases List.mem_cons.1 he' with rfl | he'
            · exact hq
            · exact hc.ne e' he'
          · rcases List.mem_cons.1 he' with rfl | he'
            · exact ⟨e, List.mem_cons_self, rfl, q1⟩
            · obtain ⟨e0, h0, h1⟩ := hc.from_ e' he'
              exact ⟨e0, List.mem_cons_of_mem _ h0, h1⟩
          · rcases List.mem_cons.1 hx with rfl | hx
            · rw [entryLoop_fine hf (hv _ List.mem_cons_self)] at hl
              simp only [Option.some.injEq] at hl
              rw [← hl]
              exact List.mem_cons_self
            · exact List.mem_cons_of_mem _ (hc.kept x hx hf)
          · rcases List.mem_cons.1 he' with rfl | he'
            · exact q2
            · exact hfi e' he'

/-- a list of sections after cleanup -/
structure CleanN (sch : Schema) (t : Str) (σs : List SSec) (ns ns' : List Named) : Prop where
  keys : (ns'.map fun n => fold n.name).Sublist (ns.map fun n => fold n.name)
  from_ : ∀ n' ∈ ns', ∃ n ∈ ns, n.name = n'.name ∧ CleanE sch t n.entries n'.entries ∧ ∀ σ ∈ σs, badName σ n = false
  fine : σs ≠ [] → ∀ n' ∈ ns', ∀ e' ∈ n'.entries, Fine (entriesOf sch t e'.name) e'.vals
  kept : ∀ n ∈ ns, (∀ σ ∈ σs, badName σ n = false) → ∃ n' ∈ ns', n.name = n'.name ∧ CleanE sch t n.entries n'.entries

theorem CleanE.refl {sch : Schema} {t : Str} {es : List Entry} (hv : ∀ e ∈ es, e.vals ≠ []) : CleanE sch t es es :=
  ⟨List.Sublist.refl _, hv, fun e he => ⟨e, he, rfl, List.prefix_refl _⟩, fun _ he _ => he⟩

theorem CleanE.trans {sch : Schema} {t : Str} {a b c : List Entry} (h1 : CleanE sch t a b) (h2 : CleanE sch t b c) : CleanE sch t a c := by
  refine ⟨h2.keys.trans h1.keys, h2.ne, fun e' he' => ?_, fun e he hf => h2.kept e (h1.kept e he hf) hf⟩
  obtain ⟨x, hx, hn, hp⟩ := h2.from_ e' he'
  obtain ⟨y, hy, hn2, hp2⟩ := h1.from_ x hx
  exact ⟨y, hy, hn2.trans hn, hp.trans hp2⟩

theorem checkNames_clean (sch : Schema) (σ : SSec) (t : Str) (ignore : Bool) (ns : List Named) (err : Bool)
    (hv : ∀ n ∈ ns, ∀ e ∈ n.entries, e.vals ≠ []) (r : List Named × Bool) (h : checkNames sch σ t true ignore ns err = some r) :
    CleanN sch t [σ] ns r.1 := by
  induction ns generalizing err r with
  | nil =>
    simp only [checkNames, Option.some.injEq] at h
    rw [← h]
    exact ⟨.slnil, fun _ h => (nomatch h), fun _ _ h => (nomatch h), fun _ h => (nomatch h)⟩
  | cons n ns ih =>
    unfold checkNames checkNamed at h
    have ih' := fun err r h => ih err (fun x hx => hv x (List.mem_cons_of_mem _ hx)) r h
    by_cases hb : badName σ n = true
    · rw [if_pos hb] at h
      dsimp only at h
      cases hr : checkNames sch σ t true ignore ns true with
      | none => rw [hr] at h; cases h
      | some rs =>
        rw [hr] at h
        simp only [if_true, Option.toList_none, List.nil_append, Option.some.injEq] at h
        rw [← h]
        have hc := ih' _ _ hr
        refine ⟨hc.keys.cons _, fun n' hn' => ?_, hc.fine, fun x hx hf => ?_⟩
        · obtain ⟨n0, h0, h1⟩ := hc.from_ n' hn'
          exact ⟨n0, List.mem_cons_of_mem _ h0, h1⟩
        · rcases List.mem_cons.1 hx with rfl | hx
          · rw [hf σ List.mem_cons_self] at hb; cases hb
          · exact hc.kept x hx hf
    · rw [if_neg hb] at h
      cases he : checkEntries sch t true ignore n.entries with
      | none => rw [he] at h; cases h
      | some q =>
        rw [he] at h
        dsimp only at h
        cases hr : checkNames sch σ t true ignore ns (err || q.2 || !σ.custom ⟨n.name, q.1⟩) with
        | none => rw [hr] at h; cases h
        | some rs =>
          rw [hr] at h
          simp only [Option.toList_some, List.singleton_append, Option.some.injEq] at h
          rw [← h]
          have hc := ih' _ _ hr
          obtain ⟨q1, q2⟩ := checkEntries_clean sch t ignore n.entries (hv n List.mem_cons_self) q he
          refine ⟨hc.keys.cons_cons _, fun n' hn' => ?_, fun hσ n' hn' => ?_, fun x hx hf => ?_⟩
          · rcases List.mem_cons.1 hn' with rfl | hn'
            · refine ⟨n, List.mem_cons_self, rfl, q1, fun σ' hσ' => ?_⟩
              rw [List.mem_singleton.1 hσ']
              simpa using hb
            · obtain ⟨n0, h0, h1⟩ := hc.from_ n' hn'
              exact ⟨n0, List.mem_cons_of_mem _ h0, h1⟩
          · rcases List.mem_cons.1 hn' with rfl | hn'
            · exact q2
            · exact hc.fine hσ n' hn'
          · rcases List.mem_cons.1 hx with rfl | hx
            · exact ⟨_, List.mem_cons_self, rfl, q1⟩
            · obtain ⟨n', hn', h1⟩ := hc.kept x hx hf
              exact ⟨n', List.mem_cons_of_mem _ hn', h1⟩

theorem badName_congr {σ : SSec} {n n' : Named} (h : n.name = n'.name) : badName σ n = badName σ n' := by
  unfold badName; rw [h]

theorem checkSecs_clean (sch : Schema) (t : Str) (ignore : Bool) (σs : List SSec) (ns : List Named) (err : Bool)
    (hv : ∀ n ∈ ns, ∀ e ∈ n.entries, e.vals ≠ []) (r : List Named × Bool) (h : checkSecs sch t true ignore σs ns err = some r) :
    CleanN sch t σs ns r.1 := by
  induction σs generalizing ns err with
  | nil =>
    simp only [checkSecs, Option.some.injEq] at h
    rw [← h]
    exact ⟨List.Sublist.refl _, fun n hn => ⟨n, hn, rfl, .refl (hv n hn), fun _ h => (nomatch h)⟩, fun h => absurd rfl h,
      fun n hn _ => ⟨n, hn, rfl, .refl (hv n hn)⟩⟩
  | cons σ σs ih =>
    unfold checkSecs at h
    cases hr : checkNames sch σ t true ignore ns err with
    | none => rw [hr] at h; cases h
    | some q =>
      rw [hr] at h
      dsimp only at h
      have hq := checkNames_clean sch σ t ignore ns err hv q hr
      have hvq : ∀ n ∈ q.1, ∀ e ∈ n.entries, e.vals ≠ [] := by
        intro n hn
        obtain ⟨n0, _, _, hc, _⟩ := hq.from_ n hn
        exact hc.ne
      have hc := ih q.1 q.2 hvq h
      refine ⟨hc.keys.trans hq.keys, fun n' hn' => ?_, fun _ n' hn' e' he' => ?_, fun n hn hf => ?_⟩
      · obtain ⟨n1, h1, hn1, hc1, hb1⟩ := hc.from_ n' hn'
        obtain ⟨n0, h0, hn0, hc0, hb0⟩ := hq.from_ n1 h1
        refine ⟨n0, h0, hn0.trans hn1, hc0.trans hc1, fun σ' hσ' => ?_⟩
        rcases List.mem_cons.1 hσ' with rfl | hσ'
        · exact hb0 _ List.mem_cons_self
        · rw [badName_congr hn0]; exact hb1 σ' hσ'
      · obtain ⟨n1, h1, _, hc1, _⟩ := hc.from_ n' hn'
        obtain ⟨e1, he1, hen, hp⟩ := hc1.from_ e' he'
        rw [← hen]
        exact (hq.fine (List.cons_ne_nil _ _) n1 h1 e1 he1).prefix hp
      · obtain ⟨n1, h1, hn1, hc1⟩ := hq.kept n hn fun σ' hσ' => hf σ' (by rw [List.mem_singleton.1 hσ']; exact List.mem_cons_self)
        obtain ⟨n2, h2, hn2, hc2⟩ := hc.kept n1 h1 fun σ' hσ' => by rw [← badName_congr hn1]; exact hf σ' (List.mem_cons_of_mem _ hσ')
        exact ⟨n2, h2, hn1.trans hn2, hc1.trans hc2⟩

/-- a database after cleanup -/
structure CleanD (sch : Schema) (ignore : Bool) (d d' : Db) : Prop where
  keys : (d'.map fun s => fold s.key).Sublist (d.map fun s => fold s.key)
  from_ : ∀ s' ∈ d', ∃ s ∈ d, s.type = s'.type ∧ CleanN sch s.type (secsOf sch s.type) s.names s'.names ∧ (ignore = true ∨ secsOf sch s.type ≠ [])
  kept : ∀ s ∈ d, (ignore = true ∨ secsOf sch s.type ≠ []) →
    ∃ ns, CleanN sch s.type (secsOf sch s.type) s.names ns ∧ (ns = [] ∨ ⟨s.type, ns⟩ ∈ d')

theorem checkTypes_clean (sch : Schema) (ignore : Bool) (d : Db) (err : Bool) (hv : ∀ s ∈ d, ∀ n ∈ s.names, ∀ e ∈ n.entries, e.vals ≠ [])
    (r : Db × Bool) (h : checkTypes sch true ignore d err = some r) : CleanD sch ignore d r.1 := by
  induction d generalizing err r with
  | nil =>
    simp only [checkTypes, Option.some.injEq] at h
    rw [← h]
    exact ⟨.slnil, fun _ h => (nomatch h), fun _ h => (nomatch h)⟩
  | cons s d ih =>
    have ih' := fun err r h => ih err (fun x hx => hv x (List.mem_cons_of_mem _ hx)) r h
    unfold checkTypes at h
    by_cases hs : (secsOf sch s.type).isEmpty = true
    · rw [if_pos hs] at h
      have hs' := List.isEmpty_iff.1 hs
      have hself : CleanN sch s.type (secsOf sch s.type) s.names s.names := by
        rw [hs']
        exact ⟨List.Sublist.refl _, fun n hn => ⟨n, hn, rfl, .refl (hv s List.mem_cons_self n hn), fun _ h => (nomatch h)⟩, fun h => absurd rfl h,
          fun n hn _ => ⟨n, hn, rfl, .refl (hv s List.mem_cons_self n hn)⟩⟩
      cases hr : checkTypes sch true ignore d (err || !ignore) with
      | none => rw [hr] at h; cases h
      | some rs =>
        rw [hr] at h
        simp only [Bool.true_and, Option.some.injEq] at h
        rw [← h]
        have hc := ih' _ _ hr
        cases hi : ignore with
        | false =>
          simp only [Bool.not_false, if_true]
          rw [hi] at hc
          refine ⟨hc.keys.cons _, fun s' hs' => ?_, fun x hx hf => ?_⟩
          · obtain ⟨s0, h0, h1⟩ := hc.from_ s' hs'
            exact ⟨s0, List.mem_cons_of_mem _ h0, h1⟩
          · rcases List.mem_cons.1 hx with rfl | hx
            · rcases hf with hf | hf
              · cases hf
              · exact absurd hs' hf
            · exact hc.kept x hx hf
        | true =>
          simp only [Bool.not_true, Bool.false_eq_true, if_false]
          rw [hi] at hc
          refine ⟨hc.keys.cons_cons _, fun s' hs' => ?_, fun x hx hf => ?_⟩
          · rcases List.mem_cons.1 hs' with rfl | hs'
            · exact ⟨_, List.mem_cons_self, rfl, hself, .inl rfl⟩
            · obtain ⟨s0, h0, h1⟩ := hc.from_ s' hs'
              exact ⟨s0, List.mem_cons_of_mem _ h0, h1⟩
          · rcases List.mem_cons.1 hx with rfl | hx
            · exact ⟨x.names, hself, .inr List.mem_cons_self⟩
            · obtain ⟨ns, h1, h2⟩ := hc.kept x hx hf
              exact ⟨ns, h1, h2.imp id (List.mem_cons_of_mem _)⟩
    · rw [if_neg hs] at h
      have hs' : secsOf sch s.type ≠ [] := fun h0 => hs (by rw [h0]; rfl)
      cases hq : checkSecs sch s.type true ignore (secsOf sch s.type) s.names err with
      | none => rw [hq] at h; cases h
      | some q =>
        rw [hq] at h
        dsimp only at h
        have hself := checkSecs_clean sch s.type ignore _ _ _ (hv s List.mem_cons_self) q hq
        cases hr : checkTypes sch true ignore d q.2 with
        | none => rw [hr] at h; cases h
        | some rs =>
          rw [hr] at h
          simp only [Bool.true_and, Option.some.injEq] at h
          rw [← h]
          have hc := ih' _ _ hr
          by_cases he : q.1.isEmpty = true
          · rw [if_pos he]
            refine ⟨hc.keys.cons _, fun s' hs' => ?_, fun x hx hf => ?_⟩
            · obtain ⟨s0, h0, h1⟩ := hc.from_ s' hs'
              exact ⟨s0, List.mem_cons_of_mem _ h0, h1⟩
            · rcases List.mem_cons.1 hx with rfl | hx
              · exact ⟨q.1, hself, .inl (List.isEmpty_iff.1 he)⟩
              · exact hc.kept x hx hf
          · rw [if_neg he]
            refine ⟨hc.keys.cons_cons _, fun s'' hs'' => ?_, fun x hx hf => ?_⟩
            · rcases List.mem_cons.1 hs'' with rfl | hs''
              · exact ⟨s, List.mem_cons_self, rfl, hself, .inr hs'⟩
              · obtain ⟨s0, h0, h1⟩ := hc.from_ s'' hs''
                exact ⟨s0, List.mem_cons_of_mem _ h0, h1⟩
            · rcases List.mem_cons.1 hx with rfl | hx
              · exact ⟨q.1, hself, .inr List.mem_cons_self⟩
              · obtain ⟨ns, h1, h2⟩ := hc.kept x hx hf
                exact ⟨ns, h1, h2.imp id (List.mem_cons_of_mem _)⟩

theorem CleanD.wf {sch : Schema} {ignore : Bool} {d d' : Db} (h : CleanD sch ignore d d') (hw : Wf d) : Wf d' := by
  refine ⟨h.keys.nodup hw.types, fun s' hs' => ?_, fun s' hs' n' hn' => ?_, fun s' hs' n' hn' => ?_⟩
  · obtain ⟨s, hs, _, hc, _⟩ := h.from_ s' hs'
    exact hc.keys.nodup (hw.names s hs)
  · obtain ⟨s, hs, _, hc, _⟩ := h.from_ s' hs'
    obtain ⟨n, hn, _, he, _⟩ := hc.from_ n' hn'
    exact he.keys.nodup (hw.entries s hs n hn)
  · obtain ⟨s, hs, _, hc, _⟩ := h.from_ s' hs'
    obtain ⟨n, hn, _, he, _⟩ := hc.from_ n' hn'
    exact he.ne

theorem validate_clean {sch : Schema} {ignore : Bool} {d d' : Db} {r : Bool} (hw : Wf d) (h : validate sch true ignore d = some (d', r)) :
    CleanD sch ignore d d' := by
  unfold validate at h
  cases hc : checkTypes sch true ignore d false with
  | none => rw [hc] at h; cases h
  | some q =>
    rw [hc] at h
    simp only [Option.some.injEq, Prod.mk.injEq] at h
    rw [← h.1]
    exact checkTypes_clean sch ignore d false hw.vals q hc

theorem entriesOf_congr {sch : Schema} {t t' e e' : Str} (ht : Same (some t) (some t')) (he : Same (some e) (some e')) :
    entriesOf sch t e = entriesOf sch t' e' := by
  unfold entriesOf secsOf
  rw [ht]
  congr 1
  funext σ
  rw [he]

/-- The section may stay: its type is known (or unknown ones are ignored) and all schemas of the type accept the name. -/
def SectionOk (sch : Schema) (ignore : Bool) (t : Str) (n : Option Str) : Prop :=
  (ignore = true ∨ ∃ σ ∈ sch, About σ t) ∧ ∀ σ ∈ sch, About σ t → (σ.mode = .unnamed → n = none) ∧ ∀ x, n = some x → (32 : UInt8) ∉ x

/-- the validators of this entry accept the value -/
def Accepted (sch : Schema) (t e v : Str) : Prop :=
  ∀ σ ∈ sch, About σ t → ∀ se ∈ σ.entries, Same (some se.name) (some e) → ∀ ok, se.check = some ok → ok v = true

/-- some validated schema says that the entry is no list -/
def SingleEntry (sch : Schema) (t e : Str) : Prop :=
  ∃ σ ∈ sch, About σ t ∧ ∃ se ∈ σ.entries, Same (some se.name) (some e) ∧ se.check ≠ none ∧ se.list = false

theorem fine_iff {sch : Schema} {t e : Str} {vs : List Str} :
    Fine (entriesOf sch t e) vs ↔ (∀ v ∈ vs, Accepted sch t e v) ∧ (SingleEntry sch t e → vs.length ≤ 1) := by
  constructor
  · intro h
    constructor
    · intro v hv σ h1 h2 se h3 h4 ok h5
      exact (h se (mem_entriesOf.2 ⟨σ, h1, h2, h3, h4⟩) ok h5).1 v hv
    · rintro ⟨σ, h1, h2, se, h3, h4, h5, h6⟩
      cases hc : se.check with
      | none => exact absurd hc h5
      | some ok => exact (h se (mem_entriesOf.2 ⟨σ, h1, h2, h3, h4⟩) ok hc).2 h6
  · rintro ⟨h1, h2⟩ se hse ok hok
    obtain ⟨σ, k1, k2, k3, k4⟩ := mem_entriesOf.1 hse
    exact ⟨fun v hv => h1 v hv σ k1 k2 se k3 k4 ok hok, fun hl => h2 ⟨σ, k1, k2, se, k3, k4, by rw [hok]; exact fun h => (nomatch h), hl⟩⟩

/-- C106: cleanup only removes: what is left was there before, in sections which may stay.  Of the values a beginning is left, and all values
which are left are accepted by the validators. -/
theorem C106_removes_bad {sch : Schema} {ignore : Bool} {d d' : Db} {r : Bool} (hw : Wf d) (h : validate sch true ignore d = some (d', r))
    (t : Str) (n : Option Str) :
    (has d' t n = true → has d t n = true ∧ SectionOk sch ignore t n) ∧
    ∀ e vs', vals d' t n e = some vs' → ∃ vs, vals d t n e = some vs ∧ vs' <+: vs ∧ (∀ v ∈ vs', Accepted sch t e v) ∧ (SingleEntry sch t e → vs'.length ≤ 1) := by
  have hc := validate_clean hw h
  have key : ∀ n', findNamed d' t n = some n' → ∃ s ∈ d, Same (some s.type) (some t) ∧ ∃ n0 ∈ s.names, findNamed d t n = some n0 ∧ n0.name = n'.name ∧ Same n0.name n ∧
      CleanE sch s.type n0.entries n'.entries ∧ (∀ σ ∈ secsOf sch s.type, badName σ n0 = false) ∧ (ignore = true ∨ secsOf sch s.type ≠ []) ∧
      (∀ e' ∈ n'.entries, Fine (entriesOf sch s.type e'.name) e'.vals) := by
    intro n' hn'
    unfold findNamed at hn'
    cases hs' : findType d' t with
    | none => rw [hs'] at hn'; cases hn'
    | some s' =>
      rw [hs'] at hn'
      obtain ⟨hm', hk'⟩ := find_mem hs'
      obtain ⟨hnm, hnk⟩ := find_mem hn'
      obtain ⟨s, hs, hst, hN, hi⟩ := hc.from_ s' hm'
      obtain ⟨n0, hn0, hnn, hE, hb⟩ := hN.from_ n' hnm
      have hst' : Same (some s.type) (some t) := by rw [hst]; exact hk'
      have hfind : findType d t = some s := Uniq.find (key := SType.key) hw.types hs hst'
      refine ⟨s, hs, hst', n0, hn0, ?_, hnn, by rw [hnn]; exact hnk, hE, hb, hi, ?_⟩
      · unfold findNamed
        rw [hfind]
        exact Uniq.find (hw.names s hs) hn0 (by rw [hnn]; exact hnk)
      · by_cases hne : secsOf sch s.type = []
        · intro e' _
          unfold entriesOf
          rw [hne]
          exact fun s hs => (nomatch hs)
        · exact hN.fine hne n' hnm
  constructor
  · intro hh
    unfold has at hh
    cases hn' : findNamed d' t n with
    | none => rw [hn'] at hh; cases hh
    | some n' =>
      obtain ⟨s, hs, hst, n0, hn0, hf, hnn, hsn, hE, hb, hi, _⟩ := key n' hn'
      refine ⟨by unfold has; rw [hf]; rfl, ?_, ?_⟩
      · refine hi.imp id fun hne => ?_
        obtain ⟨σ, hσ⟩ := List.exists_mem_of_ne_nil _ hne
        exact ⟨σ, (mem_secsOf.1 hσ).1, (mem_secsOf.1 hσ).2.trans hst⟩
      · intro σ hσ ha
        have hbn := badName_false.1 (hb σ (mem_secsOf.2 ⟨hσ, ha.trans hst.symm⟩))
        constructor
        · intro hm
          have := hbn.1 hm
          rw [this] at hsn
          cases n with
          | none => rfl
          | some x => cases hsn
        · intro x hx hsp
          subst hx
          cases hy : n0.name with
          | none => rw [hy] at hsn; cases hsn
          | some y =>
            rw [hy] at hsn
            have hyx : y.map Str.toLower = x.map Str.toLower := Option.some.inj hsn
            have hsx : Str.toLower 32 ∈ x.map Str.toLower := List.mem_map_of_mem hsp
            rw [← hyx] at hsx
            obtain ⟨c, hcy, hc2⟩ := List.mem_map.1 hsx
            have : c = 32 := by
              revert hc2
              have : ∀ c : UInt8, Str.toLower c = Str.toLower 32 → c = 32 := by
                unfold Str.toLower
                intro c h
                have hc : c.toNat < 256 := c.toNat_lt
                revert h
                split
                · intro h
                  exfalso
                  rename_i hr
                  have := congrArg UInt8.toNat h
                  simp at this
                  simp [UInt8.le_iff_toNat_le] at hr
                  omega
                · intro h; simpa using h
              exact this c
            rw [this] at hcy
            exact hbn.2 y hy hcy
  · intro e vs' hv
    rw [vals_eq] at hv
    cases hn' : findNamed d' t n with
    | none => rw [hn'] at hv; cases hv
    | some n' =>
      rw [hn'] at hv
      simp only [Option.bind_some] at hv
      obtain ⟨e', he', rfl⟩ := Option.map_eq_some_iff.1 hv
      obtain ⟨s, hs, hst, n0, hn0, hf, _, _, hE, _, _, hfi⟩ := key n' hn'
      obtain ⟨hem, hek⟩ := find_mem he'
      obtain ⟨e0, h0, hen, hp⟩ := hE.from_ e' hem
      refine ⟨e0.vals, ?_, hp, ?_⟩
      · rw [vals_eq, hf]
        simp only [Option.bind_some]
        have : find Entry.key n0.entries (some e) = some e0 := Uniq.find (hw.entries s hs n0 hn0) h0 (by
          unfold Entry.key; rw [hen]; exact hek)
        rw [this]; rfl
      · have := hfi e' hem
        rw [entriesOf_congr hst (hek : Same (some e'.name) (some e)), fine_iff] at this
        exact this

/-- C106: sections which may stay are kept, and all entries in them whose values are accepted (and single if the entry is no list). -/
theorem C106_keeps_good {sch : Schema} {ignore : Bool} {d d' : Db} {r : Bool} (hw : Wf d) (h : validate sch true ignore d = some (d', r))
    (t : Str) (n : Option Str) (hs : has d t n = true) (hok : SectionOk sch ignore t n) :
    has d' t n = true ∧ ∀ e vs, vals d t n e = some vs → (∀ v ∈ vs, Accepted sch t e v) → (SingleEntry sch t e → vs.length ≤ 1) →
      vals d' t n e = some vs := by
  have hc := validate_clean hw h
  have hw' := hc.wf hw
  unfold has at hs
  cases hn0 : findNamed d t n with
  | none => rw [hn0] at hs; cases hs
  | some n0 =>
    have hn0' := hn0
    unfold findNamed at hn0
    cases hs0 : findType d t with
    | none => rw [hs0] at hn0; cases hn0
    | some s =>
      rw [hs0] at hn0
      obtain ⟨hm, hk⟩ := find_mem hs0
      obtain ⟨hnm, hnk⟩ := find_mem hn0
      have hkt : Same (some s.type) (some t) := hk
      have hi : ignore = true ∨ secsOf sch s.type ≠ [] := by
        refine hok.1.imp id ?_
        rintro ⟨σ, hσ, ha⟩ h0
        have : σ ∈ secsOf sch s.type := mem_secsOf.2 ⟨hσ, ha.trans hkt.symm⟩
        rw [h0] at this
        cases this
      obtain ⟨ns, hN, hns⟩ := hc.kept s hm hi
      have hbn : ∀ σ ∈ secsOf sch s.type, badName σ n0 = false := by
        intro σ hσ
        obtain ⟨h1, h2⟩ := mem_secsOf.1 hσ
        obtain ⟨k1, k2⟩ := hok.2 σ h1 (h2.trans hkt)
        rw [badName_false]
        constructor
        · intro hm
          have := k1 hm
          subst this
          cases hx : n0.name with
          | none => rfl
          | some x => rw [hx] at hnk; cases hnk
        · intro y hy hsp
          rw [hy] at hnk
          cases n with
          | none => cases hnk
          | some x =>
            have hyx : y.map Str.toLower = x.map Str.toLower := Option.some.inj hnk
            have hsx : Str.toLower 32 ∈ y.map Str.toLower := List.mem_map_of_mem hsp
            rw [hyx] at hsx
            obtain ⟨c, hcy, hc2⟩ := List.mem_map.1 hsx
            have : c = 32 := by
              have : ∀ c : UInt8, Str.toLower c = Str.toLower 32 → c = 32 := by
                unfold Str.toLower
                intro c h
                have hc : c.toNat < 256 := c.toNat_lt
                revert h
                split
                · intro h
                  exfalso
                  rename_i hr
                  have := congrArg UInt8.toNat h
                  simp at this
                  simp [UInt8.le_iff_toNat_le] at hr
                  omega
                · intro h; simpa using h
              exact this c hc2
            rw [this] at hcy
            exact k2 x rfl hcy
      obtain ⟨n', hn', hnn, hE⟩ := hN.kept n0 hnm hbn
      have hmem : (⟨s.type, ns⟩ : SType) ∈ d' := by
        rcases hns with h0 | h0
        · rw [h0] at hn'; cases hn'
        · exact h0
      have hft : findType d' t = some ⟨s.type, ns⟩ := Uniq.find (key := SType.key) hw'.types hmem hk
      have hfn : findNamed d' t n = some n' := by
        unfold findNamed
        rw [hft]
        exact Uniq.find (hw'.names _ hmem) hn' (by rw [← hnn]; exact hnk)
      refine ⟨by unfold has; rw [hfn]; rfl, fun e vs hv ha hl => ?_⟩
      rw [vals_eq, hn0'] at hv
      simp only [Option.bind_some] at hv
      obtain ⟨e0, he0, rfl⟩ := Option.map_eq_some_iff.1 hv
      obtain ⟨hem, hek⟩ := find_mem he0
      have hf : Fine (entriesOf sch s.type e0.name) e0.vals := by
        rw [entriesOf_congr hkt (hek : Same (some e0.name) (some e)), fine_iff]
        exact ⟨ha, hl⟩
      have hin := hE.kept e0 hem hf
      rw [vals_eq, hfn]
      simp only [Option.bind_some]
      have : find Entry.key n'.entries (some e) = some e0 := Uniq.find (hw'.entries _ hmem n' hn') hin hek
      rw [this]; rfl

/-- C106: the database is well formed after cleanup. -/
theorem C106_wellformed {sch : Schema} {ignore : Bool} {d d' : Db} {r : Bool} (hw : Wf d) (h : validate sch true ignore d = some (d', r)) : Wf d' :=
  (validate_clean hw h).wf hw

/-- C106: if every entry has at most one validator the validation does not access freed memory. -/
theorem C106_defined_partial {sch : Schema} (h1 : ∀ t e, ((entriesOf sch t e).filter fun s => s.check.isSome).length ≤ 1) {d : Db} (hw : Wf d) (cleanup ignore : Bool) :
    validate sch cleanup ignore d ≠ none := by
  cases cleanup with
  | false =>
    obtain ⟨r, hr, _⟩ := C105_accept_partial hw sch ignore
    rw [hr]; exact fun h => (nomatch h)
  | true =>
    have hE : ∀ t es, (∀ e ∈ es, e.vals ≠ []) → checkEntries sch t true ignore es ≠ none := by
      intro t es hv
      induction es with
      | nil => exact fun h => (nomatch h)
      | cons e es ih =>
        unfold checkEntries checkEntry
        cases hl : entryLoop true (entriesOf sch t e.name) e.vals false with
        | none => exact absurd hl (entryLoop_defined (h1 t e.name) (hv e List.mem_cons_self) false)
        | some q =>
          dsimp only
          cases hr : checkEntries sch t true ignore es with
          | none => exact absurd hr (ih fun x hx => hv x (List.mem_cons_of_mem _ hx))
          | some rs => exact fun h => (nomatch h)
    have hN : ∀ σ t ns err, (∀ n ∈ ns, ∀ e ∈ n.entries, e.vals ≠ []) → checkNames sch σ t true ignore ns err ≠ none := by
      intro σ t ns
      induction ns with
      | nil => exact fun _ _ h => (nomatch h)
      | cons n ns ih =>
        intro err hv
        unfold checkNames checkNamed
        have ih' := fun err => ih err fun x hx => hv x (List.mem_cons_of_mem _ hx)
        split
        · rename_i hq
          split at hq
          · cases hq
          · split at hq
            · rename_i hq2; exact absurd hq2 (hE t _ (hv n List.mem_cons_self))
            · cases hq
        · split
          · rename_i hq; exact absurd hq (ih' _)
          · exact fun h => (nomatch h)
    have hS : ∀ t σs ns err, (∀ n ∈ ns, ∀ e ∈ n.entries, e.vals ≠ []) → checkSecs sch t true ignore σs ns err ≠ none := by
      intro t σs
      induction σs with
      | nil => exact fun _ _ _ h => (nomatch h)
      | cons σ σs ih =>
        intro ns err hv
        unfold checkSecs
        cases hq : checkNames sch σ t true ignore ns err with
        | none => exact absurd hq (hN _ _ _ _ hv)
        | some q =>
          refine ih _ _ ?_
          intro n hn
          obtain ⟨n0, _, _, hc, _⟩ := (checkNames_clean sch σ t ignore ns err hv q hq).from_ n hn
          exact hc.ne
    have hT : ∀ (d : Db) err, (∀ s ∈ d, ∀ n ∈ s.names, ∀ e ∈ n.entries, e.vals ≠ []) → checkTypes sch true ignore d err ≠ none := by
      intro d
      induction d with
      | nil => exact fun _ _ h => (nomatch h)
      | cons s d ih =>
        intro err hv
        have ih' := fun err => ih err fun x hx => hv x (List.mem_cons_of_mem _ hx)
        unfold checkTypes
        split
        · split
          · rename_i hq; exact absurd hq (ih' _)
          · exact fun h => (nomatch h)
        · split
          · rename_i hq; exact absurd hq (hS _ _ _ _ (hv s List.mem_cons_self))
          · split
            · rename_i hq; exact absurd hq (ih' _)
            · exact fun h => (nomatch h)
    unfold validate
    cases hq : checkTypes sch true ignore d false with
    | none => exact absurd hq (hT d false hw.vals)
    | some q => exact fun h => (nomatch h)

/-- C106: with two validators for an entry, the first of which rejects the value, the freed entry is accessed. -/
theorem C106_freed_counterexample :
    let sch : Schema := [⟨[97], .unnamed, [⟨[98], some fun _ => false, false, some [[49]]⟩], fun _ => true⟩,
      ⟨[97], .unnamed, [⟨[98], some fun _ => true, false, some [[49]]⟩], fun _ => true⟩]
    validate sch true false (run [] [.setEntry [97] none [98] [49] true true]) = none := by
  decide +kernel

/-- C106: a bad value of a list removes the good values behind it. -/
theorem C106_list_counterexample :
    let sch : Schema := [⟨[97], .unnamed, [⟨[98], some fun v => v != [48], true, some []⟩], fun _ => true⟩]
    let d := run [] [.setEntry [97] none [98] [49] true false, .setEntry [97] none [98] [48] true false, .setEntry [97] none [98] [50] true false]
    ∃ d', validate sch true false d = some (d', true) ∧ vals d [97] none [98] = some [[49], [48], [50]] ∧ vals d' [97] none [98] = some [[49]] :=
  ⟨[⟨[97], [⟨none, [⟨[98], [[49]]⟩]⟩]⟩], by decide +kernel, by decide +kernel, by decide +kernel⟩

/-- C106: unknown entries are not removed: the second validation fails as well. -/
theorem C106_unknown_counterexample :
    let sch : Schema := [⟨[97], .unnamed, [], fun _ => true⟩]
    let d := run [] [.setEntry [97] none [98] [49] true false]
    validate sch true false d = some (d, true) := by
  decide +kernel

/-- C106: if there are no unknown entries (or these are ignored), all sections are accepted and nothing is missing, the database is accepted after
cleanup. -/
theorem C106_second_partial {sch : Schema} {ignore : Bool} {d d' : Db} {r : Bool} (hw : Wf d) (h : validate sch true ignore d = some (d', r))
    (hknown : ignore = true ∨ ∀ s ∈ d, ∀ n ∈ s.names, ∀ e ∈ n.entries, ∃ σ ∈ sch, About σ s.type ∧ ∃ se ∈ σ.entries, Same (some se.name) (some e.name))
    (hcustom : ∀ σ ∈ sch, ∀ n, σ.custom n = true) (hmand : ∀ σ ∈ sch, σ.mode ≠ .mandatory ∧ ∀ se ∈ σ.entries, se.dflt ≠ none) :
    validate sch false ignore d' = some (d', false) := by
  have hc := validate_clean hw h
  obtain ⟨r', hr', hv⟩ := C105_accept_partial (hc.wf hw) sch ignore
  have : Valid sch ignore d' := by
    refine ⟨?_, ?_, ?_, ?_, ?_, ?_, ?_, ?_⟩
    · intro s' hs'
      obtain ⟨s, hs, hst, _, hi⟩ := hc.from_ s' hs'
      refine hi.imp id fun hne => ?_
      obtain ⟨σ, hσ⟩ := List.exists_mem_of_ne_nil _ hne
      exact ⟨σ, (mem_secsOf.1 hσ).1, by rw [← hst]; exact (mem_secsOf.1 hσ).2⟩
    · intro s' hs' σ hσ ha hm n' hn'
      obtain ⟨s, hs, hst, hN, _⟩ := hc.from_ s' hs'
      obtain ⟨n, hn, hnn, _, hb⟩ := hN.from_ n' hn'
      rw [← hnn]
      exact (badName_false.1 (hb σ (mem_secsOf.2 ⟨hσ, by rw [hst]; exact ha⟩))).1 hm
    · intro s' hs' σ hσ ha n' hn'
      obtain ⟨s, hs, hst, hN, _⟩ := hc.from_ s' hs'
      obtain ⟨n, hn, hnn, _, hb⟩ := hN.from_ n' hn'
      rw [← hnn]
      exact (badName_false.1 (hb σ (mem_secsOf.2 ⟨hσ, by rw [hst]; exact ha⟩))).2
    · intro s' hs' _ n' hn' e' he'
      obtain ⟨s, hs, hst, hN, _⟩ := hc.from_ s' hs'
      obtain ⟨n, hn, hnn, hE, hb⟩ := hN.from_ n' hn'
      obtain ⟨e, he, hen, _⟩ := hE.from_ e' he'
      refine hknown.imp id fun hk => ?_
      rw [← hst, ← hen]
      exact hk s hs n hn e he
    · intro s' hs' n' hn' e' he' σ hσ ha se hse hn ok hok
      obtain ⟨s, hs, hst, hN, _⟩ := hc.from_ s' hs'
      have ha' : About σ s.type := by rw [hst]; exact ha
      have hne : secsOf sch s.type ≠ [] := fun h0 => by
        have : σ ∈ secsOf sch s.type := mem_secsOf.2 ⟨hσ, ha'⟩
        rw [h0] at this; cases this
      have := (hN.fine hne n' hn' e' he' se (mem_entriesOf.2 ⟨σ, hσ, ha', hse, hn⟩) ok hok).1
      split
      · exact this
      · intro v hv
        exact this v (List.mem_of_head? hv)
    · exact fun _ _ σ hσ _ n _ => hcustom σ hσ n
    · exact fun σ hσ hm => absurd hm (hmand σ hσ).1
    · exact fun σ hσ se hse hd => absurd hd ((hmand σ hσ).2 se hse)
  rw [hr', hv.2 this]

example :
    let sch : Schema := [⟨[97], .named, [⟨[98], some fun v => v != [48], true, some []⟩], fun _ => true⟩]
    let d := run [] [.setEntry [97] (some [120]) [98] [49] true false, .setEntry [97] (some [32]) [98] [49] true false, .setEntry [99] none [98] [50] true false]
    validate sch true false d = some ([⟨[97], [⟨some [120], [⟨[98], [[49]]⟩]⟩]⟩], true) ∧ SectionOk sch false [97] (some [120]) := by
  refine ⟨by decide +kernel, .inr ⟨_, List.mem_cons_self, rfl⟩, fun σ hσ _ => ?_⟩
  rw [List.mem_singleton.1 hσ]
  exact ⟨fun h => (nomatch h), by rintro x ⟨⟩; decide⟩

end Verif.Cfg
