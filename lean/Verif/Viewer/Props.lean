import Verif.Viewer.Model
import Verif.Str.Props
/-
C241: subcommands of the info plugins.
-/
namespace Verif.Viewer

open Verif.Str (strHasNextWord Words C55_has_next toLower)

/-! ### Specification -/

/-- The same word up to letter case. -/
def Same (a b : Txt) : Prop := a.map toLower = b.map toLower

/-- The bytes of a word. -/
def word (s : String) : Txt := s.toList.map (fun c => UInt8.ofNat c.toNat)

/-- A word which chooses a format, and what it chooses. -/
inductive Chooses (w : Txt) : Flags → Prop
  | head : Same w (word "head") → Chooses w ⟨true, false, false, false⟩
  | json : Same w (word "json") → Chooses w ⟨false, true, false, false⟩
  | raw : Same w (word "raw") → Chooses w ⟨false, false, true, false⟩
  | jsonraw : Same w (word "jsonraw") → Chooses w ⟨false, true, true, false⟩
  | data : Same w (word "data") → Chooses w ⟨false, true, false, true⟩
  | dataraw : Same w (word "dataraw") → Chooses w ⟨false, true, true, true⟩

/-- Template `i` is the first one with this name. -/
def First (names : List Txt) (t : Txt) (i : Nat) : Prop :=
  (∃ n, names[i]? = some n ∧ Same t n) ∧ ∀ j n, j < i → names[j]? = some n → ¬ Same t n

/-- The words of the parameter: an optional format, the subcommand, the words of the custom format. -/
inductive Asks : List Txt → Flags → Txt → List Txt → Prop
  | plain (t rest) : (∀ f, ¬ Chooses t f) → Asks (t :: rest) ⟨false, false, false, false⟩ t rest
  | format (w f t rest) : Chooses w f → Asks (w :: t :: rest) f t rest

/-! ### Lemmas -/

theorem hasNext_trim (p n s : Txt) (h : strHasNextWord p n = some s) : ∀ c l, s = c :: l → Str.isBlank c = false := by
  intro c l hs
  subst hs
  unfold strHasNextWord at h
  rcases hw : Str.hasWordLoop n (Str.skipBlank p) with ⟨w, b⟩
  rw [hw] at h
  dsimp only at h
  cases w with
  | cons x y => cases b <;> exact nomatch h
  | nil =>
    cases b with
    | nil => exact absurd (Option.some.inj h) (by simp)
    | cons b bs =>
      dsimp only at h
      split at h
      · have := List.head?_dropWhile_not Str.isBlank (b :: bs)
        have e : List.dropWhile Str.isBlank (b :: bs) = c :: l := Option.some.inj h
        rw [e] at this
        simpa using this
      · exact nomatch h

theorem words_nil {s : Txt} (h : Words s []) (ht : ∀ c l, s = c :: l → Str.isBlank c = false) : s = [] := by
  cases h with
  | none _ hb =>
    cases s with
    | nil => rfl
    | cons c l => exact absurd (ht c l rfl) (by simp [hb c (by simp)])

theorem hasNext_cases {p : Txt} {w : Txt} {ws : List Txt} (h : Words p (w :: ws)) (n : Txt) (hn : n ≠ []) :
    (Same w n → ∃ s, strHasNextWord p n = some s ∧ Words s ws ∧ (ws = [] → s = [])) ∧ (¬ Same w n → strHasNextWord p n = none) := by
  have c := C55_has_next h n hn
  constructor
  · intro hs
    obtain ⟨s, e⟩ := Option.isSome_iff_exists.mp (c.1.mpr ⟨w, ws, rfl, hs⟩)
    refine ⟨s, e, c.2 s e, fun h0 => ?_⟩
    subst h0
    exact words_nil (c.2 s e) (hasNext_trim p n s e)
  · intro hs
    cases e : strHasNextWord p n with
    | none => rfl
    | some s =>
      obtain ⟨w', r, he, hm⟩ := c.1.mp (by rw [e]; rfl)
      injection he with h1 h2
      subst h1
      exact absurd hm hs

theorem hasNext_blank {p : Txt} (h : Words p []) (n : Txt) (hn : n ≠ []) : strHasNextWord p n = none := by
  have c := C55_has_next h n hn
  cases e : strHasNextWord p n with
  | none => rfl
  | some s =>
    obtain ⟨w', r, he, _⟩ := c.1.mp (by rw [e]; rfl)
    exact nomatch he

theorem tryFormats_some {p w : Txt} {ws : List Txt} (h : Words p (w :: ws)) (f : Flags) (T : List (Txt × Flags))
    (hne : ∀ e ∈ T, e.1 ≠ []) (hu : ∀ e ∈ T, Same w e.1 → e.2 = f) (hm : ∃ e ∈ T, Same w e.1) :
    ∃ s, tryFormats p T = some (f, s) ∧ Words s ws := by
  induction T with
  | nil => obtain ⟨e, he, _⟩ := hm; exact absurd he (by simp)
  | cons e T ih =>
    have c := hasNext_cases h e.1 (hne e (by simp))
    by_cases hs : Same w e.1
    · obtain ⟨s, h1, h2, _⟩ := c.1 hs
      refine ⟨s, ?_, h2⟩
      rw [tryFormats, h1, ← hu e (by simp) hs]
    · obtain ⟨e', he', hs'⟩ := hm
      rcases List.mem_cons.mp he' with rfl | he'
      · exact absurd hs' hs
      · rw [tryFormats, c.2 hs]
        exact ih (fun e h => hne e (by simp [h])) (fun e h => hu e (by simp [h])) ⟨e', he', hs'⟩

theorem tryFormats_none {p : Txt} (T : List (Txt × Flags)) (h : ∀ e ∈ T, strHasNextWord p e.1 = none) :
    tryFormats p T = none := by
  induction T with
  | nil => rfl
  | cons e T ih => rw [tryFormats, h e (by simp)]; exact ih (fun e h' => h e (by simp [h']))

theorem formats_chooses : ∀ e ∈ formats, ∀ w, Same w e.1 → Chooses w e.2 := by
  intro e he w hs
  simp only [formats, List.mem_cons, List.not_mem_nil, or_false] at he
  rcases he with rfl | rfl | rfl | rfl | rfl | rfl
  · exact .head hs
  · exact .json hs
  · exact .raw hs
  · exact .jsonraw hs
  · exact .data hs
  · exact .dataraw hs

theorem chooses_formats {w : Txt} {f : Flags} (h : Chooses w f) : ∃ e ∈ formats, Same w e.1 ∧ e.2 = f := by
  cases h with
  | head h => exact ⟨(word "head", _), by decide, h, rfl⟩
  | json h => exact ⟨(word "json", _), by decide, h, rfl⟩
  | raw h => exact ⟨(word "raw", _), by decide, h, rfl⟩
  | jsonraw h => exact ⟨(word "jsonraw", _), by decide, h, rfl⟩
  | data h => exact ⟨(word "data", _), by decide, h, rfl⟩
  | dataraw h => exact ⟨(word "dataraw", _), by decide, h, rfl⟩

theorem formats_distinct : ∀ e ∈ formats, ∀ e' ∈ formats, e.1.map toLower = e'.1.map toLower → e.2 = e'.2 := by
  decide

theorem formats_ne : ∀ e ∈ formats, e.1 ≠ [] := by decide

theorem parse_format {p w : Txt} {ws : List Txt} (h : Words p (w :: ws)) {f : Flags} (hc : Chooses w f) :
    (parseFormat p).1 = f ∧ Words (parseFormat p).2 ws := by
  obtain ⟨e, he, hs, hf⟩ := chooses_formats hc
  obtain ⟨s, h1, h2⟩ := tryFormats_some h f formats formats_ne
    (fun e' he' hs' => by
      rw [← hf]
      exact formats_distinct e' he' e he (hs'.symm.trans hs)) ⟨e, he, hs⟩
  rw [parseFormat, h1]
  exact ⟨rfl, h2⟩

theorem parse_plain {p w : Txt} {ws : List Txt} (h : Words p (w :: ws)) (hc : ∀ f, ¬ Chooses w f) :
    parseFormat p = ({}, p) := by
  rw [parseFormat, tryFormats_none formats (fun e he =>
    (hasNext_cases h e.1 (formats_ne e he)).2 (fun hs => hc _ (formats_chooses e he w hs)))]
  rfl

theorem findTemplate_first {p t : Txt} {rest : List Txt} (h : Words p (t :: rest)) (names : List Txt)
    (hne : ∀ n ∈ names, n ≠ []) : ∀ k i, First names t i →
    ∃ s, findTemplate p k names = some (k + i, s) ∧ Words s rest ∧ (rest = [] → s = []) := by
  induction names with
  | nil => rintro k i ⟨⟨n, hn, _⟩, _⟩; exact nomatch hn
  | cons n names ih =>
    intro k i hf
    have c := hasNext_cases h n (hne n (by simp))
    cases i with
    | zero =>
      obtain ⟨⟨n', hn, hs⟩, _⟩ := hf
      simp only [List.getElem?_cons_zero, Option.some.injEq] at hn
      subst hn
      obtain ⟨s, h1, h2⟩ := c.1 hs
      exact ⟨s, by rw [findTemplate, h1]; rfl, h2⟩
    | succ i =>
      have h0 : ¬ Same t n := hf.2 0 n (by omega) rfl
      obtain ⟨s, h1, h2⟩ := ih (fun n h => hne n (by simp [h])) (k + 1) i
        ⟨by simpa using hf.1, fun j m hj hm => hf.2 (j + 1) m (by omega) (by simpa using hm)⟩
      exact ⟨s, by rw [findTemplate, c.2 h0]; simp only [h1]; congr 2; omega, h2⟩

theorem findTemplate_none {p : Txt} (names : List Txt) (h : ∀ n ∈ names, strHasNextWord p n = none) :
    ∀ k, findTemplate p k names = none := by
  induction names with
  | nil => intro k; rfl
  | cons n names ih =>
    intro k
    rw [findTemplate, h n (by simp)]
    exact ih (fun n h' => h n (by simp [h'])) _

theorem asks_parse {p t : Txt} {ws rest : List Txt} {f : Flags} (h : Words p ws) (ha : Asks ws f t rest) :
    (parseFormat p).1 = f ∧ Words (parseFormat p).2 (t :: rest) := by
  cases ha with
  | plain _ _ hc => rw [parse_plain h hc]; exact ⟨rfl, h⟩
  | format w _ _ _ hc => exact parse_format h hc

/-! ### Theorems -/

/-- A parameter which asks for a known subcommand shows this one, in the format asked for, with the remaining words
as custom format unless the output is JSON; the callback decides about the result, and a headline always succeeds. -/
theorem C241_shows (p t : Txt) (ws rest names : List Txt) (f : Flags) (i : Nat) (cb : Nat → Int) (h : Words p ws)
    (ha : Asks ws f t rest) (hne : ∀ n ∈ names, n ≠ []) (hf : First names t i) :
    ∃ fmt, (callSub (some p) names cb).1 = some ⟨i, f, fmt⟩ ∧
      (f.json = true → fmt = none) ∧ (f.json = false → rest = [] → fmt = none) ∧
      (f.json = false → rest ≠ [] → ∃ s, fmt = some s ∧ Words s rest) ∧
      (f.head = true → (callSub (some p) names cb).2 = 0) ∧ (f.head = false → (callSub (some p) names cb).2 = cb i) := by
  obtain ⟨h1, h2⟩ := asks_parse h ha
  obtain ⟨s, h3, h4, h5⟩ := findTemplate_first h2 names hne 0 i hf
  rw [Nat.zero_add] at h3
  refine ⟨prepare f s, ?_, ?_, ?_, ?_, ?_, ?_⟩
  · simp only [callSub, h3, h1]
  · intro hj; simp [prepare, hj]
  · intro hj hr; simp [prepare, h5 hr]
  · intro hj hr
    have hs : s ≠ [] := by
      rintro rfl
      cases hr' : rest with
      | nil => exact hr hr'
      | cons a b =>
        rw [hr'] at h4
        generalize he : ([] : Txt) = e at h4
        cases h4 with
        | more b' w r ws hb hw hne' hr h =>
          have := congrArg List.length he
          simp only [List.length_nil, List.length_append] at this
          exact hne' (List.length_eq_zero_iff.mp (by omega))
    exact ⟨s, by simp [prepare, hj, hs], h4⟩
  · intro hh; simp only [callSub, h3, h1, hh, if_true]
  · intro hh; simp only [callSub, h3, h1, hh, Bool.false_eq_true, if_false]

/-- A parameter whose subcommand is not known shows nothing. -/
theorem C241_unknown (p t : Txt) (ws rest names : List Txt) (f : Flags) (cb : Nat → Int) (h : Words p ws)
    (ha : Asks ws f t rest) (hne : ∀ n ∈ names, n ≠ []) (hf : ∀ n ∈ names, ¬ Same t n) :
    handler (some p) names cb = ([.unknown p], false) := by
  obtain ⟨h1, h2⟩ := asks_parse h ha
  have h3 := findTemplate_none names (fun n hn => (hasNext_cases h2 n (hne n hn)).2 (hf n hn)) 0
  have hp : p ≠ [] := by
    rintro rfl
    generalize he : ([] : Txt) = e at h
    cases h with
    | none b hb => exact nomatch ha
    | more b' w r ws hb hw hne' hr h =>
      have := congrArg List.length he
      simp only [List.length_nil, List.length_append] at this
      exact hne' (List.length_eq_zero_iff.mp (by omega))
  simp [handler, callSub, h3, hp]

/-- A format without a subcommand shows nothing either. -/
theorem C241_format_only (p w : Txt) (names : List Txt) (f : Flags) (cb : Nat → Int) (h : Words p [w])
    (hc : Chooses w f) (hne : ∀ n ∈ names, n ≠ []) : callSub (some p) names cb = (none, 1) := by
  have h3 := findTemplate_none names (fun n hn => hasNext_blank (parse_format h hc).2 n (hne n hn)) 0
  simp only [callSub, h3]

/-- The handler shows at most one subcommand, and reports an internal error exactly if the callback of the one that
is shown fails. -/
theorem C241_result (param : Option Txt) (names : List Txt) (cb : Nat → Int) :
    ((handler param names cb).2 = true ↔
      ∃ s, (callSub param names cb).1 = some s ∧ s.flags.head = false ∧ cb s.index < 0) := by
  cases param with
  | none => simp [handler, callSub]
  | some p =>
    cases h : findTemplate (parseFormat p).2 0 names with
    | none => simp [handler, callSub, h]
    | some e =>
      obtain ⟨i, s⟩ := e
      cases hh : (parseFormat p).1.head with
      | true => simp [handler, callSub, h, hh]
      | false =>
        simp only [handler, callSub, h, hh, Bool.false_eq_true, if_false, Option.some.injEq]
        by_cases h0 : cb i = 0
        · simp [h0, hh]
        · by_cases h1 : cb i < 0
          · simp [h0, h1, hh]
          · simp [h0, h1, hh]

/-- A missing parameter is reported, but the handler goes on and reports it a second time as unknown: with NULL for
`%s` when there is none at all. -/
theorem C241_missing_counterexample (names : List Txt) (cb : Nat → Int) (hne : ∀ n ∈ names, n ≠ []) :
    handler none names cb = ([.needsParameter, .unknownNull], false) ∧
    handler (some []) names cb = ([.needsParameter, .unknown []], false) := by
  have hb : Words [] [] := Words.none [] (by simp)
  have h0 : parseFormat [] = ({}, []) := by decide
  have h3 := findTemplate_none names (fun n hn => hasNext_blank hb n (hne n hn)) 0
  constructor
  · rfl
  · simp [handler, callSub, h0, h3]

/-- Subcommands with the name of a format cannot be called without a format in front. -/
theorem C241_hidden (p w : Txt) (names : List Txt) (f : Flags) (cb : Nat → Int) (h : Words p [w]) (hc : Chooses w f)
    (hne : ∀ n ∈ names, n ≠ []) : handler (some p) names cb = ([.unknown p], false) := by
  have hp : p ≠ [] := by
    rintro rfl
    generalize he : ([] : Txt) = e at h
    cases h with
    | more b' w r ws hb hw hne' hr h =>
      have := congrArg List.length he
      simp only [List.length_nil, List.length_append] at this
      exact hne' (List.length_eq_zero_iff.mp (by omega))
  simp [handler, C241_format_only p w names f cb h hc hne, hp]

theorem findHelp_first (p : Txt) (names : List Txt) : ∀ k i, names[i]? = some p → (∀ j, j < i → names[j]? ≠ some p) →
    findHelp p k names = some (k + i) := by
  induction names with
  | nil => intro k i h; exact nomatch h
  | cons n names ih =>
    intro k i h hf
    cases i with
    | zero =>
      simp only [List.getElem?_cons_zero, Option.some.injEq] at h
      simp [findHelp, h]
    | succ i =>
      have h0 : p ≠ n := fun e => hf 0 (by omega) (by simp [e])
      rw [findHelp, if_neg h0, ih (k + 1) i (by simpa using h) (fun j hj => by simpa using hf (j + 1) (by omega))]
      congr 1; omega

theorem findHelp_none (p : Txt) (names : List Txt) (h : p ∉ names) : ∀ k, findHelp p k names = none := by
  induction names with
  | nil => intro k; rfl
  | cons n names ih =>
    intro k
    simp only [List.mem_cons, not_or] at h
    rw [findHelp, if_neg h.1]
    exact ih h.2 _

/-- The help: with the command alone all subcommands are listed; with the exact name of a subcommand behind it the
keys of the first one with this name; otherwise the rest is reported as unknown. -/
theorem C241_help_partial (cmd p : Txt) (names : List Txt) (hc : cmd ≠ []) :
    (∀ w, Words p [w] → Same w cmd → telnetHelp cmd (some p) names = .overview) ∧
    (∀ s i, strHasNextWord p cmd = some s → s ≠ [] → names[i]? = some s → (∀ j, j < i → names[j]? ≠ some s) →
      telnetHelp cmd (some p) names = .keys i) ∧
    (∀ s, strHasNextWord p cmd = some s → s ≠ [] → s ∉ names → telnetHelp cmd (some p) names = .unknown s) := by
  refine ⟨?_, ?_, ?_⟩
  · intro w h hs
    obtain ⟨s, h1, _, h3⟩ := (hasNext_cases h cmd hc).1 hs
    simp [telnetHelp, h1, h3 rfl, printHelp]
  · intro s i h1 hs h2 h3
    simp [telnetHelp, h1, printHelp, hs, findHelp_first s names 0 i h2 h3]
  · intro s h1 hs h2
    simp [telnetHelp, h1, printHelp, hs, findHelp_none s names h2]

/-- Without a parameter, or with one that does not begin with the command, all subcommands are listed. -/
theorem C241_overview (cmd p w : Txt) (ws names : List Txt) (hc : cmd ≠ []) :
    telnetHelp cmd none names = .overview ∧
    (Words p (w :: ws) → ¬ Same w cmd → telnetHelp cmd (some p) names = .overview) := by
  refine ⟨rfl, fun h hs => ?_⟩
  simp [telnetHelp, (hasNext_cases h cmd hc).2 hs, printHelp]

/-- Not every subcommand that can be called has help: a name in another letter case, or with a blank behind it, is
called but is unknown to the help. -/
theorem C241_help_counterexample :
    (callSub (some (word "LINK")) [word "link"] (fun _ => 0)).1.isSome = true ∧
    telnetHelp (word "nhdpinfo") (some (word "nhdpinfo LINK")) [word "link"] = .unknown (word "LINK") ∧
    (callSub (some (word "link ")) [word "link"] (fun _ => 0)).1.isSome = true ∧
    telnetHelp (word "nhdpinfo") (some (word "nhdpinfo link ")) [word "link"] = .unknown (word "link ") := by
  decide +kernel

/-! ### Examples -/

example : telnetHelp (word "nhdpinfo") (some (word "nhdpinfo link")) [word "if", word "link"] = .keys 1 ∧
    telnetHelp (word "nhdpinfo") (some (word "nhdpinfo")) [word "link"] = .overview ∧
    strHasNextWord (word "nhdpinfo link") (word "nhdpinfo") = some (word "link") := by decide +kernel

def names : List Txt := [word "link", word "neighbor"]

example : (callSub (some (word " JSON  Neighbor %a% ")) names (fun _ => 0)).1
    = some ⟨1, ⟨false, true, false, false⟩, none⟩ := by decide +kernel

example : (callSub (some (word "link %a% b")) names (fun _ => 0)).1
    = some ⟨0, ⟨false, false, false, false⟩, some (word "%a% b")⟩ := by decide +kernel

example : Words (word "raw link") [word "raw", word "link"] :=
  .more [] (word "raw") (word " link") _ (by decide) (by decide) (by decide) (by decide)
    (.more [32] (word "link") [] _ (by decide) (by decide) (by decide) (by decide) (.none [] (by decide)))

example : Asks [word "raw", word "link"] ⟨false, false, true, false⟩ (word "link") [] ∧ First names (word "LINK") 0 ∧
    (∀ n ∈ names, n ≠ []) :=
  ⟨.format _ _ _ _ (.raw rfl), ⟨⟨word "link", rfl, by simp only [Same]; decide +kernel⟩, fun j n hj => absurd hj (by omega)⟩, by decide⟩

example : (∀ n ∈ names, ¬ Same (word "links") n) := by
  intro n hn
  simp only [Same]
  revert n
  decide

example : handler (some (word "json")) names (fun _ => 0) = ([.unknown (word "json")], false) := by decide +kernel

example : (handler (some (word "raw link")) names (fun _ => -1)).2 = true ∧
    (handler (some (word "head link")) names (fun _ => -1)).2 = false := by decide +kernel

example : ¬ Same (word "raw") (word "nhdpinfo") ∧
    telnetHelp (word "nhdpinfo") (some (word "raw link")) names = .overview := by
  simp only [Same]
  decide +kernel

end Verif.Viewer
