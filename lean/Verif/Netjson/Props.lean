import Verif.Netjson.Model
import Verif.Viewer.Props
/-
C242: the command netjsoninfo. Words, letter case and `word` as in C241.
-/
namespace Verif.Netjson

open Verif.Str (strHasNextWord strSkipNextWord Words skipNext_spec C55_words_exist toLower)
open Verif.Viewer (Same word hasNext_cases hasNext_blank)

/-! ### Specification -/

/-- What one word of a collection asks for. -/
inductive Asks (w : Txt) : Option Obj → Prop
  | graph : Same w (word "graph") → Asks w (some (.graph none))
  | route : Same w (word "route") → Asks w (some (.route none))
  | domain : Same w (word "domain") → Asks w (some .domain)
  | unknown : ¬ Same w (word "graph") → ¬ Same w (word "route") → ¬ Same w (word "domain") → Asks w none

/-- The objects the words ask for, in order, and whether a word is unknown. -/
inductive Collects : List Txt → List Obj → Bool → Prop
  | nil : Collects [] [] false
  | known (w o ws os b) : Asks w (some o) → Collects ws os b → Collects (w :: ws) (o :: os) b
  | unknown (w ws os b) : Asks w none → Collects ws os b → Collects (w :: ws) os true

/-! ### Lemmas -/

theorem words_ne {p w : Txt} {ws : List Txt} (h : Words p (w :: ws)) : p ≠ [] := by
  rintro rfl
  generalize he : ([] : Txt) = e at h
  cases h with
  | more b' w r ws hb hw hne' hr h =>
    have := congrArg List.length he
    simp only [List.length_nil, List.length_append] at this
    exact hne' (List.length_eq_zero_iff.mp (by omega))

theorem not_same {w a b : Txt} (h : Same w a) (hab : a.map toLower ≠ b.map toLower) : ¬ Same w b :=
  fun h' => hab (h.symm.trans h')

/-- The text for the next turn of the loop holds these words. -/
def Next (n : Option Txt) (ws : List Txt) : Prop :=
  (n = none ∧ ws = []) ∨ ∃ p, n = some p ∧ Words p ws ∧ (ws = [] → p = [])

theorem object_spec {p w : Txt} {ws : List Txt} (h : Words p (w :: ws)) {o : Option Obj} (ha : Asks w o) :
    (handleObject p false).1 = o.toList ∧ (handleObject p false).2.2 = o.isNone ∧
      Next (handleObject p false).2.1 ws := by
  have hg := hasNext_cases h graphName (by decide)
  have hr := hasNext_cases h routeName (by decide)
  have hd := hasNext_cases h domainName (by decide)
  cases ha with
  | graph hs =>
    obtain ⟨s, e, h2, h3⟩ := hg.1 hs
    simp only [handleObject, e]
    exact ⟨rfl, rfl, Or.inr ⟨s, rfl, h2, h3⟩⟩
  | route hs =>
    obtain ⟨s, e, h2, h3⟩ := hr.1 hs
    simp only [handleObject, hg.2 (not_same hs (by decide)), e]
    exact ⟨rfl, rfl, Or.inr ⟨s, rfl, h2, h3⟩⟩
  | domain hs =>
    obtain ⟨s, e, h2, h3⟩ := hd.1 hs
    simp only [handleObject, hg.2 (not_same hs (by decide)), hr.2 (not_same hs (by decide)), e, Bool.false_eq_true,
      if_false]
    exact ⟨rfl, rfl, Or.inr ⟨s, rfl, h2, h3⟩⟩
  | unknown h1 h2 h3 =>
    simp only [handleObject, hg.2 h1, hr.2 h2, hd.2 h3, Bool.false_eq_true, if_false]
    refine ⟨rfl, rfl, ?_⟩
    have hk := skipNext_spec h
    by_cases hw : ws = []
    · exact Or.inl ⟨hk.1 hw, hw⟩
    · obtain ⟨s', e, h4, _⟩ := hk.2 hw
      exact Or.inr ⟨s', e, h4, fun e => absurd e hw⟩

theorem loop_spec {ws : List Txt} {os : List Obj} {b : Bool} (hc : Collects ws os b) :
    ∀ n fuel, Next n ws → ws.length < fuel → loop fuel n = some (os, b) := by
  have step : ∀ (w : Txt) (ws : List Txt) (o : Option Obj) (os : List Obj) (b : Bool), Asks w o →
      (∀ n fuel, Next n ws → ws.length < fuel → loop fuel n = some (os, b)) →
      ∀ n fuel, Next n (w :: ws) → (w :: ws).length < fuel → loop fuel n = some (o.toList ++ os, o.isNone || b) := by
    intro w ws o os b ha ih n fuel hn hf
    cases fuel with
    | zero => omega
    | succ fuel =>
      rcases hn with ⟨_, h⟩ | ⟨p, rfl, hp, _⟩
      · exact nomatch h
      · obtain ⟨h1, h2, h3⟩ := object_spec hp ha
        have h4 := ih _ fuel h3 (by simp only [List.length_cons] at hf; omega)
        simp only [loop, words_ne hp, if_false, h4, Option.map_some, h1, h2]
  induction hc with
  | nil =>
    intro n fuel hn hf
    cases fuel with
    | zero => omega
    | succ fuel =>
      rcases hn with ⟨rfl, _⟩ | ⟨p, rfl, _, h⟩
      · rfl
      · rw [h rfl]; rfl
  | known w o ws os b ha _ ih => exact step w ws (some o) os b ha ih
  | unknown w ws os b ha _ ih => exact step w ws none os b ha ih

/-! ### Theorems -/

/-- Every list of words asks for exactly one list of objects. -/
theorem C242_spec_total (ws : List Txt) : ∃ os b, Collects ws os b := by
  induction ws with
  | nil => exact ⟨[], false, .nil⟩
  | cons w ws ih =>
    obtain ⟨os, b, h⟩ := ih
    by_cases h1 : Same w (word "graph")
    · exact ⟨_, _, .known w _ ws os b (.graph h1) h⟩
    · by_cases h2 : Same w (word "route")
      · exact ⟨_, _, .known w _ ws os b (.route h2) h⟩
      · by_cases h3 : Same w (word "domain")
        · exact ⟨_, _, .known w _ ws os b (.domain h3) h⟩
        · exact ⟨_, _, .unknown w ws os b (.unknown h1 h2 h3) h⟩

/-- Without the filter the command prints a collection: one object for each known word, in the order of the words,
and at the end one error exactly if there is an unknown word. The loop needs one turn for each word. -/
theorem C242_collection (p w : Txt) (ws : List Txt) (os : List Obj) (b : Bool) (fuel : Nat) (h : Words p (w :: ws))
    (hn : ¬ Same w (word "filter")) (hc : Collects (w :: ws) os b) (hf : ws.length + 1 < fuel) :
    command fuel (some p) = some (.collection (os ++ if b then [.error p] else [])) := by
  have h1 := (hasNext_cases h filterName (by decide)).2 hn
  have h2 := loop_spec hc (some p) fuel (Or.inr ⟨p, rfl, h, fun e => nomatch e⟩) (by simpa using hf)
  simp only [command, words_ne h, if_false, h1, h2, Option.map_some]

/-- With the filter there is one graph or one list of routes, with the remaining words as filter; everything else, also
domains, is an error which quotes the words behind the filter. -/
theorem C242_filter (p f w : Txt) (ws : List Txt) (fuel : Nat) (h : Words p (f :: w :: ws))
    (hf : Same f (word "filter")) :
    (Same w (word "graph") → ∃ s, Words s ws ∧ command fuel (some p) = some (.plain [.graph (some s)])) ∧
    (Same w (word "route") → ∃ s, Words s ws ∧ command fuel (some p) = some (.plain [.route (some s)])) ∧
    (¬ Same w (word "graph") → ¬ Same w (word "route") →
      ∃ s, Words s (w :: ws) ∧ command fuel (some p) = some (.plain [.error s])) := by
  obtain ⟨t, e, ht, _⟩ := (hasNext_cases h filterName (by decide)).1 hf
  have hg := hasNext_cases ht graphName (by decide)
  have hr := hasNext_cases ht routeName (by decide)
  refine ⟨?_, ?_, ?_⟩
  · intro hs
    obtain ⟨s, e2, h2, _⟩ := hg.1 hs
    exact ⟨s, h2, by simp [command, words_ne h, e, handleFilter, handleObject, e2]⟩
  · intro hs
    obtain ⟨s, e2, h2, _⟩ := hr.1 hs
    exact ⟨s, h2, by simp [command, words_ne h, e, handleFilter, handleObject, hg.2 (not_same hs (by decide)), e2]⟩
  · intro h1 h2
    exact ⟨t, ht, by simp [command, words_ne h, e, handleFilter, handleObject, hg.2 h1, hr.2 h2]⟩

/-- Without a parameter nothing is printed, not even an empty collection. -/
theorem C242_nothing (fuel : Nat) : command fuel none = some .nothing ∧ command fuel (some []) = some .nothing :=
  ⟨rfl, rfl⟩

/-- A parameter of blanks is an error, although no word of it is unknown. -/
theorem C242_blank_counterexample (p : Txt) (fuel : Nat) (h : Words p []) (hp : p ≠ []) (hf : 1 < fuel) :
    command fuel (some p) = some (.collection [.error p]) := by
  have hb : ∀ c ∈ p, Str.isBlank c = true := by cases h with | none _ hb => exact hb
  have hsk : strSkipNextWord p = none := by
    have e : Str.skipBlank p = [] := Str.skipBlank_blank p hb
    unfold strSkipNextWord
    rw [e]
    rfl
  have ho : handleObject p false = ([], none, true) := by
    simp [handleObject, hasNext_blank h graphName (by decide), hasNext_blank h routeName (by decide),
      hasNext_blank h domainName (by decide), hsk]
  obtain ⟨k, rfl⟩ : ∃ k, fuel = k + 2 := ⟨fuel - 2, by omega⟩
  simp [command, hp, hasNext_blank h filterName (by decide), loop, ho]

/-- The command ends for every parameter. -/
theorem C242_ends (param : Option Txt) : ∃ fuel out, ∀ k, fuel ≤ k → command k param = some out := by
  cases param with
  | none => exact ⟨0, .nothing, fun _ _ => rfl⟩
  | some p =>
    by_cases hp : p = []
    · subst hp; exact ⟨0, .nothing, fun _ _ => rfl⟩
    · obtain ⟨ws, h⟩ := C55_words_exist p
      cases ws with
      | nil => exact ⟨2, _, fun k hk => C242_blank_counterexample p k h hp (by omega)⟩
      | cons w ws =>
        by_cases hs : Same w (word "filter")
        · obtain ⟨t, e, _⟩ := (hasNext_cases h filterName (by decide)).1 hs
          exact ⟨0, .plain (handleFilter t), fun k _ => by simp [command, hp, e]⟩
        · obtain ⟨os, b, hc⟩ := C242_spec_total (w :: ws)
          exact ⟨ws.length + 2, _, fun k hk => C242_collection p w ws os b k h hs hc (by omega)⟩

/-! ### Examples -/

example : command 9 (some (word " Route  foo graph domain ")) =
    some (.collection [.route none, .graph none, .domain, .error (word " Route  foo graph domain ")]) := by
  decide +kernel

example : command 9 (some (word "filter graph ipv4 0")) = some (.plain [.graph (some (word "ipv4 0"))]) ∧
    command 9 (some (word "filter domain")) = some (.plain [.error (word "domain")]) := by decide +kernel

example : Collects [word "graph", word "x"] [.graph none] true ∧ ¬ Same (word "graph") (word "filter") := by
  refine ⟨.known _ _ _ _ _ (.graph rfl) (.unknown _ _ _ _ (.unknown ?_ ?_ ?_) .nil), ?_⟩ <;>
    (simp only [Same]; decide)

example : Words (word "graph x") [word "graph", word "x"] :=
  .more [] (word "graph") (word " x") _ (by decide) (by decide) (by decide) (by decide)
    (.more [32] (word "x") [] _ (by decide) (by decide) (by decide) (by decide) (.none [] (by decide)))

example : Words (word "  ") [] ∧ command 5 (some (word "  ")) = some (.collection [.error (word "  ")]) :=
  ⟨.none _ (by decide), by decide +kernel⟩

end Verif.Netjson
