import Verif.CfgBin.Model
import Verif.Str.Props
/-
C112: values made of words separated by blanks: every word is checked and converted by its own
entry, the last entry gets the rest of the text.
-/
namespace Verif.CfgBin
open Verif.Str (Words strCpyNextWord strCountWords skipBlank isBlank)

/-! ### Specification -/

/-- the text behind the first `k` words and the blanks that follow them -/
inductive Behind : Nat → Txt → Txt → Prop
  | zero (s) : Behind 0 s s
  | succ {k b w b' r t} : (∀ c ∈ b, isBlank c = true) → (∀ c ∈ w, isBlank c = false) → w ≠ [] →
      (∀ c ∈ b', isBlank c = true) → b' ≠ [] → (∀ c, r.head? = some c → isBlank c = false) →
      Behind k r t → Behind (k + 1) (b ++ (w ++ (b' ++ r))) t

/-! ### Lemmas -/

theorem skipBlank_head (s : Txt) (c : UInt8) (h : (skipBlank s).head? = some c) : isBlank c = false := by
  induction s with
  | nil => cases h
  | cons x xs ih =>
    unfold Str.skipBlank at h ih
    rw [List.dropWhile_cons] at h
    cases hb : isBlank x with
    | true => rw [hb, if_pos rfl] at h; exact ih h
    | false =>
      rw [hb] at h
      simp only [Bool.false_eq_true, if_false, List.head?_cons, Option.some.injEq] at h
      rw [← h]; exact hb

/-- one step: copying the next word of a text with at least two words -/
theorem next_word {s w w2 ws} (h : Words s (w :: w2 :: ws)) (hl : w.length < 256) :
    ∃ r, strCpyNextWord 256 (some s) = (w, some r) ∧ Words r (w2 :: ws) ∧
      ∀ k t, Behind k r t → Behind (k + 1) s t := by
  cases h with
  | more b w r ws hb hw hne hr h =>
    have hs : skipBlank r ≠ [] := fun hn => by simpa using (Str.skip_empty_iff h).1 hn
    refine ⟨skipBlank r, ?_, Str.words_skip h, ?_⟩
    · simp only [strCpyNextWord, Str.skipBlank_more b w r hb hw hne]
      rw [Str.cpyLoop_word w r (256 - 1) hw hr (by omega)]
      simp [hs]
    · intro k t hk
      have e : r = r.takeWhile isBlank ++ skipBlank r := List.takeWhile_append_dropWhile.symm
      have hb' : r.takeWhile isBlank ≠ [] := by
        cases r with
        | nil => exact absurd rfl hs
        | cons x xs =>
          rw [List.takeWhile_cons, hr x (by simp), if_pos rfl]
          simp
      have := Behind.succ (k := k) (t := t) hb hw hne (fun c hc => Str.mem_takeWhile' hc) hb'
        (skipBlank_head r) hk
      rw [← e] at this
      exact this

/-- copying the last word -/
theorem last_word {s w} (h : Words s [w]) (hl : w.length < 256) :
    strCpyNextWord 256 (some s) = (w, none) := by
  have := Str.C55_copy_next 256 h hl
  exact Prod.ext this.1 (this.2.1 rfl)

theorem behind_exists : ∀ (ws : List Txt) (s : Txt) (w : Txt), Words s (ws ++ [w]) →
    (∀ x ∈ ws, x.length < 256) → ∃ t, Behind ws.length s t ∧ Words t [w] := by
  intro ws
  induction ws with
  | nil => intro s w h _; exact ⟨s, .zero s, h⟩
  | cons x xs ih =>
    intro s w h hl
    obtain ⟨y, ys, e⟩ := List.exists_cons_of_ne_nil (show xs ++ [w] ≠ [] by simp)
    rw [List.cons_append, e] at h
    obtain ⟨r, _, h2, h3⟩ := next_word h (hl x (by simp))
    rw [← e] at h2
    obtain ⟨t, h4, h5⟩ := ih r w h2 (fun z hz => hl z (by simp [hz]))
    exact ⟨t, h3 _ _ h4, h5⟩

/-- the validation loop over the words in front of the last one -/
theorem vloop_spec : ∀ (ws : List Txt) (s w : Txt) (es : List (Txt → Bool)), Words s (ws ++ [w]) →
    (∀ x ∈ ws, x.length < 256) →
    ∃ t, Behind ws.length s t ∧ Words t [w] ∧
    vloop es ws.length (some s) =
      if ∀ p ∈ (es.zip ws), p.1 p.2 = true then
        if ws.length ≤ es.length then .done (es.drop ws.length) (some t) else .fault
      else .reject := by
  intro ws
  induction ws with
  | nil =>
    intro s w es h _
    refine ⟨s, .zero s, h, ?_⟩
    rw [if_pos (by simp), if_pos (by simp)]
    cases es <;> rfl
  | cons x xs ih =>
    intro s w es h hl
    obtain ⟨y, ys, e⟩ := List.exists_cons_of_ne_nil (show xs ++ [w] ≠ [] by simp)
    rw [List.cons_append, e] at h
    obtain ⟨r, h1, h2, h3⟩ := next_word h (hl x (by simp))
    rw [← e] at h2
    cases es with
    | nil =>
      obtain ⟨t, h4, h5, _⟩ := ih r w [] h2 (fun z hz => hl z (by simp [hz]))
      exact ⟨t, h3 _ _ h4, h5, by simp [vloop]⟩
    | cons e es =>
      obtain ⟨t, h4, h5, h6⟩ := ih r w es h2 (fun z hz => hl z (by simp [hz]))
      refine ⟨t, h3 _ _ h4, h5, ?_⟩
      rw [List.length_cons, vloop, h1]
      dsimp only
      cases he : e x with
      | false =>
        simp only [Bool.false_eq_true, if_false]
        rw [if_neg]
        intro hall
        have := hall (e, x) (by simp)
        simp only at this
        rw [he] at this; cases this
      | true =>
        simp only [if_true]
        rw [h6]
        simp only [List.zip_cons_cons, List.forall_mem_cons, he, true_and, List.length_cons,
          Nat.add_le_add_iff_right, List.drop_succ_cons]

/-! ### C112 -/

/-- **C112** (validation): a value of at least one and at most as many words as there are entries is
accepted exactly if at most the optional words are missing, every word but the last one is accepted
by the entry of its position, the rest of the text behind these words is accepted by the entry of
the last word, and the additional check (if there is one) accepts the value. -/
theorem C112_validate_partial (entries : List (Txt → Bool)) (optional : Nat) (custom : Option (Txt → Bool))
    (value : Txt) (ws : List Txt) (w : Txt) (h : Words value (ws ++ [w]))
    (hl : ∀ x ∈ ws, x.length < 256) (hopt : optional ≤ entries.length) (hn : entries.length < 2 ^ 32)
    (hmax : ws.length + 1 ≤ entries.length) :
    ∃ t, Behind ws.length value t ∧ Words t [w] ∧
    ∃ b, validateTokens entries optional custom value = some b ∧
    (b = true ↔ entries.length ≤ ws.length + 1 + optional ∧
      (∀ (i : Nat) (x : Txt) (e : Txt → Bool), ws[i]? = some x → entries[i]? = some e → e x = true) ∧
      (∀ e, entries[ws.length]? = some e → e t = true) ∧
      (∀ f, custom = some f → f value = true)) := by
  obtain ⟨t, h1, h2, h3⟩ := vloop_spec ws value w entries h hl
  refine ⟨t, h1, h2, ?_⟩
  have hcount : strCountWords value = ws.length + 1 := by
    rw [Str.C55_count h]; simp
  have hzip : (∀ p ∈ (entries.zip ws), p.1 p.2 = true) ↔
      (∀ (i : Nat) (x : Txt) (e : Txt → Bool), ws[i]? = some x → entries[i]? = some e → e x = true) := by
    constructor
    · intro hall i x e hx he
      exact hall (e, x) (List.mem_of_getElem? (i := i) (by rw [List.getElem?_zip_eq_some]; exact ⟨he, hx⟩))
    · intro hall p hp
      obtain ⟨i, hi⟩ := List.mem_iff_getElem?.1 hp
      rw [List.getElem?_zip_eq_some] at hi
      exact hall i p.2 p.1 hi.2 hi.1
  have hW : IsoNum.W = 2 ^ 64 := rfl
  unfold validateTokens
  rw [hcount]
  have e1 : (entries.length + IsoNum.W - optional) % IsoNum.W = entries.length - optional := by
    rw [hW, show entries.length + 2 ^ 64 - optional = entries.length - optional + 2 ^ 64 by omega,
      Nat.add_mod_right, Nat.mod_eq_of_lt (by omega)]
  have e2 : (ws.length + 1 + 2 ^ 32 - 1) % 2 ^ 32 = ws.length := by
    rw [show ws.length + 1 + 2 ^ 32 - 1 = ws.length + 2 ^ 32 by omega, Nat.add_mod_right,
      Nat.mod_eq_of_lt (by omega)]
  simp only [e1, e2, h3]
  by_cases hc : ws.length + 1 < entries.length - optional
  · rw [if_pos hc]
    exact ⟨false, rfl, by simp; omega⟩
  · rw [if_neg hc]
    by_cases hz : ∀ p ∈ (entries.zip ws), p.1 p.2 = true
    · rw [if_pos hz, if_pos (by omega)]
      have hd : entries.drop ws.length = entries[ws.length] :: entries.drop (ws.length + 1) :=
        List.drop_eq_getElem_cons (by omega)
      rw [hd]
      dsimp only
      have hg : entries[ws.length]? = some entries[ws.length] := List.getElem?_eq_getElem (by omega)
      have hz' := hzip.1 hz
      cases he : entries[ws.length] t with
      | false =>
        simp only [Bool.not_false, if_true]
        refine ⟨false, rfl, ?_⟩
        simp only [Bool.false_eq_true, false_iff]
        rintro ⟨_, _, h4, _⟩
        rw [h4 _ hg] at he; cases he
      | true =>
        have hlast : ∀ e, entries[ws.length]? = some e → e t = true := by
          intro e h; rw [hg] at h; cases h; exact he
        simp only [Bool.not_true, Bool.false_eq_true, if_false]
        cases custom with
        | none =>
          exact ⟨true, rfl, by simp only [true_iff]; exact ⟨by omega, hz', hlast, by simp⟩⟩
        | some f =>
          refine ⟨f value, rfl, ?_⟩
          constructor
          · intro hf; exact ⟨by omega, hz', hlast, by intro g hg; cases hg; exact hf⟩
          · rintro ⟨_, _, _, h4⟩; exact h4 f rfl
    · rw [if_neg hz]
      refine ⟨false, rfl, ?_⟩
      simp only [Bool.false_eq_true, false_iff]
      rintro ⟨_, h4, _⟩
      exact hz (hzip.2 h4)

/-- **C112** is false for a value with more words than entries: if the entries accept their words,
the validation goes on behind the end of the array of entries, instead of handing the rest of the
text to the last entry. -/
theorem C112_extra_word_counterexample (entries : List (Txt → Bool)) (optional : Nat)
    (custom : Option (Txt → Bool)) (value : Txt) (ws : List Txt) (w : Txt) (h : Words value (ws ++ [w]))
    (hl : ∀ x ∈ ws, x.length < 256) (hopt : optional ≤ entries.length) (hn : ws.length + 1 < 2 ^ 32)
    (hmore : entries.length < ws.length + 1)
    (hacc : ∀ (i : Nat) (x : Txt) (e : Txt → Bool), ws[i]? = some x → entries[i]? = some e → e x = true) :
    validateTokens entries optional custom value = none := by
  obtain ⟨t, h1, h2, h3⟩ := vloop_spec ws value w entries h hl
  have hcount : strCountWords value = ws.length + 1 := by
    rw [Str.C55_count h]; simp
  have hW : IsoNum.W = 2 ^ 64 := rfl
  have hz : ∀ p ∈ (entries.zip ws), p.1 p.2 = true := by
    intro p hp
    obtain ⟨i, hi⟩ := List.mem_iff_getElem?.1 hp
    rw [List.getElem?_zip_eq_some] at hi
    exact hacc i p.2 p.1 hi.2 hi.1
  unfold validateTokens
  rw [hcount]
  have e1 : (entries.length + IsoNum.W - optional) % IsoNum.W = entries.length - optional := by
    rw [hW, show entries.length + 2 ^ 64 - optional = entries.length - optional + 2 ^ 64 by omega,
      Nat.add_mod_right, Nat.mod_eq_of_lt (by omega)]
  have e2 : (ws.length + 1 + 2 ^ 32 - 1) % 2 ^ 32 = ws.length := by
    rw [show ws.length + 1 + 2 ^ 32 - 1 = ws.length + 2 ^ 32 by omega, Nat.add_mod_right,
      Nat.mod_eq_of_lt (by omega)]
  simp only [e1, e2, h3]
  rw [if_neg (by omega), if_pos hz]
  by_cases hle : ws.length ≤ entries.length
  · rw [if_pos hle]
    have : entries.length = ws.length := by omega
    rw [List.drop_eq_nil_of_le (by omega)]
  · rw [if_neg hle]

/-- the conversion loop while there are words -/
theorem tloop_words : ∀ (es : List Token) (i : Nat) (ws : List Txt) (s v : Txt) (rest : List Txt),
    Words s (ws ++ v :: rest) →
    (∀ x ∈ ws, x.length < 256) → es.length = ws.length →
    (∀ (k : Nat) (x : Txt) (e : Token), ws[k]? = some x → es[k]? = some e → e.conv x = true) →
    ∃ t, Behind ws.length s t ∧ Words t (v :: rest) ∧
      tloop i es (some s) = some (some t, (List.range' i ws.length).zip ws) := by
  intro es
  induction es with
  | nil =>
    intro i ws s v rest h _ hlen _
    have : ws = [] := List.length_eq_zero_iff.1 hlen.symm
    subst this
    exact ⟨s, .zero s, h, rfl⟩
  | cons e es ih =>
    intro i ws s v rest h hl hlen hc
    cases ws with
    | nil => simp at hlen
    | cons x xs =>
      obtain ⟨y, ys, ey⟩ := List.exists_cons_of_ne_nil (show xs ++ v :: rest ≠ [] by simp)
      rw [List.cons_append, ey] at h
      obtain ⟨r, h1, h2, h3⟩ := next_word h (hl x (by simp))
      rw [← ey] at h2
      obtain ⟨t, h4, h5, h6⟩ := ih (i + 1) xs r v rest h2 (fun z hz => hl z (by simp [hz])) (by simpa using hlen)
        (fun k x e hx he => hc (k + 1) x e (by simpa using hx) (by simpa using he))
      refine ⟨t, h3 _ _ h4, h5, ?_⟩
      simp only [tloop, nextParam, h1, hc 0 x e rfl rfl, h6]
      simp [List.range'_succ]

/-- the conversion loop behind the last word: the defaults -/
theorem tloop_default : ∀ (es : List Token) (i : Nat), (∀ e ∈ es, e.conv e.dflt = true) →
    tloop i es none = some (none, (List.range' i es.length).zip (es.map (·.dflt))) := by
  intro es
  induction es with
  | nil => intro i _; rfl
  | cons e es ih =>
    intro i h
    simp only [tloop, nextParam, h e (by simp), ih (i + 1) (fun x hx => h x (by simp [hx]))]
    simp [List.range'_succ]

theorem tloop_append : ∀ (es fs : List Token) (i : Nat) (n : Option Txt),
    tloop i (es ++ fs) n = match tloop i es n with
      | none => none
      | some (m, l) => match tloop (i + es.length) fs m with
        | none => none
        | some (m', l') => some (m', l ++ l') := by
  intro es
  induction es with
  | nil =>
    intro fs i n
    simp only [List.nil_append, tloop, List.length_nil, Nat.add_zero]
    cases tloop i fs n with
    | none => rfl
    | some p => rfl
  | cons e es ih =>
    intro fs i n
    rw [List.cons_append, tloop.eq_def, tloop.eq_def i (e :: es)]
    dsimp only
    generalize nextParam e n = r
    cases e.conv r.1 with
    | false => simp
    | true =>
      simp only [Bool.not_true, Bool.false_eq_true, if_false]
      rw [ih, List.length_cons, show i + 1 + es.length = i + (es.length + 1) by omega]
      cases tloop (i + 1) es r.2 with
      | none => rfl
      | some p =>
        obtain ⟨m, l⟩ := p
        dsimp only
        cases tloop (i + (es.length + 1)) fs m with
        | none => rfl
        | some p => rfl

/-- **C112** (conversion): a value with at least as many words as entries is converted by giving every
entry its word, and the last one the whole rest of the text. -/
theorem C112_convert (es : List Token) (e : Token) (value : Txt) (ws : List Txt) (v : Txt)
    (rest : List Txt) (h : Words value (ws ++ v :: rest)) (hl : ∀ x ∈ ws, x.length < 256)
    (hlen : es.length = ws.length)
    (hc : ∀ (k : Nat) (x : Txt) (e : Token), ws[k]? = some x → es[k]? = some e → e.conv x = true) :
    ∃ t, Behind ws.length value t ∧ Words t (v :: rest) ∧
      tobinTokens (es ++ [e]) value =
        if e.conv t then some ((List.range ws.length).zip ws ++ [(ws.length, t)]) else none := by
  obtain ⟨t, h1, h2, h3⟩ := tloop_words es 0 ws value v rest h hl hlen hc
  refine ⟨t, h1, h2, ?_⟩
  unfold tobinTokens
  rw [List.dropLast_concat, h3]
  simp only [List.getLast?_concat, List.length_append, List.length_singleton, Nat.add_sub_cancel, hlen,
    List.range_eq_range']
  cases e.conv t <;> simp

/-- **C112** is false for optional words: if words are missing, the entries of the missing words get
their defaults, except for the last entry, which gets nothing at all - its default is never used. -/
theorem C112_last_default_counterexample (es fs : List Token) (e : Token) (value : Txt) (ws : List Txt)
    (v : Txt) (h : Words value (ws ++ [v])) (hl : ∀ x ∈ ws ++ [v], x.length < 256)
    (hlen : es.length = ws.length + 1)
    (hc : ∀ (k : Nat) (x : Txt) (e : Token), (ws ++ [v])[k]? = some x → es[k]? = some e → e.conv x = true)
    (hd : ∀ f ∈ fs, f.conv f.dflt = true) :
    tobinTokens (es ++ fs ++ [e]) value =
      some ((List.range (ws.length + 1 + fs.length)).zip (ws ++ [v] ++ fs.map (·.dflt))) ∧
    ∀ p ∈ (List.range (ws.length + 1 + fs.length)).zip (ws ++ [v] ++ fs.map (·.dflt)),
      p.1 ≠ (es ++ fs).length := by
  constructor
  · have hne : es ≠ [] := by intro h0; rw [h0] at hlen; simp at hlen
    have hes : es = es.dropLast ++ [es.getLast hne] := (List.dropLast_concat_getLast hne).symm
    have hdl : es.dropLast.length = ws.length := by rw [List.length_dropLast]; omega
    obtain ⟨t, h1, h2, h3⟩ := tloop_words es.dropLast 0 ws value v [] h (fun x hx => hl x (by simp [hx])) hdl (by
      intro k x e hx he
      have hk : k < ws.length := (List.getElem?_eq_some_iff.1 hx).1
      refine hc k x e (by rw [List.getElem?_append_left hk]; exact hx) ?_
      rw [hes, List.getElem?_append_left (by omega)]; exact he)
    have hlast : (es.getLast hne).conv v = true := by
      refine hc ws.length v _ (by simp) ?_
      rw [← List.getLast?_eq_some_getLast hne, List.getLast?_eq_getElem?]
      congr 1; omega
    have h4 : tloop 0 es (some value) = some (none, (List.range' 0 (ws.length + 1)).zip (ws ++ [v])) := by
      rw [hes, tloop_append, h3]
      dsimp only
      rw [hdl]
      have hw := last_word h2 (hl v (by simp))
      simp only [tloop, nextParam, hw, hlast, Bool.not_true, Bool.false_eq_true, if_false, Nat.zero_add]
      rw [List.range'_concat, List.zip_append (by simp)]
      simp
    unfold tobinTokens
    rw [List.dropLast_concat, tloop_append, h4]
    dsimp only
    rw [tloop_default fs _ hd]
    dsimp only
    rw [← List.zip_append (by simp)]
    congr 2
    rw [hlen, List.range_eq_range', Nat.zero_add]
    have := List.range'_append (s := 0) (m := ws.length + 1) (n := fs.length) (step := 1)
    simpa using this
  · intro p hp
    have := (List.of_mem_zip hp).1
    rw [List.mem_range] at this
    rw [List.length_append, hlen]
    omega

/-- accepts the words "a" and "b" -/
private def demoWord (t : Txt) : Bool := t == [97] || t == [98]

example : Words [97, 32, 98] ([[97]] ++ [[98]]) :=
  .more [] [97] [32, 98] _ (by simp) (by decide) (by simp) (by decide)
    (.more [32] [98] [] _ (by decide) (by decide) (by simp) (by simp) (.none [] (by simp)))
example : validateTokens [demoWord, demoWord] 0 none [97, 32, 98] = some true ∧
    validateTokens [demoWord, demoWord] 1 none [97] = some true ∧
    validateTokens [demoWord, demoWord] 0 none [97] = some false ∧
    validateTokens [demoWord, demoWord] 0 none [97, 32, 98, 32, 97] = none := by decide +kernel
example : tobinTokens [⟨demoWord, [98]⟩, ⟨fun _ => true, [98]⟩] [97, 32, 98, 32, 32, 97]
    = some [(0, [97]), (1, [98, 32, 32, 97])] ∧
    tobinTokens [⟨demoWord, [98]⟩, ⟨demoWord, [98]⟩, ⟨demoWord, [98]⟩] [97]
    = some [(0, [97]), (1, [98])] := by decide +kernel

end Verif.CfgBin
