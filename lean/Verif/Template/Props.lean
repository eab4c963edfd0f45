import Verif.Template.Model
/-
Property theorems for template expansion (C15).
-/
namespace Verif.Template

/-! ## Specification -/

/-- The format cut at its unescaped percent signs.  A percent sign is escaped by a preceding
backslash, unless that backslash is itself escaped (`esc` tells whether the text starts behind an
escaping backslash). -/
def pieces (esc : Bool) : Txt → List Txt
  | [] => [[]]
  | c :: cs =>
    if c = 37 ∧ esc = false then [] :: pieces false cs
    else
      let esc' := c = 92 ∧ esc = false
      match pieces esc' cs with
      | [] => [[c]]
      | p :: ps => (c :: p) :: ps

mutual
/-- pieces outside of a marker: copied literally -/
def outside (subst : Txt → Option Txt) : List Txt → Txt
  | [] => []
  | p :: ps => p ++ inside subst ps
/-- pieces behind an opening percent sign: `%key%` of a known key is substituted, everything else is
copied literally (including an unmatched last percent sign) -/
def inside (subst : Txt → Option Txt) : List Txt → Txt
  | [] => []
  | [p] => [37] ++ p
  | p :: q :: ps => (match subst p with | some v => v | none => [37] ++ p ++ [37]) ++ outside subst (q :: ps)
end

/-- the text a key stands for: its first definition in the table; the empty key stands for nothing
(`%%` stays) -/
def substitute (data : List Entry) (keys : Bool) (k : Txt) : Option Txt :=
  if k = [] then none
  else (data.find? (fun e => e.key == k)).map (fun e => if keys then e.key else e.value.getD [])

/-- the expansion of a format -/
def expansion (data : List Entry) (keys : Bool) (format : Txt) : Txt :=
  outside (substitute data keys) (pieces false format)

/-! ## Lemmas -/

theorem pieces_ne (esc : Bool) (cs : Txt) : pieces esc cs ≠ [] := by
  cases cs with
  | nil => simp [pieces]
  | cons c cs =>
    unfold pieces
    split
    · simp
    · simp only; split <;> simp

theorem pieces_cons (esc : Bool) (c : UInt8) (cs : Txt) (h : ¬ (c = 37 ∧ esc = false)) :
    ∃ p ps, pieces (decide (c = 92 ∧ esc = false)) cs = p :: ps ∧ pieces esc (c :: cs) = (c :: p) :: ps := by
  cases hp : pieces (decide (c = 92 ∧ esc = false)) cs with
  | nil => exact absurd hp (pieces_ne _ _)
  | cons p ps =>
    refine ⟨p, ps, rfl, ?_⟩
    rw [pieces, if_neg h]
    simp only
    rw [hp]

/-- the bytes `[a, b)` of the format -/
def slice (f : Txt) (a b : Nat) : Txt := (f.drop a).take (b - a)

theorem slice_split (f : Txt) (a b c : Nat) (h1 : a ≤ b) (h2 : b ≤ c) :
    slice f a c = slice f a b ++ slice f b c := by
  unfold slice
  rw [show c - a = (b - a) + (c - b) by omega, List.take_add, List.drop_drop]
  rw [show a + (b - a) = b by omega]

theorem slice_one (f : Txt) (pos : Nat) (c : UInt8) (cs : Txt) (h : f.drop pos = c :: cs) :
    slice f pos (pos + 1) = [c] := by
  unfold slice; rw [h]; simp

theorem drop_succ_of (f : Txt) (pos : Nat) (c : UInt8) (cs : Txt) (h : f.drop pos = c :: cs) :
    f.drop (pos + 1) = cs := by
  rw [← List.drop_drop, h]; rfl

theorem pos_lt (f : Txt) (pos : Nat) (c : UInt8) (cs : Txt) (h : f.drop pos = c :: cs) :
    pos < f.length := by
  have := congrArg List.length h
  simp at this; omega

/-- end of a list of indices (where the copy of the remaining text continues) -/
def lastStop (last : Nat) (idx : List Index) : Nat := (idx.getLast?.map (·.stop)).getD last

/-- text produced for the indices found so far, without the text behind the last one -/
def outLoop (format : Txt) (keys : Bool) : Nat → List Index → Txt
  | _, [] => []
  | last, e :: es =>
    (if last < e.start then (format.drop last).take (e.start - last) else [])
      ++ (if keys then e.data.key else e.data.value.getD [])
      ++ outLoop format keys e.stop es

theorem addLoop_eq (f : Txt) (keys : Bool) (last : Nat) (idx : List Index) :
    addLoop f keys last idx = outLoop f keys last idx ++ f.drop (lastStop last idx) := by
  induction idx generalizing last with
  | nil =>
    simp only [addLoop, outLoop, lastStop, List.nil_append, List.getLast?_nil, Option.map_none,
      Option.getD_none]
    split
    · rfl
    · rw [List.drop_eq_nil_of_le (by omega)]
  | cons e es ih =>
    simp only [addLoop, outLoop, ih, List.append_assoc]
    congr 3
    unfold lastStop
    cases es with
    | nil => rfl
    | cons x xs => simp [List.getLast?_cons]

theorem outLoop_snoc (f : Txt) (keys : Bool) (last : Nat) (idx : List Index) (e : Index) :
    outLoop f keys last (idx ++ [e]) = outLoop f keys last idx ++ slice f (lastStop last idx) e.start
      ++ (if keys then e.data.key else e.data.value.getD []) := by
  induction idx generalizing last with
  | nil =>
    simp only [List.nil_append, outLoop, lastStop, List.append_nil, List.getLast?_nil, Option.map_none,
      Option.getD_none, slice]
    split
    · rfl
    · rw [show e.start - last = 0 by omega]; simp
  | cons x xs ih =>
    simp only [List.cons_append, outLoop, ih, List.append_assoc]
    congr 4
    unfold lastStop
    cases xs with
    | nil => rfl
    | cons x xs => simp [List.getLast?_cons]

theorem lastStop_snoc (last : Nat) (idx : List Index) (e : Index) :
    lastStop last (idx ++ [e]) = e.stop := by simp [lastStop]

/-- number of markers of known keys in a list of pieces (starting outside of a marker) -/
def knownMarkers (data : List Entry) : List Txt → Nat
  | _ :: k :: q :: ps =>
    (if k ≠ [] ∧ (data.find? (fun e => e.key == k)).isSome then 1 else 0) + knownMarkers data (q :: ps)
  | _ => 0

/-- the parser loop: in both states (outside of a marker, inside of a marker) the finally produced
text is the text produced so far followed by the specified expansion of the rest -/
theorem initLoop_spec (data : List Entry) (keys : Bool) (f : Txt) (rest : Txt) :
    ∀ (pos start : Nat) (noOpen escape : Bool) (idx : List Index),
      f.drop pos = rest → pos ≤ f.length →
      lastStop 0 idx ≤ (if noOpen then pos else start) →
      (noOpen = false → start < pos ∧ slice f start (start + 1) = [37]) →
      ∀ p ps, pieces escape rest = p :: ps →
      (idx.length + (if noOpen then knownMarkers data (p :: ps)
          else knownMarkers data ([] :: (slice f (start + 1) pos ++ p) :: ps)) ≤ maxKeys →
        ∃ r, initLoop data f rest pos start noOpen escape idx = some r ∧
          addLoop f keys 0 r = outLoop f keys 0 idx ++
            (if noOpen then slice f (lastStop 0 idx) pos ++ outside (substitute data keys) (p :: ps)
             else slice f (lastStop 0 idx) start ++
              inside (substitute data keys) ((slice f (start + 1) pos ++ p) :: ps))) ∧
      (¬ idx.length + (if noOpen then knownMarkers data (p :: ps)
          else knownMarkers data ([] :: (slice f (start + 1) pos ++ p) :: ps)) ≤ maxKeys →
        idx.length ≤ maxKeys →
        initLoop data f rest pos start noOpen escape idx = none) := by
  induction rest with
  | nil =>
    intro pos start noOpen escape idx hrest hpos hlast hopen p ps hp
    simp only [pieces, List.cons.injEq] at hp
    obtain ⟨rfl, rfl⟩ := hp
    have hlen : f.length ≤ pos := List.drop_eq_nil_iff.1 hrest
    have hkm : ∀ a : Txt, knownMarkers data [a] = 0 := fun a => by simp [knownMarkers]
    have hkm2 : ∀ a b : Txt, knownMarkers data [a, b] = 0 := fun a b => by simp [knownMarkers]
    refine ⟨fun _ => ⟨idx, rfl, ?_⟩, ?_⟩
    · rw [addLoop_eq]
      congr 1
      cases noOpen with
      | true =>
        simp only [if_true, outside, inside, List.append_nil] at *
        unfold slice
        rw [List.take_of_length_le (by simp; omega)]
      | false =>
        obtain ⟨h1, h2⟩ := hopen rfl
        simp only [Bool.false_eq_true, if_false, inside] at *
        have e1 : f.drop (lastStop 0 idx) = slice f (lastStop 0 idx) pos := by
          unfold slice
          rw [List.take_of_length_le (by simp; omega)]
        rw [e1, slice_split f _ start pos hlast (by omega), slice_split f start (start + 1) pos (by omega) (by omega), h2]
        simp
    · intro h1 h2
      exfalso
      apply h1
      cases noOpen
      · simp only [Bool.false_eq_true, if_false, hkm2]; omega
      · simp only [if_true, hkm]; omega
  | cons c cs ih =>
    intro pos start noOpen escape idx hrest hpos hlast hopen p ps hp
    have hlt := pos_lt f pos c cs hrest
    have hdrop := drop_succ_of f pos c cs hrest
    have hone := slice_one f pos c cs hrest
    by_cases hpc : c = 37 ∧ escape = false
    · obtain ⟨rfl, rfl⟩ := hpc
      rw [pieces, if_pos ⟨rfl, rfl⟩] at hp
      simp only [List.cons.injEq] at hp
      obtain ⟨rfl, rfl⟩ := hp
      obtain ⟨q, qs, hq⟩ : ∃ q qs, pieces false cs = q :: qs := by
        cases h : pieces false cs with
        | nil => exact absurd h (pieces_ne _ _)
        | cons q qs => exact ⟨q, qs, rfl⟩
      rw [hq]
      cases noOpen with
      | true =>
        simp only [if_true] at hlast
        have hrec := ih (pos + 1) pos false false idx hdrop (by omega) (by simpa using hlast)
          (fun _ => ⟨by omega, hone⟩) q qs hq
        have hs : slice f (pos + 1) (pos + 1) = [] := by simp [slice]
        have hk : knownMarkers data ([] :: ([] ++ q) :: qs) = knownMarkers data ([] :: q :: qs) := rfl
        simp only [hs, List.nil_append, Bool.false_eq_true, if_false] at hrec
        have hstep : initLoop data f (37 :: cs) pos start true false idx
            = initLoop data f cs (pos + 1) pos false false idx := by
          rw [initLoop]; simp
        rw [hstep]
        simp only [if_true]
        refine ⟨fun hk => ?_, fun hk => hrec.2 hk⟩
        obtain ⟨r, e1, e2⟩ := hrec.1 hk
        refine ⟨r, e1, ?_⟩
        rw [e2]
        simp [outside]
      | false =>
        obtain ⟨h1, h2⟩ := hopen rfl
        simp only [Bool.false_eq_true, if_false] at hlast
        simp only [Bool.false_eq_true, if_false, List.append_nil]
        -- the key between the percent signs
        generalize hkey : slice f (start + 1) pos = key
        have hkl : key.length = pos - (start + 1) := by rw [← hkey]; unfold slice; simp; omega
        have hstep : initLoop data f (37 :: cs) pos start false false idx
            = match (if key ≠ [] then findTemplate data key else none) with
              | some d => if idx.length < maxKeys then
                  initLoop data f cs (pos + 1) start true false (idx ++ [⟨start, pos + 1, d⟩]) else none
              | none => initLoop data f cs (pos + 1) start true false idx := by
          rw [initLoop]
          simp only [Bool.not_false, beq_self_eq_true, Bool.and_self, if_true, Bool.false_eq_true,
            if_false]
          have : (pos - start > 1) ↔ key ≠ [] := by
            rw [← List.length_pos_iff, hkl]; omega
          have e2 : (f.drop (start + 1)).take (pos - start - 1) = key := by
            rw [← hkey]; unfold slice; congr 1
          simp only [this, e2]
          generalize (if key ≠ [] then findTemplate data key else none) = x
          cases x <;> rfl
        rw [hstep]
        have hkm : knownMarkers data ([] :: key :: q :: qs)
            = (if key ≠ [] ∧ (data.find? (fun e => e.key == key)).isSome then 1 else 0)
              + knownMarkers data (q :: qs) := rfl
        rw [hkm]
        have hlit : slice f start (pos + 1) = [37] ++ key ++ [37] := by
          rw [slice_split f start (start + 1) (pos + 1) (by omega) (by omega), h2,
            slice_split f (start + 1) pos (pos + 1) (by omega) (by omega), hkey, hone]
          simp
        -- unknown marker
        have unknown : substitute data keys key = none →
            (idx.length + (0 + knownMarkers data (q :: qs)) ≤ maxKeys →
              ∃ r, initLoop data f cs (pos + 1) start true false idx = some r ∧
                addLoop f keys 0 r = outLoop f keys 0 idx ++ (slice f (lastStop 0 idx) start ++
                  inside (substitute data keys) (key :: q :: qs))) ∧
              (¬ idx.length + (0 + knownMarkers data (q :: qs)) ≤ maxKeys → idx.length ≤ maxKeys →
                initLoop data f cs (pos + 1) start true false idx = none) := by
          intro hs
          have hrec := ih (pos + 1) start true false idx hdrop (by omega)
            (by simp only [if_true]; omega) (by simp) q qs hq
          simp only [if_true] at hrec
          rw [Nat.zero_add]
          refine ⟨fun hk => ?_, fun hk => hrec.2 hk⟩
          obtain ⟨r, e1, e2⟩ := hrec.1 hk
          refine ⟨r, e1, ?_⟩
          rw [e2, slice_split f _ start (pos + 1) hlast (by omega), hlit]
          simp [inside, hs]
        by_cases hkn : key = []
        · have hs : substitute data keys key = none := by simp [substitute, hkn]
          have := unknown hs
          simp only [hkn, ne_eq, not_true_eq_false, if_false, false_and] at this ⊢
          exact this
        · cases hf : findTemplate data key with
          | none =>
            have hf' : data.find? (fun e => e.key == key) = none := hf
            have hs : substitute data keys key = none := by simp [substitute, hkn, hf']
            have := unknown hs
            simp only [hkn, hf', ne_eq, not_false_eq_true, if_true, true_and, Option.isSome_none,
              Bool.false_eq_true, if_false] at this ⊢
            exact this
          | some d =>
            have hf' : data.find? (fun e => e.key == key) = some d := hf
            have hs : substitute data keys key = some (if keys then d.key else d.value.getD []) := by
              simp [substitute, hkn, hf']
            simp only [hkn, hf', ne_eq, not_false_eq_true, if_true, true_and, Option.isSome_some]
            have hrec := ih (pos + 1) start true false (idx ++ [⟨start, pos + 1, d⟩]) hdrop (by omega)
              (by simp [lastStop_snoc]) (by simp) q qs hq
            simp only [if_true, List.length_append, List.length_singleton] at hrec
            refine ⟨fun hk => ?_, fun hk hk2 => ?_⟩
            · rw [if_pos (by omega)]
              obtain ⟨r, e1, e2⟩ := hrec.1 (by omega)
              refine ⟨r, e1, ?_⟩
              rw [e2, outLoop_snoc, lastStop_snoc]
              simp [inside, hs, slice]
            · by_cases hl : idx.length < maxKeys
              · rw [if_pos hl]; exact hrec.2 (by omega) (by omega)
              · rw [if_neg hl]
    · obtain ⟨p', ps', e1, e2⟩ := pieces_cons escape c cs hpc
      rw [hp] at e2
      simp only [List.cons.injEq] at e2
      obtain ⟨rfl, rfl⟩ := e2
      have hstep : initLoop data f (c :: cs) pos start noOpen escape idx
          = initLoop data f cs (pos + 1) start noOpen (decide (c = 92 ∧ escape = false)) idx := by
        rw [initLoop]
        have : (!escape && c == 37) = false := by
          cases escape <;> simp_all
        simp only [this, Bool.false_eq_true, if_false]
        by_cases h92 : c = 92
        · subst h92; cases escape <;> simp
        · simp [h92]
      rw [hstep]
      have hrec := ih (pos + 1) start noOpen (decide (c = 92 ∧ escape = false)) idx hdrop (by omega)
        (by cases noOpen <;> simp_all; omega) (fun h => ⟨by have := hopen h; omega, (hopen h).2⟩) p' ps e1
      cases noOpen with
      | true =>
        simp only [if_true] at hrec hlast ⊢
        have hk : knownMarkers data ((c :: p') :: ps) = knownMarkers data (p' :: ps) := by
          cases ps with
          | nil => rfl
          | cons a l => cases l <;> rfl
        rw [hk]
        refine ⟨fun hk => ?_, hrec.2⟩
        obtain ⟨r, r1, r2⟩ := hrec.1 hk
        refine ⟨r, r1, ?_⟩
        rw [r2, slice_split f _ pos (pos + 1) hlast (by omega), hone]
        simp [outside]
      | false =>
        obtain ⟨h1, h2⟩ := hopen rfl
        simp only [Bool.false_eq_true, if_false] at hrec ⊢
        have es : slice f (start + 1) (pos + 1) = slice f (start + 1) pos ++ [c] := by
          rw [slice_split f (start + 1) pos (pos + 1) (by omega) (by omega), hone]
        rw [es] at hrec
        simp only [List.append_assoc, List.singleton_append] at hrec
        exact hrec

/-! ## C15 -/

/-- C15: for every table of keys and every format with at most 64 markers of known keys, expansion
copies all literal text and replaces every `%key%` marker of a known key by its value (or by the key
itself in the key listing mode); unknown markers stay as they are. -/
theorem C15_expansion_partial (data : List Entry) (format : Txt) (keys : Bool)
    (h : knownMarkers data (pieces false format) ≤ 64) :
    ∃ s, initExt data (some format) = some s ∧ addTemplate s keys = expansion data keys format := by
  obtain ⟨p, ps, hp⟩ : ∃ p ps, pieces false format = p :: ps := by
    cases h : pieces false format with
    | nil => exact absurd h (pieces_ne _ _)
    | cons q qs => exact ⟨q, qs, rfl⟩
  rw [hp] at h
  obtain ⟨r, e1, e2⟩ := (initLoop_spec data keys format format 0 0 true false [] rfl (by simp)
    (by simp [lastStop]) (by simp) p ps hp).1 (by simpa [maxKeys] using h)
  refine ⟨⟨format, r⟩, by simp [initExt, e1], ?_⟩
  unfold addTemplate
  rw [e2]
  simp [outLoop, slice, lastStop, expansion, hp]

/-- C15 is false for formats with more than 64 markers of known keys: the parser writes behind the
fixed-size index array.  This holds for *every* such format. -/
theorem C15_overflow_counterexample (data : List Entry) (format : Txt)
    (h : 64 < knownMarkers data (pieces false format)) : initExt data (some format) = none := by
  obtain ⟨p, ps, hp⟩ : ∃ p ps, pieces false format = p :: ps := by
    cases h : pieces false format with
    | nil => exact absurd h (pieces_ne _ _)
    | cons q qs => exact ⟨q, qs, rfl⟩
  rw [hp] at h
  have := (initLoop_spec data true format format 0 0 true false [] rfl (by simp)
    (by simp [lastStop]) (by simp) p ps hp).2 (by simpa [maxKeys] using h) (by simp)
  simp [initExt, this]

/-- such a format exists: 65 times `%a%` -/
example : 64 < knownMarkers [⟨[97], some [49]⟩]
    (pieces false (List.replicate 65 [37, 97, 37]).flatten) := by decide +kernel

/-- `a%x%\%%y` with x ↦ `1`: literal text, a marker, an escaped and an unmatched percent sign -/
example : knownMarkers [⟨[120], some [49]⟩] (pieces false [97, 37, 120, 37, 92, 37, 37, 121]) ≤ 64 ∧
    expansion [⟨[120], some [49]⟩] false [97, 37, 120, 37, 92, 37, 37, 121]
      = [97, 49, 92, 37, 37, 121] := by decide +kernel

/-- tab separated list of texts -/
def tabJoin : List Txt → Txt
  | [] => []
  | [v] => v
  | v :: vs => v ++ [9] ++ tabJoin vs

/-- C15: without a format all values are printed, separated by one tabulator (at least one and at
most 64 keys). -/
theorem C15_default_format (data : List Entry) (keys : Bool) (h0 : data ≠ []) (h : data.length ≤ 64) :
    ∃ s, initExt data none = some s ∧
      addTemplate s keys = tabJoin (data.map (fun e => if keys then e.key else e.value.getD [])) := by
  have key : ∀ (es : List Entry), es ≠ [] → ∀ st : Nat, st ≤ 1 →
      addLoop [9] keys 0 (((es.map (fun d => (⟨1, 0, d⟩ : Index))).modify 0
        (fun i => { i with start := st })).modify (es.length - 1) (fun i => { i with stop := 1 }))
      = (if st = 1 then [9] else []) ++ tabJoin (es.map (fun e => if keys then e.key else e.value.getD [])) := by
    intro es
    induction es with
    | nil => intro h; exact absurd rfl h
    | cons e es ih =>
      intro _ st hst
      have hst2 : st = 0 ∨ st = 1 := by omega
      cases es with
      | nil =>
        rcases hst2 with rfl | rfl <;> simp [addLoop, tabJoin]
      | cons e2 es =>
        have := ih (by simp) 1 (by omega)
        simp only [List.map_cons, List.modify_zero_cons, List.length_cons, Nat.add_sub_cancel,
          List.modify_succ_cons, if_true] at this ⊢
        simp only [addLoop, tabJoin]
        rw [this]
        rcases hst2 with rfl | rfl <;> simp
  have hl : data.length ≤ maxKeys := h
  refine ⟨_, by simp [initExt, hl]; rfl, ?_⟩
  unfold addTemplate
  have := key data h0 0 (by omega)
  rw [this]
  simp

end Verif.Template
