import Verif.Json.Model
/-
Property theorems for JSON output (C12).
-/
namespace Verif.Json

/-! ## JSON string literals -/

/-- value of one hexadecimal digit (JSON grammar: `0-9a-fA-F`) -/
def hexVal (c : UInt8) : Option Nat :=
  if 48 ≤ c ∧ c ≤ 57 then some (c.toNat - 48)
  else if 97 ≤ c ∧ c ≤ 102 then some (c.toNat - 87)
  else if 65 ≤ c ∧ c ≤ 70 then some (c.toNat - 55)
  else none

/-- the two character escapes of JSON: `\" \\ \/ \b \f \n \r \t` -/
def simpleEscape (c : UInt8) : Option Nat :=
  if c = 34 then some 34 else if c = 92 then some 92 else if c = 47 then some 47
  else if c = 98 then some 8 else if c = 102 then some 12 else if c = 110 then some 10
  else if c = 114 then some 13 else if c = 116 then some 9 else none

/-- value of four hexadecimal digits -/
def hex4 (a b c d : UInt8) : Option Nat := do
  let a ← hexVal a
  let b ← hexVal b
  let c ← hexVal c
  let d ← hexVal d
  some (((a * 16 + b) * 16 + c) * 16 + d)

/-- put a character in front of a read string -/
def prepend (v : Nat) (r : Option (List Nat × Txt)) : Option (List Nat × Txt) :=
  r.map fun p => (v :: p.1, p.2)

/-- A reader for JSON string literals (RFC 8259, section 7), positioned behind the opening quote:
the characters up to the closing quote and the remaining text.  Raw bytes stand for themselves,
raw control characters are not allowed. -/
def readString : Txt → Option (List Nat × Txt)
  | [] => none
  | c :: rest =>
    if c = 34 then some ([], rest)
    else if c = 92 then
      match rest with
      | [] => none
      | e :: rest1 =>
        if e = 117 then
          match rest1 with
          | a :: b :: c :: d :: rest2 =>
            match hex4 a b c d with
            | some v => prepend v (readString rest2)
            | none => none
          | _ => none
        else
          match simpleEscape e with
          | some v => prepend v (readString rest1)
          | none => none
    else if c < 32 then none
    else prepend c.toNat (readString rest)

theorem forall_u8 {P : UInt8 → Prop} (h : ∀ n : Fin 256, P (UInt8.ofNat n.val)) : ∀ b, P b := by
  intro b
  have := h ⟨b.toNat, b.toNat_lt⟩
  simpa using this

/-- text of one source byte -/
def enc (c : UInt8) : Txt :=
  if !isPrintable c || c == backslash || c == quote then escape c else [c]

theorem printLoop_eq (txt out pending : Txt) :
    printLoop out pending txt = out ++ pending ++ txt.flatMap enc := by
  induction txt generalizing out pending with
  | nil => simp [printLoop]
  | cons c cs ih =>
    unfold printLoop
    split
    · rename_i h
      rw [ih]; simp [enc, h]
    · rename_i h
      rw [ih]; simp [enc, h]

theorem hexVal_digit : ∀ b : UInt8, hexVal (hexDigit (b >>> 4)) = some (b.toNat / 16) ∧
    hexVal (hexDigit (b &&& 15)) = some (b.toNat % 16) := by
  apply forall_u8
  decide +kernel

theorem readString_raw (c : UInt8) (rest : Txt) (h1 : c ≠ 34) (h2 : c ≠ 92) (h3 : ¬ c < 32) :
    readString (c :: rest) = prepend c.toNat (readString rest) := by
  rw [readString.eq_def]
  simp only [h1, h2, h3, if_false]

theorem readString_enc (c : UInt8) (rest : Txt) :
    readString (enc c ++ rest) = prepend c.toNat (readString rest) := by
  unfold enc
  by_cases hp : isPrintable c = true
  · by_cases hb : c = backslash
    · subst hb
      rw [if_pos (by decide), show escape backslash = [92, 92] from by decide]
      show readString (92 :: 92 :: rest) = _
      rw [readString.eq_def]
      simp [simpleEscape, backslash]
    · by_cases hq : c = quote
      · subst hq
        rw [if_pos (by decide), show escape quote = [92, 34] from by decide]
        show readString (92 :: 34 :: rest) = _
        rw [readString.eq_def]
        simp [simpleEscape, quote]
      · have h1 : (c == backslash) = false := by simpa using hb
        have h2 : (c == quote) = false := by simpa using hq
        simp only [hp, h1, h2, Bool.not_true, Bool.or_self, Bool.false_eq_true, if_false]
        apply readString_raw c rest hq hb
        intro h3
        simp [isPrintable, h3] at hp
  · have hp' : isPrintable c = false := by simpa using hp
    simp only [hp', Bool.not_false, Bool.true_or, if_true, escape]
    obtain ⟨e1, e2⟩ := hexVal_digit c
    have e0 : hexVal 48 = some 0 := by decide
    have e4 : hex4 48 48 (hexDigit (c >>> 4)) (hexDigit (c &&& 15)) = some c.toNat := by
      simp [hex4, e0, e1, e2]; omega
    simp only [List.cons_append, List.nil_append, backslash]
    rw [readString]
    simp [e4]

/-- C12: for every text, the printed string literal starts with a quote and reads back, under the
JSON rules, as exactly the characters of the text, whatever follows it in the output. -/
theorem C12_string_roundtrip (out txt tail : Txt) :
    ∃ lit, printValue out txt true = out ++ quote :: lit ∧
      readString (lit ++ tail) = some (txt.map UInt8.toNat, tail) := by
  refine ⟨txt.flatMap enc ++ [quote], ?_, ?_⟩
  · simp [printValue, printLoop_eq]
  · induction txt with
    | nil => rw [readString.eq_def]; simp [quote]
    | cons c cs ih =>
      simp only [List.flatMap_cons, List.append_assoc, List.map_cons] at ih ⊢
      rw [readString_enc, ih]
      rfl

/-- C12: the printed text contains no raw control character; a quote or backslash only occurs as part
of an escape sequence. -/
theorem C12_escaped (txt : Txt) :
    ∃ pieces : List Txt, printValue [] txt true = [quote] ++ pieces.flatten ++ [quote] ∧
      pieces.length = txt.length ∧
      (∀ p ∈ pieces, (∃ c, p = [c] ∧ 32 ≤ c ∧ c ≠ quote ∧ c ≠ backslash) ∨
        p = [backslash, quote] ∨ p = [backslash, backslash] ∨
        (∃ a b, p = [backslash, 117, 48, 48, a, b] ∧ (hexVal a).isSome ∧ (hexVal b).isSome)) := by
  refine ⟨txt.map enc, ?_, by simp, ?_⟩
  · simp [printValue, printLoop_eq, List.flatMap]
  · intro p hp
    obtain ⟨c, _, rfl⟩ := List.mem_map.1 hp
    unfold enc
    by_cases hpr : isPrintable c = true
    · by_cases hb : c = backslash
      · subst hb; right; right; left; decide
      · by_cases hq : c = quote
        · subst hq; right; left; decide
        · left
          have h1 : (c == backslash) = false := by simpa using hb
          have h2 : (c == quote) = false := by simpa using hq
          refine ⟨c, by simp [hpr, h1, h2], ?_, hq, hb⟩
          rw [← UInt8.not_lt]
          intro h3
          simp [isPrintable, h3] at hpr
    · right; right; right
      have hp' : isPrintable c = false := by simpa using hpr
      obtain ⟨e1, e2⟩ := hexVal_digit c
      exact ⟨hexDigit (c >>> 4), hexDigit (c &&& 15), by simp [hp', escape], by simp [e1], by simp [e2]⟩

example : printValue [] [97, 34, 10, 92, 255] true =
    [34, 97, 92, 34, 92, 117, 48, 48, 48, 97, 92, 92, 92, 117, 48, 48, 102, 102, 34] := by
  decide +kernel

/-! ## nesting -/

/-- A JSON document as a first-child/next-sibling tree: the members written one after the other. -/
inductive Doc
  | nil
  | pair (key : Txt) (string : Bool) (value : Txt) (next : Doc)
  | templates (data : List Entry) (next : Doc)
  | array (name : Txt) (inner next : Doc)
  | object (name : Option Txt) (inner next : Doc)

/-- the calls that write the document -/
def write : Doc → Session → Session
  | .nil, s => s
  | .pair k str v next, s => write next (print s k str v)
  | .templates d next, s => write next (printTemplates s d)
  | .array n inner next, s => write next (endArray (write inner (startArray s n)))
  | .object n inner next, s => write next (endObject (write inner (startObject s n)))

/-- text of a list of members: separated by exactly one comma, none in front or behind -/
def commaJoin : List Txt → Txt
  | [] => []
  | [m] => m
  | m :: ms => m ++ [comma] ++ commaJoin ms

/-- text of a key/value pair -/
def pairText (key : Txt) (string : Bool) (value : Txt) : Txt := printPair [] key string value

/-- texts of the members of a document level -/
def members : Doc → List Txt
  | .nil => []
  | .pair k str v next => pairText k str v :: members next
  | .templates d next =>
      d.filterMap (fun e => e.value.map (fun v => 10 :: pairText e.key e.string v)) ++ members next
  | .array n inner next =>
      ([quote] ++ n ++ [quote, 58, 32, 91] ++ commaJoin (members inner) ++ [93]) :: members next
  | .object n inner next =>
      ((match n with | some n => [quote] ++ n ++ [quote, 58, 32] | none => []) ++ [123]
        ++ commaJoin (members inner) ++ [125]) :: members next

/-- every printed template contains at least one value -/
def noEmptyTemplates : Doc → Prop
  | .nil => True
  | .pair _ _ _ next => noEmptyTemplates next
  | .templates d next => (∃ e ∈ d, e.value ≠ none) ∧ noEmptyTemplates next
  | .array _ inner next => noEmptyTemplates inner ∧ noEmptyTemplates next
  | .object _ inner next => noEmptyTemplates inner ∧ noEmptyTemplates next

/-- text appended when members are written into a session -/
def joined (empty : Bool) (ms : List Txt) : Txt :=
  if empty then commaJoin ms else ms.flatMap (fun m => comma :: m)

theorem joined_cons (b : Bool) (m : Txt) (ms : List Txt) :
    joined b (m :: ms) = (if b then [] else [comma]) ++ m ++ joined false ms := by
  cases b with
  | false => simp [joined]
  | true =>
    simp only [joined, if_true, List.nil_append, Bool.false_eq_true, if_false]
    induction ms generalizing m with
    | nil => simp [commaJoin]
    | cons x xs ih => simp [commaJoin, ih x]

theorem printValue_out (out v : Txt) (str : Bool) :
    printValue out v str = out ++ printValue [] v str := by
  unfold printValue
  cases str
  · by_cases hv : v = [] <;> simp [printLoop_eq, hv]
  · simp [printLoop_eq]

theorem printPair_out (out k v : Txt) (str : Bool) :
    printPair out k str v = out ++ pairText k str v := by
  unfold pairText printPair
  rw [printValue_out, printValue_out ([] ++ _)]
  simp

theorem addTemplate_eq (d : List Entry) (out : Txt) (first : Bool) :
    addTemplate out first d = out ++
      (let ms := d.filterMap (fun e => e.value.map (fun v => 10 :: pairText e.key e.string v))
       match ms with
       | [] => []
       | m :: ms => (if first then m.drop 1 else comma :: m) ++ joined false ms) := by
  induction d generalizing out first with
  | nil => simp [addTemplate]
  | cons e es ih =>
    unfold addTemplate
    cases hv : e.value with
    | none => simp only [ih]; simp [hv]
    | some v =>
      simp only
      rw [ih, printPair_out]
      simp only [hv, Option.map_some, List.filterMap_cons]
      generalize es.filterMap (fun e => e.value.map (fun v => 10 :: pairText e.key e.string v)) = ms
      cases first <;> cases ms <;> simp [joined]

theorem write_eq (d : Doc) (s : Session) (h : noEmptyTemplates d) :
    write d s = ⟨s.empty && (members d).isEmpty, s.out ++ joined s.empty (members d)⟩ := by
  induction d generalizing s with
  | nil => cases s with | mk e o => cases e <;> simp [write, members, joined, commaJoin]
  | pair k str v next ih =>
    simp only [write, noEmptyTemplates] at h ⊢
    rw [ih _ h]
    simp only [print, members, joined_cons, printPair_out]
    cases s.empty <;> simp
  | templates d next ih =>
    simp only [write, noEmptyTemplates] at h ⊢
    rw [ih _ h.2]
    simp only [printTemplates, members, addTemplate_eq]
    obtain ⟨e, he1, he2⟩ := h.1
    cases hm : d.filterMap (fun e => e.value.map (fun v => 10 :: pairText e.key e.string v)) with
    | nil =>
      exfalso
      rw [List.filterMap_eq_nil_iff] at hm
      have := hm e he1
      cases hv : e.value with
      | none => exact he2 hv
      | some v => rw [hv] at this; simp at this
    | cons m ms =>
      obtain ⟨m', hm'⟩ : ∃ m', m = 10 :: m' := by
        have : m ∈ d.filterMap (fun e => e.value.map (fun v => 10 :: pairText e.key e.string v)) := by
          rw [hm]; simp
        obtain ⟨e, _, he⟩ := List.mem_filterMap.1 this
        cases hv : e.value with
        | none => rw [hv] at he; simp at he
        | some v => rw [hv] at he; simp at he; exact ⟨_, he.symm⟩
      subst hm'
      simp only [List.cons_append, joined_cons]
      cases s.empty <;> simp [joined]
  | array n inner next ihi ihn =>
    simp only [write, noEmptyTemplates] at h ⊢
    rw [ihn _ h.2]
    simp only [endArray]
    rw [ihi _ h.1]
    simp only [startArray, members, joined_cons]
    cases he : s.empty <;> simp [sep, he, joined]
  | object n inner next ihi ihn =>
    simp only [write, noEmptyTemplates] at h ⊢
    rw [ihn _ h.2]
    simp only [endObject]
    rw [ihi _ h.1]
    simp only [members, joined_cons]
    cases n <;> cases he : s.empty <;> simp [startObject, sep, he, joined]

/-- C12 (nesting): every properly nested document whose templates all contain a value is written with
exactly one comma between neighbouring members, on every level, and none in front or behind.
Missing from the full property: templates without any value, see the counterexample below. -/
theorem C12_nesting_partial (d : Doc) (h : noEmptyTemplates d) :
    (write d init).out = commaJoin (members d) := by
  rw [write_eq d init h]
  simp [init, joined]

/-- C12 (nesting) is false in general: printing a template without any value leaves a comma without a
member in front of it (`{"o": {` newline `,"k":1}`). -/
theorem C12_nesting_counterexample :
    (write (.object (some [111]) (.templates [⟨[120], none, true⟩] (.pair [107] false [49] .nil)) .nil)
      init).out = [34, 111, 34, 58, 32, 123, 10, 44, 34, 107, 34, 58, 49, 125] := by
  decide +kernel

example : noEmptyTemplates (.array [97] (.object none (.templates [⟨[120], some [49], false⟩,
    ⟨[121], none, false⟩, ⟨[122], some [34], true⟩] .nil) (.object none .nil .nil)) .nil) := by
  simp [noEmptyTemplates]

end Verif.Json
