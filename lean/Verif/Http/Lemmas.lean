import Verif.Http.Spec

namespace Verif.Http

theorem cstr_at (pre t post : Txt) (h : (0 : UInt8) ∉ t) : cstr (pre ++ (t ++ 0 :: post)) pre.length = t := by
  unfold cstr
  rw [List.drop_left]
  rw [List.takeWhile_append_of_pos]
  · simp
  · intro a ha; simp; intro h0; exact h (h0 ▸ ha)

theorem cstr_zero (t post : Txt) (h : (0 : UInt8) ∉ t) : cstr (t ++ 0 :: post) 0 = t := cstr_at [] t post h

theorem cstr_all (t : Txt) (h : (0 : UInt8) ∉ t) : cstr t 0 = t := by
  unfold cstr
  rw [List.drop_zero]
  induction t with
  | nil => rfl
  | cons c t ih =>
    have hc : c ≠ 0 := fun h0 => h (h0 ▸ List.mem_cons_self)
    rw [List.takeWhile_cons_of_pos (by simpa using hc), ih (fun h0 => h (List.mem_cons_of_mem _ h0))]

theorem free_not {bad : List UInt8} {t : Txt} (h : Free bad t) {c : UInt8} (hc : c ∈ bad) : c ∉ t := fun hm => h c hm hc

theorem free_cons {bad : List UInt8} {c : UInt8} {t : Txt} (h : Free bad (c :: t)) : c ∉ bad ∧ Free bad t :=
  ⟨h c List.mem_cons_self, fun d hd => h d (List.mem_cons_of_mem _ hd)⟩

/-! first line -/

theorem firstLine_text (t : Txt) (uri ver : Option Nat) (pos : Nat) (c d : UInt8) (rest : Txt) (h : Free [10, 13, 32] t) :
    firstLine uri ver pos (t ++ c :: d :: rest) = (firstLine uri ver (pos + t.length) (c :: d :: rest)).map fun r => (t ++ r.1, r.2) := by
  induction t generalizing pos with
  | nil => simp
  | cons x t ih =>
    obtain ⟨hx, ht⟩ := free_cons h
    simp only [List.mem_cons, List.not_mem_nil, or_false, not_or] at hx
    obtain ⟨y, z, hyz⟩ : ∃ y z, t ++ c :: d :: rest = y :: z := by cases t <;> simp
    have hi := ih (pos + 1) ht
    simp only [List.cons_append, List.length_cons]
    rw [hyz, firstLine, if_neg (fun q => hx.2.2 q.1), if_neg hx.2.1, if_neg hx.1, ← hyz, hi, show pos + (t.length + 1) = pos + 1 + t.length by omega]
    cases firstLine uri ver (pos + 1 + t.length) (c :: d :: rest) <;> rfl

def eolBytes (cr : Bool) : Txt := if cr then [0, 0] else [0]

theorem firstLine_eol (cr : Bool) (uri ver : Option Nat) (pos : Nat) (c : UInt8) (rest : Txt) :
    firstLine uri ver pos (eol cr ++ c :: rest) = some (eolBytes cr, uri, ver, c :: rest) := by
  cases cr <;> simp [eol, eolBytes, firstLine]

theorem eol_two (cr : Bool) (c : UInt8) (rest : Txt) : ∃ x y z, eol cr ++ c :: rest = x :: y :: z := by
  cases cr <;> simp [eol]

theorem firstLine_wire (cr : Bool) (m : Message) (w : WellFormed m) (c : UInt8) (rest : Txt) :
    firstLine none none 0 (m.method ++ 32 :: (m.uri ++ 32 :: (m.version ++ (eol cr ++ c :: rest)))) =
      some (m.method ++ 0 :: (m.uri ++ 0 :: (m.version ++ eolBytes cr)), some (m.method.length + 1), some (m.method.length + 1 + m.uri.length + 1), c :: rest) := by
  have f : ∀ {t}, Free [0, 10, 13, 32] t → Free [10, 13, 32] t := fun h c hc hb => h c hc (List.mem_cons_of_mem _ hb)
  obtain ⟨x, y, z, hx⟩ := eol_two cr c rest
  obtain ⟨x1, z1, h1⟩ : ∃ x1 z1, m.version ++ (eol cr ++ c :: rest) = x1 :: z1 := by rw [hx]; cases m.version <;> simp
  obtain ⟨x2, z2, h2⟩ : ∃ x2 z2, m.uri ++ 32 :: (m.version ++ (eol cr ++ c :: rest)) = x2 :: z2 := by cases m.uri <;> simp
  rw [h2, firstLine_text _ _ _ _ _ _ _ (f w.method), firstLine]
  rw [if_pos ⟨rfl, rfl⟩, if_pos rfl, if_pos rfl, ← h2, h1, firstLine_text _ _ _ _ _ _ _ (f w.uri), firstLine]
  rw [if_pos ⟨rfl, rfl⟩, if_neg (by simp), if_neg (by simp), ← h1, hx, firstLine_text _ _ _ _ _ _ _ (f w.version), ← hx, firstLine_eol]
  simp

/-! fields -/

theorem fieldName_text (t rest : Txt) (h : Free [9, 10, 13, 32, 58] t) : fieldName (t ++ 58 :: rest) = some (t ++ [0], rest) := by
  induction t with
  | nil => simp [fieldName]
  | cons c t ih =>
    obtain ⟨hc, ht⟩ := free_cons h
    simp only [List.mem_cons, List.not_mem_nil, or_false, not_or] at hc
    rw [List.cons_append, fieldName, if_neg hc.2.2.2.2, if_neg (by simp [hc.1, hc.2.2.2.1]), if_neg (by simp [hc.2.1, hc.2.2.1]), ih ht]
    rfl

theorem fieldValue_cons (val : Option Nat) (pos : Nat) (c d : UInt8) (rest : Txt) (h10 : c ≠ 10) (h13 : c ≠ 13) : fieldValue val pos (c :: d :: rest) =
    (fieldValue (if val = none ∧ ¬(c = 32 ∨ c = 9) then some pos else val) (pos + 1) (d :: rest)).map fun r => (c :: r.1, r.2) := by
  rw [fieldValue.eq_def]
  dsimp only
  rw [if_neg h10, if_neg h13]

theorem fieldValue_blanks (b : Txt) (pos : Nat) (c d : UInt8) (rest : Txt) (h : ∀ c, c ∈ b → c = 32 ∨ c = 9) :
    fieldValue none pos (b ++ c :: d :: rest) = (fieldValue none (pos + b.length) (c :: d :: rest)).map fun r => (b ++ r.1, r.2) := by
  induction b generalizing pos with
  | nil => simp
  | cons x b ih =>
    have hx := h x List.mem_cons_self
    have hi := ih (pos + 1) (fun c hc => h c (List.mem_cons_of_mem _ hc))
    obtain ⟨y, z, hyz⟩ : ∃ y z, b ++ c :: d :: rest = y :: z := by cases b <;> simp
    simp only [List.cons_append, List.length_cons]
    have h10 : x ≠ 10 := by rintro rfl; revert hx; decide
    have h13 : x ≠ 13 := by rintro rfl; revert hx; decide
    rw [hyz, fieldValue_cons _ _ _ _ _ h10 h13, if_neg (fun q => q.2 hx), ← hyz, hi, show pos + (b.length + 1) = pos + 1 + b.length by omega]
    cases fieldValue none (pos + 1 + b.length) (c :: d :: rest) <;> rfl

theorem fieldValue_text (t : Txt) (o pos : Nat) (c d : UInt8) (rest : Txt) (h : Free [10, 13] t) :
    fieldValue (some o) pos (t ++ c :: d :: rest) = (fieldValue (some o) (pos + t.length) (c :: d :: rest)).map fun r => (t ++ r.1, r.2) := by
  induction t generalizing pos with
  | nil => simp
  | cons x b ih =>
    obtain ⟨hx, ht⟩ := free_cons h
    simp only [List.mem_cons, List.not_mem_nil, or_false, not_or] at hx
    have hi := ih (pos + 1) ht
    obtain ⟨y, z, hyz⟩ : ∃ y z, b ++ c :: d :: rest = y :: z := by cases b <;> simp
    simp only [List.cons_append, List.length_cons]
    rw [hyz, fieldValue_cons _ _ _ _ _ hx.1 hx.2, if_neg (fun q => nomatch q.1), ← hyz, hi, show pos + (b.length + 1) = pos + 1 + b.length by omega]
    cases fieldValue (some o) (pos + 1 + b.length) (c :: d :: rest) <;> rfl

def valueEnd (cr : Bool) : Txt := if cr then [0, 10] else [0]

theorem fieldValue_eol (cr : Bool) (val : Option Nat) (pos : Nat) (c : UInt8) (rest : Txt) (hc : c ≠ 32 ∧ c ≠ 9) :
    fieldValue val pos (eol cr ++ c :: rest) = some (valueEnd cr, val.getD pos, c :: rest) := by
  rw [fieldValue.eq_def]
  cases cr <;> cases val <;> simp [eol, valueEnd, hc.1, hc.2]

theorem fieldValue_line (cr : Bool) (b t : Txt) (pos : Nat) (c : UInt8) (rest : Txt) (hc : c ≠ 32 ∧ c ≠ 9) (hb : ∀ c, c ∈ b → c = 32 ∨ c = 9)
    (ht : Free [0, 10, 13] t) (h32 : t.head? ≠ some 32) (h9 : t.head? ≠ some 9) :
    fieldValue none pos (b ++ (t ++ (eol cr ++ c :: rest))) = some (b ++ (t ++ valueEnd cr), pos + b.length, c :: rest) := by
  obtain ⟨x, y, z, hx⟩ := eol_two cr c rest
  cases t with
  | nil =>
    rw [List.nil_append, hx, fieldValue_blanks _ _ _ _ _ hb, ← hx, fieldValue_eol cr none _ c rest hc]
    simp
  | cons v t =>
    obtain ⟨y', z', hx'⟩ : ∃ y z, t ++ (eol cr ++ c :: rest) = y :: z := by rw [hx]; cases t <;> simp
    obtain ⟨hv, ht'⟩ := free_cons ht
    simp only [List.mem_cons, List.not_mem_nil, or_false, not_or] at hv
    have hvb : ¬(v = 32 ∨ v = 9) := by
      rintro (rfl | rfl)
      · exact h32 rfl
      · exact h9 rfl
    rw [List.cons_append, hx', fieldValue_blanks _ _ _ _ _ hb, fieldValue_cons _ _ _ _ _ hv.2.1 hv.2.2, if_pos ⟨rfl, hvb⟩, ← hx', hx, fieldValue_text _ _ _ _ _ _ (fun c hc hm => ht' c hc (List.mem_cons_of_mem _ hm)), ← hx,
      fieldValue_eol cr _ _ c rest hc]
    simp

theorem fieldLines_head (cr : Bool) (fs : List (Txt × Txt × Txt)) (hf : ∀ f, f ∈ fs → Field f) (body : Txt) :
    ∃ c rest, fieldLines cr fs ++ (eol cr ++ body) = c :: rest ∧ c ≠ 32 ∧ c ≠ 9 := by
  cases fs with
  | nil => cases cr <;> simp [fieldLines, eol]
  | cons f fs =>
    obtain ⟨hn, _⟩ := hf f List.mem_cons_self
    cases hf1 : f.1 with
    | nil => simp [fieldLines, hf1]
    | cons x n =>
      have hx := hn x (hf1 ▸ List.mem_cons_self)
      simp only [List.mem_cons, List.not_mem_nil, or_false, not_or] at hx
      exact ⟨x, _, by simp only [fieldLines, hf1, List.cons_append]; rfl, hx.2.2.2.2.1, hx.2.1⟩

theorem endOfHeader_name (n rest : Txt) (h : Free [0, 9, 10, 13, 32, 58] n) : endOfHeader (n ++ 58 :: rest) = false := by
  cases n with
  | nil => rfl
  | cons x n =>
    have hx := h x List.mem_cons_self
    simp only [List.mem_cons, List.not_mem_nil, or_false, not_or] at hx
    simp only [List.cons_append, endOfHeader]
    split
    · rename_i he; exact absurd (List.cons.inj he).1 hx.2.2.1
    · rename_i he; exact absurd (List.cons.inj he).1 hx.2.2.2.1
    · rfl

def fieldBytes (cr : Bool) : List (Txt × Txt × Txt) → Txt
  | [] => []
  | f :: fs => f.1 ++ 0 :: (f.2.1 ++ (f.2.2 ++ (valueEnd cr ++ fieldBytes cr fs)))

theorem endOfHeader_eol (cr : Bool) (body : Txt) : endOfHeader (eol cr ++ body) = true := by cases cr <;> rfl

theorem fields_end (k pos : Nat) (rest : Txt) (h : endOfHeader rest = true) : fields k pos rest = some ([], [], rest) := by
  unfold fields; rw [if_pos h]

theorem fields_step (k pos : Nat) (rest : Txt) (h : endOfHeader rest = false) : fields (k + 1) pos rest =
      match fieldName rest with
        | none => none
        | some (n, rest1) =>
          match fieldValue none (pos + n.length) rest1 with
          | none => none
          | some (v, o, rest2) => (fields k (pos + n.length + v.length) rest2).map fun r => (n ++ v ++ r.1, (pos, o) :: r.2.1, r.2.2) := by
  rw [fields, if_neg (by simp [h])]
  rfl

theorem fields_lines (cr : Bool) (fs : List (Txt × Txt × Txt)) (hf : ∀ f, f ∈ fs → Field f) (body : Txt) (k pos : Nat) :
    if fs.length ≤ k then
      ∃ offs, fields k pos (fieldLines cr fs ++ (eol cr ++ body)) = some (fieldBytes cr fs, offs, eol cr ++ body) ∧
        ∀ pre post : Txt, pre.length = pos →
          offs.map (fun p => (cstr (pre ++ (fieldBytes cr fs ++ post)) p.1, cstr (pre ++ (fieldBytes cr fs ++ post)) p.2)) = fs.map fun f => (f.1, f.2.2)
    else fields k pos (fieldLines cr fs ++ (eol cr ++ body)) = none := by
  induction fs generalizing k pos with
  | nil =>
    simp only [List.length_nil, Nat.zero_le, if_true]
    exact ⟨[], fields_end _ _ _ (endOfHeader_eol cr body), fun _ _ _ => rfl⟩
  | cons f fs ih =>
    obtain ⟨hn, hb, hv, h32, h9⟩ := hf f List.mem_cons_self
    obtain ⟨c, rest, hr, hc⟩ := fieldLines_head cr fs (fun g hg => hf g (List.mem_cons_of_mem _ hg)) body
    have hlines : fieldLines cr (f :: fs) ++ (eol cr ++ body) = f.1 ++ 58 :: (f.2.1 ++ (f.2.2 ++ (eol cr ++ c :: rest))) := by
      rw [← hr]; simp [fieldLines]
    rw [hlines]
    have he := endOfHeader_name f.1 (f.2.1 ++ (f.2.2 ++ (eol cr ++ c :: rest))) hn
    cases k with
    | zero =>
      rw [if_neg (by simp), fields, if_neg (by simp [he])]
    | succ k =>
      rw [fields_step _ _ _ he, fieldName_text _ _ (fun c hc hm => hn c hc (List.mem_cons_of_mem _ hm))]
      dsimp only
      rw [fieldValue_line cr f.2.1 f.2.2 _ c rest hc hb hv h32 h9, ← hr]
      dsimp only
      have hi := ih (fun g hg => hf g (List.mem_cons_of_mem _ hg)) k
        (pos + (f.1 ++ [0]).length + (f.2.1 ++ (f.2.2 ++ valueEnd cr)).length)
      by_cases hl : fs.length ≤ k
      · rw [if_pos hl] at hi
        rw [if_pos (by simpa using hl)]
        obtain ⟨offs, h1, h2⟩ := hi
        rw [h1]
        refine ⟨_, by simp [fieldBytes]; rfl, ?_⟩
        intro pre post hp
        simp only [List.map_cons]
        have hv0 : ∃ q, valueEnd cr = 0 :: q := by cases cr <;> exact ⟨_, rfl⟩
        obtain ⟨q, hq⟩ := hv0
        have e1 : pre ++ (fieldBytes cr (f :: fs) ++ post) = pre ++ (f.1 ++ 0 :: (f.2.1 ++ (f.2.2 ++ (valueEnd cr ++ (fieldBytes cr fs ++ post))))) := by
          simp [fieldBytes]
        have e2 : pre ++ (fieldBytes cr (f :: fs) ++ post) = (pre ++ (f.1 ++ [0] ++ f.2.1)) ++ (f.2.2 ++ 0 :: (q ++ (fieldBytes cr fs ++ post))) := by
          rw [e1, hq]; simp
        have e3 : pre ++ (fieldBytes cr (f :: fs) ++ post) = (pre ++ (f.1 ++ [0] ++ (f.2.1 ++ (f.2.2 ++ valueEnd cr)))) ++ (fieldBytes cr fs ++ post) := by
          rw [e1]; simp
        congr 1
        · congr 1
          · rw [e1, ← hp]; exact cstr_at pre f.1 _ (free_not hn (by simp))
          · have hlen : pos + (f.1.length + 1) + f.2.1.length = (pre ++ (f.1 ++ [0] ++ f.2.1)).length := by simp; omega
            have := cstr_at (pre ++ (f.1 ++ [0] ++ f.2.1)) f.2.2 (q ++ (fieldBytes cr fs ++ post)) (free_not hv (by simp))
            rw [e2]; simpa [hlen] using this
        · rw [e3]
          refine h2 _ post ?_
          simp; omega
      · rw [if_neg hl] at hi
        rw [if_neg (by simpa using hl), hi]
        rfl

/-! the whole header -/

theorem parse_wire (cr : Bool) (m : Message) (w : WellFormed m) (body : Txt) :
    if m.fields.length ≤ 16 then
      ∃ mem h, parseHeader (wire cr m ++ body) = some (mem, h) ∧ cstr mem 0 = m.method ∧ cstr mem h.uri = m.uri ∧ cstr mem h.version = m.version ∧
        headerFields mem h = (m.fields.map fun f => (f.1, f.2.2)) ∧ mem.length = (wire cr m ++ body).length ∧ mem.drop (wire cr m).length = body
    else parseHeader (wire cr m ++ body) = none := by
  obtain ⟨c, rest, hr, hc⟩ := fieldLines_head cr m.fields w.fields body
  have hw : wire cr m ++ body = m.method ++ 32 :: (m.uri ++ 32 :: (m.version ++ (eol cr ++ c :: rest))) := by
    rw [← hr]; simp [wire]
  have hl := fields_lines cr m.fields w.fields body maxHeaders (m.method ++ 0 :: (m.uri ++ 0 :: (m.version ++ eolBytes cr))).length
  unfold parseHeader
  rw [hw, firstLine_wire cr m w, ← hr]
  dsimp only
  by_cases h16 : m.fields.length ≤ 16
  · rw [if_pos h16]
    rw [if_pos (show m.fields.length ≤ maxHeaders from h16)] at hl
    obtain ⟨offs, h1, h2⟩ := hl
    rw [h1]
    refine ⟨_, _, rfl, ?_⟩
    dsimp only
    have hz : ∃ q, eolBytes cr = 0 :: q := by cases cr <;> exact ⟨_, rfl⟩
    obtain ⟨q, hq⟩ := hz
    have e0 : (m.method ++ 0 :: (m.uri ++ 0 :: (m.version ++ eolBytes cr))) ++ fieldBytes cr m.fields ++ (eol cr ++ body) =
        m.method ++ 0 :: (m.uri ++ 0 :: (m.version ++ 0 :: (q ++ (fieldBytes cr m.fields ++ (eol cr ++ body))))) := by rw [hq]; simp
    have hlen : (fieldBytes cr m.fields).length = (fieldLines cr m.fields).length := by
      generalize m.fields = fs
      induction fs with
      | nil => rfl
      | cons f fs ih => cases cr <;> simp_all [fieldBytes, fieldLines, valueEnd, eol]
    refine ⟨?_, ?_, ?_, ?_, ?_, ?_⟩
    · rw [e0]; exact cstr_zero _ _ (free_not w.method (by simp))
    · rw [e0]
      have := cstr_at (m.method ++ [0]) m.uri (m.version ++ 0 :: (q ++ (fieldBytes cr m.fields ++ (eol cr ++ body)))) (free_not w.uri (by simp))
      simpa using this
    · rw [e0]
      have := cstr_at (m.method ++ [0] ++ (m.uri ++ [0])) m.version (q ++ (fieldBytes cr m.fields ++ (eol cr ++ body))) (free_not w.version (by simp))
      rw [show m.method.length + 1 + m.uri.length + 1 = (m.method ++ [0] ++ (m.uri ++ [0])).length by simp; omega]
      simpa only [List.append_assoc, List.cons_append, List.nil_append] using this
    · have := h2 (m.method ++ 0 :: (m.uri ++ 0 :: (m.version ++ eolBytes cr))) (eol cr ++ body) rfl
      simp only [headerFields]
      rw [List.append_assoc]
      exact this
    · cases cr <;> simp [hlen, eolBytes, eol]
    · have : (wire cr m).length = ((m.method ++ 0 :: (m.uri ++ 0 :: (m.version ++ eolBytes cr))) ++ fieldBytes cr m.fields ++ eol cr).length := by
        cases cr <;> simp [hlen, wire, eolBytes, eol]
      rw [this, ← List.append_assoc, List.drop_left]
  · rw [if_neg h16]
    rw [if_neg (show ¬m.fields.length ≤ maxHeaders from h16)] at hl
    rw [hl]
    rfl

/-! searching -/

theorem strstr_some_of (pat a b : Txt) : (strstr pat (a ++ (pat ++ b))).isSome := by
  induction a with
  | nil =>
    cases hp : pat ++ b with
    | nil =>
      have : pat = [] := (List.append_eq_nil_iff.mp hp).1
      simp [strstr, this]
    | cons c s =>
      have : pat.isPrefixOf (c :: s) = true := by rw [← hp]; simp
      simp [strstr, this]
  | cons x a ih =>
    simp only [List.cons_append, strstr]
    split
    · rfl
    · simpa using ih

theorem strstr_inv {pat s : Txt} {i : Nat} (h : strstr pat s = some i) : ∃ a b, s = a ++ (pat ++ b) ∧ a.length = i := by
  induction s generalizing i with
  | nil =>
    simp only [strstr] at h
    split at h
    · rename_i hp; cases h; exact ⟨[], [], by simp [hp], rfl⟩
    · cases h
  | cons c s ih =>
    simp only [strstr] at h
    split at h
    · rename_i hp
      cases h
      obtain ⟨b, hb⟩ := List.isPrefixOf_iff_prefix.mp hp
      exact ⟨[], b, by simpa using hb.symm, rfl⟩
    · cases hs : strstr pat s with
      | none => rw [hs] at h; cases h
      | some j =>
        rw [hs] at h
        cases h
        obtain ⟨a, b, hab, hl⟩ := ih hs
        exact ⟨c :: a, b, by simp [hab], by simp [hl]⟩

theorem free_wire (cr : Bool) (m : Message) (w : WellFormed m) : (0 : UInt8) ∉ wire cr m := by
  have he : (0 : UInt8) ∉ eol cr := by cases cr <;> decide
  have hfl : ∀ fs, (∀ f, f ∈ fs → Field f) → (0 : UInt8) ∉ fieldLines cr fs := by
    intro fs
    induction fs with
    | nil => intro _ h; cases h
    | cons f fs ih =>
      intro hf
      obtain ⟨hn, hb, hv, _⟩ := hf f List.mem_cons_self
      have hi := ih fun g hg => hf g (List.mem_cons_of_mem _ hg)
      have hb0 : (0 : UInt8) ∉ f.2.1 := fun h => by rcases hb 0 h with h | h <;> exact absurd h (by decide)
      have h1 : (0 : UInt8) ∉ f.1 := free_not hn (by simp)
      have h2 : (0 : UInt8) ∉ f.2.2 := free_not hv (by simp)
      simp only [fieldLines, List.mem_append, List.mem_cons, not_or]
      exact ⟨h1, by decide, hb0, h2, he, hi⟩
  have h1 : (0 : UInt8) ∉ m.method := free_not w.method (by simp)
  have h2 : (0 : UInt8) ∉ m.uri := free_not w.uri (by simp)
  have h3 : (0 : UInt8) ∉ m.version := free_not w.version (by simp)
  simp only [wire, List.mem_append, List.mem_cons, not_or]
  exact ⟨h1, by decide, h2, by decide, h3, he, hfl _ w.fields, he⟩

theorem cstr_append (a b : Txt) (h : (0 : UInt8) ∉ a) : cstr (a ++ b) 0 = a ++ cstr b 0 := by
  unfold cstr
  rw [List.drop_zero, List.drop_zero, List.takeWhile_append_of_pos]
  intro c hc; simp; intro h0; exact h (h0 ▸ hc)

theorem fieldLines_eol (cr : Bool) (fs : List (Txt × Txt × Txt)) : fs = [] ∨ ∃ a, fieldLines cr fs = a ++ eol cr := by
  induction fs with
  | nil => exact .inl rfl
  | cons f fs ih =>
    refine .inr ?_
    rcases ih with rfl | ⟨a, ha⟩
    · exact ⟨f.1 ++ 58 :: (f.2.1 ++ f.2.2), by simp [fieldLines]⟩
    · exact ⟨f.1 ++ 58 :: (f.2.1 ++ (f.2.2 ++ (eol cr ++ a))), by simp [fieldLines, ha]⟩

theorem headerEnd_wire (cr : Bool) (m : Message) (w : WellFormed m) (body : Txt) : (headerEnd (wire cr m ++ body)).isSome := by
  obtain ⟨a, ha⟩ : ∃ a, wire cr m = a ++ (eol cr ++ eol cr) := by
    rcases fieldLines_eol cr m.fields with h | ⟨a, h⟩
    · exact ⟨m.method ++ 32 :: (m.uri ++ 32 :: m.version), by simp [wire, h, fieldLines]⟩
    · exact ⟨m.method ++ 32 :: (m.uri ++ 32 :: (m.version ++ (eol cr ++ a))), by simp [wire, h]⟩
  unfold headerEnd
  rw [cstr_append _ _ (free_wire cr m w), ha]
  cases cr
  · have := strstr_some_of [10, 10] a (cstr body 0)
    simp only [eol, Bool.false_eq_true, if_false, List.append_assoc] at this ⊢
    split
    · rfl
    · simpa using this
  · have := strstr_some_of [13, 10, 13, 10] a (cstr body 0)
    simp only [eol, if_true, List.append_assoc] at this ⊢
    split
    · rfl
    · rename_i hn; rw [show ([13, 10] : Txt) ++ ([13, 10] ++ cstr body 0) = [13, 10, 13, 10] ++ cstr body 0 from rfl] at hn; rw [hn] at this; cases this

end Verif.Http
