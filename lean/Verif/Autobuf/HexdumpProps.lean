import Verif.Autobuf.Hexdump
/-
C240: hexadecimal dumps.
-/
namespace Verif.Autobuf.Hexdump

/-! ### Specification -/

/-- The value of a hexadecimal digit (lower case). -/
def digitValue (c : Char) : Nat := if c.toNat < 58 then c.toNat - 48 else c.toNat - 87

/-- The value of a text of hexadecimal digits: each digit counts with its power of 16. -/
def value : List Char → Nat
  | [] => 0
  | c :: cs => digitValue c * 16 ^ cs.length + value cs

/-- A lower case hexadecimal digit. -/
def IsHex (c : Char) : Prop := (48 ≤ c.toNat ∧ c.toNat ≤ 57) ∨ (97 ≤ c.toNat ∧ c.toNat ≤ 102)

/-- A printable ASCII character. -/
def Printable (c : Char) : Prop := 32 ≤ c.toNat ∧ c.toNat < 127

/-! ### Lemmas -/

theorem hexDigit_props : ∀ n, n < 16 → digitValue (hexDigit n) = n ∧ IsHex (hexDigit n) := by
  have h : ∀ n : Fin 16, digitValue (hexDigit n) = n ∧
      ((48 ≤ (hexDigit n).toNat ∧ (hexDigit n).toNat ≤ 57) ∨ (97 ≤ (hexDigit n).toNat ∧ (hexDigit n).toNat ≤ 102)) := by
    decide +kernel
  intro n hn
  exact h ⟨n, hn⟩

theorem isHex_printable {c : Char} (h : IsHex c) : Printable c := by
  simp only [IsHex, Printable] at *; omega

theorem printable_ne {c : Char} (h : Printable c) : c ≠ '\n' := by
  rintro rfl
  exact absurd h.1 (by decide)

theorem value_append (a b : List Char) : value (a ++ b) = value a * 16 ^ b.length + value b := by
  induction a with
  | nil => simp [value]
  | cons c a ih =>
    simp only [List.cons_append, value, ih, List.length_append, Nat.pow_add, Nat.add_mul, Nat.mul_assoc, Nat.add_assoc]

theorem hexNum_props (n : Nat) : value (hexNum n) = n ∧ ∀ c ∈ hexNum n, IsHex c := by
  induction n using Nat.strongRecOn with
  | _ n ih =>
    rw [hexNum]
    split
    · rename_i h
      have := hexDigit_props n h
      simp [value, this]
    · rename_i h
      have h1 := ih (n / 16) (by omega)
      have h2 := hexDigit_props (n % 16) (by omega)
      refine ⟨?_, ?_⟩
      · rw [value_append, h1.1]
        simp only [value, h2.1, List.length_cons, List.length_nil]
        omega
      · intro c hc
        rcases List.mem_append.mp hc with hc | hc
        · exact h1.2 c hc
        · rw [List.mem_singleton.mp hc]; exact h2.2

theorem value_zeros (k : Nat) (l : List Char) : value (List.replicate k '0' ++ l) = value l := by
  induction k with
  | zero => simp
  | succ k ih =>
    have h0 : digitValue '0' = 0 := by decide
    simp only [List.replicate_succ, List.cons_append, value, ih, h0, Nat.zero_mul, Nat.zero_add]

theorem hex4_isHex (n : Nat) : ∀ c ∈ hex4 n, IsHex c := by
  intro c hc
  rcases List.mem_append.mp hc with hc | hc
  · rw [(List.mem_replicate.mp hc).2]; exact Or.inl (by decide)
  · exact (hexNum_props n).2 c hc

theorem hex2_inj {a b : UInt8} (h : hex2 a = hex2 b) : a = b := by
  simp only [hex2, List.cons.injEq, and_true] at h
  have ha := a.toNat_lt
  have hb := b.toNat_lt
  have h1 := congrArg digitValue h.1
  have h2 := congrArg digitValue h.2
  rw [(hexDigit_props _ (by omega)).1, (hexDigit_props _ (by omega)).1] at h1 h2
  apply UInt8.toNat_inj.mp
  omega

theorem glyph_printable (b : UInt8) : Printable (glyph b) := by
  have h : ∀ n : Fin 256, 32 ≤ (glyph (UInt8.ofNat n)).toNat ∧ (glyph (UInt8.ofNat n)).toNat < 127 := by
    decide +kernel
  have := h ⟨b.toNat, b.toNat_lt⟩
  simp only [UInt8.ofNat_toNat] at this
  exact this

theorem cell_printable (l : List UInt8) (i : Nat) : ∀ c ∈ cell l i, Printable c := by
  have hs : Printable ' ' := by constructor <;> decide
  intro c hc
  rcases List.mem_append.mp hc with hc | hc
  · split at hc
    · rw [List.mem_singleton.mp hc]; exact hs
    · exact absurd hc (by simp)
  · split at hc
    · rename_i b _
      have hb := b.toNat_lt
      simp only [hex2, List.mem_cons, List.not_mem_nil, or_false] at hc
      rcases hc with rfl | rfl
      · exact isHex_printable (hexDigit_props _ (by omega)).2
      · exact isHex_printable (hexDigit_props _ (by omega)).2
    · simp only [List.mem_cons, List.not_mem_nil, or_false, or_self] at hc
      rw [hc]; exact hs

theorem hexline_printable (l : List UInt8) : ∀ c ∈ hexline l, Printable c := by
  intro c hc
  simp only [hexline, List.mem_append, List.mem_flatMap, List.mem_map, List.mem_singleton] at hc
  rcases hc with (⟨i, _, hc⟩ | rfl) | ⟨b, _, rfl⟩
  · exact cell_printable l i c hc
  · constructor <;> decide
  · exact glyph_printable b

theorem cell_length (l : List UInt8) (i : Nat) : (cell l i).length = if i % 4 = 0 then 3 else 2 := by
  simp only [cell, List.length_append]
  split <;> split <;> rfl

theorem cells_length (l : List UInt8) (n : Nat) :
    ((List.range n).flatMap (cell l)).length = 2 * n + (n + 3) / 4 := by
  induction n with
  | zero => rfl
  | succ n ih =>
    rw [List.range_succ, List.flatMap_append, List.length_append, ih]
    simp only [List.flatMap_cons, List.flatMap_nil, List.append_nil, cell_length]
    split <;> omega

theorem cells_split (l : List UInt8) (i : Nat) : ∀ n, i < n →
    ∃ rest, (List.range n).flatMap (cell l) = (List.range i).flatMap (cell l) ++ (cell l i ++ rest) := by
  intro n
  induction n with
  | zero => intro h; omega
  | succ n ih =>
    intro h
    rw [List.range_succ, List.flatMap_append]
    by_cases he : i = n
    · subst he; exact ⟨[], by simp⟩
    · obtain ⟨rest, hr⟩ := ih (by omega)
      exact ⟨rest ++ cell l n, by rw [hr]; simp⟩

/-- The two characters of column `i`. -/
theorem column (l : List UInt8) (i : Nat) (hi : i < 32) :
    ((hexline l).drop (1 + 2 * i + i / 4)).take 2 = match l[i]? with | some b => hex2 b | none => [' ', ' '] := by
  obtain ⟨rest, hr⟩ := cells_split l i 32 hi
  have hlen := cells_length l i
  simp only [hexline, hr, List.append_assoc]
  by_cases h4 : i % 4 = 0
  · have e : 1 + 2 * i + i / 4 = ((List.range i).flatMap (cell l)).length + 1 := by omega
    rw [e, List.drop_append, List.drop_of_length_le (by omega)]
    simp only [List.nil_append, Nat.add_sub_cancel_left, cell, h4, if_true]
    cases l[i]? <;> simp [hex2]
  · have e : 1 + 2 * i + i / 4 = ((List.range i).flatMap (cell l)).length := by omega
    rw [e, List.drop_left]
    simp only [cell, h4, if_false, List.nil_append]
    cases l[i]? <;> simp [hex2]

theorem hexline_length (l : List UInt8) : (hexline l).length = 73 + l.length := by
  simp only [hexline, List.length_append, cells_length, List.length_map, List.length_singleton]

theorem hexline_inj {a b : List UInt8} (ha : a.length ≤ 32) (h : hexline a = hexline b) : a = b := by
  have hl : a.length = b.length := by
    have := congrArg List.length h
    rw [hexline_length, hexline_length] at this
    omega
  apply List.ext_getElem hl
  intro i h1 h2
  have c1 := column a i (by omega)
  have c2 := column b i (by omega)
  rw [h, c2, List.getElem?_eq_getElem h1, List.getElem?_eq_getElem h2] at c1
  exact (hex2_inj c1).symm

theorem split_line {x y r s : List Char} (hx : '\n' ∉ x) (hy : '\n' ∉ y)
    (h : x ++ '\n' :: r = y ++ '\n' :: s) : x = y ∧ r = s := by
  induction x generalizing y with
  | nil =>
    cases y with
    | nil => simpa using h
    | cons c y =>
      simp only [List.nil_append, List.cons_append, List.cons.injEq] at h
      exact absurd (by simp [← h.1]) hy
  | cons c x ih =>
    cases y with
    | nil =>
      simp only [List.nil_append, List.cons_append, List.cons.injEq] at h
      exact absurd (by simp [h.1]) hx
    | cons d y =>
      simp only [List.cons_append, List.cons.injEq] at h
      have := ih (fun m => hx (List.mem_cons_of_mem _ m)) (fun m => hy (List.mem_cons_of_mem _ m)) h.2
      exact ⟨by rw [h.1, this.1], this.2⟩

theorem hexline_no_newline (l : List UInt8) : '\n' ∉ hexline l := fun h =>
  printable_ne (hexline_printable l _ h) rfl

theorem dumpFrom_inj (pre : List Char) (n : Nat) : ∀ (j : Nat) (a b : List UInt8), a.length ≤ n →
    dumpFrom pre j a = dumpFrom pre j b → a = b := by
  induction n with
  | zero =>
    intro j a b ha h
    have ea : a = [] := List.length_eq_zero_iff.mp (by omega)
    subst ea
    rw [dumpFrom, dumpFrom.eq_1 pre j b] at h
    by_cases hb : b = []
    · exact hb.symm
    · simp [hb] at h
  | succ n ih =>
    intro j a b ha h
    rw [dumpFrom, dumpFrom.eq_1 pre j b] at h
    by_cases ea : a = [] <;> by_cases eb : b = []
    · rw [ea, eb]
    · simp [ea, eb] at h
    · simp [ea, eb] at h
    · simp only [ea, eb, if_false, List.append_assoc, List.append_cancel_left_eq, List.singleton_append] at h
      replace h := (List.cons.inj h).2
      obtain ⟨h1, h2⟩ := split_line (hexline_no_newline _) (hexline_no_newline _) h
      have e1 := hexline_inj (by simp only [List.length_take]; omega) h1
      have hpos : a.length ≠ 0 := fun e => ea (List.length_eq_zero_iff.mp e)
      have e2 := ih (j + 32) (a.drop 32) (b.drop 32) (by simp only [List.length_drop]; omega) h2
      rw [← List.take_append_drop 32 a, ← List.take_append_drop 32 b, e1, e2]

/-! ### Theorems -/

/-- Nothing is lost: different buffers have different dumps. -/
theorem C240_injective (pre : List Char) (a b : List UInt8) (h : hexdump pre a = hexdump pre b) : a = b :=
  dumpFrom_inj pre a.length 0 a b (Nat.le_refl _) h

/-- The dump begins with the line of the first 32 bytes: prefix, offset, colon, line; the rest is the dump of the
other bytes. -/
theorem C240_line (pre : List Char) (j : Nat) (l rest : List UInt8) (h0 : l ≠ [])
    (h32 : l.length = 32 ∨ (l.length < 32 ∧ rest = [])) :
    ∃ off, value off = j ∧ 4 ≤ off.length ∧ (∀ c ∈ off, IsHex c) ∧
      dumpFrom pre j (l ++ rest) = pre ++ off ++ ":".toList ++ hexline l ++ "\n".toList ++ dumpFrom pre (j + 32) rest := by
  refine ⟨hex4 j, ?_, ?_, hex4_isHex j, ?_⟩
  · rw [hex4, value_zeros]; exact (hexNum_props j).1
  · simp only [hex4, List.length_append, List.length_replicate]; omega
  · have ht : (l ++ rest).take 32 = l := by
      rcases h32 with h | ⟨h, rfl⟩
      · rw [← h, List.take_left]
      · rw [List.append_nil, List.take_of_length_le (by omega)]
    have hd : (l ++ rest).drop 32 = rest := by
      rcases h32 with h | ⟨h, rfl⟩
      · rw [← h, List.drop_left]
      · rw [List.append_nil, List.drop_of_length_le (by omega)]
    rw [dumpFrom, if_neg (by simp [h0]), ht, hd]
    rfl

/-- In a line of at most 32 bytes byte `i` stands in two hexadecimal digits at column `1 + 2 i + i / 4`; the columns
of missing bytes are blank; the text column has one character for each byte, the byte itself if it can be printed,
otherwise a dot. -/
theorem C240_columns (l : List UInt8) (hl : l.length ≤ 32) :
    (hexline l).length = 73 + l.length ∧
    (∀ i (h : i < l.length), ∃ x y, ((hexline l).drop (1 + 2 * i + i / 4)).take 2 = [x, y] ∧ IsHex x ∧ IsHex y ∧
      value [x, y] = l[i].toNat) ∧
    (∀ i, l.length ≤ i → i < 32 → ((hexline l).drop (1 + 2 * i + i / 4)).take 2 = "  ".toList) ∧
    (∀ i (h : i < l.length), ∃ c, (hexline l)[73 + i]? = some c ∧
      ((32 ≤ l[i].toNat ∧ l[i].toNat < 127 → c.toNat = l[i].toNat) ∧
       (¬ (32 ≤ l[i].toNat ∧ l[i].toNat < 127) → c = '.'))) := by
  refine ⟨hexline_length l, ?_, ?_, ?_⟩
  · intro i h
    have hb := l[i].toNat_lt
    have h1 := hexDigit_props (l[i].toNat / 16) (by omega)
    have h2 := hexDigit_props (l[i].toNat % 16) (by omega)
    refine ⟨hexDigit (l[i].toNat / 16), hexDigit (l[i].toNat % 16), ?_, h1.2, h2.2, ?_⟩
    · rw [column l i (by omega), List.getElem?_eq_getElem h]; rfl
    · simp only [value, h1.1, h2.1, List.length_cons, List.length_nil]; omega
  · intro i h1 h2
    rw [column l i h2, List.getElem?_eq_none h1]; rfl
  · intro i h
    refine ⟨glyph l[i], ?_, ?_, ?_⟩
    · have e : ((List.range 32).flatMap (cell l) ++ [' ']).length = 73 := by
        rw [List.length_append, cells_length]; rfl
      rw [hexline, List.getElem?_append_right (by omega), e, Nat.add_sub_cancel_left, List.getElem?_map,
        List.getElem?_eq_getElem h]
      rfl
    · have hg : ∀ n : Fin 256, 32 ≤ n.val ∧ n.val < 127 → (glyph (UInt8.ofNat n)).toNat = n.val := by decide +kernel
      have := hg ⟨l[i].toNat, l[i].toNat_lt⟩
      simpa using this
    · intro hn
      simp only [glyph, hn, if_false]

theorem dumpFrom_lines (pre : List Char) (hp : '\n' ∉ pre) (n : Nat) : ∀ (j : Nat) (a : List UInt8),
    a.length ≤ n → (dumpFrom pre j a).count '\n' = (a.length + 31) / 32 ∧
      ∀ c ∈ dumpFrom pre j a, c ∈ pre ∨ Printable c ∨ c = '\n' := by
  have cnt : ∀ x : List Char, (∀ c ∈ x, Printable c) → x.count '\n' = 0 := fun x hx =>
    List.count_eq_zero.mpr (fun h => printable_ne (hx _ h) rfl)
  induction n with
  | zero =>
    intro j a ha
    have ea : a = [] := List.length_eq_zero_iff.mp (by omega)
    subst ea
    rw [dumpFrom]; simp
  | succ n ih =>
    intro j a ha
    rw [dumpFrom]
    by_cases ea : a = []
    · simp [ea]
    · have hpos : a.length ≠ 0 := fun e => ea (List.length_eq_zero_iff.mp e)
      have h1 := ih (j + 32) (a.drop 32) (by simp only [List.length_drop]; omega)
      have h4 : ∀ c ∈ hex4 j, Printable c := fun c h => isHex_printable (hex4_isHex j c h)
      rw [if_neg ea]
      refine ⟨?_, ?_⟩
      · have hc : [':'].count '\n' = 0 := by decide
        have hn : ['\n'].count '\n' = 1 := by decide
        simp only [List.count_append, List.count_eq_zero.mpr hp, cnt _ h4, cnt _ (hexline_printable _), h1.1, List.length_drop, hc, hn]
        omega
      · intro c hc
        simp only [List.mem_append, List.mem_singleton] at hc
        rcases hc with ((((hc | hc) | rfl) | hc) | rfl) | hc
        · exact Or.inl hc
        · exact Or.inr (Or.inl (h4 c hc))
        · exact Or.inr (Or.inl (by constructor <;> decide))
        · exact Or.inr (Or.inl (hexline_printable _ c hc))
        · exact Or.inr (Or.inr rfl)
        · exact h1.2 c hc

/-- Whatever bytes the buffer holds, the dump is printable text (apart from the prefix) with one line for each 32 bytes
begun. -/
theorem C240_text (pre : List Char) (a : List UInt8) (hp : '\n' ∉ pre) :
    (hexdump pre a).count '\n' = (a.length + 31) / 32 ∧
      ∀ c ∈ hexdump pre a, c ∈ pre ∨ Printable c ∨ c = '\n' :=
  dumpFrom_lines pre hp a.length 0 a (Nat.le_refl _)

/-! ### Examples -/

example : hexline [0x48, 0x69, 0x0a, 0xff, 0x21] =
    " 48690aff 21".toList ++ List.replicate (72 - 12) ' ' ++ " Hi..!".toList := by
  decide +kernel

example : '\n' ∉ "\t| ".toList ∧ (hexdump "\t| ".toList (List.replicate 33 0)).count '\n' = 2 :=
  ⟨by decide, by rw [(C240_text _ _ (by decide)).1]; rfl⟩

/-- A blank and a zero byte look different. -/
example : hexdump [] [0x20] ≠ hexdump [] [0x20, 0x00] := fun h => absurd (C240_injective _ _ _ h) (by decide)

example : ∃ l rest : List UInt8, l ≠ [] ∧ l.length = 32 ∧ rest = [1, 2] := ⟨List.replicate 32 7, _, by decide, rfl, rfl⟩

example : hex4 32 = "0020".toList ∧ value "0020".toList = 32 ∧ (hex4 0x12340).length = 5 := by
  refine ⟨?_, by decide, ?_⟩ <;> simp [hex4, hexNum, hexDigit] <;> decide

end Verif.Autobuf.Hexdump
