import Verif.Cfg.CompactModel
import Verif.Cfg.DbProps

/-
The configuration file format: lines, and saving and loading of a database.
-/
namespace Verif.Cfg.Compact
open Verif.Cfg

/-! ### Trimming -/

/-- no white space at the ends -/
def Trimmed (s : Str) : Prop := s ≠ [] ∧ (∀ c, s.head? = some c → isSpace c = false) ∧ ∀ c, s.getLast? = some c → isSpace c = false

/-- only white space -/
def Blank (s : Str) : Prop := ∀ c ∈ s, isSpace c = true

theorem dropWhile_blank {p : UInt8 → Bool} {a s : Str} (ha : ∀ c ∈ a, p c = true) (hs : ∀ c, s.head? = some c → p c = false) :
    (a ++ s).dropWhile p = s := by
  induction a with
  | nil =>
    cases s with
    | nil => rfl
    | cons c s => rw [List.nil_append, List.dropWhile_cons, if_neg (by rw [hs c rfl]; decide)]
  | cons x a ih =>
    rw [List.cons_append, List.dropWhile_cons, if_pos (ha x List.mem_cons_self)]
    exact ih fun c hc => ha c (List.mem_cons_of_mem _ hc)

theorem takeWhile_front {p : UInt8 → Bool} {a s : Str} (ha : ∀ c ∈ a, p c = true) (hs : ∀ c, s.head? = some c → p c = false) :
    (a ++ s).takeWhile p = a := by
  induction a with
  | nil =>
    cases s with
    | nil => rfl
    | cons c s => rw [List.nil_append, List.takeWhile_cons, if_neg (by rw [hs c rfl]; decide)]
  | cons x a ih =>
    rw [List.cons_append, List.takeWhile_cons, if_pos (ha x List.mem_cons_self)]
    rw [ih fun c hc => ha c (List.mem_cons_of_mem _ hc)]

theorem trim_pad {a s b : Str} (ha : Blank a) (hb : Blank b) (hs : Trimmed s) : trim (a ++ s ++ b) = s := by
  unfold trim
  have h1 : (a ++ s ++ b).dropWhile isSpace = s ++ b := by
    rw [List.append_assoc]
    refine dropWhile_blank ha ?_
    intro c hc
    cases s with
    | nil => exact absurd rfl hs.1
    | cons x s => exact hs.2.1 c hc
  rw [h1, List.reverse_append, dropWhile_blank, List.reverse_reverse]
  · intro c hc; exact hb c (List.mem_reverse.1 hc)
  · intro c hc
    rw [List.head?_reverse] at hc
    exact hs.2.2 c hc

theorem getLast_append {a b : Str} (h : b ≠ []) : (a ++ b).getLast? = b.getLast? := by
  rw [List.getLast?_append]
  cases hb : b.getLast? with
  | none => exact absurd (List.getLast?_eq_none_iff.1 hb) h
  | some c => rfl

theorem drop_line (a : Str) (c : UInt8) (b : Str) : (a ++ c :: b).drop (a.length + 1) = b := by
  induction a with
  | nil => rfl
  | cons x a ih => exact ih

theorem Blank.nil : Blank [] := fun _ h => (nomatch h)

theorem trim_self {s : Str} (hs : Trimmed s) : trim s = s := by
  have := trim_pad Blank.nil Blank.nil hs
  simpa using this

/-! ### Lines -/

/-- an allowed key which is not empty -/
def Key (s : Str) : Prop := s ≠ [] ∧ allowedKey s = true

/-- text which is not changed by trimming and stays in its line -/
structure Text (s : Str) : Prop where
  trimmed : Trimmed s
  line : ∀ c ∈ s, c ≠ 0 ∧ c ≠ 10

theorem Key.chars {s : Str} (h : Key s) : ∀ c ∈ s, isKeyChar c = true := by
  have := h.2
  unfold allowedKey at this
  rw [Bool.and_eq_true, List.all_eq_true] at this
  exact this.2

theorem keyChar_facts : ∀ c : UInt8, isKeyChar c = true → isSpace c = false ∧ c ≠ 0 ∧ c ≠ 10 ∧ c ≠ 13 ∧ c ≠ 35 ∧ c ≠ 91 ∧ c ≠ 93 ∧ c ≠ 61 ∧ c ≠ 32 := by
  intro c
  have : ∀ n : Fin 256, isKeyChar (UInt8.ofNat n.val) = true → isSpace (UInt8.ofNat n.val) = false ∧ UInt8.ofNat n.val ≠ 0 ∧ UInt8.ofNat n.val ≠ 10 ∧
      UInt8.ofNat n.val ≠ 13 ∧ UInt8.ofNat n.val ≠ 35 ∧ UInt8.ofNat n.val ≠ 91 ∧ UInt8.ofNat n.val ≠ 93 ∧ UInt8.ofNat n.val ≠ 61 ∧ UInt8.ofNat n.val ≠ 32 := by
    decide +kernel
  have h := this ⟨c.toNat, c.toNat_lt⟩
  simpa using h

theorem Key.text {s : Str} (h : Key s) : Text s := by
  refine ⟨⟨h.1, ?_, ?_⟩, ?_⟩
  · intro c hc
    exact (keyChar_facts c (h.chars c (List.mem_of_head? hc))).1
  · intro c hc
    exact (keyChar_facts c (h.chars c (List.mem_of_getLast? hc))).1
  · intro c hc
    have := keyChar_facts c (h.chars c hc)
    exact ⟨this.2.1, this.2.2.1⟩

/-- C108: a line with a key, white space and a value sets the entry (in front of older values), independent of white space around it. -/
theorem C108_entry_line (st : State) (hst : st.section_ ≠ []) {k v w0 w1 w2 : Str} (hk : Key k) (hv : Text v) (h0 : Blank w0) (h1 : Blank w1) (h1n : w1 ≠ []) (h2 : Blank w2)
    (rest : Str) :
    parseLine st (w0 ++ (k ++ w1 ++ v) ++ w2) rest =
      (.ok { st with db := setEntry st.db st.section_ (nameArg st.name) k v true true }, rest) := by
  have ht : Trimmed (k ++ w1 ++ v) := by
    refine ⟨?_, ?_, ?_⟩
    · intro h
      exact hk.1 (List.append_eq_nil_iff.1 (List.append_eq_nil_iff.1 h).1).1
    · intro c hc
      have := hk.text.trimmed.2.1 c
      cases k with
      | nil => exact absurd rfl hk.1
      | cons x k => exact this hc
    · intro c hc
      rw [getLast_append hv.trimmed.1] at hc
      exact hv.trimmed.2.2 c hc
  unfold parseLine
  rw [trim_pad h0 h2 ht]
  dsimp only
  have hany : (k ++ w1 ++ v).any isSpace = true := by
    rw [List.any_eq_true]
    obtain ⟨c, hc⟩ := List.exists_mem_of_ne_nil w1 h1n
    exact ⟨c, List.mem_append_left _ (List.mem_append_right _ hc), h1 c hc⟩
  have hsplit : ∀ c, (w1 ++ v).head? = some c → (!isSpace c) = false := by
    intro c hc
    cases w1 with
    | nil => exact absurd rfl h1n
    | cons x w1 =>
      simp at hc
      rw [← hc, h1 x List.mem_cons_self]; rfl
  have hkc : ∀ c ∈ k, (!isSpace c) = true := by
    intro c hc
    rw [(keyChar_facts c (hk.chars c hc)).1]; rfl
  have htw : (k ++ w1 ++ v).takeWhile (fun c => !isSpace c) = k := by
    rw [List.append_assoc]; exact takeWhile_front hkc hsplit
  have hdw : (k ++ w1 ++ v).dropWhile (fun c => !isSpace c) = w1 ++ v := by
    rw [List.append_assoc]; exact dropWhile_blank hkc hsplit
  have htv : trim (w1 ++ v) = v := by
    have := trim_pad h1 Blank.nil hv.trimmed
    simpa using this
  cases hkk : k with
  | nil => exact absurd hkk hk.1
  | cons x k' =>
    have hx := keyChar_facts x (hk.chars x (by rw [hkk]; exact List.mem_cons_self))
    rw [hkk] at hany htw hdw
    rw [List.append_assoc, List.cons_append] at hany htw hdw ⊢
    dsimp only
    rw [if_neg hx.2.2.2.2.1, if_neg hx.2.2.2.2.2.1, if_neg hst, if_pos hany, htw, hdw, ← hkk]
    unfold parseEntry
    rw [htv, if_neg hv.trimmed.1, hk.2]
    rfl

/-- a name of a section which can be written into a file -/
structure Name (x : Str) : Prop where
  text : Text x
  chars : ∀ c ∈ x, c ≠ 32 ∧ c ≠ 93
  short : x.length ≤ 127

theorem section_inner (st : State) {inner w0 w : Str} (h0 : Blank w0) (hw : Blank w) (rest : Str) :
    parseLine st (w0 ++ (91 :: inner ++ [93]) ++ w) rest = (parseSection st (inner ++ [93]), rest) := by
  have ht : Trimmed (91 :: inner ++ [93]) := by
    refine ⟨List.cons_ne_nil _ _, ?_, ?_⟩
    · intro c hc
      simp at hc
      rw [← hc]; rfl
    · intro c hc
      rw [getLast_append (by simp)] at hc
      simp at hc
      rw [← hc]; rfl
  unfold parseLine
  rw [trim_pad h0 hw ht]
  rfl

/-- C108: a line with a section type in brackets starts the unnamed section of this type. -/
theorem C108_type_line (st : State) {t w0 w1 w2 w : Str} (ht : Key t) (hl : t.length ≤ 127) (h0 : Blank w0) (h1 : Blank w1) (h2 : Blank w2) (hw : Blank w) (rest : Str) :
    parseLine st (w0 ++ (91 :: (w1 ++ t ++ w2) ++ [93]) ++ w) rest = (.ok ⟨addSection st.db t none, t, []⟩, rest) := by
  have hb : ∀ c, isSpace c = true → c ≠ 93 ∧ c ≠ 61 := by
    intro c hc
    constructor <;> rintro rfl <;> cases hc
  have hall : ∀ c ∈ w1 ++ t ++ w2, c ≠ 93 ∧ c ≠ 61 := by
    intro c hc
    simp only [List.mem_append] at hc
    rcases hc with (h | h) | h
    · exact hb c (h1 c h)
    · have := keyChar_facts c (ht.chars c h)
      exact ⟨this.2.2.2.2.2.2.1, this.2.2.2.2.2.2.2.1⟩
    · exact hb c (h2 c h)
  rw [section_inner st h0 hw]
  congr 1
  unfold parseSection
  rw [if_neg (by simp)]
  have htw : (w1 ++ t ++ w2 ++ [93]).takeWhile (· != 93) = w1 ++ t ++ w2 :=
    takeWhile_front (fun c hc => by simpa using (hall c hc).1) (by intro c hc; simp at hc; rw [← hc]; rfl)
  have hno : (w1 ++ t ++ w2).contains 61 = false := by
    rw [← Bool.not_eq_true, List.contains_iff_mem]
    exact fun h => (hall _ h).2 rfl
  have htw2 : (w1 ++ t ++ w2).takeWhile (· != 61) = w1 ++ t ++ w2 := by
    have := takeWhile_front (p := (· != 61)) (a := w1 ++ t ++ w2) (s := []) (fun c hc => by simpa using (hall c hc).2) (fun c hc => (nomatch hc))
    simpa using this
  dsimp only
  rw [htw, hno, htw2, trim_pad h1 h2 ht.text.trimmed, if_neg ht.1, List.take_of_length_le hl, ht.2]
  rfl

/-- C108: a line with a section type and a name in brackets starts the named section. -/
theorem C108_name_line (st : State) {t x w0 w1 w2 w3 w4 w : Str} (ht : Key t) (hl : t.length ≤ 127) (hx : Name x) (h0 : Blank w0) (h1 : Blank w1) (h2 : Blank w2)
    (h3 : Blank w3) (h4 : Blank w4) (hw : Blank w) (rest : Str) :
    parseLine st (w0 ++ (91 :: (w1 ++ t ++ w2 ++ (61 :: (w3 ++ x ++ w4))) ++ [93]) ++ w) rest = (.ok ⟨addSection st.db t (some x), t, x⟩, rest) := by
  have hb : ∀ c, isSpace c = true → c ≠ 93 ∧ c ≠ 61 := by
    intro c hc
    constructor <;> rintro rfl <;> cases hc
  have hall : ∀ c ∈ w1 ++ t ++ w2, c ≠ 93 ∧ c ≠ 61 := by
    intro c hc
    simp only [List.mem_append] at hc
    rcases hc with (h | h) | h
    · exact hb c (h1 c h)
    · have := keyChar_facts c (ht.chars c h)
      exact ⟨this.2.2.2.2.2.2.1, this.2.2.2.2.2.2.2.1⟩
    · exact hb c (h2 c h)
  have hall2 : ∀ c ∈ w3 ++ x ++ w4, c ≠ 93 := by
    intro c hc
    simp only [List.mem_append] at hc
    rcases hc with (h | h) | h
    · exact (hb c (h3 c h)).1
    · exact (hx.chars c h).2
    · exact (hb c (h4 c h)).1
  have h93 : ∀ c ∈ w1 ++ t ++ w2 ++ (61 :: (w3 ++ x ++ w4)), c ≠ 93 := by
    intro c hc
    rcases List.mem_append.1 hc with h | h
    · exact (hall c h).1
    · rcases List.mem_cons.1 h with rfl | h
      · decide
      · exact hall2 c h
  rw [section_inner st h0 hw]
  congr 1
  unfold parseSection
  rw [if_neg (by simp)]
  have htw : (w1 ++ t ++ w2 ++ (61 :: (w3 ++ x ++ w4)) ++ [93]).takeWhile (· != 93) = w1 ++ t ++ w2 ++ (61 :: (w3 ++ x ++ w4)) :=
    takeWhile_front (fun c hc => by simpa using h93 c hc) (by intro c hc; simp at hc; rw [← hc]; rfl)
  have hyes : (w1 ++ t ++ w2 ++ (61 :: (w3 ++ x ++ w4))).contains 61 = true := by simp
  have hne : ∀ c, (61 :: (w3 ++ x ++ w4)).head? = some c → (c != 61) = false := by
    intro c hc
    simp at hc
    rw [← hc]; rfl
  have htw2 : (w1 ++ t ++ w2 ++ (61 :: (w3 ++ x ++ w4))).takeWhile (· != 61) = w1 ++ t ++ w2 :=
    takeWhile_front (fun c hc => by simpa using (hall c hc).2) hne
  have hdw2 : (w1 ++ t ++ w2 ++ (61 :: (w3 ++ x ++ w4))).dropWhile (· != 61) = 61 :: (w3 ++ x ++ w4) :=
    dropWhile_blank (fun c hc => by simpa using (hall c hc).2) hne
  have hsp : x.contains 32 = false := by
    rw [← Bool.not_eq_true, List.contains_iff_mem]
    exact fun h => (hx.chars _ h).1 rfl
  dsimp only
  rw [htw, hyes, htw2, hdw2, trim_pad h1 h2 ht.text.trimmed, if_neg ht.1, List.take_of_length_le hl, ht.2, List.drop_one, List.tail_cons,
    trim_pad h3 h4 hx.text.trimmed, if_pos rfl, List.take_of_length_le hx.short, hsp]
  simp only [Bool.and_false, Bool.not_true, Bool.false_eq_true, if_false]
  unfold nameArg
  rw [if_neg hx.text.trimmed.1]

/-! ### Saving and loading -/

/-- a database which can be written: keys and names are not longer than the buffers of the parser, the parts of a line do not contain line ends,
surrounding white space or what ends them -/
structure Writable (d : Db) : Prop where
  types : ∀ s ∈ d, Key s.type ∧ s.type.length ≤ 127
  names : ∀ s ∈ d, ∀ n ∈ s.names, ∀ x, n.name = some x → Name x
  entries : ∀ s ∈ d, ∀ n ∈ s.names, ∀ e ∈ n.entries, Key e.name
  values : ∀ s ∈ d, ∀ n ∈ s.names, ∀ e ∈ n.entries, ∀ v ∈ e.vals, Text v

def secLine (t : Str) : Option Str → Str
  | some x => [91] ++ t ++ [61] ++ x ++ [93]
  | none => [91] ++ t ++ [93]

def render : CStep → Str
  | .sec t n => secLine t n
  | .val _ _ e v => [9] ++ e ++ [32] ++ v

def OkStep : CStep → Prop
  | .sec t n => Key t ∧ t.length ≤ 127 ∧ ∀ x, n = some x → Name x
  | .val t _ e v => t ≠ [] ∧ Key e ∧ Text v

def Grouped : Option (Str × Option Str) → List CStep → Prop
  | _, [] => True
  | _, .sec t n :: l => Grouped (some (t, n)) l
  | c, .val t n _ _ :: l => c = some (t, n) ∧ Grouped c l

def rstep (d : Db) : CStep → Db
  | .sec t n => addSection d t n
  | .val t n e v => setEntry d t n e v true true

theorem Grouped.append {c : Option (Str × Option Str)} {a b : List CStep} (ha : Grouped c a) (hb : ∀ c, Grouped c b) : Grouped c (a ++ b) := by
  induction a generalizing c with
  | nil => exact hb c
  | cons x a ih =>
    cases x with
    | sec t n => exact ih (c := some (t, n)) ha
    | val t n e v => exact ⟨ha.1, ih ha.2⟩

theorem grouped_flatMap {α : Type} {f : α → List CStep} {l : List α} (h : ∀ a ∈ l, ∀ c, Grouped c (f a)) : ∀ c, Grouped c (l.flatMap f) := by
  induction l with
  | nil => exact fun _ => trivial
  | cons a l ih =>
    intro c
    rw [List.flatMap_cons]
    exact (h a List.mem_cons_self c).append (ih fun x hx => h x (List.mem_cons_of_mem _ hx))

theorem grouped_vals {t : Str} {n : Option Str} {l : List CStep} (h : ∀ x ∈ l, ∃ e v, x = .val t n e v) : Grouped (some (t, n)) l := by
  induction l with
  | nil => trivial
  | cons x l ih =>
    obtain ⟨e, v, rfl⟩ := h x List.mem_cons_self
    exact ⟨rfl, ih fun y hy => h y (List.mem_cons_of_mem _ hy)⟩

theorem wanted_none (k : Option Str) : wanted k none = true := by simp [wanted]

def steps (d : Db) : List CStep := d.flatMap (typeSteps none none none)

theorem grouped_steps (d : Db) (c : Option (Str × Option Str)) : Grouped c (steps d) := by
  unfold steps
  refine grouped_flatMap (fun s _ => ?_) c
  unfold typeSteps
  rw [if_pos (wanted_none _)]
  refine grouped_flatMap (fun n _ => ?_)
  intro c
  unfold namedSteps
  rw [if_pos (wanted_none _)]
  refine grouped_vals (n := n.name) (t := s.type) ?_
  intro x hx
  obtain ⟨e, _, hx⟩ := List.mem_flatMap.1 hx
  unfold entrySteps at hx
  rw [if_pos (wanted_none _)] at hx
  obtain ⟨v, _, rfl⟩ := List.mem_map.1 hx
  exact ⟨e.name, v, rfl⟩

theorem ok_steps {d : Db} (h : Writable d) : ∀ x ∈ steps d, OkStep x := by
  intro x hx
  unfold steps at hx
  obtain ⟨s, hs, hx⟩ := List.mem_flatMap.1 hx
  unfold typeSteps at hx
  rw [if_pos (wanted_none _)] at hx
  obtain ⟨n, hn, hx⟩ := List.mem_flatMap.1 hx
  unfold namedSteps at hx
  rw [if_pos (wanted_none _)] at hx
  rcases List.mem_cons.1 hx with rfl | hx
  · exact ⟨(h.types s hs).1, (h.types s hs).2, h.names s hs n hn⟩
  · obtain ⟨e, he, hx⟩ := List.mem_flatMap.1 hx
    unfold entrySteps at hx
    rw [if_pos (wanted_none _)] at hx
    obtain ⟨v, hv, rfl⟩ := List.mem_map.1 hx
    exact ⟨(h.types s hs).1.1, h.entries s hs n hn e he, h.values s hs n hn e he v hv⟩

theorem serialize_steps (d : Db) : serialize d = (steps d).flatMap fun x => render x ++ [10] := by
  unfold serialize steps
  rw [List.flatMap_assoc]
  congr 1
  funext s
  unfold typeSteps
  rw [if_pos (wanted_none _), List.flatMap_assoc]
  congr 1
  funext n
  unfold namedSteps
  rw [if_pos (wanted_none _), List.flatMap_cons, List.flatMap_assoc]
  congr 1
  · unfold render secLine
    cases n.name <;> simp
  · congr 1
    funext e
    unfold entrySteps
    rw [if_pos (wanted_none _), List.flatMap_map]
    congr 1

theorem blank_tab : Blank [9] := fun c hc => by rw [List.mem_singleton.1 hc]; rfl
theorem blank_sp : Blank [32] := fun c hc => by rw [List.mem_singleton.1 hc]; rfl

/-- the state after a line -/
def after (st : State) : CStep → State
  | .sec t n => ⟨addSection st.db t n, t, n.getD []⟩
  | .val t n e v => { st with db := setEntry st.db t n e v true true }

theorem getLast_append_one (a : Str) (c : UInt8) : (a ++ [c]).getLast? = some c := by simp

theorem chopCr_of {l : Str} (h : l.getLast? ≠ some 13) : chopCr l = l := by
  unfold chopCr; rw [if_neg h]

theorem render_line {x : CStep} (h : OkStep x) : (∀ c ∈ render x, c ≠ 0 ∧ c ≠ 10) ∧ chopCr (render x) = render x := by
  cases x with
  | sec t n =>
    obtain ⟨ht, _, hx⟩ := h
    constructor
    · intro c hc
      have htc := fun c hc => ht.text.line c hc
      cases n with
      | none =>
        simp only [render, secLine, List.mem_append, List.mem_singleton] at hc
        rcases hc with (rfl | h) | rfl
        · decide
        · exact htc c h
        · decide
      | some y =>
        simp only [render, secLine, List.mem_append, List.mem_singleton] at hc
        rcases hc with (((rfl | h) | rfl) | h) | rfl
        · decide
        · exact htc c h
        · decide
        · exact (hx y rfl).text.line c h
        · decide
    · apply chopCr_of
      cases n with
      | none => simp only [render, secLine]; rw [getLast_append_one]; decide
      | some y => simp only [render, secLine]; rw [getLast_append_one]; decide
  | val t n e v =>
    obtain ⟨_, he, hv⟩ := h
    constructor
    · intro c hc
      simp only [render, List.mem_append, List.mem_singleton] at hc
      rcases hc with ((rfl | h) | rfl) | h
      · decide
      · exact he.text.line c h
      · decide
      · exact hv.line c h
    · apply chopCr_of
      simp only [render]
      rw [getLast_append hv.trimmed.1]
      intro h
      have := hv.trimmed.2.2 13 h
      cases this

theorem line_step {st : State} {x : CStep} (h : OkStep x) {c : Option (Str × Option Str)} {l : List CStep} (hg : Grouped c (x :: l))
    (hc : ∀ t n, c = some (t, n) → st.section_ = t ∧ nameArg st.name = n) (rest : Str) :
    parseLine st (render x) rest = (.ok (after st x), rest) := by
  cases x with
  | sec t n =>
    obtain ⟨ht, hl, hx⟩ := h
    cases n with
    | none =>
      have := C108_type_line st ht hl Blank.nil Blank.nil Blank.nil Blank.nil rest
      simpa [render, secLine, after] using this
    | some y =>
      have := C108_name_line st ht hl (hx y rfl) Blank.nil Blank.nil Blank.nil Blank.nil Blank.nil Blank.nil rest
      simpa [render, secLine, after] using this
  | val t n e v =>
    obtain ⟨ht, he, hv⟩ := h
    obtain ⟨h1, h2⟩ := hc t n hg.1
    have := C108_entry_line st (by rw [h1]; exact ht) he hv blank_tab blank_sp (by simp) Blank.nil rest
    rw [h2] at this
    simpa [render, after, List.append_assoc, h1] using this

theorem parse_steps {l : List CStep} (hok : ∀ x ∈ l, OkStep x) {c : Option (Str × Option Str)} (hg : Grouped c l) {st : State}
    (hc : ∀ t n, c = some (t, n) → st.section_ = t ∧ nameArg st.name = n) {fuel : Nat} (hf : l.length ≤ fuel) :
    parseLoop fuel st ((l.flatMap fun x => render x ++ [10]) ++ [0]) = .ok (l.foldl after st) := by
  induction l generalizing c st fuel with
  | nil => cases fuel <;> simp [parseLoop]
  | cons x l ih =>
    cases fuel with
    | zero => simp at hf
    | succ fuel =>
      obtain ⟨hline, hchop⟩ := render_line (hok x List.mem_cons_self)
      have hmem : ((x :: l).flatMap fun x => render x ++ [10]) ++ [0] = render x ++ (10 :: ((l.flatMap fun x => render x ++ [10]) ++ [0])) := by
        simp [List.flatMap_cons]
      rw [hmem]
      unfold parseLoop
      have htw : (render x ++ (10 :: ((l.flatMap fun x => render x ++ [10]) ++ [0]))).takeWhile (fun c => c != 0 && c != 10) = render x := by
        refine takeWhile_front (fun c hc => ?_) (fun c hc => ?_)
        · have := hline c hc
          simp [this]
        · simp at hc
          rw [← hc]; rfl
      rw [if_neg (by simp only [List.length_append, List.length_cons]; omega)]
      dsimp only
      rw [htw, hchop]
      have hdrop : (render x ++ (10 :: ((l.flatMap fun x => render x ++ [10]) ++ [0]))).drop ((render x).length + 1) = (l.flatMap fun x => render x ++ [10]) ++ [0] := by
        exact drop_line _ _ _
      rw [hdrop, line_step (hok x List.mem_cons_self) hg hc]
      dsimp only
      rw [List.foldl_cons]
      cases x with
      | sec t n =>
        refine ih (c := some (t, n)) (fun y hy => hok y (List.mem_cons_of_mem _ hy)) hg ?_ (by simpa using hf)
        rintro t' n' ⟨⟩
        refine ⟨rfl, ?_⟩
        unfold after nameArg
        cases n with
        | none => rfl
        | some y =>
          have := ((hok _ List.mem_cons_self).2.2 y rfl).text.trimmed.1
          simp [this]
      | val t n e v =>
        exact ih (c := c) (st := after st (.val t n e v)) (fun y hy => hok y (List.mem_cons_of_mem _ hy)) hg.2 hc (by simpa using hf)

theorem after_db (l : List CStep) (st : State) : (l.foldl after st).db = l.foldl rstep st.db := by
  induction l generalizing st with
  | nil => rfl
  | cons x l ih =>
    rw [List.foldl_cons, List.foldl_cons, ih]
    cases x <;> rfl

theorem rsteps_view (cs : List CStep) (d : Db) (t : Str) (n : Option Str) (e : Str) :
    has (cs.foldl rstep d) t n = (has d t n || touched t n cs) ∧
    vals (cs.foldl rstep d) t n e = if added t n e cs = [] then vals d t n e else some ((added t n e cs).reverse ++ (vals d t n e).getD []) := by
  induction cs generalizing d with
  | nil => simp [touched, added]
  | cons c cs ih =>
    rw [List.foldl_cons, (ih _).1, (ih _).2]
    cases c with
    | sec t' n' =>
      have h := C102_addSection d t' n' t n e
      simp only [rstep]
      rw [h.1, h.2]
      constructor
      · simp [touched, Bool.or_assoc]
      · rfl
    | val t' n' e' v =>
      have h := C102_setEntry d t' n' e' v true true t n e
      simp only [rstep]
      rw [h.1, h.2]
      constructor
      · simp [touched, Bool.or_assoc]
      · by_cases hs : SameEntry t' n' e' t n e
        · rw [if_pos hs]
          have : added t n e (.val t' n' e' v :: cs) = v :: added t n e cs := by
            unfold added; rw [List.filterMap_cons]; dsimp only; rw [if_pos hs]
          rw [this, if_neg (List.cons_ne_nil _ _)]
          by_cases h0 : added t n e cs = []
          · rw [if_pos h0, h0]; simp
          · rw [if_neg h0]; simp
        · rw [if_neg hs]
          have : added t n e (.val t' n' e' v :: cs) = added t n e cs := by
            unfold added; rw [List.filterMap_cons]; dsimp only; rw [if_neg hs]
          rw [this]

/-- C108: loading a saved database succeeds and gives the same sections and entries; the values of an entry are in the reverse order. -/
theorem C108_reversed {d : Db} (hw : Wf d) (h : Writable d) :
    ∃ st, parse [] (serialize d) = .ok st ∧ (∀ t n, has st.db t n = has d t n) ∧ ∀ t n e, vals st.db t n e = (vals d t n e).map List.reverse := by
  refine ⟨(steps d).foldl after ⟨[], [], []⟩, ?_, ?_, ?_⟩
  · unfold parse
    rw [serialize_steps]
    refine parse_steps (c := none) (ok_steps h) (grouped_steps d none) (fun t n h => (nomatch h)) ?_
    generalize steps d = l
    induction l with
    | nil => simp
    | cons x l ih => simp only [List.flatMap_cons, List.length_append, List.length_cons, List.length_nil]; omega
  · intro t n
    rw [after_db, (rsteps_view _ _ t n []).1]
    unfold steps
    rw [touched_src hw, wanted_none, wanted_none]
    simp [has, findNamed, findType, find]
  · intro t n e
    rw [after_db, (rsteps_view _ _ t n e).2]
    unfold steps
    rw [added_src hw, wanted_none, wanted_none, wanted_none]
    have h0 : vals [] t n e = none := rfl
    rw [h0]
    simp only [Bool.and_self, if_true]
    cases hv : vals d t n e with
    | none => simp
    | some vs =>
      have hne : vs ≠ [] := by
        unfold vals at hv
        obtain ⟨x, hx, rfl⟩ := Option.map_eq_some_iff.1 hv
        unfold findEntry findNamed findType at hx
        split at hx
        · cases hx
        rename_i s hs
        split at hs
        · cases hs
        rename_i s' hst
        exact hw.vals s' (find_mem hst).1 s (find_mem hs).1 x (find_mem hx).1
      simp [hne]

/-- C108: a database in which every entry has a single value is the same after saving and loading. -/
theorem C108_roundtrip_partial {d : Db} (hw : Wf d) (h : Writable d) (h1 : ∀ t n e vs, vals d t n e = some vs → vs.length ≤ 1) :
    ∃ st, parse [] (serialize d) = .ok st ∧ Equal st.db d := by
  obtain ⟨st, hp, hh, hv⟩ := C108_reversed hw h
  refine ⟨st, hp, hh, fun t n e => ?_⟩
  rw [hv]
  cases hx : vals d t n e with
  | none => rfl
  | some vs =>
    have := h1 t n e vs hx
    match vs, this with
    | [], _ => rfl
    | [_], _ => rfl

/-- C108: the value which is used for an entry (the first one) changes by saving and loading. -/
theorem C108_order_counterexample :
    let d := run [] [.setEntry [97] none [98] [49] true false, .setEntry [97] none [98] [50] true false]
    vals d [97] none [98] = some [[49], [50]] ∧ Writable d ∧
    ∃ st, parse [] (serialize d) = .ok st ∧ vals st.db [97] none [98] = some [[50], [49]] := by
  refine ⟨by decide +kernel, ?_, ⟨[⟨[97], [⟨none, [⟨[98], [[50], [49]]⟩]⟩]⟩], [97], []⟩, by decide +kernel, by decide +kernel⟩
  have hk : ∀ c : UInt8, c = 97 ∨ c = 98 → Key [c] := by
    rintro c (rfl | rfl) <;> exact ⟨List.cons_ne_nil _ _, rfl⟩
  have ht : ∀ c : UInt8, c = 49 ∨ c = 50 → Text [c] := by
    rintro c (rfl | rfl) <;>
      exact ⟨⟨List.cons_ne_nil _ _, by rintro _ ⟨⟩; rfl, by rintro _ ⟨⟩; rfl⟩, by intro c hc; rw [List.mem_singleton.1 hc]; decide⟩
  have hd : run [] [.setEntry [97] none [98] [49] true false, .setEntry [97] none [98] [50] true false] = [⟨[97], [⟨none, [⟨[98], [[49], [50]]⟩]⟩]⟩] := by decide +kernel
  rw [hd]
  refine ⟨?_, ?_, ?_, ?_⟩
  · intro s hs
    rw [List.mem_singleton.1 hs]
    exact ⟨hk 97 (.inl rfl), by decide⟩
  · intro s hs n hn x hx
    rw [List.mem_singleton.1 hs] at hn
    rw [List.mem_singleton.1 hn] at hx
    cases hx
  · intro s hs n hn e he
    rw [List.mem_singleton.1 hs] at hn
    rw [List.mem_singleton.1 hn] at he
    rw [List.mem_singleton.1 he]
    exact hk 98 (.inr rfl)
  · intro s hs n hn e he v hv
    rw [List.mem_singleton.1 hs] at hn
    rw [List.mem_singleton.1 hn] at he
    rw [List.mem_singleton.1 he] at hv
    rcases List.mem_cons.1 hv with rfl | hv
    · exact ht 49 (.inl rfl)
    · rw [List.mem_singleton.1 hv]; exact ht 50 (.inr rfl)

/-- C108: a file which ends with a key without value: the search for the separator leaves the buffer (for every key, after any section type). -/
theorem C108_overrun_counterexample {t k : Str} (ht : Key t) (hl : t.length ≤ 127) (hk : Key k) : parse [] ([91] ++ t ++ [93, 10] ++ k) = .fault := by
  unfold parse
  have hlen : ([91] ++ t ++ [93, 10] ++ k).length = (t.length + k.length + 1) + 1 + 1 := by simp; omega
  rw [hlen]
  have hmem : [91] ++ t ++ [93, 10] ++ k ++ [0] = secLine t none ++ (10 :: (k ++ [0])) := by simp [secLine]
  have hr := render_line (x := .sec t none) ⟨ht, hl, fun x hx => (nomatch hx)⟩
  rw [hmem]
  conv => lhs; unfold parseLoop
  rw [if_neg (by simp only [List.length_append, List.length_cons]; omega)]
  dsimp only
  have htw : (secLine t none ++ (10 :: (k ++ [0]))).takeWhile (fun c => c != 0 && c != 10) = secLine t none := by
    refine takeWhile_front (fun c hc => ?_) (fun c hc => ?_)
    · have := hr.1 c hc
      simp [this]
    · simp at hc
      rw [← hc]; rfl
  have hdrop : (secLine t none ++ (10 :: (k ++ [0]))).drop ((secLine t none).length + 1) = k ++ [0] := by
    exact drop_line _ _ _
  have hchop : chopCr (secLine t none) = secLine t none := hr.2
  rw [htw, hdrop, hchop]
  have hsl : parseLine ⟨[], [], []⟩ (secLine t none) (k ++ [0]) = (.ok ⟨addSection [] t none, t, []⟩, k ++ [0]) := by
    have := C108_type_line ⟨[], [], []⟩ ht hl Blank.nil Blank.nil Blank.nil Blank.nil (k ++ [0])
    simpa [secLine] using this
  rw [hsl]
  dsimp only
  unfold parseLoop
  have hkl : k.length ≠ 0 := by
    intro h0
    exact hk.1 (List.eq_nil_of_length_eq_zero h0)
  rw [if_neg (by rw [List.length_append, List.length_singleton]; omega)]
  dsimp only
  have htw2 : (k ++ [0]).takeWhile (fun c => c != 0 && c != 10) = k := by
    refine takeWhile_front (fun c hc => ?_) (fun c hc => ?_)
    · have := hk.text.line c hc
      simp [this]
    · simp at hc
      rw [← hc]; rfl
  have hchop2 : chopCr k = k := by
    apply chopCr_of
    intro h
    have := hk.text.trimmed.2.2 13 h
    cases this
  have hdrop2 : (k ++ [0]).drop (k.length + 1) = [] := by
    rw [List.drop_eq_nil_of_le]; simp
  rw [htw2, hchop2, hdrop2]
  unfold parseLine
  rw [trim_self hk.text.trimmed]
  have hany : k.any isSpace = false := by
    rw [List.any_eq_false]
    intro c hc
    rw [(keyChar_facts c (hk.chars c hc)).1]; decide
  have hnone : ([] : Str).any isSpace = false := rfl
  cases hkk : k with
  | nil => exact absurd hkk hk.1
  | cons x k' =>
    have hx := keyChar_facts x (hk.chars x (by rw [hkk]; exact List.mem_cons_self))
    rw [hkk] at hany
    dsimp only
    rw [if_neg hx.2.2.2.2.1, if_neg hx.2.2.2.2.2.1, if_neg ht.1, hany, hnone]
    rfl

/-- C108: a line without value gets the rest of the file as value. -/
theorem C108_swallow_counterexample :
    ∃ st, parse [] ([91, 97, 93, 10, 98, 10, 9, 99, 32, 49, 10, 91, 100, 93, 10]) = .ok st ∧
      vals st.db [97] none [98] = some [[99, 32, 49, 10, 91, 100, 93]] := by
  exact ⟨⟨[⟨[97], [⟨none, [⟨[98], [[99, 32, 49, 10, 91, 100, 93]]⟩, ⟨[99], [[49]]⟩]⟩]⟩, ⟨[100], [⟨none, []⟩]⟩], [100], []⟩, by decide +kernel, by decide +kernel⟩

example : parse [] [32, 91, 97, 61, 98, 93, 13, 10, 35, 120, 10, 9, 99, 9, 49, 32, 50, 13, 10] =
    .ok ⟨[⟨[97], [⟨some [98], [⟨[99], [[49, 32, 50]]⟩]⟩]⟩], [97], [98]⟩ := by decide +kernel

end Verif.Cfg.Compact
