import Verif.Cfg.CmdModel
import Verif.Cfg.Compact

/-
The configuration commands: syntax of the argument and effect on the database.
-/
namespace Verif.Cfg.Cmd
open Verif.Cfg Verif.Cfg.Compact

/-! ### Syntax -/

/-- the argument for a section, key and value: `type.key=value` or `type[name].key=value`; section, key and value may be missing -/
def render (a : Arg) : Str :=
  (match a.type with
   | none => []
   | some t => t ++ (match a.name with
      | none => []
      | some n => [91] ++ n ++ [93]) ++ [46]) ++
  a.key.getD [] ++
  (match a.value with
   | none => []
   | some v => [61] ++ v)

/-- section types and keys are identifiers, a name does not contain a bracket and needs a section type -/
structure Valid (a : Arg) : Prop where
  type : ∀ t, a.type = some t → Key t
  name : ∀ n, a.name = some n → a.type ≠ none ∧ (93 : UInt8) ∉ n
  key : ∀ k, a.key = some k → Key k

theorem ident_key {k r : Str} (hk : Key k) (hr : ∀ c, r.head? = some c → isKeyChar c = false) : ident (k ++ r) = k := by
  have h := hk.2
  unfold allowedKey at h
  rw [Bool.and_eq_true] at h
  cases hkk : k with
  | nil => exact absurd hkk hk.1
  | cons c k' =>
    rw [hkk] at h
    unfold ident
    rw [List.cons_append]
    dsimp only
    have h1 := h.1
    simp at h1
    rw [if_neg (by
      rintro ⟨ha, hb⟩
      rcases h1 with h1 | h1
      · exact absurd ha (UInt8.not_le.2 h1)
      · exact absurd hb (UInt8.not_le.2 h1)), ← List.cons_append]
    rw [← hkk]
    exact takeWhile_front (fun x hx => hk.chars x hx) hr

theorem ident_none {s : Str} (hs : ∀ c, s.head? = some c → isKeyChar c = false) : ident s = [] := by
  cases s with
  | nil => rfl
  | cons c s =>
    unfold ident
    dsimp only
    split
    · rfl
    · rw [List.takeWhile_cons, if_neg (by rw [hs c rfl]; decide)]

theorem ident_split (s : Str) : s = ident s ++ s.drop (ident s).length := by
  have hp : ident s <+: s := by
    unfold ident
    cases s with
    | nil => exact List.prefix_refl _
    | cons c s =>
      dsimp only
      split
      · exact List.nil_prefix
      · exact List.takeWhile_prefix _
  obtain ⟨r, hr⟩ := hp
  have : s.drop (ident s).length = r := by
    conv => lhs; rw [← hr]
    rw [List.drop_append_of_le_length (by rw [hr]; exact Nat.le_refl _), hr]
    simp
  rw [this, hr]

theorem ident_ok (s : Str) (h : ident s ≠ []) : Key (ident s) := by
  refine ⟨h, ?_⟩
  unfold ident at h ⊢
  cases s with
  | nil => exact absurd rfl h
  | cons c s =>
    dsimp only at h ⊢
    split
    · rename_i hc
      rw [if_pos hc] at h
      exact absurd rfl h
    · rename_i hc
      unfold allowedKey
      rw [Bool.and_eq_true]
      constructor
      · rw [List.takeWhile_cons]
        split
        · simp
          rw [← UInt8.not_le, ← UInt8.not_le]
          exact Classical.not_and_iff_not_or_not.1 hc
        · rfl
      · rw [List.all_eq_true]
        intro x hx
        exact List.all_eq_true.1 (List.all_takeWhile (l := c :: s)) x hx

theorem optional_ok (s : Str) : (optional (ident s)).getD [] = ident s ∧ ∀ k, optional (ident s) = some k → Key k := by
  unfold optional
  split
  · rename_i h
    rw [h]
    exact ⟨rfl, fun k hk => (nomatch hk)⟩
  · rename_i h
    refine ⟨rfl, ?_⟩
    rintro k ⟨⟩
    exact ident_ok s h

theorem parseValue_iff (a b : Arg) (ha : a.value = none) (s : Str) :
    parseValue a s = some b ↔ s = (match b.value with | none => [] | some v => [61] ++ v) ∧ b.type = a.type ∧ b.name = a.name ∧ b.key = a.key := by
  obtain ⟨t, n, k, v⟩ := a
  obtain ⟨t', n', k', v'⟩ := b
  dsimp only at ha
  subst ha
  cases s with
  | nil =>
    simp only [parseValue, Option.some.injEq, Arg.mk.injEq]
    cases v' with
    | none =>
      constructor
      · rintro ⟨rfl, rfl, rfl, _⟩; exact ⟨rfl, rfl, rfl, rfl⟩
      · rintro ⟨_, rfl, rfl, rfl⟩; exact ⟨rfl, rfl, rfl, rfl⟩
    | some v =>
      constructor
      · rintro ⟨_, _, _, h⟩; cases h
      · rintro ⟨h, _⟩; cases h
  | cons c s =>
    simp only [parseValue]
    by_cases hc : c = 61
    · rw [if_pos hc]
      simp only [Option.some.injEq, Arg.mk.injEq]
      cases v' with
      | none =>
        constructor
        · rintro ⟨_, _, _, h⟩; cases h
        · rintro ⟨h, _⟩; cases h
      | some v =>
        constructor
        · rintro ⟨rfl, rfl, rfl, h⟩
          cases h
          exact ⟨by rw [hc]; rfl, rfl, rfl, rfl⟩
        · rintro ⟨h, rfl, rfl, rfl⟩
          cases h
          exact ⟨rfl, rfl, rfl, rfl⟩
    · rw [if_neg hc]
      constructor
      · intro h; cases h
      · rintro ⟨h, _⟩
        cases v' with
        | none => cases h
        | some v =>
          cases h
          exact absurd rfl hc

def keyValue (a : Arg) : Str :=
  a.key.getD [] ++
  (match a.value with
   | none => []
   | some v => [61] ++ v)

theorem value_head (v : Option Str) : ∀ c : UInt8, (match v with | none => ([] : Str) | some v => [61] ++ v).head? = some c → c = 61 := by
  intro c hc
  cases v with
  | none => cases hc
  | some v => cases hc; rfl

theorem parseKey_iff (t n : Option Str) (s : Str) (b : Arg) :
    parseKey t n s = some b ↔ s = keyValue b ∧ b.type = t ∧ b.name = n ∧ ∀ k, b.key = some k → Key k := by
  unfold parseKey
  rw [parseValue_iff _ _ rfl]
  dsimp only
  constructor
  · rintro ⟨h, h1, h2, h3⟩
    refine ⟨?_, h1, h2, ?_⟩
    · unfold keyValue
      rw [h3, (optional_ok s).1, ← h, ← ident_split s]
    · rw [h3]; exact (optional_ok s).2
  · rintro ⟨h, h1, h2, h3⟩
    have hid : ident s = b.key.getD [] := by
      rw [h]
      unfold keyValue
      cases hk : b.key with
      | none =>
        refine ident_none ?_
        intro c hc
        rw [Option.getD_none, List.nil_append] at hc
        rw [value_head _ c hc]; rfl
      | some k =>
        refine ident_key (h3 k hk) ?_
        intro c hc
        rw [value_head _ c hc]; rfl
    refine ⟨?_, h1, h2, ?_⟩
    · rw [hid]
      conv => lhs; rw [h]
      unfold keyValue
      rw [List.drop_left]
    · rw [hid]
      unfold optional
      cases hk : b.key with
      | none => rfl
      | some k => rw [Option.getD_some, if_neg (h3 k hk).1]

theorem render_eq (a : Arg) : render a =
    (match a.type with
     | none => []
     | some t => t ++ (match a.name with
        | none => []
        | some n => [91] ++ n ++ [93]) ++ [46]) ++ keyValue a := by
  unfold render keyValue
  rw [List.append_assoc]

theorem parse_sound {s : Str} {a : Arg} (h : parseArg s = some a) : Valid a ∧ render a = s := by
  unfold parseArg at h
  dsimp only at h
  have hsplit := ident_split s
  generalize hid : ident s = id at h hsplit
  have hok : id ≠ [] → Key id := by rw [← hid]; exact ident_ok s
  generalize s.drop id.length = r at h hsplit
  have hnone : parseKey none none s = some a → Valid a ∧ render a = s := by
    intro h
    obtain ⟨h0, h1, h2, h3⟩ := (parseKey_iff _ _ _ _).1 h
    refine ⟨⟨?_, ?_, h3⟩, ?_⟩
    · intro t ht; rw [h1] at ht; cases ht
    · intro n hn; rw [h2] at hn; cases hn
    · rw [render_eq, h1]; exact h0.symm
  split at h
  · rename_i x y r
    obtain ⟨h0, h1, h2, h3⟩ := (parseKey_iff _ _ _ _).1 h
    refine ⟨⟨?_, ?_, h3⟩, ?_⟩
    · intro t ht; rw [h1] at ht; cases ht; exact hok (List.cons_ne_nil _ _)
    · intro n hn; rw [h2] at hn; cases hn
    · rw [render_eq, h1, h2, ← h0, hsplit]
      simp
  · rename_i x y r
    split at h
    · rename_i r' hr'
      obtain ⟨h0, h1, h2, h3⟩ := (parseKey_iff _ _ _ _).1 h
      refine ⟨⟨?_, ?_, h3⟩, ?_⟩
      · intro t ht; rw [h1] at ht; cases ht; exact hok (List.cons_ne_nil _ _)
      · intro n hn
        rw [h2] at hn; cases hn
        refine ⟨by rw [h1]; exact fun h => (nomatch h), fun hm => ?_⟩
        have := List.all_eq_true.1 (List.all_takeWhile (l := r)) _ hm
        cases this
      · rw [render_eq, h1, h2, ← h0, hsplit]
        have : r = r.takeWhile (· != 93) ++ (93 :: 46 :: r') := by rw [← hr', List.takeWhile_append_dropWhile]
        conv => rhs; rw [this]
        simp
    · cases h
  · exact hnone h

theorem parse_complete {a : Arg} (h : Valid a) : parseArg (render a) = some a := by
  unfold parseArg
  dsimp only
  have h46 : isKeyChar 46 = false := by decide
  have h91 : isKeyChar 91 = false := by decide
  cases ht : a.type with
  | none =>
    have hn : a.name = none := by
      cases hn : a.name with
      | none => rfl
      | some n => exact absurd ht (h.name n hn).1
    have hr : render a = keyValue a := by rw [render_eq, ht]; rfl
    have hp : parseKey none none (render a) = some a := (parseKey_iff _ _ _ _).2 ⟨hr, ht, hn, h.key⟩
    have hid : ident (render a) = a.key.getD [] := by
      rw [hr]
      unfold keyValue
      cases hk : a.key with
      | none =>
        refine ident_none ?_
        intro c hc
        rw [Option.getD_none, List.nil_append] at hc
        rw [value_head _ c hc]; rfl
      | some k =>
        refine ident_key (h.key k hk) ?_
        intro c hc
        rw [value_head _ c hc]; rfl
    have hd : (render a).drop (ident (render a)).length = (match a.value with | none => [] | some v => [61] ++ v) := by
      rw [hid]
      conv => lhs; rw [hr]
      unfold keyValue
      rw [List.drop_left]
    rw [hd]
    split
    · rename_i h2
      cases hv : a.value <;> rw [hv] at h2 <;> cases h2
    · rename_i h2
      cases hv : a.value <;> rw [hv] at h2 <;> cases h2
    · exact hp
  | some t =>
    have hk := h.type t ht
    cases hn : a.name with
    | none =>
      have hr : render a = t ++ (46 :: keyValue a) := by rw [render_eq, ht, hn]; simp
      have hid : ident (render a) = t := by
        rw [hr]
        refine ident_key hk ?_
        rintro c ⟨⟩; exact h46
      have hd : (render a).drop (ident (render a)).length = 46 :: keyValue a := by
        rw [hid]
        conv => lhs; rw [hr]
        rw [List.drop_left]
      rw [hd, hid]
      have hp : parseKey (some t) none (keyValue a) = some a := (parseKey_iff _ _ _ _).2 ⟨rfl, ht, hn, h.key⟩
      cases htt : t with
      | nil => exact absurd htt hk.1
      | cons x t' => rw [htt] at hp; exact hp
    | some n =>
      have hr : render a = t ++ (91 :: (n ++ (93 :: 46 :: keyValue a))) := by rw [render_eq, ht, hn]; simp
      have hid : ident (render a) = t := by
        rw [hr]
        refine ident_key hk ?_
        rintro c ⟨⟩; exact h91
      have hd : (render a).drop (ident (render a)).length = 91 :: (n ++ (93 :: 46 :: keyValue a)) := by
        rw [hid]
        conv => lhs; rw [hr]
        rw [List.drop_left]
      rw [hd, hid]
      have hnc : ∀ c ∈ n, (c != 93) = true := by
        intro c hc
        rw [bne_iff_ne]
        rintro rfl
        exact (h.name n hn).2 hc
      have hhd : ∀ c, ((93 :: 46 :: keyValue a : Str)).head? = some c → (c != 93) = false := by
        rintro c ⟨⟩; rfl
      have hdw : (n ++ (93 :: 46 :: keyValue a)).dropWhile (· != 93) = 93 :: 46 :: keyValue a := dropWhile_blank hnc hhd
      have htw : (n ++ (93 :: 46 :: keyValue a)).takeWhile (· != 93) = n := takeWhile_front hnc hhd
      have hp : parseKey (some t) (some n) (keyValue a) = some a := (parseKey_iff _ _ _ _).2 ⟨rfl, ht, hn, h.key⟩
      cases htt : t with
      | nil => exact absurd htt hk.1
      | cons x t' =>
        rw [htt] at hp
        show (match (n ++ (93 :: 46 :: keyValue a)).dropWhile (· != 93) with
          | 93 :: 46 :: r' => parseKey (some (x :: t')) (some ((n ++ (93 :: 46 :: keyValue a)).takeWhile (· != 93))) r'
          | _ => none) = some a
        rw [hdw, htw]
        exact hp

/-- C109: an argument is accepted exactly if it has the form `type[name].key=value`, where section, name, key and value may be missing, and it is
split into these parts. -/
theorem C109_syntax (s : Str) (a : Arg) : parseArg s = some a ↔ Valid a ∧ render a = s :=
  ⟨parse_sound, fun h => by rw [← h.2]; exact parse_complete h.1⟩

/-! ### Commands -/

/-- C109: set with section, key and value puts the value in front of the values of the entry (creating the section), and changes nothing else. -/
theorem C109_set (d : Db) {t k v : Str} {n : Option Str} (h : Valid ⟨some t, n, some k, some v⟩) :
    ∃ d', set d (render ⟨some t, n, some k, some v⟩) = .ok d' [] ∧
      (∀ t' n', has d' t' n' = (has d t' n' || decide (SameSec t n t' n'))) ∧
      ∀ t' n' e', vals d' t' n' e' = if SameEntry t n k t' n' e' then some (v :: (vals d t' n' e').getD []) else vals d t' n' e' := by
  refine ⟨setEntry d t n k v true true, ?_, ?_, ?_⟩
  · unfold set
    rw [parse_complete h]
  · exact fun t' n' => (C102_setEntry d t n k v true true t' n' []).1
  · intro t' n' e'
    rw [(C102_setEntry d t n k v true true t' n' e').2]
    rfl

/-- C109: set with a section only creates the section. -/
theorem C109_set_section (d : Db) {t : Str} {n : Option Str} (h : Valid ⟨some t, n, none, none⟩) :
    ∃ d', set d (render ⟨some t, n, none, none⟩) = .ok d' [] ∧
      (∀ t' n', has d' t' n' = (has d t' n' || decide (SameSec t n t' n'))) ∧ ∀ t' n' e', vals d' t' n' e' = vals d t' n' e' := by
  refine ⟨addSection d t n, ?_, ?_, ?_⟩
  · unfold set
    rw [parse_complete h]
  · exact fun t' n' => (C102_addSection d t n t' n' []).1
  · exact fun t' n' e' => (C102_addSection d t n t' n' e').2

/-- C109: set is refused (without change) exactly if the argument has not the right form or has a key but no value. -/
theorem C109_set_error (d : Db) (s : Str) :
    (∃ d', set d s = .error d') ↔ (∀ a, Valid a → render a ≠ s) ∨ ∃ a, Valid a ∧ render a = s ∧ a.key ≠ none ∧ a.value = none := by
  unfold set
  cases hp : parseArg s with
  | none =>
    simp only
    constructor
    · intro _
      left
      intro a ha hr
      have := (C109_syntax s a).2 ⟨ha, hr⟩
      rw [hp] at this; cases this
    · exact fun _ => ⟨d, rfl⟩
  | some a =>
    obtain ⟨hv, hr⟩ := (C109_syntax s a).1 hp
    have huniq : ∀ b, Valid b → render b = s → b = a := by
      intro b hb hbr
      have := (C109_syntax s b).2 ⟨hb, hbr⟩
      rw [hp] at this; cases this; rfl
    obtain ⟨t, n, k, v⟩ := a
    constructor
    · intro ⟨d', h⟩
      right
      refine ⟨_, hv, hr, ?_⟩
      cases v with
      | some v => cases t <;> cases k <;> cases h
      | none =>
        cases k with
        | some k => exact ⟨fun h => (nomatch h), rfl⟩
        | none => cases t <;> cases h
    · rintro (h | ⟨b, hb, hbr, hk, hbv⟩)
      · exact absurd hr (h _ hv)
      · have := huniq b hb hbr
        subst this
        dsimp only at hk hbv
        subst hbv
        cases k with
        | none => exact absurd rfl hk
        | some k => exact ⟨d, rfl⟩

/-- C109: set stops the program exactly if the argument has a value but no key or no section, or is empty. -/
theorem C109_set_abort_counterexample (d : Db) (s : Str) :
    set d s = .abort ↔ s = [] ∨ ∃ a, Valid a ∧ render a = s ∧ a.value ≠ none ∧ (a.type = none ∨ a.key = none) := by
  unfold set
  cases hp : parseArg s with
  | none =>
    simp only
    constructor
    · intro h; cases h
    · rintro (rfl | ⟨a, hv, hr, _⟩)
      · cases hp
      · have := (C109_syntax s a).2 ⟨hv, hr⟩
        rw [hp] at this; cases this
  | some a =>
    obtain ⟨hv, hr⟩ := (C109_syntax s a).1 hp
    have huniq : ∀ b, Valid b → render b = s → b = a := by
      intro b hb hbr
      have := (C109_syntax s b).2 ⟨hb, hbr⟩
      rw [hp] at this; cases this; rfl
    obtain ⟨t, n, k, v⟩ := a
    constructor
    · intro h
      cases v with
      | some v =>
        right
        refine ⟨_, hv, hr, fun h => (nomatch h), ?_⟩
        cases t with
        | none => exact .inl rfl
        | some t =>
          cases k with
          | none => exact .inr rfl
          | some k => cases h
      | none =>
        cases k with
        | some k => cases h
        | none =>
          cases t with
          | some t => cases h
          | none =>
            left
            rw [← hr, render_eq]
            rfl
    · rintro (rfl | ⟨b, hb, hbr, hbv, hc⟩)
      · cases hp; rfl
      · have := huniq b hb hbr
        subst this
        dsimp only at hbv hc
        cases v with
        | none => exact absurd rfl hbv
        | some v =>
          rcases hc with rfl | rfl
          · rfl
          · cases t <;> rfl

/-- C109: remove with section and key removes exactly the entry, and fails if there is none. -/
theorem C109_remove_entry (d : Db) {t k : Str} {n : Option Str} (h : Valid ⟨some t, n, some k, none⟩) :
    if vals d t n k = none then remove d (render ⟨some t, n, some k, none⟩) = .error d
    else ∃ d', remove d (render ⟨some t, n, some k, none⟩) = .ok d' [] ∧ (∀ t' n', has d' t' n' = has d t' n') ∧
      ∀ t' n' e', vals d' t' n' e' = if SameEntry t n k t' n' e' then none else vals d t' n' e' := by
  have hr := (C102_removeEntry d t n k t n k).2.2
  unfold remove
  rw [parse_complete h]
  dsimp only
  rw [hr]
  split
  · rename_i hv
    rw [hv]
    have hd : (removeEntry d t n k).1 = d := by
      unfold removeEntry
      have : findEntry d t n k = none := by
        unfold vals at hv
        exact Option.map_eq_none_iff.1 hv
      rw [this]
    simp [hd]
  · rename_i hv
    refine ⟨(removeEntry d t n k).1, ?_, fun t' n' => (C102_removeEntry d t n k t' n' []).1, fun t' n' e' => (C102_removeEntry d t n k t' n' e').2.1⟩
    rw [if_pos (by rw [Option.isSome_iff_ne_none]; exact hv)]

/-- C109: remove with a section type removes exactly the sections of this type. -/
theorem C109_remove_type (d : Db) {t : Str} (h : Valid ⟨some t, none, none, none⟩) (hd : findType d t ≠ none) :
    ∃ d', remove d (render ⟨some t, none, none, none⟩) = .ok d' [] ∧
      (∀ t' n', has d' t' n' = (has d t' n' && !decide (Same (some t) (some t')))) ∧
      ∀ t' n' e', vals d' t' n' e' = if Same (some t) (some t') then none else vals d t' n' e' := by
  refine ⟨(removeType d t).1, ?_, fun t' n' => (C102_removeType d t t' n' []).1, fun t' n' e' => (C102_removeType d t t' n' e').2.1⟩
  unfold remove
  rw [parse_complete h]
  dsimp only
  rw [if_neg (by decide)]
  have : (removeType d t).2 = true := by
    unfold removeType
    cases hf : findType d t with
    | none => exact absurd hf hd
    | some s => rfl
  rw [if_pos this]

theorem findType_of_has {d : Db} {t : Str} {n : Option Str} (h : has d t n = true) : findType d t ≠ none := by
  intro h0
  unfold has findNamed at h
  rw [h0] at h
  cases h

theorem findType_removeNamed {d : Db} {t : Str} {n : Option Str} (h : findType d t ≠ none) : findType (removeNamed d t n).1 t ≠ none := by
  unfold removeNamed
  cases hf : findNamed d t n with
  | none => exact h
  | some x =>
    unfold findType
    dsimp only
    rw [find_upd (by intro s; rfl)]
    intro h0
    apply h
    split at h0
    · exact Option.map_eq_none_iff.1 h0
    · exact h0

/-- C109: remove with a section type and a name removes not only this section but all sections of the type. -/
theorem C109_remove_name_counterexample (d : Db) {t n : Str} (h : Valid ⟨some t, some n, none, none⟩) (hd : has d t (some n) = true) :
    ∃ d', remove d (render ⟨some t, some n, none, none⟩) = .ok d' [] ∧
      (∀ t' n', has d' t' n' = (has d t' n' && !decide (Same (some t) (some t')))) ∧
      ∀ t' n' e', vals d' t' n' e' = if Same (some t) (some t') then none else vals d t' n' e' := by
  refine ⟨(removeType (removeNamed d t (some n)).1 t).1, ?_, ?_, ?_⟩
  · unfold remove
    rw [parse_complete h]
    dsimp only
    rw [(C102_removeNamed d t (some n) t (some n) []).2.2, hd, if_neg (by decide)]
    have : (removeType (removeNamed d t (some n)).1 t).2 = true := by
      unfold removeType
      have hne := findType_removeNamed (n := some n) (findType_of_has hd)
      cases hf : findType (removeNamed d t (some n)).1 t with
      | none => exact absurd hf hne
      | some s => rfl
    rw [if_pos this]
  · intro t' n'
    rw [(C102_removeType _ t t' n' []).1, (C102_removeNamed d t (some n) t' n' []).1]
    by_cases hs : Same (some t) (some t')
    · rw [decide_eq_true hs]; simp
    · rw [decide_eq_false hs, decide_eq_false (fun hc => hs hc.1)]
      cases has d t' n' <;> rfl
  · intro t' n' e'
    rw [(C102_removeType _ t t' n' e').2.1, (C102_removeNamed d t (some n) t' n' e').2.1]
    by_cases hs : Same (some t) (some t')
    · rw [if_pos hs, if_pos hs]
    · rw [if_neg hs, if_neg hs, if_neg (fun hc => hs hc.1)]

/-- C109: get with a key shows the values of the entry, query the values which are used; both change nothing. -/
theorem C109_get (schema : Str → Str → Option (Option (List Str))) (d : Db) {t k : Str} {n : Option Str} (h : Valid ⟨some t, n, some k, none⟩) :
    get d (render ⟨some t, n, some k, none⟩) = (match vals d t n k with | some vs => .ok d vs | none => .error d) ∧
    query schema d (render ⟨some t, n, some k, none⟩) = (match getValue schema d t n k with | some vs => .ok d vs | none => .error d) := by
  have hne : render ⟨some t, n, some k, none⟩ ≠ [] := by
    rw [render_eq]
    simp
  unfold get query
  rw [if_neg hne, if_neg hne, parse_complete h]
  dsimp only
  constructor
  · unfold vals
    cases findEntry d t n k <;> rfl
  · rfl

/-- C109: what was set is shown first by get and query. -/
theorem C109_set_get (schema : Str → Str → Option (Option (List Str))) (d d' : Db) {t k v : Str} {n : Option Str} (h : Valid ⟨some t, n, some k, some v⟩)
    (hs : set d (render ⟨some t, n, some k, some v⟩) = .ok d' []) :
    get d' (render ⟨some t, n, some k, none⟩) = .ok d' (v :: (vals d t n k).getD []) ∧
    query schema d' (render ⟨some t, n, some k, none⟩) = .ok d' (v :: (vals d t n k).getD []) := by
  obtain ⟨d'', h1, _, h2⟩ := C109_set d h
  rw [hs] at h1
  cases h1
  have hv : vals d' t n k = some (v :: (vals d t n k).getD []) := by
    rw [h2, if_pos ⟨rfl, rfl, rfl⟩]
  have hval : Valid ⟨some t, n, some k, none⟩ := ⟨h.type, h.name, h.key⟩
  obtain ⟨hg, hq⟩ := C109_get schema d' hval
  rw [hg, hq, hv, (C104_lookup schema d' t n k).1 _ hv]
  exact ⟨rfl, rfl⟩

example : parseArg [97, 91, 98, 93, 46, 99, 61, 49] = some ⟨some [97], some [98], some [99], some [49]⟩ := by decide +kernel
example : Valid ⟨some [97], some [98], some [99], some [49]⟩ :=
  ⟨by rintro t ⟨⟩; exact ⟨List.cons_ne_nil _ _, rfl⟩, by rintro t ⟨⟩; exact ⟨fun h => (nomatch h), by decide⟩, by rintro t ⟨⟩; exact ⟨List.cons_ne_nil _ _, rfl⟩⟩

end Verif.Cfg.Cmd
