import Verif.Http.Lemmas
import Verif.Netaddr.Lemmas

namespace Verif.Http
open Verif.Netaddr (strcasecmp toLower)

/-! ### Decoding -/

theorem hexVal_digit {c : UInt8} {n : Nat} (h : Digit c n) : hexVal c = some n := by
  have e : ∀ k : Nat, k < 256 → ∀ d : UInt8, (d ≤ c ↔ d.toNat ≤ c.toNat) ∧ (c ≤ d ↔ c.toNat ≤ d.toNat) := fun _ _ d => ⟨UInt8.le_iff_toNat_le, UInt8.le_iff_toNat_le⟩
  have e' := e 0 (by omega)
  unfold hexVal
  simp only [(e' 48).1, (e' 57).2, (e' 65).1, (e' 70).2, (e' 97).1, (e' 102).2]
  simp only [show (48 : UInt8).toNat = 48 from rfl, show (57 : UInt8).toNat = 57 from rfl, show (65 : UInt8).toNat = 65 from rfl,
    show (70 : UInt8).toNat = 70 from rfl, show (97 : UInt8).toNat = 97 from rfl, show (102 : UInt8).toNat = 102 from rfl]
  rcases h with ⟨h1, h2, h3⟩ | ⟨h1, h2, h3⟩ | ⟨h1, h2, h3⟩
  · rw [if_pos ⟨h1, h2⟩, h3]
  · rw [if_neg (by omega), if_pos ⟨h1, h2⟩, h3]
  · rw [if_neg (by omega), if_neg (by omega), if_pos ⟨h1, h2⟩, h3]

theorem hexVal_none {c : UInt8} (h : ∀ n, ¬Digit c n) : hexVal c = none := by
  have e' : ∀ d : UInt8, (d ≤ c ↔ d.toNat ≤ c.toNat) ∧ (c ≤ d ↔ c.toNat ≤ d.toNat) := fun d => ⟨UInt8.le_iff_toNat_le, UInt8.le_iff_toNat_le⟩
  unfold hexVal
  simp only [(e' 48).1, (e' 57).2, (e' 65).1, (e' 70).2, (e' 97).1, (e' 102).2]
  simp only [show (48 : UInt8).toNat = 48 from rfl, show (57 : UInt8).toNat = 57 from rfl, show (65 : UInt8).toNat = 65 from rfl,
    show (70 : UInt8).toNat = 70 from rfl, show (97 : UInt8).toNat = 97 from rfl, show (102 : UInt8).toNat = 102 from rfl]
  rw [if_neg, if_neg, if_neg]
  · rintro ⟨h1, h2⟩; exact h _ (.inr (.inr ⟨h1, h2, rfl⟩))
  · rintro ⟨h1, h2⟩; exact h _ (.inr (.inl ⟨h1, h2, rfl⟩))
  · rintro ⟨h1, h2⟩; exact h _ (.inl ⟨h1, h2, rfl⟩)

theorem decode_plain (odd : Txt → UInt8) (c : UInt8) (s : Txt) (h : c ≠ 37) : decode odd (c :: s) = c :: decode odd s := by
  rw [decode.eq_def]
  split
  · rename_i he; cases he
  · rename_i he; exact absurd (List.cons.inj he).1 h
  · rename_i he; cases he; rfl

theorem decode_pct (odd : Txt → UInt8) (x y : UInt8) (s : Txt) : decode odd (37 :: x :: y :: s) = sscanfHex odd x y s :: decode odd s := by
  simp only [decode]

theorem sscanf_digits (odd : Txt → UInt8) {x y c : UInt8} {a b : Nat} (s : Txt) (hx : Digit x a) (hy : Digit y b) (hc : c.toNat = 16 * a + b) :
    sscanfHex odd x y s = c := by
  unfold sscanfHex
  rw [hexVal_digit hx, hexVal_digit hy]
  apply UInt8.toNat_inj.mp
  dsimp only
  rw [show (16 * a + b).toUInt8 = UInt8.ofNat (16 * a + b) from rfl, UInt8.toNat_ofNat', ← hc]
  have := c.toNat_lt
  omega

theorem decode_append (odd : Txt → UInt8) {t s : Txt} (h : Encodes t s) (r : Txt) : decode odd (s ++ r) = t ++ decode odd r := by
  induction h with
  | nil => rfl
  | plain hc _ ih => rw [List.cons_append, decode_plain odd _ _ hc, ih]; rfl
  | pct hx hy hc _ ih => rw [List.cons_append, List.cons_append, List.cons_append, decode_pct, sscanf_digits odd _ hx hy hc, ih]; rfl

theorem decode_encodes (odd : Txt → UInt8) {t s : Txt} (h : Encodes t s) : decode odd s = t := by
  have := decode_append odd h []
  simpa [decode] using this

theorem decode_length (odd : Txt → UInt8) (s : Txt) : (decode odd s).length ≤ s.length := by
  fun_induction decode odd s with
  | case1 => simp
  | case2 c d rest ih => simp; omega
  | case3 c rest h ih => simp; omega

/-! ### Cutting -/

theorem cut_some (c : UInt8) (a b : Txt) (hc : c ≠ 0) (ha : c ∉ a) (h0 : (0 : UInt8) ∉ a) : cut c (a ++ c :: b) = (a ++ 0 :: b, some (a.length + 1)) := by
  have hf : (cstr (a ++ c :: b) 0).findIdx? (· == c) = some a.length := by
    rw [cstr_append _ _ h0]
    have : cstr (c :: b) 0 = c :: cstr b 0 := by
      unfold cstr; rw [List.drop_zero, List.drop_zero, List.takeWhile_cons_of_pos (by simpa using hc)]
    rw [this]
    clear this h0
    induction a with
    | nil => simp [List.findIdx?_cons]
    | cons x a ih =>
      have hx : ¬x = c := fun h => ha (h ▸ List.mem_cons_self)
      rw [List.cons_append, List.findIdx?_cons, ih (fun h => ha (List.mem_cons_of_mem _ h))]
      simp [hx]
  unfold cut
  rw [hf]
  simp

theorem cut_none (c : UInt8) (mem : Txt) (h : c ∉ cstr mem 0) : cut c mem = (mem, none) := by
  unfold cut
  have : (cstr mem 0).findIdx? (· == c) = none := by
    rw [List.findIdx?_eq_none_iff]
    intro x hx
    simp only [beq_eq_false_iff_ne]
    rintro rfl
    exact h hx
  rw [this]

/-- the URI without fragment -/
theorem prepare_plain (odd : Txt → UInt8) (s junk : Txt) (h0 : (0 : UInt8) ∉ s) (h : (35 : UInt8) ∉ s) :
    prepareUri odd s junk = decode odd s ++ 0 :: (s ++ 0 :: junk).drop ((decode odd s).length + 1) := by
  unfold prepareUri overwrite
  rw [cut_none _ _ (by rw [cstr_zero _ _ h0]; exact h)]
  dsimp only
  rw [cstr_zero _ _ h0]

/-- the URI with fragment -/
theorem prepare_fragment (odd : Txt → UInt8) (s f junk : Txt) (h0 : (0 : UInt8) ∉ s) (h : (35 : UInt8) ∉ s) :
    prepareUri odd (s ++ 35 :: f) junk = decode odd s ++ 0 :: (s ++ 0 :: (f ++ 0 :: junk)).drop ((decode odd s).length + 1) := by
  unfold prepareUri overwrite
  rw [show s ++ 35 :: f ++ 0 :: junk = s ++ 35 :: (f ++ 0 :: junk) by simp, cut_some 35 _ _ (by decide) h h0]
  dsimp only
  rw [cstr_zero _ _ h0]

/-! ### Query -/

theorem splitEq_param (n v : Txt) (h : (61 : UInt8) ∉ n) : splitEq (n ++ 61 :: v) = (n, v) := by
  unfold splitEq
  have : ∀ c ∈ n, (c != 61) = true := fun c hc => by simp; rintro rfl; exact h hc
  rw [List.takeWhile_append_of_pos this, List.dropWhile_append_of_pos this]
  simp

theorem splitAmp_text (t s : Txt) (h : (38 : UInt8) ∉ t) : splitAmp (t ++ 38 :: s) = t :: splitAmp s := by
  induction t with
  | nil => simp [splitAmp]
  | cons c t ih =>
    have hc : c ≠ 38 := fun q => h (q ▸ List.mem_cons_self)
    rw [List.cons_append, splitAmp, if_neg hc, ih (fun q => h (List.mem_cons_of_mem _ q))]

theorem splitAmp_single (t : Txt) (h : (38 : UInt8) ∉ t) : splitAmp t = [t] := by
  induction t with
  | nil => rfl
  | cons c t ih =>
    have hc : c ≠ 38 := fun q => h (q ▸ List.mem_cons_self)
    rw [splitAmp, if_neg hc, ih (fun q => h (List.mem_cons_of_mem _ q))]

theorem splitAmp_joined (ps : List Txt) (hne : ps ≠ []) (h : ∀ p, p ∈ ps → (38 : UInt8) ∉ p) : splitAmp (joined 38 ps) = ps := by
  induction ps with
  | nil => exact absurd rfl hne
  | cons p ps ih =>
    cases ps with
    | nil => exact splitAmp_single p (h p List.mem_cons_self)
    | cons q ps =>
      rw [joined, splitAmp_text _ _ (h p List.mem_cons_self), ih (by simp) (fun r hr => h r (List.mem_cons_of_mem _ hr))]
      simp

theorem queryLoop_params (ps : List (Txt × Txt)) (h : ∀ p, p ∈ ps → Param p) (k : Nat) :
    queryLoop k (ps.map fun p => p.1 ++ 61 :: p.2) = ps.take k := by
  induction ps generalizing k with
  | nil => cases k <;> simp [queryLoop]
  | cons p ps ih =>
    obtain ⟨h1, h2, h3⟩ := h p List.mem_cons_self
    cases k with
    | zero => simp [queryLoop]
    | succ k =>
      rw [List.map_cons, queryLoop, splitEq_param _ _ (free_not h2 (by simp)), if_neg h1, ih (fun q hq => h q (List.mem_cons_of_mem _ hq))]
      rfl

theorem parseQuery_query (ps : List (Txt × Txt)) (h : ∀ p, p ∈ ps → Param p) : parseQuery (query ps) = ps.take 8 := by
  by_cases hne : ps = []
  · subst hne; rfl
  · unfold parseQuery query
    rw [splitAmp_joined _ (by simpa using hne), queryLoop_params ps h]
    · rfl
    · intro t ht
      obtain ⟨p, hp, rfl⟩ := List.mem_map.mp ht
      obtain ⟨_, h2, h3⟩ := h p hp
      have a1 : (38 : UInt8) ∉ p.1 := free_not h2 (by simp)
      have a2 : (38 : UInt8) ∉ p.2 := free_not h3 (by simp)
      simp [a1, a2]

theorem query_nonul (ps : List (Txt × Txt)) (h : ∀ p, p ∈ ps → Param p) : (0 : UInt8) ∉ query ps := by
  unfold query
  induction ps with
  | nil => simp [joined]
  | cons p ps ih =>
    obtain ⟨_, h2, h3⟩ := h p List.mem_cons_self
    have a1 : (0 : UInt8) ∉ p.1 := free_not h2 (by simp)
    have a2 : (0 : UInt8) ∉ p.2 := free_not h3 (by simp)
    have hi := ih fun q hq => h q (List.mem_cons_of_mem _ hq)
    cases ps with
    | nil => simp [joined, a1, a2]
    | cons q ps =>
      simp only [List.map_cons, joined, List.mem_append, List.mem_cons, not_or] at hi ⊢
      exact ⟨⟨a1, by decide, a2⟩, by decide, hi⟩

/-! ### Sites -/

/-- the first text is the start of the second apart from upper and lower case -/
def StartsWith (p u : Txt) : Prop := ∃ a b, u = a ++ b ∧ Same p a

theorem sameStart_iff (p u : Txt) : sameStart p u p.length = true ↔ StartsWith p u := by
  unfold sameStart StartsWith Same
  rw [List.take_length, beq_iff_eq]
  constructor
  · intro h; exact ⟨u.take p.length, u.drop p.length, (List.take_append_drop _ _).symm, h⟩
  · rintro ⟨a, b, rfl, h⟩
    have hl : p.length = a.length := by simpa using congrArg List.length h
    rw [hl, List.take_left, h]

theorem sameStart_rev (s u : Txt) : sameStart s u u.length = true ↔ StartsWith u s := by
  rw [← sameStart_iff]
  unfold sameStart
  rw [beq_iff_eq, beq_iff_eq]
  exact eq_comm

theorem startsWith_nil (u : Txt) : StartsWith [] u := ⟨[], u, rfl, rfl⟩

theorem startsWith_cons (x y : UInt8) (p u : Txt) : StartsWith (x :: p) (y :: u) ↔ toLower x = toLower y ∧ StartsWith p u := by
  constructor
  · rintro ⟨a, b, h, hs⟩
    cases a with
    | nil => simp [Same] at hs
    | cons z a =>
      simp only [List.cons_append, List.cons.injEq] at h
      simp only [Same, List.map_cons, List.cons.injEq] at hs
      exact ⟨by rw [h.1]; exact hs.1, a, b, h.2, hs.2⟩
  · rintro ⟨h, a, b, hu, hs⟩
    exact ⟨y :: a, b, by rw [hu]; rfl, by simp only [Same, List.map_cons, h]; rw [show p.map toLower = a.map toLower from hs]⟩

theorem not_startsWith_nil (x : UInt8) (p : Txt) : ¬StartsWith (x :: p) [] := by
  rintro ⟨a, b, h, hs⟩
  have : a = [] := by cases a; rfl; cases h
  subst this
  simp [Same] at hs

theorem startsWith_le (p u : Txt) (h : StartsWith p u) : strcasecmp p u ≤ 0 := by
  induction p generalizing u with
  | nil => cases u <;> simp [strcasecmp]
  | cons x p ih =>
    cases u with
    | nil => exact absurd h (not_startsWith_nil x p)
    | cons y u =>
      obtain ⟨h1, h2⟩ := (startsWith_cons _ _ _ _).mp h
      rw [strcasecmp, h1, if_neg (UInt8.lt_irrefl _), if_neg (UInt8.lt_irrefl _)]
      exact ih u h2

theorem between (p s u : Txt) (h1 : strcasecmp p s ≤ 0) (h2 : strcasecmp s u ≤ 0) (h : StartsWith p u) : StartsWith p s := by
  induction p generalizing s u with
  | nil => exact startsWith_nil s
  | cons x p ih =>
    cases u with
    | nil => exact absurd h (not_startsWith_nil x p)
    | cons y u =>
      obtain ⟨e, h3⟩ := (startsWith_cons _ _ _ _).mp h
      cases s with
      | nil => simp [strcasecmp] at h1
      | cons z s =>
        rw [strcasecmp] at h1 h2
        by_cases a1 : toLower x < toLower z
        · rw [if_neg (by rw [← e]; exact fun q => UInt8.lt_irrefl _ (UInt8.lt_trans a1 q)), if_pos (by rw [← e]; exact a1)] at h2
          exact absurd h2 (by decide)
        · rw [if_neg a1] at h1
          by_cases a2 : toLower z < toLower x
          · rw [if_pos a2] at h1; exact absurd h1 (by decide)
          · rw [if_neg a2] at h1
            rw [← e, if_neg a2, if_neg a1] at h2
            have : toLower x = toLower z := by
              apply UInt8.toNat_inj.mp
              simp only [UInt8.lt_iff_toNat_lt] at a1 a2
              omega
            exact (startsWith_cons _ _ _ _).mpr ⟨this, ih s u h1 h2 h3⟩

end Verif.Http
