import Verif.NetText.Model
import Verif.IsoNum.Lemmas
/-
Helper lemmas for the address text theorems.
-/
namespace Verif.NetText
open Verif.Netaddr
open Verif.IsoNum (isSpace isDigit decVal decText strtoull W)

/-- characters of printed addresses -/
def allowed (c : UInt8) : Bool :=
  isDigit c || (97 ≤ c && c ≤ 102) || c == 58 || c == 45 || c == 46

theorem byteAll {P : UInt8 → Bool} (h : ∀ n : Fin 256, P (UInt8.ofNat n.val) = true) (c : UInt8) :
    P c = true := by
  have := h ⟨c.toNat, c.toNat_lt⟩
  simpa using this

theorem allowed_facts (c : UInt8) (h : allowed c = true) :
    isSpace c = false ∧ c ≠ 47 ∧ toLower c = c ∧ c ≠ 110 ∧ c ≠ 117 := by
  have := byteAll (P := fun c => !allowed c ||
    decide (isSpace c = false ∧ c ≠ 47 ∧ toLower c = c ∧ c ≠ 110 ∧ c ≠ 117)) (by decide +kernel) c
  simp only [h, Bool.not_true, Bool.false_or, decide_eq_true_eq] at this
  exact this

theorem digit_allowed (c : UInt8) (h : isDigit c = true) : allowed c = true := by
  simp [allowed, h]

theorem hexDigit_facts (n : Nat) (h : n < 16) :
    readHexdigit (hexDigit n) = some n ∧ allowed (hexDigit n) = true ∧ hexDigit n ≠ 58 ∧
      hexDigit n ≠ 45 ∧ hexDigit n ≠ 46 := by
  have : ∀ n : Fin 16, readHexdigit (hexDigit n.val) = some n.val ∧ allowed (hexDigit n.val) = true ∧
    hexDigit n.val ≠ 58 ∧ hexDigit n.val ≠ 45 ∧ hexDigit n.val ≠ 46 := by decide +kernel
  exact this ⟨n, h⟩

/-- both digits of a byte -/
def hex2 (b : UInt8) : Txt := [hexDigit (b.toNat >>> 4), hexDigit (b.toNat &&& 15)]

theorem nib (b : UInt8) : b.toNat >>> 4 < 16 ∧ b.toNat &&& 15 < 16 ∧
    UInt8.ofNat (((b.toNat >>> 4) <<< 4) + (b.toNat &&& 15)) = b := by
  have := byteAll (P := fun b => decide (b.toNat >>> 4 < 16 ∧ b.toNat &&& 15 < 16 ∧
    UInt8.ofNat (((b.toNat >>> 4) <<< 4) + (b.toNat &&& 15)) = b)) (by decide +kernel) b
  exact of_decide_eq_true this

/-- bytes in hexadecimal form with separators -/
def macText (sep : UInt8) : List UInt8 → Txt
  | [] => []
  | [b] => hex2 b
  | b :: bs => hex2 b ++ (if sep = 0 then [] else [sep]) ++ macText sep bs

theorem macText_ne (sep b : UInt8) (bs : List UInt8) : macText sep (b :: bs) ≠ [] := by
  cases bs <;> simp [macText, hex2]

theorem macText_cons (sep b b' : UInt8) (bs : List UInt8) :
    macText sep (b :: b' :: bs) = hex2 b ++ (if sep = 0 then [] else [sep]) ++ macText sep (b' :: bs) :=
  rfl

theorem macToString_eq (sep : UInt8) : ∀ (bs : List UInt8) (size : Nat), 3 * bs.length ≤ size →
    macToString sep size bs = macText sep bs
  | [], _, _ => by simp [macToString, macText]
  | [b], size, h => by
    simp only [List.length_cons, List.length_nil] at h
    rw [macToString, if_neg (by omega)]
    simp [macToString, macText, hex2]
  | b :: b' :: bs, size, h => by
    simp only [List.length_cons] at h
    have ih := macToString_eq sep (b' :: bs) (size - 2 - (if sep ≠ 0 then 1 else 0)) (by
      simp only [List.length_cons]; split <;> omega)
    rw [macToString, if_neg (by omega), macText_cons]
    simp only [ih]
    by_cases hs : sep = 0
    · simp [hs, hex2]
    · simp [hs, hex2, macText_ne]

theorem binFromHex_macText (sep : UInt8) : ∀ (bs : List UInt8) (n : Nat),
    bs ≠ [] → bs.length ≤ n → binFromHex sep n (macText sep bs) = some (bs, n - bs.length)
  | [], _, h, _ => absurd rfl h
  | b :: bs, 0, _, h => by simp at h
  | [b], n + 1, _, h => by
    obtain ⟨h1, h2, h3⟩ := nib b
    have e : macText sep [b] = [hexDigit (b.toNat >>> 4), hexDigit (b.toNat &&& 15)] := rfl
    rw [e, binFromHex]
    simp only [(hexDigit_facts _ h1).1, (hexDigit_facts _ h2).1, List.tail_cons, if_true, h3]
    simp
  | b :: b' :: bs, n + 1, _, h => by
    obtain ⟨h1, h2, h3⟩ := nib b
    have ih := binFromHex_macText sep (b' :: bs) n (by simp) (by simpa using h)
    have e : macText sep (b :: b' :: bs) = hexDigit (b.toNat >>> 4) :: hexDigit (b.toNat &&& 15) ::
      ((if sep = 0 then [] else [sep]) ++ macText sep (b' :: bs)) := by
      rw [macText_cons]; simp [hex2]
    rw [e, binFromHex]
    simp only [(hexDigit_facts _ h1).1, (hexDigit_facts _ h2).1, List.tail_cons, h3]
    by_cases hs : sep = 0
    · subst hs
      simp only [if_true, List.nil_append, macText_ne, if_false, ne_eq, not_true_eq_false, ih]
      simp
    · simp only [hs, if_false, List.cons_append, List.nil_append, ne_eq, not_false_eq_true, if_true,
        List.head?_cons, List.tail_cons, ih]
      simp

theorem hex2_all (b : UInt8) : ∀ c ∈ hex2 b, allowed c = true ∧ c ≠ 58 ∧ c ≠ 45 ∧ c ≠ 46 := by
  intro c hc
  simp only [hex2, List.mem_cons, List.not_mem_nil, or_false] at hc
  rcases hc with hc | hc
  · subst hc; exact (hexDigit_facts _ (nib b).1).2
  · subst hc; exact (hexDigit_facts _ (nib b).2.1).2

theorem macText_mem (sep : UInt8) : ∀ (bs : List UInt8), ∀ c ∈ macText sep bs,
    (c = sep ∧ sep ≠ 0) ∨ (allowed c = true ∧ c ≠ 58 ∧ c ≠ 45 ∧ c ≠ 46)
  | [], c, h => by simp [macText] at h
  | [b], c, h => Or.inr (hex2_all b c h)
  | b :: b' :: bs, c, h => by
    rw [macText_cons] at h
    simp only [List.mem_append] at h
    rcases h with (h | h) | h
    · exact Or.inr (hex2_all b c h)
    · split at h
      · simp at h
      · next hs => exact Or.inl ⟨by simpa using h, hs⟩
    · exact macText_mem sep (b' :: bs) c h

theorem count_zero (c : UInt8) (t : Txt) (h : c ∉ t) : t.count c = 0 := List.count_eq_zero.2 h

theorem hex2_count (b c : UInt8) (h : c = 58 ∨ c = 45 ∨ c = 46) : (hex2 b).count c = 0 := by
  refine count_zero _ _ fun hm => ?_
  have := hex2_all b c hm
  rcases h with h | h | h <;> simp_all

theorem macText_count (sep : UInt8) (hs : sep = 58 ∨ sep = 45) : ∀ (bs : List UInt8),
    (macText sep bs).count sep = bs.length - 1
  | [] => by simp [macText]
  | [b] => by
    show (hex2 b).count sep = 0
    exact hex2_count b sep (by rcases hs with h | h <;> simp [h])
  | b :: b' :: bs => by
    have h0 : sep ≠ 0 := by rcases hs with h | h <;> subst h <;> decide
    rw [macText_cons, List.count_append, List.count_append, macText_count sep hs (b' :: bs),
      hex2_count b sep (by rcases hs with h | h <;> simp [h]), if_neg h0]
    simp
    omega

theorem macText_count_other (sep c : UInt8) (hc : c = 58 ∨ c = 45 ∨ c = 46) (hne : c ≠ sep)
    (bs : List UInt8) : (macText sep bs).count c = 0 := by
  refine count_zero _ _ fun hm => ?_
  rcases macText_mem sep bs c hm with h | h
  · exact hne h.1
  · rcases hc with h' | h' | h' <;> simp_all

theorem macText_length (sep : UInt8) (h0 : sep ≠ 0) : ∀ bs : List UInt8,
    (macText sep bs).length = 3 * bs.length - 1
  | [] => rfl
  | [b] => rfl
  | b :: b' :: bs => by
    rw [macText_cons, if_neg h0]
    simp only [List.length_append, macText_length sep h0 (b' :: bs)]
    simp [hex2]
    omega

theorem macText_length0 : ∀ bs : List UInt8, (macText 0 bs).length = 2 * bs.length
  | [] => rfl
  | [b] => rfl
  | b :: b' :: bs => by
    rw [macText_cons]
    simp only [List.length_append, macText_length0 (b' :: bs)]
    simp [hex2]
    omega

theorem hasCC_hex2 (b : UInt8) (last : Bool) (t : Txt) :
    hasColonColon last (hex2 b ++ t) = hasColonColon false t := by
  have h1 := (hexDigit_facts _ (nib b).1).2.2.1
  have h2 := (hexDigit_facts _ (nib b).2.1).2.2.1
  have h1' := beq_eq_false_iff_ne.2 h1
  have h2' := beq_eq_false_iff_ne.2 h2
  simp only [hex2, List.cons_append, List.nil_append, hasColonColon, h1', h2', Bool.false_and, Bool.false_or]

theorem hasCC_none (t : Txt) (h : (58 : UInt8) ∉ t) : ∀ last, hasColonColon last t = false := by
  induction t with
  | nil => intro _; rfl
  | cons c cs ih =>
    intro last
    simp only [List.mem_cons, not_or] at h
    have : (c == 58) = false := by simp [Ne.symm h.1]
    simp [hasColonColon, this, ih h.2]

theorem macText_noCC : ∀ (bs : List UInt8) (last : Bool), hasColonColon last (macText 58 bs) = false
  | [], _ => rfl
  | [b], last => by
    have := hasCC_hex2 b last []
    simpa [macText, hasColonColon] using this
  | b :: b' :: bs, last => by
    rw [macText_cons, if_neg (by decide), List.append_assoc, hasCC_hex2]
    simp only [List.cons_append, List.nil_append, hasColonColon]
    simp only [Bool.and_false, Bool.false_or]
    exact macText_noCC (b' :: bs) _

/-! ### known names and the frame of `fromString` -/

theorem strcasecmp_zero : ∀ a b : Txt, strcasecmp a b = 0 → a.map toLower = b.map toLower
  | [], [], _ => rfl
  | [], _ :: _, h => by simp [strcasecmp] at h
  | _ :: _, [], h => by simp [strcasecmp] at h
  | a :: as, b :: bs, h => by
    rw [strcasecmp] at h
    split at h
    · simp at h
    · split at h
      · simp at h
      · next h1 h2 =>
        have e : toLower a = toLower b := UInt8.le_antisymm (UInt8.not_lt.1 h2) (UInt8.not_lt.1 h1)
        simp [e, strcasecmp_zero as bs h]

theorem not_known (t : Txt) (h : ∀ c ∈ t, allowed c = true ∨ c = 47) :
    knownPrefixes.find? (fun e => strcasecmp t e.1 == 0) = none := by
  have key : ∀ c ∈ t, toLower c ≠ 110 ∧ toLower c ≠ 117 := by
    intro c hc
    rcases h c hc with h | h
    · obtain ⟨_, _, h3, h4, h5⟩ := allowed_facts c h
      rw [h3]; exact ⟨h4, h5⟩
    · subst h; decide
  have k2 : ∀ name : Txt, ((110 : UInt8) ∈ name.map toLower ∨ (117 : UInt8) ∈ name.map toLower) →
      strcasecmp t name ≠ 0 := by
    intro name hn e
    rw [← strcasecmp_zero _ _ e] at hn
    simp only [List.mem_map] at hn
    rcases hn with ⟨c, hc, e⟩ | ⟨c, hc, e⟩
    · exact (key c hc).1 e
    · exact (key c hc).2 e
  rw [List.find?_eq_none]
  intro e he
  have : (110 : UInt8) ∈ e.1.map toLower ∨ (117 : UInt8) ∈ e.1.map toLower := by
    revert e; decide +kernel
  simpa using k2 e.1 this

theorem dropWhile_none (f : UInt8 → Bool) : ∀ t : Txt, (∀ c ∈ t, f c = false) → t.dropWhile f = t
  | [], _ => rfl
  | c :: cs, h => by simp [h c (by simp)]

theorem trim_id (t : Txt) (h : ∀ c ∈ t, isSpace c = false) : trim t = t := by
  unfold trim
  rw [dropWhile_none _ t h, dropWhile_none _ t.reverse (fun c hc => h c (by simpa using hc))]
  simp

theorem decText_facts (n : Nat) (h : n < 256) :
    decText n ≠ [] ∧ (decText n).length ≤ 3 ∧ (∀ c ∈ decText n, isDigit c = true) ∧ decVal (decText n) = n ∧
      ((decText n).length = 1 ∨ (decText n).head? ≠ some 48) := by
  have : ∀ n : Fin 256, decText n.val ≠ [] ∧ (decText n.val).length ≤ 3 ∧
    (∀ c ∈ decText n.val, isDigit c = true) ∧ decVal (decText n.val) = n.val ∧
    ((decText n.val).length = 1 ∨ (decText n.val).head? ≠ some 48) := by decide +kernel
  exact this ⟨n, h⟩

theorem numericPrefix_dec (n : Nat) (h : n < 256) : numericPrefix (decText n) = n := by
  obtain ⟨h1, h2, h3, h4, _⟩ := decText_facts n h
  have e := Verif.IsoNum.strtoull_digits (decText n) [] h1 h3
  have hW : decVal (decText n) < W := by rw [h4]; unfold W; omega
  have e2 : strtoull (decText n) = (some n, []) := by
    simpa [h4, Nat.not_le.2 (show n < W from h4 ▸ hW), (show n < W from h4 ▸ hW)] using e
  unfold numericPrefix
  rw [e2]
  simp only [ne_eq, not_true_eq_false, if_false, toInt]
  have : n % 2 ^ 32 = n := Nat.mod_eq_of_lt (by omega)
  rw [this, if_pos (by omega)]

theorem takeWhile_all (f : UInt8 → Bool) (t r : Txt) (h : ∀ c ∈ t, f c = true) (hr : r = [] ∨ ∃ c cs, r = c :: cs ∧ f c = false) :
    (t ++ r).takeWhile f = t ∧ (t ++ r).dropWhile f = r := by
  induction t with
  | nil =>
    rcases hr with h | ⟨c, cs, h, hc⟩
    · subst h; simp
    · subst h; simp [hc]
  | cons c cs ih =>
    have hc := h c (by simp)
    have := ih (fun x hx => h x (by simp [hx]))
    simp [hc, this.1, this.2]

theorem allowed_addrChar (c : UInt8) (h : allowed c = true) : isAddrChar c = true := by
  obtain ⟨h1, h2, _⟩ := allowed_facts c h
  simp [isAddrChar, h1, h2]

/-- parsing a text of address characters without prefix length -/
theorem fromString_plain (I : Inet6) (t : Txt) (hall : ∀ c ∈ t, allowed c = true)
    (hlen : t.length ≤ 61) (h2 : 2 ≤ t.length) (ty : UInt8) (max : Nat) (addr : List UInt8)
    (hc : classify I t = some (ty, max, addr)) :
    fromString I t = some ⟨addr, ty, UInt8.ofNat max⟩ := by
  have hne : t ≠ [45] := by intro h; subst h; simp at h2
  have hsp : ∀ c ∈ t, isSpace c = false := fun c h => (allowed_facts c (hall c h)).1
  have htk : t.take (strSize - 1) = t := List.take_of_length_le (by simpa [strSize] using hlen)
  have hw := takeWhile_all isAddrChar t [] (fun c h => allowed_addrChar c (hall c h)) (Or.inl rfl)
  rw [List.append_nil] at hw
  unfold fromString
  rw [if_neg hne, not_known t (fun c h => Or.inl (hall c h))]
  simp only [htk, trim_id t hsp, hw.1, hw.2, parseParts, afterSep, hc]
  simp

/-- parsing a text of address characters with prefix length -/
theorem fromString_prefix (I : Inet6) (t : Txt) (hall : ∀ c ∈ t, allowed c = true)
    (hlen : t.length ≤ 57) (h2 : 2 ≤ t.length) (ty : UInt8) (max : Nat) (addr : List UInt8)
    (hc : classify I t = some (ty, max, addr)) (p : Nat) (hp : p ≤ max) (hp2 : p < 256) :
    fromString I (t ++ [47] ++ decText p) = some ⟨addr, ty, UInt8.ofNat p⟩ := by
  obtain ⟨d1, d2, d3, _, _⟩ := decText_facts p hp2
  have hall' : ∀ c ∈ t ++ [47] ++ decText p, allowed c = true ∨ c = 47 := by
    intro c hc
    simp only [List.mem_append, List.mem_cons, List.not_mem_nil, or_false] at hc
    rcases hc with (h | h) | h
    · exact Or.inl (hall c h)
    · exact Or.inr h
    · exact Or.inl (digit_allowed c (d3 c h))
  have hsp : ∀ c ∈ t ++ [47] ++ decText p, isSpace c = false := by
    intro c h
    rcases hall' c h with h | h
    · exact (allowed_facts c h).1
    · subst h; decide
  have hne : t ++ [47] ++ decText p ≠ [45] := by
    intro h
    have := congrArg List.length h
    simp at this
    omega
  have htk : (t ++ [47] ++ decText p).take (strSize - 1) = t ++ [47] ++ decText p :=
    List.take_of_length_le (by simp [strSize]; omega)
  have hw := takeWhile_all isAddrChar t ([47] ++ decText p) (fun c h => allowed_addrChar c (hall c h))
    (Or.inr ⟨47, decText p, rfl, by decide⟩)
  rw [← List.append_assoc] at hw
  have hds : (decText p).dropWhile isSpace = decText p :=
    dropWhile_none _ _ (fun c h => (allowed_facts c (digit_allowed c (d3 c h))).1)
  have hs47 : List.dropWhile isSpace ([47] ++ decText p) = [47] ++ decText p := by
    simp [show isSpace 47 = false by decide]
  unfold fromString
  rw [if_neg hne, not_known _ hall']
  simp only [htk, trim_id _ hsp, hw.1, hw.2, parseParts, afterSep, hc, hs47]
  simp only [List.cons_append, List.nil_append, List.head?_cons, if_true, List.tail_cons, hds, d1,
    and_false, if_false, ne_eq, not_false_eq_true, reduceCtorEq, numericPrefix_dec p hp2]
  have hpos : ¬ ((p : Int) = -1) := by omega
  rw [if_neg (by omega)]
  simp

/-! ### the families -/

theorem count_eq_zero_of (c : UInt8) (t : Txt) (h : ∀ x ∈ t, x ≠ c) : t.count c = 0 :=
  count_zero c t (fun hm => h c hm rfl)

theorem contains_false (c : UInt8) (t : Txt) (h : t.count c = 0) : t.contains c = false := by
  have := List.count_eq_zero.1 h
  simpa using this

theorem classify_mac48 (I : Inet6) (bs : List UInt8) (h : bs.length = 6) :
    classify I (macText 58 bs) = some (AF_MAC48, 48, bs ++ List.replicate 10 0) := by
  have e1 := macText_count 58 (Or.inl rfl) bs
  have e2 := macText_count_other 58 45 (by simp) (by decide) bs
  have e3 := contains_false _ _ (macText_count_other 58 46 (by simp) (by decide) bs)
  have e4 := macText_noCC bs false
  have e5 := binFromHex_macText 58 bs 6 (by intro h'; simp [h'] at h) (by omega)
  rw [h] at e1 e5
  unfold classify
  simp only [e1, e2, e3, e4]
  simp [e5, h]

theorem classify_eui64 (I : Inet6) (bs : List UInt8) (h : bs.length = 8) :
    classify I (macText 45 bs) = some (AF_EUI64, 64, bs ++ List.replicate 8 0) := by
  have e1 := macText_count 45 (Or.inr rfl) bs
  have e2 := macText_count_other 45 58 (by simp) (by decide) bs
  have e3 := contains_false _ _ (macText_count_other 45 46 (by simp) (by decide) bs)
  have e4 : hasColonColon false (macText 45 bs) = false :=
    hasCC_none _ (List.count_eq_zero.1 e2) _
  have e5 := binFromHex_macText 45 bs 8 (by intro h'; simp [h'] at h) (by omega)
  rw [h] at e1 e5
  unfold classify
  simp only [e1, e2, e3, e4]
  simp [e5, h]

theorem takeWhile_minus (bs : List UInt8) (t : Txt) :
    (macText 0 bs ++ 45 :: t).takeWhile (· != 45) = macText 0 bs ∧
    (macText 0 bs).takeWhile (· != 45) = macText 0 bs := by
  have h : ∀ c ∈ macText 0 bs, (c != 45) = true := by
    intro c hc
    rcases macText_mem 0 bs c hc with h | h
    · exact absurd rfl h.2
    · simp [h.2.2.1]
  constructor
  · exact (takeWhile_all _ _ _ h (Or.inr ⟨45, t, rfl, by decide⟩)).1
  · have := (takeWhile_all _ (macText 0 bs) [] h (Or.inl rfl)).1
    simpa using this

/-- text of a UUID from its five groups -/
def uuidText : List (List UInt8) → Txt
  | [] => []
  | [g] => macText 0 g
  | g :: gs => macText 0 g ++ [45] ++ uuidText gs

theorem uuidParse_text : ∀ (gs : List (List UInt8)), (∀ g ∈ gs, g ≠ []) → gs ≠ [] →
    uuidParse (gs.map (fun g => 2 * g.length)) (uuidText gs) = some gs.flatten
  | [], _, h => absurd rfl h
  | [g], hg, _ => by
    have hb := binFromHex_macText 0 g g.length (hg g (by simp)) (Nat.le_refl _)
    simp only [List.map_cons, List.map_nil, uuidText]
    rw [uuidParse]
    simp only [(takeWhile_minus g []).2, macText_length0, if_true]
    simp [hb, uuidParse]
  | g :: g' :: gs, hg, _ => by
    have hb := binFromHex_macText 0 g g.length (hg g (by simp)) (Nat.le_refl _)
    have ih := uuidParse_text (g' :: gs) (fun x hx => hg x (by simp [hx])) (by simp)
    have e : uuidText (g :: g' :: gs) = macText 0 g ++ 45 :: uuidText (g' :: gs) := by
      simp [uuidText]
    rw [e, List.map_cons, uuidParse]
    have hl : ¬ (2 * g.length = (macText 0 g ++ 45 :: uuidText (g' :: gs)).length) := by
      simp [macText_length0]
    have hd : (macText 0 g ++ 45 :: uuidText (g' :: gs)).drop (2 * g.length + 1) = uuidText (g' :: gs) := by
      rw [← macText_length0, List.drop_append]
      simp
    simp only [(takeWhile_minus g _).1, macText_length0, hl, if_false, hd]
    simp only [reduceCtorEq, false_and, if_false, ne_eq, not_true_eq_false]
    rw [Nat.mul_div_cancel_left _ (by omega), hb]
    simp only [Nat.sub_self, Option.getD_some, ih]
    simp

theorem uuidText_mem : ∀ (gs : List (List UInt8)), ∀ c ∈ uuidText gs,
    allowed c = true ∧ c ≠ 58 ∧ c ≠ 46
  | [], c, h => by simp [uuidText] at h
  | [g], c, h => by
    rcases macText_mem 0 g c h with h | h
    · exact absurd rfl h.2
    · exact ⟨h.1, h.2.1, h.2.2.2⟩
  | g :: g' :: gs, c, h => by
    have e : uuidText (g :: g' :: gs) = macText 0 g ++ [45] ++ uuidText (g' :: gs) := rfl
    rw [e] at h
    simp only [List.mem_append, List.mem_cons, List.not_mem_nil, or_false] at h
    rcases h with (h | h) | h
    · rcases macText_mem 0 g c h with h | h
      · exact absurd rfl h.2
      · exact ⟨h.1, h.2.1, h.2.2.2⟩
    · subst h; decide
    · exact uuidText_mem (g' :: gs) c h

theorem uuidText_count : ∀ (gs : List (List UInt8)), (uuidText gs).count 45 = gs.length - 1
  | [] => rfl
  | [g] => macText_count_other 0 45 (by simp) (by decide) g
  | g :: g' :: gs => by
    have e : uuidText (g :: g' :: gs) = macText 0 g ++ [45] ++ uuidText (g' :: gs) := rfl
    rw [e, List.count_append, List.count_append, uuidText_count (g' :: gs),
      macText_count_other 0 45 (by simp) (by decide) g]
    simp
    omega

/-- the five groups of a UUID -/
def uuidParts (a : List UInt8) : List (List UInt8) :=
  [a.take 4, (a.drop 4).take 2, (a.drop 6).take 2, (a.drop 8).take 2, a.drop 10]

theorem uuidGroups_eq (a : List UInt8) (h : a.length = 16) :
    uuidGroups strSize uuidLens a = uuidText (uuidParts a) := by
  have e0 : uuidLens = [8, 4, 4, 4, 12] := rfl
  rw [e0]
  simp only [uuidGroups, uuidText, uuidParts, strSize]
  simp only [List.drop_drop, Nat.reduceDiv, Nat.reduceSub, Nat.reduceAdd]
  rw [macToString_eq _ _ _ (by simp; omega), macToString_eq _ _ _ (by simp; omega),
    macToString_eq _ _ _ (by simp; omega), macToString_eq _ _ _ (by simp; omega),
    macToString_eq _ _ _ (by simp; omega)]
  rw [List.take_of_length_le (l := a.drop 10) (by simp; omega)]

theorem classify_uuid (I : Inet6) (a : List UInt8) (h : a.length = 16) :
    classify I (uuidText (uuidParts a)) = some (AF_UUID, 128, a) := by
  have hm := uuidText_mem (uuidParts a)
  have e1 : (uuidText (uuidParts a)).count 58 = 0 := count_eq_zero_of _ _ (fun x hx => (hm x hx).2.1)
  have e3 := contains_false _ _ (count_eq_zero_of 46 (uuidText (uuidParts a)) (fun x hx => (hm x hx).2.2))
  have e2 : (uuidText (uuidParts a)).count 45 = 4 := uuidText_count _
  have e4 : hasColonColon false (uuidText (uuidParts a)) = false :=
    hasCC_none _ (List.count_eq_zero.1 e1) _
  have hlen : (uuidText (uuidParts a)).length = 36 := by
    simp [uuidText, uuidParts, macText_length0, h]
  have hne : ∀ g ∈ uuidParts a, g ≠ [] := by
    intro g hg he
    subst he
    simp only [uuidParts, List.mem_cons, List.not_mem_nil, or_false] at hg
    rcases hg with hg | hg | hg | hg | hg <;> have := congrArg List.length hg <;> simp at this <;> omega
  have e5 := uuidParse_text (uuidParts a) hne (by simp [uuidParts])
  have e6 : (uuidParts a).map (fun g => 2 * g.length) = uuidLens := by
    simp [uuidParts, uuidLens, h]
  have e7 : (uuidParts a).flatten = a := by
    simp only [uuidParts, List.flatten_cons, List.flatten_nil, List.append_nil]
    have k : ∀ (n m : Nat), (a.drop n).take m ++ a.drop (n + m) = a.drop n := by
      intro n m
      rw [← List.drop_drop]; exact List.take_append_drop m _
    rw [k 8 2, k 6 2, k 4 2, List.take_append_drop]
  rw [e6, e7] at e5
  unfold classify
  simp only [e1, e2, e3, e4, uuidFromString, hlen]
  simp [e5]

theorem splitPoints_none (t : Txt) (h : (46 : UInt8) ∉ t) : splitPoints t = [t] := by
  induction t with
  | nil => rfl
  | cons c cs ih =>
    simp only [List.mem_cons, not_or] at h
    rw [splitPoints, if_neg (Ne.symm h.1), ih h.2]

theorem splitPoints_append (t r : Txt) (h : (46 : UInt8) ∉ t) :
    splitPoints (t ++ 46 :: r) = t :: splitPoints r := by
  induction t with
  | nil => simp [splitPoints]
  | cons c cs ih =>
    simp only [List.mem_cons, not_or] at h
    rw [List.cons_append, splitPoints, if_neg (Ne.symm h.1), ih h.2]

theorem octet_dec (b : UInt8) : octet (decText b.toNat) = some b := by
  obtain ⟨h1, h2, h3, h4, h5⟩ := decText_facts b.toNat b.toNat_lt
  unfold octet
  have : (decText b.toNat).all isDigit = true := by simpa using h3
  rw [if_pos ⟨h1, this, h5, by rw [h4]; have := b.toNat_lt; omega⟩, h4]
  simp

theorem decText_nomark (b : UInt8) (c : UInt8) (hc : c = 46 ∨ c = 58 ∨ c = 45) : c ∉ decText b.toNat := by
  obtain ⟨_, _, h3, _, _⟩ := decText_facts b.toNat b.toNat_lt
  intro h
  have := h3 c h
  rcases hc with e | e | e <;> subst e <;> exact absurd this (by decide)

theorem ntop4_eq (a b c d : UInt8) (r : List UInt8) : ntop4 (a :: b :: c :: d :: r) =
    decText a.toNat ++ 46 :: (decText b.toNat ++ 46 :: (decText c.toNat ++ 46 :: decText d.toNat)) := by
  simp [ntop4]

theorem pton4_ntop4 (a b c d : UInt8) (r : List UInt8) : pton4 (ntop4 (a :: b :: c :: d :: r)) = some [a, b, c, d] := by
  have n := fun x => decText_nomark x 46 (Or.inl rfl)
  rw [ntop4_eq, pton4, splitPoints_append _ _ (n a), splitPoints_append _ _ (n b),
    splitPoints_append _ _ (n c), splitPoints_none _ (n d)]
  simp [octet_dec]

theorem ntop4_mem (a b c d : UInt8) (r : List UInt8) : ∀ x ∈ ntop4 (a :: b :: c :: d :: r),
    allowed x = true ∧ x ≠ 58 ∧ x ≠ 45 := by
  have key : ∀ y : UInt8, ∀ x ∈ decText y.toNat, allowed x = true ∧ x ≠ 58 ∧ x ≠ 45 := by
    intro y x hx
    refine ⟨digit_allowed x ((decText_facts y.toNat y.toNat_lt).2.2.1 x hx), ?_, ?_⟩
    · intro e; subst e; exact decText_nomark y 58 (by simp) hx
    · intro e; subst e; exact decText_nomark y 45 (by simp) hx
  intro x hx
  rw [ntop4_eq] at hx
  simp only [List.mem_append, List.mem_cons] at hx
  have h46 : allowed 46 = true ∧ (46 : UInt8) ≠ 58 ∧ (46 : UInt8) ≠ 45 := by decide
  rcases hx with h | h | h | h | h | h | h
  · exact key _ x h
  · subst h; exact h46
  · exact key _ x h
  · subst h; exact h46
  · exact key _ x h
  · subst h; exact h46
  · exact key _ x h

theorem ntop4_length (a b c d : UInt8) (r : List UInt8) :
    7 ≤ (ntop4 (a :: b :: c :: d :: r)).length ∧ (ntop4 (a :: b :: c :: d :: r)).length ≤ 15 := by
  have key : ∀ y : UInt8, 1 ≤ (decText y.toNat).length ∧ (decText y.toNat).length ≤ 3 := by
    intro y
    obtain ⟨h1, h2, _⟩ := decText_facts y.toNat y.toNat_lt
    exact ⟨List.length_pos_iff.2 h1, h2⟩
  rw [ntop4_eq]
  simp only [List.length_append, List.length_cons]
  have := key a; have := key b; have := key c; have := key d
  omega

theorem classify_inet (I : Inet6) (a b c d : UInt8) (r : List UInt8) :
    classify I (ntop4 (a :: b :: c :: d :: r)) = some (AF_INET, 32, [a, b, c, d] ++ List.replicate 12 0) := by
  have hm := ntop4_mem a b c d r
  have e1 : (ntop4 (a :: b :: c :: d :: r)).count 58 = 0 := count_eq_zero_of _ _ (fun x hx => (hm x hx).2.1)
  have e2 : (ntop4 (a :: b :: c :: d :: r)).count 45 = 0 := count_eq_zero_of _ _ (fun x hx => (hm x hx).2.2)
  have e3 : (ntop4 (a :: b :: c :: d :: r)).contains 46 = true := by
    rw [ntop4_eq]; simp
  have e4 : hasColonColon false (ntop4 (a :: b :: c :: d :: r)) = false :=
    hasCC_none _ (List.count_eq_zero.1 e1) _
  unfold classify
  simp only [e1, e2, e3, e4, pton4_ntop4]
  simp

end Verif.NetText
