import Verif.NetText.Lemmas
/-
C21: printed addresses parse back to the same address.
-/
namespace Verif.NetText
open Verif.Netaddr
open Verif.IsoNum (isSpace isDigit decVal decText strtoull W)

/-! ### Specification -/

/-- number of address bytes of the families that have a text form -/
def familyBytes (t : UInt8) : Option Nat :=
  if t = 2 then some 4          -- AF_INET
  else if t = 10 then some 16   -- AF_INET6
  else if t = 47 then some 6    -- AF_MAC48
  else if t = 48 then some 8    -- AF_EUI64
  else if t = 49 then some 16   -- AF_UUID
  else none

/-- An address as the other parts of the daemon build it: 16 bytes, those not used by the family are
zero, and the prefix is not longer than the address. -/
def Regular (a : Netaddr) : Prop :=
  ∃ n, familyBytes a.type = some n ∧ a.addr.length = 16 ∧ a.addr.drop n = List.replicate (16 - n) 0 ∧
    a.prefixLen.toNat ≤ 8 * n

/-- What is assumed of `inet_ntop` and `inet_pton` for IPv6 (RFC 4291 text form): the text consists
of hexadecimal digits, colons and points, has at most 45 characters, contains `::` or seven colons,
and is converted back to the same 16 bytes; only 16 byte results are produced. -/
structure Inet6.Sound (I : Inet6) : Prop where
  back : ∀ a, a.length = 16 → I.pton (I.ntop a) = some a
  chars : ∀ a, a.length = 16 → ∀ c ∈ I.ntop a,
    (48 ≤ c ∧ c ≤ 57) ∨ (97 ≤ c ∧ c ≤ 102) ∨ c = 58 ∨ c = 46
  short : ∀ a, a.length = 16 → (I.ntop a).length ≤ 45
  colons : ∀ a, a.length = 16 → (∃ x y, I.ntop a = x ++ [58, 58] ++ y) ∨ (I.ntop a).count 58 = 7
  size : ∀ t a, I.pton t = some a → a.length = 16

/-- eight groups of four digits (no abbreviation of zeros) -/
def v6Text : List UInt8 → Txt
  | [x, y] => hex2 x ++ hex2 y
  | x :: y :: r => hex2 x ++ hex2 y ++ 58 :: v6Text r
  | _ => []

/-- a simple implementation, to show that the assumptions can be met -/
def demo : Inet6 where
  ntop := v6Text
  pton t := match binFromHex 0 16 (t.filter (· != 58)) with
    | some (b, 0) => if b.length = 16 then some b else none
    | _ => none

/-! ### Theorems -/

theorem sound_allowed {I : Inet6} (hI : I.Sound) (a : List UInt8) (h : a.length = 16) :
    ∀ c ∈ I.ntop a, allowed c = true ∧ c ≠ 45 := by
  intro c hc
  have := hI.chars a h c hc
  have t := byteAll (P := fun c => !decide ((48 ≤ c ∧ c ≤ 57) ∨ (97 ≤ c ∧ c ≤ 102) ∨ c = 58 ∨ c = 46) ||
    decide (allowed c = true ∧ c ≠ 45)) (by decide +kernel) c
  rw [decide_eq_true this] at t
  simpa using t

theorem hasCC_append (x y : Txt) : ∀ last, hasColonColon last (x ++ 58 :: 58 :: y) = true := by
  induction x with
  | nil => intro last; simp [hasColonColon]
  | cons c cs ih => intro last; simp [hasColonColon, ih]

theorem hasCC_mem : ∀ (t : Txt) (last : Bool), hasColonColon last t = true → (58 : UInt8) ∈ t
  | [], _, h => by simp [hasColonColon] at h
  | c :: cs, last, h => by
    simp only [hasColonColon, Bool.or_eq_true, Bool.and_eq_true, beq_iff_eq] at h
    rcases h with h | h
    · simp [h.1]
    · exact List.mem_cons_of_mem _ (hasCC_mem cs _ h)

theorem classify_inet6 {I : Inet6} (hI : I.Sound) (a : List UInt8) (h : a.length = 16) :
    classify I (I.ntop a) = some (AF_INET6, 128, a) := by
  have hm := sound_allowed hI a h
  have e2 : (I.ntop a).count 45 = 0 := count_eq_zero_of _ _ (fun x hx => (hm x hx).2)
  have hcol := hI.colons a h
  have hcc : hasColonColon false (I.ntop a) = true ∨ (I.ntop a).count 58 = 7 := by
    rcases hcol with ⟨x, y, e⟩ | e
    · left; rw [e]; simpa using hasCC_append x y false
    · exact Or.inr e
  have hpos : (I.ntop a).count 58 ≠ 0 := by
    rcases hcc with e | e
    · intro h0
      exact (List.count_eq_zero.1 h0) (hasCC_mem _ _ e)
    · omega
  unfold classify
  simp only [e2, hI.back a h, Option.map_some]
  rw [if_neg (by
    rintro ⟨h1, -, -, h4⟩
    rcases hcc with e | e
    · simp [e] at h4
    · omega), if_neg (by omega), if_neg (by rintro ⟨h1, -⟩; exact hpos h1), if_pos ⟨hcc, trivial⟩]

theorem split4 (a : List UInt8) (h : a.length = 16) (z : a.drop 4 = List.replicate 12 0) :
    ∃ x y w v, a = [x, y, w, v] ++ List.replicate 12 0 := by
  match a, h with
  | x :: y :: w :: v :: r, _ => exact ⟨x, y, w, v, by simpa using z⟩

/-- **C21** (round trip, partial): for every regular address of every family, with or without
forced prefix length, parsing the printed text yields the identical object.
Missing: a UUID with a prefix shorter than 128 when the prefix length is not forced
(`C21_uuid_counterexample`). -/
theorem C21_roundtrip_partial (I : Inet6) (hI : I.Sound) (a : Netaddr) (ha : Regular a) (force : Bool)
    (hu : a.type = 49 → force = true ∨ a.prefixLen = 128) :
    fromString I (toPrefixString I a force) = some a := by
  obtain ⟨n, hn, hlen, hz, hp⟩ := ha
  obtain ⟨addr, ty, pl⟩ := a
  simp only at hn hlen hz hp hu
  -- reduction to the classification of the address text
  have core : ∀ (t : Txt) (m : Nat), (∀ c ∈ t, allowed c = true) → t.length ≤ 57 → 2 ≤ t.length →
      classify I t = some (ty, m, addr) → m = 8 * n → m < 256 →
      (afMaxPrefix ty = m ∨ (afMaxPrefix ty = 0 ∧ (force = true ∨ pl.toNat = m))) →
      fromString I (if force || decide (pl.toNat < afMaxPrefix ty) then t ++ [47] ++ decText pl.toNat else t)
        = some ⟨addr, ty, pl⟩ := by
    intro t m h1 h2 h3 h4 h5 h6 h7
    split
    · rw [fromString_prefix I t h1 h2 h3 ty m addr h4 pl.toNat (by omega) pl.toNat_lt]
      simp
    · next hf =>
      simp only [Bool.or_eq_true, decide_eq_true_eq, not_or, Bool.not_eq_true] at hf
      rw [fromString_plain I t h1 (by omega) h3 ty m addr h4]
      have : pl.toNat = m := by
        rcases h7 with h7 | ⟨_, h7 | h7⟩
        · omega
        · simp [hf.1] at h7
        · exact h7
      rw [← this]; simp
  unfold familyBytes at hn
  unfold toPrefixString maxPrefix
  split at hn
  · -- IPv4
    next h => subst h; cases hn
              obtain ⟨x, y, w, v, e⟩ := split4 addr hlen hz
              subst e
              exact core _ 32 (fun c hc => (ntop4_mem x y w v _ c hc).1)
                (by have := ntop4_length x y w v (List.replicate 12 0); simp only [List.cons_append, List.nil_append] at *; omega)
                (by have := ntop4_length x y w v (List.replicate 12 0); simp only [List.cons_append, List.nil_append] at *; omega)
                (classify_inet I x y w v _) rfl (by decide) (Or.inl rfl)
  split at hn
  · -- IPv6
    next h => subst h; cases hn
              show fromString I (if force || decide (pl.toNat < 128) then I.ntop addr ++ [47] ++ decText pl.toNat else I.ntop addr) = _
              refine core _ 128 (fun c hc => (sound_allowed hI addr hlen c hc).1)
                (by have := hI.short addr hlen; omega) ?_ (classify_inet6 hI addr hlen) rfl (by decide) (Or.inl rfl)
              rcases hI.colons addr hlen with ⟨x, y, e⟩ | e
              · rw [e]; simp; omega
              · have := List.count_le_length (a := (58 : UInt8)) (l := I.ntop addr); omega
  split at hn
  · -- MAC-48
    next h => subst h; cases hn
              have hl : (addr.take 6).length = 6 := by simp [hlen]
              have e : addr = addr.take 6 ++ List.replicate 10 0 := by
                rw [← hz]; exact (List.take_append_drop 6 addr).symm
              have hc := classify_mac48 I (addr.take 6) hl
              rw [← e] at hc
              show fromString I (if force || decide (pl.toNat < 48) then macToString 58 strSize (addr.take 6) ++ [47] ++ decText pl.toNat else macToString 58 strSize (addr.take 6)) = _
              rw [macToString_eq _ _ _ (by rw [hl]; decide)]
              have hm := macText_length 58 (by decide) (addr.take 6)
              rw [hl] at hm
              refine core _ 48 (fun c hc => ?_) (by omega) (by omega) hc rfl (by decide) (Or.inl rfl)
              rcases macText_mem _ _ c hc with h | h
              · rw [h.1]; decide
              · exact h.1
  split at hn
  · -- EUI-64
    next h => subst h; cases hn
              have hl : (addr.take 8).length = 8 := by simp [hlen]
              have e : addr = addr.take 8 ++ List.replicate 8 0 := by
                rw [← hz]; exact (List.take_append_drop 8 addr).symm
              have hc := classify_eui64 I (addr.take 8) hl
              rw [← e] at hc
              show fromString I (if force || decide (pl.toNat < 64) then macToString 45 strSize (addr.take 8) ++ [47] ++ decText pl.toNat else macToString 45 strSize (addr.take 8)) = _
              rw [macToString_eq _ _ _ (by rw [hl]; decide)]
              have hm := macText_length 45 (by decide) (addr.take 8)
              rw [hl] at hm
              refine core _ 64 (fun c hc => ?_) (by omega) (by omega) hc rfl (by decide) (Or.inl rfl)
              rcases macText_mem _ _ c hc with h | h
              · rw [h.1]; decide
              · exact h.1
  split at hn
  · -- UUID
    next h => subst h; cases hn
              show fromString I (if force || decide (pl.toNat < 0) then uuidGroups strSize uuidLens addr ++ [47] ++ decText pl.toNat else uuidGroups strSize uuidLens addr) = _
              rw [uuidGroups_eq addr hlen]
              have hm : (uuidText (uuidParts addr)).length = 36 := by
                simp [uuidText, uuidParts, macText_length0, hlen]
              refine core _ 128 (fun c hc => (uuidText_mem _ c hc).1) (by omega) (by omega)
                (classify_uuid I addr hlen) rfl (by decide) (Or.inr ⟨rfl, ?_⟩)
              rcases hu rfl with h | h
              · exact Or.inl h
              · right; rw [h]; rfl
  · cases hn

example : Regular ⟨[10, 0, 0, 7] ++ List.replicate 12 0, AF_INET, 24⟩ := ⟨4, by decide, by decide, by decide, by decide⟩
example : toPrefixString demo ⟨[10, 0, 0, 7] ++ List.replicate 12 0, AF_INET, 24⟩ false
    = [49, 48, 46, 48, 46, 48, 46, 55, 47, 50, 52] := by decide +kernel
example : fromString demo [49, 48, 46, 48, 46, 48, 46, 55, 47, 50, 52]
    = some ⟨[10, 0, 0, 7] ++ List.replicate 12 0, AF_INET, 24⟩ := by decide +kernel

theorem hex2_filter (b : UInt8) : (hex2 b).filter (· != 58) = hex2 b := by
  rw [List.filter_eq_self]
  intro c h
  simp [(hex2_all b c h).2.1]

theorem macText0_cons (b : UInt8) (l : List UInt8) : macText 0 (b :: l) = hex2 b ++ macText 0 l := by
  cases l <;> simp [macText]

theorem v6Text_facts : ∀ (n : Nat) (a : List UInt8), a.length = 2 * (n + 1) →
    (v6Text a).filter (· != 58) = macText 0 a ∧ (v6Text a).count 58 = n ∧ (v6Text a).length = 5 * n + 4 ∧
    ∀ c ∈ v6Text a, allowed c = true ∧ c ≠ 45
  | 0, [x, y], _ => by
    refine ⟨?_, ?_, rfl, ?_⟩
    · simp only [v6Text, List.filter_append, hex2_filter, macText0_cons]
      simp [macText]
    · simp [v6Text, hex2_count]
    · intro c hc
      simp only [v6Text, List.mem_append] at hc
      rcases hc with h | h <;> exact ⟨(hex2_all _ c h).1, (hex2_all _ c h).2.2.1⟩
  | n + 1, x :: y :: z :: w :: r, h => by
    obtain ⟨h1, h2, h3, h4⟩ := v6Text_facts n (z :: w :: r) (by simp only [List.length_cons] at h ⊢; omega)
    have e : v6Text (x :: y :: z :: w :: r) = hex2 x ++ hex2 y ++ 58 :: v6Text (z :: w :: r) := rfl
    rw [e]
    refine ⟨?_, ?_, ?_, ?_⟩
    · rw [macText0_cons x, macText0_cons y, ← h1]
      simp [List.filter_append, hex2_filter]
    · simp [hex2_count, h2]
    · simp [hex2, h3]; omega
    · intro c hc
      simp only [List.mem_append, List.mem_cons] at hc
      rcases hc with (h | h) | h | h
      · exact ⟨(hex2_all _ c h).1, (hex2_all _ c h).2.2.1⟩
      · exact ⟨(hex2_all _ c h).1, (hex2_all _ c h).2.2.1⟩
      · subst h; decide
      · exact h4 c h
  | 0, [], h => by simp at h
  | 0, [_], h => by simp at h
  | 0, _ :: _ :: _ :: _, h => by simp at h
  | n + 1, [], h => by simp at h
  | n + 1, [_], h => by simp only [List.length_cons, List.length_nil] at h; omega
  | n + 1, [_, _], h => by simp only [List.length_cons, List.length_nil] at h; omega
  | n + 1, [_, _, _], h => by simp only [List.length_cons, List.length_nil] at h; omega

/-- the assumptions on the C library functions can be met -/
theorem demo_sound : demo.Sound := by
  constructor
  · intro a h
    have e := (v6Text_facts 7 a h).1
    show (match binFromHex 0 16 ((v6Text a).filter (· != 58)) with
      | some (b, 0) => if b.length = 16 then some b else none
      | _ => none) = some a
    rw [e, binFromHex_macText 0 a 16 (by intro h'; simp [h'] at h) (by omega), h]
    simp [h]
  · intro a h c hm
    have t := (v6Text_facts 7 a h).2.2.2 c hm
    have := byteAll (P := fun c => !decide (allowed c = true ∧ c ≠ 45) ||
      decide ((48 ≤ c ∧ c ≤ 57) ∨ (97 ≤ c ∧ c ≤ 102) ∨ c = 58 ∨ c = 46)) (by decide +kernel) c
    rw [decide_eq_true t] at this
    simpa using this
  · intro a h
    have := (v6Text_facts 7 a h).2.2.1
    show (v6Text a).length ≤ 45
    omega
  · intro a h
    exact Or.inr (v6Text_facts 7 a h).2.1
  · intro t a h
    unfold demo at h
    simp only at h
    split at h
    · split at h
      · next hb => cases h; exact hb
      · cases h
    · cases h

/-- **C21** fails for UUIDs: without a forced prefix length every UUID is printed without it, so a
shorter prefix is lost (the table of maximum prefix lengths does not know the family). -/
theorem C21_uuid_counterexample (I : Inet6) (a : Netaddr) (ha : Regular a) (ht : a.type = 49)
    (hp : a.prefixLen ≠ 128) :
    fromString I (toPrefixString I a false) = some { a with prefixLen := 128 } ∧
      fromString I (toPrefixString I a false) ≠ some a := by
  have key : fromString I (toPrefixString I a false) = some { a with prefixLen := 128 } := by
    obtain ⟨n, hn, hlen, hz, hpl⟩ := ha
    obtain ⟨addr, ty, pl⟩ := a
    simp only at ht hlen hp
    subst ht
    show fromString I (if false || decide (pl.toNat < 0) then uuidGroups strSize uuidLens addr ++ [47] ++ decText pl.toNat else uuidGroups strSize uuidLens addr) = _
    rw [if_neg (by simp), uuidGroups_eq addr hlen]
    have hm : (uuidText (uuidParts addr)).length = 36 := by
      simp [uuidText, uuidParts, macText_length0, hlen]
    exact fromString_plain I _ (fun c hc => (uuidText_mem _ c hc).1) (by omega) (by omega) AF_UUID 128 addr
      (classify_uuid I addr hlen)
  refine ⟨key, ?_⟩
  rw [key]
  intro h
  apply hp
  have := congrArg Netaddr.prefixLen (Option.some.inj h)
  exact this.symm

example : Regular ⟨List.replicate 16 1, AF_UUID, 64⟩ := ⟨16, by decide, by decide, by decide, by decide⟩

/-- **C21** (unspecified address): it is printed as `-` and read back. -/
theorem C21_unspec (I : Inet6) (force : Bool) :
    toPrefixString I unspec force = [45] ∧ fromString I (toPrefixString I unspec force) = some unspec := by
  constructor <;> rfl

theorem binFromHex_length (sep : UInt8) : ∀ (n : Nat) (t : Txt) (b : List UInt8) (k : Nat),
    binFromHex sep n t = some (b, k) → b.length + k = n := by
  intro n
  induction n with
  | zero => intro t b k h; simp [binFromHex] at h
  | succ n ih =>
    intro t b k h
    have mapk : ∀ (x : UInt8) (o : Option (List UInt8 × Nat)),
        (∀ b k, o = some (b, k) → b.length + k = n) →
        o.map (fun r => (x :: r.1, r.2)) = some (b, k) → b.length + k = n + 1 := by
      intro x o ho he
      cases o with
      | none => simp at he
      | some r =>
        have := ho r.1 r.2 rfl
        simp only [Option.map_some, Option.some.injEq, Prod.mk.injEq] at he
        rw [← he.1, ← he.2]
        simp only [List.length_cons]
        omega
    rw [binFromHex.eq_def] at h
    simp only at h
    cases t with
    | nil => simp at h
    | cons c cs =>
      simp only at h
      cases hc : readHexdigit c with
      | none => simp [hc] at h
      | some num =>
        have fin : ∀ (byte : UInt8) (rest : Txt),
            (if rest = [] then some ([byte], n)
             else if sep ≠ 0 then
               if rest.head? = some sep then
                 (binFromHex sep n rest.tail).map (fun r => (byte :: r.1, r.2))
               else none
             else (binFromHex sep n rest).map (fun r => (byte :: r.1, r.2))) = some (b, k) →
            b.length + k = n + 1 := by
          intro byte rest h
          split at h
          · simp only [Option.some.injEq, Prod.mk.injEq] at h
            rw [← h.1, ← h.2]; simp only [List.length_cons, List.length_nil]; omega
          · split at h
            · split at h
              · exact mapk _ _ (fun b k => ih _ b k) h
              · cases h
            · exact mapk _ _ (fun b k => ih _ b k) h
        simp only [hc] at h
        exact fin _ _ h

theorem uuidParse_length : ∀ (gs : List Nat) (t : Txt) (b : List UInt8),
    uuidParse gs t = some b → b.length = (gs.map (· / 2)).sum
  | [], _, b, h => by simp only [uuidParse, Option.some.injEq] at h; subst h; rfl
  | g :: gs, t, b, h => by
    rw [uuidParse] at h
    generalize (if (t.takeWhile (· != 45)).length = t.length then none
      else some (t.drop ((t.takeWhile (· != 45)).length + 1)) : Option Txt) = nx at h
    split at h
    · cases h
    · split at h
      · cases h
      · split at h
        · next bytes hb =>
          have hl := binFromHex_length _ _ _ _ _ hb
          generalize hv : uuidParse gs _ = o at h
          cases o with
          | none => simp at h
          | some r =>
            have := uuidParse_length gs _ r hv
            simp only [Option.map_some, Option.some.injEq] at h
            subst h
            simp only [List.length_append, List.map_cons, List.sum_cons]
            omega
        · cases h

theorem classify_regular {I : Inet6} (hI : I.Sound) (t : Txt) (ty : UInt8) (m : Nat) (addr : List UInt8)
    (h : classify I t = some (ty, m, addr)) :
    ∃ n, familyBytes ty = some n ∧ addr.length = 16 ∧ addr.drop n = List.replicate (16 - n) 0 ∧ m = 8 * n := by
  unfold classify at h
  simp only at h
  have padk : ∀ (l : List UInt8) (n : Nat), l.length = n → n ≤ 16 →
      (l ++ List.replicate (16 - l.length) (0 : UInt8)).length = 16 ∧
      (l ++ List.replicate (16 - l.length) (0 : UInt8)).drop n = List.replicate (16 - n) 0 := by
    intro l n hl hn
    subst hl
    constructor
    · simp; omega
    · simp
  split at h
  · split at h
    · next b hb =>
      simp only [Option.some.injEq, Prod.mk.injEq] at h
      obtain ⟨rfl, rfl, rfl⟩ := h
      have hl := binFromHex_length _ _ _ _ _ hb
      obtain ⟨p1, p2⟩ := padk b 6 hl (by decide)
      exact ⟨6, by decide, p1, p2, rfl⟩
    · cases h
  split at h
  · split at h
    · next b hb =>
      simp only [Option.some.injEq, Prod.mk.injEq] at h
      obtain ⟨rfl, rfl, rfl⟩ := h
      have hl := binFromHex_length _ _ _ _ _ hb
      obtain ⟨p1, p2⟩ := padk b 8 hl (by decide)
      exact ⟨8, by decide, p1, p2, rfl⟩
    · cases h
  split at h
  · cases hb : pton4 t with
    | none => simp [hb] at h
    | some b =>
      simp only [hb, Option.map_some, Option.some.injEq, Prod.mk.injEq] at h
      obtain ⟨rfl, rfl, rfl⟩ := h
      have hl : b.length = 4 := by
        unfold pton4 at hb
        split at hb
        · split at hb
          · cases hb; rfl
          · cases hb
        · cases hb
      obtain ⟨p1, p2⟩ := padk b 4 hl (by decide)
      exact ⟨4, by decide, p1, p2, rfl⟩
  split at h
  · cases hb : I.pton t with
    | none => simp [hb] at h
    | some b =>
      simp only [hb, Option.map_some, Option.some.injEq, Prod.mk.injEq] at h
      obtain ⟨rfl, rfl, rfl⟩ := h
      have hl := hI.size t _ hb
      exact ⟨16, by decide, hl, by simp [hl], rfl⟩
  split at h
  · cases hb : uuidFromString t with
    | none => simp [hb] at h
    | some b =>
      simp only [hb, Option.map_some, Option.some.injEq, Prod.mk.injEq] at h
      obtain ⟨rfl, rfl, rfl⟩ := h
      have hl : b.length = 16 := by
        unfold uuidFromString at hb
        split at hb
        · cases hb
        · exact uuidParse_length _ _ _ hb
      exact ⟨16, by decide, hl, by simp [hl], rfl⟩
  · cases h

theorem parts_regular {I : Inet6} (hI : I.Sound) (head rest ptr2 : Txt) (a : Netaddr)
    (h : parseParts I head rest ptr2 = some a) : Regular a := by
  unfold parseParts at h
  split at h
  · cases h
  · cases hc : classify I head with
    | none => simp [hc] at h
    | some r =>
      obtain ⟨ty, m, addr⟩ := r
      obtain ⟨n, h1, h2, h3, h4⟩ := classify_regular hI _ ty m addr hc
      have hn : n ≤ 16 := by
        unfold familyBytes at h1
        repeat (split at h1; · cases h1; decide)
        cases h1
      simp only [hc] at h
      generalize (if ty = AF_INET ∧ ptr2 ≠ [] ∧ (if rest = [] then -1 else numericPrefix ptr2) = -1 then
        maskPrefix ptr2 else if rest = [] then -1 else numericPrefix ptr2) = num at h
      split at h
      · split at h
        · cases h
        · next hnum =>
          cases h
          simp only [not_or, Int.not_lt] at hnum
          refine ⟨n, h1, h2, h3, ?_⟩
          simp only [UInt8.toNat_ofNat']
          omega
      · cases h
        refine ⟨n, h1, h2, h3, ?_⟩
        simp only [UInt8.toNat_ofNat']
        omega

/-- **C21** (every accepted text is a regular address): whatever text is parsed, a successful result
is the unspecified address or an address with a known family, zero in all unused bytes and a prefix
not longer than the address. -/
theorem C21_parse_regular (I : Inet6) (hI : I.Sound) (t : Txt) (a : Netaddr)
    (h : fromString I t = some a) : a = unspec ∨ Regular a := by
  unfold fromString at h
  split at h
  · left; exact (Option.some.inj h).symm
  · right
    split at h
    · next e he =>
      have hm := List.mem_of_find?_eq_some he
      have hr : ∀ e ∈ knownPrefixes, Regular e.2 := by
        intro e he
        simp only [knownPrefixes, List.mem_cons, List.not_mem_nil, or_false] at he
        rcases he with h | h | h | h | h <;> subst h
        · exact ⟨4, by decide, by decide, by decide, by decide⟩
        · exact ⟨16, by decide, by decide, by decide, by decide⟩
        · exact ⟨4, by decide, by decide, by decide, by decide⟩
        · exact ⟨16, by decide, by decide, by decide, by decide⟩
        · exact ⟨16, by decide, by decide, by decide, by decide⟩
      cases h
      exact hr e hm
    · exact parts_regular hI _ _ _ _ h

example : fromString demo [49, 48, 46, 48, 46, 48, 46, 55, 47, 51, 51] = none := by decide +kernel

end Verif.NetText
