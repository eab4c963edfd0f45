import Verif.Layer2.KeyModel
import Verif.NetText.Props
import Verif.Str.Props
/-
C75: generated link ids.  C76: text form of neighbor keys.
-/
namespace Verif.Layer2
open Verif.Netaddr
open Verif.NetText
open Verif.Str (strhexFromBin strhexToBin strscpy)

/-! ### C75 -/

/-- the request can be served: the originator uses link ids and the address is a MAC address -/
def Served (r : LidOrigin × Netaddr) : Prop := r.1.lid = true ∧ (r.2.type = 47 ∨ r.2.type = 48)

instance (r : LidOrigin × Netaddr) : Decidable (Served r) := by unfold Served; infer_instance

/-- number of served requests for a MAC address -/
def served (rs : List (LidOrigin × Netaddr)) (mac : Netaddr) : Nat :=
  (rs.filter (fun r => decide (Served r) && r.2 == mac)).length

theorem isMac_iff (a : Netaddr) : isMac a = true ↔ a.type = 47 ∨ a.type = 48 := by
  unfold isMac
  rw [Bool.or_eq_true, beq_iff_eq, beq_iff_eq]
  rfl

theorem generateLid_served (l : Lids) (r : LidOrigin × Netaddr) :
    (Served r → generateLid l r.1 r.2 = some (l.bump r.2, ⟨r.2, 4, lidBytes r.1.index (l.next r.2)⟩)) ∧
    (¬ Served r → generateLid l r.1 r.2 = none) := by
  constructor
  · rintro ⟨h1, h2⟩
    unfold generateLid
    rw [h1, (isMac_iff _).2 h2]
    rfl
  · intro h
    unfold generateLid
    cases h1 : r.1.lid with
    | false => rfl
    | true =>
      cases h2 : isMac r.2 with
      | false => rfl
      | true => exact absurd ⟨h1, (isMac_iff _).1 h2⟩ h

theorem next_bump (l : Lids) (mac mac' : Netaddr) :
    (l.bump mac).next mac' = if mac' = mac then (l.next mac + 1) % 2 ^ 32 else l.next mac' := by
  unfold Lids.bump
  conv => lhs; unfold Lids.next
  by_cases h : mac' = mac
  · subst h
    rw [List.find?_cons_of_pos (by simp), if_pos rfl]
    rfl
  · rw [List.find?_cons_of_neg (by simpa using fun e => h e.symm), if_neg h, List.find?_filter]
    rw [show (fun a : Netaddr × Nat => decide ((a.1 != mac) = true ∧ (a.1 == mac') = true)) = fun e => e.1 == mac' from by
      funext e
      by_cases h2 : e.1 = mac'
      · rw [h2]; simp [h]
      · simp [h2]]
    rfl

/-- the result of the `i`-th call: the counter of the MAC address has been advanced by the number of
served calls before -/
theorem generateAll_get : ∀ (rs : List (LidOrigin × Netaddr)) (l : Lids), (∀ m, l.next m < 2 ^ 32) →
    ∀ (i : Nat) (r : LidOrigin × Netaddr), rs[i]? = some r →
    (generateAll l rs)[i]? = some (if Served r then
      some ⟨r.2, 4, lidBytes r.1.index ((l.next r.2 + served (rs.take i) r.2) % 2 ^ 32)⟩ else none)
  | [], _, _, i, r, h => by simp at h
  | r0 :: rs, l, hl, i, r, h => by
    have hcons : generateAll l (r0 :: rs) = (generateLid l r0.1 r0.2).map (·.2) ::
        generateAll (if Served r0 then l.bump r0.2 else l) rs := by
      by_cases hs : Served r0
      · rw [if_pos hs]
        show (match generateLid l r0.1 r0.2 with | none => _ | some (l', k) => _) = _
        rw [(generateLid_served l r0).1 hs]
        rfl
      · rw [if_neg hs]
        show (match generateLid l r0.1 r0.2 with | none => _ | some (l', k) => _) = _
        rw [(generateLid_served l r0).2 hs]
        rfl
    rw [hcons]
    cases i with
    | zero =>
      simp only [List.getElem?_cons_zero, Option.some.injEq] at h ⊢
      subst h
      by_cases hs : Served r0
      · rw [if_pos hs, (generateLid_served l r0).1 hs]
        have : served ([] : List (LidOrigin × Netaddr)) r0.2 = 0 := rfl
        rw [List.take_zero, this, Nat.add_zero, Nat.mod_eq_of_lt (hl _)]
        rfl
      · rw [if_neg hs, (generateLid_served l r0).2 hs]; rfl
    | succ i =>
      simp only [List.getElem?_cons_succ] at h ⊢
      have hl' : ∀ m, Lids.next (if Served r0 then l.bump r0.2 else l) m < 2 ^ 32 := by
        intro m
        split
        · rw [next_bump]
          split
          · exact Nat.mod_lt _ (by decide)
          · exact hl m
        · exact hl m
      rw [generateAll_get rs _ hl' i r h]
      have hcount : served ((r0 :: rs).take (i + 1)) r.2 = (if Served r0 ∧ r0.2 = r.2 then 1 else 0) + served (rs.take i) r.2 := by
        unfold served
        rw [List.take_succ_cons, List.filter_cons]
        by_cases hc : Served r0 ∧ r0.2 = r.2
        · rw [if_pos hc, if_pos (by simp [hc.1, hc.2]), List.length_cons, Nat.add_comm]
        · rw [if_neg hc, if_neg (by simpa using hc), Nat.zero_add]
      rw [hcount]
      congr 1
      by_cases hs : Served r
      · rw [if_pos hs, if_pos hs]
        congr 3
        by_cases h0 : Served r0
        · rw [if_pos h0, next_bump]
          by_cases he : r0.2 = r.2
          · rw [if_pos he.symm, if_pos ⟨h0, he⟩, he]
            omega
          · rw [if_neg (fun e => he e.symm), if_neg (fun c => he c.2), Nat.zero_add]
        · rw [if_neg h0, if_neg (fun c => h0 c.1), Nat.zero_add]
      · rw [if_neg hs, if_neg hs]

theorem lidBytes_inj {i j a b : Nat} (h : lidBytes i a = lidBytes j b) :
    i % 256 = j % 256 ∧ a % 2 ^ 24 = b % 2 ^ 24 := by
  unfold lidBytes at h
  have key : ∀ x y : Nat, UInt8.ofNat (x % 256) = UInt8.ofNat (y % 256) → x % 256 = y % 256 := by
    intro x y hxy
    have := congrArg UInt8.toNat hxy
    simpa using this
  simp only [List.cons_append, List.nil_append, List.cons.injEq, and_true] at h
  obtain ⟨h0, h1, h2, h3⟩ := h
  have h0 := key _ _ h0
  have h1 := key _ _ h1
  have h2 := key _ _ h2
  have h3 := key _ _ h3
  exact ⟨h0, by omega⟩

theorem next_nil (m : Netaddr) : Lids.next [] m < 2 ^ 32 := show (1 : Nat) < 2 ^ 32 from by decide

/-- **C75** (who gets a link id): a call succeeds exactly if the originator uses link ids and the
address is a MAC address; the key then contains the address and a link id of four bytes, so it differs
from the key of the neighbor without link id. -/
theorem C75_served (rs : List (LidOrigin × Netaddr)) (i : Nat) (r : LidOrigin × Netaddr) (h : rs[i]? = some r) :
    ((∃ k, (generateAll [] rs)[i]? = some (some k)) ↔ Served r) ∧
    (∀ k, (generateAll [] rs)[i]? = some (some k) →
      k.addr = r.2 ∧ k.lidLen = 4 ∧ k.linkId.length = 16 ∧ k.linkId.drop 4 = List.replicate 12 0 ∧ k ≠ macKey r.2) := by
  have hg := generateAll_get rs [] next_nil i r h
  rw [hg]
  constructor
  · constructor
    · rintro ⟨k, hk⟩
      by_cases hs : Served r
      · exact hs
      · rw [if_neg hs] at hk; cases hk
    · intro hs
      rw [if_pos hs]
      exact ⟨_, rfl⟩
  · intro k hk
    by_cases hs : Served r
    · rw [if_pos hs] at hk
      cases hk
      refine ⟨rfl, rfl, rfl, rfl, fun e => ?_⟩
      exact absurd (congrArg Key.lidLen e) (show ¬ (4 : Nat) = 0 from by decide)
    · rw [if_neg hs] at hk; cases hk

/-- **C75** (partial): two generated keys are different - for any sequence of requests of any
originators - unless they belong to the same MAC address and at least 2^24 link ids have been
generated for it from the first to the second.  Missing: 2^24 or more (`C75_unique_counterexample`). -/
theorem C75_unique_partial (rs : List (LidOrigin × Netaddr)) (i j : Nat) (hij : i < j) (ri rj : LidOrigin × Netaddr)
    (hi : rs[i]? = some ri) (hj : rs[j]? = some rj) (ki kj : Key)
    (hki : (generateAll [] rs)[i]? = some (some ki)) (hkj : (generateAll [] rs)[j]? = some (some kj))
    (hfew : ri.2 = rj.2 → served ((rs.take j).drop i) ri.2 < 2 ^ 24) : ki ≠ kj := by
  intro he
  subst he
  have hgi := generateAll_get rs [] next_nil i ri hi
  have hgj := generateAll_get rs [] next_nil j rj hj
  have hsi := ((C75_served rs i ri hi).1).1 ⟨_, hki⟩
  have hsj := ((C75_served rs j rj hj).1).1 ⟨_, hkj⟩
  rw [hki, if_pos hsi] at hgi
  rw [hkj, if_pos hsj] at hgj
  have e1 := Option.some.inj (Option.some.inj hgi)
  have e2 := Option.some.inj (Option.some.inj hgj)
  rw [e1] at e2
  have hmac : ri.2 = rj.2 := congrArg Key.addr e2
  have hb := lidBytes_inj (congrArg Key.linkId e2)
  have hfew := hfew hmac
  have hsplit : rs.take j = rs.take i ++ (rs.take j).drop i := by
    conv => lhs; rw [← List.take_append_drop i (rs.take j)]
    rw [List.take_take, Nat.min_eq_left (Nat.le_of_lt hij)]
  have hcount : served (rs.take j) rj.2 = served (rs.take i) ri.2 + served ((rs.take j).drop i) ri.2 := by
    rw [← hmac]
    conv => lhs; rw [hsplit]
    unfold served
    rw [List.filter_append, List.length_append]
  have hpos : 0 < served ((rs.take j).drop i) ri.2 := by
    have hlt : i < rs.length := by
      rcases Nat.lt_or_ge i rs.length with h | h
      · exact h
      · rw [List.getElem?_eq_none h] at hi; cases hi
    have hr : ri ∈ (rs.take j).drop i := by
      rw [List.mem_iff_getElem?]
      refine ⟨0, ?_⟩
      rw [List.getElem?_drop, Nat.add_zero, List.getElem?_take_of_lt hij, hi]
    unfold served
    exact List.length_pos_of_mem (List.mem_filter.2 ⟨hr, by simp [hsi]⟩)
  have hn : Lids.next [] ri.2 = 1 := rfl
  have hn' : Lids.next [] rj.2 = 1 := rfl
  rw [hn, hn', hcount] at hb
  have := hb.2
  omega

/-- a request -/
def demoReq : LidOrigin × Netaddr := (⟨true, 3⟩, ⟨[2, 0, 0, 0, 0, 1] ++ List.replicate 10 0, 47, 48⟩)

theorem served_replicate (n : Nat) : served (List.replicate n demoReq) demoReq.2 = n := by
  have : (decide (Served demoReq) && demoReq.2 == demoReq.2) = true := by decide +kernel
  unfold served
  rw [List.filter_replicate, if_pos this, List.length_replicate]

example : served (((List.replicate 5 demoReq).take 4).drop 1) demoReq.2 < 2 ^ 24 ∧
    (generateAll [] (List.replicate 5 demoReq)).map (·.map (fun k => k.linkId.take 4)) =
      [some [3, 0, 0, 1], some [3, 0, 0, 2], some [3, 0, 0, 3], some [3, 0, 0, 4], some [3, 0, 0, 5]] := by
  decide +kernel

/-- **C75** (fails): the key generated first is generated again after 2^24 calls. -/
theorem C75_unique_counterexample :
    ∃ k, (generateAll [] (List.replicate (2 ^ 24 + 1) demoReq))[0]? = some (some k) ∧
      (generateAll [] (List.replicate (2 ^ 24 + 1) demoReq))[2 ^ 24]? = some (some k) := by
  have hs : Served demoReq := by decide +kernel
  have h : ∀ n, n < 2 ^ 24 + 1 → (List.replicate (2 ^ 24 + 1) demoReq)[n]? = some demoReq := by
    intro n hn
    rw [List.getElem?_replicate, if_pos hn]
  have hg : ∀ n, n < 2 ^ 24 + 1 → (generateAll [] (List.replicate (2 ^ 24 + 1) demoReq))[n]? =
      some (some ⟨demoReq.2, 4, lidBytes 3 ((1 + n) % 2 ^ 32)⟩) := by
    intro n hn
    rw [generateAll_get _ [] next_nil n _ (h n hn), if_pos hs, List.take_replicate,
      Nat.min_eq_left (Nat.le_of_lt hn), served_replicate]
    rfl
  refine ⟨_, hg 0 (by decide), ?_⟩
  rw [hg (2 ^ 24) (by decide)]
  decide +kernel

/-! ### C76 -/

/-- a key as the daemon builds it: a regular MAC address and a link id of at most 16 bytes, unused
bytes are zero -/
def RegularKey (k : Key) : Prop :=
  (k.addr.type = 47 ∨ k.addr.type = 48) ∧ Regular k.addr ∧ k.lidLen ≤ 16 ∧ k.linkId.length = 16 ∧
    k.linkId.drop k.lidLen = List.replicate (16 - k.lidLen) 0

/-- the text of a MAC address is short and contains no comma and no zero byte -/
theorem mac_text (I : Inet6) (a : Netaddr) (ha : Regular a) (ht : a.type = 47 ∨ a.type = 48) :
    (toPrefixString I a false).length ≤ 27 ∧ ∀ c ∈ toPrefixString I a false, c ≠ 44 ∧ c ≠ 0 := by
  obtain ⟨n, _, hlen, _, _⟩ := ha
  obtain ⟨addr, ty, pl⟩ := a
  have all : ∀ c : UInt8, allowed c = true → c ≠ 44 ∧ c ≠ 0 := by
    intro c hc
    have := byteAll (P := fun c => !allowed c || decide (c ≠ 44 ∧ c ≠ 0)) (by decide +kernel) c
    rw [hc] at this
    simpa using this
  have core : ∀ t : Txt, t.length ≤ 23 → (∀ c ∈ t, c ≠ 44 ∧ c ≠ 0) → ∀ b : Bool,
      (if b then t ++ [47] ++ Verif.IsoNum.decText pl.toNat else t).length ≤ 27 ∧
      ∀ c ∈ (if b then t ++ [47] ++ Verif.IsoNum.decText pl.toNat else t), c ≠ 44 ∧ c ≠ 0 := by
    intro t h1 h2 b
    obtain ⟨_, d2, d3, _, _⟩ := decText_facts pl.toNat pl.toNat_lt
    cases b with
    | false => exact ⟨by simp only [Bool.false_eq_true, if_false]; omega, h2⟩
    | true =>
      simp only [if_true]
      refine ⟨by simp only [List.length_append, List.length_singleton]; omega, ?_⟩
      intro c hc
      rcases List.mem_append.1 hc with hc | hc
      · rcases List.mem_append.1 hc with hc | hc
        · exact h2 c hc
        · rw [List.mem_singleton] at hc; subst hc; decide
      · exact all c (digit_allowed c (d3 c hc))
  have hmac : ∀ (sep : UInt8) (bs : List UInt8), (sep = 58 ∨ sep = 45) → bs.length ≤ 8 →
      (macToString sep strSize bs).length ≤ 23 ∧ ∀ c ∈ macToString sep strSize bs, c ≠ 44 ∧ c ≠ 0 := by
    intro sep bs hsep hb
    rw [macToString_eq _ _ _ (by unfold strSize; omega), macText_length sep (by rcases hsep with h | h <;> subst h <;> decide)]
    refine ⟨by omega, fun c hc => ?_⟩
    rcases macText_mem _ _ c hc with h | h
    · rw [h.1]
      rcases hsep with h | h <;> subst h <;> decide
    · exact all c h.1
  rcases ht with ht | ht
  · simp only at ht
    subst ht
    have h := hmac 58 (addr.take 6) (Or.inl rfl) (by rw [List.length_take]; omega)
    exact core _ h.1 h.2 _
  · simp only at ht
    subst ht
    have h := hmac 45 (addr.take 8) (Or.inr rfl) (by rw [List.length_take]; omega)
    exact core _ h.1 h.2 _

theorem findIdx_comma (t : Txt) (h : ∀ c ∈ t, c ≠ 44) (r : Txt) : (t ++ 44 :: r).findIdx? (· == 44) = some t.length := by
  induction t with
  | nil => rfl
  | cons c cs ih =>
    rw [List.cons_append, List.findIdx?_cons, if_neg (by simpa using h c (List.mem_cons_self ..)),
      ih (fun c hc => h c (List.mem_cons_of_mem _ hc))]
    rfl

theorem findIdx_nocomma (t : Txt) (h : ∀ c ∈ t, c ≠ 44) : t.findIdx? (· == 44) = none := by
  rw [List.findIdx?_eq_none_iff]
  intro c hc
  simpa using h c hc

/-- the copy of the text in front of the comma -/
theorem copy_front (junk : UInt8) (t r : Txt) (h : ∀ c ∈ t, c ≠ 0) (hlen : t.length < strSize) :
    ∃ nbuf, strscpy (List.replicate strSize junk) (t ++ r) (t.length + 1) = some nbuf ∧ nbuf.takeWhile (· != 0) = t := by
  unfold strscpy Verif.Str.strscpyAt
  rw [if_neg (by omega), Nat.add_sub_cancel]
  unfold Verif.Str.strncpy Verif.Str.writeAt
  have e1 : (t ++ r).take t.length ++ List.replicate (t.length - (t ++ r).length) (0 : UInt8) = t := by
    rw [List.take_left, List.length_append, show t.length - (t.length + r.length) = 0 from by omega]
    simp
  rw [e1, if_pos (by rw [List.length_replicate]; omega)]
  simp only [List.take_zero, List.nil_append, Nat.zero_add, Option.bind_eq_bind, Option.bind_some]
  rw [if_pos (by simp; omega)]
  refine ⟨_, rfl, ?_⟩
  rw [List.take_left, List.append_assoc, List.takeWhile_append_of_pos (by intro c hc; simpa using h c hc)]
  rw [List.singleton_append, List.takeWhile_cons_of_neg (by simp)]
  simp

/-- **C76** (round trip): parsing the text of a key yields the key. -/
theorem C76_roundtrip (I : Inet6) (hI : I.Sound) (junk : UInt8) (k : Key) (hk : RegularKey k) :
    ∃ txt, keyToString I k true = some txt ∧ keyFromString I junk txt = .ok k := by
  obtain ⟨ht, ha, hl, hlid, hz⟩ := hk
  obtain ⟨m1, m2⟩ := mac_text I k.addr ha ht
  have hback : fromString I (toPrefixString I k.addr false) = some k.addr :=
    C21_roundtrip_partial I hI k.addr ha false (fun h => by rcases ht with h' | h' <;> rw [h'] at h <;> cases h)
  have hmac := (isMac_iff k.addr).2 ht
  have hlidEq : k.linkId.take k.lidLen ++ List.replicate (16 - k.lidLen) 0 = k.linkId := by
    rw [← hz, List.take_append_drop]
  have hfin : ∀ lid : List UInt8, lid = k.linkId.take k.lidLen →
      keyFinish I (toPrefixString I k.addr false) lid = .ok k := by
    intro lid he
    have hlen : lid.length = k.lidLen := by rw [he, List.length_take, hlid]; omega
    unfold keyFinish
    rw [hback]
    dsimp only
    rw [hmac, hlen, he, hlidEq]
    rfl
  unfold keyToString
  rw [hmac]
  by_cases h0 : k.lidLen = 0
  · simp only [Bool.not_true, Bool.false_eq_true, if_false, if_true]
    rw [if_pos h0]
    refine ⟨_, rfl, ?_⟩
    unfold keyFromString
    rw [findIdx_nocomma _ (fun c hc => (m2 c hc).1)]
    exact hfin [] (by rw [h0]; rfl)
  · simp only [Bool.not_true, Bool.false_eq_true, if_false, if_true]
    rw [if_neg h0]
    have hlen : (k.linkId.take k.lidLen).length = k.lidLen := by rw [List.length_take, hlid]; omega
    obtain ⟨hex, x1, x2, x3⟩ := Verif.Str.C11_roundtrip (k.linkId.take k.lidLen)
      (keyStrSize - (toPrefixString I k.addr false ++ [44]).length) 16
      (by rw [hlen, List.length_append, List.length_singleton]; unfold keyStrSize strSize; omega) (by omega)
    rw [x1]
    refine ⟨_, rfl, ?_⟩
    unfold keyFromString
    dsimp only
    rw [List.append_assoc, List.singleton_append, findIdx_comma _ (fun c hc => (m2 c hc).1)]
    dsimp only
    rw [if_neg (by unfold strSize; omega)]
    obtain ⟨nbuf, n1, n2⟩ := copy_front junk (toPrefixString I k.addr false) (44 :: hex) (fun c hc => (m2 c hc).2)
      (by unfold strSize; omega)
    rw [n1]
    dsimp only
    rw [show (toPrefixString I k.addr false ++ 44 :: hex).drop ((toPrefixString I k.addr false).length + 1) = hex from by
      rw [← List.drop_drop, List.drop_left]; rfl, x3]
    dsimp only
    rw [n2]
    exact hfin _ rfl

/-- the text of a generated key -/
example : RegularKey ⟨demoReq.2, 4, lidBytes 3 1⟩ := by
  refine ⟨Or.inl rfl, ⟨6, ?_⟩, ?_⟩ <;> decide +kernel
example : (keyToString NetText.demo ⟨demoReq.2, 4, lidBytes 3 1⟩ true).map (fun t => String.ofList (t.map (fun c => Char.ofNat c.toNat)))
    = some "02:00:00:00:00:01,03000001" := by decide +kernel

/-- **C76** (memory, partial): the parser never writes behind its buffer, for every text whose first
comma is not at index 62 (`C76_overflow_counterexample`). -/
theorem C76_no_fault_partial (I : Inet6) (junk : UInt8) (t : Txt) (h : t.findIdx? (· == 44) ≠ some 62) :
    keyFromString I junk t ≠ .fault := by
  have hfin : ∀ a b, keyFinish I a b ≠ .fault := by
    intro a b
    unfold keyFinish
    split
    · intro h; cases h
    · split <;> (intro h; cases h)
  unfold keyFromString
  cases hc : t.findIdx? (· == 44) with
  | none => exact hfin _ _
  | some len =>
    dsimp only
    by_cases hl : len > strSize
    · rw [if_pos hl]; intro h; cases h
    · rw [if_neg hl]
      have hlt : len < 62 := by
        have : len ≠ 62 := fun e => h (by rw [hc, e])
        unfold strSize at hl
        omega
      have hn : ∃ nbuf, strscpy (List.replicate strSize junk) t (len + 1) = some nbuf := by
        unfold strscpy Verif.Str.strscpyAt
        rw [if_neg (by omega), Nat.add_sub_cancel]
        unfold Verif.Str.strncpy Verif.Str.writeAt
        have e1 : (t.take len ++ List.replicate (len - t.length) (0 : UInt8)).length = len := by
          rw [List.length_append, List.length_take, List.length_replicate]; omega
        rw [if_pos (by rw [e1, List.length_replicate]; unfold strSize; omega)]
        simp only [Option.bind_eq_bind, Option.bind_some]
        rw [if_pos (by
          simp only [List.length_append, List.length_take, List.length_replicate, List.length_drop, List.length_singleton]
          unfold strSize
          omega)]
        exact ⟨_, rfl⟩
      obtain ⟨nbuf, hn⟩ := hn
      rw [hn]
      dsimp only
      split
      · intro h; cases h
      · exact hfin _ _

/-- **C76** (overflow): a text of 62 characters followed by a comma makes the parser write one byte
behind its local buffer of 62 bytes. -/
theorem C76_overflow_counterexample (I : Inet6) (junk : UInt8) :
    keyFromString I junk (List.replicate 62 48 ++ [44]) = .fault := by
  unfold keyFromString
  have hidx : (List.replicate 62 (48 : UInt8) ++ [44]).findIdx? (fun c => c == 44) = some 62 := by decide +kernel
  rw [hidx]
  dsimp only
  rw [if_neg (by decide)]
  have : strscpy (List.replicate strSize junk) (List.replicate 62 48 ++ [44]) (62 + 1) = none := by
    unfold strscpy Verif.Str.strscpyAt
    rw [if_neg (by decide)]
    have : ∀ (b : List UInt8), b.length = 62 → Verif.Str.writeAt b (0 + (62 + 1 - 1)) [0] = none := by
      intro b hb
      unfold Verif.Str.writeAt
      rw [if_neg (by rw [hb]; decide)]
    cases h : Verif.Str.strncpy (List.replicate strSize junk) 0 (List.replicate 62 48 ++ [44]) (62 + 1 - 1) with
    | none => rfl
    | some d =>
      have hd : d.length = 62 := by
        unfold Verif.Str.strncpy Verif.Str.writeAt at h
        split at h
        · cases h
          simp only [List.length_append, List.length_take, List.length_replicate, List.length_drop]
          decide
        · cases h
      simp only [Option.bind_eq_bind, Option.bind_some]
      exact this d hd
  rw [this]

/-- **C76** (accepted texts): every accepted text yields a regular key; a text without comma yields
a key without link id. -/
theorem C76_accepted (I : Inet6) (hI : I.Sound) (junk : UInt8) (t : Txt) (k : Key)
    (h : keyFromString I junk t = .ok k) :
    RegularKey k ∧ ((∀ c ∈ t, c ≠ 44) → k.lidLen = 0) := by
  have hfin : ∀ a lid, lid.length ≤ 16 → keyFinish I a lid = .ok k → RegularKey k ∧ k.lidLen = lid.length := by
    intro a lid hlid he
    unfold keyFinish at he
    split at he
    · cases he
    · next ad had =>
      split at he
      · cases he
      · next hm =>
        have hm : isMac ad = true := by simpa using hm
        cases he
        have ht := (isMac_iff ad).1 hm
        refine ⟨⟨ht, ?_, hlid, ?_, ?_⟩, rfl⟩
        · rcases C21_parse_regular I hI a ad had with h | h
          · subst h; exact absurd hm (by decide)
          · exact h
        · rw [List.length_append, List.length_replicate]; omega
        · dsimp only; rw [List.drop_left]
  unfold keyFromString at h
  cases hc : t.findIdx? (· == 44) with
  | none =>
    rw [hc] at h
    have := hfin t [] (by simp) h
    exact ⟨this.1, fun _ => this.2⟩
  | some len =>
    rw [hc] at h
    dsimp only at h
    split at h
    · cases h
    · split at h
      · cases h
      · split at h
        · cases h
        · next lid hx =>
          have hb := Verif.Str.C11_never_overflows 16 (t.drop (len + 1))
          rw [hx] at hb
          refine ⟨(hfin _ lid hb h).1, fun hno => ?_⟩
          rw [findIdx_nocomma t hno] at hc
          cases hc

example : keyFromString NetText.demo 7 [48, 50, 58, 48, 48, 58, 48, 48, 58, 48, 48, 58, 48, 48, 58, 48, 49, 44, 48, 51, 48, 48, 48, 48, 48, 49]
    = .ok ⟨demoReq.2, 4, lidBytes 3 1⟩ := by decide +kernel

end Verif.Layer2
