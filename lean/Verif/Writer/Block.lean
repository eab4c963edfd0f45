import Verif.Writer.Lemmas

/-! Lemmas about written address blocks. -/
namespace Verif.Writer
open Verif.Reader (Bytes S R Tlv Block getU8 parseHead parseTail parsePrefix parseAddrblock copyTo plenOf)

theorem go_le : ∀ n k a b, k ≤ commonTail.go n k a b ∧ commonTail.go n k a b ≤ k + n
  | 0, k, _, _ => ⟨Nat.le_refl _, by simp [commonTail.go]⟩
  | n + 1, k, [], _ => by simp [commonTail.go]
  | n + 1, k, _ :: _, [] => by simp [commonTail.go]
  | n + 1, k, x :: xs, y :: ys => by
    unfold commonTail.go
    split
    · have := go_le n (k + 1) xs ys
      omega
    · omega

theorem go_take : ∀ (n k : Nat) (a b : Bytes), a.take (commonTail.go n k a b - k) = b.take (commonTail.go n k a b - k)
  | 0, k, _, _ => by simp [commonTail.go]
  | n + 1, k, [], _ => by simp [commonTail.go]
  | n + 1, k, _ :: _, [] => by simp [commonTail.go]
  | n + 1, k, x :: xs, y :: ys => by
    unfold commonTail.go
    split
    · rename_i h
      have h1 := go_le n (k + 1) xs ys
      have h2 := go_take n (k + 1) xs ys
      rw [show commonTail.go n (k + 1) xs ys - k = (commonTail.go n (k + 1) xs ys - (k + 1)) + 1 by omega]
      simp only [List.take_succ_cons, h, h2]
    · simp

theorem commonTail_le (n : Nat) (a b : Bytes) : commonTail n a b ≤ n := by
  have := (go_le n 0 a.reverse b.reverse).2
  unfold commonTail
  omega

theorem commonTail_drop {n : Nat} {a b : Bytes} {k : Nat} (hl : a.length = b.length) (hk : k ≤ commonTail n a b) :
    a.drop (a.length - k) = b.drop (a.length - k) := by
  have h := go_take n 0 a.reverse b.reverse
  simp only [Nat.sub_zero] at h
  have h' : a.reverse.take k = b.reverse.take k := by
    have hk' : k ≤ commonTail.go n 0 a.reverse b.reverse := hk
    have := congrArg (List.take k) h
    rw [List.take_take, List.take_take, Nat.min_eq_left hk'] at this
    exact this
  rw [List.take_reverse, List.take_reverse, ← hl] at h'
  exact List.reverse_inj.1 h'

theorem tailLength_spec (start : Bytes) : ∀ (as : List Addr) (n : Nat), (∀ a ∈ as, a.bytes.length = start.length) →
    tailLength start n as ≤ n ∧ ∀ a ∈ as, start.drop (start.length - tailLength start n as) = a.bytes.drop (start.length - tailLength start n as)
  | [], n, _ => ⟨Nat.le_refl _, by simp⟩
  | a :: as, n, h => by
    unfold tailLength
    split
    · rename_i h0
      refine ⟨by omega, ?_⟩
      intro b hb
      have := h b hb
      rw [Nat.sub_zero, List.drop_length, ← this, List.drop_length]
    · obtain ⟨h1, h2⟩ := tailLength_spec start as (commonTail n start a.bytes) fun b hb => h b (List.mem_cons_of_mem _ hb)
      refine ⟨Nat.le_trans h1 (commonTail_le _ _ _), ?_⟩
      intro b hb
      rcases List.mem_cons.1 hb with rfl | hb
      · exact commonTail_drop (h _ List.mem_cons_self).symm h1
      · exact h2 b hb

/-- conditions for an address block: the addresses have the length of addresses of the message and a common head, and the
same prefix length unless the block has several -/
structure BlockCond (addrLen headLen : Nat) (multi : Bool) (as : List Addr) : Prop where
  num : 1 ≤ as.length ∧ as.length ≤ 255
  len : 1 ≤ addrLen ∧ addrLen ≤ 16
  head : headLen < addrLen
  bytes : ∀ a ∈ as, a.bytes.length = addrLen
  share : ∀ a ∈ as, ∀ b ∈ as, a.bytes.take headLen = b.bytes.take headLen
  plen : multi = false → ∀ a ∈ as, ∀ b ∈ as, a.plen = b.plen

/-- head and tail lengths of the block, and what they mean -/
theorem headTail_spec {addrLen headLen : Nat} {multi : Bool} {as : List Addr} (h : BlockCond addrLen headLen multi as) {x t : Nat}
    (hx : headTail addrLen headLen as = (x, t)) : x + t < addrLen ∧
    ∀ a ∈ as, ∀ b ∈ as, a.bytes.take x = b.bytes.take x ∧ a.bytes.drop (addrLen - t) = b.bytes.drop (addrLen - t) := by
  unfold headTail at hx
  split at hx
  · rename_i c c' cs
    simp only [Prod.mk.injEq] at hx
    obtain ⟨rfl, ht⟩ := hx
    have hc := h.bytes c List.mem_cons_self
    obtain ⟨h1, h2⟩ := tailLength_spec c.bytes (c :: c' :: cs) (addrLen - headLen - 1) fun a ha => by rw [h.bytes a ha, hc]
    rw [ht, hc] at h2
    rw [ht] at h1
    have := h.head
    refine ⟨by omega, fun a ha b hb => ⟨h.share a ha b hb, ?_⟩⟩
    rw [← h2 a ha, ← h2 b hb]
  · simp only [Prod.mk.injEq] at hx
    obtain ⟨rfl, rfl⟩ := hx
    have := h.len
    refine ⟨by omega, fun a ha b hb => ⟨rfl, ?_⟩⟩
    rw [Nat.sub_zero, ← h.bytes a ha, List.drop_length, h.bytes a ha, ← h.bytes b hb, List.drop_length]

/-- `memcpy` into the middle -/
theorem copyTo_ok {addr : Bytes} {off : Nat} {src : Bytes} (h : off + src.length ≤ 16) :
    copyTo addr off src = some (addr.take off ++ src ++ addr.drop (off + src.length)) := by
  unfold copyTo
  rw [if_pos h]

/-- parts of an address -/
theorem parts {a : Bytes} {n x t : Nat} (h : x + t ≤ n) :
    a = a.take x ++ ((a.drop x).take (n - x - t) ++ a.drop (n - t)) := by
  have h1 : (a.drop x).take (n - x - t) ++ a.drop (n - t) = a.drop x := by
    have : a.drop (n - t) = (a.drop x).drop (n - x - t) := by rw [List.drop_drop]; congr 1; omega
    rw [this, List.take_append_drop]
  rw [h1, List.take_append_drop]

/-! ### parsing -/

def headFlag (x : Nat) : UInt8 := if x > 0 then 0x80 else 0
def tailFlag (t : Nat) (zero : Bool) : UInt8 := if t > 0 then if zero then 0x20 else 0x40 else 0
def plenFlag (multi : Bool) (plen : UInt8) (addrLen : Nat) : UInt8 := if multi then 0x08 else if plen.toNat ≠ addrLen * 8 then 0x10 else 0

theorem flags_and (x t : Nat) (zero multi : Bool) (plen : UInt8) (n : Nat) :
    (headFlag x ||| tailFlag t zero ||| plenFlag multi plen n) &&& 0x80 = headFlag x ∧
    (headFlag x ||| tailFlag t zero ||| plenFlag multi plen n) &&& 0x60 = tailFlag t zero ∧
    (headFlag x ||| tailFlag t zero ||| plenFlag multi plen n) &&& 0x18 = plenFlag multi plen n := by
  have h1 : headFlag x = 0 ∨ headFlag x = 0x80 := by unfold headFlag; split <;> simp
  have h2 : tailFlag t zero = 0 ∨ tailFlag t zero = 0x20 ∨ tailFlag t zero = 0x40 := by
    unfold tailFlag
    split
    · cases zero <;> simp
    · simp
  have h3 : plenFlag multi plen n = 0 ∨ plenFlag multi plen n = 0x08 ∨ plenFlag multi plen n = 0x10 := by
    unfold plenFlag
    split
    · simp
    · split <;> simp
  rcases h1 with h1 | h1 <;> rcases h2 with h2 | h2 | h2 <;> rcases h3 with h3 | h3 | h3 <;> rw [h1, h2, h3] <;> decide

theorem lo_toNat' {n : Nat} (h : n ≤ 255) : (lo n).toNat = n := by
  rw [lo_toNat]
  omega

theorem lo_sub {a b : Nat} (ha : a ≤ 255) (h : b ≤ a) : lo a - lo b = lo (a - b) := by
  apply UInt8.toNat_inj.1
  rw [UInt8.toNat_sub_of_le, lo_toNat' ha, lo_toNat' (by omega), lo_toNat' (by omega)]
  rw [UInt8.le_iff_toNat_le, lo_toNat' ha, lo_toNat' (by omega)]
  exact h

theorem parseHead_write {flags : UInt8} {n x : Nat} {head rest : Bytes} (hn : n ≤ 16) (hx : x < n) (hl : head.length = x) (hf : flags &&& 0x80 = headFlag x) :
    parseHead flags (lo n) ⟨(if x > 0 then lo x :: head else []) ++ rest, Verif.Reader.OKAY⟩ =
      .ok (lo x, lo (n - x), head ++ List.replicate (16 - x) 0, ⟨rest, Verif.Reader.OKAY⟩) := by
  unfold parseHead
  simp only [hf]
  unfold headFlag
  by_cases h0 : x > 0
  · rw [if_pos h0, if_pos h0, if_pos (by decide)]
    simp only [List.cons_append, getU8_c]
    have hx' : (lo x).toNat = x := lo_toNat' (by omega)
    rw [if_neg (by
      rintro (h | h | h)
      · rw [UInt8.lt_iff_toNat_lt, hx'] at h
        simp at h
        omega
      · rw [ge_iff_le, UInt8.le_iff_toNat_le, hx'] at h
        simp at h
        omega
      · rw [ge_iff_le, UInt8.le_iff_toNat_le, hx', lo_toNat' (by omega)] at h
        omega)]
    rw [if_neg (by rw [hx', List.length_append]; omega), hx']
    rw [← hl, List.take_left, copyTo_ok (by rw [hl]; omega)]
    simp only [List.drop_left]
    rw [hl, lo_sub (by omega) (by omega)]
    rw [List.drop_replicate]
    simp
  · rw [if_neg h0, if_neg h0, if_neg (by decide)]
    have : x = 0 := by omega
    subst this
    rw [List.length_eq_zero_iff.1 hl]
    rfl

theorem parseTail_write {flags : UInt8} {n x t : Nat} {zero : Bool} {head tail rest : Bytes} (hn : n ≤ 16) (hx : x + t < n)
    (hl : head.length = x) (ht : tail.length = t) (hz : zero = true → tail = List.replicate t 0) (hf : flags &&& 0x60 = tailFlag t zero) :
    parseTail flags (lo n) (lo (n - x)) (head ++ List.replicate (16 - x) 0)
      ⟨(if t > 0 then lo t :: (if zero then [] else tail) else []) ++ rest, Verif.Reader.OKAY⟩ =
      .ok (lo (n - x - t), head ++ (List.replicate (n - t - x) 0 ++ (tail ++ List.replicate (16 - n) 0)), ⟨rest, Verif.Reader.OKAY⟩) := by
  have hrep : ∀ a b : Nat, a + b = 16 - x → List.replicate (16 - x) (0 : UInt8) = List.replicate a 0 ++ List.replicate b 0 := by
    intro a b hab
    rw [← hab, List.replicate_append_replicate]
  unfold parseTail
  simp only [hf]
  unfold tailFlag
  by_cases h0 : t > 0
  · rw [if_pos h0, if_pos h0]
    cases zero with
    | true =>
      simp only [if_true]
      rw [List.cons_append, getU8_c]
      simp only [List.nil_append]
      rw [lo_sub (by omega) (by omega), hz rfl, List.replicate_append_replicate, List.replicate_append_replicate]
      congr 5
      omega
    | false =>
      simp only [Bool.false_eq_true, if_false]
      rw [if_neg (by decide), if_pos (by decide)]
      rw [List.cons_append, getU8_c]
      simp only
      have ht' : (lo t).toNat = t := lo_toNat' (by omega)
      rw [if_neg (by
        rintro (h | h | h)
        · rw [UInt8.lt_iff_toNat_lt, ht'] at h
          simp at h
          omega
        · rw [ge_iff_le, UInt8.le_iff_toNat_le, ht'] at h
          simp at h
          omega
        · rw [ge_iff_le, UInt8.le_iff_toNat_le, ht', lo_toNat' (by omega)] at h
          omega)]
      rw [if_neg (by rw [ht', List.length_append]; omega), ht', lo_toNat' (show n ≤ 255 by omega), ← ht, List.take_left, List.drop_left, ht,
        copyTo_ok (by omega)]
      simp only
      rw [lo_sub (by omega) (by omega)]
      have h1 : (head ++ List.replicate (16 - x) 0).take (n - t) = head ++ List.replicate (n - t - x) 0 := by
        rw [List.take_append, hl, List.take_of_length_le (by omega), List.take_replicate]
        congr 2
        omega
      have h2 : (head ++ List.replicate (16 - x) 0).drop (n - t + tail.length) = List.replicate (16 - n) 0 := by
        rw [List.drop_append, hl, List.drop_eq_nil_of_le (by omega), List.nil_append, List.drop_replicate]
        congr 1
        omega
      rw [h1, h2]
      simp only [List.append_assoc]
  · rw [if_neg h0, if_neg h0, if_neg (by decide), if_neg (by decide), if_neg (by decide)]
    have : t = 0 := by omega
    subst this
    rw [List.length_eq_zero_iff.1 ht]
    simp only [List.nil_append, List.replicate_append_replicate, Nat.sub_zero]
    congr 5
    omega

/-- where the prefix lengths of a written block are -/
def plenPart (multi : Bool) (addrLen : Nat) (as : List Addr) : Bytes :=
  if multi then as.map Addr.plen else if ((as.map Addr.plen).headD 0).toNat ≠ addrLen * 8 then [(as.map Addr.plen).headD 0] else []

theorem parsePrefix_write {more : Bool} {flags : UInt8} {n : Nat} {multi : Bool} {as : List Addr} {rest : Bytes} (hn : n ≤ 16) (hnum : as.length ≤ 255)
    (hf : flags &&& 0x18 = plenFlag multi ((as.map Addr.plen).headD 0) n) :
    parsePrefix more flags (lo n) (lo as.length) (plenPart multi n as ++ rest) =
      .ok (if multi then 0 else (as.map Addr.plen).headD 0, if multi then some (as.map Addr.plen) else none, rest) := by
  unfold parsePrefix plenPart
  simp only [hf]
  unfold plenFlag
  cases multi with
  | true =>
    simp only [if_true]
    rw [if_neg (by decide), if_neg (by decide), lo_toNat' hnum, if_neg (by simp),
      List.take_left' (by simp), List.drop_left' (by simp)]
  | false =>
    simp only [Bool.false_eq_true, if_false]
    by_cases hp : ((as.map Addr.plen).headD 0).toNat ≠ n * 8
    · rw [if_pos hp, if_pos hp, if_neg (by decide), if_pos (by decide)]
      rfl
    · rw [if_neg hp, if_neg hp, if_pos rfl]
      have : lo n * 8 = (as.map Addr.plen).headD 0 := by
        apply UInt8.toNat_inj.1
        rw [UInt8.toNat_mul, lo_toNat' (by omega), Decidable.not_not.1 hp]
        have : (8 : UInt8).toNat = 8 := rfl
        rw [this]
        omega
      rw [this]
      rfl

theorem length_flatMap_const {f : Addr → Bytes} {k : Nat} : ∀ {as : List Addr}, (∀ a ∈ as, (f a).length = k) → (as.flatMap f).length = k * as.length
  | [], _ => by simp
  | a :: as, h => by
    rw [List.flatMap_cons, List.length_append, h a List.mem_cons_self, length_flatMap_const fun b hb => h b (List.mem_cons_of_mem _ hb),
      List.length_cons, Nat.mul_add, Nat.mul_one, Nat.add_comm]

theorem flatMap_slice {f : Addr → Bytes} {k : Nat} : ∀ {as : List Addr} {i : Nat} (hi : i < as.length), (∀ a ∈ as, (f a).length = k) →
    ((as.flatMap f).drop (i * k)).take k = f as[i]
  | a :: as, 0, _, h => by
    rw [Nat.zero_mul, List.drop_zero, List.flatMap_cons]
    exact List.take_left' (h a List.mem_cons_self)
  | a :: as, i + 1, hi, h => by
    rw [List.flatMap_cons, show (i + 1) * k = k + i * k by rw [Nat.add_mul]; omega, ← List.drop_drop, List.drop_left' (h a List.mem_cons_self)]
    exact flatMap_slice (by simpa using hi) fun b hb => h b (List.mem_cons_of_mem _ hb)

/-- bytes of address `i` of a parsed block, rfc5444_reader.c:969-977: the template with the middle part replaced -/
def decode (addrLen : Nat) (b : Block) (i : Nat) : Option Bytes :=
  (copyTo b.addr b.midStart.toNat ((b.mid.drop (i * b.midLen.toNat)).take b.midLen.toNat)).map (·.take addrLen)

theorem writeBlock_parse {addrLen headLen : Nat} {multi : Bool} {as : List Addr} (h : BlockCond addrLen headLen multi as) (more : Bool) (rest : Bytes) :
    ∃ b, parseAddrblock more (writeBlock addrLen headLen multi as ++ rest) (lo addrLen) = .ok (b, rest) ∧
      b.num.toNat = as.length ∧ b.size = (writeBlock addrLen headLen multi as).length ∧
      ∀ i (hi : i < as.length), decode addrLen b i = some as[i].bytes ∧ plenOf b i = some as[i].plen := by
  obtain ⟨x, t, hht⟩ : ∃ x t, headTail addrLen headLen as = (x, t) := ⟨_, _, rfl⟩
  obtain ⟨hxt, hsh⟩ := headTail_spec h hht
  obtain ⟨hnum, hlen, -, hbytes, -, hplen⟩ := h
  obtain ⟨a0, as', has⟩ : ∃ a as', as = a :: as' := by
    cases as with
    | nil => simp at hnum
    | cons a as => exact ⟨a, as, rfl⟩
  have hm0 : a0 ∈ as := by rw [has]; exact List.mem_cons_self
  have hfirst : (as.map Addr.bytes).headD [] = a0.bytes := by rw [has]; rfl
  have hb0 := hbytes a0 hm0
  let zero : Bool := decide (t > 0 ∧ ((a0.bytes.drop (addrLen - t)).all (· = 0)) = true)
  let head := a0.bytes.take x
  let tail := a0.bytes.drop (addrLen - t)
  let mid := as.flatMap fun a => (a.bytes.drop x).take (addrLen - x - t)
  have hw : ∀ r, writeBlock addrLen headLen multi as ++ r =
      lo as.length :: (headFlag x ||| tailFlag t zero ||| plenFlag multi ((as.map Addr.plen).headD 0) addrLen) ::
        ((if x > 0 then lo x :: head else []) ++ ((if t > 0 then lo t :: (if zero then [] else tail) else []) ++ (mid ++ (plenPart multi addrLen as ++ r)))) := by
    intro r
    simp only [writeBlock, hht, hfirst, headFlag, tailFlag, plenFlag, plenPart, zero, head, tail, mid, decide_eq_true_eq]
    simp only [List.append_assoc, List.cons_append, List.nil_append]
  have hheadl : head.length = x := by simp only [head, List.length_take]; omega
  have htaill : tail.length = t := by simp only [tail, List.length_drop]; omega
  have hmid : ∀ a ∈ as, ((a.bytes.drop x).take (addrLen - x - t)).length = addrLen - x - t := by
    intro a ha
    rw [List.length_take, List.length_drop, hbytes a ha]
    omega
  have hmidl : mid.length = (addrLen - x - t) * as.length := length_flatMap_const hmid
  have hz : zero = true → tail = List.replicate t 0 := by
    intro hz
    simp only [zero, decide_eq_true_eq, List.all_eq_true] at hz
    rw [← htaill]
    exact List.eq_replicate_of_mem fun b hb => hz.2 b hb
  obtain ⟨hf1, hf2, hf3⟩ := flags_and x t zero multi ((as.map Addr.plen).headD 0) addrLen
  have hn : (lo as.length).toNat = as.length := lo_toNat' hnum.2
  have hml : (lo (addrLen - x - t)).toNat = addrLen - x - t := lo_toNat' (by omega)
  have hml2 : (lo x).toNat = x := lo_toNat' (by omega)
  refine ⟨⟨lo as.length, lo x, lo (addrLen - x - t), head ++ (List.replicate (addrLen - t - x) 0 ++ (tail ++ List.replicate (16 - addrLen) 0)), mid,
    if multi then 0 else (as.map Addr.plen).headD 0, if multi then some (as.map Addr.plen) else none, (writeBlock addrLen headLen multi as).length, [], 0, []⟩, ?_, ?_, rfl, ?_⟩
  · unfold parseAddrblock
    have hsz : (writeBlock addrLen headLen multi as ++ rest).length - rest.length = (writeBlock addrLen headLen multi as).length := by
      rw [List.length_append]; omega
    have hsz2 := hsz
    rw [hw rest] at hsz2
    rw [hw rest]
    simp only [getU8_c]
    rw [if_neg (by
      intro h0
      have := congrArg UInt8.toNat h0
      rw [hn] at this
      simp at this
      rw [this] at hnum
      simp at hnum)]
    rw [parseHead_write hlen.2 (by omega) hheadl hf1]
    simp only
    rw [parseTail_write hlen.2 hxt hheadl htaill hz hf2]
    simp only [hn, hml, ← hmidl]
    rw [if_neg (by rw [List.length_append]; omega), List.drop_left, List.take_left, parsePrefix_write hlen.2 hnum.2 hf3]
    simp only [ne_eq, not_true_eq_false, if_false, hsz2]
  · exact hn
  · intro i hi
    have hmem : as[i] ∈ as := List.getElem_mem hi
    constructor
    · unfold decode
      simp only [hml, hml2]
      rw [flatMap_slice hi hmid, copyTo_ok (by rw [hmid _ hmem]; omega), hmid _ hmem]
      simp only [Option.map_some, Option.some.injEq]
      have e1 : (head ++ (List.replicate (addrLen - t - x) 0 ++ (tail ++ List.replicate (16 - addrLen) 0))).take x = head := List.take_left' hheadl
      have e2 : (head ++ (List.replicate (addrLen - t - x) 0 ++ (tail ++ List.replicate (16 - addrLen) 0))).drop (x + (addrLen - x - t)) = tail ++ List.replicate (16 - addrLen) 0 := by
        rw [← List.drop_drop, List.drop_left' hheadl, List.drop_left' (by simp; omega)]
      rw [e1, e2]
      have h3 := hsh a0 hm0 _ hmem
      rw [← List.append_assoc, List.take_left' (by simp only [List.length_append, hheadl, htaill, hmid _ hmem]; omega)]
      simp only [head, tail]
      rw [h3.1, h3.2, List.append_assoc]
      exact (parts (by omega)).symm
    · unfold plenOf
      cases multi with
      | true => simp [hi]
      | false =>
        simp only [Bool.false_eq_true, if_false]
        have : (as.map Addr.plen).headD 0 = a0.plen := by rw [has]; rfl
        rw [this, hplen rfl a0 hm0 _ hmem]

end Verif.Writer
