import Verif.Writer.Gen
import Verif.Writer.Block

/-! Lemmas about the address compression. -/
namespace Verif.Writer
open Verif.Reader (Bytes)

theorem commonHead_le : ∀ (n : Nat) (a b : Bytes), commonHead n a b ≤ n
  | 0, _, _ => by simp [commonHead]
  | n + 1, [], _ => by simp [commonHead]
  | n + 1, _ :: _, [] => by simp [commonHead]
  | n + 1, x :: xs, y :: ys => by
    unfold commonHead
    have := commonHead_le n xs ys
    split <;> omega

theorem commonHead_take : ∀ (n : Nat) (a b : Bytes) (i : Nat), i ≤ commonHead n a b → a.take i = b.take i
  | 0, _, _, i, h => by
    have : i = 0 := by simpa [commonHead] using h
    simp [this]
  | n + 1, [], _, i, h => by
    have : i = 0 := by simpa [commonHead] using h
    simp [this]
  | n + 1, _ :: _, [], i, h => by
    have : i = 0 := by simpa [commonHead] using h
    simp [this]
  | n + 1, x :: xs, y :: ys, 0, _ => by simp
  | n + 1, x :: xs, y :: ys, i + 1, h => by
    unfold commonHead at h
    split at h
    · rename_i hxy
      simp only [List.take_succ_cons, hxy, commonHead_take n xs ys i (by omega)]
    · omega

theorem commonHead_lt {n : Nat} {a b : Bytes} (ha : a.length = n) (hb : b.length = n) (h : a ≠ b) : commonHead n a b < n := by
  apply Nat.lt_of_le_of_ne (commonHead_le n a b)
  intro he
  have := commonHead_take n a b n (by omega)
  rw [List.take_of_length_le (by omega), List.take_of_length_le (by omega)] at this
  exact h this

theorem findBest_range (acs : Nat → Acs) {addrLen ch : Nat} (h : ch < addrLen) :
    ch ≤ (findBest acs addrLen ch).1 ∧ (findBest acs addrLen ch).1 < addrLen := by
  unfold findBest
  have : ∀ (l : List Nat) (b : Nat × Int), (∀ i ∈ l, ch ≤ i ∧ i < addrLen) → ch ≤ b.1 ∧ b.1 < addrLen →
      ch ≤ (l.foldl (fun b i => if (acs i).total < b.2 then (i, (acs i).total) else b) b).1 ∧
      (l.foldl (fun b i => if (acs i).total < b.2 then (i, (acs i).total) else b) b).1 < addrLen := by
    intro l
    induction l with
    | nil => exact fun b _ h => h
    | cons i l ih =>
      intro b hl hb
      apply ih _ fun j hj => hl j (List.mem_cons_of_mem _ hj)
      dsimp only
      split
      · exact hl i List.mem_cons_self
      · exact hb
  apply this
  · intro i hi
    rw [List.mem_range'_1] at hi
    omega
  · exact ⟨Nat.le_refl _, h⟩

/-- a block with the addresses `p`..`j` of `A`, head length `head` and several prefix lengths or only one -/
structure GoodBlk (A : Nat → WAddr) (addrLen p j : Nat) (multi : Bool) (head : Nat) : Prop where
  le : p ≤ j
  len : head < addrLen
  share : ∀ i, p ≤ i → i ≤ j → (A i).addr.bytes.take head = (A j).addr.bytes.take head
  plen : multi = false → ∀ i, p ≤ i → i ≤ j → (A i).addr.plen = (A j).addr.plen

/-- the data of address `j` describe a block that ends with it -/
def GoodInfo (A : Nat → WAddr) (addrLen j : Nat) (x : Info) : Prop := ∃ p, x.start = some p ∧ GoodBlk A addrLen p j x.multi x.head

/-- entry `i` describes a block that ends with address `j` -/
def GoodAcs (A : Nat → WAddr) (addrLen j i : Nat) (a : Acs) : Prop := ∃ p, a.ptr = some p ∧ GoodBlk A addrLen p j a.multi i

/-- session before address `k` -/
structure Inv (A : Nat → WAddr) (addrLen k : Nat) (s : Sess) : Prop where
  acs : 0 < k → ∀ i, i < addrLen → GoodAcs A addrLen (k - 1) i (s.acs i)
  info : ∀ j, j + 1 < k → GoodInfo A addrLen j (s.info j)
  fresh : ∀ j, k ≤ j + 1 → (s.info j).start = none

/-- session after address `k` was compressed -/
structure Inv' (A : Nat → WAddr) (addrLen k : Nat) (s : Sess) : Prop where
  acs : ∀ i, i < addrLen → GoodAcs A addrLen k i (s.acs i)
  closed : 0 < k → ∀ i, i < addrLen → (s.acs i).closed = false → ∀ p, (s.acs i).ptr = some p → p < k
  info : ∀ j, j < k → GoodInfo A addrLen j (s.info j)
  fresh : ∀ j, k ≤ j → (s.info j).start = none

theorem Inv'.accept {A : Nat → WAddr} {addrLen k : Nat} {s : Sess} (h : Inv' A addrLen k s) : Inv A addrLen (k + 1) (accept addrLen s) := by
  refine ⟨?_, ?_, ?_⟩
  · intro _ i hi
    simp only [Writer.accept, if_pos hi]
    exact h.acs i hi
  · intro j hj
    exact h.info j (by omega)
  · intro j hj
    exact h.fresh j (by omega)

/-- closing address `k - 1` with the entries for it -/
theorem close_spec {A : Nat → WAddr} {addrLen k ch : Nat} {s : Sess} (h : Inv A addrLen k s) (hk : 0 < k) (hch : ch < addrLen) (ha : addrLen ≤ 16) :
    ∃ s', close addrLen s (k - 1) ch = some s' ∧ (∀ i, (s'.acs i).ptr = (s.acs i).ptr ∧ (s'.acs i).multi = (s.acs i).multi) ∧
      (∀ j, j < k → GoodInfo A addrLen j (s'.info j)) ∧ ∀ j, k ≤ j → (s'.info j).start = none := by
  unfold close
  rw [if_neg (by omega), if_neg (by omega)]
  obtain ⟨best, size, hb⟩ : ∃ best size, findBest s.acs addrLen ch = (best, size) := ⟨_, _, rfl⟩
  have hr := findBest_range s.acs hch
  rw [hb] at hr
  simp only [hb]
  refine ⟨_, rfl, ?_, ?_, ?_⟩
  · intro i
    dsimp only
    split <;> exact ⟨rfl, rfl⟩
  · intro j hj
    dsimp only
    by_cases hjk : j = k - 1
    · rw [if_pos hjk, if_pos (Or.inr (h.fresh _ (by omega))), hjk]
      exact h.acs hk best hr.2
    · rw [if_neg hjk]
      exact h.info j (by omega)
  · intro j hj
    dsimp only
    rw [if_neg (by omega)]
    exact h.fresh j (by omega)

/-- the new entry for head length `i` -/
theorem level_spec {A : Nat → WAddr} {addrLen k ch same i : Nat} {prev : Option WAddr} {tlvs : Nat → Nat → Nat × Bool} {last : Int} {a : Acs}
    (hi : i < addrLen)
    (hprev : prev = if k = 0 then none else some (A (k - 1)))
    (hch : k ≠ 0 → ∀ i, i ≤ ch → (A (k - 1)).addr.bytes.take i = (A k).addr.bytes.take i)
    (hsame : k ≠ 0 → same ≠ 1 → (A (k - 1)).addr.plen = (A k).addr.plen)
    (ha : k ≠ 0 → GoodAcs A addrLen (k - 1) i a) :
    GoodAcs A addrLen k i (level addrLen k ch same prev (A k) tlvs last i a).1 ∧
    (0 < k → (level addrLen k ch same prev (A k) tlvs last i a).1.closed = false → ∀ p, (level addrLen k ch same prev (A k) tlvs last i a).1.ptr = some p → p < k) := by
  unfold level
  dsimp only
  split
  · rename_i hc
    refine ⟨⟨k, rfl, Nat.le_refl _, hi, ?_, ?_⟩, ?_⟩
    · intro j h1 h2
      rw [Nat.le_antisymm h2 h1]
    · intro _ j h1 h2
      rw [Nat.le_antisymm h2 h1]
    · intro hk
      have : prev.isSome = true := by rw [hprev, if_neg (by omega)]; rfl
      simp only [this, if_true]
      intro h
      rw [h] at hc
      exact absurd hc (by decide)
  · rename_i hc
    simp only [Bool.not_eq_true, Bool.or_eq_false_iff, decide_eq_false_iff_not] at hc
    obtain ⟨⟨hc1, hc2⟩, -⟩ := hc
    have hk : k ≠ 0 := by
      intro h
      rw [hprev, if_pos h] at hc1
      exact absurd hc1 (by decide)
    obtain ⟨p, hp, hb⟩ := ha hk
    have hclosed : (prev.isNone || decide (ch < i)) = false := by
      rw [hc1, Bool.false_or, decide_eq_false_iff_not]
      exact hc2
    have hlast := hch hk i (by omega)
    constructor
    · refine ⟨p, hp, by have := hb.le; omega, hi, ?_, ?_⟩
      · intro j h1 h2
        by_cases hj : j = k
        · rw [hj]
        · rw [hb.share j h1 (by omega), hlast]
      · intro hm
        dsimp only at hm
        have hm' : a.multi = false ∧ same ≠ 1 := by
          cases hmm : a.multi with
          | true => rw [hmm] at hm; simp at hm
          | false =>
            rw [hmm] at hm
            simp at hm
            exact ⟨rfl, hm⟩
        have he := hsame hk hm'.2
        intro j h1 h2
        by_cases hj : j = k
        · rw [hj]
        · rw [hb.plen hm'.1 j h1 (by omega), he]
    · intro _ _ q hq
      rw [hp] at hq
      cases hq
      have := hb.le
      omega

theorem compress_spec {A : Nat → WAddr} {addrLen k : Nat} {prev : Option WAddr} {s : Sess} (h : Inv A addrLen k s)
    (hprev : prev = if k = 0 then none else some (A (k - 1))) (hlen : 0 < addrLen ∧ addrLen ≤ 16)
    (hdiff : k ≠ 0 → (A (k - 1)).addr.bytes.length = addrLen ∧ (A k).addr.bytes.length = addrLen ∧ (A (k - 1)).addr.bytes ≠ (A k).addr.bytes)
    (hsame : 0 < s.same) : ∃ s', compress addrLen k prev (A k) s = some s' ∧ Inv' A addrLen k s' ∧ 0 < s'.same := by
  unfold compress
  by_cases hk : k = 0
  · subst hk
    rw [if_pos rfl] at hprev
    subst hprev
    dsimp only
    refine ⟨_, rfl, ⟨?_, ?_, ?_, ?_⟩, hsame⟩
    · intro i hi
      dsimp only
      rw [if_pos hi]
      exact (level_spec hi (by simp) (by simp) (by simp) (by simp)).1
    · intro h0
      omega
    · intro j hj
      omega
    · intro j _
      exact h.fresh j (by omega)
  · rw [if_neg hk] at hprev
    subst hprev
    obtain ⟨d1, d2, d3⟩ := hdiff hk
    have hch : commonHead addrLen (A (k - 1)).addr.bytes (A k).addr.bytes < addrLen := commonHead_lt d1 d2 d3
    obtain ⟨s1, hs1, ha, hg, hf⟩ := close_spec h (by omega) hch hlen.2
    dsimp only
    rw [hs1]
    have hl : ∀ i, i < addrLen → _ := fun i hi => level_spec (A := A) (addrLen := addrLen) (k := k) (i := i)
      (ch := commonHead addrLen (A (k - 1)).addr.bytes (A k).addr.bytes)
      (same := if (A (k - 1)).addr.plen = (A k).addr.plen then s.same + 1 else 1) (prev := some (A (k - 1))) (tlvs := s1.tlvs)
      (last := (s1.acs (addrLen - 1)).total) (a := s1.acs i) hi (by rw [if_neg hk])
      (fun _ i hi => commonHead_take _ _ _ _ hi)
      (by
        intro _ hs
        split at hs
        · assumption
        · exact absurd rfl hs)
      (by
        intro _
        obtain ⟨p, hp, hb⟩ := h.acs (by omega) i hi
        exact ⟨p, by rw [(ha i).1, hp], by rw [(ha i).2]; exact hb⟩)
    refine ⟨_, rfl, ⟨?_, ?_, ?_, ?_⟩, ?_⟩
    · intro i hi
      dsimp only
      rw [if_pos hi]
      exact (hl i hi).1
    · intro h0 i hi
      dsimp only
      rw [if_pos hi]
      exact (hl i hi).2 h0
    · intro j hj
      exact hg j hj
    · intro j hj
      exact hf j hj
    · dsimp only
      split <;> omega

/-- conditions for the addresses of a fragment: consecutive addresses are different -/
structure ListCond (addrLen : Nat) (A : Nat → WAddr) (n : Nat) : Prop where
  len : 0 < addrLen ∧ addrLen ≤ 16
  bytes : ∀ k, k < n → (A k).addr.bytes.length = addrLen
  diff : ∀ k, k + 1 < n → (A k).addr.bytes ≠ (A (k + 1)).addr.bytes

/-- the session at the end of a fragment with `n` addresses -/
def Done (A : Nat → WAddr) (addrLen n : Nat) (over : Bool) (s : Sess) : Prop := if over then Inv' A addrLen n s else Inv A addrLen n s

theorem feed_spec {A : Nat → WAddr} {addrLen : Nat} {max : Int} : ∀ (as : List WAddr) (k : Nat) (prev : Option WAddr) (s : Sess) ,
    ListCond addrLen A (k + as.length) → (∀ i (h : i < as.length), as[i] = A (k + i)) → prev = (if k = 0 then none else some (A (k - 1))) →
    Inv A addrLen k s → 0 < s.same →
    ∃ n over s', feed addrLen max k prev as s = some (n, over, s') ∧ k ≤ n ∧ n ≤ k + as.length ∧ (over = false → n = k + as.length) ∧
      (over = true → n < k + as.length) ∧ Done A addrLen n over s'
  | [], k, prev, s, _, _, _, hi, _ => ⟨k, false, s, rfl, Nat.le_refl _, Nat.le_refl _, fun _ => rfl, by simp, hi⟩
  | a :: as, k, prev, s, hc, hA, hp, hi, hs => by
    have ha : a = A k := hA 0 (by simp)
    obtain ⟨s1, h1, h2, h3⟩ := compress_spec (prev := prev) hi hp hc.len (by
      intro hk
      have hb1 := hc.bytes (k - 1) (by simp; omega)
      have hb2 := hc.bytes k (by simp)
      have hd := hc.diff (k - 1) (by simp; omega)
      rw [show k - 1 + 1 = k by omega] at hd
      exact ⟨hb1, hb2, hd⟩) hs
    rw [← ha] at h1
    unfold feed
    rw [h1]
    dsimp only
    cases hf : fits addrLen max k s1 with
    | false =>
      rw [if_neg (by decide)]
      exact ⟨k, true, s1, rfl, Nat.le_refl _, by omega, by simp, by simp, h2⟩
    | true =>
      rw [if_pos rfl]
      obtain ⟨n, over, s', r1, r2, r3, r4, r5, r6⟩ := feed_spec as (k + 1) (some a) (accept addrLen s1) (by
          have := hc
          rw [List.length_cons] at this
          rwa [show k + 1 + as.length = k + (as.length + 1) by omega])
        (by
          intro i h
          have := hA (i + 1) (by simpa using h)
          rw [List.getElem_cons_succ] at this
          rw [this, show k + (i + 1) = k + 1 + i by omega])
        (by rw [if_neg (by omega), ha]; rfl) h2.accept h3
      refine ⟨n, over, s', r1, by omega, ?_, ?_, ?_, r6⟩
      · rw [List.length_cons]; omega
      · intro ho; rw [r4 ho, List.length_cons]; omega
      · intro ho; rw [List.length_cons]; have := r5 ho; omega

/-- the final call of `_close_addrblock` -/
theorem finish_spec {A : Nat → WAddr} {addrLen n : Nat} {over : Bool} {s : Sess} (h : Done A addrLen (n + 1) over s) (hlen : 0 < addrLen ∧ addrLen ≤ 16) :
    ∃ s', close addrLen s n 0 = some s' ∧ ∀ j, j ≤ n → GoodInfo A addrLen j (s'.info j) := by
  cases over with
  | false =>
    obtain ⟨s', h1, -, h2, -⟩ := close_spec (ch := 0) (show Inv A addrLen (n + 1) s from h) (by omega) (by omega) hlen.2
    exact ⟨s', h1, fun j hj => h2 j (by omega)⟩
  | true =>
    have h : Inv' A addrLen (n + 1) s := h
    unfold close
    rw [if_neg (by omega), if_neg (by omega)]
    obtain ⟨best, size, hb⟩ : ∃ best size, findBest s.acs addrLen 0 = (best, size) := ⟨_, _, rfl⟩
    have hr := findBest_range s.acs hlen.1
    rw [hb] at hr
    simp only [hb]
    refine ⟨_, rfl, ?_⟩
    intro j hj
    dsimp only
    by_cases hjn : j = n
    · rw [if_pos hjn]
      subst hjn
      by_cases hcond : (s.acs best).closed = false ∨ (s.info j).start = none
      · rw [if_pos hcond]
        have hgood := h.info j (by omega)
        have hcl : (s.acs best).closed = false := by
          rcases hcond with hc | hc
          · exact hc
          · obtain ⟨p, hp, -⟩ := hgood
            rw [hc] at hp
            exact absurd hp (by simp)
        obtain ⟨p, hp, hg⟩ := h.acs best hr.2
        have hlt := h.closed (by omega) best hr.2 hcl p hp
        refine ⟨p, hp, by omega, hr.2, ?_, ?_⟩
        · intro i h1 h2
          rw [hg.share i h1 (by omega), hg.share j (by omega) (by omega)]
        · intro hm i h1 h2
          rw [hg.plen hm i h1 (by omega), hg.plen hm j (by omega) (by omega)]
      · rw [if_neg hcond]
        exact h.info j (by omega)
    · rw [if_neg hjn]
      exact h.info j (by omega)

/-- blocks that follow each other, from address `p` to address `j` -/
inductive Chain (A : Nat → WAddr) (addrLen : Nat) : Nat → List Blk → Prop
  | one (b : Blk) : b.first = 0 → GoodBlk A addrLen 0 b.last b.multi b.head → Chain A addrLen b.last [b]
  | snoc (bs : List Blk) (b : Blk) (j : Nat) : Chain A addrLen j bs → b.first = j + 1 → GoodBlk A addrLen b.first b.last b.multi b.head →
      Chain A addrLen b.last (bs ++ [b])

theorem walk_spec {A : Nat → WAddr} {addrLen : Nat} {info : Nat → Info} : ∀ (n j : Nat), j < n → (∀ i, i ≤ j → GoodInfo A addrLen i (info i)) →
    ∃ bs, walk info n j = some bs ∧ Chain A addrLen j bs
  | 0, j, h, _ => absurd h (by omega)
  | n + 1, j, hj, hg => by
    obtain ⟨p, hp, hb⟩ := hg j (Nat.le_refl _)
    unfold walk
    rw [hp]
    dsimp only
    by_cases h0 : p = 0
    · rw [if_pos h0]
      subst h0
      exact ⟨_, rfl, Chain.one ⟨0, j, (info j).multi, (info j).head⟩ rfl hb⟩
    · have := hb.le
      rw [if_neg h0, if_neg (by omega)]
      obtain ⟨bs, h1, h2⟩ := walk_spec n (p - 1) (by omega) fun i hi => hg i (by omega)
      rw [h1]
      exact ⟨_, rfl, Chain.snoc bs ⟨p, j, (info j).multi, (info j).head⟩ (p - 1) h2 (by dsimp only; omega) hb⟩

end Verif.Writer
