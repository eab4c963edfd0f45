import Verif.Writer.Read

/-! The address blocks of a fragment are read back. -/
namespace Verif.Writer
open Verif.Reader (Bytes Block blockLoop)

theorem Chain.good {A : Nat → WAddr} {addrLen j : Nat} {bs : List Blk} (h : Chain A addrLen j bs) :
    ∀ b ∈ bs, b.last ≤ j ∧ GoodBlk A addrLen b.first b.last b.multi b.head := by
  induction h with
  | one b h0 hb =>
    intro c hc
    rw [List.mem_singleton.1 hc, h0]
    exact ⟨Nat.le_refl _, hb⟩
  | snoc bs b j _ h1 h2 ih =>
    intro c hc
    rcases List.mem_append.1 hc with hc | hc
    · have := ih c hc
      have := h2.le
      exact ⟨by omega, (ih c hc).2⟩
    · rw [List.mem_singleton.1 hc]
      exact ⟨Nat.le_refl _, h2⟩

theorem Chain.cover {A : Nat → WAddr} {addrLen j : Nat} {bs : List Blk} (h : Chain A addrLen j bs) {as : List WAddr} (hj : j < as.length) :
    bs.flatMap (Blk.of as) = as.take (j + 1) := by
  induction h with
  | one b h0 hb =>
    simp only [List.flatMap_cons, List.flatMap_nil, List.append_nil, Blk.of, h0, List.drop_zero, Nat.sub_zero]
  | snoc bs b j _ h1 h2 ih =>
    have hle := h2.le
    rw [List.flatMap_append, ih (by omega)]
    simp only [List.flatMap_cons, List.flatMap_nil, List.append_nil, Blk.of, h1]
    rw [show b.last + 1 = (j + 1) + (b.last - (j + 1) + 1) by omega]
    exact (List.take_add).symm

/-- the address at a position -/
def atPos (as : List WAddr) (i : Nat) : WAddr := as.getD i ⟨⟨[], 0⟩, []⟩

theorem atPos_eq {as : List WAddr} {i : Nat} (h : i < as.length) : atPos as i = as[i] := by
  unfold atPos
  rw [List.getD_eq_getElem?_getD, List.getElem?_eq_getElem h]
  rfl

theorem mem_of {as : List WAddr} {b : Blk} {x : WAddr} (hx : x ∈ b.of as) (hl : b.last < as.length) (hle : b.first ≤ b.last) :
    ∃ i, b.first ≤ i ∧ i ≤ b.last ∧ x = atPos as i := by
  obtain ⟨i, hi, rfl⟩ := List.mem_iff_getElem.1 hx
  have hlen : i < b.last - b.first + 1 := by
    unfold Blk.of at hi
    rw [List.length_take] at hi
    omega
  refine ⟨b.first + i, by omega, by omega, ?_⟩
  rw [atPos_eq (by omega)]
  simp only [Blk.of, List.getElem_take, List.getElem_drop]

theorem of_length {as : List WAddr} {b : Blk} (hl : b.last < as.length) (hle : b.first ≤ b.last) : (b.of as).length = b.last - b.first + 1 := by
  unfold Blk.of
  rw [List.length_take, List.length_drop]
  omega

/-- the blocks chosen by the compression can be written -/
theorem Chain.cond {addrLen j : Nat} {bs : List Blk} {as : List WAddr} (h : Chain (atPos as) addrLen j bs) (hj : j < as.length) (hn : as.length ≤ 255)
    (hlen : 0 < addrLen ∧ addrLen ≤ 16) (hb : ∀ a ∈ as, a.addr.bytes.length = addrLen) :
    ∀ b ∈ bs, BlockCond addrLen b.head b.multi ((b.of as).map WAddr.addr) := by
  intro b hbs
  obtain ⟨h1, h2⟩ := h.good b hbs
  have hle := h2.le
  have hl : b.last < as.length := by omega
  have hall : ∀ x ∈ (b.of as).map WAddr.addr, ∃ i, b.first ≤ i ∧ i ≤ b.last ∧ x = (atPos as i).addr := by
    intro x hx
    obtain ⟨y, hy, rfl⟩ := List.mem_map.1 hx
    obtain ⟨i, h1, h2, rfl⟩ := mem_of hy hl hle
    exact ⟨i, h1, h2, rfl⟩
  refine ⟨?_, ⟨hlen.1, hlen.2⟩, h2.len, ?_, ?_, ?_⟩
  · rw [List.length_map, of_length hl hle]
    omega
  · intro x hx
    obtain ⟨i, _, h2, rfl⟩ := hall x hx
    have hi : i < as.length := by omega
    rw [atPos_eq hi]
    exact hb _ (List.getElem_mem hi)
  · intro x hx y hy
    obtain ⟨i, i1, i2, rfl⟩ := hall x hx
    obtain ⟨k, k1, k2, rfl⟩ := hall y hy
    rw [h2.share i i1 i2, h2.share k k1 k2]
  · intro hm x hx y hy
    obtain ⟨i, i1, i2, rfl⟩ := hall x hx
    obtain ⟨k, k1, k2, rfl⟩ := hall y hy
    rw [h2.plen hm i i1 i2, h2.plen hm k k1 k2]

theorem writeBlk_le {addrLen : Nat} {as : List WAddr} {bs : List Blk} {n : Nat} (h : (bs.flatMap (writeBlk addrLen as)).length ≤ n) :
    ∀ b ∈ bs, (writeBlk addrLen as b).length ≤ n := by
  intro b hb
  exact Nat.le_trans (List.sublist_flatten_of_mem (List.mem_map_of_mem hb)).length_le h

theorem writeBlk_ne (addrLen : Nat) (as : List WAddr) (b : Blk) : writeBlk addrLen as b ≠ [] := by
  unfold writeBlk
  simp

theorem bs_le {addrLen : Nat} {as : List WAddr} : ∀ bs : List Blk, bs.length ≤ (bs.flatMap (writeBlk addrLen as)).length
  | [] => by simp
  | b :: bs => by
    have := bs_le (addrLen := addrLen) (as := as) bs
    have hpos : 0 < (writeBlk addrLen as b).length := List.length_pos_iff.2 (writeBlk_ne addrLen as b)
    rw [List.flatMap_cons, List.length_append, List.length_cons]
    omega

/-- **round trip of a fragment**: addresses that were not part of a fragment before -/
theorem fragment_read {addrLen : Nat} {max : Int} {as : List WAddr} (hlen : 0 < addrLen ∧ addrLen ≤ 16)
    (hb : ∀ a ∈ as, a.addr.bytes.length = addrLen) (hok : ∀ a ∈ as, TlvsOk a)
    (hd : ∀ k (h : k + 1 < as.length), as[k].addr.bytes ≠ as[k + 1].addr.bytes) :
    ∃ n over s, feed addrLen max 0 none as (Sess.start fresh) = some (n, over, s) ∧ n ≤ as.length ∧ (over = false → n = as.length) ∧
      ∃ bytes, writeFragment addrLen (as.take n) s = some bytes ∧
        (n ≤ 255 → bytes.length ≤ 65535 → ∀ mem more k fuel, (∀ k, mem k = true) → bytes.length < fuel →
          ∃ blocks k', blockLoop mem more (lo addrLen) fuel k bytes [] = .ok (blocks, k') ∧ blocks.flatMap (seen addrLen) = (as.take n).map given) := by
  have hcond : ListCond addrLen (atPos as) (0 + as.length) := by
    refine ⟨hlen, ?_, ?_⟩
    · intro k hk
      have hk : k < as.length := by omega
      rw [atPos_eq hk]
      exact hb _ (List.getElem_mem hk)
    · intro k hk
      rw [atPos_eq (by omega), atPos_eq (by omega)]
      exact hd k (by omega)
  obtain ⟨n, over, s, h1, -, h2, h3, -, h4⟩ := feed_spec (A := atPos as) (max := max) as 0 none (Sess.start fresh) hcond
    (by intro i hi; rw [Nat.zero_add, atPos_eq hi]) rfl ⟨by intro h; omega, by intro j hj; omega, fun _ _ => rfl⟩ (by decide)
  refine ⟨n, over, s, h1, by omega, fun h => by have := h3 h; omega, ?_⟩
  have htl : (as.take n).length = n := by
    rw [List.length_take]
    omega
  unfold writeFragment
  rw [htl]
  cases n with
  | zero =>
    refine ⟨[], rfl, ?_⟩
    intro _ _ mem more k fuel _ hf
    refine ⟨[], k, ?_, by simp⟩
    obtain ⟨f, rfl⟩ : ∃ f, fuel = f + 1 := ⟨fuel - 1, by simp at hf; omega⟩
    unfold blockLoop
    simp
  | succ n =>
    dsimp only
    obtain ⟨s', c1, c2⟩ := finish_spec h4 hlen
    rw [c1]
    dsimp only
    obtain ⟨bs, w1, w2⟩ := walk_spec (n + 1) n (by omega) c2
    rw [w1]
    dsimp only
    refine ⟨_, rfl, ?_⟩
    intro hn hl mem more k fuel hmem hf
    have hchain : Chain (atPos (as.take (n + 1))) addrLen n bs := by
      have hA : ∀ i, i ≤ n → atPos (as.take (n + 1)) i = atPos as i := by
        intro i hi
        rw [atPos_eq (by omega), atPos_eq (by omega), List.getElem_take]
      have hG : ∀ p j m h, j ≤ n → GoodBlk (atPos as) addrLen p j m h → GoodBlk (atPos (as.take (n + 1))) addrLen p j m h := by
        intro p j m h hj hg
        refine ⟨hg.le, hg.len, ?_, ?_⟩
        · intro i i1 i2
          rw [hA i (by omega), hA j hj]
          exact hg.share i i1 i2
        · intro hm i i1 i2
          rw [hA i (by omega), hA j hj]
          exact hg.plen hm i i1 i2
      have : ∀ j bs, j ≤ n → Chain (atPos as) addrLen j bs → Chain (atPos (as.take (n + 1))) addrLen j bs := by
        intro j bs hj hc
        induction hc with
        | one b h0 hb => exact .one b h0 (hG _ _ _ _ hj hb)
        | snoc bs b j _ h1 h2 ih =>
          have := h2.le
          exact .snoc bs b j (ih (by omega)) h1 (hG _ _ _ _ hj h2)
      exact this n bs (Nat.le_refl _) w2
    have hbs := bs_le (addrLen := addrLen) (as := as.take (n + 1)) bs
    obtain ⟨out, k', o1, o2⟩ := blockLoop_write (addrLen := addrLen) (more := more) hmem (as := as.take (n + 1)) (fun a ha => hok a (List.mem_of_mem_take ha)) bs
      (hchain.cond (by omega) (by omega) hlen fun a ha => hb a (List.mem_of_mem_take ha)) (writeBlk_le hl) fuel k [] (by omega)
    refine ⟨out, k', by simpa using o1, ?_⟩
    rw [o2, hchain.cover (by omega), List.take_of_length_le (by omega)]

end Verif.Writer
