import Verif.Bits.Lemmas
/-
Property theorems for 256 bit sets (C09) and bit streams (C10).
-/
namespace Verif.Bits

/-! ## C09: bitmap256 is a set over 0..255 -/

/-- C09: adding a position adds exactly that position. -/
theorem C09_set (m : Bitmap) (i j : Fin 256) :
    bitmapGet (bitmapSet m i) j = (decide (j = i) || bitmapGet m j) := by
  rw [bitmapGet_eq, bitmapGet_eq]
  unfold bitmapSet
  by_cases hw : wordOf j = wordOf i
  · simp only [hw, if_true, BitVec.getLsbD_or, maskOf_getLsbD]
    have : (j.val % 64 = i.val % 64) ↔ j = i := by
      have := congrArg Fin.val hw
      rw [wordOf_val, wordOf_val] at this
      rw [Fin.ext_iff]; omega
    rw [Bool.or_comm]; simp [this]
  · have : j ≠ i := fun h => hw (by rw [h])
    simp [hw, this]

/-- C09: removing a position removes exactly that position. -/
theorem C09_reset (m : Bitmap) (i j : Fin 256) :
    bitmapGet (bitmapReset m i) j = (decide (j ≠ i) && bitmapGet m j) := by
  rw [bitmapGet_eq, bitmapGet_eq]
  unfold bitmapReset
  have hj : j.val % 64 < 64 := by omega
  by_cases hw : wordOf j = wordOf i
  · simp only [hw, if_true, BitVec.getLsbD_and, BitVec.getLsbD_not, maskOf_getLsbD]
    have : (j.val % 64 = i.val % 64) ↔ j = i := by
      have := congrArg Fin.val hw
      rw [wordOf_val, wordOf_val] at this
      rw [Fin.ext_iff]; omega
    rw [Bool.and_comm]; simp [this, hj]
  · have : j ≠ i := fun h => hw (by rw [h])
    simp [hw, this]

/-- C09: a zeroed bitmap is empty, an all-ones bitmap contains everything. -/
theorem C09_empty_full (j : Fin 256) :
    bitmapGet (fun _ => 0#64) j = false ∧ bitmapGet (fun _ => BitVec.allOnes 64) j = true := by
  constructor <;> rw [bitmapGet_eq]
  · simp
  · have : j.val % 64 < 64 := by omega
    rw [BitVec.getLsbD_allOnes, decide_eq_true this]

/-- C09: two bitmaps with the same members are equal word by word. -/
theorem C09_extensional (m m' : Bitmap) (h : ∀ i, bitmapGet m i = bitmapGet m' i) : m = m' := by
  funext w
  apply BitVec.eq_of_getLsbD_eq
  intro i hi
  have := h (posOf w i hi)
  rwa [bitmapGet_eq, bitmapGet_eq, wordOf_posOf, pos_mod] at this

/-- C09: the subset test is set inclusion. -/
theorem C09_subset (set subset : Bitmap) :
    bitmapIsSubset set subset = true ↔
      ∀ i, bitmapGet subset i = true → bitmapGet set i = true := by
  have hloop : ∀ l : List (Fin 4), subsetLoop set subset l = true ↔
      ∀ w ∈ l, set w = (set w ||| subset w) := by
    intro l
    induction l with
    | nil => simp [subsetLoop]
    | cons w l ih =>
      unfold subsetLoop
      by_cases h : set w = (set w ||| subset w)
      · rw [if_neg (fun hn => hn h), ih]; simp [← h]
      · rw [if_pos h]; simp [h]
  have hall : (∀ w ∈ ([0, 1, 2, 3] : List (Fin 4)), set w = (set w ||| subset w)) ↔
      ∀ w, set w = (set w ||| subset w) := by
    constructor
    · intro h w
      apply h
      revert w; decide
    · intro h w _; exact h w
  unfold bitmapIsSubset
  rw [hloop, hall]
  constructor
  · intro h i hi
    rw [bitmapGet_eq] at hi ⊢
    rw [h, BitVec.getLsbD_or, hi, Bool.or_true]
  · intro h w
    apply BitVec.eq_of_getLsbD_eq
    intro i hi
    rw [BitVec.getLsbD_or]
    have := h (posOf w i hi)
    rw [bitmapGet_eq, bitmapGet_eq, wordOf_posOf, pos_mod] at this
    cases h1 : (subset w).getLsbD i
    · simp
    · simp [this h1]

example : bitmapIsSubset (bitmapSet (bitmapSet (fun _ => 0) 200) 3) (bitmapSet (fun _ => 0) 200) = true ∧
    bitmapIsSubset (bitmapSet (fun _ => 0) 200) (bitmapSet (fun _ => 0) 3) = false := by
  decide +kernel

/-! ## C10: bit streams -/

/-- C10: reading `n` bits (1..56) succeeds exactly if they lie inside the buffer, and returns the
number whose binary digits are the next `n` bits, most significant first; the position advances
by `n`.  No read ever leaves the buffer. -/
theorem C10_read (s : Stream) (n : Nat) (h0 : 0 < n) (h56 : n ≤ 56) :
    (s.bitOffset + n ≤ 8 * s.buf.length →
      ∃ v, rRead s n = .ok (v, ⟨s.buf, s.bitOffset + n⟩) ∧
        ∀ j, v.testBit j = (decide (j < n) && bitAt s.buf (s.bitOffset + n - 1 - j))) ∧
    (8 * s.buf.length < s.bitOffset + n → rRead s n = .err) := by
  have hn0 : ¬ ((n : Int) ≤ 0) := by omega
  have hn56 : ¬ ((n : Int) > 56) := by omega
  constructor
  · intro hfit
    generalize ho : s.bitOffset = o at *
    have hchk : ¬ (o / 8 + ((o + n + 7) / 8 - o / 8) > s.buf.length) := by omega
    have hlt : o / 8 < s.buf.length := by omega
    unfold rRead
    simp only [hn0, hn56, if_false, Int.toNat_natCast, ho, hchk, List.getElem?_eq_getElem hlt, and7]
    -- first byte
    have hfirst : ∀ j, (if o % 8 ≠ 0 then (s.buf[o / 8]).toNat &&& (0xFF >>> (o % 8))
        else (s.buf[o / 8]).toNat).testBit j
        = (decide (j < 8 - o % 8) && (s.buf[o / 8]).getLsbD j) := by
      intro j
      have hmask : ∀ m, m < 8 → ∀ j, Nat.testBit (0xFF >>> m) j = decide (j < 8 - m) := by
        intro m hm j
        rw [Nat.testBit_shiftRight, show (0xFF : Nat) = 2 ^ 8 - 1 from rfl,
          Nat.testBit_two_pow_sub_one]
        congr 1
        apply propext; omega
      split
      · rw [Nat.testBit_and, hmask _ (by omega), Bool.and_comm]; rfl
      · rename_i hz
        have : o % 8 = 0 := by omega
        rw [this]
        by_cases hj : j < 8 - 0
        · rw [decide_eq_true hj]; rfl
        · rw [decide_eq_false hj, Bool.false_and]
          exact BitVec.getLsbD_of_ge _ _ (by omega)
    obtain ⟨r, hr1, hr2⟩ := readLoop_spec s.buf ((o + n + 7) / 8 - o / 8 - 1) (o / 8)
      (if o % 8 ≠ 0 then (s.buf[o / 8]).toNat &&& (0xFF >>> (o % 8)) else (s.buf[o / 8]).toNat)
      (by omega) 8 (by omega) (by
        intro j hj
        rw [hfirst, Bool.and_eq_true, decide_eq_true_iff] at hj
        omega)
    rw [hr1]
    refine ⟨_, rfl, ?_⟩
    -- bits of the unshifted result
    have hall : ∀ j, r.testBit j =
        (decide (j < 8 * ((o + n + 7) / 8) - o) && bitAt s.buf (8 * ((o + n + 7) / 8) - 1 - j)) := by
      intro j
      rw [hr2 j]
      have e : o / 8 + ((o + n + 7) / 8 - o / 8 - 1) + 1 = (o + n + 7) / 8 := by omega
      split
      · rw [e]
        rename_i hj
        rw [decide_eq_true (show j < 8 * ((o + n + 7) / 8) - o by omega), Bool.true_and]
      · rename_i hj
        rw [hfirst]
        by_cases hin : j < 8 * ((o + n + 7) / 8) - o
        · rw [decide_eq_true hin, decide_eq_true (show j - 8 * ((o + n + 7) / 8 - o / 8 - 1) < 8 - o % 8 by omega)]
          unfold bitAt
          have e1 : (8 * ((o + n + 7) / 8) - 1 - j) / 8 = o / 8 := by omega
          have e2 : 7 - (8 * ((o + n + 7) / 8) - 1 - j) % 8 = j - 8 * ((o + n + 7) / 8 - o / 8 - 1) := by omega
          rw [e1, e2, List.getElem?_eq_getElem hlt]
        · rw [decide_eq_false hin, decide_eq_false (show ¬ j - 8 * ((o + n + 7) / 8 - o / 8 - 1) < 8 - o % 8 by omega)]
          rfl
    intro j
    split
    · rename_i he
      rw [Nat.testBit_shiftRight, hall]
      have e1 : (8 - (o + n) % 8 + j < 8 * ((o + n + 7) / 8) - o) ↔ j < n := by omega
      have e2 : 8 * ((o + n + 7) / 8) - 1 - (8 - (o + n) % 8 + j) = o + n - 1 - j := by omega
      rw [e2]; simp only [e1]
    · rename_i he
      rw [hall]
      have e1 : (j < 8 * ((o + n + 7) / 8) - o) ↔ j < n := by omega
      have e2 : 8 * ((o + n + 7) / 8) - 1 - j = o + n - 1 - j := by omega
      rw [e2]; simp only [e1]
  · intro hno
    have hchk : s.bitOffset / 8 + ((s.bitOffset + n + 7) / 8 - s.bitOffset / 8) > s.buf.length := by omega
    unfold rRead
    simp only [hn0, hn56, if_false, Int.toNat_natCast, hchk, if_true]

/-- C10: degenerate widths: zero or negative widths read the value 0 without moving, widths above
56 are rejected. -/
theorem C10_read_degenerate (s : Stream) (n : Int) :
    (n ≤ 0 → rRead s n = .ok (0, s)) ∧ (n > 56 → rRead s n = .err) := by
  constructor
  · intro h; simp [rRead, h]
  · intro h
    have : ¬ n ≤ 0 := by omega
    simp [rRead, this, h]

/-- C10: writing `n` bits (1..56) succeeds exactly if they fit; it ORs the low `n` bits of the
value, most significant first, onto the next `n` bit positions, changes nothing else and never
leaves the buffer (buffers below 512 MiB). -/
theorem C10_write (s : Stream) (src n : Nat) (h0 : 0 < n) (h56 : n ≤ 56)
    (hlen : s.buf.length < 2 ^ 28) :
    (s.bitOffset + n ≤ 8 * s.buf.length →
      ∃ buf', wWrite s src n = .ok ⟨buf', s.bitOffset + n⟩ ∧ buf'.length = s.buf.length ∧
        ∀ i, bitAt buf' i = (bitAt s.buf i ||
          (decide (s.bitOffset ≤ i ∧ i < s.bitOffset + n) && src.testBit (s.bitOffset + n - 1 - i)))) ∧
    (s.bitOffset ≤ 8 * s.buf.length → 8 * s.buf.length < s.bitOffset + n → wWrite s src n = .err) := by
  have hn0 : ¬ ((n : Int) ≤ 0) := by omega
  have hn56 : ¬ ((n : Int) > 56) := by omega
  generalize ho : s.bitOffset = o at *
  constructor
  · intro hfit
    have e0 : o % 2 ^ 32 = o := by omega
    have e1 : (o + n) % 2 ^ 32 = o + n := by omega
    have e2 : (o + n + 7) % 2 ^ 32 = o + n + 7 := by omega
    have hchk : ¬ (o / 8 + ((o + n + 7) / 8 - o / 8) > s.buf.length) := by omega
    unfold wWrite
    simp only [hn0, hn56, if_false, Int.toNat_natCast, ho, e0, e1, e2, hchk, and7]
    generalize hv : (if (o + n) % 8 ≠ 0 then
      ((src &&& (1 <<< n - 1)) <<< (8 - (o + n) % 8)) % 2 ^ 64 else (src &&& (1 <<< n - 1))) = v
    have hvbit : ∀ j, v.testBit j = (decide (8 * ((o + n + 7) / 8) - (o + n) ≤ j ∧
        j < 8 * ((o + n + 7) / 8) - o) && src.testBit (j - (8 * ((o + n + 7) / 8) - (o + n)))) := by
      intro j
      have hm : ∀ j, (src &&& (1 <<< n - 1)).testBit j = (decide (j < n) && src.testBit j) := by
        intro j
        rw [Nat.testBit_and, Nat.one_shiftLeft, Nat.testBit_two_pow_sub_one, Bool.and_comm]
      rw [← hv]
      split
      · rename_i he
        rw [Nat.testBit_mod_two_pow, Nat.testBit_shiftLeft, hm]
        have a1 : 8 * ((o + n + 7) / 8) - (o + n) = 8 - (o + n) % 8 := by omega
        rw [a1]
        by_cases hin : 8 - (o + n) % 8 ≤ j ∧ j < 8 * ((o + n + 7) / 8) - o
        · rw [decide_eq_true hin, decide_eq_true (show j < 64 by omega),
            decide_eq_true (show j ≥ 8 - (o + n) % 8 by omega),
            decide_eq_true (show j - (8 - (o + n) % 8) < n by omega)]
          simp
        · rw [decide_eq_false hin]
          by_cases hge : j ≥ 8 - (o + n) % 8
          · rw [decide_eq_false (show ¬ j - (8 - (o + n) % 8) < n by omega)]; simp
          · rw [decide_eq_false hge]; simp
      · rename_i he
        have a1 : 8 * ((o + n + 7) / 8) - (o + n) = 0 := by omega
        have a2 : (0 ≤ j ∧ j < 8 * ((o + n + 7) / 8) - o) ↔ j < n := by omega
        rw [a1, hm]; simp only [a2, Nat.sub_zero]
    obtain ⟨buf', h1, h2, h3⟩ := writeLoop_spec s.buf (o / 8) ((o + n + 7) / 8 - o / 8) v (by omega)
    refine ⟨buf', by rw [h1], h2, ?_⟩
    intro i
    rw [h3 i, hvbit]
    have a1 : o / 8 + ((o + n + 7) / 8 - o / 8) = (o + n + 7) / 8 := by omega
    rw [a1, ← Bool.and_assoc]
    congr 1
    by_cases hin : o ≤ i ∧ i < o + n
    · rw [decide_eq_true hin, decide_eq_true (show 8 * (o / 8) ≤ i ∧ i < 8 * ((o + n + 7) / 8) by omega),
        decide_eq_true (show 8 * ((o + n + 7) / 8) - (o + n) ≤ 8 * ((o + n + 7) / 8) - 1 - i ∧
          8 * ((o + n + 7) / 8) - 1 - i < 8 * ((o + n + 7) / 8) - o by omega)]
      simp only [Bool.true_and]
      congr 1; omega
    · rw [decide_eq_false hin]
      by_cases hb : 8 * (o / 8) ≤ i ∧ i < 8 * ((o + n + 7) / 8)
      · rw [decide_eq_false (show ¬ (8 * ((o + n + 7) / 8) - (o + n) ≤ 8 * ((o + n + 7) / 8) - 1 - i ∧
          8 * ((o + n + 7) / 8) - 1 - i < 8 * ((o + n + 7) / 8) - o) by omega)]
        simp
      · rw [decide_eq_false hb]; simp
  · intro hin hno
    have e0 : o % 2 ^ 32 = o := by omega
    have e1 : (o + n) % 2 ^ 32 = o + n := by omega
    have e2 : (o + n + 7) % 2 ^ 32 = o + n + 7 := by omega
    have hchk : o / 8 + ((o + n + 7) / 8 - o / 8) > s.buf.length := by omega
    unfold wWrite
    simp only [hn0, hn56, if_false, Int.toNat_natCast, ho, e0, e1, e2, hchk, if_true]

/-- C10: zero or negative widths write nothing, widths above 56 are rejected. -/
theorem C10_write_degenerate (s : Stream) (src : Nat) (n : Int) :
    (n ≤ 0 → wWrite s src n = .ok s) ∧ (n > 56 → wWrite s src n = .err) := by
  constructor
  · intro h; simp [wWrite, h]
  · intro h
    have : ¬ n ≤ 0 := by omega
    simp [wWrite, this, h]

/-- C10: padding moves to the next byte boundary and nowhere further. -/
theorem C10_pad (s : Stream) :
    (pad s).buf = s.buf ∧ (pad s).bitOffset % 8 = 0 ∧ s.bitOffset ≤ (pad s).bitOffset ∧
      (pad s).bitOffset < s.bitOffset + 8 := by
  unfold pad
  rw [and7]
  simp only
  split <;> simp <;> omega

/-- A stream operation: `put value width` or padding. -/
inductive Op | put (v : Nat) (n : Int) | pad

/-- the whole writing session -/
def writeAll : Stream → List Op → Out Stream
  | s, [] => .ok s
  | s, .put v n :: ops =>
    match wWrite s v n with
    | .ok s' => writeAll s' ops
    | .err => .err
    | .ub => .ub
  | s, .pad :: ops => writeAll (pad s) ops

/-- the corresponding reading session: same widths and padding; returns the values -/
def readAll : Stream → List Op → Out (List Nat)
  | _, [] => .ok []
  | s, .put _ n :: ops =>
    match rRead s n with
    | .ok (v, s') =>
      match readAll s' ops with
      | .ok vs => .ok (v :: vs)
      | .err => .err
      | .ub => .ub
    | .err => .err
    | .ub => .ub
  | s, .pad :: ops => readAll (pad s) ops

/-- what the session should return: each value truncated to its width -/
def expected : List Op → List Nat
  | [] => []
  | .put v n :: ops => v % 2 ^ n.toNat :: expected ops
  | .pad :: ops => expected ops

theorem roundtrip_aux (ops : List Op) (s s' : Stream)
    (hlen : s.buf.length < 2 ^ 28) (hoff : s.bitOffset ≤ 8 * s.buf.length)
    (hclean : ∀ i, s.bitOffset ≤ i → bitAt s.buf i = false)
    (hw : writeAll s ops = .ok s') :
    s'.buf.length = s.buf.length ∧ (∀ i < s.bitOffset, bitAt s'.buf i = bitAt s.buf i) ∧
      readAll ⟨s'.buf, s.bitOffset⟩ ops = .ok (expected ops) := by
  induction ops generalizing s with
  | nil =>
    simp only [writeAll, Out.ok.injEq] at hw
    subst hw
    exact ⟨rfl, fun _ _ => rfl, rfl⟩
  | cons op ops ih =>
    cases op with
    | pad =>
      obtain ⟨p1, p2, p3, p4⟩ := C10_pad s
      simp only [writeAll] at hw
      have hpad : ∀ b, pad ⟨b, s.bitOffset⟩ = ⟨b, (pad s).bitOffset⟩ := by
        intro b; unfold pad; simp only; split <;> rfl
      obtain ⟨h1, h2, h3⟩ := ih (pad s) (by rw [p1]; exact hlen) (by rw [p1]; omega)
        (fun i hi => by rw [p1]; exact hclean i (by omega)) hw
      refine ⟨by rw [h1, p1], fun i hi => by rw [h2 i (by omega), p1], ?_⟩
      simp only [readAll, expected]
      rw [hpad]
      exact h3
    | put v n =>
      simp only [writeAll] at hw
      simp only [readAll, expected]
      rcases Int.lt_or_le 56 n with h56 | h56
      · rw [(C10_write_degenerate s v n).2 h56] at hw
        simp at hw
      · rcases Int.lt_or_le 0 n with h0 | h0
        · obtain ⟨m, rfl⟩ : ∃ m : Nat, n = m := ⟨n.toNat, by omega⟩
          obtain ⟨w1, w2⟩ := C10_write s v m (by omega) (by omega) hlen
          by_cases hfit : s.bitOffset + m ≤ 8 * s.buf.length
          · obtain ⟨buf', e1, e2, e3⟩ := w1 hfit
            rw [e1] at hw
            obtain ⟨h1, h2, h3⟩ := ih ⟨buf', s.bitOffset + m⟩ (by simp only; omega)
              (by simp only; omega) (by
                intro i hi
                simp only at hi ⊢
                rw [e3, hclean i (by omega), decide_eq_false (by omega)]; rfl) hw
            simp only at h1 h2 h3
            obtain ⟨val, r1, r2⟩ := (C10_read ⟨s'.buf, s.bitOffset⟩ m (by omega) (by omega)).1
              (by simp only; omega)
            refine ⟨by omega, ?_, ?_⟩
            · intro i hi
              rw [h2 i (by omega), e3, decide_eq_false (by omega)]; simp
            · rw [r1]
              simp only
              rw [h3]
              simp only [Int.toNat_natCast]
              congr 2
              apply Nat.eq_of_testBit_eq
              intro j
              rw [r2, Nat.testBit_mod_two_pow]
              by_cases hj : j < m
              · rw [decide_eq_true hj]
                simp only [Bool.true_and]
                rw [h2 _ (by omega), e3, hclean _ (by omega),
                  decide_eq_true (by omega : s.bitOffset ≤ s.bitOffset + m - 1 - j ∧
                    s.bitOffset + m - 1 - j < s.bitOffset + m)]
                simp only [Bool.false_or, Bool.true_and]
                congr 1; omega
              · rw [decide_eq_false hj]; rfl
          · rw [w2 hoff (by omega)] at hw
            simp at hw
        · rw [(C10_write_degenerate s v n).1 h0] at hw
          rw [(C10_read_degenerate _ n).1 h0]
          obtain ⟨h1, h2, h3⟩ := ih s hlen hoff hclean hw
          refine ⟨h1, h2, ?_⟩
          simp only
          rw [h3]
          have : n.toNat = 0 := by omega
          simp [this, Nat.mod_one]

/-- C10: for every sequence of bit-field writes (arbitrary widths) and paddings that succeeds on
a fresh buffer, reading back with the same widths returns exactly the values truncated to their
widths. -/
theorem C10_roundtrip (len : Nat) (ops : List Op) (s' : Stream) (hlen : len < 2 ^ 28)
    (hw : writeAll (wInit len) ops = .ok s') :
    readAll (rInit s'.buf) ops = .ok (expected ops) := by
  have hz : ∀ i, bitAt (wInit len).buf i = false := by
    intro i
    unfold bitAt wInit
    simp only [List.getElem?_replicate]
    split <;> rename_i h
    · split at h
      · simp only [Option.some.injEq] at h; rw [← h]; simp
      · simp at h
    · rfl
  have := roundtrip_aux ops (wInit len) s' (by simpa [wInit] using hlen) (by simp [wInit])
    (fun i _ => hz i) hw
  exact this.2.2

/-- C10: no session ever leaves the buffer. -/
theorem C10_no_overflow (ops : List Op) (s : Stream) (hlen : s.buf.length < 2 ^ 28)
    (hoff : s.bitOffset ≤ 8 * s.buf.length) : writeAll s ops ≠ .ub := by
  induction ops generalizing s with
  | nil => simp [writeAll]
  | cons op ops ih =>
    cases op with
    | pad =>
      obtain ⟨p1, p2, p3, p4⟩ := C10_pad s
      simp only [writeAll]
      exact ih (pad s) (by rw [p1]; exact hlen) (by rw [p1]; omega)
    | put v n =>
      simp only [writeAll]
      rcases Int.lt_or_le 56 n with h56 | h56
      · rw [(C10_write_degenerate s v n).2 h56]; simp
      · rcases Int.lt_or_le 0 n with h0 | h0
        · obtain ⟨m, rfl⟩ : ∃ m : Nat, n = m := ⟨n.toNat, by omega⟩
          obtain ⟨w1, w2⟩ := C10_write s v m (by omega) (by omega) hlen
          by_cases hfit : s.bitOffset + m ≤ 8 * s.buf.length
          · obtain ⟨buf', e1, e2, e3⟩ := w1 hfit
            rw [e1]
            exact ih _ (by simp only; omega) (by simp only; omega)
          · rw [w2 hoff (by omega)]; simp
        · rw [(C10_write_degenerate s v n).1 h0]
          exact ih s hlen hoff

/-- C10: a byte copy from a stream starts at the next byte boundary, returns exactly the next
bytes and skips them. -/
theorem C10_read_memcpy (s : Stream) (bytes : Nat) :
    ((pad s).bitOffset / 8 + bytes ≤ s.buf.length →
      ∃ out, rMemcpy s bytes = .ok (out, ⟨s.buf, (pad s).bitOffset + 8 * bytes⟩) ∧
        out.length = bytes ∧ ∀ i < bytes, out[i]? = s.buf[(pad s).bitOffset / 8 + i]?) ∧
    (s.buf.length < (pad s).bitOffset / 8 + bytes → rMemcpy s bytes = .err) := by
  obtain ⟨p1, p2, p3, p4⟩ := C10_pad s
  constructor
  · intro h
    have hchk : ¬ ((pad s).bitOffset / 8 + bytes > s.buf.length) := by omega
    refine ⟨((s.buf.drop ((pad s).bitOffset / 8)).take bytes), ?_, ?_, ?_⟩
    · simp only [rMemcpy, p1, hchk, if_false]
      rw [Nat.mul_comm bytes 8, show (pad s) = ⟨s.buf, (pad s).bitOffset⟩ from by rw [← p1]]
    · simp; omega
    · intro i hi
      rw [List.getElem?_take]
      simp [hi]
  · intro h
    simp only [rMemcpy, p1]
    rw [if_pos (by omega)]

/-- C10 is false for byte copies into a stream: the position is not advanced behind the copied
bytes, so the next write is merged into them. -/
theorem C10_write_memcpy_counterexample :
    ∃ s', wMemcpy (wInit 4) [1#8, 2#8] = .ok s' ∧ s'.bitOffset = 0 ∧
      wWrite s' 0xF0 8 = .ok ⟨[0xF1#8, 2#8, 0#8, 0#8], 8⟩ :=
  ⟨⟨[1#8, 2#8, 0#8, 0#8], 0⟩, by decide +kernel⟩

/-- C10 (what holds for byte copies into a stream): the bytes are placed at the next byte boundary,
nothing else changes and nothing is written outside the buffer; the position is only padded. -/
theorem C10_write_memcpy_partial (s : Stream) (src : List (BitVec 8)) :
    ((pad s).bitOffset / 8 + src.length ≤ s.buf.length →
      ∃ buf', wMemcpy s src = .ok ⟨buf', (pad s).bitOffset⟩ ∧ buf'.length = s.buf.length ∧
        ∀ i, buf'[i]? = if (pad s).bitOffset / 8 ≤ i ∧ i < (pad s).bitOffset / 8 + src.length
          then src[i - (pad s).bitOffset / 8]? else s.buf[i]?) ∧
    (s.buf.length < (pad s).bitOffset / 8 + src.length → wMemcpy s src = .err) := by
  obtain ⟨p1, p2, p3, p4⟩ := C10_pad s
  constructor
  · intro h
    have hchk : ¬ ((pad s).bitOffset / 8 + src.length > s.buf.length) := by omega
    generalize hk : (pad s).bitOffset / 8 = k at *
    refine ⟨s.buf.take k ++ src ++ s.buf.drop (k + src.length), ?_, ?_, ?_⟩
    · simp only [wMemcpy, hk, p1, hchk, if_false]
    · simp; omega
    · intro i
      rw [List.getElem?_append]
      by_cases h1 : i < (s.buf.take k ++ src).length
      · rw [if_pos h1]
        simp only [List.length_append, List.length_take] at h1
        rw [List.getElem?_append]
        by_cases h2 : i < (s.buf.take k).length
        · rw [if_pos h2]
          simp only [List.length_take] at h2
          rw [List.getElem?_take, if_pos (by omega), if_neg (by omega)]
        · rw [if_neg h2]
          simp only [List.length_take] at h2 ⊢
          rw [if_pos (by omega)]
          congr 1; omega
      · rw [if_neg h1]
        simp only [List.length_append, List.length_take] at h1 ⊢
        rw [List.getElem?_drop, if_neg (by omega)]
        congr 1; omega
  · intro h
    simp only [wMemcpy, p1]
    rw [if_pos (by omega)]

example : writeAll (wInit 4) [.put 13 3, .put 1000 12, .pad, .put 77 7] =
      .ok ⟨[0xA7#8, 0xD0#8, 0x9A#8, 0#8], 23⟩ ∧
    readAll (rInit [0xA7#8, 0xD0#8, 0x9A#8, 0#8]) [.put 13 3, .put 1000 12, .pad, .put 77 7]
      = .ok [5, 1000, 77] := by
  decide +kernel

end Verif.Bits
