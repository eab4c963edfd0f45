import Verif.Autobuf.Model
/-
Property theorems for auto-growing buffers (C14).
-/
namespace Verif.Autobuf

/-- the buffer holds exactly the bytes `q` and its size fields are consistent -/
structure Holds (b : Buf) (q : List UInt8) : Prop where
  len : b.len = q.length
  bound : b.len ≤ b.total
  alloc : b.total ≤ b.mem.length
  bytes : b.mem.take b.len = q

/-- the byte behind the content is inside the block and zero, i.e. the content can be used as a
C string -/
def Terminated (b : Buf) : Prop := b.mem[b.len]? = some 0

theorem roundUp_ge (v P : Nat) (hP : 0 < P) : v ≤ roundUp v P := by
  unfold roundUp
  have := Nat.div_add_mod (v + P - 1) P
  have h2 := Nat.mod_lt (v + P - 1) hP
  rw [Nat.mul_comm] at this
  omega

theorem writeAt_ok (block : List UInt8) (off : Nat) (data : List UInt8)
    (h : off + data.length ≤ block.length) :
    ∃ m, writeAt block off data = some m ∧ m.length = block.length ∧
      (∀ i, m[i]? = if off ≤ i ∧ i < off + data.length then data[i - off]? else block[i]?) := by
  refine ⟨block.take off ++ data ++ block.drop (off + data.length), by simp [writeAt, h], ?_, ?_⟩
  · simp; omega
  · intro i
    rw [List.append_assoc, List.getElem?_append]
    have hl : (block.take off).length = off := by simp; omega
    rw [hl]
    by_cases h1 : i < off
    · rw [if_pos h1, if_neg (by omega), List.getElem?_take, if_pos h1]
    · rw [if_neg h1, List.getElem?_append]
      by_cases h2 : i < off + data.length
      · rw [if_pos (by omega), if_pos ⟨by omega, h2⟩]
      · rw [if_neg (by omega), if_neg (by omega), List.getElem?_drop]
        congr 1; omega

/-- content equality from pointwise agreement -/
theorem take_eq_of (m q : List UInt8) (n : Nat) (hn : n = q.length) (_hm : n ≤ m.length)
    (h : ∀ i < n, m[i]? = q[i]?) : m.take n = q := by
  apply List.ext_getElem?
  intro i
  rw [List.getElem?_take]
  split
  · rename_i hi; exact h i hi
  · rw [List.getElem?_eq_none (by omega)]

theorem Holds.get {b q} (h : Holds b q) (i : Nat) (hi : i < q.length) : b.mem[i]? = q[i]? := by
  have := congrArg (fun l => l[i]?) h.bytes
  simp only [List.getElem?_take] at this
  rw [if_pos (by have := h.len; omega)] at this
  exact this

theorem enlarge_ok (P : Nat) (hP : 0 < P) (b : Buf) (q) (h : Holds b q) (n : Nat) :
    ∃ b', enlarge P true b n = (true, b') ∧ Holds b' q ∧ b'.len = b.len ∧ n + 1 ≤ b'.total := by
  unfold enlarge
  by_cases hn : n + 1 > b.total
  · simp only [hn, if_true]
    refine ⟨_, rfl, ?_, rfl, ?_⟩
    · have hr := roundUp_ge (n + 1 + 1) P hP
      have h1 := h.bound
      have h2 := h.alloc
      constructor
      · exact h.len
      · simp only; omega
      · simp; omega
      · simp only
        rw [List.take_append_of_le_length (by simp; omega), List.take_take]
        rw [show min b.len b.total = b.len by omega]
        exact h.bytes
    · have hr := roundUp_ge (n + 1 + 1) P hP
      simp only; omega
  · simp only [hn, if_false]
    exact ⟨b, rfl, h, rfl, by omega⟩

theorem enlarge_fail (P : Nat) (b : Buf) (q) (h : Holds b q) (n : Nat) :
    (∃ b', enlarge P false b n = (false, b') ∧ Holds b' q ∧ b.total < n + 1) ∨
      (enlarge P false b n = (true, b) ∧ n + 1 ≤ b.total) := by
  unfold enlarge
  by_cases hn : n + 1 > b.total
  · left
    simp only [hn, if_true]
    exact ⟨_, rfl, ⟨h.len, h.bound, h.alloc, h.bytes⟩, trivial⟩
  · right
    simp only [hn, if_false]
    exact ⟨trivial, by omega⟩

/-- allocation outcome of one enlargement: either everything is fine or the buffer is unchanged -/
theorem enlarge_cases (P : Nat) (hP : 0 < P) (mem : Bool) (b : Buf) (q) (h : Holds b q) (n : Nat) :
    (∃ b', enlarge P mem b n = (true, b') ∧ Holds b' q ∧ b'.len = b.len ∧ n + 1 ≤ b'.total) ∨
    (∃ b', enlarge P mem b n = (false, b') ∧ Holds b' q ∧ mem = false) := by
  cases mem with
  | true => exact Or.inl (enlarge_ok P hP b q h n)
  | false =>
    rcases enlarge_fail P b q h n with ⟨b', h1, h2, h3⟩ | ⟨h1, h2⟩
    · exact Or.inr ⟨b', h1, h2, rfl⟩
    · exact Or.inl ⟨b, h1, h, rfl, h2⟩

/-- what an operation must do: on success the content is `q'`, terminated, everything inside the
block; if memory runs out the content is unchanged. -/
def Good (mem : Bool) (q q' : List UInt8) : Out → Prop
  | .ok b => Holds b q' ∧ Terminated b
  | .err b => mem = false ∧ Holds b q
  | .ub => False

/-- C14: appending a string. -/
theorem C14_puts (P : Nat) (hP : 0 < P) (mem : Bool) (b : Buf) (q s : List UInt8) (h : Holds b q) :
    Good mem q (q ++ s) (puts P mem b s) := by
  unfold puts
  rcases enlarge_cases P hP mem b q h (b.len + s.length + 1) with ⟨b', e, hb, hl, ht⟩ | ⟨b', e, hb, hm⟩
  · rw [e]
    simp only [Bool.not_true, Bool.false_eq_true, if_false]
    have ha := hb.alloc
    obtain ⟨m, e1, e2, e3⟩ := writeAt_ok b'.mem b'.len (s ++ [0]) (by simp; omega)
    rw [e1]
    have hlq := hb.len
    refine ⟨⟨?_, ?_, ?_, ?_⟩, ?_⟩
    · simp; omega
    · simp only; omega
    · simp only; omega
    · simp only
      apply take_eq_of
      · simp; omega
      · omega
      · intro i hi
        rw [e3 i]
        by_cases h1 : i < b'.len
        · rw [if_neg (by omega), hb.get i (by omega), List.getElem?_append_left (by omega)]
        · rw [if_pos (by simp; omega), List.getElem?_append_left (l₁ := s) (by omega),
              List.getElem?_append_right (l₁ := q) (by omega), ← hlq]
    · unfold Terminated
      simp only
      rw [e3, if_pos (by simp), List.getElem?_append_right (by omega)]
      simp
  · rw [e]
    exact ⟨hm, hb⟩

/-- C14: appending a (non-empty) memory block. -/
theorem C14_memcpy (P : Nat) (hP : 0 < P) (mem : Bool) (b : Buf) (q p : List UInt8) (h : Holds b q)
    (hp : p ≠ []) : Good mem q (q ++ p) (memcpy P mem b p) := by
  unfold memcpy
  have hp0 : p.length ≠ 0 := fun h => hp (List.length_eq_zero_iff.1 h)
  rw [if_neg hp0]
  rcases enlarge_cases P hP mem b q h (b.len + p.length) with ⟨b', e, hb, hl, ht⟩ | ⟨b', e, hb, hm⟩
  · simp only
    rw [e]
    simp only [Bool.not_true, Bool.false_eq_true, if_false]
    have ha := hb.alloc
    have hlq := hb.len
    obtain ⟨m, e1, e2, e3⟩ := writeAt_ok b'.mem b'.len p (by omega)
    obtain ⟨m2, f1, f2, f3⟩ := writeAt_ok m (b'.len + p.length) [0] (by simp; omega)
    rw [e1]; simp only
    rw [f1]
    refine ⟨⟨?_, ?_, ?_, ?_⟩, ?_⟩
    · simp; omega
    · simp only; omega
    · simp only; omega
    · simp only
      apply take_eq_of
      · simp; omega
      · omega
      · intro i hi
        rw [f3 i, if_neg (by omega), e3 i]
        by_cases h1 : i < b'.len
        · rw [if_neg (by omega), hb.get i (by omega), List.getElem?_append_left (by omega)]
        · rw [if_pos (by omega), List.getElem?_append_right (by omega), ← hlq]
    · unfold Terminated
      simp only
      rw [f3, if_pos (by simp)]; simp
  · simp only
    rw [e]
    exact ⟨hm, hb⟩

/-- C14: prepending a (non-empty) memory block. -/
theorem C14_prepend (P : Nat) (hP : 0 < P) (mem : Bool) (b : Buf) (q p : List UInt8) (h : Holds b q)
    (hp : p ≠ []) : Good mem q (p ++ q) (prepend P mem b p) := by
  unfold prepend
  have hp0 : p.length ≠ 0 := fun h => hp (List.length_eq_zero_iff.1 h)
  rw [if_neg hp0]
  rcases enlarge_cases P hP mem b q h (b.len + p.length) with ⟨b', e, hb, hl, ht⟩ | ⟨b', e, hb, hm⟩
  · simp only
    rw [e]
    simp only [Bool.not_true, Bool.false_eq_true, if_false]
    have ha := hb.alloc
    have hlq := hb.len
    rw [if_neg (by omega), hb.bytes]
    obtain ⟨m, e1, e2, e3⟩ := writeAt_ok b'.mem p.length q (by omega)
    obtain ⟨m1, g1, g2, g3⟩ := writeAt_ok m 0 p (by omega)
    obtain ⟨m2, f1, f2, f3⟩ := writeAt_ok m1 (b'.len + p.length) [0] (by simp; omega)
    rw [e1]; simp only
    rw [g1]; simp only
    rw [f1]
    refine ⟨⟨?_, ?_, ?_, ?_⟩, ?_⟩
    · simp; omega
    · simp only; omega
    · simp only; omega
    · simp only
      apply take_eq_of
      · simp; omega
      · omega
      · intro i hi
        rw [f3 i, if_neg (by omega), g3 i]
        by_cases h1 : i < p.length
        · rw [if_pos (by omega), List.getElem?_append_left (by omega)]; congr 1
        · rw [if_neg (by omega), e3 i, if_pos (by omega), List.getElem?_append_right (by omega)]
    · unfold Terminated
      simp only
      rw [f3, if_pos (by simp)]; simp
  · simp only
    rw [e]
    exact ⟨hm, hb⟩

/-- C14: printing text that can be written succeeds whenever memory is available. -/
theorem C14_appendf (P : Nat) (hP : 0 < P) (b : Buf) (q s : List UInt8) (h : Holds b q) :
    Good true q (q ++ s) (appendf P true b s) := by
  have hlq := h.len
  have hb1 := h.bound
  have ha1 := h.alloc
  -- the first vsnprintf
  have step : ∀ b : Buf, Holds b q → ∃ m, vsnprintf b.mem b.len (b.total - b.len) s = some m ∧
      m.length = b.mem.length ∧ Holds { b with mem := m } q ∧
      (b.len + s.length < b.total → Holds { b with mem := m, len := b.len + s.length } (q ++ s) ∧
        Terminated { b with mem := m, len := b.len + s.length }) := by
    intro b h
    have hlq := h.len
    have hb1 := h.bound
    have ha1 := h.alloc
    unfold vsnprintf
    by_cases h0 : b.total - b.len = 0
    · rw [if_pos h0]
      exact ⟨b.mem, rfl, rfl, h, fun hh => by omega⟩
    · rw [if_neg h0]
      obtain ⟨m, e1, e2, e3⟩ := writeAt_ok b.mem b.len (s.take (b.total - b.len - 1) ++ [0])
        (by simp; omega)
      refine ⟨m, e1, e2, ⟨hlq, hb1, by simp only; omega, ?_⟩, ?_⟩
      · simp only
        apply take_eq_of _ _ _ hlq (by omega)
        intro i hi
        rw [e3 i, if_neg (by omega), h.get i (by omega)]
      · intro hh
        have hts : s.take (b.total - b.len - 1) = s := List.take_of_length_le (by omega)
        rw [hts] at e3
        refine ⟨⟨by simp; omega, by simp only; omega, by simp only; omega, ?_⟩, ?_⟩
        · simp only
          apply take_eq_of
          · simp; omega
          · omega
          · intro i hi
            rw [e3 i]
            by_cases h1 : i < b.len
            · rw [if_neg (by omega), h.get i (by omega), List.getElem?_append_left (by omega)]
            · rw [if_pos (by simp; omega), List.getElem?_append_left (l₁ := s) (by omega),
              List.getElem?_append_right (l₁ := q) (by omega), ← hlq]
        · unfold Terminated
          simp only
          rw [e3, if_pos (by simp), List.getElem?_append_right (by omega)]
          simp
  unfold appendf
  obtain ⟨m, e1, e2, e3, e4⟩ := step b h
  rw [e1]
  simp only
  by_cases hge : b.len + s.length ≥ b.total
  · rw [if_pos hge]
    obtain ⟨b', f, hb, hl, ht⟩ := enlarge_ok P hP { b with mem := m } q e3 (b.len + s.length)
    rw [f]
    simp only [Bool.not_true, Bool.false_eq_true, if_false]
    obtain ⟨m', g1, g2, g3, g4⟩ := step b' hb
    rw [g1]
    simp only at hl
    have := g4 (by omega)
    rw [hl] at this
    exact this
  · rw [if_neg hge]
    exact e4 (by omega)

/-- C14: removing a prefix removes exactly the oldest bytes, even if the block cannot be shrunk. -/
theorem C14_pull (P : Nat) (mem : Bool) (b : Buf) (q : List UInt8) (n : Nat) (h : Holds b q)
    (hn : n ≤ q.length) : ∃ b', pull P mem b n = .ok b' ∧ Holds b' (q.drop n) := by
  unfold pull
  have hlq := h.len
  have hb1 := h.bound
  have ha1 := h.alloc
  by_cases h0 : n = 0
  · rw [if_pos h0, h0]
    exact ⟨b, rfl, by simpa using h⟩
  · rw [if_neg h0, if_neg (by omega)]
    obtain ⟨m, e1, e2, e3⟩ := writeAt_ok b.mem 0 ((b.mem.drop n).take (b.len - n)) (by simp; omega)
    rw [e1]
    simp only
    have hget : ∀ i < b.len - n, m[i]? = (q.drop n)[i]? := by
      intro i hi
      rw [e3 i, if_pos (by simp; omega), List.getElem?_take, if_pos (by omega), List.getElem?_drop,
        List.getElem?_drop, h.get _ (by omega)]
      congr 1
    have hh : ∀ t, b.len - n ≤ t → t ≤ m.length → ∀ k, t ≤ k → k ≤ m.length →
        Holds ⟨m.take k, b.len - n, t, b.error⟩ (q.drop n) := by
      intro t h1 h2 k h3 h4
      refine ⟨by simp; omega, by simp only; omega, by simp; omega, ?_⟩
      simp only
      rw [List.take_take, show min (b.len - n) k = b.len - n by omega]
      exact take_eq_of _ _ _ (by simp; omega) (by omega) hget
    by_cases hp : b.len - n + P > b.total
    · rw [if_pos hp]
      refine ⟨_, rfl, ?_⟩
      have := hh b.total (by omega) (by omega) m.length (by omega) (by omega)
      rwa [List.take_length] at this
    · rw [if_neg hp]
      cases mem with
      | true =>
        refine ⟨_, rfl, ?_⟩
        exact hh _ (by split <;> omega) (by split <;> omega) _ (Nat.le_refl _) (by split <;> omega)
      | false =>
        refine ⟨_, rfl, ?_⟩
        have := hh (b.total - P) (by omega) (by omega) m.length (by omega) (by omega)
        rwa [List.take_length] at this

/-- the operations of a buffer -/
inductive Op
  | puts (s : List UInt8) | memcpy (s : List UInt8) | prepend (s : List UInt8)
  | appendf (s : List UInt8) | pull (n : Nat)

/-- what a byte queue does -/
def queueOp (q : List UInt8) : Op → List UInt8
  | .puts s => q ++ s
  | .memcpy s => q ++ s
  | .prepend s => s ++ q
  | .appendf s => q ++ s
  | .pull n => q.drop n

/-- what the buffer does -/
def bufOp (P : Nat) (mem : Bool) (b : Buf) : Op → Out
  | .puts s => puts P mem b s
  | .memcpy s => memcpy P mem b s
  | .prepend s => prepend P mem b s
  | .appendf s => appendf P mem b s
  | .pull n => pull P mem b n

/-- runs a list of operations with an arbitrary pattern of allocation failures (only the operations
that did not fail act on the queue) and checks the content after every step -/
inductive Runs (P : Nat) : Buf → List UInt8 → List (Bool × Op) → Prop
  | done {b q} (h : Holds b q) : Runs P b q []
  | ok {b q mem op ops b'} (h : Holds b q) (e : bufOp P mem b op = .ok b')
      (r : Runs P b' (queueOp q op) ops) : Runs P b q ((mem, op) :: ops)
  | err {b q mem op ops b'} (h : Holds b q) (e : bufOp P mem b op = .err b')
      (r : Runs P b' q ops) : Runs P b q ((mem, op) :: ops)

/-- the pulls never ask for more than is stored, and printing never runs out of memory -/
def Sane : List UInt8 → List (Bool × Op) → Prop
  | _, [] => True
  | q, (mem, op) :: ops =>
    (match op with
      | .pull n => n ≤ q.length
      | .appendf _ => mem = true
      | _ => True) ∧
    Sane (queueOp q op) ops ∧ (mem = false → Sane q ops)

/-- C14: for every page size, every sequence of operations and every pattern of allocation failures
the content of the buffer is exactly the abstract byte queue after each step, every access is inside
the allocated block and the length never exceeds it. -/
theorem C14_fifo_partial (P : Nat) (hP : 0 < P) (ops : List (Bool × Op)) (h : Sane [] ops) :
    Runs P (init P) [] ops := by
  have key : ∀ ops b q, Holds b q → Sane q ops → Runs P b q ops := by
    intro ops
    induction ops with
    | nil => intro b q h _; exact .done h
    | cons o ops ih =>
      rintro b q h ⟨hs, hs1, hs2⟩
      obtain ⟨mem, op⟩ := o
      have fin : ∀ out, bufOp P mem b op = out → Good mem q (queueOp q op) out → Runs P b q ((mem, op) :: ops) := by
        intro out e hg
        cases out with
        | ok b' => exact .ok h e (ih b' _ hg.1 hs1)
        | err b' => exact .err h e (ih b' _ hg.2 (hs2 hg.1))
        | ub => exact absurd hg id
      cases op with
      | puts s => exact fin _ rfl (C14_puts P hP mem b q s h)
      | memcpy s =>
        by_cases hn : s = []
        · subst hn
          refine .ok h (b' := b) (by simp [bufOp, memcpy]) (ih b _ (by simpa [queueOp] using h) hs1)
        · exact fin _ rfl (C14_memcpy P hP mem b q s h hn)
      | prepend s =>
        by_cases hn : s = []
        · subst hn
          refine .ok h (b' := b) (by simp [bufOp, prepend]) (ih b _ (by simpa [queueOp] using h) hs1)
        · exact fin _ rfl (C14_prepend P hP mem b q s h hn)
      | appendf s =>
        simp only at hs
        subst hs
        exact fin _ rfl (C14_appendf P hP b q s h)
      | pull n =>
        obtain ⟨b', e, hb⟩ := C14_pull P mem b q n h hs
        exact .ok h e (ih b' _ hb hs1)
  apply key ops (init P) [] ⟨rfl, by simp [init], by simp [init], by simp [init]⟩ h

/-- C14 is false for the room behind the content: pulling can shrink the block to exactly the
content length, so that the content is not terminated any more, and a following print that runs out
of memory writes its terminator outside the block.  For every page size. -/
theorem C14_terminator_counterexample (P : Nat) (hP : 0 < P) (b : Buf) (q : List UInt8)
    (h : Holds b q) (h1 : b.len = P + 1) (h2 : b.total = 2 * P) :
    ∃ b', pull P true b 1 = .ok b' ∧ b'.mem.length = b'.len ∧ ¬ Terminated b' ∧
      appendf P false b' [65] = .ub := by
  have ha := h.alloc
  obtain ⟨m, e1, e2, e3⟩ := writeAt_ok b.mem 0 ((b.mem.drop 1).take (b.len - 1)) (by simp; omega)
  have e : pull P true b 1 = .ok ⟨m.take P, P, P, b.error⟩ := by
    unfold pull
    rw [if_neg (by omega), if_neg (by omega), e1]
    simp only
    rw [if_neg (by omega)]
    have : (if b.total - P < P then P else b.total - P) = P := by split <;> omega
    simp only [if_true, this]
    simp only [h1, Nat.add_sub_cancel]
  refine ⟨_, e, by simp; omega, ?_, ?_⟩
  · unfold Terminated
    simp only
    rw [List.getElem?_eq_none (by simp; omega)]
    simp
  · have hl : (m.take P).length = P := by simp; omega
    unfold appendf
    have hlt : P < P + 1 + 1 := by omega
    have hle : ¬ P + 1 ≤ P := by omega
    simp [vsnprintf, enlarge, writeAt, hl, hlt, hle]

/-- such a buffer is reached by ordinary use: appending `P + 1` bytes to a new buffer -/
example (P : Nat) (hP : 3 ≤ P) : ∃ b, memcpy P true (init P) (List.replicate (P + 1) 65) = .ok b ∧
    b.len = P + 1 ∧ b.total = 2 * P := by
  have e : roundUp (P + 1 + 1 + 1) P = 2 * P := by
    unfold roundUp
    rw [show P + 1 + 1 + 1 + P - 1 = 2 + 2 * P by omega, Nat.add_mul_div_right _ _ (by omega),
      Nat.div_eq_of_lt (by omega), Nat.zero_add]
  have hg := C14_memcpy P (by omega) true (init P) [] (List.replicate (P + 1) 65)
    ⟨rfl, by simp [init], by simp [init], by simp [init]⟩ (by simp)
  have : enlarge P true (init P) ((init P).len + (List.replicate (P + 1) (65 : UInt8)).length)
      = (true, ⟨(List.replicate P 0).take P ++ List.replicate (2 * P - P) 0, 0, 2 * P, false⟩) := by
    have : P < P + 1 + 1 := by omega
    simp [enlarge, init, e, this]
  cases hm : memcpy P true (init P) (List.replicate (P + 1) 65) with
  | ub => rw [hm] at hg; exact absurd hg id
  | err b => rw [hm] at hg; exact absurd hg.1 (by simp)
  | ok b =>
    refine ⟨b, rfl, ?_⟩
    unfold memcpy at hm
    rw [if_neg (by simp)] at hm
    simp only [this] at hm
    simp only [Bool.not_true, Bool.false_eq_true, if_false] at hm
    split at hm
    · simp at hm
    · split at hm
      · simp at hm
      · injection hm with hm
        rw [← hm]
        simp

/-- C14: pulling does not re-terminate the content: `"ab"` minus one byte is still followed by the
old `b`. -/
theorem C14_pull_terminator_counterexample :
    ∃ b, memcpy 8 true (init 8) [97, 98] = .ok b ∧ Terminated b ∧
      ∃ b', pull 8 true b 1 = .ok b' ∧ b'.len = 1 ∧ ¬ Terminated b' :=
  ⟨⟨[97, 98, 0, 0, 0, 0, 0, 0], 2, 8, false⟩, by decide, by unfold Terminated; decide,
    ⟨[98, 98, 0, 0, 0, 0, 0, 0], 1, 8, false⟩, by decide, rfl, by unfold Terminated; decide⟩

example : Sane [] [(true, .puts [1, 2]), (false, .memcpy [3]), (true, .pull 2), (true, .appendf [7])] := by
  simp [Sane, queueOp]

end Verif.Autobuf
