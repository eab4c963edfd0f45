import Verif.CfgBin.MessageModel
import Verif.Autobuf.Props
/-
C113: error messages of the configuration are lines of printable characters.
-/
namespace Verif.CfgBin
open Verif.Autobuf

/-- the character shown in a message -/
def shown (c : UInt8) : UInt8 := if c.toNat < 32 ∨ c.toNat = 127 ∨ c.toNat = 255 then 46 else c

theorem shown_eq (c : UInt8) (mem : List UInt8) (ptr : Nat) :
    (if c < 32 || c == 127 || c == 255 then mem.set ptr 46 else mem)
      = if shown c = c then mem else mem.set ptr 46 := by
  have key : (c < 32 || c == 127 || c == 255) = true ↔ c.toNat < 32 ∨ c.toNat = 127 ∨ c.toNat = 255 := by
    simp only [Bool.or_eq_true, decide_eq_true_eq, UInt8.lt_iff_toNat_lt, beq_iff_eq, ← UInt8.toNat_inj, or_assoc]
    rfl
  unfold shown
  by_cases h : c.toNat < 32 ∨ c.toNat = 127 ∨ c.toNat = 255
  · rw [if_pos (key.2 h), if_pos h, if_neg]
    intro he
    rw [← he] at h
    exact absurd h (by decide)
  · rw [if_neg (fun hh => h (key.1 hh)), if_neg h, if_pos rfl]

/-- the loop rewrites exactly the text -/
theorem maskLoop_spec : ∀ (s a t : List UInt8), (0 : UInt8) ∉ s →
    maskLoop s.length (a ++ s ++ 0 :: t) a.length = some (a ++ s.map shown ++ 0 :: t) := by
  intro s
  induction s with
  | nil =>
    intro a t _
    unfold maskLoop
    simp
  | cons c s ih =>
    intro a t h0
    have hc : c ≠ 0 := fun h => h0 (by simp [h])
    rw [List.length_cons, maskLoop]
    have hg : (a ++ c :: s ++ 0 :: t)[a.length]? = some c := by simp
    rw [hg]
    simp only [hc, if_false]
    rw [shown_eq]
    have hm : (if shown c = c then a ++ c :: s ++ 0 :: t else (a ++ c :: s ++ 0 :: t).set a.length 46)
        = (a ++ [shown c]) ++ s ++ 0 :: t := by
      by_cases hs : shown c = c
      · rw [if_pos hs, hs]; simp
      · rw [if_neg hs]
        have : shown c = 46 := by
          unfold shown at hs ⊢
          split
          · rfl
          · rename_i h; rw [if_neg h] at hs; exact absurd rfl hs
        rw [this]
        simp
    rw [hm]
    have := ih (a ++ [shown c]) t (fun h => h0 (by simp [h]))
    rw [List.length_append, List.length_singleton] at this
    rw [this]
    simp

/-- **C113**: if the text fits into the buffer then a line is appended: the text with every
unprintable character replaced by a point, and a line feed.  The old content stays.  If there is no
memory for the line feed, only this one is missing. -/
theorem C113_line_partial (P : Nat) (hP : 0 < P) (m2 : Bool) (b : Buf) (q s : List UInt8) (h : Holds b q)
    (h0 : (0 : UInt8) ∉ s) (hfit : q.length + s.length < b.total) :
    Good m2 (q ++ s.map shown) (q ++ s.map shown ++ [10]) (appendLine P true m2 b s) := by
  have hlq := h.len
  have happ := C14_appendf P hP b q s h
  have htot : ∀ b1, appendf P true b s = .ok b1 → b1.total = b.total ∧ b1.len = b.len + s.length := by
    intro b1 h1
    unfold appendf at h1
    split at h1
    · cases h1
    · simp only at h1
      rw [if_neg (by omega)] at h1
      cases h1; exact ⟨rfl, rfl⟩
  unfold appendLine
  cases ha : appendf P true b s with
  | ub => rw [ha] at happ; exact happ.elim
  | err b' => rw [ha] at happ; exact absurd happ.1 (by simp)
  | ok b1 =>
    rw [ha] at happ
    obtain ⟨hh, ht⟩ := happ
    obtain ⟨e1, e2⟩ := htot b1 ha
    dsimp only
    rw [if_neg (by simp [e1])]
    have hmem : b1.mem = q ++ s ++ 0 :: b1.mem.drop (b1.len + 1) := by
      have hl : b1.len < b1.mem.length := by
        unfold Terminated at ht
        exact (List.getElem?_eq_some_iff.1 ht).1
      have hz : b1.mem[b1.len] = 0 := by
        unfold Terminated at ht
        exact (List.getElem?_eq_some_iff.1 ht).2
      conv => lhs; rw [← List.take_append_drop b1.len b1.mem, hh.bytes, List.drop_eq_getElem_cons hl, hz]
    have hmask : maskLoop (b1.len - b.len) b1.mem b.len
        = some (q ++ s.map shown ++ 0 :: b1.mem.drop (b1.len + 1)) := by
      have := maskLoop_spec s q (b1.mem.drop (b1.len + 1)) h0
      rw [← hmem] at this
      rw [e2, hlq, show q.length + s.length - q.length = s.length by omega]
      rw [e2, hlq] at this
      exact this
    rw [hmask]
    dsimp only
    apply C14_memcpy P hP m2 _ _ _ ?_ (by simp)
    have hlen : (q ++ s.map shown ++ 0 :: b1.mem.drop (b1.len + 1)).length = b1.mem.length := by
      conv => rhs; rw [hmem]
      simp
    refine ⟨?_, hh.bound, ?_, ?_⟩
    · simp [e2, hlq]
    · show b1.total ≤ (q ++ s.map shown ++ 0 :: b1.mem.drop (b1.len + 1)).length
      rw [hlen]; exact hh.alloc
    · show (q ++ s.map shown ++ 0 :: b1.mem.drop (b1.len + 1)).take b1.len = _
      rw [List.take_left' (by simp [e2, hlq])]

/-- **C113** is false whenever the text does not fit into the memory of the buffer: the buffer is
reallocated, and the loop works on the old, freed memory. -/
theorem C113_freed_counterexample (P : Nat) (hP : 0 < P) (m2 : Bool) (b : Buf) (q s : List UInt8)
    (h : Holds b q) (hfit : b.total ≤ q.length + s.length) :
    appendLine P true m2 b s = .ub := by
  have hlq := h.len
  have happ := C14_appendf P hP b q s h
  unfold appendLine
  cases ha : appendf P true b s with
  | ub => rfl
  | err b' => rw [ha] at happ; exact absurd happ.1 (by simp)
  | ok b1 =>
    dsimp only
    rw [ha] at happ
    rw [if_pos]
    have h1 := happ.1.len
    have h2 := happ.1.alloc
    unfold appendf at ha
    split at ha
    · cases ha
    · simp only at ha
      rw [if_pos (by omega)] at ha
      have hgt : b.len + s.length + 1 > b.total := by omega
      simp only [enlarge, hgt, if_true, Bool.not_true, Bool.false_eq_true, if_false] at ha
      split at ha
      · cases ha
      · cases ha
        have := roundUp_ge (b.len + s.length + 1 + 1) P hP
        simp only
        omega

example : Holds (init 16) [] ∧ appendLine 16 true true (init 16) [104, 9, 105]
    = .ok ⟨[104, 46, 105, 10] ++ List.replicate 12 0, 4, 16, false⟩ :=
  ⟨⟨rfl, by decide, by decide, rfl⟩, by decide +kernel⟩
example : appendLine 4 true true (init 4) [104, 9, 105, 106] = .ub := by decide +kernel

end Verif.CfgBin
