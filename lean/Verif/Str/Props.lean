import Verif.Str.Lemmas
/-
Property theorems: hexadecimal text (C11), string arrays (C13), words (C55), bounded copy (C56).
-/
namespace Verif.Str

/-! ## C11 -/

/-- the characters `0-9a-fA-F` -/
def isHexDigit (c : UInt8) : Prop := (48 ≤ c ∧ c ≤ 57) ∨ (97 ≤ c ∧ c ≤ 102) ∨ (65 ≤ c ∧ c ≤ 70)

/-- numeric value of a hexadecimal digit -/
def digitValue (c : UInt8) : Nat :=
  if c ≤ 57 then c.toNat - 48 else if c ≤ 70 then c.toNat - 55 else c.toNat - 87

/-- numeric value of a text of hexadecimal digits, most significant first -/
def hexNumber (cs : List UInt8) : Nat := cs.foldl (fun n c => n * 16 + digitValue c) 0
/-- numeric value of a byte string, most significant first -/
def byteNumber (bs : List UInt8) : Nat := bs.foldl (fun n b => n * 256 + b.toNat) 0

instance (c : UInt8) : Decidable (isHexDigit c) := by unfold isHexDigit; infer_instance

/-- C11: text conversion is lossless for every byte string, and needs exactly two characters per
byte plus the terminator. -/
theorem C11_roundtrip (src : List UInt8) (bufLen outLen : Nat)
    (h1 : 2 * src.length + 1 ≤ bufLen) (h2 : src.length ≤ outLen) :
    ∃ txt, strhexFromBin bufLen src = some txt ∧ txt.length = 2 * src.length ∧
      strhexToBin outLen txt = (src, true) := by
  refine ⟨hexLoop src, ?_, hexLoop_length src, ?_⟩
  · unfold strhexFromBin; rw [if_neg (by omega)]
  · unfold strhexToBin
    rw [if_neg (by rw [hexLoop_length]; omega), unhex_hex]

/-- C11: a too small text buffer is refused (nothing is written). -/
theorem C11_small_buffer (src : List UInt8) (bufLen : Nat) (h : bufLen < 2 * src.length + 1) :
    strhexFromBin bufLen src = none := by
  unfold strhexFromBin; rw [if_pos (by omega)]

theorem hexchar_spec : ∀ c : UInt8, c ≠ 0 →
    (isHexDigit c → hexcharToValue c = some (digitValue c)) ∧
    (¬ isHexDigit c → hexcharToValue c = none) ∧ (isHexDigit c → digitValue c < 16) := by
  apply forall_u8
  decide +kernel

/-- C11: the parser accepts exactly the texts consisting of an even number of hexadecimal digits
(either case) that fit into the buffer. -/
theorem C11_accepts_iff (outLen : Nat) (txt : List UInt8) (hz : (0 : UInt8) ∉ txt) :
    (strhexToBin outLen txt).2 = true ↔
      txt.length % 2 = 0 ∧ txt.length / 2 ≤ outLen ∧ ∀ c ∈ txt, isHexDigit c := by
  have key : ∀ txt : List UInt8, (0 : UInt8) ∉ txt → txt.length % 2 = 0 →
      ((unhexLoop txt).2 = true ↔ ∀ c ∈ txt, isHexDigit c) := by
    intro txt
    fun_induction unhexLoop txt with
    | case1 c1 c2 cs v1 v2 h2 h1 bs ok heq ih =>
      intro hz he
      simp only [heq] at ih
      rw [ih (fun h => hz (by simp [h])) (by simp only [List.length_cons] at he; omega)]
      have n1 : c1 ≠ 0 := fun h => hz (by simp [h])
      have n2 : c2 ≠ 0 := fun h => hz (by simp [h])
      obtain ⟨_, a2, _⟩ := hexchar_spec c1 n1
      obtain ⟨_, b2, _⟩ := hexchar_spec c2 n2
      have hc1 : isHexDigit c1 := Classical.byContradiction fun hn => by simp [a2 hn] at h1
      have hc2 : isHexDigit c2 := Classical.byContradiction fun hn => by simp [b2 hn] at h2
      simp [hc1, hc2]
    | case2 c1 c2 cs hno =>
      intro hz he
      have n1 : c1 ≠ 0 := fun h => hz (by simp [h])
      have n2 : c2 ≠ 0 := fun h => hz (by simp [h])
      constructor
      · simp
      · intro hall
        exact absurd ((hexchar_spec c2 n2).1 (hall c2 (by simp)))
          (hno _ _ ((hexchar_spec c1 n1).1 (hall c1 (by simp))))
    | case3 l hl =>
      intro hz he
      match l, hl with
      | [], _ => simp
      | [c], _ => simp at he
      | c1 :: c2 :: cs, hl => exact absurd rfl (hl c1 c2 cs)
  unfold strhexToBin
  split
  · rename_i h
    simp only [Bool.false_eq_true, false_iff]
    rintro ⟨h1, h2, _⟩
    omega
  · rename_i h
    rw [key txt hz (by omega)]
    constructor
    · intro h'; exact ⟨by omega, by omega, h'⟩
    · intro h'; exact h'.2.2

/-- C11: whatever the text, no byte is written behind the buffer; an accepted text writes exactly
half its length. -/
theorem C11_never_overflows (outLen : Nat) (txt : List UInt8) :
    (strhexToBin outLen txt).1.length ≤ outLen := by
  unfold strhexToBin
  split
  · simp
  · have := unhexLoop_length txt
    omega

/-- C11: the parsed bytes denote the same number as the text (so digits and nibbles are in the right
order), for either case of the digits. -/
theorem C11_value (outLen : Nat) (txt : List UInt8) (hz : (0 : UInt8) ∉ txt)
    (h : (strhexToBin outLen txt).2 = true) :
    byteNumber (strhexToBin outLen txt).1 = hexNumber txt ∧
      (strhexToBin outLen txt).1.length = txt.length / 2 := by
  have key : ∀ (txt : List UInt8) (n : Nat), (0 : UInt8) ∉ txt → txt.length % 2 = 0 →
      (∀ c ∈ txt, isHexDigit c) →
      (unhexLoop txt).1.foldl (fun n b => n * 256 + b.toNat) n
        = txt.foldl (fun n c => n * 16 + digitValue c) n ∧
      (unhexLoop txt).1.length = txt.length / 2 := by
    intro txt
    fun_induction unhexLoop txt with
    | case1 c1 c2 cs v1 v2 h2 h1 bs ok heq ih =>
      intro n hz he hall
      simp only [heq] at ih
      have n1 : c1 ≠ 0 := fun h => hz (by simp [h])
      have n2 : c2 ≠ 0 := fun h => hz (by simp [h])
      obtain ⟨a1, _, a3⟩ := hexchar_spec c1 n1
      obtain ⟨b1, _, b3⟩ := hexchar_spec c2 n2
      have hc1 := hall c1 (by simp)
      have hc2 := hall c2 (by simp)
      have e1 := a1 hc1; rw [h1] at e1; injection e1 with e1
      have e2 := b1 hc2; rw [h2] at e2; injection e2 with e2
      have l1 := a3 hc1
      have l2 := b3 hc2
      have hv : (UInt8.ofNat (v1 <<< 4 ||| v2)).toNat = v1 * 16 + v2 := by
        rw [← e1] at l1; rw [← e2] at l2
        have : ∀ a : Fin 16, ∀ b : Fin 16,
            (UInt8.ofNat (a.val <<< 4 ||| b.val)).toNat = a.val * 16 + b.val := by decide +kernel
        exact this ⟨v1, l1⟩ ⟨v2, l2⟩
      obtain ⟨i1, i2⟩ := ih (n * 256 + (v1 * 16 + v2)) (fun h => hz (by simp [h]))
        (by simp only [List.length_cons] at he; omega) (fun c hc => hall c (by simp [hc]))
      simp only [List.foldl_cons, List.length_cons]
      rw [hv, i1, i2, ← e1, ← e2]
      refine ⟨?_, by omega⟩
      congr 1; omega
    | case2 c1 c2 cs hno =>
      intro n hz he hall
      have n1 : c1 ≠ 0 := fun h => hz (by simp [h])
      have n2 : c2 ≠ 0 := fun h => hz (by simp [h])
      exact absurd ((hexchar_spec c2 n2).1 (hall c2 (by simp)))
          (hno _ _ ((hexchar_spec c1 n1).1 (hall c1 (by simp))))
    | case3 l hl =>
      intro n hz he hall
      match l, hl with
      | [], _ => simp
      | [c], _ => simp at he
      | c1 :: c2 :: cs, hl => exact absurd rfl (hl c1 c2 cs)
  have hacc := (C11_accepts_iff outLen txt hz).1 h
  have e : strhexToBin outLen txt = unhexLoop txt := by
    unfold strhexToBin; rw [if_neg (by omega)]
  rw [e]
  exact key txt 0 hz hacc.1 hacc.2.2

example : strhexFromBin 9 [0, 0x1f, 0xa0, 255] = some "001fa0ff".toUTF8.toList ∧
    strhexToBin 4 "001fA0fF".toUTF8.toList = ([0, 0x1f, 0xa0, 255], true) ∧
    (strhexToBin 4 "001g".toUTF8.toList).2 = false := by decide +kernel

/-! ## C13 -/

/-- C13: appending a string to an array appends it to the list; running out of memory changes
nothing and is reported. -/
theorem C13_append {a : Arr} {L} (h : Rep a L) (mem : Bool) (junk : UInt8) (s : List UInt8)
    (hs : (0 : UInt8) ∉ s) :
    if mem then ∃ a', arrAppend mem junk a s = .ok a' ∧ Rep a' (L ++ [s])
    else arrAppend mem junk a s = .err := by
  cases mem with
  | false => simp [arrAppend]
  | true =>
    simp only [if_true]
    have hm := memsize_ge (a.length + (s.length + 1))
    obtain ⟨b, e1, e2, e3, e4, e5⟩ := writeAt_take
      (realloc junk a.value (memsize (a.length + (s.length + 1)))) a.length (s ++ [0])
      (by rw [realloc_length]; simp; omega)
    refine ⟨⟨some b, a.length + (s.length + 1)⟩, ?_, ?_⟩
    · simp [arrAppend, e1]
    · rw [realloc_length] at e2
      constructor
      · intro t ht
        rcases List.mem_append.1 ht with h1 | h1
        · exact h.clean t h1
        · simp only [List.mem_singleton] at h1; rw [h1]; exact hs
      · simp [flat_append, flat_cons, flat_nil, h.len]
      · simp
      · simp only [Option.getD_some]; omega
      · simp only [Option.getD_some]
        rw [show a.length + (s.length + 1) = a.length + (s ++ [0]).length by simp, e3,
          realloc_take _ _ _ _ (by omega) h.room, h.bytes]
        simp [flat_append, flat_cons, flat_nil]

/-- C13: prepending puts the string in front of the list. -/
theorem C13_prepend {a : Arr} {L} (h : Rep a L) (mem : Bool) (junk : UInt8) (s : List UInt8)
    (hs : (0 : UInt8) ∉ s) :
    if mem then ∃ a', arrPrepend mem junk a s = .ok a' ∧ Rep a' (s :: L)
    else arrPrepend mem junk a s = .err := by
  cases mem with
  | false => simp [arrPrepend]
  | true =>
    simp only [if_true]
    have hm := memsize_ge (a.length + (s.length + 1))
    generalize hp : realloc junk a.value (memsize (a.length + (s.length + 1))) = p
    have hpl : p.length = memsize (a.length + (s.length + 1)) := by rw [← hp, realloc_length]
    have hpt : p.take a.length = flat L := by
      rw [← hp, realloc_take _ _ _ _ (by omega) h.room, h.bytes]
    have er : readAt p 0 a.length = some (flat L) := by
      unfold readAt; rw [if_pos (by omega), List.drop_zero, hpt]
    have hfl : (flat L).length = a.length := h.len.symm
    obtain ⟨b, e1, e2, e3, e4, e5⟩ := writeAt_take p (s.length + 1) (flat L) (by omega)
    obtain ⟨c, f1, f2, f3, f4, f5⟩ := writeAt_take b 0 (s ++ [0]) (by simp; omega)
    refine ⟨⟨some c, a.length + (s.length + 1)⟩, ?_, ?_⟩
    · simp [arrPrepend, hp, er, e1, f1]
    · constructor
      · intro t ht
        rcases List.mem_cons.1 ht with h1 | h1
        · rw [h1]; exact hs
        · exact h.clean t h1
      · simp [flat_cons, h.len]; omega
      · simp
      · simp only [Option.getD_some]; omega
      · simp only [Option.getD_some]
        have hc : c = (s ++ [0]) ++ b.drop (s.length + 1) := by
          conv => lhs; rw [← List.take_append_drop (0 + (s ++ [0]).length) c, f3, f5]
          simp
        have hb : (b.drop (s.length + 1)).take a.length = flat L := by
          have : (b.take (s.length + 1 + (flat L).length)).drop (s.length + 1) = flat L := by
            rw [e3, List.drop_left' (by simp; omega)]
          rw [List.drop_take] at this
          rw [← hfl, ← this]
          congr 1; rw [this]; omega
        rw [hc, List.take_append, List.take_of_length_le (by simp), flat_cons]
        congr 1
        rw [show a.length + (s.length + 1) - (s ++ [(0 : UInt8)]).length = a.length from by simp, hb]

/-- C13: the number of elements is the length of the list. -/
theorem C13_count {a : Arr} {L} (h : Rep a L) : arrCount a = .ok L.length := by
  unfold arrCount; rw [elements_spec h]; simp [offsets_length]

/-- C13: getting element `idx` returns the string at this position, or NULL behind the end. -/
theorem C13_get {a : Arr} {L} (h : Rep a L) (idx : Nat) :
    ∃ r, arrGet a idx = .ok r ∧ r.bind (stringAt a) = L[idx]? ∧ (r.isSome ↔ idx < L.length) := by
  unfold arrGet
  rw [elements_spec h]
  refine ⟨_, rfl, ?_⟩
  by_cases hi : idx < L.length
  · have hv : a.value ≠ none := fun hn => by
      have := h.empty.1 hn; subst this; simp at hi
    obtain ⟨block, hb⟩ := Option.ne_none_iff_exists'.1 hv
    have hbytes := h.bytes
    rw [hb] at hbytes
    have hL : L = L.take idx ++ L[idx] :: L.drop (idx + 1) := by simp
    obtain ⟨s1, s2⟩ := strlenAt_mid block (L.take idx) L[idx] (L.drop (idx + 1)) a.length
      (h.clean _ (List.getElem_mem hi)) (by rw [← hL]; exact hbytes)
    rw [offsets_getElem L 0 idx hi]
    simp only [Nat.zero_add, Option.bind_some, hi, Option.isSome_some, iff_self, and_true]
    unfold stringAt
    rw [hb]
    simp [s1, s2]
  · rw [List.getElem?_eq_none (by rw [offsets_length]; omega), List.getElem?_eq_none (by omega)]
    simp [hi]

/-- C13: removing the element at a position (as returned by `strarray_get`) removes exactly this
element from the list and keeps all others in order. -/
theorem C13_remove {a : Arr} {L} (h : Rep a L) (shrink : Bool) (junk : UInt8) (idx : Nat)
    (hi : idx < L.length) (off : Nat) (ho : arrGet a idx = .ok (some off)) :
    ∃ a', arrRemove shrink junk a off = .ok a' ∧ Rep a' (L.eraseIdx idx) := by
  unfold arrGet at ho
  rw [elements_spec h] at ho
  simp only [offsets_getElem L 0 idx hi, Out.ok.injEq, Option.some.injEq, Nat.zero_add] at ho
  subst ho
  have hv : a.value ≠ none := fun hn => by
    have := h.empty.1 hn; subst this; simp at hi
  obtain ⟨block, hb⟩ := Option.ne_none_iff_exists'.1 hv
  have hbytes := h.bytes
  have hroom := h.room
  have hlen := h.len
  have hclean := h.clean
  rw [hb] at hbytes hroom
  simp only [Option.getD_some] at hbytes hroom
  have hL : L = L.take idx ++ L[idx] :: L.drop (idx + 1) := by simp
  have he : L.eraseIdx idx = L.take idx ++ L.drop (idx + 1) := List.eraseIdx_eq_take_drop_succ L idx
  rw [he]
  generalize hP : L.take idx = P at *
  generalize hS : L.drop (idx + 1) = S at *
  generalize hs : L[idx] = s at *
  obtain ⟨s1, s2⟩ := strlenAt_mid block P s S a.length
      (hclean _ (by rw [hL]; simp)) (by rw [← hL]; exact hbytes)
  have hlen2 : a.length = (flat P).length + (s.length + 1) + (flat S).length := by
    rw [hlen, hL, flat_append, flat_cons]; simp; omega
  unfold arrRemove
  rw [hb]
  simp only [s1]
  by_cases hall : s.length + 1 = a.length
  · rw [if_pos hall]
    refine ⟨_, rfl, ?_⟩
    have p0 : P = [] := flat_eq_nil.1 (List.length_eq_zero_iff.1 (by omega))
    have q0 : S = [] := flat_eq_nil.1 (List.length_eq_zero_iff.1 (by omega))
    subst p0; subst q0
    exact ⟨by simp, by simp [Arr.init, flat_nil], by simp [Arr.init], by simp [Arr.init],
      by simp [Arr.init, flat_nil]⟩
  · rw [if_neg hall, if_neg (by omega)]
    have hPS : P ++ S ≠ [] := by
      intro hn
      rw [List.append_eq_nil_iff] at hn
      rw [hn.1, hn.2] at hlen2
      simp [flat_nil] at hlen2
      omega
    have er : readAt block ((flat P).length + (s.length + 1))
        (a.length - (s.length + 1) - (flat P).length) = some (flat S) := by
      unfold readAt
      rw [if_pos (by omega)]
      congr 1
      have : block.take a.length = flat P ++ (s ++ [0]) ++ flat S := by
        rw [hbytes, hL, flat_append, flat_cons]; simp
      have h2 : (block.take a.length).drop ((flat P).length + (s.length + 1)) = flat S := by
        rw [this, List.drop_left' (by simp)]
      rw [List.drop_take] at h2
      rw [← h2]
      congr 1; omega
    obtain ⟨b, e1, e2, e3, e4, e5⟩ := writeAt_take block (flat P).length (flat S) (by omega)
    rw [if_pos (by omega), er]
    simp only [e1]
    have hpre : block.take (flat P).length = flat P := by
      have : (block.take a.length).take (flat P).length = flat P := by
        rw [hbytes, hL, flat_append, List.take_left]
      rw [List.take_take] at this
      rw [← this]
      congr 1
      rw [this]; omega
    have hbt : b.take (a.length - (s.length + 1)) = flat (P ++ S) := by
      rw [show a.length - (s.length + 1) = (flat P).length + (flat S).length by omega, e3, hpre,
        flat_append]
    have hc' : ∀ t ∈ P ++ S, (0 : UInt8) ∉ t := by
      intro t ht
      apply hclean
      rw [hL]
      rcases List.mem_append.1 ht with h1 | h1
      · simp [h1]
      · simp [h1]
    cases shrink with
    | true =>
      refine ⟨_, rfl, ?_⟩
      have hm := memsize_ge (a.length - (s.length + 1))
      constructor
      · exact hc'
      · simp only; rw [flat_append]; simp; omega
      · simpa using hPS
      · simp only [Option.getD_some, realloc_length]; omega
      · simp only [Option.getD_some]
        rw [realloc_take _ _ _ _ hm (by simp only [Option.getD_some]; omega)]
        exact hbt
    | false =>
      refine ⟨_, rfl, ?_⟩
      constructor
      · exact hc'
      · simp only; rw [flat_append]; simp; omega
      · simpa using hPS
      · simp only [Option.getD_some]; omega
      · exact hbt

/-- C13: copying copies the list. -/
theorem C13_copy {src dst : Arr} {L M} (h : Rep src L) (_hd : Rep dst M) (junk : UInt8) :
    ∃ a', arrCopy true junk dst src = .ok a' ∧ Rep a' L := by
  unfold arrCopy
  cases hv : src.value with
  | none =>
    have := h.empty.1 hv
    subst this
    exact ⟨_, rfl, ⟨by simp, by simp [Arr.init, flat_nil], by simp [Arr.init], by simp [Arr.init],
      by simp [Arr.init, flat_nil]⟩⟩
  | some sv =>
    have hroom := h.room
    have hbytes := h.bytes
    rw [hv] at hroom hbytes
    simp only [Option.getD_some] at hroom hbytes
    have hL : L ≠ [] := fun hn => by have := h.empty.2 hn; rw [hv] at this; simp at this
    have h0 : src.length ≠ 0 := by
      rw [h.len]; intro h0
      exact hL (flat_eq_nil.1 (List.length_eq_zero_iff.1 h0))
    have hm := memsize_ge src.length
    have er : readAt sv 0 src.length = some (flat L) := by
      unfold readAt; rw [if_pos (by omega), List.drop_zero, hbytes]
    have hfl : (flat L).length = src.length := h.len.symm
    obtain ⟨b, e1, e2, e3, e4, e5⟩ := writeAt_take
      (realloc junk dst.value (memsize src.length)) 0 (flat L) (by rw [realloc_length]; omega)
    rw [realloc_length] at e2
    obtain ⟨c, f1, f2, f3, f4, f5⟩ := writeAt_take b src.length
      (List.replicate (memsize src.length - src.length) 0) (by simp; omega)
    refine ⟨⟨some c, src.length⟩, ?_, ?_⟩
    · simp [h0, er, e1, f1]
    · constructor
      · exact h.clean
      · exact h.len
      · simp [hL]
      · simp only [Option.getD_some]; omega
      · simp only [Option.getD_some]
        rw [f4 _ (Nat.le_refl _), ← hfl]
        have := e3
        rw [Nat.zero_add] at this
        rw [this]; simp

/-- the public operations -/
inductive AOp
  | append (s : List UInt8) | prepend (s : List UInt8) | remove (idx : Nat)

/-- what a list of strings does -/
def listOp : List (List UInt8) → AOp → List (List UInt8)
  | L, .append s => L ++ [s]
  | L, .prepend s => s :: L
  | L, .remove i => L.eraseIdx i

/-- what the array does (element found with `strarray_get`; an out-of-range index removes nothing) -/
def arrOp (junk : UInt8) (a : Arr) : AOp → Out Arr
  | .append s => arrAppend true junk a s
  | .prepend s => arrPrepend true junk a s
  | .remove i =>
    match arrGet a i with
    | .ok (some off) => arrRemove true junk a off
    | .ok none => .ok a
    | _ => .ub

def arrRun (junk : UInt8) : Arr → List AOp → Out Arr
  | a, [] => .ok a
  | a, op :: ops =>
    match arrOp junk a op with
    | .ok a' => arrRun junk a' ops
    | .err => .err
    | .ub => .ub

/-- C13: every sequence of operations, starting with the empty array, behaves like the same
sequence on a list of strings, without ever touching memory outside the block. -/
theorem C13_sequence (junk : UInt8) (ops : List AOp)
    (hops : ∀ s, AOp.append s ∈ ops ∨ AOp.prepend s ∈ ops → (0 : UInt8) ∉ s) :
    ∃ a, arrRun junk Arr.init ops = .ok a ∧ Rep a (ops.foldl listOp []) := by
  have key : ∀ ops : List AOp, (∀ s, AOp.append s ∈ ops ∨ AOp.prepend s ∈ ops → (0 : UInt8) ∉ s) →
      ∀ a L, Rep a L → ∃ a', arrRun junk a ops = .ok a' ∧ Rep a' (ops.foldl listOp L) := by
    intro ops
    induction ops with
    | nil => intro _ a L h; exact ⟨a, rfl, h⟩
    | cons op ops ih =>
      intro hops a L h
      have hrest : ∀ s, AOp.append s ∈ ops ∨ AOp.prepend s ∈ ops → (0 : UInt8) ∉ s := by
        intro s hs
        apply hops
        rcases hs with h | h <;> simp [h]
      cases op with
      | append s =>
        have := C13_append h true junk s (hops s (by simp))
        simp only [if_true] at this
        obtain ⟨a', e1, e2⟩ := this
        obtain ⟨a'', f1, f2⟩ := ih hrest a' _ e2
        exact ⟨a'', by simp [arrRun, arrOp, e1, f1], f2⟩
      | prepend s =>
        have := C13_prepend h true junk s (hops s (by simp))
        simp only [if_true] at this
        obtain ⟨a', e1, e2⟩ := this
        obtain ⟨a'', f1, f2⟩ := ih hrest a' _ e2
        exact ⟨a'', by simp [arrRun, arrOp, e1, f1], f2⟩
      | remove i =>
        obtain ⟨r, g1, g2, g3⟩ := C13_get h i
        by_cases hi : i < L.length
        · obtain ⟨off, rfl⟩ := Option.isSome_iff_exists.1 (g3.2 hi)
          obtain ⟨a', e1, e2⟩ := C13_remove h true junk i hi off g1
          obtain ⟨a'', f1, f2⟩ := ih hrest a' _ e2
          exact ⟨a'', by simp [arrRun, arrOp, g1, e1, f1], f2⟩
        · have : r = none := by
            cases r with
            | none => rfl
            | some _ => exact absurd (g3.1 rfl) hi
          subst this
          obtain ⟨a'', f1, f2⟩ := ih hrest a L h
          refine ⟨a'', by simp [arrRun, arrOp, g1, f1], ?_⟩
          simp only [List.foldl_cons, listOp]
          rwa [List.eraseIdx_of_length_le (by omega)]
  exact key ops hops Arr.init [] ⟨by simp, by simp [Arr.init, flat_nil], by simp [Arr.init],
    by simp [Arr.init], by simp [Arr.init, flat_nil]⟩

example : (∃ a, arrRun 7 Arr.init [.append [65, 66], .prepend [67], .append [], .remove 1] = .ok a) ∧
    [AOp.append [65, 66], .prepend [67], .append [], .remove 1].foldl listOp [] = [[67], []] :=
  ⟨(C13_sequence 7 _ (by
    intro s hs; simp at hs; rcases hs with (rfl | rfl) | rfl <;> decide)).imp fun _ h => h.1, rfl⟩

theorem memcmp_eq_zero (x y : List UInt8) (h : x.length = y.length) : memcmp x y = 0 ↔ x = y := by
  induction x generalizing y with
  | nil => cases y <;> simp_all [memcmp]
  | cons a as ih =>
    cases y with
    | nil => simp at h
    | cons b bs =>
      unfold memcmp
      simp only [List.length_cons, Nat.add_right_cancel_iff] at h
      by_cases h1 : a < b
      · have : a ≠ b := fun h => by subst h; exact absurd h1 (UInt8.lt_irrefl _)
        simp [h1, this]
      · by_cases h2 : b < a
        · have : a ≠ b := fun h => by subst h; exact absurd h2 (UInt8.lt_irrefl _)
          simp [h1, h2, this]
        · have : a = b := by
            rw [UInt8.not_lt] at h1 h2
            exact UInt8.le_antisymm h2 h1
          simp [this, ih bs h]

theorem flat_inj {L M : List (List UInt8)} (hL : ∀ s ∈ L, (0 : UInt8) ∉ s)
    (hM : ∀ s ∈ M, (0 : UInt8) ∉ s) (h : flat L = flat M) : L = M := by
  induction L generalizing M with
  | nil => exact (flat_eq_nil.1 h.symm).symm
  | cons s L ih =>
    cases M with
    | nil => exact absurd h (by simp [flat])
    | cons t M =>
      rw [flat_cons, flat_cons, List.append_assoc, List.append_assoc] at h
      have h1 := findIdx_zero s (flat L) (hL s (by simp))
      have h2 := findIdx_zero t (flat M) (hM t (by simp))
      simp only [List.singleton_append] at h
      rw [h, h2] at h1
      injection h1 with h1
      have := List.append_inj h h1.symm
      simp only [List.cons.injEq, true_and] at this
      rw [this.1, ih (fun x hx => hL x (by simp [hx])) (fun x hx => hM x (by simp [hx])) this.2]

/-- C13: two arrays compare equal exactly if they hold the same list of strings. -/
theorem C13_compare {a b : Arr} {L M} (ha : Rep a L) (hb : Rep b M) :
    ∃ r, arrCmp a b = .ok r ∧ (r = 0 ↔ L = M) := by
  unfold arrCmp
  cases hva : a.value with
  | none =>
    have hL := ha.empty.1 hva
    cases hvb : b.value with
    | none => exact ⟨0, rfl, by simp [hL, hb.empty.1 hvb]⟩
    | some y =>
      have : M ≠ [] := fun h => by have := hb.empty.2 h; rw [hvb] at this; simp at this
      exact ⟨_, rfl, by simp [hL, this]⟩
  | some x =>
    have hLn : L ≠ [] := fun h => by have := ha.empty.2 h; rw [hva] at this; simp at this
    cases hvb : b.value with
    | none => exact ⟨_, rfl, by simp [hb.empty.1 hvb, hLn]⟩
    | some y =>
      have r1 := ha.room; have r2 := hb.room
      have t1 := ha.bytes; have t2 := hb.bytes
      rw [hva] at r1 t1; rw [hvb] at r2 t2
      simp only [Option.getD_some] at r1 r2 t1 t2
      generalize hmin : (if a.length > b.length then b.length else a.length) = n
      have hn1 : n ≤ a.length := by rw [← hmin]; split <;> omega
      have hn2 : n ≤ b.length := by rw [← hmin]; split <;> omega
      have e1 : readAt x 0 n = some (x.take n) := by
        unfold readAt; rw [if_pos (by omega), List.drop_zero]
      have e2 : readAt y 0 n = some (y.take n) := by
        unfold readAt; rw [if_pos (by omega), List.drop_zero]
      simp only [e1, e2]
      have hz := memcmp_eq_zero (x.take n) (y.take n) (by simp; omega)
      by_cases hm : memcmp (x.take n) (y.take n) = 0
      · rw [if_pos hm]
        by_cases g : a.length > b.length
        · rw [if_pos g]
          refine ⟨1, rfl, by simp; intro h; have h1 := ha.len; have h2 := hb.len; rw [h] at h1; omega⟩
        · rw [if_neg g]
          by_cases g2 : a.length < b.length
          · rw [if_pos g2]
            refine ⟨-1, rfl, by simp; intro h; have h1 := ha.len; have h2 := hb.len; rw [h] at h1; omega⟩
          · rw [if_neg g2]
            refine ⟨_, rfl, ?_⟩
            simp only [hm, true_iff]
            have hnn : n = a.length := by rw [← hmin]; rw [if_neg g]
            have hnb : n = b.length := by omega
            apply flat_inj ha.clean hb.clean
            rw [← t1, ← t2, ← hnn, ← hnb]
            exact hz.1 hm
      · rw [if_neg hm]
        refine ⟨_, rfl, ?_⟩
        constructor
        · intro h; exact absurd h hm
        · intro h
          exfalso
          apply hm
          apply hz.2
          have hl : a.length = b.length := by rw [ha.len, hb.len, h]
          have hnn : n = a.length := by rw [← hmin]; split <;> omega
          rw [hnn, t1, hl, t2, h]

/-! ## C55: words -/

/-- `Words s ws`: the words of the text `s` (maximal runs of non-blank characters), in order,
are `ws`. -/
inductive Words : List UInt8 → List (List UInt8) → Prop
  | none (b) (hb : ∀ c ∈ b, isBlank c = true) : Words b []
  | more (b w r ws) (hb : ∀ c ∈ b, isBlank c = true) (hw : ∀ c ∈ w, isBlank c = false)
      (hne : w ≠ []) (hr : ∀ c ∈ r.head?, isBlank c = true) (h : Words r ws) :
      Words (b ++ (w ++ r)) (w :: ws)

theorem skipBlank_more (b w r : List UInt8) (hb : ∀ c ∈ b, isBlank c = true)
    (hw : ∀ c ∈ w, isBlank c = false) (hne : w ≠ []) : skipBlank (b ++ (w ++ r)) = w ++ r := by
  unfold skipBlank
  rw [dropWhile_all _ _ hb, dropWhile_head]
  intro x hx
  cases w with
  | nil => exact absurd rfl hne
  | cons c cs => simp at hx; subst hx; exact hw c (by simp)

theorem skipBlank_blank (b : List UInt8) (hb : ∀ c ∈ b, isBlank c = true) : skipBlank b = [] := by
  have := dropWhile_all isBlank b hb []
  simpa [skipBlank] using this

theorem words_skip {s ws} (h : Words s ws) : Words (skipBlank s) ws := by
  cases h with
  | none b hb => rw [skipBlank_blank _ hb]; exact .none [] (by simp)
  | more b w r ws hb hw hne hr h =>
    rw [skipBlank_more b w r hb hw hne]
    exact .more [] w r ws (by simp) hw hne hr h

theorem words_nil {ws} (h : Words [] ws) : ws = [] := by
  generalize hs : ([] : List UInt8) = s at h
  cases h with
  | none => rfl
  | more b w r ws hb hw hne hr h =>
    exfalso; apply hne
    have := congrArg List.length hs
    simp only [List.length_nil, List.length_append] at this
    exact List.length_eq_zero_iff.1 (by omega)

theorem words_cons_ne {s w ws} (h : Words s (w :: ws)) : skipBlank s ≠ [] := by
  cases h with
  | more b w r ws hb hw hne hr h =>
    rw [skipBlank_more b w r hb hw hne]
    intro hn
    exact hne (List.append_eq_nil_iff.1 hn).1

theorem skip_empty_iff {s ws} (h : Words s ws) : skipBlank s = [] ↔ ws = [] := by
  constructor
  · intro hs
    have := words_skip h
    rw [hs] at this
    exact words_nil this
  · intro hw
    subst hw
    cases h with
    | none b hb => exact skipBlank_blank _ hb

theorem mem_takeWhile' {p : UInt8 → Bool} {l : List UInt8} {c : UInt8} (h : c ∈ l.takeWhile p) :
    p c = true := by
  induction l with
  | nil => simp at h
  | cons x xs ih =>
    rw [List.takeWhile_cons] at h
    split at h
    · rcases List.mem_cons.1 h with rfl | h
      · assumption
      · exact ih h
    · simp at h

/-- C55: every text has exactly one list of words. -/
theorem C55_words_exist (s : List UInt8) : ∃ ws, Words s ws := by
  induction hn : s.length using Nat.strongRecOn generalizing s with
  | _ n ih =>
    have e1 : s = s.takeWhile isBlank ++ s.dropWhile isBlank := (List.takeWhile_append_dropWhile).symm
    have hb : ∀ c ∈ s.takeWhile isBlank, isBlank c = true := fun c hc => mem_takeWhile' hc
    generalize s.takeWhile isBlank = b at *
    cases ht : s.dropWhile isBlank with
    | nil => rw [e1, ht, List.append_nil]; exact ⟨[], .none b hb⟩
    | cons c cs =>
      have hc : isBlank c = false := by
        have := List.head?_dropWhile_not isBlank s
        rw [ht] at this
        simpa using this
      have e2 : c :: cs = (c :: cs).takeWhile (fun c => !isBlank c) ++ (c :: cs).dropWhile (fun c => !isBlank c) :=
        (List.takeWhile_append_dropWhile).symm
      have hw : ∀ x ∈ (c :: cs).takeWhile (fun c => !isBlank c), isBlank x = false := by
        intro x hx
        have := mem_takeWhile' hx
        simpa using this
      have hne : (c :: cs).takeWhile (fun c => !isBlank c) ≠ [] := by simp [hc]
      have hr : ∀ x ∈ ((c :: cs).dropWhile (fun c => !isBlank c)).head?, isBlank x = true := by
        intro x hx
        have := List.head?_dropWhile_not (fun c => !isBlank c) (c :: cs)
        rw [Option.mem_def] at hx
        rw [hx] at this
        simpa using this
      have hlen : ((c :: cs).dropWhile (fun c => !isBlank c)).length < n := by
        have h2 := congrArg List.length e2
        have h1 := congrArg List.length e1
        rw [ht] at h1
        have h3 : 0 < ((c :: cs).takeWhile (fun c => !isBlank c)).length :=
          List.length_pos_iff.2 hne
        rw [List.length_append] at h1 h2
        omega
      generalize (c :: cs).takeWhile (fun c => !isBlank c) = w at *
      generalize (c :: cs).dropWhile (fun c => !isBlank c) = r at *
      obtain ⟨ws, hws⟩ := ih r.length hlen r rfl
      refine ⟨w :: ws, ?_⟩
      rw [e1, ht, e2]
      exact .more b w r ws hb hw hne hr hws

theorem skipNext_spec {s w ws} (h : Words s (w :: ws)) :
    (ws = [] → strSkipNextWord s = none) ∧
      (ws ≠ [] → ∃ s', strSkipNextWord s = some s' ∧ Words s' ws ∧ skipBlank s' = s' ∧
        s'.length < s.length) := by
  cases h with
  | more b w r ws hb hw hne hr h =>
    have e : (w ++ r).dropWhile (fun c => !isBlank c) = r := by
      rw [dropWhile_all _ _ (fun c hc => by simp [hw c hc]), dropWhile_head]
      intro x hx; simp [hr x hx]
    unfold strSkipNextWord
    simp only [skipBlank_more b w r hb hw hne, e]
    constructor
    · intro h0
      rw [if_pos ((skip_empty_iff h).2 h0)]
    · intro h0
      have hs : skipBlank r ≠ [] := fun hn => h0 ((skip_empty_iff h).1 hn)
      rw [if_neg hs]
      refine ⟨_, rfl, words_skip h, ?_, ?_⟩
      · unfold skipBlank
        apply dropWhile_head
        intro x hx
        have := List.head?_dropWhile_not isBlank r
        rw [Option.mem_def] at hx
        rw [hx] at this
        simpa using this
      · have h1 : (skipBlank r).length ≤ r.length := List.Sublist.length_le (List.dropWhile_sublist _)
        have : 0 < w.length := List.length_pos_iff.2 hne
        simp only [List.length_append]
        omega

/-- C55: the word counter counts the words. -/
theorem C55_count {s ws} (h : Words s ws) : strCountWords s = ws.length := by
  have key : ∀ (ws : List (List UInt8)) (s : List UInt8) (fuel : Nat), Words s ws →
      skipBlank s = s → s.length < fuel → countLoop fuel (some s) = ws.length := by
    intro ws
    induction ws with
    | nil =>
      intro s fuel hw hs hf
      have := (skip_empty_iff hw).2 rfl
      rw [hs] at this
      cases fuel <;> simp [countLoop, this]
    | cons w ws ih =>
      intro s fuel hw hs hf
      have hne := words_cons_ne hw
      rw [hs] at hne
      cases fuel with
      | zero => omega
      | succ fuel =>
        simp only [countLoop, hne, if_false]
        obtain ⟨k1, k2⟩ := skipNext_spec hw
        by_cases hws : ws = []
        · rw [k1 hws]
          subst hws
          cases fuel <;> simp [countLoop]
        · obtain ⟨s', e1, e2, e3, e4⟩ := k2 hws
          rw [e1, ih s' fuel e2 e3 (by omega)]
          simp; omega
  unfold strCountWords
  apply key ws _ _ (words_skip h)
  · unfold skipBlank
    apply dropWhile_head
    intro x hx
    have := List.head?_dropWhile_not isBlank s
    rw [Option.mem_def] at hx
    rw [hx] at this
    simpa using this
  · have : (skipBlank s).length ≤ s.length := List.Sublist.length_le (List.dropWhile_sublist _)
    omega

theorem cpyLoop_word (w r : List UInt8) (n : Nat) (hw : ∀ c ∈ w, isBlank c = false)
    (hr : ∀ c ∈ r.head?, isBlank c = true) (hn : w.length ≤ n) :
    cpyLoop n (w ++ r) = (w, r) := by
  induction w generalizing n with
  | nil =>
    cases n with
    | zero => cases r <;> rfl
    | succ n =>
      cases r with
      | nil => rfl
      | cons c cs =>
        have := hr c (by simp)
        simp [cpyLoop, this]
  | cons c cs ih =>
    cases n with
    | zero => simp at hn
    | succ n =>
      have hc := hw c (by simp)
      simp only [List.cons_append, cpyLoop, hc, Bool.false_eq_true, if_false]
      rw [ih n (fun x hx => hw x (by simp [hx])) (by simpa using hn)]

/-- C55: copying the next word copies the first word (if the buffer holds it) and returns the text
of the remaining words, NULL if there are none. -/
theorem C55_copy_next (len : Nat) {s ws} (h : Words s ws) :
    match ws with
    | [] => strCpyNextWord len (some s) = ([], none)
    | w :: rest => w.length < len →
        (strCpyNextWord len (some s)).1 = w ∧
        (rest = [] → (strCpyNextWord len (some s)).2 = none) ∧
        (rest ≠ [] → ∃ s', (strCpyNextWord len (some s)).2 = some s' ∧ Words s' rest) := by
  cases h with
  | none b hb =>
    simp only [strCpyNextWord, skipBlank_blank _ hb]
    cases len - 1 <;> simp [cpyLoop, skipBlank]
  | more b w r ws hb hw hne hr h =>
    simp only
    intro hlen
    simp only [strCpyNextWord, skipBlank_more b w r hb hw hne]
    rw [cpyLoop_word w r (len - 1) hw hr (by omega)]
    refine ⟨rfl, ?_, ?_⟩
    · intro h0; simp [(skip_empty_iff h).2 h0]
    · intro h0
      have hs : skipBlank r ≠ [] := fun hn => h0 ((skip_empty_iff h).1 hn)
      exact ⟨_, by simp [hs], words_skip h⟩

/-- C55: the copied word never exceeds the target buffer including its terminator, whatever the
text. -/
theorem C55_copy_bounded (len : Nat) (s : Option (List UInt8)) (h : 0 < len) :
    (strCpyNextWord len s).1.length + 1 ≤ len := by
  have key : ∀ n (s : List UInt8), (cpyLoop n s).1.length ≤ n := by
    intro n
    induction n with
    | zero => intro s; cases s <;> simp [cpyLoop]
    | succ n ih =>
      intro s
      cases s with
      | nil => simp [cpyLoop]
      | cons c cs =>
        unfold cpyLoop
        split
        · simp
        · have := ih cs
          simp only [List.length_cons]; omega
  cases s with
  | none => simp [strCpyNextWord]; omega
  | some s =>
    have := key (len - 1) (skipBlank s)
    simp only [strCpyNextWord]
    omega

theorem hasWordLoop_spec (word w r : List UInt8) (hw : ∀ c ∈ w, isBlank c = false)
    (hr : ∀ c ∈ r.head?, isBlank c = true) :
    (∃ b, hasWordLoop word (w ++ r) = ([], b) ∧ (b = [] ∨ ∃ c cs, b = c :: cs ∧ isBlank c = true)) ↔
      w.map toLower = word.map toLower := by
  induction word generalizing w with
  | nil =>
    have e : hasWordLoop [] (w ++ r) = ([], w ++ r) := by cases (w ++ r) <;> rfl
    rw [e]
    constructor
    · rintro ⟨b, hb, h⟩
      injection hb with _ hb
      subst hb
      cases w with
      | nil => rfl
      | cons c cs =>
        have := hw c (by simp)
        simp [this] at h
    · intro h
      have : w = [] := by simpa using h
      subst this
      refine ⟨r, rfl, ?_⟩
      cases r with
      | nil => exact Or.inl rfl
      | cons c cs => exact Or.inr ⟨c, cs, rfl, hr c (by simp)⟩
  | cons x xs ih =>
    cases w with
    | nil =>
      simp only [List.nil_append, List.map_nil, List.map_cons]
      have : ∃ l, hasWordLoop (x :: xs) r = (x :: xs, l) := by
        cases r with
        | nil => exact ⟨_, rfl⟩
        | cons c cs =>
          have := hr c (by simp)
          exact ⟨c :: cs, by simp [hasWordLoop, this]⟩
      obtain ⟨l, hl⟩ := this
      rw [hl]
      simp
    | cons c cs =>
      have hc := hw c (by simp)
      simp only [List.cons_append, hasWordLoop, hc, Bool.not_false, Bool.true_and, List.map_cons,
        List.cons.injEq]
      by_cases hx : toLower x = toLower c
      · simp only [hx, beq_self_eq_true, if_true, true_and]
        exact ih cs (fun y hy => hw y (by simp [hy]))
      · have : (toLower x == toLower c) = false := by simpa using hx
        simp only [this, Bool.false_eq_true, if_false]
        constructor
        · rintro ⟨b, hb, _⟩; simp at hb
        · rintro ⟨h, _⟩; exact absurd h.symm hx

theorem hasWordLoop_rest (word w r b : List UInt8) (hr : ∀ c ∈ r.head?, isBlank c = true)
    (hw : ∀ c ∈ w, isBlank c = false)
    (he : w.map toLower = word.map toLower) (h : hasWordLoop word (w ++ r) = ([], b)) : b = r := by
  induction word generalizing w with
  | nil =>
    have : w = [] := by simpa using he
    subst this
    have : hasWordLoop [] ([] ++ r) = ([], r) := by simp; cases r <;> rfl
    rw [this] at h
    injection h with _ h
    exact h.symm
  | cons x xs ih =>
    cases w with
    | nil => simp at he
    | cons c cs =>
      simp only [List.map_cons, List.cons.injEq] at he
      have hc := hw c (by simp)
      simp only [List.cons_append, hasWordLoop, hc, he.1, Bool.not_false, beq_self_eq_true, Bool.true_and,
        if_true] at h
      exact ih cs (fun y hy => hw y (by simp [hy])) he.2 h

/-- C55: the prefix test succeeds exactly if the first word of the text equals the given word up
to letter case, and then returns the text of the remaining words. -/
theorem C55_has_next {s ws} (h : Words s ws) (word : List UInt8) (hword : word ≠ []) :
    ((strHasNextWord s word).isSome ↔ ∃ w rest, ws = w :: rest ∧ w.map toLower = word.map toLower) ∧
    (∀ s', strHasNextWord s word = some s' → Words s' ws.tail) := by
  have shape : ∀ p : List UInt8 × List UInt8, ∀ out,
      (match p.1, p.2 with
        | [], [] => some []
        | [], c :: cs => if isBlank c then some (skipBlank (c :: cs)) else none
        | _, _ => none) = some out →
      ∃ b, p = ([], b) ∧ (b = [] ∨ ∃ c cs, b = c :: cs ∧ isBlank c = true) ∧ out = skipBlank b := by
    rintro ⟨p1, p2⟩ out hout
    match p1, p2 with
    | [], [] => simp at hout; subst hout; exact ⟨[], rfl, Or.inl rfl, rfl⟩
    | [], c :: cs =>
      simp only at hout
      split at hout
      · rename_i hc
        injection hout with hout
        exact ⟨c :: cs, rfl, Or.inr ⟨c, cs, rfl, hc⟩, hout.symm⟩
      · simp at hout
    | _ :: _, _ => simp at hout
  cases h with
  | none b hb =>
    have e : hasWordLoop word (skipBlank s) = (word, []) := by
      rw [skipBlank_blank _ hb]; cases word <;> rfl
    unfold strHasNextWord
    rw [e]
    cases word with
    | nil => exact absurd rfl hword
    | cons x xs => simp
  | more b w r ws hb hw hne hr h =>
    unfold strHasNextWord
    rw [skipBlank_more b w r hb hw hne]
    have hs := hasWordLoop_spec word w r hw hr
    constructor
    · constructor
      · intro hsome
        obtain ⟨out, hout⟩ := Option.isSome_iff_exists.1 hsome
        obtain ⟨b', hb1, hb2, _⟩ := shape _ _ hout
        exact ⟨w, ws, rfl, hs.1 ⟨b', hb1, hb2⟩⟩
      · rintro ⟨w', rest, he, hm⟩
        injection he with he1 he2
        subst he1
        obtain ⟨b', hb1, hb2⟩ := hs.2 hm
        rw [hb1]
        simp only
        rcases hb2 with rfl | ⟨c, cs, rfl, hc⟩
        · rfl
        · simp [hc]
    · intro s' hout
      obtain ⟨b', hb1, hb2, hb3⟩ := shape _ _ hout
      have hm := hs.1 ⟨b', hb1, hb2⟩
      have hbr := hasWordLoop_rest word w r b' hr hw hm hb1
      rw [hb3, hbr]
      exact words_skip h

example : Words [32, 32, 97, 98, 32, 32, 99, 100, 32] [[97, 98], [99, 100]] :=
  .more [32, 32] [97, 98] [32, 32, 99, 100, 32] _ (by decide) (by decide) (by decide) (by decide)
    (.more [32, 32] [99, 100] [32] _ (by decide) (by decide) (by decide) (by decide)
      (.none [32] (by decide)))
example : strCountWords "  ab  cd ".toUTF8.toList = 2 ∧
    strHasNextWord "  Ab  cd ".toUTF8.toList "aB".toUTF8.toList = some "cd ".toUTF8.toList := by
  decide +kernel

/-! ## C56: bounded copy -/

/-- C56: the bounded copy stays inside a target of `size` bytes, always terminates it, and the
resulting string is the source cut to `size - 1` bytes. -/
theorem C56_copy (dest src : List UInt8) (size : Nat) (hs : 0 < size) (hd : size ≤ dest.length)
    (hsrc : (0 : UInt8) ∉ src) :
    ∃ d, strscpy dest src size = some d ∧ d.length = dest.length ∧
      d.drop size = dest.drop size ∧
      strlenAt d 0 = some (min src.length (size - 1)) ∧
      d.take (min src.length (size - 1)) = src.take (size - 1) := by
  obtain ⟨d1, a1, a2, a3, a4, a5⟩ := writeAt_take dest 0
    (src.take (size - 1) ++ List.replicate (size - 1 - src.length) 0) (by simp; omega)
  have hl : (src.take (size - 1) ++ List.replicate (size - 1 - src.length) (0 : UInt8)).length = size - 1 := by
    simp; omega
  rw [hl] at a3 a5
  obtain ⟨d2, b1, b2, b3, b4, b5⟩ := writeAt_take d1 (size - 1) [0] (by simp; omega)
  have hd2 : d2 = src.take (size - 1) ++ List.replicate (size - 1 - src.length) 0 ++ [0] ++ dest.drop size := by
    rw [← List.take_append_drop (size - 1 + 1) d2]
    simp only [List.length_singleton] at b3 b5
    rw [b3, b5]
    rw [Nat.zero_add] at a3
    rw [a3]
    have : d1.drop (size - 1 + 1) = dest.drop size := by
      rw [Nat.zero_add] at a5
      have e : size = (size - 1) + 1 := by omega
      rw [← List.drop_drop, a5, List.drop_drop, ← e]
    rw [this]; simp
  refine ⟨d2, ?_, by omega, ?_, ?_, ?_⟩
  · unfold strscpy strscpyAt
    rw [if_neg (by omega)]
    simp [strncpy, a1, b1]
  · rw [hd2, List.drop_left' (by simp; omega)]
  · unfold strlenAt
    rw [List.drop_zero, hd2]
    have h0 : (0 : UInt8) ∉ src.take (size - 1) := fun h => hsrc (List.mem_of_mem_take h)
    have : ∃ rest, src.take (size - 1) ++ List.replicate (size - 1 - src.length) (0 : UInt8) ++ [0] ++ dest.drop size
        = src.take (size - 1) ++ 0 :: rest := by
      cases hk : size - 1 - src.length with
      | zero => exact ⟨dest.drop size, by simp⟩
      | succ k => exact ⟨List.replicate k 0 ++ 0 :: dest.drop size, by simp [List.replicate_succ]⟩
    obtain ⟨rest, hrest⟩ := this
    rw [hrest, findIdx_zero _ _ h0]
    simp; omega
  · rw [hd2]
    simp only [List.append_assoc]
    rw [List.take_left' (by simp; omega)]

/-- C56: the bounded append keeps the old text, appends as much of the source as fits, always
leaves the result terminated inside `size` bytes and touches nothing behind it. -/
theorem C56_append (dest src old : List UInt8) (size : Nat) (hd : size ≤ dest.length)
    (hold : (0 : UInt8) ∉ old) (tail : List UInt8)
    (hdest : dest = old ++ 0 :: tail) (hfit : old.length < size) :
    ∃ d, strscat dest src size = some d ∧ d.length = dest.length ∧
      d.drop size = dest.drop size ∧
      ∃ rest, d = old ++ src.take (size - old.length - 1) ++ 0 :: rest := by
  unfold strscat
  by_cases hsrc0 : src = []
  · rw [if_pos (Or.inr hsrc0)]
    exact ⟨dest, rfl, rfl, rfl, tail, by rw [hsrc0]; simpa using hdest⟩
  · rw [if_neg (by intro h; rcases h with h | h; omega; exact hsrc0 h)]
    have hl : strlenAt dest 0 = some old.length := by
      unfold strlenAt; rw [List.drop_zero, hdest, findIdx_zero _ _ hold]
    rw [hl]
    simp only [Option.bind_eq_bind, Option.bind_some, hfit, if_true]
    generalize hn : size - old.length = n
    obtain ⟨d1, a1, a2, a3, a4, a5⟩ := writeAt_take dest old.length
      (src.take (n - 1) ++ List.replicate (n - 1 - src.length) 0) (by simp; omega)
    have hl : (src.take (n - 1) ++ List.replicate (n - 1 - src.length) (0 : UInt8)).length = n - 1 := by
      simp; omega
    rw [hl] at a3 a5
    obtain ⟨d2, b1, b2, b3, b4, b5⟩ := writeAt_take d1 (old.length + (n - 1)) [0] (by simp; omega)
    simp only [List.length_singleton] at b3 b5
    have hpre : dest.take old.length = old := by rw [hdest, List.take_left]
    rw [hpre] at a3
    rw [a3] at b3
    have e1 : old.length + (n - 1) + 1 = size := by omega
    rw [e1] at b3 b5
    refine ⟨d2, ?_, by omega, ?_, ?_⟩
    · unfold strscpyAt
      rw [if_neg (by omega)]
      simp [strncpy, a1, b1]
    · rw [b5]
      have : dest.drop size = (dest.drop (old.length + (n - 1))).drop 1 := by
        rw [List.drop_drop, e1]
      rw [this, ← a5, List.drop_drop, e1]
    · have hd2 : d2 = old ++ (src.take (n - 1) ++ List.replicate (n - 1 - src.length) 0) ++ [0] ++ d2.drop size := by
        conv => lhs; rw [← List.take_append_drop size d2, b3]
      cases hk : n - 1 - src.length with
      | zero => exact ⟨d2.drop size, by rw [hk] at hd2; simpa using hd2⟩
      | succ k =>
        refine ⟨List.replicate k 0 ++ 0 :: d2.drop size, ?_⟩
        rw [hk] at hd2
        simpa [List.replicate_succ] using hd2

example : strscpy [1, 1, 1, 1, 9] [65, 66, 67, 68, 69] 4 = some [65, 66, 67, 0, 9] ∧
    strscat [65, 0, 1, 1, 9] [66, 67, 68] 4 = some [65, 66, 67, 0, 9] := by decide +kernel

end Verif.Str
