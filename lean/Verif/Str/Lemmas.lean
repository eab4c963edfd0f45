import Verif.Str.Model
/-
Helper lemmas for hexadecimal text, string arrays, words and bounded copies.
-/
namespace Verif.Str

/-! ## bytes -/

theorem forall_u8 {P : UInt8 → Prop} (h : ∀ n : Fin 256, P (UInt8.ofNat n.val)) : ∀ b, P b := by
  intro b
  have := h ⟨b.toNat, b.toNat_lt⟩
  simpa using this

/-! ## hexadecimal text -/

theorem hex_digit_value : ∀ b : UInt8,
    hexcharToValue (hexLower.getD (b >>> 4).toNat 0) = some (b.toNat / 16) ∧
    hexcharToValue (hexLower.getD (b &&& 0x0f).toNat 0) = some (b.toNat % 16) ∧
    UInt8.ofNat ((b.toNat / 16) <<< 4 ||| (b.toNat % 16)) = b ∧
    hexLower.getD (b >>> 4).toNat 0 ≠ 0 ∧ hexLower.getD (b &&& 0x0f).toNat 0 ≠ 0 := by
  apply forall_u8
  decide +kernel

theorem hexLoop_length (src : List UInt8) : (hexLoop src).length = 2 * src.length := by
  induction src with
  | nil => rfl
  | cons b bs ih => simp only [hexLoop, List.length_cons, ih]; omega

theorem unhex_hex (src : List UInt8) : unhexLoop (hexLoop src) = (src, true) := by
  induction src with
  | nil => rfl
  | cons b bs ih =>
    obtain ⟨h1, h2, h3, _⟩ := hex_digit_value b
    simp only [hexLoop, unhexLoop, h1, h2, ih, h3]

theorem unhexLoop_length (src : List UInt8) : (unhexLoop src).1.length ≤ src.length / 2 := by
  fun_induction unhexLoop src with
  | case1 c1 c2 cs v1 v2 h2 h1 bs ok heq ih =>
    simp only [heq] at ih
    simp only [List.length_cons]; omega
  | case2 => simp
  | case3 => simp

/-! ## memory blocks -/

theorem memsize_ge (n : Nat) : n ≤ memsize n := by unfold memsize; omega

theorem realloc_length (junk : UInt8) (v : Option (List UInt8)) (n : Nat) :
    (realloc junk v n).length = n := by
  simp [realloc]; omega

theorem realloc_take (junk : UInt8) (v : Option (List UInt8)) (n k : Nat) (h1 : k ≤ n)
    (h2 : k ≤ (v.getD []).length) : (realloc junk v n).take k = (v.getD []).take k := by
  unfold realloc
  rw [List.take_append_of_le_length (by simp; omega), List.take_take]
  congr 1; omega

/-! ## the flat representation of a list of strings -/

/-- strings stored one behind the other, each with its terminating zero byte -/
def flat (L : List (List UInt8)) : List UInt8 := L.flatMap (fun s => s ++ [0])

theorem flat_nil : flat [] = [] := rfl
theorem flat_cons (s : List UInt8) (L) : flat (s :: L) = s ++ [0] ++ flat L := by simp [flat]
theorem flat_append (L M) : flat (L ++ M) = flat L ++ flat M := by simp [flat]
theorem flat_eq_nil {L} : flat L = [] ↔ L = [] := by
  cases L <;> simp [flat]

/-- first zero byte behind a zero-free string -/
theorem findIdx_zero (s rest : List UInt8) (hs : (0 : UInt8) ∉ s) :
    (s ++ 0 :: rest).findIdx? (· == 0) = some s.length := by
  induction s with
  | nil => simp [List.findIdx?_cons]
  | cons c cs ih =>
    have hc : c ≠ 0 := fun h => hs (by simp [h])
    have := ih (fun h => hs (List.mem_cons_of_mem _ h))
    simp [List.findIdx?_cons, hc, this]

/-- the array `a` stores exactly the list of strings `L` -/
structure Rep (a : Arr) (L : List (List UInt8)) : Prop where
  clean : ∀ s ∈ L, (0 : UInt8) ∉ s
  len : a.length = (flat L).length
  empty : a.value = none ↔ L = []
  room : a.length ≤ (a.value.getD []).length
  bytes : (a.value.getD []).take a.length = flat L

theorem strlenAt_mid (block : List UInt8) (P : List (List UInt8)) (s : List UInt8)
    (S : List (List UInt8)) (n : Nat) (hs : (0 : UInt8) ∉ s)
    (hb : block.take n = flat (P ++ s :: S)) :
    strlenAt block (flat P).length = some s.length ∧
      (block.drop (flat P).length).take s.length = s := by
  have h1 : block = flat P ++ (s ++ 0 :: (flat S ++ block.drop n)) := by
    conv => lhs; rw [← List.take_append_drop n block, hb, flat_append, flat_cons]
    simp
  unfold strlenAt
  constructor
  · conv => lhs; rw [h1]
    rw [List.drop_left, findIdx_zero _ _ hs]
  · conv => lhs; rw [h1]
    rw [List.drop_left, List.take_left]

/-- offsets of the strings of a list -/
def offsets : Nat → List (List UInt8) → List Nat
  | _, [] => []
  | n, s :: L => n :: offsets (n + (s.length + 1)) L

theorem offsets_length (n : Nat) (L) : (offsets n L).length = L.length := by
  induction L generalizing n with
  | nil => rfl
  | cons s L ih => simp [offsets, ih]

theorem offsets_getElem (L : List (List UInt8)) (n i : Nat) (h : i < L.length) :
    (offsets n L)[i]? = some (n + (flat (L.take i)).length) := by
  induction L generalizing n i with
  | nil => simp at h
  | cons s L ih =>
    cases i with
    | zero => simp [offsets, flat_nil]
    | succ i =>
      simp only [offsets, List.getElem?_cons_succ]
      rw [ih _ _ (by simpa using h)]
      simp [flat_cons]; omega

theorem forEach_spec (block : List UInt8) (S P : List (List UInt8)) (fuel : Nat)
    (n : Nat) (hn : n = (flat (P ++ S)).length)
    (hc : ∀ s ∈ S, (0 : UInt8) ∉ s) (hb : block.take n = flat (P ++ S))
    (hf : S.length ≤ fuel) :
    forEach block n fuel (flat P).length = .ok (offsets (flat P).length S) := by
  induction S generalizing P fuel with
  | nil =>
    simp only [List.append_nil] at hn
    cases fuel <;> simp [forEach, offsets, hn]
  | cons s S ih =>
    cases fuel with
    | zero => simp at hf
    | succ fuel =>
      have hlt : (flat P).length < n := by rw [hn, flat_append, flat_cons]; simp; omega
      obtain ⟨h1, _⟩ := strlenAt_mid block P s S n (hc s (by simp)) hb
      have e1 : (flat P).length + (s.length + 1) = (flat (P ++ [s])).length := by
        rw [flat_append, flat_cons]; simp [flat_nil]
      have e2 : P ++ s :: S = (P ++ [s]) ++ S := by simp
      simp only [forEach, hlt, if_true, h1, offsets]
      rw [e1, ih (P ++ [s]) fuel (by rw [← e2]; exact hn) (fun t ht => hc t (by simp [ht]))
        (by rw [← e2]; exact hb) (by simpa using hf)]

theorem flat_length_ge (L : List (List UInt8)) : L.length ≤ (flat L).length := by
  induction L with
  | nil => simp
  | cons s L ih => rw [flat_cons]; simp; omega

theorem elements_spec {a : Arr} {L} (h : Rep a L) : arrElements a = .ok (offsets 0 L) := by
  unfold arrElements
  cases hv : a.value with
  | none =>
    have := h.empty.1 hv
    subst this; rfl
  | some block =>
    simp only
    have hb := h.bytes
    rw [hv] at hb
    have := forEach_spec block L [] a.length a.length (by simpa using h.len) h.clean
      (by simpa using hb) (by rw [h.len]; exact flat_length_ge L)
    simpa [flat_nil] using this

/-- writing the tail of a block -/
theorem writeAt_take (block : List UInt8) (off : Nat) (data : List UInt8)
    (h : off + data.length ≤ block.length) :
    ∃ b, writeAt block off data = some b ∧ b.length = block.length ∧
      b.take (off + data.length) = block.take off ++ data ∧
      (∀ k ≤ off, b.take k = block.take k) ∧
      b.drop (off + data.length) = block.drop (off + data.length) := by
  refine ⟨block.take off ++ data ++ block.drop (off + data.length), by simp [writeAt, h], ?_, ?_, ?_, ?_⟩
  · simp; omega
  · rw [List.take_left' (by simp; omega)]
  · intro k hk
    rw [List.append_assoc, List.take_append_of_le_length (by simp; omega), List.take_take]
    congr 1; omega
  · rw [List.drop_left' (by simp; omega)]

/-! ## words -/

theorem dropWhile_all {α} (p : α → Bool) (l : List α) (h : ∀ x ∈ l, p x = true) (r : List α) :
    (l ++ r).dropWhile p = r.dropWhile p := by
  induction l with
  | nil => rfl
  | cons x xs ih =>
    have hx := h x (by simp)
    simp only [List.cons_append, List.dropWhile_cons, hx, if_true]
    exact ih (fun y hy => h y (by simp [hy]))

theorem dropWhile_head {α} (p : α → Bool) (l : List α) (h : ∀ x ∈ l.head?, p x = false) :
    l.dropWhile p = l := by
  cases l with
  | nil => rfl
  | cons x xs =>
    have := h x (by simp)
    simp [this]

end Verif.Str
