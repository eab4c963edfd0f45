import Verif.Domain.Model
import Verif.Olsr.ContentLemmas

namespace Verif.Domain
open Verif.Olsr (Domain Domains getByExt getByExt_self processMprtypes)

/-! ### Lists of domains -/

theorem domains_cases {doms : List Domain} (h : Domains doms) :
    (∃ a, doms = [⟨0, a⟩]) ∨ (∃ a b, doms = [⟨0, a⟩, ⟨1, b⟩]) ∨ (∃ a b c, doms = [⟨0, a⟩, ⟨1, b⟩, ⟨2, c⟩]) ∨
      ∃ a b c d, doms = [⟨0, a⟩, ⟨1, b⟩, ⟨2, c⟩, ⟨3, d⟩] := by
  have hi := h.index
  have hf := h.few
  match doms, h.nonempty with
  | [⟨i0, a⟩], _ =>
    have h0 := hi 0 _ rfl
    dsimp only at h0
    subst h0
    exact .inl ⟨a, rfl⟩
  | [⟨i0, a⟩, ⟨i1, b⟩], _ =>
    have h0 := hi 0 _ rfl
    have h1 := hi 1 _ rfl
    dsimp only at h0 h1
    subst h0 h1
    exact .inr (.inl ⟨a, b, rfl⟩)
  | [⟨i0, a⟩, ⟨i1, b⟩, ⟨i2, c⟩], _ =>
    have h0 := hi 0 _ rfl
    have h1 := hi 1 _ rfl
    have h2 := hi 2 _ rfl
    dsimp only at h0 h1 h2
    subst h0 h1 h2
    exact .inr (.inr (.inl ⟨a, b, c, rfl⟩))
  | [⟨i0, a⟩, ⟨i1, b⟩, ⟨i2, c⟩, ⟨i3, d⟩], _ =>
    have h0 := hi 0 _ rfl
    have h1 := hi 1 _ rfl
    have h2 := hi 2 _ rfl
    have h3 := hi 3 _ rfl
    dsimp only at h0 h1 h2 h3
    subst h0 h1 h2 h3
    exact .inr (.inr (.inr ⟨a, b, c, d, rfl⟩))
  | _ :: _ :: _ :: _ :: _ :: _, _ =>
    simp only [List.length_cons] at hf
    omega

/-! ### MPR TLV -/

theorem encodeMpr_eq {doms : List Domain} (h : Domains doms) (flood : Bool) (isMpr : Nat → Bool) :
    ∃ v, encodeMpr doms flood isMpr = [v] ∧ ((v &&& 1) != 0) = flood ∧
      ∀ i, i < 4 → ((v &&& 1 <<< (i + 1)) != 0) = (decide (i < doms.length) && isMpr i) := by
  have four : ∀ (P : Nat → Prop), P 0 → P 1 → P 2 → P 3 → ∀ i, i < 4 → P i := by
    intro P h0 h1 h2 h3 i hi
    match i, hi with
    | 0, _ => exact h0
    | 1, _ => exact h1
    | 2, _ => exact h2
    | 3, _ => exact h3
    | n + 4, hi => omega
  rcases domains_cases h with ⟨a, rfl⟩ | ⟨a, b, rfl⟩ | ⟨a, b, c, rfl⟩ | ⟨a, b, c, d, rfl⟩ <;>
  cases flood <;> cases h0 : isMpr 0 <;> cases h1 : isMpr 1 <;> cases h2 : isMpr 2 <;> cases h3 : isMpr 3 <;>
  simp only [encodeMpr, mprStep, List.foldl, h0, h1, h2, h3] <;>
  exact ⟨_, rfl, by decide, four _ (by rw [h0]; rfl) (by rw [h1]; rfl) (by rw [h2]; rfl) (by rw [h3]; rfl)⟩

theorem mprLoop_eq {doms : List Domain} (h : Domains doms) (v : Nat) (vs : List Nat) (n : Nat) (f : Nat → Bool) :
    ∀ d ∈ doms, mprLoop doms (v :: vs) 0 ((doms.take n).map (·.ext)) f d.index =
      if d.index < n then (v &&& 1 <<< (d.index + 1)) != 0 else f d.index := by
  have hg : ∀ d ∈ doms, getByExt doms d.ext = some d := fun d hd => getByExt_self h hd
  rcases domains_cases h with ⟨a, hd⟩ | ⟨a, b, hd⟩ | ⟨a, b, c, hd⟩ | ⟨a, b, c, d, hd⟩ <;>
  rw [hd] at hg <;> simp only [List.mem_cons, List.not_mem_nil, or_false, forall_eq_or_imp, forall_eq] at hg <;>
  intro e he <;> rw [← hd] at hg <;> (generalize hdoms : doms = D at hg ⊢) <;> rw [hd] at he <;> subst hdoms <;>
  rcases n with _ | _ | _ | _ | n <;> (conv => lhs; arg 4; rw [hd]) <;>
  simp only [List.mem_cons, List.not_mem_nil, or_false] at he <;>
  (try rcases he with rfl | rfl | rfl | rfl) <;> (try rcases he with rfl | rfl | rfl) <;> (try rcases he with rfl | rfl) <;> (try subst he) <;>
  simp [mprLoop, hg, put]

theorem mprLoop_nil (doms : List Domain) (xs : List Nat) : ∀ (i : Nat) (f : Nat → Bool), mprLoop doms [] i xs f = f := by
  induction xs with
  | nil => intro i f; rfl
  | cons x xs ih =>
    intro i f
    unfold mprLoop
    cases getByExt doms x with
    | none => exact ih _ _
    | some d =>
      dsimp only
      rw [if_pos (show (i + 1) / 8 ≥ ([] : List Nat).length from Nat.zero_le _)]
      exact ih _ _

theorem bit_eq (v k : Nat) : ((v &&& 1 <<< k) != 0) = decide (v / 2 ^ k % 2 = 1) := by
  rw [Nat.shiftLeft_eq, Nat.one_mul, ← Nat.testBit_eq_decide_div_mod_eq]
  cases h : Nat.testBit v k with
  | true =>
    rw [bne_iff_ne]
    intro e
    have := congrArg (fun x => Nat.testBit x k) e
    simp [Nat.testBit_and, Nat.testBit_two_pow_self, h] at this
  | false =>
    have : v &&& 2 ^ k = 0 := by
      apply Nat.eq_of_testBit_eq
      intro j
      rw [Nat.testBit_and, Nat.testBit_two_pow, Nat.zero_testBit]
      by_cases e : k = j
      · rw [← e, h]
        rfl
      · rw [decide_eq_false e, Bool.and_false]
    rw [this]
    rfl

theorem clear_eq (doms : List Domain) (f : Nat → Bool) : ∀ d ∈ doms, clear doms f d.index = false := by
  have gen : ∀ (l : List Domain) (f : Nat → Bool) (k : Nat), (f k = false ∨ ∃ d ∈ l, d.index = k) →
      l.foldl (fun f d => put f d.index false) f k = false := by
    intro l
    induction l with
    | nil =>
      intro f k h
      rcases h with h | ⟨d, hd, _⟩
      · exact h
      · cases hd
    | cons e l ih =>
      intro f k h
      rw [List.foldl_cons]
      refine ih _ _ ?_
      rcases h with h | ⟨d, hd, hk⟩
      · left
        unfold put
        split
        · rfl
        · exact h
      · rcases List.mem_cons.1 hd with rfl | hd
        · left
          unfold put
          rw [if_pos hk.symm]
        · exact .inr ⟨d, hd, hk⟩
  exact fun d hd => gen doms f d.index (.inr ⟨d, hd, rfl⟩)

/-! ### Willingness TLV -/

/-- half a byte of a value, the lower half of the first byte has number 0 -/
def nib (v : List Nat) (k : Nat) : Nat := if k % 2 = 0 then v.getD (k / 2) 0 &&& 15 else v.getD (k / 2) 0 >>> 4

theorem getD_default (l : List Nat) (i : Nat) (h : l.length ≤ i) : l.getD i 0 = 0 := by
  rw [List.getD_eq_getElem?_getD, List.getElem?_eq_none h]
  rfl

theorem nibbles (lo hi : Nat) (hlo : lo < 16) (hhi : hi < 16) :
    (lo ||| (hi <<< 4) % 256) &&& 15 = lo ∧ (lo ||| (hi <<< 4) % 256) >>> 4 = hi := by
  have : ∀ a : Fin 16, ∀ b : Fin 16, (a.1 ||| (b.1 <<< 4) % 256) &&& 15 = a.1 ∧ (a.1 ||| (b.1 <<< 4) % 256) >>> 4 = b.1 := by decide +kernel
  exact this ⟨lo, hlo⟩ ⟨hi, hhi⟩

theorem and15 (w : Nat) (h : w < 16) : w &&& 15 = w := by
  have : ∀ a : Fin 16, a.1 &&& 15 = a.1 := by decide
  exact this ⟨w, h⟩

theorem shr15 (w : Nat) (h : w < 16) : w >>> 4 = 0 := by
  have : ∀ a : Fin 16, a.1 >>> 4 = 0 := by decide
  exact this ⟨w, h⟩

theorem encodeWill_eq {doms : List Domain} (h : Domains doms) (flood : Nat) (will : Nat → Nat) (hf : flood < 16) (hw : ∀ i, i < doms.length → will i < 16) :
    ∃ v, encodeWill doms flood will = some v ∧ v.length = doms.length / 2 + 1 ∧ nib v 0 = flood ∧
      (∀ i, i < doms.length → nib v (i + 1) = will i) ∧ ∀ i, doms.length < i → nib v i = 0 := by
  rcases domains_cases h with ⟨a, rfl⟩ | ⟨a, b, rfl⟩ | ⟨a, b, c, rfl⟩ | ⟨a, b, c, d, rfl⟩
  all_goals simp only [List.length_cons, List.length_nil] at hw ⊢
  · have w0 := hw 0 (by omega)
    have n0 := nibbles flood (will 0) hf w0
    refine ⟨[flood ||| (will 0 <<< 4) % 256], by simp [encodeWill, willStep, SIZE, and15 _ w0, List.replicate], rfl, n0.1, ?_, ?_⟩
    · intro i hi
      have : i = 0 := by omega
      subst this
      exact n0.2
    · intro i hi
      unfold nib
      rw [getD_default _ _ (by simp; omega)]
      split <;> rfl
  · have w0 := hw 0 (by omega)
    have w1 := hw 1 (by omega)
    have n0 := nibbles flood (will 0) hf w0
    refine ⟨[flood ||| (will 0 <<< 4) % 256, will 1], by simp [encodeWill, willStep, SIZE, and15 _ w0, and15 _ w1, List.replicate], rfl, n0.1, ?_, ?_⟩
    · intro i hi
      match i, hi with
      | 0, _ => exact n0.2
      | 1, _ => exact and15 _ w1
    · intro i hi
      by_cases h3 : i = 3
      · subst h3
        exact shr15 _ w1
      · unfold nib
        rw [getD_default _ _ (by simp; omega)]
        split <;> rfl
  · have w0 := hw 0 (by omega)
    have w1 := hw 1 (by omega)
    have w2 := hw 2 (by omega)
    have n0 := nibbles flood (will 0) hf w0
    have n1 := nibbles (will 1) (will 2) w1 w2
    refine ⟨[flood ||| (will 0 <<< 4) % 256, will 1 ||| (will 2 <<< 4) % 256],
      by simp [encodeWill, willStep, SIZE, and15 _ w0, and15 _ w1, and15 _ w2, List.replicate], rfl, n0.1, ?_, ?_⟩
    · intro i hi
      match i, hi with
      | 0, _ => exact n0.2
      | 1, _ => exact n1.1
      | 2, _ => exact n1.2
    · intro i hi
      unfold nib
      rw [getD_default _ _ (by simp; omega)]
      split <;> rfl
  · have w0 := hw 0 (by omega)
    have w1 := hw 1 (by omega)
    have w2 := hw 2 (by omega)
    have w3 := hw 3 (by omega)
    have n0 := nibbles flood (will 0) hf w0
    have n1 := nibbles (will 1) (will 2) w1 w2
    refine ⟨[flood ||| (will 0 <<< 4) % 256, will 1 ||| (will 2 <<< 4) % 256, will 3],
      by simp [encodeWill, willStep, SIZE, and15 _ w0, and15 _ w1, and15 _ w2, and15 _ w3, List.replicate], rfl, n0.1, ?_, ?_⟩
    · intro i hi
      match i, hi with
      | 0, _ => exact n0.2
      | 1, _ => exact n1.1
      | 2, _ => exact n1.2
      | 3, _ => exact and15 _ w3
    · intro i hi
      by_cases h5 : i = 5
      · subst h5
        exact shr15 _ w3
      · unfold nib
        rw [getD_default _ _ (by simp; omega)]
        split <;> rfl

theorem willLoop_other (doms : List Domain) (value : List Nat) (k : Nat) (xs : List Nat) :
    ∀ (i : Nat) (f : Nat → Nat), (∀ x ∈ xs, ∀ d, getByExt doms x = some d → d.index ≠ k) → willLoop doms value i xs f k = f k := by
  induction xs with
  | nil => intro i f _; rfl
  | cons x xs ih =>
    intro i f h
    have h' : ∀ x ∈ xs, ∀ d, getByExt doms x = some d → d.index ≠ k := fun y hy => h y (List.mem_cons_of_mem _ hy)
    unfold willLoop
    cases hx : getByExt doms x with
    | none => exact ih _ _ h'
    | some d =>
      dsimp only
      split
      · exact ih _ _ h'
      · rw [ih _ _ h']
        unfold put
        rw [if_neg fun e => h x (List.mem_cons_self ..) d hx e.symm]

theorem willLoop_at {doms : List Domain} (h : Domains doms) (value : List Nat) (d : Domain) (hd : d ∈ doms) (n : Nat) :
    ∀ (i : Nat) (f : Nat → Nat), willLoop doms value i (((doms.drop i).take n).map (·.ext)) f d.index =
      if i ≤ d.index ∧ d.index < i + n ∧ (d.index + 1) / 2 < value.length then nib value (d.index + 1) else f d.index := by
  induction n with
  | zero =>
    intro i f
    rw [if_neg (by omega), List.take_zero]
    rfl
  | succ n ih =>
    intro i f
    by_cases hi : i < doms.length
    · have he : getByExt doms (doms[i]).ext = some doms[i] := getByExt_self h (List.getElem_mem hi)
      have hix : (doms[i]).index = i := h.index i _ (List.getElem?_eq_getElem hi)
      rw [List.drop_eq_getElem_cons hi, List.take_succ_cons, List.map_cons]
      unfold willLoop
      rw [he]
      dsimp only
      rw [hix]
      have hn : d.index = i → nib value (d.index + 1) =
          if i % 2 = 0 then value.getD ((i + 1) / 2) 0 >>> 4 else value.getD ((i + 1) / 2) 0 &&& 15 := by
        intro e
        unfold nib
        rw [e]
        by_cases hp : i % 2 = 0
        · rw [if_neg (by omega), if_pos hp]
        · rw [if_pos (by omega), if_neg hp]
      by_cases hl : (i + 1) / 2 ≥ value.length
      · rw [if_pos hl, ih]
        by_cases hdi : d.index = i
        · rw [if_neg (by omega), if_neg (by rw [hdi]; omega)]
        · by_cases hc : i + 1 ≤ d.index ∧ d.index < i + 1 + n ∧ (d.index + 1) / 2 < value.length
          · rw [if_pos hc, if_pos (by omega)]
          · rw [if_neg hc, if_neg (by omega)]
      · rw [if_neg hl, ih]
        by_cases hdi : d.index = i
        · have hc : i ≤ d.index ∧ d.index < i + (n + 1) ∧ (d.index + 1) / 2 < value.length := by rw [hdi]; omega
          have hc' : ¬ (i + 1 ≤ d.index ∧ d.index < i + 1 + n ∧ (d.index + 1) / 2 < value.length) := by omega
          rw [if_neg hc', if_pos hc, hn hdi]
          unfold put
          rw [if_pos hdi]
        · have hput : put f i (if i % 2 = 0 then value.getD ((i + 1) / 2) 0 >>> 4 else value.getD ((i + 1) / 2) 0 &&& 15) d.index = f d.index := by
            unfold put
            rw [if_neg hdi]
          rw [hput]
          by_cases hc : i + 1 ≤ d.index ∧ d.index < i + 1 + n ∧ (d.index + 1) / 2 < value.length
          · rw [if_pos hc, if_pos (by omega)]
          · rw [if_neg hc, if_neg (by omega)]
    · have hlt := h.lt hd
      rw [List.drop_eq_nil_of_le (by omega), if_neg (by omega)]
      rfl

end Verif.Domain
