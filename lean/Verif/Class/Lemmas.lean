import Verif.Class.Model
/-
Reachable states of a memory class and their invariant.
-/
namespace Verif.Class

/-- What a program does with a class (`obj` bytes, `keep` blocks always kept): registration, unregistration,
allocation with any result of `calloc` that is not a block in use, writing to live objects and freeing
of live objects.  While the class is not registered nothing is allocated or freed; there are fewer
than 2^32 blocks at a time; sizes do not overflow 64 bits. -/
inductive Run (obj keep : Nat) : W → Prop
  | init (w : W) : 0 < obj → obj + 15 < 2 ^ 64 → w.cls = ⟨obj, keep, 0, [], [], 0, 0, 0, 0, false⟩ → w.live = [] → w.nalloc = 0 →
      Run obj keep w
  | add {w : W} : Run obj keep w → w.cls.inTree = false → Run obj keep (add w)
  | remove {w : W} : Run obj keep w → w.cls.inTree = true → Run obj keep (remove w)
  | malloc {w w' : W} (fresh r : Option Nat) : Run obj keep w → w.cls.inTree = true →
      (∀ p, fresh = some p → p ∉ w.live ∧ p ∉ w.cls.free) → w.live.length + w.cls.free.length + 1 < 2 ^ 32 →
      malloc w fresh = some (w', r) → Run obj keep w'
  | free {w w' : W} (p : Nat) : Run obj keep w → w.cls.inTree = true → p ∈ w.live → free w p = some w' → Run obj keep w'
  | write {w : W} (p i : Nat) (x : UInt8) : Run obj keep w → p ∈ w.live → i < w.cls.total →
      Run obj keep { w with mem := fun b j => if b = p ∧ j = i then x else w.mem b j }
  | extAdd {w : W} (e : Nat) : Run obj keep w → w.cls.total + (w.ext e).size + 15 < 2 ^ 64 → Run obj keep (extensionAdd w e).1
  | extRemove {w : W} (e : Nat) : Run obj keep w → Run obj keep (extensionRemove w e)

theorem roundup_spec (n : Nat) (h : n + 15 < 2 ^ 64) : n ≤ roundup n ∧ roundup n < n + 16 ∧ roundup n % 16 = 0 := by
  unfold roundup entity
  rw [Nat.mod_eq_of_lt (by omega)]
  omega

structure Inv (obj keep : Nat) (w : W) : Prop where
  pos : 0 < obj
  size : w.cls.size = obj
  keep : w.cls.minFree = keep
  small : obj + 15 < 2 ^ 64
  nodup : (w.live ++ w.cls.free).Nodup
  lens : w.live.length + w.cls.free.length < 2 ^ 32
  freeSize : w.cls.freeSize = w.cls.free.length
  usage : w.cls.usage = w.live.length
  alloc : w.cls.allocated = w.nalloc % 2 ^ 32
  none : w.nalloc = 0 → w.live = [] ∧ w.cls.free = []
  exts : w.cls.exts.Nodup
  out : w.cls.inTree = false → w.cls.exts = [] ∧ w.cls.free = []
  total : w.cls.inTree = true → obj ≤ w.cls.total ∧ w.cls.total % 16 = 0
  blocks : w.nalloc < 2 ^ 32 → w.cls.inTree = true → ∀ p ∈ w.live ++ w.cls.free, w.cls.total ≤ w.blk p
  blocks0 : ∀ p ∈ w.live ++ w.cls.free, obj ≤ w.blk p ∧ w.blk p % 16 = 0
  inside : ∀ e ∈ w.cls.exts, 0 < (w.ext e).size → obj ≤ (w.ext e).offset ∧ (w.ext e).offset + (w.ext e).size ≤ w.cls.total
  apart : ∀ e ∈ w.cls.exts, ∀ f ∈ w.cls.exts, e ≠ f → 0 < (w.ext e).size → 0 < (w.ext f).size →
    (w.ext e).offset + (w.ext e).size ≤ (w.ext f).offset ∨ (w.ext f).offset + (w.ext f).size ≤ (w.ext e).offset

theorem erase_spec (e : Nat) (l : List Nat) (h : l.Nodup) : ∀ x, x ∈ l.erase e ↔ x ≠ e ∧ x ∈ l := fun _ => h.mem_erase_iff

theorem Inv.extRemove {obj keep : Nat} {w : W} (h : Inv obj keep w) (e : Nat) : Inv obj keep (extensionRemove w e) := by
  unfold extensionRemove
  split
  · have hm := erase_spec e w.cls.exts h.exts
    have hx : ∀ x, x ≠ e → setExt w e { w.ext e with offset := 0 } x = w.ext x := by intro x hx; simp [setExt, hx]
    refine ⟨h.pos, h.size, h.keep, h.small, h.nodup, h.lens, h.freeSize, h.usage, h.alloc, h.none, h.exts.erase e, ?_, h.total, h.blocks, h.blocks0, ?_, ?_⟩
    · intro ho; have := h.out ho; simp [this]
    · intro x hx' hs
      obtain ⟨h1, h2⟩ := (hm x).1 hx'
      simp only [hx x h1] at hs ⊢
      exact h.inside x h2 hs
    · intro x hx' y hy' hne hs ht
      obtain ⟨h1, h2⟩ := (hm x).1 hx'
      obtain ⟨h3, h4⟩ := (hm y).1 hy'
      simp only [hx x h1, hx y h3] at hs ht ⊢
      exact h.apart x h2 y h4 hne hs ht
  · exact h

theorem foldl_remove (obj keep : Nat) : ∀ (l : List Nat) (w : W), Inv obj keep w → w.cls.exts = l →
    Inv obj keep (l.foldl extensionRemove w) ∧ (l.foldl extensionRemove w).cls.exts = [] := by
  intro l
  induction l with
  | nil => intro w h he; exact ⟨h, he⟩
  | cons e l ih =>
    intro w h he
    refine ih _ (h.extRemove e) ?_
    unfold extensionRemove registered
    rw [if_pos (by simp [he])]
    simp [he]

/-- `w` with the class taken out of the tree -/
def off (w : W) : W := { w with cls := { w.cls with inTree := false } }

theorem off_remove (w : W) (e : Nat) : extensionRemove (off w) e = off (extensionRemove w e) := by
  unfold extensionRemove
  by_cases h : registered w e = true
  · rw [if_pos (show registered (off w) e = true from h), if_pos h]; rfl
  · rw [if_neg (show ¬ registered (off w) e = true from h), if_neg h]

theorem off_foldl : ∀ (l : List Nat) (w : W), l.foldl extensionRemove (off w) = off (l.foldl extensionRemove w)
  | [], _ => rfl
  | e :: l, w => by rw [List.foldl_cons, List.foldl_cons, off_remove, off_foldl l]

theorem foldl_free : ∀ (l : List Nat) (w : W), (l.foldl extensionRemove w).cls.free = w.cls.free
  | [], _ => rfl
  | e :: l, w => by rw [List.foldl_cons, foldl_free l]; unfold extensionRemove; split <;> rfl

theorem dec32_eq (n : Nat) (h : 0 < n) (h' : n < 2 ^ 32) : dec32 n = n - 1 := by unfold dec32; rw [if_neg (by omega)]
theorem inc32_eq (n : Nat) (h' : n + 1 < 2 ^ 32) : inc32 n = n + 1 := by unfold inc32; omega

theorem run_inv {obj keep : Nat} {w : W} (h : Run obj keep w) : Inv obj keep w := by
  induction h with
  | init w hp hs hc hl hn =>
    refine ⟨hp, ?_, ?_, hs, ?_, ?_, ?_, ?_, ?_, ?_, ?_, ?_, ?_, ?_, ?_, ?_, ?_⟩ <;> simp [hc, hl, hn]
  | add _ ho ih =>
    obtain ⟨h1, h2⟩ := ih.out ho
    have hf : ∀ w : W, w.cls.free = [] → (add w).cls.free = w.cls.free := by intro w hw; simp [add, hw]
    refine ⟨ih.pos, ih.size, ih.keep, ih.small, ?_, ?_, ?_, ih.usage, ih.alloc, ?_, ?_, ?_, ?_, ?_, ?_, ?_, ?_⟩
    · rw [hf _ h2]; exact ih.nodup
    · rw [hf _ h2]; exact ih.lens
    · rw [hf _ h2]; exact ih.freeSize
    · rw [hf _ h2]; exact ih.none
    · simp [add]
    · intro h; simp [add] at h
    · intro _
      simp only [add, ih.size]
      have := roundup_spec obj ih.small
      exact ⟨this.1, this.2.2⟩
    · intro _ _ p hp
      rw [hf _ h2] at hp
      obtain ⟨h3, h4⟩ := ih.blocks0 p hp
      have := roundup_spec obj ih.small
      simp only [add, ih.size]
      omega
    · rw [hf _ h2]; exact ih.blocks0
    · simp [add]
    · simp [add]
  | @remove w _ ho ih =>
    have key : Inv obj keep { w with cls := { w.cls with free := [], freeSize := 0 } } := by
      have hsub : ∀ p, p ∈ w.live ++ [] → p ∈ w.live ++ w.cls.free := by intro p hp; simp at hp; simp [hp]
      exact ⟨ih.pos, ih.size, ih.keep, ih.small, by simpa using (List.nodup_append.1 ih.nodup).1,
        by have := ih.lens; simp; omega, rfl, ih.usage, ih.alloc, fun h => ⟨(ih.none h).1, rfl⟩, ih.exts, fun h => absurd h (by simp [ho]), ih.total,
        fun h1 h2 p hp => ih.blocks h1 h2 p (hsub p hp), fun p hp => ih.blocks0 p (hsub p hp), ih.inside, ih.apart⟩
    have e : remove w = off (w.cls.exts.foldl extensionRemove { w with cls := { w.cls with free := [], freeSize := 0 } }) := by
      rw [← off_foldl]; rfl
    obtain ⟨k1, k2⟩ := foldl_remove obj keep w.cls.exts _ key rfl
    have k3 := foldl_free w.cls.exts { w with cls := { w.cls with free := [], freeSize := 0 } }
    rw [e]
    exact ⟨k1.pos, k1.size, k1.keep, k1.small, k1.nodup, k1.lens, k1.freeSize, k1.usage, k1.alloc, k1.none, k1.exts,
      fun _ => ⟨k2, k3⟩, fun h => absurd h (by simp [off]), fun _ h => absurd h (by simp [off]), k1.blocks0, k1.inside, k1.apart⟩
  | @malloc w w' fresh r _ ho hf hb he ih =>
    unfold Class.malloc at he
    simp only at he
    cases hfr : w.cls.free with
    | nil =>
      rw [hfr] at he
      simp only at he
      cases fresh with
      | none =>
        simp only [Option.some.injEq, Prod.mk.injEq] at he
        obtain ⟨rfl, _⟩ := he
        exact ih
      | some p =>
        simp only [Option.some.injEq, Prod.mk.injEq] at he
        obtain ⟨rfl, _⟩ := he
        obtain ⟨hp1, hp2⟩ := hf p rfl
        have hlens := ih.lens
        rw [hfr] at hb
        simp only [List.length_nil] at hb
        have hnd := ih.nodup
        rw [hfr, List.append_nil] at hnd
        have ht := ih.total ho
        refine ⟨ih.pos, ih.size, ih.keep, ih.small, ?_, ?_, by simpa [hfr] using ih.freeSize, ?_, ?_, ?_, ih.exts, fun h => absurd h (by simp [ho]), ih.total, ?_, ?_, ih.inside, ih.apart⟩
        · simp only [List.append_nil]; exact List.nodup_cons.2 ⟨hp1, hnd⟩
        · simp only [List.length_cons, List.length_nil]; omega
        · simp only [ih.usage, List.length_cons]; rw [inc32_eq _ (by omega)]
        · simp only [ih.alloc]; unfold inc32; omega
        · intro h; simp at h
        · intro hn _ q hq
          simp only [List.append_nil] at hq ⊢
          by_cases hqp : q = p
          · simp [hqp]
          · simp only [if_neg hqp]
            have hn' : w.nalloc + 1 < 2 ^ 32 := hn
            exact ih.blocks (by omega) ho q (by simp [hfr]; exact (List.mem_cons.1 hq).resolve_left hqp)
        · intro q hq
          simp only [List.append_nil] at hq ⊢
          by_cases hqp : q = p
          · simp only [if_pos hqp]; exact ht
          · simp only [if_neg hqp]
            exact ih.blocks0 q (by simp [hfr]; exact (List.mem_cons.1 hq).resolve_left hqp)
    | cons p rest =>
      rw [hfr] at he
      simp only at he
      split at he
      · simp at he
      · simp only [Option.some.injEq, Prod.mk.injEq] at he
        obtain ⟨rfl, _⟩ := he
        have hlens := ih.lens
        rw [hfr] at hlens
        simp only [List.length_cons] at hlens
        have hnd := ih.nodup
        rw [hfr] at hnd
        have hmem : ∀ q, q ∈ (p :: w.live) ++ rest → q ∈ w.live ++ w.cls.free := by
          intro q hq; rw [hfr]; simp at hq ⊢; rcases hq with h | h | h <;> simp [h]
        refine ⟨ih.pos, ih.size, ih.keep, ih.small, ?_, ?_, ?_, ?_, ih.alloc, ?_, ih.exts, ?_, ih.total, ?_, ?_, ih.inside, ih.apart⟩
        · exact List.perm_middle.nodup_iff.1 hnd
        · simp only [List.length_cons]; omega
        · simp only [ih.freeSize, hfr, List.length_cons]; rw [dec32_eq _ (by omega) (by omega)]; omega
        · simp only [ih.usage, List.length_cons]; rw [inc32_eq _ (by omega)]
        · intro h; have := (ih.none h).2; rw [hfr] at this; simp at this
        · intro h; have h' : w.cls.inTree = false := h; rw [ho] at h'; simp at h'
        · intro hn ht q hq; exact ih.blocks hn ht q (hmem q hq)
        · intro q hq; exact ih.blocks0 q (hmem q hq)
  | @free w w' p _ ho hp he ih =>
    unfold Class.free at he
    simp only at he
    have hlens := ih.lens
    have hlen : (w.live.erase p).length = w.live.length - 1 := List.length_erase_of_mem hp
    have hpos := List.length_pos_of_mem hp
    have hperm : (p :: w.live.erase p).Perm w.live := (List.perm_cons_erase hp).symm
    have hnd := ih.nodup
    have hnd' : ((p :: w.live.erase p) ++ w.cls.free).Nodup := (hperm.append_right _).nodup_iff.2 hnd
    have hn0 : w.nalloc ≠ 0 := fun h => by have := (ih.none h).1; rw [this] at hp; simp at hp
    have hdec := dec32_eq w.live.length (by omega) (by omega)
    by_cases hc : w.cls.freeSize < w.cls.minFree ∨ w.cls.freeSize < w.cls.usage / 10
    · rw [if_pos hc] at he
      by_cases hc2 : w.blk p < entity
      · rw [if_pos hc2] at he; simp at he
      · rw [if_neg hc2] at he
        simp only [Option.some.injEq] at he
        subst he
        have hmem : ∀ q, q ∈ w.live.erase p ++ (w.cls.free ++ [p]) → q ∈ w.live ++ w.cls.free := by
          intro q hq
          simp only [List.mem_append, List.mem_singleton] at hq ⊢
          rcases hq with h | h | h
          · exact Or.inl (List.mem_of_mem_erase h)
          · exact Or.inr h
          · rw [h]; exact Or.inl hp
        refine ⟨ih.pos, ih.size, ih.keep, ih.small, ?_, ?_, ?_, ?_, ih.alloc, fun h => absurd (show w.nalloc = 0 from h) hn0, ih.exts, ?_, ih.total, ?_, ?_, ih.inside, ih.apart⟩
        · have : (w.live.erase p ++ (w.cls.free ++ [p])).Perm ((p :: w.live.erase p) ++ w.cls.free) := by
            rw [← List.append_assoc]
            exact List.perm_append_singleton p _
          exact this.nodup_iff.2 hnd'
        · simp only [List.length_append, List.length_singleton]; omega
        · simp only [ih.freeSize, List.length_append, List.length_singleton]; rw [inc32_eq _ (by omega)]
        · show dec32 w.cls.usage = (w.live.erase p).length; rw [ih.usage, hdec, hlen]
        · intro h; have h' : w.cls.inTree = false := h; rw [ho] at h'; simp at h'
        · intro hn ht q hq; exact ih.blocks hn ht q (hmem q hq)
        · intro q hq; exact ih.blocks0 q (hmem q hq)
    · rw [if_neg hc] at he
      simp only [Option.some.injEq] at he
      subst he
      have hmem : ∀ q, q ∈ w.live.erase p ++ w.cls.free → q ∈ w.live ++ w.cls.free := by
        intro q hq
        simp only [List.mem_append] at hq ⊢
        exact hq.imp_left List.mem_of_mem_erase
      refine ⟨ih.pos, ih.size, ih.keep, ih.small, ?_, ?_, ih.freeSize, ?_, ih.alloc, fun h => absurd (show w.nalloc = 0 from h) hn0, ih.exts, ih.out, ih.total, ?_, ?_, ih.inside, ih.apart⟩
      · exact (List.nodup_cons.1 hnd').2
      · show (w.live.erase p).length + w.cls.free.length < 2 ^ 32; omega
      · show dec32 w.cls.usage = (w.live.erase p).length; rw [ih.usage, hdec, hlen]
      · intro hn ht q hq; exact ih.blocks hn ht q (hmem q hq)
      · intro q hq; exact ih.blocks0 q (hmem q hq)
  | write p i x _ _ _ ih =>
    exact ⟨ih.pos, ih.size, ih.keep, ih.small, ih.nodup, ih.lens, ih.freeSize, ih.usage, ih.alloc, ih.none, ih.exts, ih.out, ih.total, ih.blocks, ih.blocks0, ih.inside, ih.apart⟩
  | @extAdd w e _ hs ih =>
    unfold extensionAdd
    by_cases h1 : registered w e = true
    · rw [if_pos h1]; exact ih
    rw [if_neg h1]
    by_cases h2 : ¬ w.cls.inTree = true
    · rw [if_pos h2]; exact ih
    rw [if_neg h2]
    by_cases h3 : w.cls.allocated ≠ 0 ∧ (w.ext e).size > 0
    · rw [if_pos h3]; exact ih
    rw [if_neg h3]
    simp only
    have hin : w.cls.inTree = true := Decidable.not_not.1 h2
    have he : e ∉ w.cls.exts := by simpa [registered] using h1
    have hexts : (w.cls.exts ++ [e]).Nodup := by
      rw [List.nodup_append]; exact ⟨ih.exts, by simp, by intro a ha b hb; simp at hb; subst hb; exact fun h => he (h ▸ ha)⟩
    by_cases h4 : (w.ext e).size > 0
    · rw [if_pos h4]
      have ha : w.cls.allocated = 0 := by
        apply Decidable.byContradiction; intro h; exact h3 ⟨h, h4⟩
      obtain ⟨r1, r2, r3⟩ := roundup_spec (w.cls.total + (w.ext e).size) hs
      obtain ⟨t1, t2⟩ := ih.total hin
      have hx : ∀ x, x ≠ e → setExt w e { w.ext e with offset := w.cls.total } x = w.ext x := by intro x hx; simp [setExt, hx]
      have hxe : setExt w e { w.ext e with offset := w.cls.total } e = { w.ext e with offset := w.cls.total } := by simp [setExt]
      have hsub : ∀ p, p ∈ w.live ++ [] → p ∈ w.live ++ w.cls.free := by intro p hp; simp at hp; simp [hp]
      refine ⟨ih.pos, ih.size, ih.keep, ih.small, by simpa [freeFreelist] using (List.nodup_append.1 ih.nodup).1, ?_, rfl, ih.usage, ih.alloc,
        fun h => ⟨(ih.none h).1, rfl⟩, hexts, ?_, ?_, ?_, fun p hp => ih.blocks0 p (hsub p hp), ?_, ?_⟩
      · have := ih.lens; simp [freeFreelist]; omega
      · intro h; have h' : w.cls.inTree = false := h; rw [hin] at h'; simp at h'
      · intro _; simp only [freeFreelist]; omega
      · intro hn _ p hp
        have hn' : w.nalloc < 2 ^ 32 := hn
        have h0 : w.nalloc = 0 := by have := ih.alloc; omega
        have hp' : p ∈ w.live ++ [] := hp
        rw [(ih.none h0).1] at hp'
        simp at hp'
      · intro x hxm hxs
        simp only [freeFreelist, List.mem_append, List.mem_singleton] at hxm hxs ⊢
        by_cases hxe' : x = e
        · subst hxe'
          simp only [hxe]
          omega
        · simp only [hx x hxe'] at hxs ⊢
          have := ih.inside x (hxm.resolve_right hxe') hxs
          omega
      · intro x hxm y hym hne hxs hys
        simp only [freeFreelist, List.mem_append, List.mem_singleton] at hxm hym hxs hys ⊢
        by_cases hxe' : x = e
        · subst hxe'
          have hy := hx y (Ne.symm hne)
          simp only [hxe, hy] at hys ⊢
          have := ih.inside y (hym.resolve_right (Ne.symm hne)) hys
          omega
        · simp only [hx x hxe'] at hxs ⊢
          by_cases hye : y = e
          · subst hye
            simp only [hxe]
            have := ih.inside x (hxm.resolve_right hxe') hxs
            omega
          · simp only [hx y hye] at hys ⊢
            exact ih.apart x (hxm.resolve_right hxe') y (hym.resolve_right hye) hne hxs hys
    · rw [if_neg h4]
      refine ⟨ih.pos, ih.size, ih.keep, ih.small, ih.nodup, ih.lens, ih.freeSize, ih.usage, ih.alloc, ih.none, hexts, ?_, ih.total, ih.blocks, ih.blocks0, ?_, ?_⟩
      · intro h; have h' : w.cls.inTree = false := h; rw [hin] at h'; simp at h'
      · intro x hxm hxs
        simp only [List.mem_append, List.mem_singleton] at hxm
        rcases hxm with hxm | hxm
        · exact ih.inside x hxm hxs
        · subst hxm; exact absurd hxs h4
      · intro x hxm y hym hne hxs hys
        simp only [List.mem_append, List.mem_singleton] at hxm hym
        rcases hxm with hxm | hxm
        · rcases hym with hym | hym
          · exact ih.apart x hxm y hym hne hxs hys
          · subst hym; exact absurd hys h4
        · subst hxm; exact absurd hxs h4
  | extRemove e _ ih => exact ih.extRemove e

end Verif.Class
