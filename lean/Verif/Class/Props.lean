import Verif.Class.Lemmas
/-
Properties C29 and C30 of the memory classes.
-/
namespace Verif.Class

/-! ### C29 -/

/-- C29: in every reachable state (fewer than 2^32 blocks requested from the system so far), for every
object in use, the area of a registered extension lies inside the object, behind the base object,
and apart from the areas of all other registered extensions. -/
theorem C29_areas_partial {obj keep : Nat} {w : W} (h : Run obj keep w) (hn : w.nalloc < 2 ^ 32) (hin : w.cls.inTree = true)
    (p e : Nat) (hp : p ∈ w.live) (he : e ∈ w.cls.exts) (hs : 0 < (w.ext e).size) :
    p + obj ≤ getExtension w e p ∧ getExtension w e p + (w.ext e).size ≤ p + w.blk p ∧
    ∀ f ∈ w.cls.exts, f ≠ e → 0 < (w.ext f).size →
      getExtension w e p + (w.ext e).size ≤ getExtension w f p ∨ getExtension w f p + (w.ext f).size ≤ getExtension w e p := by
  have hi := run_inv h
  have h1 := hi.inside e he hs
  have h2 := hi.blocks hn hin p (by simp [hp])
  unfold getExtension
  refine ⟨by omega, by omega, fun f hf hne hfs => ?_⟩
  rcases hi.apart e he f hf (Ne.symm hne) hs hfs with h3 | h3
  · left; omega
  · right; omega

/-- C29: an extension with memory is refused while objects are in use, and the class stays as it is. -/
theorem C29_refused_partial {obj keep : Nat} {w : W} (h : Run obj keep w) (hn : w.nalloc < 2 ^ 32) (e : Nat)
    (he : e ∉ w.cls.exts) (hs : 0 < (w.ext e).size) (hl : w.live ≠ []) : extensionAdd w e = (w, -1) := by
  have hi := run_inv h
  have ha : w.cls.allocated ≠ 0 := by
    intro h0
    have := hi.alloc
    exact hl (hi.none (by omega)).1
  unfold extensionAdd
  rw [if_neg (by simpa [registered] using he)]
  split
  · rfl
  · rw [if_pos ⟨ha, hs⟩]

/-- C29: otherwise a registered class accepts the extension, and no other extension moves. -/
theorem C29_accepted {obj keep : Nat} {w : W} (h : Run obj keep w) (e : Nat) (hin : w.cls.inTree = true)
    (hl : w.nalloc = 0 ∨ (w.ext e).size = 0) :
    (extensionAdd w e).2 = 0 ∧ e ∈ (extensionAdd w e).1.cls.exts ∧
    ∀ f, f ≠ e → (f ∈ (extensionAdd w e).1.cls.exts ↔ f ∈ w.cls.exts) ∧ (extensionAdd w e).1.ext f = w.ext f := by
  have hi := run_inv h
  have h3 : ¬ (w.cls.allocated ≠ 0 ∧ (w.ext e).size > 0) := by
    rintro ⟨h1, h2⟩
    have := hi.alloc
    rcases hl with hl | hl
    · rw [hl] at this; exact h1 this
    · omega
  unfold extensionAdd
  by_cases hr : registered w e = true
  · rw [if_pos hr]
    exact ⟨rfl, by simpa [registered] using hr, fun f _ => ⟨Iff.rfl, rfl⟩⟩
  · rw [if_neg hr, if_neg (by simp [hin]), if_neg h3]
    simp only
    split
    · refine ⟨rfl, by simp [freeFreelist], fun f hf => ⟨by simp [freeFreelist, hf], by simp [setExt, hf]⟩⟩
    · refine ⟨rfl, by simp, fun f hf => ⟨by simp [hf], rfl⟩⟩

/-- two extensions and one object -/
def demo0 : W := ⟨⟨20, 1, 0, [], [], 0, 0, 0, 0, false⟩, fun i => ⟨10 * i, 0⟩, fun _ _ => 0, fun _ => 0, [], 0⟩
def demo1 : W := (extensionAdd (extensionAdd (add demo0) 3).1 1).1

theorem demo1_run : Run 20 1 demo1 :=
  .extAdd 1 (.extAdd 3 (.add (.init demo0 (by decide) (by decide) rfl rfl rfl) rfl) (by decide)) (by decide)

example : ∃ w, malloc demo1 (some 4096) = some (w, some 4096) ∧ Run 20 1 w ∧ w.live = [4096] ∧ w.cls.exts = [3, 1] ∧
    w.ext 3 = ⟨30, 32⟩ ∧ w.ext 1 = ⟨10, 64⟩ ∧ w.blk 4096 = 80 ∧ (extensionAdd w 2).2 = -1 := by
  refine ⟨_, rfl, .malloc (some 4096) _ demo1_run rfl ?_ (by decide) rfl, rfl, rfl, rfl, rfl, rfl, rfl⟩
  intro p hp
  exact ⟨List.not_mem_nil, List.not_mem_nil⟩

/-- a class of 16 byte objects that keeps no freed block, after `n` allocations each freed at once -/
def cycled (n : Nat) : W :=
  ⟨⟨16, 0, 16, [], [], 0, 0, n % 2 ^ 32, 0, true⟩, fun _ => ⟨8, 0⟩, fun _ _ => 0, fun b => if b = 0 ∧ 0 < n then 16 else 0, [], n⟩

theorem cycled_run : ∀ n, Run 16 0 (cycled n)
  | 0 => by
    have : cycled 0 = add ⟨⟨16, 0, 0, [], [], 0, 0, 0, 0, false⟩, fun _ => ⟨8, 0⟩, fun _ _ => 0, fun _ => 0, [], 0⟩ := by
      simp [cycled, add, roundup, entity]
    rw [this]
    exact .add (.init _ (by decide) (by decide) rfl rfl rfl) rfl
  | n + 1 => by
    have h := cycled_run n
    have h1 := Run.malloc (w := cycled n) (some 0) _ h rfl (by intro p _; simp [cycled]) (by simp [cycled]) rfl
    refine .free 0 h1 rfl (by simp) ?_
    unfold free
    simp [cycled, inc32, dec32]
    funext b
    split
    · simp
    · rename_i hb; simp [hb]

/-- The bound on allocations is needed: after 2^32 allocations from the system the counter of allocations
is zero again, and the class is extended although an object is in use; the area of the extension
lies behind the end of that object. -/
theorem C29_counterexample : ∃ w, Run 16 0 w ∧ w.live = [0] ∧ (extensionAdd w 0).2 = 0 ∧
    Run 16 0 (extensionAdd w 0).1 ∧ (extensionAdd w 0).1.live = [0] ∧
    (extensionAdd w 0).1.blk 0 < getExtension (extensionAdd w 0).1 0 0 + ((extensionAdd w 0).1.ext 0).size := by
  have h := Run.malloc (w := cycled (2 ^ 32 - 1)) (some 0) _ (cycled_run _) rfl (by intro p _; simp [cycled]) (by simp [cycled]) rfl
  refine ⟨_, h, rfl, ?_, .extAdd 0 h ?_, ?_, ?_⟩
  · simp [extensionAdd, registered, cycled, inc32]
  · simp [cycled]
  · simp [extensionAdd, registered, cycled, inc32, freeFreelist]
  · simp [extensionAdd, registered, cycled, inc32, freeFreelist, getExtension, setExt]

/-! ### C30 -/

/-- C30: the counters of a class are the real numbers of blocks in use and in the free list, no block is
both or twice in a list. -/
theorem C30_counters {obj keep : Nat} {w : W} (h : Run obj keep w) :
    w.cls.usage = w.live.length ∧ w.cls.freeSize = w.cls.free.length ∧ (w.live ++ w.cls.free).Nodup :=
  ⟨(run_inv h).usage, (run_inv h).freeSize, (run_inv h).nodup⟩

/-- C30: an allocation does not touch memory outside of blocks; a block handed out was not in use, is at
least as large as the class demands and filled with zeros, all other objects in use keep their
contents; an allocation fails only if the free list is empty and the system has no memory. -/
theorem C30_malloc_partial {obj keep : Nat} {w : W} (h : Run obj keep w) (hn : w.nalloc < 2 ^ 32) (hin : w.cls.inTree = true)
    (fresh : Option Nat) (hf : ∀ p, fresh = some p → p ∉ w.live ∧ p ∉ w.cls.free) :
    ∃ w' r, malloc w fresh = some (w', r) ∧
      (r = none → w' = w ∧ fresh = none ∧ w.cls.free = []) ∧
      (∀ p, r = some p → p ∉ w.live ∧ w'.live = p :: w.live ∧ w.cls.total ≤ w'.blk p ∧ (∀ i, i < w.cls.total → w'.mem p i = 0) ∧
        ∀ q ∈ w.live, w'.mem q = w.mem q ∧ w'.blk q = w.blk q) := by
  have hi := run_inv h
  unfold malloc
  simp only
  cases hfr : w.cls.free with
  | nil =>
    cases fresh with
    | none => exact ⟨w, none, rfl, fun _ => ⟨rfl, rfl, rfl⟩, fun p hp => by simp at hp⟩
    | some p =>
      obtain ⟨h1, h2⟩ := hf p rfl
      refine ⟨_, _, rfl, fun hp => by simp at hp, fun q hq => ?_⟩
      obtain rfl := Option.some.inj hq
      refine ⟨h1, rfl, by simp, by simp, fun q hq => ?_⟩
      have : q ≠ p := fun he => h1 (he ▸ hq)
      exact ⟨by funext i; simp [this], by simp [this]⟩
  | cons p rest =>
    have hb := hi.blocks hn hin p (by simp [hfr])
    simp only
    rw [if_neg (by omega)]
    refine ⟨_, _, rfl, fun hp => by simp at hp, fun q hq => ?_⟩
    obtain rfl := Option.some.inj hq
    have hnd := hi.nodup
    rw [hfr] at hnd
    have h1 : p ∉ w.live := by
      intro hm
      exact (List.nodup_append.1 hnd).2.2 p hm p (by simp) rfl
    refine ⟨h1, rfl, hb, fun i hlt => by simp [hlt], fun q hq => ?_⟩
    have : q ≠ p := fun he => h1 (he ▸ hq)
    exact ⟨by funext i; simp [this], rfl⟩

/-- C30: freeing an object never writes behind its block, ends its use, leaves all other objects alone;
the block is kept for reuse only while fewer blocks than the minimum, or than a tenth of the blocks
in use, are in the free list. -/
theorem C30_free {obj keep : Nat} {w : W} (h : Run obj keep w) (p : Nat) (hp : p ∈ w.live) :
    ∃ w', free w p = some w' ∧ (∀ q, q ∈ w'.live ↔ q ∈ w.live ∧ q ≠ p) ∧ (∀ q ∈ w'.live, w'.mem q = w.mem q ∧ w'.blk q = w.blk q) ∧
      (if w.cls.free.length < keep ∨ w.cls.free.length < w.live.length / 10 then w'.cls.free = w.cls.free ++ [p]
       else w'.cls.free = w.cls.free) ∧
      (w'.cls.free.length ≤ w.cls.free.length ∨ w'.cls.free.length ≤ max keep (w.live.length / 10)) := by
  have hi := run_inv h
  have hb := hi.blocks0 p (by simp [hp])
  have hpos := hi.pos
  have hnd := (List.nodup_append.1 hi.nodup).1
  unfold free
  simp only [hi.freeSize, hi.keep, hi.usage]
  by_cases hc : w.cls.free.length < keep ∨ w.cls.free.length < w.live.length / 10
  · simp only [if_pos hc]
    rw [if_neg (by unfold entity; omega)]
    refine ⟨_, rfl, fun q => by rw [hnd.mem_erase_iff, And.comm], fun q hq => ?_, rfl, ?_⟩
    · have hne := (hnd.mem_erase_iff.1 hq).1
      exact ⟨by funext i; simp [hne], rfl⟩
    · right; simp; omega
  · simp only [if_neg hc]
    exact ⟨_, rfl, fun q => by rw [hnd.mem_erase_iff, And.comm], fun q _ => ⟨rfl, rfl⟩, rfl, Or.inl (Nat.le_refl _)⟩

/-- an object allocated, written, freed and allocated again -/
def demo2 : Option (W × Option Nat) :=
  (malloc demo1 (some 4096)).bind fun (w, _) =>
    (free { w with mem := fun b j => if b = 4096 ∧ j = 40 then 7 else w.mem b j } 4096).bind fun w =>
      malloc w (some 5000)

example : demo2.map (fun r => (r.2, r.1.live, r.1.cls.usage, r.1.cls.recycled, r.1.mem 4096 40)) = some (some 4096, [4096], 1, 1, 0) := by
  decide +kernel

end Verif.Class
