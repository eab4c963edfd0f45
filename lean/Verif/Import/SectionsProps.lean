import Verif.Import.Sections
/-
C172: one object per configuration section.
-/
namespace Verif.Import
open Verif.Netaddr (strcasecmp lowerCase C17_strcasecmp)

/-! ### Specification -/

/-- names that differ at most in the case of letters -/
def SameName (a b : Txt) : Prop := a.map lowerCase = b.map lowerCase

instance (a b : Txt) : Decidable (SameName a b) := inferInstanceAs (Decidable (_ = _))

/-- what is configured for a name after a history (oldest change first), beginning with `m` -/
def meaning {α : Type} (fresh : α) (m : Txt → Option α) : List (Txt × Option (α → α)) → Txt → Option α
  | [] => m
  | c :: cs =>
    meaning fresh (fun n => if SameName n c.1 then c.2.map (fun f => f ((m n).getD fresh)) else m n) cs

/-- `a` is in front of `b` in the order of names -/
def Before (a b : Txt) : Prop := strcasecmp a b < 0

/-- every name is in front of all later ones -/
def Ordered {α : Type} (l : List (Sec α)) : Prop := l.Pairwise fun a b => Before a.name b.name

/-! ### Lemmas -/

theorem same_iff (a b : Txt) : strcasecmp a b = 0 ↔ SameName a b := C17_strcasecmp.zero a b trivial trivial

theorem same_symm {a b : Txt} (h : SameName a b) : SameName b a := Eq.symm h

theorem same_trans {a b c : Txt} (h : SameName a b) (h' : SameName b c) : SameName a c := Eq.trans h h'

theorem same_length {a b : Txt} (h : SameName a b) : a.length = b.length := by
  have := congrArg List.length h
  simpa using this

theorem before_trans {a b c : Txt} (h : Before a b) (h' : strcasecmp b c ≤ 0) : Before a c :=
  C17_strcasecmp.trans_strict a b c trivial trivial trivial h h'

theorem before_of_not {a b : Txt} (h : ¬ strcasecmp a b < 0) (h' : ¬ strcasecmp a b = 0) : Before b a := by
  unfold Before
  have := (C17_strcasecmp.swap b a trivial trivial)
  omega

theorem before_same_left {a b c : Txt} (h : SameName a b) (h' : Before b c) : Before a c := by
  have h1 := (same_iff a b).2 h
  have h2 := (same_iff b a).2 (same_symm h)
  unfold Before at *
  have h3 := C17_strcasecmp.trans a b c trivial trivial trivial (by omega) (by omega)
  have h4 := mt ((same_iff a c).1)
  by_cases hz : strcasecmp a c = 0
  · have := (same_iff b c).2 (same_trans (same_symm h) ((same_iff a c).1 hz))
    omega
  · omega

theorem before_irrefl {a b : Txt} (h : Before a b) (hs : SameName a b) : False := by
  have := (same_iff a b).2 hs
  unfold Before at h
  omega

theorem find_none {α : Type} {l : List (Sec α)} {n : Txt} : find l n = none ↔ ∀ e ∈ l, ¬ SameName e.name n := by
  unfold find
  rw [List.find?_eq_none]
  constructor
  · intro h e he hs
    exact h e he (by simpa using (same_iff _ _).2 hs)
  · intro h e he hs
    exact h e he ((same_iff _ _).1 (by simpa using hs))

theorem find_cons {α : Type} (x : Sec α) (l : List (Sec α)) (n : Txt) :
    find (x :: l) n = if SameName x.name n then some x else find l n := by
  unfold find
  rw [List.find?_cons]
  by_cases h : SameName x.name n
  · rw [if_pos h]
    have := (same_iff _ _).2 h
    simp [this]
  · rw [if_neg h]
    have := mt (same_iff _ _).1 h
    rw [show (strcasecmp x.name n == 0) = false by simpa using this]

theorem insert_some {α : Type} (e : Sec α) : ∀ l : List (Sec α), (∀ x ∈ l, ¬ SameName x.name e.name) → ∃ l', insert e l = some l' := by
  intro l
  induction l with
  | nil => intro _; exact ⟨_, rfl⟩
  | cons x xs ih =>
    intro h
    unfold insert
    have h0 : ¬ strcasecmp e.name x.name = 0 := fun hz => h x (by simp) (same_symm ((same_iff _ _).1 hz))
    split
    · exact ⟨_, rfl⟩
    · obtain ⟨l', hl'⟩ := ih (fun y hy => h y (by simp [hy]))
      rw [hl']
      exact ⟨_, rfl⟩

theorem insert_mem {α : Type} (e : Sec α) : ∀ (l l' : List (Sec α)), insert e l = some l' → ∀ x, x ∈ l' ↔ x = e ∨ x ∈ l := by
  intro l
  induction l with
  | nil => intro l' h x; cases h; simp
  | cons y ys ih =>
    intro l' h x
    unfold insert at h
    split at h
    · cases h; simp
    · split at h
      · cases h
      · cases hi : insert e ys with
        | none => rw [hi] at h; cases h
        | some l1 =>
          rw [hi] at h
          cases h
          have := ih l1 hi x
          simp only [List.mem_cons, this]
          constructor
          · rintro (h | h | h) <;> simp_all
          · rintro (h | h | h) <;> simp_all

theorem insert_ordered {α : Type} (e : Sec α) : ∀ (l l' : List (Sec α)), insert e l = some l' → Ordered l → Ordered l' := by
  intro l
  induction l with
  | nil => intro l' h _; cases h; simp [Ordered]
  | cons y ys ih =>
    intro l' h ho
    unfold Ordered at ho
    rw [List.pairwise_cons] at ho
    unfold insert at h
    split at h
    · rename_i hlt
      cases h
      unfold Ordered
      rw [List.pairwise_cons]
      refine ⟨?_, List.pairwise_cons.2 ho⟩
      intro x hx
      rcases List.mem_cons.1 hx with rfl | hx
      · exact hlt
      · exact before_trans hlt (by have := ho.1 x hx; unfold Before at this; omega)
    · split at h
      · cases h
      · rename_i h1 h2
        cases hi : insert e ys with
        | none => rw [hi] at h; cases h
        | some l1 =>
          rw [hi] at h
          cases h
          unfold Ordered
          rw [List.pairwise_cons]
          refine ⟨?_, ih l1 hi ho.2⟩
          intro x hx
          rcases (insert_mem e ys l1 hi x).1 hx with rfl | hx
          · exact before_of_not h1 h2
          · exact ho.1 x hx

/-- the first match is the only one -/
theorem find_of_mem {α : Type} : ∀ (l : List (Sec α)) (n : Txt) (e : Sec α), Ordered l → e ∈ l → SameName e.name n → find l n = some e := by
  intro l
  induction l with
  | nil => intro n e _ h; cases h
  | cons x xs ih =>
    intro n e ho hm hs
    unfold Ordered at ho
    rw [List.pairwise_cons] at ho
    rw [find_cons]
    rcases List.mem_cons.1 hm with rfl | hm
    · rw [if_pos hs]
    · rw [if_neg]
      · exact ih n e ho.2 hm hs
      · intro hx
        exact before_irrefl (ho.1 e hm) (same_trans hx (same_symm hs))

theorem find_some {α : Type} {l : List (Sec α)} {n : Txt} {e : Sec α} (h : find l n = some e) : e ∈ l ∧ SameName e.name n := by
  unfold find at h
  refine ⟨List.mem_of_find?_eq_some h, ?_⟩
  have := List.find?_some h
  exact (same_iff _ _).1 (by simpa using this)

theorem change_ordered {α : Type} {l : List (Sec α)} (n : Txt) (f : α → α) (h : Ordered l) : Ordered (change l n f) := by
  unfold Ordered change
  rw [List.pairwise_map]
  refine List.Pairwise.imp ?_ h
  intro a b hab
  split <;> split <;> exact hab

theorem drop_ordered {α : Type} {l : List (Sec α)} (n : Txt) (h : Ordered l) : Ordered (drop l n) :=
  List.Pairwise.filter _ h

theorem find_change {α : Type} (l : List (Sec α)) (n m : Txt) (f : α → α) :
    (find (change l n f) m).map (·.val) = (find l m).map (fun e => if SameName m n then f e.val else e.val) := by
  induction l with
  | nil => rfl
  | cons x xs ih =>
    show (find ((if strcasecmp x.name n = 0 then { x with val := f x.val } else x) :: change xs n f) m).map _ = _
    rw [find_cons, find_cons]
    have hn : (if strcasecmp x.name n = 0 then { x with val := f x.val } else x).name = x.name := by split <;> rfl
    rw [hn]
    by_cases hs : SameName x.name m
    · rw [if_pos hs, if_pos hs]
      by_cases hx : SameName m n
      · have := (same_iff _ _).2 (same_trans hs hx)
        simp [this, hx]
      · have : ¬ strcasecmp x.name n = 0 := fun hz => hx (same_trans (same_symm hs) ((same_iff _ _).1 hz))
        simp [this, hx]
    · rw [if_neg hs, if_neg hs]
      exact ih

theorem find_drop {α : Type} (l : List (Sec α)) (n m : Txt) : find (drop l n) m = if SameName m n then none else find l m := by
  induction l with
  | nil => unfold drop find; simp
  | cons x xs ih =>
    unfold drop at ih ⊢
    rw [List.filter_cons]
    by_cases hx : SameName x.name n
    · have := (same_iff _ _).2 hx
      rw [if_neg (by simp [this]), ih, find_cons]
      by_cases hm : SameName m n
      · rw [if_pos hm, if_pos hm]
      · rw [if_neg hm, if_neg hm, if_neg]
        intro hxm
        exact hm (same_trans (same_symm hxm) hx)
    · have := mt (same_iff _ _).1 hx
      rw [if_pos (by simp [this]), find_cons, find_cons, ih]
      by_cases hm : SameName m n
      · have : ¬ SameName x.name m := fun hxm => hx (same_trans hxm hm)
        simp [hm, this]
      · simp [hm]

theorem find_insert {α : Type} (e : Sec α) (l l' : List (Sec α)) (h : insert e l = some l') (ho : Ordered l) (hn : ∀ x ∈ l, ¬ SameName x.name e.name)
    (m : Txt) : find l' m = if SameName m e.name then some e else find l m := by
  have ho' := insert_ordered e l l' h ho
  by_cases hm : SameName m e.name
  · rw [if_pos hm]
    exact find_of_mem l' m e ho' ((insert_mem e l l' h e).2 (.inl rfl)) (same_symm hm)
  · rw [if_neg hm]
    cases hf : find l m with
    | none =>
      rw [find_none] at hf ⊢
      intro x hx
      rcases (insert_mem e l l' h x).1 hx with rfl | hx
      · exact fun h => hm (same_symm h)
      · exact hf x hx
    | some x =>
      obtain ⟨h1, h2⟩ := find_some hf
      exact find_of_mem l' m x ho' ((insert_mem e l l' h x).2 (.inr h1)) h2

theorem cut_short {size : Nat} {n : Txt} (h : n.length < size) : cut size n = n := by
  unfold cut
  exact List.take_of_length_le (by omega)

theorem configure_short {α : Type} (size : Nat) (fresh : α) (l : List (Sec α)) (n : Txt) (post : Option (α → α)) (hn : n.length < size)
    (ho : Ordered l) :
    ∃ l', configure size fresh l n post = some l' ∧ Ordered l' ∧
      ∀ m, (find l' m).map (·.val) = if SameName m n then post.map (fun f => f (((find l m).map (·.val)).getD fresh)) else (find l m).map (·.val) := by
  unfold configure
  cases hf : find l n with
  | some e =>
    cases post with
    | some f =>
      refine ⟨_, rfl, change_ordered n f ho, ?_⟩
      intro m
      rw [find_change]
      by_cases hm : SameName m n
      · have : find l m = some e := find_of_mem l m e ho (find_some hf).1 (same_trans (find_some hf).2 (same_symm hm))
        simp [hm, this]
      · simp [hm]
    | none =>
      refine ⟨_, rfl, drop_ordered n ho, ?_⟩
      intro m
      rw [find_drop]
      by_cases hm : SameName m n
      · simp [hm]
      · simp [hm]
  | none =>
    have hnone := find_none.1 hf
    simp only [cut_short hn]
    obtain ⟨l1, hl1⟩ := insert_some ⟨n, fresh⟩ l hnone
    rw [hl1]
    cases post with
    | some f =>
      refine ⟨_, rfl, change_ordered n f (insert_ordered _ _ _ hl1 ho), ?_⟩
      intro m
      rw [find_change, find_insert _ _ _ hl1 ho hnone]
      by_cases hm : SameName m n
      · have : find l m = none := find_none.2 (fun x hx h => hnone x hx (same_trans h hm))
        simp [hm, this]
      · simp [hm]
    | none =>
      refine ⟨_, rfl, ho, ?_⟩
      intro m
      by_cases hm : SameName m n
      · have : find l m = none := find_none.2 (fun x hx h => hnone x hx (same_trans h hm))
        simp [hm, this]
      · simp [hm]

theorem all_short {α : Type} (size : Nat) (fresh : α) : ∀ (cs : List (Txt × Option (α → α))) (l : List (Sec α)) (m : Txt → Option α),
    (∀ c ∈ cs, c.1.length < size) → Ordered l → (∀ n, (find l n).map (·.val) = m n) →
    ∃ l', configureAll size fresh l cs = some l' ∧ Ordered l' ∧ ∀ n, (find l' n).map (·.val) = meaning fresh m cs n := by
  intro cs
  induction cs with
  | nil => intro l m _ ho hm; exact ⟨l, rfl, ho, hm⟩
  | cons c cs ih =>
    intro l m hc ho hm
    obtain ⟨l1, h1, h2, h3⟩ := configure_short size fresh l c.1 c.2 (hc c (by simp)) ho
    unfold configureAll
    rw [h1]
    unfold meaning
    refine ih l1 _ (fun x hx => hc x (by simp [hx])) h2 ?_
    intro n
    rw [h3 n, hm n]

/-! ### Theorems -/

/-- **C172** (for names that fit): for every history of sections that are added, changed and removed the tree contains, for
every name, exactly the last configuration (names without regard to case), and the elements are in the order of their names. -/
theorem C172_sections_partial {α : Type} (size : Nat) (fresh : α) (cs : List (Txt × Option (α → α))) (hc : ∀ c ∈ cs, c.1.length < size) :
    ∃ l, configureAll size fresh [] cs = some l ∧ Ordered l ∧
      ∀ n, (find l n).map (·.val) = meaning fresh (fun _ => none) cs n :=
  all_short size fresh cs [] _ hc List.Pairwise.nil (fun _ => rfl)

example : configureAll 16 0 [] [([98], some (fun _ => 7)), ([65], some (fun _ => 3)), ([66], some (· + 1))] = some [⟨[65], 3⟩, ⟨[98], 8⟩] := by decide +kernel
example : configureAll 16 0 [] [([98], some (fun _ => 7)), ([65], some (fun _ => 3)), ([66], none)] = some [⟨[65], 3⟩] := by decide +kernel

/-- **C172** does not hold for names of `size` and more bytes (15 characters is the limit of `lan_import` and
`route_modifier`, 23 the one of `olsrv2_l2import`): every change after the first is without effect, and the removal of the
section follows null pointers. -/
theorem C172_long_counterexample {α : Type} (size : Nat) (fresh : α) (n : Txt) (f g : α → α) (hs : 0 < size) (hn : size ≤ n.length) :
    configureAll size fresh [] [(n, some f)] = some [⟨cut size n, f fresh⟩] ∧
    configureAll size fresh [] [(n, some f), (n, some g)] = some [⟨cut size n, f fresh⟩] ∧
    configureAll size fresh [] [(n, some f), (n, none)] = none := by
  have hr : strcasecmp (cut size n) (cut size n) = 0 := (same_iff _ _).2 rfl
  have h1 : configure size fresh [] n (some f) = some [⟨cut size n, f fresh⟩] := by
    unfold configure
    show some (change [⟨cut size n, fresh⟩] (cut size n) f) = _
    unfold change
    simp [hr]
  have hlen : (cut size n).length = size - 1 := by
    unfold cut
    rw [List.length_take]
    omega
  have hf : find [(⟨cut size n, f fresh⟩ : Sec α)] n = none := by
    rw [find_none]
    intro e he hsn
    rw [List.mem_singleton] at he
    subst he
    have := same_length hsn
    simp only at this
    omega
  have hi : insert (⟨cut size n, fresh⟩ : Sec α) [⟨cut size n, f fresh⟩] = none := by
    unfold insert
    simp [hr]
  refine ⟨?_, ?_, ?_⟩
  · simp [configureAll, h1]
  · simp only [configureAll, h1]
    unfold configure
    simp [hf, hi]
  · simp only [configureAll, h1]
    unfold configure
    simp [hf, hi]

example : configureAll 16 0 [] [(List.replicate 16 97, some (fun _ => 7)), (List.replicate 16 97, some (fun _ => 8))] =
    some [⟨List.replicate 15 97, 7⟩] := by decide +kernel

/-- **C172** does not hold for two long names with the same beginning either: the second section is lost. -/
theorem C172_prefix_counterexample {α : Type} (fresh : α) (f g : α → α) :
    configureAll 16 fresh [] [(List.replicate 15 97 ++ [98], some f), (List.replicate 15 97 ++ [99], some g)] =
      some [⟨List.replicate 15 97, f fresh⟩] := by
  rfl

end Verif.Import
