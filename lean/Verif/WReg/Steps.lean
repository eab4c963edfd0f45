import Verif.WReg.Inv

namespace Verif.WReg

theorem setAll_nil {α : Type} (f : Nat → α) (v : α) : setAll f [] v = f := by funext t; simp [setAll]

theorem setAll_cons {α : Type} (f : Nat → α) (t : Nat) (ts : List Nat) (v : α) :
    setAll (setAll f [t] v) ts v = setAll f (t :: ts) v := by
  funext x
  by_cases h : x ∈ ts <;> by_cases e : x = t <;> simp [setAll, h, e]

theorem unregisterType_inv {prio : Nat → Int} {w : W} {b : Book} (h : Inv prio w b none) (t : Nat) :
    ∃ w', unregisterType w t = some w' ∧ Inv prio w' { b with owner := setAll b.owner [t] none } none ∧ w'.pin = w.pin ∧
      w'.fwd = w.fwd ∧ w'.tin t = none ∧ (∀ t', t' ≠ t → w'.tin t' = w.tin t') := by
  unfold unregisterType
  cases ht : w.tin t with
  | none =>
    refine ⟨w, rfl, ?_, rfl, rfl, ht, fun _ _ => rfl⟩
    have : setAll b.owner [t] none = b.owner := by
      funext x
      by_cases e : x = t
      · subst e; simp [setAll, h.tnone x ht]
      · simp [setAll, e]
    rw [this]
    exact h
  | some x =>
    cases x with
    | none =>
      dsimp only
      refine ⟨_, rfl, ?_, rfl, rfl, put_same _ _ _, fun t' e => put_other _ _ e⟩
      refine { h with types := ?_, tlive := ?_, tgen := ?_, tnone := ?_, gen := ?_ }
      · intro o m hm t'
        dsimp only
        by_cases e : t' = t
        · subst e
          have := h.types o m hm t'
          rw [ht] at this
          rw [put_same]
          simp at this
          simp [this]
        · rw [put_other _ _ e]; exact h.types o m hm t'
      · intro t' o ho
        dsimp only at ho ⊢
        by_cases e : t' = t
        · subst e; simp at ho
        · rw [put_other _ _ e] at ho
          obtain ⟨m, hm, hb⟩ := h.tlive t' o ho
          exact ⟨m, hm, by simp [setAll, e, hb]⟩
      · intro t' ho
        dsimp only at ho ⊢
        by_cases e : t' = t
        · subst e; simp at ho
        · rw [put_other _ _ e] at ho
          simp [setAll, e, h.tgen t' ho]
      · intro t' ho
        dsimp only at ho ⊢
        by_cases e : t' = t
        · subst e; simp [setAll]
        · rw [put_other _ _ e] at ho
          simp [setAll, e, h.tnone t' ho]
      · intro t'
        dsimp only
        by_cases e : t' = t
        · subst e; simp
        · rw [put_other _ _ e, ← h.gen t']; simp [e]
    | some o =>
      dsimp only
      obtain ⟨m₀, hm₀, hb₀⟩ := h.tlive t o ht
      rw [hm₀]
      dsimp only
      have h1 : Inv prio { w with heap := put w.heap o (some { m₀ with types := m₀.types.filter (· ≠ t) }), tin := put w.tin t none }
          { b with owner := setAll b.owner [t] none } (some o) := by
        constructor <;> try dsimp only
        · intro ty x hx
          obtain ⟨m, hm, e⟩ := h.tree _ _ hx
          obtain ⟨m₁, hm₁, e₁⟩ := put_some (m' := { m₀ with types := m₀.types.filter (· ≠ t) }) hm₀ rfl hm
          exact ⟨m₁, hm₁, e₁.trans e⟩
        · intro x m hm
          rcases put_cases hm with ⟨rfl, rfl⟩ | ⟨e, hm⟩
          · exact h.heap _ m₀ hm₀
          · exact h.heap x m hm
        · intro x m hm
          rcases put_cases hm with ⟨rfl, rfl⟩ | ⟨e, hm⟩
          · exact h.fresh _ m₀ hm₀
          · exact h.fresh x m hm
        · intro x m hm
          rcases put_cases hm with ⟨rfl, rfl⟩ | ⟨e, hm⟩
          · exact h.byte _ m₀ hm₀
          · exact h.byte x m hm
        · intro x m hm t'
          rcases put_cases hm with ⟨rfl, rfl⟩ | ⟨e, hm'⟩
          · by_cases e : t' = t
            · subst e; simp
            · rw [put_other _ _ e, ← h.types _ m₀ hm₀ t']
              simp [e]
          · by_cases e' : t' = t
            · subst e'
              rw [put_same]
              have := h.types x m hm' t'
              rw [ht] at this
              constructor
              · intro hh
                have := this.1 hh
                simp at this
                exact absurd this.symm e
              · intro hh; simp at hh
            · rw [put_other _ _ e']
              exact h.types x m hm' t'
        · intro x m hm p
          rcases put_cases hm with ⟨rfl, rfl⟩ | ⟨e, hm⟩
          · exact h.pins _ m₀ hm₀ p
          · exact h.pins x m hm p
        · intro x m hm
          rcases put_cases hm with ⟨rfl, rfl⟩ | ⟨e, hm⟩
          · exact h.order _ m₀ hm₀
          · exact h.order x m hm
        · intro x m hm hx
          rcases put_cases hm with ⟨rfl, rfl⟩ | ⟨e, hm⟩
          · exact absurd rfl hx
          · exact h.used x m hm (by simp)
        · intro t' x hx
          by_cases e : t' = t
          · subst e; rw [put_same] at hx; simp at hx
          · rw [put_other _ _ e] at hx
            obtain ⟨m, hm, hb⟩ := h.tlive t' x hx
            obtain ⟨m₁, hm₁, e₁⟩ := put_some (m' := { m₀ with types := m₀.types.filter (· ≠ t) }) hm₀ rfl hm
            exact ⟨m₁, hm₁, by simp [setAll, e, hb, e₁]⟩
        · intro t' ht'
          by_cases e : t' = t
          · subst e; rw [put_same] at ht'; simp at ht'
          · rw [put_other _ _ e] at ht'
            simp [setAll, e, h.tgen t' ht']
        · intro t' ht'
          by_cases e : t' = t
          · subst e; simp [setAll]
          · rw [put_other _ _ e] at ht'
            simp [setAll, e, h.tnone t' ht']
        · intro p x hx
          obtain ⟨m, hm⟩ := h.plive p x hx
          obtain ⟨m₁, hm₁, -⟩ := put_some (m' := { m₀ with types := m₀.types.filter (· ≠ t) }) hm₀ rfl hm
          exact ⟨m₁, hm₁⟩
        · exact h.prov
        · intro t'
          by_cases e : t' = t
          · subst e
            have := h.gen t'
            rw [ht] at this
            rw [put_same]
            simp at this
            simp [this]
          · rw [put_other _ _ e]
            exact h.gen t'
        · intro x m hm
          rcases put_cases hm with ⟨rfl, rfl⟩ | ⟨e, hm⟩
          · exact h.reg _ m₀ hm₀
          · exact h.reg x m hm
        · exact h.regs
      obtain ⟨w', hw', hi, hp, htin, hf, -, -⟩ := lazyFree_inv h1 (put_same _ _ _)
      refine ⟨w', hw', hi, hp, hf, ?_, ?_⟩
      · rw [htin]; exact put_same _ _ _
      · intro t' e; rw [htin]; exact put_other _ _ e

theorem unregisterTypes_inv {prio : Nat → Int} (ts : List Nat) {w : W} {b : Book} (h : Inv prio w b none) :
    ∃ w', unregisterTypes w ts = some w' ∧ Inv prio w' { b with owner := setAll b.owner ts none } none ∧ w'.pin = w.pin ∧
      w'.fwd = w.fwd ∧ (∀ t, w'.tin t = if t ∈ ts then none else w.tin t) := by
  induction ts generalizing w b with
  | nil => exact ⟨w, rfl, by rw [setAll_nil]; exact h, rfl, rfl, by simp⟩
  | cons t ts ih =>
    obtain ⟨w1, h1, hi1, hp1, hf1, ht1, hn1⟩ := unregisterType_inv h t
    obtain ⟨w2, h2, hi2, hp2, hf2, ht2⟩ := ih hi1
    refine ⟨w2, by simp [unregisterTypes, h1, h2], ?_, hp2.trans hp1, hf2.trans hf1, ?_⟩
    · rw [← setAll_cons]; exact hi2
    · intro t'
      rw [ht2]
      by_cases e : t' = t
      · subst e; by_cases m : t' ∈ ts <;> simp [m, ht1]
      · by_cases m : t' ∈ ts <;> simp [m, e, hn1 t' e]

theorem registerTypes_inv {prio : Nat → Int} {o ty : Nat} (ts : List Nat) (hn : ts.Nodup) {w : W} {b : Book}
    (h : Inv prio w b (some o)) (ho : w.tree ty = some o) (ht : ∀ t ∈ ts, w.tin t = none) :
    ∃ w', registerTypes w o ts = some w' ∧ Inv prio w' { b with owner := setAll b.owner ts (some (some ty)) } (some o) ∧
      w'.tree = w.tree ∧ w'.pin = w.pin := by
  induction ts generalizing w b with
  | nil => exact ⟨w, rfl, by rw [setAll_nil]; exact h, rfl, rfl⟩
  | cons t ts ih =>
    obtain ⟨hnt, hnts⟩ := List.nodup_cons.1 hn
    obtain ⟨w1, h1, hi1, ht1, hp1, hn1⟩ := registerType_inv h (.inr rfl) (ht t (List.mem_cons_self)) ho
    obtain ⟨w2, h2, hi2, ht2, hp2⟩ := ih hnts (hi1.weaken _) (by rw [ht1]; exact ho) (by
      intro t' m
      rw [hn1 t' (fun e => hnt (e ▸ m))]
      exact ht t' (List.mem_cons_of_mem _ m))
    refine ⟨w2, by simp [registerTypes, h1, h2], ?_, ht2.trans ht1, hp2.trans hp1⟩
    rw [← setAll_cons]; exact hi2

theorem registerGeneric_inv {prio : Nat → Int} {w : W} {b : Book} (h : Inv prio w b none) {t : Nat} (ht : w.tin t = none) :
    ∃ w', registerType w none t = some w' ∧ Inv prio w' { b with owner := setAll b.owner [t] (some none) } none ∧
      w'.tree = w.tree := by
  refine ⟨{ w with gen := w.gen ++ [t], tin := put w.tin t (some none) }, by simp only [registerType, ht], ?_, rfl⟩
  refine { h with types := ?_, tlive := ?_, tgen := ?_, tnone := ?_, gen := ?_ }
  · intro o m hm t'
    dsimp only
    by_cases e : t' = t
    · subst e
      have := h.types o m hm t'
      rw [ht] at this
      rw [put_same]
      simp at this
      simp [this]
    · rw [put_other _ _ e]; exact h.types o m hm t'
  · intro t' o ho
    dsimp only at ho ⊢
    by_cases e : t' = t
    · subst e; simp at ho
    · rw [put_other _ _ e] at ho
      obtain ⟨m, hm, hb⟩ := h.tlive t' o ho
      exact ⟨m, hm, by simp [setAll, e, hb]⟩
  · intro t' ho
    dsimp only at ho ⊢
    by_cases e : t' = t
    · subst e; simp [setAll]
    · rw [put_other _ _ e] at ho
      simp [setAll, e, h.tgen t' ho]
  · intro t' ho
    dsimp only at ho ⊢
    by_cases e : t' = t
    · subst e; simp at ho
    · rw [put_other _ _ e] at ho
      simp [setAll, e, h.tnone t' ho]
  · intro t'
    dsimp only
    by_cases e : t' = t
    · subst e; simp
    · rw [put_other _ _ e, ← h.gen t']; simp [e]

/-! ## Order of the providers -/

theorem mem_insertProv (prio : Nat → Int) (p : Nat) (l : List Nat) (q : Nat) : q ∈ insertProv prio p l ↔ q = p ∨ q ∈ l := by
  induction l with
  | nil => simp [insertProv]
  | cons a l ih =>
    simp only [insertProv]
    split
    · simp
    · simp only [List.mem_cons, ih]
      constructor
      · rintro (h | h | h)
        · exact .inr (.inl h)
        · exact .inl h
        · exact .inr (.inr h)
      · rintro (h | h | h)
        · exact .inr (.inl h)
        · exact .inl h
        · exact .inr (.inr h)

theorem insertProv_order {prio : Nat → Int} {r c : List Nat} (h : CallOrder prio r c) (p : Nat) :
    CallOrder prio (r ++ [p]) (insertProv prio p c) := by
  have hs : ∀ c : List Nat, c.Pairwise (fun p q => prio p ≤ prio q) → (insertProv prio p c).Pairwise (fun p q => prio p ≤ prio q) := by
    intro c
    induction c with
    | nil => intro _; simp [insertProv]
    | cons a l ih =>
      intro hc
      obtain ⟨h1, h2⟩ := List.pairwise_cons.1 hc
      simp only [insertProv]
      split
      · next hlt =>
        refine List.pairwise_cons.2 ⟨?_, hc⟩
        intro x hx
        rcases List.mem_cons.1 hx with rfl | hx
        · omega
        · have := h1 x hx; omega
      · next hlt =>
        refine List.pairwise_cons.2 ⟨?_, ih h2⟩
        intro x hx
        rcases (mem_insertProv prio p l x).1 hx with rfl | hx
        · omega
        · exact h1 x hx
  have hf : ∀ c : List Nat, c.Pairwise (fun p q => prio p ≤ prio q) → ∀ k,
      (insertProv prio p c).filter (prio · = k) = c.filter (prio · = k) ++ [p].filter (prio · = k) := by
    intro c
    induction c with
    | nil => intro _ k; simp [insertProv]
    | cons a l ih =>
      intro hc k
      obtain ⟨h1, h2⟩ := List.pairwise_cons.1 hc
      simp only [insertProv]
      split
      · next hlt =>
        by_cases e : prio p = k
        · have hnil : (a :: l).filter (prio · = k) = [] := by
            rw [List.filter_eq_nil_iff]
            intro x hx
            rcases List.mem_cons.1 hx with rfl | hx
            · simp; omega
            · have := h1 x hx; simp; omega
          rw [List.filter_cons, hnil]
          simp [e]
        · rw [List.filter_cons]
          simp [e]
      · next hlt =>
        have := ih h2 k
        by_cases e : prio a = k
        · rw [List.filter_cons_of_pos (by simpa using e), List.filter_cons_of_pos (by simpa using e), this]; rfl
        · rw [List.filter_cons_of_neg (by simpa using e), List.filter_cons_of_neg (by simpa using e), this]
  constructor
  · exact hs c h.sorted
  · intro k
    rw [hf c h.sorted k, h.stable k, List.filter_append]

theorem filter_order {prio : Nat → Int} {r c : List Nat} (h : CallOrder prio r c) (p : Nat) :
    CallOrder prio (r.filter (· ≠ p)) (c.filter (· ≠ p)) := by
  constructor
  · exact h.sorted.filter _
  · intro k
    rw [List.filter_filter, List.filter_filter]
    have e : ∀ l : List Nat, l.filter (fun a => decide (prio a = k) && decide (a ≠ p)) = (l.filter (prio · = k)).filter (· ≠ p) := by
      intro l
      rw [List.filter_filter]
      congr 1
      funext a
      exact Bool.and_comm _ _
    rw [e, e, h.stable k]

end Verif.WReg
