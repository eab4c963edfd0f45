import Verif.WReg.Spec
/-!
The registry and the books agree after every fair history.
-/

namespace Verif.WReg

@[simp] theorem put_same {α : Type} (f : Nat → α) (k : Nat) (v : α) : put f k v k = v := by simp [put]
theorem put_other {α : Type} (f : Nat → α) {k x : Nat} (v : α) (h : x ≠ k) : put f k v x = f x := by simp [put, h]

/-- A message object is used. -/
def Msg.Used (m : Msg) : Prop := m.reg = true ∨ m.types ≠ [] ∨ m.provs ≠ []

/-- Registry and books agree; the object `ex` is allowed to be unused. -/
structure Inv (prio : Nat → Int) (w : W) (b : Book) (ex : Option Nat) : Prop where
  tree : ∀ ty o, w.tree ty = some o → ∃ m, w.heap o = some m ∧ m.type = ty
  heap : ∀ o m, w.heap o = some m → w.tree m.type = some o
  fresh : ∀ o m, w.heap o = some m → o < w.next
  byte : ∀ o m, w.heap o = some m → m.type < 256
  types : ∀ o m, w.heap o = some m → ∀ t, t ∈ m.types ↔ w.tin t = some (some o)
  pins : ∀ o m, w.heap o = some m → ∀ p, p ∈ m.provs ↔ w.pin p = some o
  order : ∀ o m, w.heap o = some m → CallOrder prio (b.provs m.type) m.provs
  used : ∀ o m, w.heap o = some m → ex ≠ some o → m.Used
  tlive : ∀ t o, w.tin t = some (some o) → ∃ m, w.heap o = some m ∧ b.owner t = some (some m.type)
  tgen : ∀ t, w.tin t = some none → b.owner t = some none
  tnone : ∀ t, w.tin t = none → b.owner t = none
  plive : ∀ p o, w.pin p = some o → ∃ m, w.heap o = some m
  prov : ∀ p ty, (p, ty) ∈ b.prov → ∃ o, w.pin p = some o ∧ w.tree ty = some o
  gen : ∀ t, t ∈ w.gen ↔ w.tin t = some none
  reg : ∀ o m, w.heap o = some m → m.reg = b.reg m.type
  regs : ∀ ty, b.reg ty = true → ∃ o, w.tree ty = some o

theorem inv_init (prio : Nat → Int) : Inv prio W.init Book.init none := by
  constructor <;> simp [W.init, Book.init]

theorem Inv.weaken {prio : Nat → Int} {w : W} {b : Book} (h : Inv prio w b none) (ex : Option Nat) : Inv prio w b ex :=
  { h with used := fun o m hm _ => h.used o m hm (by simp) }

theorem mem_provs {b : Book} {p ty : Nat} : p ∈ b.provs ty ↔ (p, ty) ∈ b.prov := by
  simp [Book.provs, List.mem_map, List.mem_filter]

theorem CallOrder.mem {prio : Nat → Int} {r c : List Nat} (h : CallOrder prio r c) (p : Nat) : p ∈ c ↔ p ∈ r := by
  have e := h.stable (prio p)
  have a : p ∈ c.filter (prio · = prio p) ↔ p ∈ c := by simp
  have a' : p ∈ r.filter (prio · = prio p) ↔ p ∈ r := by simp
  rw [← a, e, a']

/-- A provider is in the books exactly when it is linked. -/
theorem Inv.prov_iff {prio : Nat → Int} {w : W} {b : Book} {ex : Option Nat} (h : Inv prio w b ex) (p : Nat) :
    p ∈ b.prov.map (·.1) ↔ w.pin p ≠ none := by
  constructor
  · intro hp
    obtain ⟨⟨p', ty⟩, hm, rfl⟩ := List.mem_map.1 hp
    obtain ⟨o, ho, -⟩ := h.prov _ _ hm
    simp [ho]
  · intro hp
    cases ho : w.pin p with
    | none => exact absurd ho hp
    | some o =>
      obtain ⟨m, hm⟩ := h.plive p o ho
      have := (h.pins o m hm p).2 ho
      rw [(h.order o m hm).mem, mem_provs] at this
      exact List.mem_map.2 ⟨_, this, rfl⟩

theorem getMessage_inv {prio : Nat → Int} {w : W} {b : Book} (h : Inv prio w b none) (ty : Nat) (hty : ty < 256) :
    Inv prio (getMessage w ty).1 b (some (getMessage w ty).2) ∧ (getMessage w ty).1.tree ty = some (getMessage w ty).2 ∧
      (getMessage w ty).1.tin = w.tin ∧ (getMessage w ty).1.pin = w.pin := by
  unfold getMessage
  cases ht : w.tree ty with
  | some o => exact ⟨h.weaken _, ht, rfl, rfl⟩
  | none =>
    have hno : ∀ o m, w.heap o = some m → m.type ≠ ty := by
      intro o m hm e
      have := h.heap o m hm
      rw [e, ht] at this
      simp at this
    have hnx : ∀ o m, w.heap o = some m → o ≠ w.next := fun o m hm => Nat.ne_of_lt (h.fresh o m hm)
    have hnew : ∀ p, (p, ty) ∉ b.prov := by
      intro p hp
      obtain ⟨o, -, ho⟩ := h.prov p ty hp
      rw [ht] at ho
      simp at ho
    have keepM : ∀ o m, put w.heap w.next (some ⟨ty, false, none, [], []⟩) o = some m →
        (o = w.next ∧ m = ⟨ty, false, none, [], []⟩) ∨ (o ≠ w.next ∧ w.heap o = some m) := by
      intro o m hm
      by_cases e : o = w.next
      · subst e; simp at hm; exact .inl ⟨rfl, hm.symm⟩
      · rw [put_other _ _ e] at hm; exact .inr ⟨e, hm⟩
    dsimp only
    refine ⟨?_, by simp, rfl, rfl⟩
    constructor <;> try dsimp only
    · intro ty' o ho
      by_cases e : ty' = ty
      · subst e
        simp at ho
        subst ho
        exact ⟨_, put_same _ _ _, rfl⟩
      · rw [put_other _ _ e] at ho
        obtain ⟨m, hm, e'⟩ := h.tree _ _ ho
        exact ⟨m, by rw [put_other _ _ (hnx o m hm)]; exact hm, e'⟩
    · intro o m hm
      rcases keepM o m hm with ⟨rfl, rfl⟩ | ⟨e, hm⟩
      · simp
      · rw [put_other _ _ (hno o m hm)]
        exact h.heap o m hm
    · intro o m hm
      rcases keepM o m hm with ⟨rfl, rfl⟩ | ⟨e, hm⟩
      · exact Nat.lt_succ_self _
      · exact Nat.lt_succ_of_lt (h.fresh o m hm)
    · intro o m hm
      rcases keepM o m hm with ⟨rfl, rfl⟩ | ⟨e, hm⟩
      · exact hty
      · exact h.byte o m hm
    · intro o m hm t
      rcases keepM o m hm with ⟨rfl, rfl⟩ | ⟨e, hm⟩
      · constructor
        · simp
        · intro ht'
          obtain ⟨m', hm', -⟩ := h.tlive _ _ ht'
          exact absurd rfl (hnx _ _ hm')
      · exact h.types o m hm t
    · intro o m hm p
      rcases keepM o m hm with ⟨rfl, rfl⟩ | ⟨e, hm⟩
      · constructor
        · simp
        · intro ht'
          obtain ⟨m', hm'⟩ := h.plive _ _ ht'
          exact absurd rfl (hnx _ _ hm')
      · exact h.pins o m hm p
    · intro o m hm
      rcases keepM o m hm with ⟨rfl, rfl⟩ | ⟨e, hm⟩
      · have e : b.provs ty = [] := List.eq_nil_iff_forall_not_mem.2 fun p hp => hnew p (mem_provs.1 hp)
        constructor
        · simp
        · intro k; rw [e]
      · exact h.order o m hm
    · intro o m hm hex
      rcases keepM o m hm with ⟨rfl, rfl⟩ | ⟨e, hm⟩
      · exact absurd rfl hex
      · exact h.used o m hm (by simp)
    · intro t o ho
      obtain ⟨m, hm, e⟩ := h.tlive t o ho
      exact ⟨m, by rw [put_other _ _ (hnx o m hm)]; exact hm, e⟩
    · exact h.tgen
    · exact h.tnone
    · intro p o ho
      obtain ⟨m, hm⟩ := h.plive p o ho
      exact ⟨m, by rw [put_other _ _ (hnx o m hm)]; exact hm⟩
    · intro p ty' hp
      obtain ⟨o, ho, ht'⟩ := h.prov p ty' hp
      refine ⟨o, ho, ?_⟩
      have e : ty' ≠ ty := fun e => hnew p (by rw [← e]; exact hp)
      rw [put_other _ _ e]
      exact ht'
    · exact h.gen
    · intro o m hm
      rcases keepM o m hm with ⟨rfl, rfl⟩ | ⟨e, hm⟩
      · cases hr : b.reg ty with
        | false => rfl
        | true =>
          obtain ⟨o, ho⟩ := h.regs ty hr
          rw [ht] at ho
          simp at ho
      · exact h.reg o m hm
    · intro ty' hr
      obtain ⟨o, ho⟩ := h.regs ty' hr
      refine ⟨o, ?_⟩
      rw [put_other _ _ (fun e => by rw [e, ht] at ho; simp at ho)]
      exact ho

/-- An object changes without a change of its type. -/
theorem put_cases {w : W} {o : Nat} {m' : Msg} {x : Nat} {m : Msg} (h : put w.heap o (some m') x = some m) :
    (x = o ∧ m = m') ∨ (x ≠ o ∧ w.heap x = some m) := by
  by_cases e : x = o
  · subst e; simp at h; exact .inl ⟨rfl, h.symm⟩
  · rw [put_other _ _ e] at h; exact .inr ⟨e, h⟩

theorem put_some {w : W} {o : Nat} {m₀ m' : Msg} (h₀ : w.heap o = some m₀) (ht : m'.type = m₀.type) {x : Nat} {m : Msg}
    (h : w.heap x = some m) : ∃ m₁, put w.heap o (some m') x = some m₁ ∧ m₁.type = m.type := by
  by_cases e : x = o
  · subst e
    rw [h₀] at h
    cases h
    exact ⟨_, put_same _ _ _, ht⟩
  · exact ⟨m, by rw [put_other _ _ e]; exact h, rfl⟩

theorem registerType_inv {prio : Nat → Int} {w : W} {b : Book} {ex : Option Nat} (h : Inv prio w b ex) {t o ty : Nat}
    (hex : ex = none ∨ ex = some o) (ht : w.tin t = none) (ho : w.tree ty = some o) :
    ∃ w', registerType w (some o) t = some w' ∧
      Inv prio w' { b with owner := setAll b.owner [t] (some (some ty)) } none ∧ w'.tree = w.tree ∧ w'.pin = w.pin ∧
      (∀ t', t' ≠ t → w'.tin t' = w.tin t') := by
  obtain ⟨m₀, hm₀, hty⟩ := h.tree _ _ ho
  refine ⟨{ w with heap := put w.heap o (some { m₀ with types := m₀.types ++ [t] }), tin := put w.tin t (some (some o)) },
    by simp only [registerType, ht, hm₀], ?_, rfl, rfl, fun t' e => put_other _ _ e⟩
  constructor <;> try dsimp only
  · intro ty' x hx
    obtain ⟨m, hm, e⟩ := h.tree _ _ hx
    obtain ⟨m₁, hm₁, e₁⟩ := put_some (m' := { m₀ with types := m₀.types ++ [t] }) hm₀ rfl hm
    exact ⟨m₁, hm₁, e₁.trans e⟩
  · intro x m hm
    rcases put_cases hm with ⟨rfl, rfl⟩ | ⟨e, hm⟩
    · exact h.heap _ m₀ hm₀
    · exact h.heap x m hm
  · intro x m hm
    rcases put_cases hm with ⟨rfl, rfl⟩ | ⟨e, hm⟩
    · exact h.fresh _ m₀ hm₀
    · exact h.fresh x m hm
  · intro x m hm
    rcases put_cases hm with ⟨rfl, rfl⟩ | ⟨e, hm⟩
    · exact h.byte _ m₀ hm₀
    · exact h.byte x m hm
  · intro x m hm t'
    rcases put_cases hm with ⟨rfl, rfl⟩ | ⟨e, hm'⟩
    · by_cases e : t' = t
      · subst e; simp
      · rw [put_other _ _ e, ← h.types _ m₀ hm₀ t']
        simp [e]
    · by_cases e' : t' = t
      · subst e'
        rw [put_same]
        have := h.types x m hm' t'
        rw [ht] at this
        constructor
        · intro hh
          have := this.1 hh
          simp at this
        · intro hh
          simp at hh
          exact absurd hh.symm e
      · rw [put_other _ _ e']
        exact h.types x m hm' t'
  · intro x m hm p
    rcases put_cases hm with ⟨rfl, rfl⟩ | ⟨e, hm⟩
    · exact h.pins _ m₀ hm₀ p
    · exact h.pins x m hm p
  · intro x m hm
    rcases put_cases hm with ⟨rfl, rfl⟩ | ⟨e, hm⟩
    · exact h.order _ m₀ hm₀
    · exact h.order x m hm
  · intro x m hm _
    rcases put_cases hm with ⟨rfl, rfl⟩ | ⟨e, hm⟩
    · exact .inr (.inl (by simp))
    · refine h.used x m hm ?_
      rcases hex with rfl | rfl
      · simp
      · intro e'; simp at e'; exact e e'.symm
  · intro t' x hx
    by_cases e : t' = t
    · subst e
      rw [put_same] at hx
      simp at hx
      subst hx
      exact ⟨_, put_same _ _ _, by simp [setAll, hty]⟩
    · rw [put_other _ _ e] at hx
      obtain ⟨m, hm, hb⟩ := h.tlive t' x hx
      obtain ⟨m₁, hm₁, e₁⟩ := put_some (m' := { m₀ with types := m₀.types ++ [t] }) hm₀ rfl hm
      refine ⟨m₁, hm₁, ?_⟩
      simp [setAll, e, hb, e₁]
  · intro t' ht'
    by_cases e : t' = t
    · subst e; rw [put_same] at ht'; simp at ht'
    · rw [put_other _ _ e] at ht'
      simp [setAll, e, h.tgen t' ht']
  · intro t' ht'
    by_cases e : t' = t
    · subst e; rw [put_same] at ht'; simp at ht'
    · rw [put_other _ _ e] at ht'
      simp [setAll, e, h.tnone t' ht']
  · intro p x hx
    obtain ⟨m, hm⟩ := h.plive p x hx
    obtain ⟨m₁, hm₁, -⟩ := put_some (m' := { m₀ with types := m₀.types ++ [t] }) hm₀ rfl hm
    exact ⟨m₁, hm₁⟩
  · exact h.prov
  · intro t'
    by_cases e : t' = t
    · subst e
      have := h.gen t'
      rw [ht] at this
      rw [put_same]
      simp at this
      simp [this]
    · rw [put_other _ _ e]
      exact h.gen t'
  · intro x m hm
    rcases put_cases hm with ⟨rfl, rfl⟩ | ⟨e, hm⟩
    · exact h.reg _ m₀ hm₀
    · exact h.reg x m hm
  · exact h.regs

theorem lazyFree_inv {prio : Nat → Int} {w : W} {b : Book} {o : Nat} {m₀ : Msg} (h : Inv prio w b (some o))
    (hm₀ : w.heap o = some m₀) :
    ∃ w', lazyFree w o = some w' ∧ Inv prio w' b none ∧ w'.pin = w.pin ∧ w'.tin = w.tin ∧ w'.fwd = w.fwd ∧ w'.gen = w.gen ∧
      (∀ x, x ≠ o → w'.heap x = w.heap x) := by
  unfold lazyFree
  rw [hm₀]
  dsimp only
  by_cases hu : m₀.Used
  · have : (!m₀.reg && m₀.types.isEmpty && m₀.provs.isEmpty) = false := by
      rcases hu with hu | hu | hu
      · simp [hu]
      · cases ht : m₀.types with
        | nil => exact absurd ht hu
        | cons => simp
      · cases ht : m₀.provs with
        | nil => exact absurd ht hu
        | cons => simp
    rw [this]
    refine ⟨w, by simp, { h with used := ?_ }, rfl, rfl, rfl, rfl, fun x _ => rfl⟩
    intro x m hm _
    by_cases e : x = o
    · subst e; rw [hm₀] at hm; cases hm; exact hu
    · exact h.used x m hm (by intro e'; simp at e'; exact e e'.symm)
  · have hr : m₀.reg = false := by
      cases hr : m₀.reg with
      | false => rfl
      | true => exact absurd (.inl hr) hu
    have hts : m₀.types = [] := by
      cases ht : m₀.types with
      | nil => rfl
      | cons a l => exact absurd (.inr (.inl (by simp [ht]))) hu
    have hps : m₀.provs = [] := by
      cases ht : m₀.provs with
      | nil => rfl
      | cons a l => exact absurd (.inr (.inr (by simp [ht]))) hu
    have : (!m₀.reg && m₀.types.isEmpty && m₀.provs.isEmpty) = true := by simp [hr, hts, hps]
    rw [this]
    refine ⟨_, if_pos rfl, ?_, rfl, rfl, rfl, rfl, fun x e => put_other _ _ e⟩
    have hne : ∀ x m, w.heap x = some m → x ≠ o → m.type ≠ m₀.type := by
      intro x m hm e e'
      have h1 := h.heap x m hm
      have h2 := h.heap o m₀ hm₀
      rw [e', h2] at h1
      simp at h1
      exact e h1.symm
    have hcase : ∀ x m, put w.heap o none x = some m → x ≠ o ∧ w.heap x = some m := by
      intro x m hm
      by_cases e : x = o
      · subst e; simp at hm
      · rw [put_other _ _ e] at hm; exact ⟨e, hm⟩
    constructor <;> try dsimp only
    · intro ty x hx
      by_cases e : ty = m₀.type
      · subst e; simp at hx
      · rw [put_other _ _ e] at hx
        obtain ⟨m, hm, e'⟩ := h.tree _ _ hx
        refine ⟨m, ?_, e'⟩
        rw [put_other _ _ (fun e2 => ?_)]
        · exact hm
        · subst e2; rw [hm₀] at hm; cases hm; exact e e'.symm
    · intro x m hm
      obtain ⟨e, hm⟩ := hcase x m hm
      rw [put_other _ _ (hne x m hm e)]
      exact h.heap x m hm
    · intro x m hm; exact h.fresh x m (hcase x m hm).2
    · intro x m hm; exact h.byte x m (hcase x m hm).2
    · intro x m hm; exact h.types x m (hcase x m hm).2
    · intro x m hm; exact h.pins x m (hcase x m hm).2
    · intro x m hm; exact h.order x m (hcase x m hm).2
    · intro x m hm _
      obtain ⟨e, hm⟩ := hcase x m hm
      exact h.used x m hm (by intro e'; simp at e'; exact e e'.symm)
    · intro t x hx
      obtain ⟨m, hm, hb⟩ := h.tlive t x hx
      refine ⟨m, ?_, hb⟩
      rw [put_other _ _ (fun e2 => ?_)]
      · exact hm
      · subst e2
        have := (h.types _ m₀ hm₀ t).2 hx
        simp [hts] at this
    · exact h.tgen
    · exact h.tnone
    · intro p x hx
      obtain ⟨m, hm⟩ := h.plive p x hx
      refine ⟨m, ?_⟩
      rw [put_other _ _ (fun e2 => ?_)]
      · exact hm
      · subst e2
        have := (h.pins _ m₀ hm₀ p).2 hx
        simp [hps] at this
    · intro p ty hp
      obtain ⟨x, hx, ht⟩ := h.prov p ty hp
      refine ⟨x, hx, ?_⟩
      rw [put_other _ _ (fun e2 => ?_)]
      · exact ht
      · subst e2
        have e3 := h.heap o m₀ hm₀
        rw [ht] at e3
        simp at e3
        subst e3
        have := (h.pins _ m₀ hm₀ p).2 hx
        simp [hps] at this
    · exact h.gen
    · intro x m hm; exact h.reg x m (hcase x m hm).2
    · intro ty hty
      obtain ⟨x, hx⟩ := h.regs ty hty
      refine ⟨x, ?_⟩
      rw [put_other _ _ (fun e2 => ?_)]
      · exact hx
      · subst e2
        have := h.reg o m₀ hm₀
        rw [hr, hty] at this
        simp at this

end Verif.WReg
