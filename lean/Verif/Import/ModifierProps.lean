import Verif.Import.Modifier
/-
C176: a calculated route is changed by the first section that matches it.
-/
namespace Verif.Import
open Verif.Netaddr (Netaddr AF_INET)
open Verif.Acl (Acl checkAccept Accepted Entries C22_decision)

/-! ### Specification -/

/-- the section applies to routes to this destination in the domain with this index -/
def Applies (m : Mod) (index : Fin 4) (dst : Netaddr) : Prop :=
  m.domain = index.val ∧ (m.prefixLen = -1 ∨ m.prefixLen = dst.prefixLen.toNat) ∧ Accepted m.filter dst

/-- `q` is `p` with the values of the section; the value 0 leaves a field alone -/
structure Changed (m : Mod) (p q : Param) : Prop where
  dst : q.dst = p.dst
  table : (m.table = 0 ∧ q.table = p.table) ∨ (m.table ≠ 0 ∧ q.table = m.table)
  protocol : (m.protocol = 0 ∧ q.protocol = p.protocol) ∨ (m.protocol ≠ 0 ∧ q.protocol = m.protocol)
  metric : (m.distance = 0 ∧ q.metric = p.metric) ∨ (m.distance ≠ 0 ∧ q.metric = m.distance)

/-! ### Lemmas -/

theorem fits_iff (m : Mod) (index : Fin 4) (p : Param) (he : Entries m.filter) (hw : p.dst.WF) :
    fits m index p = true ↔ Applies m index p.dst := by
  obtain ⟨b, hb, hb'⟩ := C22_decision m.filter p.dst he hw
  unfold fits Applies
  by_cases h1 : (index.val : Int) = m.domain
  · rw [if_neg (by omega)]
    by_cases h2 : m.prefixLen = -1 ∨ m.prefixLen = p.dst.prefixLen.toNat
    · rw [if_neg (by omega), hb, ← hb']
      cases b
      · simp
      · simp
        exact ⟨h1.symm, h2⟩
    · rw [if_pos (by omega)]
      simp only [Bool.false_eq_true, false_iff]
      exact fun h => h2 h.2.1
  · rw [if_pos h1]
    simp only [Bool.false_eq_true, false_iff]
    exact fun h => h1 h.1.symm

theorem apply_changed (m : Mod) (p : Param) : Changed m p (apply m p) := by
  unfold apply
  refine ⟨rfl, ?_, ?_, ?_⟩
  · by_cases h : m.table = 0 <;> simp [h]
  · by_cases h : m.protocol = 0 <;> simp [h]
  · by_cases h : m.distance = 0 <;> simp [h]

theorem filter_none : ∀ (l : List (Sec Mod)) (index : Fin 4) (p : Param), (∀ e ∈ l, fits e.val index p = false) → rtFilter l index p = p := by
  intro l
  induction l with
  | nil => intro _ _ _; rfl
  | cons x xs ih =>
    intro index p h
    unfold rtFilter
    rw [h x (by simp)]
    exact ih index p (fun e he => h e (by simp [he]))

theorem filter_first : ∀ (l : List (Sec Mod)) (index : Fin 4) (p : Param) (e : Sec Mod), Ordered l → e ∈ l → fits e.val index p = true →
    (∀ x ∈ l, Before x.name e.name → fits x.val index p = false) → rtFilter l index p = apply e.val p := by
  intro l
  induction l with
  | nil => intro _ _ e _ h; cases h
  | cons x xs ih =>
    intro index p e ho hm hf hb
    unfold Ordered at ho
    rw [List.pairwise_cons] at ho
    unfold rtFilter
    rcases List.mem_cons.1 hm with rfl | hm
    · rw [hf]
      rfl
    · rw [hb x (by simp) (ho.1 e hm)]
      exact ih index p e ho.2 hm hf (fun y hy => hb y (by simp [hy]))

/-! ### Theorems -/

/-- **C176** (for names that fit): after every history of the configuration, a route to which no section applies is not
changed, and any other one is changed by the first of the sections that apply, in the order of their names. -/
theorem C176_first_partial (cs : List (Txt × Option (Mod → Mod))) (index : Fin 4) (p : Param) (hc : ∀ c ∈ cs, c.1.length < 16) (hw : p.dst.WF) :
    ∃ l, configureAll 16 {} [] cs = some l ∧ ((∀ e ∈ l, Entries e.val.filter) →
      ((∀ n m, meaning {} (fun _ => none) cs n = some m → ¬ Applies m index p.dst) → rtFilter l index p = p) ∧
      (∀ n m, meaning {} (fun _ => none) cs n = some m → Applies m index p.dst →
        (∀ n' m', meaning {} (fun _ => none) cs n' = some m' → Before n' n → ¬ Applies m' index p.dst) → Changed m p (rtFilter l index p))) := by
  obtain ⟨l, h1, h2, h3⟩ := C172_sections_partial 16 ({} : Mod) cs hc
  refine ⟨l, h1, fun hu => ⟨fun hno => ?_, ?_⟩⟩
  · apply filter_none
    intro e he
    have hf : find l e.name = some e := find_of_mem l e.name e h2 he rfl
    have := h3 e.name
    rw [hf] at this
    have hn := hno e.name e.val this.symm
    rw [← fits_iff _ _ _ (hu e he) hw] at hn
    simpa using hn
  · intro n m hn ha hb
    have hfm := h3 n
    rw [hn] at hfm
    cases hf : find l n with
    | none => rw [hf] at hfm; cases hfm
    | some e =>
      rw [hf] at hfm
      simp only [Option.map_some, Option.some.injEq] at hfm
      obtain ⟨q1, q2⟩ := find_some hf
      subst hfm
      rw [filter_first l index p e h2 q1 ((fits_iff _ _ _ (hu e q1) hw).2 ha) ?_]
      · exact apply_changed _ _
      · intro x hx hxe
        have hf' : find l x.name = some x := find_of_mem l x.name x h2 hx rfl
        have h4 := h3 x.name
        rw [hf'] at h4
        have hbn : Before x.name n := by
          have := (same_iff e.name n).2 q2
          exact before_trans hxe (by omega)
        have := hb x.name x.val h4.symm hbn
        rw [← fits_iff _ _ _ (hu x hx) hw] at this
        simpa using this

example : (configureAll 16 {} [] [([98], some fun _ => { filter := { acceptDefault := true }, table := 9 }), ([97], some fun _ => { filter := { acceptDefault := true }, prefixLen := 24, protocol := 77 })]).map
    (fun l => rtFilter l 0 ⟨exNet, 254, 100, 2⟩) = some ⟨exNet, 9, 100, 2⟩ := by decide +kernel
example : (configureAll 16 {} [] [([98], some fun _ => { filter := { acceptDefault := true }, table := 9 }), ([97], some fun _ => { filter := { acceptDefault := true }, prefixLen := 16, protocol := 77 })]).map
    (fun l => rtFilter l 0 ⟨exNet, 254, 100, 2⟩) = some ⟨exNet, 254, 77, 2⟩ := by decide +kernel

/-- **C176** does not hold for the number of a domain: the option is compared with the position at which the domain was
created, not with the extension that identifies it in messages and in the other sections.  A section for domain 5 is never
applied, whatever the extension of the domain. -/
theorem C176_domain_counterexample (l : List (Sec Mod)) (dom : Dom) (p : Param) (h : ∀ e ∈ l, e.val.domain = (dom.ext : Int)) (he : 4 ≤ dom.ext) :
    rtFilter l dom.index p = p := by
  apply filter_none
  intro e hm
  unfold fits
  rw [if_pos]
  rw [h e hm]
  have := dom.index.isLt
  omega

example : rtFilter [⟨[97], { domain := 5, filter := { acceptDefault := true }, table := 9 }⟩] (⟨0, 5, 100, 254⟩ : Dom).index ⟨exNet, 254, 100, 2⟩ = ⟨exNet, 254, 100, 2⟩ := by decide +kernel

end Verif.Import
