import Verif.WReg.Steps
/-!
C223: message creators of the RFC 5444 writer.
-/

namespace Verif.WReg

theorem provs_append (b : Book) (own : Nat → Option (Option Nat)) (p ty ty' : Nat) :
    ({ b with owner := own, prov := b.prov ++ [(p, ty)] } : Book).provs ty' = b.provs ty' ++ if ty = ty' then [p] else [] := by
  by_cases e : ty = ty' <;> simp [Book.provs, List.filter_append, e]

theorem provs_remove (b : Book) (own : Nat → Option (Option Nat)) (p ty : Nat) :
    ({ b with owner := own, prov := b.prov.filter (·.1 ≠ p) } : Book).provs ty = (b.provs ty).filter (· ≠ p) := by
  simp only [Book.provs]
  induction b.prov with
  | nil => rfl
  | cons a l ih =>
    obtain ⟨q, t⟩ := a
    by_cases e : q = p <;> by_cases e' : t = ty <;> simp [e, e'] <;> simpa using ih

theorem registerProvider_inv {prio : Nat → Int} {w : W} {b : Book} (h : Inv prio w b none) {p ty : Nat} {ts : List Nat}
    (hp : p ∉ b.prov.map (·.1)) (hn : ts.Nodup) (ht : ∀ t ∈ ts, b.owner t = none) (hty : ty < 256) :
    ∃ w', registerProvider prio w p ty ts = some w' ∧
      Inv prio w' { b with owner := setAll b.owner ts (some (some ty)), prov := b.prov ++ [(p, ty)] } none ∧
      (∀ ty' o, w.tree ty' = some o → w'.tree ty' = some o) := by
  obtain ⟨hg, htr, htin, hpin⟩ := getMessage_inv h ty hty
  have htree : ∀ ty' o, w.tree ty' = some o → (getMessage w ty).1.tree ty' = some o := by
    intro ty' o ho
    unfold getMessage
    cases e : w.tree ty with
    | some x => exact ho
    | none =>
      dsimp only
      rw [put_other _ _ (fun e' => by rw [e', e] at ho; simp at ho)]
      exact ho
  have htn : ∀ t ∈ ts, (getMessage w ty).1.tin t = none := by
    intro t m
    rw [htin]
    cases e : w.tin t with
    | none => rfl
    | some x =>
      cases x with
      | none => have := h.tgen t e; rw [ht t m] at this; simp at this
      | some o => obtain ⟨_, _, hb⟩ := h.tlive t o e; rw [ht t m] at hb; simp at hb
  obtain ⟨w1, hw1, hi1, htr1, hpin1⟩ := registerTypes_inv ts hn hg htr htn
  generalize hgo : (getMessage w ty).2 = o at hi1 hw1 htr htr1 hg
  have hpn : w1.pin p = none := by
    rw [hpin1, hpin]
    cases e : w.pin p with
    | none => rfl
    | some x => exact absurd ((h.prov_iff p).2 (by simp [e])) hp
  have ho1 : w1.tree ty = some o := by rw [htr1]; exact htr
  obtain ⟨m₀, hm₀, hmt⟩ := hi1.tree _ _ ho1
  refine ⟨{ w1 with heap := put w1.heap o (some { m₀ with provs := insertProv prio p m₀.provs }), pin := put w1.pin p (some o) }, ?_, ?_, ?_⟩
  · unfold registerProvider
    dsimp only
    rw [hgo, hw1]
    simp only [Option.bind_some, hpn, hm₀]
  · have pother : ∀ x m, w1.heap x = some m → x ≠ o → m.type ≠ ty := by
      intro x m hm e e'
      have := hi1.heap x m hm
      rw [e', ho1] at this
      simp at this
      exact e this.symm
    constructor <;> try dsimp only
    · intro ty' x hx
      obtain ⟨m, hm, e⟩ := hi1.tree _ _ hx
      obtain ⟨m₁, hm₁, e₁⟩ := put_some (m' := { m₀ with provs := insertProv prio p m₀.provs }) hm₀ rfl hm
      exact ⟨m₁, hm₁, e₁.trans e⟩
    · intro x m hm
      rcases put_cases hm with ⟨rfl, rfl⟩ | ⟨e, hm⟩
      · exact hi1.heap _ m₀ hm₀
      · exact hi1.heap x m hm
    · intro x m hm
      rcases put_cases hm with ⟨rfl, rfl⟩ | ⟨e, hm⟩
      · exact hi1.fresh _ m₀ hm₀
      · exact hi1.fresh x m hm
    · intro x m hm
      rcases put_cases hm with ⟨rfl, rfl⟩ | ⟨e, hm⟩
      · exact hi1.byte _ m₀ hm₀
      · exact hi1.byte x m hm
    · intro x m hm t'
      rcases put_cases hm with ⟨rfl, rfl⟩ | ⟨e, hm⟩
      · exact hi1.types _ m₀ hm₀ t'
      · exact hi1.types x m hm t'
    · intro x m hm p'
      rcases put_cases hm with ⟨rfl, rfl⟩ | ⟨e, hm'⟩
      · dsimp only
        rw [mem_insertProv]
        by_cases e : p' = p
        · subst e; simp
        · rw [put_other _ _ e, ← hi1.pins _ m₀ hm₀ p']; simp [e]
      · by_cases e' : p' = p
        · subst e'
          rw [put_same]
          have := hi1.pins x m hm' p'
          rw [hpn] at this
          constructor
          · intro hh; have := this.1 hh; simp at this
          · intro hh; simp at hh; exact absurd hh.symm e
        · rw [put_other _ _ e']; exact hi1.pins x m hm' p'
    · intro x m hm
      rw [provs_append b]
      rcases put_cases hm with ⟨rfl, rfl⟩ | ⟨e, hm'⟩
      · dsimp only
        rw [if_pos hmt.symm]
        exact insertProv_order (hi1.order _ m₀ hm₀) p
      · rw [if_neg (fun e' => pother x m hm' e e'.symm), List.append_nil]
        exact hi1.order x m hm'
    · intro x m hm _
      rcases put_cases hm with ⟨rfl, rfl⟩ | ⟨e, hm'⟩
      · refine .inr (.inr ?_)
        dsimp only
        intro e
        have := (mem_insertProv prio p m₀.provs p).2 (.inl rfl)
        rw [e] at this
        simp at this
      · exact hi1.used x m hm' (by intro e'; simp at e'; exact e e'.symm)
    · intro t x hx
      obtain ⟨m, hm, hb⟩ := hi1.tlive t x hx
      obtain ⟨m₁, hm₁, e₁⟩ := put_some (m' := { m₀ with provs := insertProv prio p m₀.provs }) hm₀ rfl hm
      exact ⟨m₁, hm₁, by rw [e₁]; exact hb⟩
    · exact hi1.tgen
    · exact hi1.tnone
    · intro p' x hx
      by_cases e : p' = p
      · subst e
        rw [put_same] at hx
        simp at hx
        subst hx
        exact ⟨_, put_same _ _ _⟩
      · rw [put_other _ _ e] at hx
        obtain ⟨m, hm⟩ := hi1.plive p' x hx
        obtain ⟨m₁, hm₁, -⟩ := put_some (m' := { m₀ with provs := insertProv prio p m₀.provs }) hm₀ rfl hm
        exact ⟨m₁, hm₁⟩
    · intro p' ty' hm
      rcases List.mem_append.1 hm with hm | hm
      · obtain ⟨x, hx, hx'⟩ := hi1.prov p' ty' hm
        refine ⟨x, ?_, hx'⟩
        rw [put_other _ _ (fun e => by rw [e, hpn] at hx; simp at hx)]
        exact hx
      · simp at hm
        obtain ⟨rfl, rfl⟩ := hm
        exact ⟨o, put_same _ _ _, ho1⟩
    · exact hi1.gen
    · intro x m hm
      rcases put_cases hm with ⟨rfl, rfl⟩ | ⟨e, hm⟩
      · exact hi1.reg _ m₀ hm₀
      · exact hi1.reg x m hm
    · exact hi1.regs
  · intro ty' x hx
    show w1.tree ty' = some x
    rw [htr1]
    exact htree ty' x hx

theorem unregisterProvider_inv {prio : Nat → Int} {w : W} {b : Book} (h : Inv prio w b none) (p : Nat) (ts : List Nat) :
    ∃ w', unregisterProvider w p ts = some w' ∧
      Inv prio w' (if p ∈ b.prov.map (·.1) then { b with owner := setAll b.owner ts none, prov := b.prov.filter (·.1 ≠ p) } else b) none ∧
      w'.fwd = w.fwd ∧ (∀ q, q ≠ p → w'.pin q = w.pin q) ∧ w'.pin p = none := by
  unfold unregisterProvider
  cases hp : w.pin p with
  | none =>
    refine ⟨w, rfl, ?_, rfl, fun _ _ => rfl, hp⟩
    rw [if_neg]
    · exact h
    · rw [h.prov_iff]; simp [hp]
  | some o =>
    rw [if_pos ((h.prov_iff p).2 (by simp [hp]))]
    dsimp only
    obtain ⟨w1, hw1, hi1, hpin1, hf1, -⟩ := unregisterTypes_inv ts h
    have hp1 : w1.pin p = some o := by rw [hpin1]; exact hp
    obtain ⟨m₀, hm₀⟩ := hi1.plive p o hp1
    rw [hw1]
    simp only [Option.bind_some, hm₀]
    have h1 : Inv prio { w1 with heap := put w1.heap o (some { m₀ with provs := m₀.provs.filter (· ≠ p) }), pin := put w1.pin p none }
        { b with owner := setAll b.owner ts none, prov := b.prov.filter (·.1 ≠ p) } (some o) := by
      constructor <;> try dsimp only
      · intro ty' x hx
        obtain ⟨m, hm, e⟩ := hi1.tree _ _ hx
        obtain ⟨m₁, hm₁, e₁⟩ := put_some (m' := { m₀ with provs := m₀.provs.filter (· ≠ p) }) hm₀ rfl hm
        exact ⟨m₁, hm₁, e₁.trans e⟩
      · intro x m hm
        rcases put_cases hm with ⟨rfl, rfl⟩ | ⟨e, hm⟩
        · exact hi1.heap _ m₀ hm₀
        · exact hi1.heap x m hm
      · intro x m hm
        rcases put_cases hm with ⟨rfl, rfl⟩ | ⟨e, hm⟩
        · exact hi1.fresh _ m₀ hm₀
        · exact hi1.fresh x m hm
      · intro x m hm
        rcases put_cases hm with ⟨rfl, rfl⟩ | ⟨e, hm⟩
        · exact hi1.byte _ m₀ hm₀
        · exact hi1.byte x m hm
      · intro x m hm t'
        rcases put_cases hm with ⟨rfl, rfl⟩ | ⟨e, hm⟩
        · exact hi1.types _ m₀ hm₀ t'
        · exact hi1.types x m hm t'
      · intro x m hm p'
        rcases put_cases hm with ⟨rfl, rfl⟩ | ⟨e, hm'⟩
        · dsimp only
          by_cases e : p' = p
          · subst e; simp
          · rw [put_other _ _ e, ← hi1.pins _ m₀ hm₀ p']; simp [e]
        · by_cases e' : p' = p
          · subst e'
            rw [put_same]
            have := hi1.pins x m hm' p'
            rw [hp1] at this
            constructor
            · intro hh; have := this.1 hh; simp at this; exact absurd this.symm e
            · intro hh; simp at hh
          · rw [put_other _ _ e']; exact hi1.pins x m hm' p'
      · intro x m hm
        rw [provs_remove b]
        rcases put_cases hm with ⟨rfl, rfl⟩ | ⟨e, hm'⟩
        · exact filter_order (hi1.order _ m₀ hm₀) p
        · have : m.provs.filter (· ≠ p) = m.provs := by
            rw [List.filter_eq_self]
            intro q hq
            have := (hi1.pins x m hm' q).1 hq
            have e' : q ≠ p := by
              intro e'
              rw [e', hp1] at this
              simp at this
              exact e this.symm
            simp [e']
          rw [← this]
          exact filter_order (hi1.order x m hm') p
      · intro x m hm hx
        rcases put_cases hm with ⟨rfl, rfl⟩ | ⟨e, hm⟩
        · exact absurd rfl hx
        · exact hi1.used x m hm (by simp)
      · intro t x hx
        obtain ⟨m, hm, hb⟩ := hi1.tlive t x hx
        obtain ⟨m₁, hm₁, e₁⟩ := put_some (m' := { m₀ with provs := m₀.provs.filter (· ≠ p) }) hm₀ rfl hm
        exact ⟨m₁, hm₁, by rw [e₁]; exact hb⟩
      · exact hi1.tgen
      · exact hi1.tnone
      · intro p' x hx
        by_cases e : p' = p
        · subst e; rw [put_same] at hx; simp at hx
        · rw [put_other _ _ e] at hx
          obtain ⟨m, hm⟩ := hi1.plive p' x hx
          obtain ⟨m₁, hm₁, -⟩ := put_some (m' := { m₀ with provs := m₀.provs.filter (· ≠ p) }) hm₀ rfl hm
          exact ⟨m₁, hm₁⟩
      · intro p' ty' hm
        rw [List.mem_filter] at hm
        obtain ⟨x, hx, hx'⟩ := hi1.prov p' ty' hm.1
        have e : p' ≠ p := by simpa using hm.2
        exact ⟨x, by rw [put_other _ _ e]; exact hx, hx'⟩
      · exact hi1.gen
      · intro x m hm
        rcases put_cases hm with ⟨rfl, rfl⟩ | ⟨e, hm⟩
        · exact hi1.reg _ m₀ hm₀
        · exact hi1.reg x m hm
      · exact hi1.regs
    obtain ⟨w', hw', hi, hp', htin, hf, -, -⟩ := lazyFree_inv h1 (put_same _ _ _)
    refine ⟨w', hw', hi, hf.trans hf1, ?_, ?_⟩
    · intro q e
      rw [hp']
      show put w1.pin p none q = _
      rw [put_other _ _ e, hpin1]
    · rw [hp']; exact put_same _ _ _

/-- Registration or its end: only the flag of the object and of the books changes. -/
theorem setReg_inv {prio : Nat → Int} {w : W} {b : Book} {ex : Option Nat} {o ty : Nat} {m₀ : Msg} (h : Inv prio w b ex)
    (hex : ex = none ∨ ex = some o) (hm₀ : w.heap o = some m₀) (hty : m₀.type = ty) (r : Bool) :
    Inv prio { w with heap := put w.heap o (some { m₀ with reg := r }) } { b with reg := setAll b.reg [ty] r }
      (if r then none else some o) := by
  constructor <;> try dsimp only
  · intro ty' x hx
    obtain ⟨m, hm, e⟩ := h.tree _ _ hx
    obtain ⟨m₁, hm₁, e₁⟩ := put_some (m' := { m₀ with reg := r }) hm₀ rfl hm
    exact ⟨m₁, hm₁, e₁.trans e⟩
  · intro x m hm
    rcases put_cases hm with ⟨rfl, rfl⟩ | ⟨e, hm⟩
    · exact h.heap _ m₀ hm₀
    · exact h.heap x m hm
  · intro x m hm
    rcases put_cases hm with ⟨rfl, rfl⟩ | ⟨e, hm⟩
    · exact h.fresh _ m₀ hm₀
    · exact h.fresh x m hm
  · intro x m hm
    rcases put_cases hm with ⟨rfl, rfl⟩ | ⟨e, hm⟩
    · exact h.byte _ m₀ hm₀
    · exact h.byte x m hm
  · intro x m hm t'
    rcases put_cases hm with ⟨rfl, rfl⟩ | ⟨e, hm⟩
    · exact h.types _ m₀ hm₀ t'
    · exact h.types x m hm t'
  · intro x m hm p
    rcases put_cases hm with ⟨rfl, rfl⟩ | ⟨e, hm⟩
    · exact h.pins _ m₀ hm₀ p
    · exact h.pins x m hm p
  · intro x m hm
    rcases put_cases hm with ⟨rfl, rfl⟩ | ⟨e, hm⟩
    · exact h.order _ m₀ hm₀
    · exact h.order x m hm
  · intro x m hm hx
    rcases put_cases hm with ⟨rfl, rfl⟩ | ⟨e, hm⟩
    · cases r with
      | true => exact .inl rfl
      | false => exact absurd rfl hx
    · refine h.used x m hm ?_
      rcases hex with rfl | rfl
      · simp
      · intro e'; simp at e'; exact e e'.symm
  · intro t x hx
    obtain ⟨m, hm, hb⟩ := h.tlive t x hx
    obtain ⟨m₁, hm₁, e₁⟩ := put_some (m' := { m₀ with reg := r }) hm₀ rfl hm
    exact ⟨m₁, hm₁, by rw [e₁]; exact hb⟩
  · exact h.tgen
  · exact h.tnone
  · intro p x hx
    obtain ⟨m, hm⟩ := h.plive p x hx
    obtain ⟨m₁, hm₁, -⟩ := put_some (m' := { m₀ with reg := r }) hm₀ rfl hm
    exact ⟨m₁, hm₁⟩
  · exact h.prov
  · exact h.gen
  · intro x m hm
    rcases put_cases hm with ⟨rfl, rfl⟩ | ⟨e, hm'⟩
    · simp [setAll, hty]
    · have : m.type ≠ ty := by
        intro e'
        have h1 := h.heap x m hm'
        have h2 := h.heap o m₀ hm₀
        rw [hty] at h2
        rw [e', h2] at h1
        simp at h1
        exact e h1.symm
      simp [setAll, this, h.reg x m hm']
  · intro ty' hr
    by_cases e : ty' = ty
    · subst e
      exact ⟨o, by rw [← hty]; exact h.heap o m₀ hm₀⟩
    · simp [setAll, e] at hr
      exact h.regs ty' hr

/-- The header callback is not part of the bookkeeping. -/
theorem setHdr_inv {prio : Nat → Int} {w : W} {b : Book} {o : Nat} {m₀ : Msg} (h : Inv prio w b none)
    (hm₀ : w.heap o = some m₀) (cb : Option Nat) :
    Inv prio { w with heap := put w.heap o (some { m₀ with hdr := cb }) } b none := by
  have hu := h.used o m₀ hm₀ (by simp)
  constructor <;> try dsimp only
  · intro ty' x hx
    obtain ⟨m, hm, e⟩ := h.tree _ _ hx
    obtain ⟨m₁, hm₁, e₁⟩ := put_some (m' := { m₀ with hdr := cb }) hm₀ rfl hm
    exact ⟨m₁, hm₁, e₁.trans e⟩
  · intro x m hm
    rcases put_cases hm with ⟨rfl, rfl⟩ | ⟨e, hm⟩
    · exact h.heap _ m₀ hm₀
    · exact h.heap x m hm
  · intro x m hm
    rcases put_cases hm with ⟨rfl, rfl⟩ | ⟨e, hm⟩
    · exact h.fresh _ m₀ hm₀
    · exact h.fresh x m hm
  · intro x m hm
    rcases put_cases hm with ⟨rfl, rfl⟩ | ⟨e, hm⟩
    · exact h.byte _ m₀ hm₀
    · exact h.byte x m hm
  · intro x m hm t'
    rcases put_cases hm with ⟨rfl, rfl⟩ | ⟨e, hm⟩
    · exact h.types _ m₀ hm₀ t'
    · exact h.types x m hm t'
  · intro x m hm p
    rcases put_cases hm with ⟨rfl, rfl⟩ | ⟨e, hm⟩
    · exact h.pins _ m₀ hm₀ p
    · exact h.pins x m hm p
  · intro x m hm
    rcases put_cases hm with ⟨rfl, rfl⟩ | ⟨e, hm⟩
    · exact h.order _ m₀ hm₀
    · exact h.order x m hm
  · intro x m hm hx
    rcases put_cases hm with ⟨rfl, rfl⟩ | ⟨e, hm⟩
    · exact hu
    · exact h.used x m hm hx
  · intro t x hx
    obtain ⟨m, hm, hb⟩ := h.tlive t x hx
    obtain ⟨m₁, hm₁, e₁⟩ := put_some (m' := { m₀ with hdr := cb }) hm₀ rfl hm
    exact ⟨m₁, hm₁, by rw [e₁]; exact hb⟩
  · exact h.tgen
  · exact h.tnone
  · intro p x hx
    obtain ⟨m, hm⟩ := h.plive p x hx
    obtain ⟨m₁, hm₁, -⟩ := put_some (m' := { m₀ with hdr := cb }) hm₀ rfl hm
    exact ⟨m₁, hm₁⟩
  · exact h.prov
  · exact h.gen
  · intro x m hm
    rcases put_cases hm with ⟨rfl, rfl⟩ | ⟨e, hm⟩
    · exact h.reg _ m₀ hm₀
    · exact h.reg x m hm
  · exact h.regs

end Verif.WReg
