import Verif.Subsys.Init

namespace Verif.Subsys

/-! ### The parts of a plugin which do not change while plugins are started -/

def stat (t : List Plugin) : List (Name × List Name × Bool × Bool) := t.map fun p => (p.name, p.deps, p.dyn, p.gone)

theorem stat_modify (t : List Plugin) (n : Name) (f : Plugin → Plugin) (hf : ∀ p, (f p).name = p.name ∧ (f p).deps = p.deps ∧ (f p).dyn = p.dyn ∧ (f p).gone = p.gone) :
    stat (modify t n f) = stat t := by
  unfold stat modify
  rw [List.map_map]
  refine List.map_congr_left fun p _ => ?_
  dsimp only [Function.comp_apply]
  split
  · rw [(hf p).1, (hf p).2.1, (hf p).2.2.1, (hf p).2.2.2]
  · rfl

theorem stat_mem {t t' : List Plugin} (h : stat t' = stat t) {p : Plugin} (hp : p ∈ t) :
    ∃ q ∈ t', q.name = p.name ∧ q.deps = p.deps ∧ q.dyn = p.dyn ∧ q.gone = p.gone := by
  have : (p.name, p.deps, p.dyn, p.gone) ∈ stat t' := by rw [h]; exact List.mem_map.2 ⟨p, hp, rfl⟩
  obtain ⟨q, hq, he⟩ := List.mem_map.1 this
  simp only [Prod.mk.injEq] at he
  exact ⟨q, hq, he⟩

theorem startPlugin_stat (env : Env) (s : St) (p : Plugin) : stat (startPlugin env s p).1.tree = stat s.tree := by
  unfold startPlugin
  split
  · rfl
  · split
    · exact stat_modify _ _ _ fun _ => ⟨rfl, rfl, rfl, rfl⟩
    · rfl

theorem initDeps_stat {f : St → Name → Option (St × Res)} (hf : ∀ s n s' r, f s n = some (s', r) → stat s'.tree = stat s.tree)
    (ds : List Name) (s s' : St) (r : Res) (h : initDeps f s ds = some (s', r)) : stat s'.tree = stat s.tree := by
  induction ds generalizing s with
  | nil => cases h; rfl
  | cons d ds ih =>
    unfold initDeps at h
    split at h
    · cases h; rfl
    · split at h
      · cases h; rfl
      · split at h
        · cases h
        · rename_i h1; exact (ih _ h).trans (hf _ _ _ _ h1)
        · rename_i h1; cases h; exact hf _ _ _ _ h1

theorem initPlugin_stat (env : Env) (k : Nat) (s : St) (n : Name) (s' : St) (r : Res) (h : initPlugin env k s n = some (s', r)) :
    stat s'.tree = stat s.tree := by
  induction k generalizing s n s' r with
  | zero => cases h
  | succ k ih =>
    unfold initPlugin at h
    split at h
    · cases h
    · split at h
      · cases h; rfl
      · have h0 : stat (setMark s n true).tree = stat s.tree := stat_modify _ _ _ fun _ => ⟨rfl, rfl, rfl, rfl⟩
        split at h
        · cases h
        · rename_i s1 h1
          have e1 := initDeps_stat ih _ _ _ _ h1
          have e2 : stat (setMark s1 n false).tree = stat s1.tree := stat_modify _ _ _ fun _ => ⟨rfl, rfl, rfl, rfl⟩
          have e3 := startPlugin_stat env (setMark s1 n false) (by assumption)
          rw [Option.some.injEq] at h
          rw [h] at e3
          exact e3.trans (e2.trans (e1.trans h0))
        · rename_i h1; cases h; exact (initDeps_stat ih _ _ _ _ h1).trans h0

/-! ### Reasons for failure -/

/-- plugin `x` cannot be started: it is missing, its library cannot be loaded again, or its `init` fails -/
def Broken (env : Env) (t : List Plugin) (x : Name) : Prop :=
  (∀ p ∈ t, p.key ≠ x) ∨
    ∃ p ∈ t, p.key = x ∧ p.inited = false ∧ ((p.dyn = true ∧ env.dlopen p.name = false) ∨ env.init p.name = false)

theorem Broken.back {env : Env} {C : Name → Prop} {s s' : St} {L L' : List Name} (h : Inv C s L) (a : Adv C s L s' L')
    (hst : stat s'.tree = stat s.tree) {x : Name} (hb : Broken env s'.tree x) : Broken env s.tree x := by
  rcases hb with hb | ⟨p, hp, hk, hi, hd⟩
  · left
    intro p hp hk
    obtain ⟨q, hq, h1, _⟩ := stat_mem hst hp
    exact hb q hq (by unfold Plugin.key; rw [h1]; exact hk)
  · right
    obtain ⟨q, hq, h1, _, h3, _⟩ := stat_mem hst.symm hp
    have hkq : q.key = p.key := by unfold Plugin.key; rw [h1]
    refine ⟨q, hq, hkq.trans hk, ?_, by rw [h1, h3]; exact hd⟩
    cases hqi : q.inited with
    | false => rfl
    | true =>
      obtain ⟨N, hN⟩ := a.more
      have : p.key ∈ L' := by rw [hN, ← hkq]; exact List.mem_append_right _ ((h.inL q hq).1 hqi)
      rw [(a.inv.inL p hp).2 this] at hi
      cases hi

/-- `x` depends directly or indirectly on `y` -/
def Plus (t : List Plugin) (x y : Name) : Prop := ∃ z, Edge t x z ∧ Needs t z y

theorem Plus.same {t t' : List Plugin} (h : Same t t') {x y : Name} (hp : Plus t x y) : Plus t' x y := by
  obtain ⟨z, h1, h2⟩ := hp
  exact ⟨z, h1.same h, h2.same h⟩

theorem Plus.needs {t : List Plugin} {x y : Name} (hp : Plus t x y) : Needs t x y := by
  obtain ⟨z, h1, h2⟩ := hp
  exact .dep h1 h2

theorem Plus.step {t : List Plugin} {x y z : Name} (hp : Plus t x y) (he : Edge t y z) : Plus t x z := by
  obtain ⟨w, h1, h2⟩ := hp
  exact ⟨w, h1, h2.trans (.dep he (.refl z))⟩

/-- result of a call and its reason -/
def Why (env : Env) (t : List Plugin) (x : Name) (r : Res) : Prop :=
  (r = .circular → ∃ y, Needs t x y ∧ Cyclic t y) ∧ (r = .failed → ∃ y, Needs t x y ∧ Broken env t y)

def CallWhy (C : Name → Prop) (env : Env) (f : St → Name → Option (St × Res)) : Prop :=
  ∀ s L n s' r, Inv C s L → f s n = some (s', r) → (∀ y, Marked s y → y = fold n ∨ Plus s.tree y (fold n)) → Why env s.tree (fold n) r

theorem initDeps_why {C : Name → Prop} {env : Env} {f : St → Name → Option (St × Res)} (hf : CallOk C f)
    (hst : ∀ s n s' r, f s n = some (s', r) → stat s'.tree = stat s.tree) (hw : CallWhy C env f) {x : Name} (ds : List Name) (s : St)
    (L : List Name) (s' : St) (r : Res) (h : Inv C s L) (hr : initDeps f s ds = some (s', r)) (he : ∀ d ∈ ds, Edge s.tree x (fold d))
    (hm : ∀ y, Marked s y → y = x ∨ Plus s.tree y x) : Why env s.tree x r := by
  induction ds generalizing s L with
  | nil => cases hr; exact ⟨fun h => (nomatch h), fun h => (nomatch h)⟩
  | cons d ds ih =>
    have hed := he d List.mem_cons_self
    unfold initDeps at hr
    split at hr
    · rename_i hg
      cases hr
      exact ⟨fun h => (nomatch h), fun _ => ⟨fold d, .dep hed (.refl _), Or.inl (get_none hg)⟩⟩
    · rename_i q hg
      obtain ⟨hq, hkq⟩ := get_some hg
      split at hr
      · rename_i hmk
        cases hr
        refine ⟨fun _ => ⟨x, .refl x, fold d, hed, ?_⟩, fun h => (nomatch h)⟩
        rcases hm (fold d) ⟨q, hq, hkq, hmk⟩ with e | e
        · rw [e]; exact .refl _
        · exact e.needs
      · rename_i hmk
        have hm' : ∀ y, Marked s y → y = fold d ∨ Plus s.tree y (fold d) := by
          intro y hy
          rcases hm y hy with rfl | e
          · exact Or.inr ⟨fold d, hed, .refl _⟩
          · exact Or.inr (e.step hed)
        have hne : ∀ y, Marked s y → y ≠ fold d := by
          rintro y ⟨p, hp, hk, hpm⟩ rfl
          rw [Subsys.uniq h.uniq hp hq (hk.trans hkq.symm)] at hpm
          exact hmk hpm
        split at hr
        · cases hr
        · rename_i s1 hs1
          obtain ⟨L1, a1, m1, _, _⟩ := hf s L d s1 .ok h hs1
          have hback := a1.same.symm
          have := ih s1 L1 a1.inv hr (fun e hE => (he e (List.mem_cons_of_mem _ hE)).same a1.same)
            (fun y hy => (hm y (m1.2 rfl y hy)).imp id fun e => e.same a1.same)
          refine ⟨fun hc => ?_, fun hc => ?_⟩
          · obtain ⟨y, hy, hcy⟩ := this.1 hc
            exact ⟨y, hy.same hback, hcy.same hback⟩
          · obtain ⟨y, hy, hby⟩ := this.2 hc
            exact ⟨y, hy.same hback, hby.back h a1 (hst _ _ _ _ hs1)⟩
        · rename_i s1 r1 hne1 hs1
          cases hr
          have := hw s L d s' r h hs1 hm'
          refine ⟨fun hc => ?_, fun hc => ?_⟩
          · obtain ⟨y, hy, hcy⟩ := this.1 hc
            exact ⟨y, .dep hed hy, hcy⟩
          · obtain ⟨y, hy, hby⟩ := this.2 hc
            exact ⟨y, .dep hed hy, hby⟩

theorem initPlugin_why {C : Name → Prop} (env : Env) (k : Nat) : CallWhy C env (initPlugin env k) := by
  induction k with
  | zero => intro s L n s' r _ h; cases h
  | succ k ih =>
    intro s L n s' r h hr hm
    have hr0 := hr
    unfold initPlugin at hr
    split at hr
    · cases hr
    · rename_i p hg
      obtain ⟨hp, hk⟩ := get_some hg
      split at hr
      · cases hr
        exact ⟨fun h => (nomatch h), fun h => (nomatch h)⟩
      · rename_i hi
        have hnL : fold n ∉ L := by rw [← hk]; exact fun hx => hi ((h.inL p hp).2 hx)
        have a0 := setMark_adv h n true
        have hst0 : stat (setMark s n true).tree = stat s.tree := stat_modify _ _ _ fun _ => ⟨rfl, rfl, rfl, rfl⟩
        have hmn : Marked (setMark s n true) (fold n) := marked_setMark.2 (Or.inl ⟨rfl, rfl, p, hp, hk⟩)
        have hedge : ∀ d ∈ p.deps, Edge (setMark s n true).tree (fold n) (fold d) := fun d hd =>
          Edge.same a0.same ⟨p, hp, hk, d, hd, rfl⟩
        have hmm : ∀ y, Marked (setMark s n true) y → y = fold n ∨ Plus (setMark s n true).tree y (fold n) := by
          intro y hy
          by_cases hyn : y = fold n
          · exact Or.inl hyn
          · rcases marked_setMark.1 hy with hy | hy
            · exact Or.inl hy.1
            · exact (hm y hy.2).imp id fun e => e.same a0.same
        have wrap : ∀ r, Why env (setMark s n true).tree (fold n) r → Why env s.tree (fold n) r := by
          intro r hw
          refine ⟨fun hc => ?_, fun hc => ?_⟩
          · obtain ⟨y, hy, hcy⟩ := hw.1 hc
            exact ⟨y, hy.same a0.same.symm, hcy.same a0.same.symm⟩
          · obtain ⟨y, hy, hby⟩ := hw.2 hc
            exact ⟨y, hy.same a0.same.symm, hby.back h a0 hst0⟩
        split at hr
        · cases hr
        · rename_i s1 hs1
          obtain ⟨L1, a1, m1, m2, u1, t1⟩ := initDeps_adv (initPlugin_adv env k) p.deps _ L s1 .ok a0.inv hs1
          have a2 := setMark_adv a1.inv n false
          obtain ⟨p1, hp1, hn1, hd1⟩ := (a0.trans (a1.trans a2)).same.mem hp
          have hk1 : p1.key = fold n := by unfold Plugin.key; rw [hn1]; exact hk
          have hni1 : p1.inited = false := by
            cases hb : p1.inited with
            | false => rfl
            | true =>
              have := (a2.inv.inL p1 hp1).1 hb
              rw [hk1] at this
              exact absurd (u1 _ hmn this) hnL
          obtain ⟨s2, r2, hs2⟩ : ∃ s2 r2, startPlugin env (setMark s1 n false) p = (s2, r2) := ⟨_, _, rfl⟩
          rw [hs2] at hr
          cases hr
          obtain ⟨L2, _, _, _, _, c3, f3⟩ := startPlugin_adv a2.inv env hp1 p ⟨hn1.symm, hd1.symm⟩ hni1
            (fun d hd => t1 rfl d (by rw [← hd1]; exact hd)) hs2
          refine ⟨fun hc => absurd hc c3, fun hc => ⟨fold n, .refl _, Or.inr ⟨p, hp, hk, by simpa using hi, ?_⟩⟩⟩
          rw [← hn1]; exact f3 hc
        · rename_i s1 r1 hne1 hs1
          cases hr
          exact wrap _ (initDeps_why (initPlugin_adv env k) (initPlugin_stat env k) ih p.deps _ L s' r a0.inv hs1 hedge hmm)

/-! ### Depth of the recursion -/

open Classical in
/-- the plugins which are neither marked nor running -/
noncomputable def opened (s : St) (L : List Name) : Nat := ((keys s.tree).filter fun x => decide (¬Marked s x ∧ x ∉ L)).length

theorem filter_le {α : Type} {P Q : α → Bool} (l : List α) (h : ∀ x, Q x = true → P x = true) : (l.filter Q).length ≤ (l.filter P).length := by
  induction l with
  | nil => simp
  | cons a l ih =>
    rw [List.filter_cons, List.filter_cons]
    cases hq : Q a <;> cases hp : P a <;> simp
    · exact ih
    · omega
    · rw [h a hq] at hp; cases hp
    · exact ih

theorem filter_lt {α : Type} {P Q : α → Bool} (l : List α) (h : ∀ x, Q x = true → P x = true) {a : α} (ha : a ∈ l) (hp : P a = true)
    (hq : Q a = false) : (l.filter Q).length < (l.filter P).length := by
  induction l with
  | nil => cases ha
  | cons b l ih =>
    rw [List.filter_cons, List.filter_cons]
    rcases List.mem_cons.1 ha with rfl | ha
    · have := filter_le (P := P) (Q := Q) l h
      rw [hp, hq]; simp; omega
    · have := ih ha
      cases hqb : Q b <;> cases hpb : P b <;> simp
      · exact this
      · omega
      · rw [h b hqb] at hpb; cases hpb
      · exact this

theorem opened_le_length (s : St) (L : List Name) : opened s L ≤ s.tree.length := by
  unfold opened
  refine Nat.le_trans (List.length_filter_le _ _) ?_
  simp [keys]

theorem opened_mono {s s' : St} {L L' : List Name} (hk : keys s'.tree = keys s.tree) (h : ∀ x, ¬Marked s' x → x ∉ L' → ¬Marked s x ∧ x ∉ L) :
    opened s' L' ≤ opened s L := by
  unfold opened
  rw [hk]
  refine filter_le _ fun x hx => ?_
  simp only [decide_eq_true_eq] at hx ⊢
  exact h x hx.1 hx.2

theorem opened_mark {s : St} {L : List Name} {n : Name} (hex : ∃ p ∈ s.tree, p.key = fold n) (hm : ¬Marked s (fold n)) (hL : fold n ∉ L) :
    opened (setMark s n true) L < opened s L := by
  unfold opened
  rw [show keys (setMark s n true).tree = keys s.tree from (same_modify _ _ _ fun _ => ⟨rfl, rfl⟩ : Same s.tree (setMark s n true).tree).keys]
  obtain ⟨p, hp, hk⟩ := hex
  refine filter_lt _ (fun x hx => ?_) (a := fold n) (List.mem_map.2 ⟨p, hp, hk⟩) ?_ ?_
  · simp only [decide_eq_true_eq] at hx ⊢
    rw [marked_setMark] at hx
    by_cases hxn : x = fold n
    · exact absurd (Or.inl ⟨hxn, rfl, p, hp, hk.trans hxn.symm⟩) hx.1
    · exact ⟨fun hmx => hx.1 (Or.inr ⟨hxn, hmx⟩), hx.2⟩
  · simp only [decide_eq_true_eq]; exact ⟨hm, hL⟩
  · simp only [decide_eq_false_iff_not]
    rw [marked_setMark]
    exact fun h => h.1 (Or.inl ⟨rfl, rfl, p, hp, hk⟩)

def CallEnds (C : Name → Prop) (f : St → Name → Option (St × Res)) (k : Nat) : Prop :=
  ∀ s L n, Inv C s L → (∃ p ∈ s.tree, p.key = fold n) → ¬Marked s (fold n) → opened s L < k → ∃ s' r, f s n = some (s', r)

theorem initDeps_ends {C : Name → Prop} {f : St → Name → Option (St × Res)} {k : Nat} (hf : CallOk C f) (hend : CallEnds C f k) (ds : List Name)
    (s : St) (L : List Name) (h : Inv C s L) (hk : opened s L < k) : ∃ s' r, initDeps f s ds = some (s', r) := by
  induction ds generalizing s L with
  | nil => exact ⟨_, _, rfl⟩
  | cons d ds ih =>
    unfold initDeps
    split
    · exact ⟨_, _, rfl⟩
    · rename_i q hg
      obtain ⟨hq, hkq⟩ := get_some hg
      split
      · exact ⟨_, _, rfl⟩
      · rename_i hmk
        have hne : ¬Marked s (fold d) := by
          rintro ⟨p, hp, hkp, hpm⟩
          rw [Subsys.uniq h.uniq hp hq (hkp.trans hkq.symm)] at hpm
          exact hmk hpm
        obtain ⟨s1, r1, hs1⟩ := hend s L d h ⟨q, hq, hkq⟩ hne hk
        rw [hs1]
        cases r1 with
        | ok =>
          obtain ⟨L1, a1, m1, _, _⟩ := hf s L d s1 .ok h hs1
          refine ih s1 L1 a1.inv (Nat.lt_of_le_of_lt (opened_mono a1.same.keys fun x hx hxL => ⟨?_, ?_⟩) hk)
          · intro hmx
            by_cases hxd : x = fold d
            · exact hne (hxd ▸ hmx)
            · exact hx (m1.1 x hxd hmx)
          · obtain ⟨N, hN⟩ := a1.more
            exact fun hxl => hxL (by rw [hN]; exact List.mem_append_right _ hxl)
        | failed => exact ⟨_, _, rfl⟩
        | circular => exact ⟨_, _, rfl⟩

/-- a call after the dependencies were dealt with -/
theorem initPlugin_succ {C : Name → Prop} (env : Env) (k : Nat) {s : St} {L : List Name} {n : Name} (h : Inv C s L)
    (hex : ∃ p ∈ s.tree, p.key = fold n) (hd : fold n ∉ L → ∀ ds, ∃ s' r, initDeps (initPlugin env k) (setMark s n true) ds = some (s', r)) :
    ∃ s' r, initPlugin env (k + 1) s n = some (s', r) := by
  unfold initPlugin
  split
  · rename_i hg
    obtain ⟨p, hp, hk⟩ := hex
    exact absurd hk (get_none hg p hp)
  · rename_i p hg
    obtain ⟨hp, hk⟩ := get_some hg
    split
    · exact ⟨_, _, rfl⟩
    · rename_i hi
      have hnL : fold n ∉ L := by rw [← hk]; exact fun hx => hi ((h.inL p hp).2 hx)
      obtain ⟨s1, r1, hs1⟩ := hd hnL p.deps
      rw [hs1]
      cases r1 with
      | ok => exact ⟨_, _, rfl⟩
      | failed => exact ⟨_, _, rfl⟩
      | circular => exact ⟨_, _, rfl⟩

theorem initPlugin_ends {C : Name → Prop} (env : Env) (k : Nat) : CallEnds C (initPlugin env k) k := by
  induction k with
  | zero => intro s L n _ _ _ h; omega
  | succ k ih =>
    intro s L n h hex hm hk
    refine initPlugin_succ env k h hex fun hnL ds => ?_
    exact initDeps_ends (initPlugin_adv env k) ih ds _ L (setMark_adv h n true).inv (by have := opened_mark hex hm hnL; omega)

theorem callInit_ends {C : Name → Prop} (env : Env) {s : St} {L : List Name} {n : Name} (h : Inv C s L) (hex : ∃ p ∈ s.tree, p.key = fold n) :
    ∃ s' r, callInit env s n = some (s', r) := by
  unfold callInit
  refine initPlugin_succ env _ h hex fun hnL ds => ?_
  refine initDeps_ends (initPlugin_adv env _) (initPlugin_ends env _) ds _ L (setMark_adv h n true).inv ?_
  have := opened_le_length (setMark s n true) L
  rw [(setMark_adv h n true).same.length] at this
  omega

end Verif.Subsys
