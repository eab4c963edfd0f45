import Verif.Subsys.Lemmas

namespace Verif.Subsys

/-! ### Starting plugins -/

/-- the plugin with this key is marked -/
def Marked (s : St) (x : Name) : Prop := ∃ p ∈ s.tree, p.key = x ∧ p.marked = true

/-- what happens to the state while plugins are started: `L`, `L'`: running plugins before and after -/
structure Adv (C : Name → Prop) (s : St) (L : List Name) (s' : St) (L' : List Name) : Prop where
  inv : Inv C s' L'
  same : Same s.tree s'.tree
  more : ∃ N, L' = N ++ L
  schema : s'.schema = s.schema

theorem Adv.refl {C : Name → Prop} {s : St} {L : List Name} (h : Inv C s L) : Adv C s L s L := ⟨h, Same.refl _, ⟨[], rfl⟩, rfl⟩

theorem Adv.trans {C : Name → Prop} {a b c : St} {L M N : List Name} (h : Adv C a L b M) (h' : Adv C b M c N) : Adv C a L c N := by
  obtain ⟨X, hX⟩ := h.more
  obtain ⟨Y, hY⟩ := h'.more
  exact ⟨h'.inv, h.same.trans h'.same, ⟨Y ++ X, by rw [hY, hX]; simp⟩, h'.schema.trans h.schema⟩

theorem setMark_adv {C : Name → Prop} {s : St} {L : List Name} (h : Inv C s L) (n : Name) (b : Bool) : Adv C s L (setMark s n b) L :=
  ⟨h.modify n _ fun _ => ⟨rfl, rfl, rfl⟩, same_modify _ _ _ fun _ => ⟨rfl, rfl⟩, ⟨[], rfl⟩, rfl⟩

theorem marked_setMark {s : St} {n x : Name} {b : Bool} :
    Marked (setMark s n b) x ↔ (x = fold n ∧ b = true ∧ ∃ p ∈ s.tree, p.key = x) ∨ (x ≠ fold n ∧ Marked s x) := by
  unfold Marked setMark
  constructor
  · rintro ⟨q, hq, hk, hm⟩
    obtain ⟨p, hp, rfl⟩ := mem_modify.1 hq
    by_cases h : p.key = fold n
    · rw [if_pos h] at hk hm
      exact Or.inl ⟨hk ▸ h, hm, p, hp, hk⟩
    · rw [if_neg h] at hk hm
      exact Or.inr ⟨by rw [← hk]; exact h, p, hp, hk, hm⟩
  · rintro (⟨hx, hb, p, hp, hk⟩ | ⟨hx, p, hp, hk, hm⟩)
    · exact ⟨{ p with marked := b }, mem_modify.2 ⟨p, hp, by rw [if_pos (hk.trans hx)]⟩, hk, hb⟩
    · exact ⟨p, mem_modify.2 ⟨p, hp, by rw [if_neg (by rw [hk]; exact hx)]⟩, hk, hm⟩

/-- the marks after a call for plugin `x`: marks of others stay; after success there is no new mark -/
def Marks (s s' : St) (x : Name) (r : Res) : Prop :=
  (∀ y, y ≠ x → Marked s y → Marked s' y) ∧ (r = .ok → ∀ y, Marked s' y → Marked s y)

/-- plugins which are marked are not started (`x`: the plugin a call is for) -/
def Untouched (s : St) (L L' : List Name) (x : Name) : Prop := ∀ y, y ≠ x → Marked s y → y ∈ L' → y ∈ L

def Target (x : Name) (r : Res) (L' : List Name) : Prop := r = .ok → x ∈ L'

theorem startPlugin_adv {C : Name → Prop} {s : St} {L : List Name} (h : Inv C s L) (env : Env) {p : Plugin} (hp : p ∈ s.tree) (p0 : Plugin)
    (he : p0.name = p.name ∧ p0.deps = p.deps) (hni : p.inited = false) (hd : ∀ d ∈ p.deps, fold d ∈ L) {s' : St} {r : Res}
    (hr : startPlugin env s p0 = (s', r)) :
    ∃ L', Adv C s L s' L' ∧ (∀ y, Marked s' y ↔ Marked s y) ∧ (∀ y ∈ L', y ≠ p.key → y ∈ L) ∧ (r = .ok → p.key ∈ L') ∧ r ≠ .circular ∧
      (r = .failed → p0.dyn = true ∧ env.dlopen p.name = false ∨ env.init p.name = false) := by
  unfold startPlugin at hr
  rw [he.1, he.2] at hr
  split at hr
  · rename_i hc
    cases hr
    refine ⟨L, Adv.refl h, fun _ => Iff.rfl, fun _ hy _ => hy, fun h => (nomatch h), fun h => (nomatch h), fun _ => Or.inl ?_⟩
    simpa using hc
  · split at hr
    · cases hr
      refine ⟨p.key :: L, ⟨h.start hp hni hd, same_modify _ _ _ fun _ => ⟨rfl, rfl⟩, ⟨[p.key], rfl⟩, rfl⟩, ?_, ?_, fun _ => List.mem_cons_self,
        fun h => (nomatch h), fun h => (nomatch h)⟩
      · intro y
        unfold Marked
        constructor
        · rintro ⟨q, hq, hk, hm⟩
          obtain ⟨p', hp', rfl⟩ := mem_modify.1 hq
          by_cases hx : p'.key = fold p.name
          · rw [if_pos hx] at hk hm; exact ⟨p', hp', hk, hm⟩
          · rw [if_neg hx] at hk hm; exact ⟨p', hp', hk, hm⟩
        · rintro ⟨q, hq, hk, hm⟩
          refine ⟨_, mem_modify.2 ⟨q, hq, rfl⟩, ?_, ?_⟩
          · split <;> exact hk
          · split <;> exact hm
      · intro y hy hne
        rcases List.mem_cons.1 hy with rfl | hy
        · exact absurd rfl hne
        · exact hy
    · rename_i hc
      cases hr
      exact ⟨L, ⟨h.startFailed hp hni hd, Same.refl _, ⟨[], rfl⟩, rfl⟩, fun _ => Iff.rfl, fun _ hy _ => hy, fun h => (nomatch h),
        fun h => (nomatch h), fun _ => Or.inr (by simpa using hc)⟩

/-- the properties of a call of `_init_plugin` for the plugin `n` -/
def CallOk (C : Name → Prop) (f : St → Name → Option (St × Res)) : Prop :=
  ∀ s L n s' r, Inv C s L → f s n = some (s', r) →
    ∃ L', Adv C s L s' L' ∧ Marks s s' (fold n) r ∧ Untouched s L L' (fold n) ∧ Target (fold n) r L'

theorem initDeps_adv {C : Name → Prop} {f : St → Name → Option (St × Res)} (hf : CallOk C f) (ds : List Name) (s : St) (L : List Name)
    (s' : St) (r : Res) (h : Inv C s L) (hr : initDeps f s ds = some (s', r)) :
    ∃ L', Adv C s L s' L' ∧ (∀ y, Marked s y → Marked s' y) ∧ (r = .ok → ∀ y, Marked s' y → Marked s y) ∧
      (∀ y, Marked s y → y ∈ L' → y ∈ L) ∧ (r = .ok → ∀ d ∈ ds, fold d ∈ L') := by
  induction ds generalizing s L with
  | nil =>
    cases hr
    exact ⟨L, Adv.refl h, fun _ h => h, fun _ _ h => h, fun _ _ h => h, fun _ _ h => (nomatch h)⟩
  | cons d ds ih =>
    unfold initDeps at hr
    split at hr
    · cases hr
      exact ⟨L, Adv.refl h, fun _ h => h, fun h => (nomatch h), fun _ _ h => h, fun h => (nomatch h)⟩
    · rename_i q hg
      obtain ⟨hq, hkq⟩ := get_some hg
      split at hr
      · cases hr
        exact ⟨L, Adv.refl h, fun _ h => h, fun h => (nomatch h), fun _ _ h => h, fun h => (nomatch h)⟩
      · rename_i hm
        have hne : ∀ y, Marked s y → y ≠ fold d := by
          rintro y ⟨p, hp, hk, hpm⟩ rfl
          rw [Subsys.uniq h.uniq hp hq (hk.trans hkq.symm)] at hpm
          exact hm hpm
        split at hr
        · cases hr
        · rename_i s1 hs1
          obtain ⟨L1, ha, hmk, hu, ht⟩ := hf s L d s1 .ok h hs1
          obtain ⟨L2, ha2, m1, m2, u2, t2⟩ := ih s1 L1 ha.inv hr
          refine ⟨L2, ha.trans ha2, fun y hy => m1 y (hmk.1 y (hne y hy) hy), fun hok y hy => hmk.2 rfl y (m2 hok y hy), ?_, ?_⟩
          · intro y hy hyL
            exact hu y (hne y hy) hy (u2 y (hmk.1 y (hne y hy) hy) hyL)
          · intro hok e he
            rcases List.mem_cons.1 he with rfl | he
            · obtain ⟨N, hN⟩ := ha2.more
              rw [hN]
              exact List.mem_append_right _ (ht rfl)
            · exact t2 hok e he
        · rename_i s1 r1 hne1 hs1
          cases hr
          obtain ⟨L1, ha, hmk, hu, ht⟩ := hf s L d s' r h hs1
          have hnok : r ≠ .ok := hne1
          exact ⟨L1, ha, fun y hy => hmk.1 y (hne y hy) hy, fun hok => absurd hok hnok, fun y hy => hu y (hne y hy) hy,
            fun hok => absurd hok hnok⟩

theorem initPlugin_adv {C : Name → Prop} (env : Env) (k : Nat) : CallOk C (initPlugin env k) := by
  induction k with
  | zero => intro s L n s' r _ h; cases h
  | succ k ih =>
    intro s L n s' r h hr
    unfold initPlugin at hr
    split at hr
    · cases hr
    · rename_i p hg
      obtain ⟨hp, hk⟩ := get_some hg
      split at hr
      · rename_i hi
        cases hr
        refine ⟨L, Adv.refl h, ⟨fun _ _ h => h, fun _ _ h => h⟩, fun _ _ _ h => h, fun _ => ?_⟩
        rw [← hk]; exact (h.inL p hp).1 hi
      · rename_i hi
        have hnL : fold n ∉ L := by rw [← hk]; exact fun hx => hi ((h.inL p hp).2 hx)
        have a0 := setMark_adv h n true
        have hmn : Marked (setMark s n true) (fold n) := marked_setMark.2 (Or.inl ⟨rfl, rfl, p, hp, hk⟩)
        have mo : ∀ y, y ≠ fold n → (Marked (setMark s n true) y ↔ Marked s y) := by
          intro y hy
          rw [marked_setMark]
          simp [hy]
        split at hr
        · cases hr
        · rename_i s1 hs1
          obtain ⟨L1, a1, m1, m2, u1, t1⟩ := initDeps_adv ih p.deps _ L s1 .ok a0.inv hs1
          have a2 := setMark_adv a1.inv n false
          obtain ⟨p1, hp1, hn1, hd1⟩ := (a0.trans (a1.trans a2)).same.mem hp
          have hk1 : p1.key = fold n := by unfold Plugin.key; rw [hn1]; exact hk
          have hni1 : p1.inited = false := by
            cases hb : p1.inited with
            | false => rfl
            | true =>
              have := (a2.inv.inL p1 hp1).1 hb
              rw [hk1] at this
              exact absurd (u1 _ hmn this) hnL
          obtain ⟨s2, r2, hs2⟩ : ∃ s2 r2, startPlugin env (setMark s1 n false) p = (s2, r2) := ⟨_, _, rfl⟩
          rw [hs2] at hr
          cases hr
          obtain ⟨L2, a3, m3, u3, t3, _, _⟩ := startPlugin_adv a2.inv env hp1 p ⟨hn1.symm, hd1.symm⟩ hni1
            (fun d hd => t1 rfl d (by rw [← hd1]; exact hd)) hs2
          have ms : ∀ y, y ≠ fold n → (Marked s' y ↔ Marked s1 y) := by
            intro y hy
            rw [m3, marked_setMark]
            simp [hy]
          refine ⟨L2, a0.trans (a1.trans (a2.trans a3)), ⟨?_, ?_⟩, ?_, ?_⟩
          · intro y hy hm
            exact (ms y hy).2 (m1 y ((mo y hy).2 hm))
          · intro _ y hm
            by_cases hy : y = fold n
            · subst hy
              rw [m3, marked_setMark] at hm
              rcases hm with hm | hm
              · exact absurd hm.2.1 (by simp)
              · exact absurd rfl hm.1
            · exact (mo y hy).1 (m2 rfl y ((ms y hy).1 hm))
          · intro y hy hm hyL
            exact u1 y ((mo y hy).2 hm) (u3 y hyL (by rw [hk1]; exact hy))
          · intro hok
            rw [← hk1]; exact t3 hok
        · rename_i s1 r1 hne1 hs1
          cases hr
          obtain ⟨L1, a1, m1, m2, u1, t1⟩ := initDeps_adv ih p.deps _ L s' r a0.inv hs1
          have hnok : r ≠ .ok := hne1
          exact ⟨L1, a0.trans a1, ⟨fun y hy hm => m1 y ((mo y hy).2 hm), fun hok => absurd hok hnok⟩,
            fun y hy hm hyL => u1 y ((mo y hy).2 hm) hyL, fun hok => absurd hok hnok⟩

end Verif.Subsys
