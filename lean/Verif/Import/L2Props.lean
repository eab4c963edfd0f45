import Verif.Import.L2
/-
C177: addresses of layer-2 neighbors with a matching origin are announced while they exist.
-/
namespace Verif.Import
open Verif.Olsr (LanSet lanAdd lanRemove)

/-! ### Specification -/

/-- the origin is the pattern, or the pattern ends with `*` and the origin begins with the rest of it -/
def Fits (origin pattern : Txt) : Prop := origin = pattern ∨ ∃ p t, pattern = p ++ [42] ∧ origin = p ++ t

/-- the section concerns the domain with this index -/
def L2Concerns (doms : List Dom) (c : L2Cfg) (d : Fin 4) : Prop := ∃ x ∈ doms, x.index = d ∧ (c.domain < 0 ∨ (x.ext : Int) = c.domain)

/-- the domain of the section exists -/
def Known (doms : List Dom) (c : L2Cfg) : Prop := c.domain < 0 ∨ ∃ x ∈ doms, (x.ext : Int) = c.domain

/-- the section imports the address for the domain -/
def Imports (doms : List Dom) (a : L2Addr) (d : Fin 4) (e : Sec L2Cfg) : Prop := Fits a.origin e.name ∧ L2Concerns doms e.val d

/-- configured metric, otherwise the one of the neighbor, otherwise 1 -/
def MetricOf (a : L2Addr) (c : L2Cfg) (d : Fin 4) (m : Nat) : Prop :=
  (1 ≤ c.metric ∧ (m : Int) = c.metric) ∨ (c.metric < 1 ∧ (a.metric d = some m ∨ (a.metric d = none ∧ m = 1)))

/-! ### Lemmas -/

theorem match_iff (o p : Txt) : matchOrigin o p = true ↔ Fits o p := by
  unfold matchOrigin Fits
  by_cases h : o = p
  · simp [h]
  · rw [if_neg h]
    by_cases h2 : p = [] ∨ p.getLast? ≠ some 42
    · rw [if_pos h2]
      simp only [Bool.false_eq_true, false_iff]
      rintro (h3 | ⟨q, t, h3, h4⟩)
      · exact h h3
      · subst h3
        rcases h2 with h2 | h2
        · simp at h2
        · simp at h2
    · rw [if_neg h2]
      have h3 : p.getLast? = some 42 := by
        apply Classical.byContradiction
        intro hn
        exact h2 (.inr hn)
      obtain ⟨q, hq⟩ := List.getLast?_eq_some_iff.1 h3
      subst hq
      simp only [List.length_append, List.length_singleton, Nat.add_sub_cancel, List.take_left, beq_iff_eq]
      constructor
      · intro ht
        exact .inr ⟨q, o.drop q.length, rfl, by conv => lhs; rw [← List.take_append_drop q.length o, ht]⟩
      · rintro (h4 | ⟨q', t, h4, h5⟩)
        · exact absurd h4 h
        · have := List.append_inj_left' h4 rfl
          subst this
          rw [h5, List.take_left]

theorem ext_unique (doms : List Dom) (hn : (doms.map (·.ext)).Nodup) (x y : Dom) (hx : x ∈ doms) (hy : y ∈ doms) (h : x.ext = y.ext) : x = y := by
  revert hn hx hy
  induction doms with
  | nil => intro _ hx; cases hx
  | cons z zs ih =>
    intro hn hx hy
    rw [List.map_cons, List.nodup_cons] at hn
    rcases List.mem_cons.1 hx with e1 | hx'
    · rcases List.mem_cons.1 hy with e2 | hy'
      · rw [e1, e2]
      · exact absurd (List.mem_map.2 ⟨y, hy', by rw [← h, e1]⟩) hn.1
    · rcases List.mem_cons.1 hy with e2 | hy'
      · exact absurd (List.mem_map.2 ⟨x, hx', by rw [h, e2]⟩) hn.1
      · exact ih hn.2 hx' hy'

theorem l2Doms_spec (doms : List Dom) (c : L2Cfg) (hn : (doms.map (·.ext)).Nodup) (hk : Known doms c) :
    ∃ ds, l2Doms doms c = some ds ∧ ∀ d, (∃ x ∈ ds, x.index = d) ↔ L2Concerns doms c d := by
  unfold l2Doms L2Concerns
  by_cases h : c.domain ≥ 0
  · rw [if_pos h]
    rcases hk with hk | ⟨x, hx, hxe⟩
    · omega
    · cases hf : doms.find? (fun d => (d.ext : Int) == c.domain) with
      | none =>
        have := List.find?_eq_none.1 hf x hx
        simp [hxe] at this
      | some y =>
        have hy := List.mem_of_find?_eq_some hf
        have hye := List.find?_some hf
        simp at hye
        refine ⟨_, rfl, fun d => ?_⟩
        simp only [List.mem_singleton, exists_eq_left]
        constructor
        · intro hd
          exact ⟨y, hy, hd, .inr hye⟩
        · rintro ⟨z, hz, hd, hc⟩
          rcases hc with hc | hc
          · omega
          · have := ext_unique doms hn z y hz hy (by omega)
            rw [← this]
            exact hd
  · rw [if_neg h]
    refine ⟨doms, rfl, fun d => ?_⟩
    constructor
    · rintro ⟨x, hx, hd⟩
      exact ⟨x, hx, hd, .inl (by omega)⟩
    · rintro ⟨x, hx, hd, _⟩
      exact ⟨x, hx, hd⟩

theorem metric_spec (a : L2Addr) (c : L2Cfg) (x : Dom) : MetricOf a c x.index (l2Metric a c x) := by
  unfold MetricOf l2Metric
  by_cases h : c.metric < 1
  · right
    refine ⟨h, ?_⟩
    rw [if_pos h]
    cases hm : a.metric x.index with
    | none => right; exact ⟨rfl, rfl⟩
    | some m => left; rfl
  · left
    rw [if_neg h]
    omega

theorem ann_addEach (ds : List Dom) (k : Key) (f : Dom → Nat) (n : Nat) : ∀ (s : LanSet Key) (d : Fin 4),
    (∀ j, j ≠ k → announced (ds.foldl (fun s x => lanAdd s x.index k (f x) n true) s) j d = announced s j d) ∧
    ((¬ (∃ x ∈ ds, x.index = d) ∧ announced (ds.foldl (fun s x => lanAdd s x.index k (f x) n true) s) k d = announced s k d) ∨
     ∃ x ∈ ds, x.index = d ∧ announced (ds.foldl (fun s x => lanAdd s x.index k (f x) n true) s) k d = some (f x, n)) := by
  induction ds with
  | nil => intro s d; exact ⟨fun _ _ => rfl, .inl ⟨by simp, rfl⟩⟩
  | cons x xs ih =>
    intro s d
    rw [List.foldl_cons]
    obtain ⟨h1, h2⟩ := ih (lanAdd s x.index k (f x) n true) d
    refine ⟨fun j hj => ?_, ?_⟩
    · rw [h1 j hj, ann_add, if_neg (fun h => hj h.1)]
    · rcases h2 with ⟨h2, h3⟩ | ⟨y, hy, h2, h3⟩
      · rw [h3, ann_add]
        by_cases hd : d = x.index
        · right
          exact ⟨x, by simp, hd.symm, by rw [if_pos ⟨rfl, hd⟩]⟩
        · left
          refine ⟨?_, by rw [if_neg (fun h => hd h.2)]⟩
          rintro ⟨y, hy, hyd⟩
          rcases List.mem_cons.1 hy with rfl | hy
          · exact hd hyd.symm
          · exact h2 ⟨y, hy, hyd⟩
      · exact .inr ⟨y, by simp [hy], h2, h3⟩

theorem add_spec (doms : List Dom) (a : L2Addr) (d : Fin 4) (hn : (doms.map (·.ext)).Nodup) : ∀ (l : List (Sec L2Cfg)) (s : LanSet Key),
    (∀ e ∈ l, Fits a.origin e.name → Known doms e.val) → ∃ s', l2Add doms a l s = some s' ∧
      (∀ j, j ≠ a.key → announced s' j d = announced s j d) ∧
      (((∀ e ∈ l, ¬ Imports doms a d e) ∧ announced s' a.key d = announced s a.key d) ∨
       ∃ e ∈ l, Imports doms a d e ∧ ∃ m, MetricOf a e.val d m ∧ announced s' a.key d = some (m, e.val.dist)) := by
  intro l
  induction l with
  | nil => intro s _; exact ⟨s, rfl, fun _ _ => rfl, .inl ⟨by simp, rfl⟩⟩
  | cons e es ih =>
    intro s hk
    unfold l2Add l2AddOne
    by_cases hm : matchOrigin a.origin e.name = true
    · rw [if_pos hm]
      obtain ⟨ds, h1, h2⟩ := l2Doms_spec doms e.val hn (hk e (by simp) ((match_iff _ _).1 hm))
      rw [h1]
      obtain ⟨g1, g2⟩ := ann_addEach ds a.key (l2Metric a e.val) e.val.dist s d
      obtain ⟨s', q1, q2, q3⟩ := ih (ds.foldl (fun s x => lanAdd s x.index a.key (l2Metric a e.val x) e.val.dist true) s) (fun x hx => hk x (by simp [hx]))
      refine ⟨s', q1, fun j hj => (q2 j hj).trans (g1 j hj), ?_⟩
      rcases q3 with ⟨q3, q4⟩ | ⟨x, q3, q4⟩
      · rcases g2 with ⟨g2, g3⟩ | ⟨x, hx, g2, g3⟩
        · left
          refine ⟨?_, q4.trans g3⟩
          intro y hy
          rcases List.mem_cons.1 hy with rfl | hy
          · intro hi
            exact g2 ((h2 d).2 hi.2)
          · exact q3 y hy
        · right
          refine ⟨e, by simp, ⟨(match_iff _ _).1 hm, (h2 d).1 ⟨x, hx, g2⟩⟩, l2Metric a e.val x, ?_, q4.trans g3⟩
          rw [← g2]
          exact metric_spec _ _ _
      · exact .inr ⟨x, by simp [q3], q4⟩
    · rw [if_neg hm]
      obtain ⟨s', q1, q2, q3⟩ := ih s (fun x hx => hk x (by simp [hx]))
      refine ⟨s', q1, q2, ?_⟩
      rcases q3 with ⟨q3, q4⟩ | ⟨x, q3, q4⟩
      · left
        refine ⟨?_, q4⟩
        intro y hy
        rcases List.mem_cons.1 hy with rfl | hy
        · intro hi
          exact hm ((match_iff _ _).2 hi.1)
        · exact q3 y hy
      · exact .inr ⟨x, by simp [q3], q4⟩

theorem remove_spec (doms : List Dom) (a : L2Addr) (d : Fin 4) (hn : (doms.map (·.ext)).Nodup) : ∀ (l : List (Sec L2Cfg)) (s : LanSet Key),
    (∀ e ∈ l, Fits a.origin e.name → Known doms e.val) → ∃ s', l2Remove doms a l s = some s' ∧
      (∀ j, j ≠ a.key → announced s' j d = announced s j d) ∧ (announced s a.key d = none → announced s' a.key d = none) ∧
      (((∀ e ∈ l, ¬ Imports doms a d e) ∧ announced s' a.key d = announced s a.key d) ∨
       ((∃ e ∈ l, Imports doms a d e) ∧ announced s' a.key d = none)) := by
  intro l
  induction l with
  | nil => intro s _; exact ⟨s, rfl, fun _ _ => rfl, id, .inl ⟨by simp, rfl⟩⟩
  | cons e es ih =>
    intro s hk
    unfold l2Remove l2RemoveOne
    by_cases hm : matchOrigin a.origin e.name = true
    · rw [if_pos hm]
      obtain ⟨ds, h1, h2⟩ := l2Doms_spec doms e.val hn (hk e (by simp) ((match_iff _ _).1 hm))
      rw [h1]
      have g := ann_removeAll ds a.key s
      obtain ⟨s', q1, q2, q0, q3⟩ := ih (ds.foldl (fun s x => lanRemove s x.index a.key) s) (fun x hx => hk x (by simp [hx]))
      refine ⟨s', q1, fun j hj => ?_, fun h => ?_, ?_⟩
      · rw [q2 j hj, g j d, if_neg (fun h => hj h.1)]
      · apply q0
        rw [g, h]
        simp
      · by_cases hd : ∃ x ∈ ds, x.index = d
        · right
          refine ⟨⟨e, by simp, (match_iff _ _).1 hm, (h2 d).1 hd⟩, ?_⟩
          apply q0
          rw [g, if_pos ⟨rfl, hd⟩]
        · rw [g, if_neg (fun h => hd h.2)] at q3
          rcases q3 with ⟨q3, q4⟩ | ⟨⟨x, q3, q5⟩, q4⟩
          · left
            refine ⟨?_, q4⟩
            intro y hy
            rcases List.mem_cons.1 hy with rfl | hy
            · intro hi
              exact hd ((h2 d).2 hi.2)
            · exact q3 y hy
          · exact .inr ⟨⟨x, by simp [q3], q5⟩, q4⟩
    · rw [if_neg hm]
      obtain ⟨s', q1, q2, q0, q3⟩ := ih s (fun x hx => hk x (by simp [hx]))
      refine ⟨s', q1, q2, q0, ?_⟩
      rcases q3 with ⟨q3, q4⟩ | ⟨⟨x, q3, q5⟩, q4⟩
      · left
        refine ⟨?_, q4⟩
        intro y hy
        rcases List.mem_cons.1 hy with rfl | hy
        · intro hi
          exact hm ((match_iff _ _).2 hi.1)
        · exact q3 y hy
      · exact .inr ⟨⟨x, by simp [q3], q5⟩, q4⟩

/-! ### Theorems -/

/-- **C177** (a new address, if the domains of the matching sections exist): the address is announced in exactly the domains
of the matching sections, with the metric and distance of one of them; everything else is as before. -/
theorem C177_added_partial (doms : List Dom) (a : L2Addr) (st : L2State) (d : Fin 4) (hn : (doms.map (·.ext)).Nodup)
    (hk : ∀ e ∈ st.imports, Fits a.origin e.name → Known doms e.val) :
    ∃ st', l2Step st (.added doms a) = some st' ∧ st'.imports = st.imports ∧
      (∀ k, k ≠ a.key → announced st'.lan k d = announced st.lan k d) ∧
      ((∀ e ∈ st.imports, ¬ Imports doms a d e) → announced st'.lan a.key d = announced st.lan a.key d) ∧
      ((∃ e ∈ st.imports, Imports doms a d e) →
        ∃ e ∈ st.imports, Imports doms a d e ∧ ∃ m, MetricOf a e.val d m ∧ announced st'.lan a.key d = some (m, e.val.dist)) := by
  obtain ⟨s', h1, h2, h3⟩ := add_spec doms a d hn st.imports st.lan hk
  refine ⟨{ st with addrs := a :: st.addrs, lan := s' }, by simp [l2Step, h1], rfl, h2, fun hno => ?_, fun hex => ?_⟩
  · rcases h3 with ⟨_, h3⟩ | ⟨e, he, hi, _⟩
    · exact h3
    · exact absurd hi (hno e he)
  · rcases h3 with ⟨hno, _⟩ | h3
    · obtain ⟨e, he, hi⟩ := hex
      exact absurd hi (hno e he)
    · exact h3

/-- **C177** (a removed address): it is withdrawn in exactly the domains of the matching sections. -/
theorem C177_removed_partial (doms : List Dom) (a : L2Addr) (st : L2State) (d : Fin 4) (hn : (doms.map (·.ext)).Nodup)
    (hk : ∀ e ∈ st.imports, Fits a.origin e.name → Known doms e.val) :
    ∃ st', l2Step st (.removed doms a) = some st' ∧ st'.imports = st.imports ∧
      (∀ k, k ≠ a.key → announced st'.lan k d = announced st.lan k d) ∧
      ((∀ e ∈ st.imports, ¬ Imports doms a d e) → announced st'.lan a.key d = announced st.lan a.key d) ∧
      ((∃ e ∈ st.imports, Imports doms a d e) → announced st'.lan a.key d = none) := by
  obtain ⟨s', h1, h2, _, h3⟩ := remove_spec doms a d hn st.imports st.lan hk
  refine ⟨{ st with addrs := st.addrs.eraseP (fun x => x.key == a.key && x.origin == a.origin), lan := s' }, by simp [l2Step, h1], rfl, h2, fun hno => ?_, fun hex => ?_⟩
  · rcases h3 with ⟨_, h3⟩ | ⟨⟨e, he, hi⟩, _⟩
    · exact h3
    · exact absurd hi (hno e he)
  · rcases h3 with ⟨hno, _⟩ | ⟨_, h3⟩
    · obtain ⟨e, he, hi⟩ := hex
      exact absurd hi (hno e he)
    · exact h3

/-! Examples: `dlep*` and `dlep_radio`. -/

def exDoms : List Dom := [⟨0, 0, 100, 254⟩, ⟨1, 5, 100, 254⟩]
def exOrigin : Txt := [100, 108, 101, 112, 95, 114]
def exStar : Txt := [100, 108, 101, 112, 42]
def exAddr : L2Addr := { key := exKey, origin := exOrigin, metric := fun d => if d = 1 then some 99 else none }
def exL2 : L2State := ⟨[⟨exStar, { dist := 3 }⟩], [], fun _ => none⟩

example : Fits exOrigin exStar := .inr ⟨[100, 108, 101, 112], [95, 114], rfl, rfl⟩

example : (l2Step exL2 (.added exDoms exAddr)).map (fun st => (announced st.lan exKey 0, announced st.lan exKey 1, announced st.lan exKey 2)) =
    some (some (1, 3), some (99, 3), none) := by decide +kernel
example : ((l2Step exL2 (.added exDoms exAddr)).bind (l2Step · (.removed exDoms exAddr))).map (fun st => (announced st.lan exKey 0, announced st.lan exKey 1)) =
    some (none, none) := by decide +kernel

/-- **C177** does not hold for addresses that are known before the section is configured (or changed): nothing is announced. -/
theorem C177_late_counterexample (st st' : L2State) (doms : List Dom) (name : Txt) (c : L2Cfg) (h : l2Step st (.conf doms name (some c)) = some st') :
    st'.lan = st.lan := by
  unfold l2Step at h
  simp only [Option.map_eq_some_iff] at h
  obtain ⟨l, _, rfl⟩ := h
  rfl

theorem destroy_empty (doms : List Dom) (name : Txt) : ∀ (as : List L2Addr) (s : LanSet Key), l2Destroy doms name [] as s = some s := by
  intro as
  induction as with
  | nil => intro s; rfl
  | cons a as ih =>
    intro s
    unfold l2Destroy
    split
    · exact ih s
    · exact ih s

/-- **C177** does not hold for a removed section: the only section that is removed leaves all its networks announced, whatever
they are. -/
theorem C177_section_counterexample (st : L2State) (doms : List Dom) (e : Sec L2Cfg) (name : Txt) (hi : st.imports = [e]) (hs : SameName e.name name) :
    ∃ st', l2Step st (.conf doms name none) = some st' ∧ st'.imports = [] ∧ st'.lan = st.lan := by
  have hf : find [e] name = some e := by
    rw [find_cons, if_pos hs]
  have hz := (same_iff _ _).2 hs
  have hc : configure 24 {} st.imports name none = some [] := by
    unfold configure
    rw [hi, hf]
    simp [drop, hz]
  refine ⟨{ st with imports := [] }, ?_, rfl, rfl⟩
  unfold l2Step
  simp only
  rw [hc]
  simp [destroy_empty]

/-- **C177** does not hold for the networks of the other sections: they are withdrawn by the removal of a section although their
addresses exist and their own section matches. -/
theorem C177_other_counterexample :
    let st : L2State := ⟨[⟨exStar, { dist := 3 }⟩, ⟨exOrigin, {}⟩], [], fun _ => none⟩
    Fits exAddr.origin exStar ∧
    ((l2Step st (.added exDoms exAddr)).bind (l2Step · (.conf exDoms exOrigin none))).map
      (fun st => (st.imports.map (·.name), st.addrs.length, announced st.lan exKey 0, announced st.lan exKey 1)) = some ([exStar], 1, none, none) := by
  exact ⟨.inr ⟨[100, 108, 101, 112], [95, 114], rfl, rfl⟩, by decide +kernel⟩

/-- **C177** does not hold for a section whose domain does not exist: a matching address leads to a null pointer. -/
theorem C177_domain_counterexample (st : L2State) (doms : List Dom) (a : L2Addr) (e : Sec L2Cfg) (rest : List (Sec L2Cfg)) (hi : st.imports = e :: rest)
    (hm : Fits a.origin e.name) (hk : ¬ Known doms e.val) : l2Step st (.added doms a) = none := by
  have hd : l2Doms doms e.val = none := by
    unfold l2Doms
    unfold Known at hk
    rw [if_pos (by omega)]
    cases hf : doms.find? (fun d => (d.ext : Int) == e.val.domain) with
    | none => rfl
    | some y =>
      exfalso
      apply hk
      have hye := List.find?_some hf
      simp at hye
      exact .inr ⟨y, List.mem_of_find?_eq_some hf, hye⟩
  unfold l2Step l2Add l2AddOne
  simp only
  rw [hi]
  simp [(match_iff _ _).2 hm, hd]

example : (l2Step ⟨[⟨exStar, { domain := 7 }⟩], [], fun _ => none⟩ (.added exDoms exAddr)).isNone = true := by decide +kernel

/-- **C177** does not hold for an address that two neighbors have: the first one that loses it withdraws it. -/
theorem C177_shared_counterexample :
    (((l2Step exL2 (.added exDoms exAddr)).bind (l2Step · (.added exDoms exAddr))).bind (l2Step · (.removed exDoms exAddr))).map
      (fun st => (st.addrs.length, announced st.lan exKey 0)) = some (1, none) := by
  decide +kernel

end Verif.Import
