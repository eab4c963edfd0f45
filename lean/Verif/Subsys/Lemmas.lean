import Verif.Subsys.Spec

namespace Verif.Subsys

/-! ### The tree -/

def keys (t : List Plugin) : List Name := t.map Plugin.key

theorem get_some {t : List Plugin} {n : Name} {p : Plugin} (h : get t n = some p) : p ∈ t ∧ p.key = fold n := by
  unfold get at h
  exact ⟨List.mem_of_find?_eq_some h, by simpa using List.find?_some h⟩

theorem get_none {t : List Plugin} {n : Name} (h : get t n = none) : ∀ p ∈ t, p.key ≠ fold n := by
  unfold get at h
  intro p hp
  simpa using List.find?_eq_none.mp h p hp

theorem uniq {t : List Plugin} (h : (keys t).Nodup) {p q : Plugin} (hp : p ∈ t) (hq : q ∈ t) (hk : p.key = q.key) : p = q := by
  induction t with
  | nil => cases hp
  | cons a t ih =>
    simp only [keys, List.map_cons, List.nodup_cons, List.mem_map, not_exists, not_and] at h
    rcases List.mem_cons.1 hp with rfl | hp <;> rcases List.mem_cons.1 hq with rfl | hq
    · rfl
    · exact absurd hk.symm (h.1 q hq)
    · rename_i hp'
      exact absurd hk (h.1 p hp')
    · exact ih h.2 hp hq

theorem get_of_mem {t : List Plugin} (h : (keys t).Nodup) {p : Plugin} {n : Name} (hp : p ∈ t) (hk : p.key = fold n) : get t n = some p := by
  cases hg : get t n with
  | none => exact absurd hk (get_none hg p hp)
  | some q =>
    obtain ⟨h1, h2⟩ := get_some hg
    rw [uniq h h1 hp (h2.trans hk.symm)]

theorem isSome_iff {t : List Plugin} {n : Name} : (get t n).isSome = true ↔ ∃ p ∈ t, p.key = fold n := by
  constructor
  · intro h
    obtain ⟨p, hp⟩ := Option.isSome_iff_exists.mp h
    exact ⟨p, get_some hp⟩
  · rintro ⟨p, hp, hk⟩
    cases hg : get t n with
    | none => exact absurd hk (get_none hg p hp)
    | some q => rfl

/-- same plugins, possibly in another state -/
def Same (t t' : List Plugin) : Prop := t'.map (fun p => (p.name, p.deps)) = t.map fun p => (p.name, p.deps)

theorem Same.refl (t : List Plugin) : Same t t := rfl
theorem Same.trans {a b c : List Plugin} (h : Same a b) (h' : Same b c) : Same a c := Eq.trans h' h
theorem Same.symm {a b : List Plugin} (h : Same a b) : Same b a := Eq.symm h

theorem Same.keys {t t' : List Plugin} (h : Same t t') : keys t' = keys t := by
  have e : ∀ l : List Plugin, Subsys.keys l = (l.map fun p => (p.name, p.deps)).map fun x => fold x.1 := by
    intro l; simp [Subsys.keys, Plugin.key, Function.comp_def]
  rw [e, e, h]

theorem Same.length {t t' : List Plugin} (h : Same t t') : t'.length = t.length := by
  have := congrArg List.length h
  simpa using this

theorem Same.mem {t t' : List Plugin} (h : Same t t') {p : Plugin} (hp : p ∈ t) : ∃ q ∈ t', q.name = p.name ∧ q.deps = p.deps := by
  have : (p.name, p.deps) ∈ t'.map fun p => (p.name, p.deps) := by
    rw [h]; exact List.mem_map.2 ⟨p, hp, rfl⟩
  obtain ⟨q, hq, he⟩ := List.mem_map.1 this
  exact ⟨q, hq, congrArg Prod.fst he, congrArg Prod.snd he⟩

theorem same_modify (t : List Plugin) (n : Name) (f : Plugin → Plugin) (hf : ∀ p, (f p).name = p.name ∧ (f p).deps = p.deps) :
    Same t (modify t n f) := by
  unfold Same modify
  rw [List.map_map]
  refine List.map_congr_left fun p _ => ?_
  dsimp only [Function.comp_apply]
  split
  · rw [(hf p).1, (hf p).2]
  · rfl

theorem mem_modify {t : List Plugin} {n : Name} {f : Plugin → Plugin} {q : Plugin} :
    q ∈ modify t n f ↔ ∃ p ∈ t, q = if p.key = fold n then f p else p := by
  unfold modify
  rw [List.mem_map]
  constructor
  · rintro ⟨p, hp, rfl⟩; exact ⟨p, hp, rfl⟩
  · rintro ⟨p, hp, rfl⟩; exact ⟨p, hp, rfl⟩

theorem Edge.same {t t' : List Plugin} (h : Same t t') {x y : Name} (he : Edge t x y) : Edge t' x y := by
  obtain ⟨p, hp, hk, d, hd, hy⟩ := he
  obtain ⟨q, hq, h1, h2⟩ := h.mem hp
  exact ⟨q, hq, by rw [← hk]; unfold Plugin.key; rw [h1], d, by rw [h2]; exact hd, hy⟩

theorem Needs.same {t t' : List Plugin} (h : Same t t') {x y : Name} (hn : Needs t x y) : Needs t' x y := by
  induction hn with
  | refl x => exact .refl x
  | dep e _ ih => exact .dep (e.same h) ih

theorem Needs.trans {t : List Plugin} {x y z : Name} (h : Needs t x y) (h' : Needs t y z) : Needs t x z := by
  induction h with
  | refl => exact h'
  | dep e _ ih => exact .dep e (ih h')

theorem Cyclic.same {t t' : List Plugin} (h : Same t t') {x : Name} (hc : Cyclic t x) : Cyclic t' x := by
  obtain ⟨y, h1, h2⟩ := hc
  exact ⟨y, h1.same h, h2.same h⟩

/-! ### Order of the running plugins (newest first) -/

def OrdL (t : List Plugin) : List Name → Prop
  | [] => True
  | x :: L => x ∉ L ∧ (∀ p ∈ t, p.key = x → ∀ d ∈ p.deps, fold d ∈ L) ∧ OrdL t L

theorem OrdL.same {t t' : List Plugin} (h : Same t t') {L : List Name} (ho : OrdL t L) : OrdL t' L := by
  induction L with
  | nil => trivial
  | cons x L ih =>
    refine ⟨ho.1, ?_, ih ho.2.2⟩
    intro p hp hk d hd
    obtain ⟨q, hq, h1, h2⟩ := h.symm.mem hp
    exact ho.2.1 q hq (by rw [← hk]; unfold Plugin.key; rw [h1]) d (by rw [h2]; exact hd)

theorem OrdL.nodup {t : List Plugin} {L : List Name} (ho : OrdL t L) : L.Nodup := by
  induction L with
  | nil => exact List.nodup_nil
  | cons x L ih => exact List.nodup_cons.2 ⟨ho.1, ih ho.2.2⟩

theorem OrdL.tail {t : List Plugin} {A L : List Name} (ho : OrdL t (A ++ L)) : OrdL t L := by
  induction A with
  | nil => exact ho
  | cons x A ih => exact ih ho.2.2

/-- the dependencies of a running plugin are older -/
theorem OrdL.older {t : List Plugin} {A B : List Name} {x : Name} (ho : OrdL t (A ++ x :: B)) {p : Plugin} (hp : p ∈ t) (hk : p.key = x)
    {d : Name} (hd : d ∈ p.deps) : fold d ∈ B := (OrdL.tail ho).2.1 p hp hk d hd

/-- a plugin on which no newer one depends can be removed -/
theorem OrdL.drop {t : List Plugin} {A B : List Name} {x : Name} (ho : OrdL t (A ++ x :: B))
    (hn : ∀ p ∈ t, p.key ∈ A → ∀ d ∈ p.deps, fold d ≠ x) : OrdL t (A ++ B) := by
  induction A with
  | nil => exact ho.2.2
  | cons a A ih =>
    refine ⟨?_, ?_, ih ho.2.2 fun p hp hk => hn p hp (List.mem_cons_of_mem _ hk)⟩
    · intro h
      refine ho.1 ?_
      rcases List.mem_append.1 h with h | h
      · exact List.mem_append_left _ h
      · exact List.mem_append_right _ (List.mem_cons_of_mem _ h)
    · intro p hp hk d hd
      have := ho.2.1 p hp hk d hd
      rcases List.mem_append.1 this with h | h
      · exact List.mem_append_left _ h
      · rcases List.mem_cons.1 h with h | h
        · exact absurd h (hn p hp (by rw [hk]; exact List.mem_cons_self) d hd)
        · exact List.mem_append_right _ h

/-- running plugins which need each other are ordered: nothing needs itself -/
theorem OrdL.needs {t : List Plugin} {A B : List Name} {x y : Name} (ho : OrdL t (A ++ x :: B)) (ex : ∀ z ∈ A ++ x :: B, ∃ p ∈ t, p.key = z)
    (hn : Needs t x y) : y ∈ x :: B := by
  induction hn generalizing A B with
  | refl => exact List.mem_cons_self
  | @dep x y z e _ ih =>
    obtain ⟨p, hp, hk, d, hd, rfl⟩ := e
    have hm := ho.older hp hk hd
    obtain ⟨B1, B2, hB⟩ := List.append_of_mem hm
    have : A ++ x :: B = (A ++ x :: B1) ++ fold d :: B2 := by rw [hB]; simp
    have h := ih (A := A ++ x :: B1) (B := B2) (this ▸ ho) (this ▸ ex)
    refine List.mem_cons_of_mem _ ?_
    rw [hB]
    exact List.mem_append_right _ h

/-! ### Invariant -/

structure Inv (C : Name → Prop) (s : St) (L : List Name) : Prop where
  uniq : (keys s.tree).Nodup
  canon : ∀ p ∈ s.tree, C p.name ∧ ∀ d ∈ p.deps, C d
  inL : ∀ p ∈ s.tree, p.inited = true ↔ p.key ∈ L
  ex : ∀ x ∈ L, ∃ p ∈ s.tree, p.key = x
  ord : OrdL s.tree L
  run : ∀ x ds, running s.evs x = some ds ↔ ∃ p ∈ s.tree, p.key = fold x ∧ p.inited = true ∧ p.deps = ds
  fine : Fine s.evs

theorem Inv.running_iff {C : Name → Prop} {s : St} {L : List Name} (h : Inv C s L) (x : Name) : (running s.evs x).isSome ↔ fold x ∈ L := by
  constructor
  · intro hr
    obtain ⟨ds, hds⟩ := Option.isSome_iff_exists.mp hr
    obtain ⟨p, hp, hk, hi, _⟩ := (h.run x ds).1 hds
    rw [← hk]; exact (h.inL p hp).1 hi
  · intro hx
    obtain ⟨p, hp, hk⟩ := h.ex _ hx
    rw [(h.run x p.deps).2 ⟨p, hp, hk, (h.inL p hp).2 (by rw [hk]; exact hx), rfl⟩]
    rfl

/-- changes of other fields -/
theorem Inv.modify {C : Name → Prop} {s : St} {L : List Name} (h : Inv C s L) (n : Name) (f : Plugin → Plugin)
    (hf : ∀ p, (f p).name = p.name ∧ (f p).deps = p.deps ∧ (f p).inited = p.inited) :
    Inv C { s with tree := Subsys.modify s.tree n f } L := by
  have hs := same_modify s.tree n f fun p => ⟨(hf p).1, (hf p).2.1⟩
  have hm : ∀ q, q ∈ Subsys.modify s.tree n f → ∃ p ∈ s.tree, q.name = p.name ∧ q.deps = p.deps ∧ q.inited = p.inited := by
    intro q hq
    obtain ⟨p, hp, rfl⟩ := mem_modify.1 hq
    refine ⟨p, hp, ?_⟩
    split
    · exact hf p
    · exact ⟨rfl, rfl, rfl⟩
  have hm' : ∀ p ∈ s.tree, ∃ q ∈ Subsys.modify s.tree n f, q.name = p.name ∧ q.deps = p.deps ∧ q.inited = p.inited := by
    intro p hp
    refine ⟨_, mem_modify.2 ⟨p, hp, rfl⟩, ?_⟩
    split
    · exact hf p
    · exact ⟨rfl, rfl, rfl⟩
  refine ⟨by rw [hs.keys]; exact h.uniq, ?_, ?_, ?_, h.ord.same hs, ?_, h.fine⟩
  · intro q hq
    obtain ⟨p, hp, h1, h2, _⟩ := hm q hq
    rw [h1, h2]; exact h.canon p hp
  · intro q hq
    obtain ⟨p, hp, h1, _, h3⟩ := hm q hq
    rw [h3, show q.key = p.key by unfold Plugin.key; rw [h1]]
    exact h.inL p hp
  · intro x hx
    obtain ⟨p, hp, hk⟩ := h.ex x hx
    obtain ⟨q, hq, h1, _⟩ := hm' p hp
    exact ⟨q, hq, by rw [← hk]; unfold Plugin.key; rw [h1]⟩
  · intro x ds
    rw [h.run]
    constructor
    · rintro ⟨p, hp, hk, hi, hd⟩
      obtain ⟨q, hq, h1, h2, h3⟩ := hm' p hp
      exact ⟨q, hq, by rw [← hk]; unfold Plugin.key; rw [h1], h3.trans hi, h2.trans hd⟩
    · rintro ⟨q, hq, hk, hi, hd⟩
      obtain ⟨p, hp, h1, h2, h3⟩ := hm q hq
      exact ⟨p, hp, by rw [← hk]; unfold Plugin.key; rw [h1], h3 ▸ hi, h2 ▸ hd⟩

/-- a plugin is started -/
theorem Inv.start {C : Name → Prop} {s : St} {L : List Name} (h : Inv C s L) {p : Plugin} (hp : p ∈ s.tree) (hni : p.inited = false)
    (hd : ∀ d ∈ p.deps, fold d ∈ L) :
    Inv C { s with tree := Subsys.modify s.tree p.name fun q => { q with inited := true }, evs := .start p.name p.deps true :: s.evs } (p.key :: L) := by
  have hs := same_modify s.tree p.name (fun q => { q with inited := true }) fun p => ⟨rfl, rfl⟩
  have hnL : p.key ∉ L := fun hx => by rw [(h.inL p hp).2 hx] at hni; cases hni
  have hq : ∀ q ∈ s.tree, q.key = fold p.name → q = p := fun q hq hk => Subsys.uniq h.uniq hq hp hk
  refine ⟨by rw [hs.keys]; exact h.uniq, ?_, ?_, ?_, ?_, ?_, ?_⟩
  · intro q hq
    obtain ⟨p', hp', rfl⟩ := mem_modify.1 hq
    split <;> exact h.canon p' hp'
  · intro q hq'
    obtain ⟨p', hp', rfl⟩ := mem_modify.1 hq'
    by_cases hk : p'.key = fold p.name
    · rw [if_pos hk]
      exact ⟨fun _ => by rw [show ({ p' with inited := true } : Plugin).key = p.key from hk]; exact List.mem_cons_self, fun _ => rfl⟩
    · rw [if_neg hk, h.inL p' hp']
      constructor
      · exact List.mem_cons_of_mem _
      · intro h'
        rcases List.mem_cons.1 h' with h' | h'
        · exact absurd h' hk
        · exact h'
  · intro x hx
    have hx' : ∃ q ∈ s.tree, q.key = x := by
      rcases List.mem_cons.1 hx with rfl | hx
      · exact ⟨p, hp, rfl⟩
      · exact h.ex x hx
    obtain ⟨q, hq, hk⟩ := hx'
    obtain ⟨q', hq', h1, _⟩ := hs.mem hq
    exact ⟨q', hq', by rw [← hk]; unfold Plugin.key; rw [h1]⟩
  · refine OrdL.same hs ⟨hnL, ?_, h.ord⟩
    intro q hq' hk
    rw [hq q hq' hk]; exact hd
  · intro x ds
    show (if fold p.name = fold x ∧ true = true then some p.deps else running s.evs x) = some ds ↔ _
    by_cases hx : fold p.name = fold x
    · rw [if_pos ⟨hx, rfl⟩]
      constructor
      · intro he
        cases he
        exact ⟨{ p with inited := true }, mem_modify.2 ⟨p, hp, by rw [if_pos (show p.key = fold p.name from rfl)]⟩, hx, rfl, rfl⟩
      · rintro ⟨q, hq', hk, _, hds⟩
        obtain ⟨p', hp', rfl⟩ := mem_modify.1 hq'
        by_cases hk' : p'.key = fold p.name
        · rw [if_pos hk'] at hds
          rw [hq p' hp' hk'] at hds
          exact congrArg some hds
        · rw [if_neg hk'] at hk
          exact absurd (hk.trans hx.symm) hk'
    · rw [if_neg (fun h => hx h.1), h.run]
      constructor
      · rintro ⟨q, hq', hk, hi, hds⟩
        refine ⟨q, mem_modify.2 ⟨q, hq', ?_⟩, hk, hi, hds⟩
        rw [if_neg]
        rw [hk]; exact fun h => hx h.symm
      · rintro ⟨q, hq', hk, hi, hds⟩
        obtain ⟨p', hp', rfl⟩ := mem_modify.1 hq'
        by_cases hk' : p'.key = fold p.name
        · rw [if_pos hk'] at hk
          exact absurd (hk'.symm.trans hk) hx
        · rw [if_neg hk'] at hk hi hds
          exact ⟨p', hp', hk, hi, hds⟩
  · refine ⟨?_, ?_, h.fine⟩
    · cases hr : running s.evs p.name with
      | none => rfl
      | some ds => exact absurd ((h.running_iff p.name).1 (by rw [hr]; rfl)) hnL
    · intro d hd'
      exact (h.running_iff d).2 (hd d hd')

/-- a plugin fails to start -/
theorem Inv.startFailed {C : Name → Prop} {s : St} {L : List Name} (h : Inv C s L) {p : Plugin} (hp : p ∈ s.tree) (hni : p.inited = false)
    (hd : ∀ d ∈ p.deps, fold d ∈ L) : Inv C { s with evs := .start p.name p.deps false :: s.evs } L := by
  have hnL : p.key ∉ L := fun hx => by rw [(h.inL p hp).2 hx] at hni; cases hni
  refine ⟨h.uniq, h.canon, h.inL, h.ex, h.ord, ?_, ?_, ?_, h.fine⟩
  · intro x ds
    show (if fold p.name = fold x ∧ false = true then some p.deps else running s.evs x) = some ds ↔ _
    rw [if_neg (by simp)]
    exact h.run x ds
  · cases hr : running s.evs p.name with
    | none => rfl
    | some ds => exact absurd ((h.running_iff p.name).1 (by rw [hr]; rfl)) hnL
  · intro d hd'
    exact (h.running_iff d).2 (hd d hd')

/-- a plugin is stopped -/
theorem Inv.stop {C : Name → Prop} {s : St} {A B : List Name} {n : Name} (h : Inv C s (A ++ fold n :: B)) {p : Plugin} (_hp : p ∈ s.tree)
    (hk : p.key = fold n) (hno : ∀ q ∈ s.tree, q.key ∈ A → ∀ d ∈ q.deps, fold d ≠ fold n) :
    Inv C { s with tree := Subsys.modify s.tree n fun q => { q with inited := false }, evs := .stop p.name :: s.evs } (A ++ B) := by
  have hs := same_modify s.tree n (fun q => { q with inited := false }) fun p => ⟨rfl, rfl⟩
  have hnd := h.ord.nodup
  have hnot : fold n ∉ A ++ B := by
    intro hx
    rw [List.nodup_append] at hnd
    rcases List.mem_append.1 hx with hx | hx
    · exact hnd.2.2 _ hx _ List.mem_cons_self rfl
    · exact (List.nodup_cons.1 hnd.2.1).1 hx
  have hin : fold n ∈ A ++ fold n :: B := List.mem_append_right _ List.mem_cons_self
  have hmem : ∀ x, x ≠ fold n → (x ∈ A ++ B ↔ x ∈ A ++ fold n :: B) := by
    intro x hx
    simp [hx]
  have hkn : fold p.name = fold n := hk
  refine ⟨by rw [hs.keys]; exact h.uniq, ?_, ?_, ?_, ?_, ?_, ?_⟩
  · intro q hq
    obtain ⟨p', hp', rfl⟩ := mem_modify.1 hq
    split <;> exact h.canon p' hp'
  · intro q hq'
    obtain ⟨p', hp', rfl⟩ := mem_modify.1 hq'
    by_cases hk' : p'.key = fold n
    · rw [if_pos hk']
      constructor
      · intro h'; cases h'
      · intro h'; exact absurd (show fold n ∈ A ++ B from hk' ▸ h') hnot
    · rw [if_neg hk', h.inL p' hp', hmem _ hk']
  · intro x hx
    have hxn : x ≠ fold n := fun e => hnot (e ▸ hx)
    obtain ⟨q, hq, hkq⟩ := h.ex x ((hmem x hxn).1 hx)
    obtain ⟨q', hq', h1, _⟩ := hs.mem hq
    exact ⟨q', hq', by rw [← hkq]; unfold Plugin.key; rw [h1]⟩
  · exact OrdL.same hs (h.ord.drop hno)
  · intro x ds
    show (if fold p.name = fold x then none else running s.evs x) = some ds ↔ _
    by_cases hx : fold p.name = fold x
    · rw [if_pos hx]
      constructor
      · intro he; cases he
      · rintro ⟨q, hq', hkq, hi, _⟩
        obtain ⟨p', hp', rfl⟩ := mem_modify.1 hq'
        by_cases hk' : p'.key = fold n
        · rw [if_pos hk'] at hi; cases hi
        · rw [if_neg hk'] at hkq
          exact absurd (hkq.trans (hx.symm.trans hkn)) hk'
    · rw [if_neg hx, h.run]
      constructor
      · rintro ⟨q, hq', hkq, hi, hds⟩
        refine ⟨q, mem_modify.2 ⟨q, hq', ?_⟩, hkq, hi, hds⟩
        rw [if_neg]
        rw [hkq]; exact fun h => hx (hkn.trans h.symm)
      · rintro ⟨q, hq', hkq, hi, hds⟩
        obtain ⟨p', hp', rfl⟩ := mem_modify.1 hq'
        by_cases hk' : p'.key = fold n
        · rw [if_pos hk'] at hi; cases hi
        · rw [if_neg hk'] at hkq hi hds
          exact ⟨p', hp', hkq, hi, hds⟩
  · refine ⟨(h.running_iff p.name).2 (hkn ▸ hin), ?_, h.fine⟩
    intro m ds hm d hd
    obtain ⟨q, hq, hkq, hi, rfl⟩ := (h.run m ds).1 hm
    rw [hkn]
    have hqL := (h.inL q hq).1 hi
    rcases List.mem_append.1 hqL with hA | hB
    · exact hno q hq hA d hd
    · intro he
      have hnB : fold n ∉ B := fun hx => hnot (List.mem_append_right _ hx)
      rcases List.mem_cons.1 hB with hB | hB
      · exact hnB (he ▸ h.ord.older hq hB hd)
      · obtain ⟨B1, B2, hB'⟩ := List.append_of_mem hB
        have ho : OrdL s.tree ((A ++ fold n :: B1) ++ q.key :: B2) := by
          have := h.ord
          rw [hB'] at this
          simpa using this
        refine hnB ?_
        rw [hB', ← he]
        exact List.mem_append_right _ (List.mem_cons_of_mem _ (ho.older hq rfl hd))

end Verif.Subsys
