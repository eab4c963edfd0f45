import Verif.Subsys.Cause

namespace Verif.Subsys

/-! ### Stopping plugins -/

def CallStops (C : Name → Prop) (f : St → Name → Option St) (k : Nat) : Prop :=
  ∀ s A B n, Inv C s (A ++ fold n :: B) → A.length + 1 < k →
    ∃ s' A', f s n = some s' ∧ Inv C s' (A' ++ B) ∧ A'.Sublist A ∧ Same s.tree s'.tree ∧ s'.schema = s.schema ∧
      ∀ x ∈ A, x ∉ A' → Needs s.tree x (fold n)

theorem nodup_sublist_notMem {A1 A2 A' : List Name} {r : Name} (hn : (A1 ++ r :: A2).Nodup) (h : A'.Sublist A1) : r ∉ A' ++ A2 := by
  intro hr
  rw [List.nodup_append] at hn
  rcases List.mem_append.1 hr with hr | hr
  · exact hn.2.2 r (h.mem hr) r List.mem_cons_self rfl
  · exact (List.nodup_cons.1 hn.2.1).1 hr

theorem each_stops {C : Name → Prop} {f : St → Name → Option St} {k : Nat} (hf : CallStops C f k)
    (hid : ∀ s n p, get s.tree n = some p → p.inited = false → f s n = some s) {n : Name} {B : List Name} (rs : List Name) (s : St) (A : List Name)
    (h : Inv C s (A ++ fold n :: B)) (hk : A.length < k) (hrs : ∀ r ∈ rs, ∃ p ∈ s.tree, p.name = r ∧ ∃ d ∈ p.deps, fold d = fold n) :
    ∃ s' A', each f s rs = some s' ∧ Inv C s' (A' ++ fold n :: B) ∧ A'.Sublist A ∧ Same s.tree s'.tree ∧ s'.schema = s.schema ∧
      (∀ r ∈ rs, fold r ∉ A') ∧ ∀ x ∈ A, x ∉ A' → Needs s.tree x (fold n) := by
  induction rs generalizing s A with
  | nil => exact ⟨s, A, rfl, h, List.Sublist.refl _, Same.refl _, rfl, fun _ h => (nomatch h), fun x hx hn => absurd hx hn⟩
  | cons r rs ih =>
    obtain ⟨p, hp, hpr, d, hd, hdn⟩ := hrs r List.mem_cons_self
    have hkey : p.key = fold r := by unfold Plugin.key; rw [hpr]
    have hg : get s.tree r = some p := get_of_mem h.uniq hp hkey
    unfold each
    cases hi : p.inited with
    | false =>
      rw [hid s r p hg hi]
      obtain ⟨s', A', h1, h2, h3, h4, h5, h6, h7⟩ := ih s A h hk fun r' hr' => hrs r' (List.mem_cons_of_mem _ hr')
      refine ⟨s', A', h1, h2, h3, h4, h5, ?_, h7⟩
      intro r' hr'
      rcases List.mem_cons.1 hr' with rfl | hr'
      · intro hm
        have : p.key ∈ A ++ fold n :: B := by rw [hkey]; exact List.mem_append_left _ (h3.mem hm)
        rw [(h.inL p hp).2 this] at hi
        cases hi
      · exact h6 r' hr'
    | true =>
      have hL : fold r ∈ A ++ fold n :: B := by rw [← hkey]; exact (h.inL p hp).1 hi
      have hnd := h.ord.nodup
      have hnB : fold n ∉ B := by
        rw [List.nodup_append] at hnd
        exact (List.nodup_cons.1 hnd.2.1).1
      have hrA : fold r ∈ A := by
        rcases List.mem_append.1 hL with hA | hB
        · exact hA
        · exfalso
          rcases List.mem_cons.1 hB with hB | hB
          · have := h.ord.older hp (hkey.trans hB) hd
            exact hnB (hdn ▸ this)
          · obtain ⟨B1, B2, hB'⟩ := List.append_of_mem hB
            have ho : OrdL s.tree ((A ++ fold n :: B1) ++ fold r :: B2) := by
              have := h.ord
              rw [hB'] at this
              simpa using this
            have := ho.older hp hkey hd
            exact hnB (by rw [hB', ← hdn]; exact List.mem_append_right _ (List.mem_cons_of_mem _ this))
      obtain ⟨A1, A2, hA⟩ := List.append_of_mem hrA
      have hsplit : A ++ fold n :: B = A1 ++ fold r :: (A2 ++ fold n :: B) := by rw [hA]; simp
      have hlen : A1.length + 1 ≤ A.length := by rw [hA]; simp
      obtain ⟨s1, A', h1, h2, h3, h4, h5, h7⟩ := hf s A1 (A2 ++ fold n :: B) r (hsplit ▸ h) (by omega)
      rw [h1]
      have hlen' : (A' ++ A2).length ≤ A.length := by
        have := h3.length_le
        rw [hA]; simp; omega
      obtain ⟨s', A'', g1, g2, g3, g4, g5, g6, g7⟩ := ih s1 (A' ++ A2) (by rw [List.append_assoc]; exact h2) (by omega) (by
        intro r' hr'
        obtain ⟨p', hp', h'⟩ := hrs r' (List.mem_cons_of_mem _ hr')
        obtain ⟨q, hq, e1, e2⟩ := h4.mem hp'
        exact ⟨q, hq, e1.trans h'.1, by rw [e2]; exact h'.2⟩)
      have hsub : (A' ++ A2).Sublist A := by
        rw [hA]
        exact h3.append (List.sublist_cons_self _ _)
      have hedge : Edge s.tree (fold r) (fold n) := ⟨p, hp, hkey, d, hd, hdn⟩
      refine ⟨s', A'', g1, g2, g3.trans hsub, h4.trans g4, g5.trans h5, ?_, ?_⟩
      rotate_left
      · intro x hx hx'
        by_cases hxm : x ∈ A' ++ A2
        · exact (g7 x hxm hx').same h4.symm
        · have hxA : x ∈ A1 ++ fold r :: A2 := by rw [← hA]; exact hx
          have hx2 : x ∉ A2 := fun h => hxm (List.mem_append_right _ h)
          have hxA' : x ∉ A' := fun h => hxm (List.mem_append_left _ h)
          rcases List.mem_append.1 hxA with h | h
          · exact (h7 x h hxA').trans (.dep hedge (.refl _))
          · rcases List.mem_cons.1 h with rfl | h
            · exact .dep hedge (.refl _)
            · exact absurd h hx2
      intro r' hr'
      rcases List.mem_cons.1 hr' with rfl | hr'
      · have hndA : (A1 ++ fold r' :: A2).Nodup := by
          rw [← hA]
          rw [List.nodup_append] at hnd
          exact hnd.1
        exact fun hm => nodup_sublist_notMem hndA h3 (g3.mem hm)
      · exact g6 r' hr'

theorem cleanup_id (k : Nat) (s : St) (n : Name) (p : Plugin) (hg : get s.tree n = some p) (hi : p.inited = false) :
    cleanupPlugin (k + 1) s n = some s := by
  unfold cleanupPlugin
  rw [hg]
  dsimp only
  rw [if_neg (by rw [hi]; decide)]

theorem mem_rdeps {t : List Plugin} {n r : Name} : r ∈ rdeps t n ↔ ∃ p ∈ t, p.name = r ∧ n ∈ p.deps := by
  unfold rdeps
  simp only [List.mem_flatMap, List.mem_map, List.mem_filter, decide_eq_true_eq]
  constructor
  · rintro ⟨p, hp, d, ⟨hd, rfl⟩, rfl⟩
    exact ⟨p, hp, rfl, hd⟩
  · rintro ⟨p, hp, rfl, hd⟩
    exact ⟨p, hp, n, ⟨hd, rfl⟩, rfl⟩

theorem cleanup_stops {C : Name → Prop} (hC : Distinct C) (k : Nat) : CallStops C (cleanupPlugin k) k := by
  induction k with
  | zero => intro s A B n _ h; omega
  | succ k ih =>
    intro s A B n h hk
    obtain ⟨p, hp, hkey⟩ := h.ex (fold n) (List.mem_append_right _ List.mem_cons_self)
    have hg : get s.tree n = some p := get_of_mem h.uniq hp hkey
    have hi : p.inited = true := (h.inL p hp).2 (by rw [hkey]; exact List.mem_append_right _ List.mem_cons_self)
    have hfold : fold p.name = fold n := hkey
    obtain ⟨k', rfl⟩ : ∃ k', k = k' + 1 := ⟨k - 1, by omega⟩
    obtain ⟨s1, A1, h1, h2, h3, h4, h5, h6, h7⟩ := each_stops ih (fun s n p => cleanup_id k' s n p) (n := n) (B := B) (rdeps s.tree p.name) s A h (by omega)
      (by
        intro r hr
        obtain ⟨q, hq, hn, hd⟩ := mem_rdeps.1 hr
        exact ⟨q, hq, hn, p.name, hd, hfold⟩)
    refine ⟨{ s1 with tree := modify s1.tree n fun q => { q with inited := false }, evs := .stop p.name :: s1.evs }, A1, ?_, ?_, h3,
      h4.trans (same_modify _ _ _ fun _ => ⟨rfl, rfl⟩), h5, h7⟩
    · unfold cleanupPlugin
      rw [hg]
      dsimp only
      rw [if_pos hi, h1]
    · obtain ⟨q, hq, e1, e2⟩ := h4.mem hp
      have hqk : q.key = fold n := by unfold Plugin.key; rw [e1]; exact hfold
      have := h2.stop hq hqk (by
        intro r hr hrA d hd he
        obtain ⟨r0, hr0, f1, f2⟩ := h4.symm.mem hr
        have hdp : d = p.name := hC d p.name ((h2.canon r hr).2 d hd) (h.canon p hp).1 (he.trans hfold.symm)
        have hmem : r0.name ∈ rdeps s.tree p.name := mem_rdeps.2 ⟨r0, hr0, rfl, by rw [f2, ← hdp]; exact hd⟩
        exact h6 _ hmem (by rw [f1]; exact hrA))
      rw [e1] at this
      exact this

theorem nodup_subset_length {α : Type} [DecidableEq α] : ∀ {l m : List α}, l.Nodup → (∀ x ∈ l, x ∈ m) → l.length ≤ m.length := by
  intro l
  induction l with
  | nil => intros; simp
  | cons a l ih =>
    intro m hn hs
    rw [List.nodup_cons] at hn
    have ham := hs a List.mem_cons_self
    have := ih (m := m.erase a) hn.2 (fun x hx => by
      have hxa : x ≠ a := fun e => hn.1 (e ▸ hx)
      exact (List.mem_erase_of_ne hxa).2 (hs x (List.mem_cons_of_mem _ hx)))
    rw [List.length_erase_of_mem ham] at this
    have hpos : 0 < m.length := List.length_pos_of_mem ham
    simp only [List.length_cons]
    omega

theorem Inv.length {C : Name → Prop} {s : St} {L : List Name} (h : Inv C s L) : L.length ≤ s.tree.length := by
  have := nodup_subset_length (m := keys s.tree) h.ord.nodup fun x hx => by
    obtain ⟨p, hp, hk⟩ := h.ex x hx
    exact List.mem_map.2 ⟨p, hp, hk⟩
  simpa [keys] using this

/-- a plugin which does not run is removed from the tree -/
theorem Inv.remove {C : Name → Prop} {s : St} {L : List Name} (h : Inv C s L) {n : Name} (hn : fold n ∉ L) :
    Inv C { s with tree := Subsys.remove s.tree n } L := by
  have hm : ∀ q, q ∈ Subsys.remove s.tree n ↔ q ∈ s.tree ∧ q.key ≠ fold n := by
    intro q
    simp [Subsys.remove]
  refine ⟨?_, ?_, ?_, ?_, ?_, ?_, h.fine⟩
  · exact List.Nodup.sublist (List.Sublist.map _ List.filter_sublist) h.uniq
  · exact fun q hq => h.canon q ((hm q).1 hq).1
  · exact fun q hq => h.inL q ((hm q).1 hq).1
  · intro x hx
    obtain ⟨p, hp, hk⟩ := h.ex x hx
    exact ⟨p, (hm p).2 ⟨hp, by rw [hk]; exact fun e => hn (e ▸ hx)⟩, hk⟩
  · have : ∀ L, OrdL s.tree L → OrdL (Subsys.remove s.tree n) L := by
      intro L
      induction L with
      | nil => exact fun h => h
      | cons x L ih => exact fun ho => ⟨ho.1, fun p hp => ho.2.1 p ((hm p).1 hp).1, ih ho.2.2⟩
    exact this L h.ord
  · intro x ds
    rw [h.run]
    constructor
    · rintro ⟨p, hp, hk, hi, hd⟩
      exact ⟨p, (hm p).2 ⟨hp, fun e => hn (e ▸ (h.inL p hp).1 hi)⟩, hk, hi, hd⟩
    · rintro ⟨p, hp, h'⟩
      exact ⟨p, ((hm p).1 hp).1, h'⟩

theorem keys_remove (t : List Plugin) (n : Name) : keys (remove t n) = (keys t).filter (· != fold n) := by
  unfold keys remove
  rw [List.filter_map]
  rfl

theorem same_remove {t t' : List Plugin} (h : Same t t') (n : Name) : Same (remove t n) (remove t' n) := by
  have e : ∀ l : List Plugin, (remove l n).map (fun p => (p.name, p.deps)) =
      (l.map fun p => (p.name, p.deps)).filter fun x => fold x.1 != fold n := by
    intro l
    unfold remove
    rw [List.filter_map]
    rfl
  unfold Same
  rw [e, e, h]

/-- `_unload_plugin` -/
theorem unload_ok {C : Name → Prop} (hC : Distinct C) {s : St} {L : List Name} (h : Inv C s L) {n : Name} (hex : ∃ p ∈ s.tree, p.key = fold n)
    (final : Bool) : ∃ s' b L', unloadPlugin s n final = some (s', b) ∧ Inv C s' L' ∧
      (∀ x ∈ L', x ∈ L) ∧ (∀ x ∈ L, x ∉ L' → Needs s.tree x (fold n)) ∧
      (b = true → Same (remove s.tree n) s'.tree ∧ fold n ∉ L') ∧ (final = true → b = true ∧ keys s'.tree = (keys s.tree).filter (· != fold n)) := by
  obtain ⟨p, hp, hkey⟩ := hex
  have hg : get s.tree n = some p := get_of_mem h.uniq hp hkey
  unfold unloadPlugin
  rw [hg]
  dsimp only
  by_cases hc : (!p.canCleanup && !final) = true
  · rw [if_pos hc]
    exact ⟨s, false, L, rfl, h, fun _ h => h, fun x hx hn => absurd hx hn, fun h => (nomatch h), fun hf => by rw [hf] at hc; simp at hc⟩
  · rw [if_neg hc]
    cases hi : p.inited with
    | false =>
      rw [if_neg (by decide)]
      have hnL : fold n ∉ L := by
        intro hx
        rw [← hkey] at hx
        rw [(h.inL p hp).2 hx] at hi
        cases hi
      exact ⟨_, _, L, rfl, h.remove hnL, fun _ h => h, fun x hx hn => absurd hx hn, fun _ => ⟨Same.refl _, hnL⟩, fun _ => ⟨rfl, keys_remove _ _⟩⟩
    | true =>
      rw [if_pos rfl]
      have hL : fold n ∈ L := by rw [← hkey]; exact (h.inL p hp).1 hi
      obtain ⟨A, B, hAB⟩ := List.append_of_mem hL
      have hlen := h.length
      rw [hAB] at h
      obtain ⟨s1, A', h1, h2, h3, h4, _, h7⟩ := cleanup_stops hC (s.tree.length + 1) s A B n h (by
        rw [hAB] at hlen
        simp at hlen
        omega)
      rw [h1]
      have hnL := nodup_sublist_notMem h.ord.nodup h3
      refine ⟨_, _, A' ++ B, rfl, h2.remove hnL, ?_, ?_, fun _ => ⟨same_remove h4 n, hnL⟩, fun _ => ⟨rfl, ?_⟩⟩
      · intro x hx
        rw [hAB]
        rcases List.mem_append.1 hx with hx | hx
        · exact List.mem_append_left _ (h3.mem hx)
        · exact List.mem_append_right _ (List.mem_cons_of_mem _ hx)
      · intro x hx hx'
        rw [hAB] at hx
        rcases List.mem_append.1 hx with hx | hx
        · exact h7 x hx fun h => hx' (List.mem_append_left _ h)
        · rcases List.mem_cons.1 hx with rfl | hx
          · exact .refl _
          · exact absurd (List.mem_append_right _ hx) hx'
      · dsimp only
        rw [keys_remove, h4.keys]

/-- a new plugin -/
theorem Inv.hook {C : Name → Prop} {s : St} {L : List Name} (h : Inv C s L) {p : Plugin} (hp : C p.name ∧ ∀ d ∈ p.deps, C d) :
    Inv C (Subsys.hook s p) L := by
  unfold Subsys.hook
  split
  · exact h
  · rename_i hs
    have hno : ∀ q ∈ s.tree, q.key ≠ p.key := by
      intro q hq hk
      exact hs (isSome_iff.2 ⟨q, hq, hk⟩)
    have hmem : ∀ p' q, q ∈ Subsys.insert s.tree p' ↔ q = p' ∨ q ∈ s.tree := by
      intro p' q
      unfold Subsys.insert
      rw [List.mem_append, List.mem_cons]
      have : q ∈ s.tree ↔ q ∈ s.tree.takeWhile (fun q => lt q.key p'.key) ∨ q ∈ s.tree.dropWhile (fun q => lt q.key p'.key) := by
        rw [← List.mem_append, List.takeWhile_append_dropWhile]
      rw [this]
      constructor
      · rintro (h | h | h)
        · exact Or.inr (Or.inl h)
        · exact Or.inl h
        · exact Or.inr (Or.inr h)
      · rintro (h | h | h)
        · exact Or.inr (Or.inl h)
        · exact Or.inl h
        · exact Or.inr (Or.inr h)
    have hkL : p.key ∉ L := fun hx => by
      obtain ⟨q, hq, hk⟩ := h.ex _ hx
      exact hno q hq hk
    refine ⟨?_, ?_, ?_, ?_, ?_, ?_, h.fine⟩
    · have hu := h.uniq
      show (keys (Subsys.insert _ _)).Nodup
      unfold Subsys.insert keys
      rw [List.map_append, List.map_cons]
      rw [← List.takeWhile_append_dropWhile (p := fun q : Plugin => lt q.key p.key) (l := s.tree)] at hu
      unfold keys at hu
      rw [List.map_append, List.nodup_append] at hu
      rw [List.nodup_append, List.nodup_cons]
      have hd : ∀ q ∈ s.tree.dropWhile (fun q => lt q.key p.key), q ∈ s.tree := fun q hq => (List.dropWhile_sublist _).mem hq
      have ht : ∀ q ∈ s.tree.takeWhile (fun q => lt q.key p.key), q ∈ s.tree := fun q hq => (List.takeWhile_sublist _).mem hq
      refine ⟨hu.1, ⟨?_, hu.2.1⟩, ?_⟩
      · intro hm
        obtain ⟨q, hq, hk⟩ := List.mem_map.1 hm
        exact hno q (hd q hq) hk
      · intro a ha b hb
        rcases List.mem_cons.1 hb with rfl | hb
        · obtain ⟨q, hq, hk⟩ := List.mem_map.1 ha
          rw [← hk]
          exact hno q (ht q hq)
        · exact hu.2.2 a ha b hb
    · intro q hq
      rcases (hmem _ q).1 hq with rfl | hq
      · exact hp
      · exact h.canon q hq
    · intro q hq
      rcases (hmem _ q).1 hq with rfl | hq
      · exact ⟨fun h => (nomatch h), fun hx => absurd hx hkL⟩
      · exact h.inL q hq
    · intro x hx
      obtain ⟨q, hq, hk⟩ := h.ex x hx
      exact ⟨q, (hmem _ q).2 (Or.inr hq), hk⟩
    · have : ∀ M, (∀ x ∈ M, x ∈ L) → OrdL s.tree M →
          OrdL (Subsys.insert s.tree { p with inited := false, marked := false, unloadBegun := false, gone := false, dyn := false }) M := by
        intro M
        induction M with
        | nil => exact fun _ h => h
        | cons x M ih =>
          intro hML ho
          refine ⟨ho.1, ?_, ih (fun y hy => hML y (List.mem_cons_of_mem _ hy)) ho.2.2⟩
          intro q hq hk
          rcases (hmem _ q).1 hq with rfl | hq
          · exact absurd (hML x List.mem_cons_self) (by rw [← hk]; exact hkL)
          · exact ho.2.1 q hq hk
      exact this L (fun _ h => h) h.ord
    · intro x ds
      rw [h.run]
      constructor
      · rintro ⟨q, hq, h'⟩
        exact ⟨q, (hmem _ q).2 (Or.inr hq), h'⟩
      · rintro ⟨q, hq, hk, hi, hds⟩
        rcases (hmem _ q).1 hq with rfl | hq
        · cases hi
        · exact ⟨q, hq, hk, hi, hds⟩

theorem Inv.load {C : Name → Prop} {s : St} {L : List Name} (h : Inv C s L) (lib : Name) (file : Option Plugin)
    (hp : ∀ p, file = some p → C p.name ∧ ∀ d ∈ p.deps, C d) : Inv C (Subsys.load s lib file).1 L := by
  unfold Subsys.load
  split
  · exact h
  · cases file with
    | none => exact h
    | some p =>
      dsimp only
      have h' := h.hook (hp p rfl)
      split
      · exact h'.modify lib _ fun _ => ⟨rfl, rfl, rfl⟩
      · split
        · exact h'
        · exact h'.modify p.name _ fun _ => ⟨rfl, rfl, rfl⟩

theorem Inv.schema {C : Name → Prop} {s : St} {L : List Name} (h : Inv C s L) (x : List Name) : Inv C { s with schema := x } L :=
  ⟨h.uniq, h.canon, h.inL, h.ex, h.ord, h.run, h.fine⟩

theorem step_ok {C : Name → Prop} (hC : Distinct C) {s : St} {L : List Name} (h : Inv C s L) (o : Op) (ho : o.names C) :
    ∃ s' L', step s o = some s' ∧ Inv C s' L' := by
  cases o with
  | hook p => exact ⟨_, L, rfl, h.hook ho⟩
  | load lib file => exact ⟨_, L, rfl, h.load lib file ho⟩
  | cfgLoad lib file =>
    refine ⟨_, L, rfl, ?_⟩
    unfold Subsys.cfgLoad
    split
    · exact h
    · dsimp only
      split
      · exact (h.load lib file ho).schema _
      · exact h.load lib file ho
  | init env n =>
    simp only [step]
    split
    · rename_i hs
      obtain ⟨s', r, hr⟩ := callInit_ends env h (isSome_iff.1 hs)
      obtain ⟨L', a, _⟩ := initPlugin_adv env _ s L n s' r h hr
      exact ⟨s', L', by rw [hr]; rfl, a.inv⟩
    · exact ⟨s, L, rfl, h⟩
  | initiateUnload n =>
    refine ⟨_, L, rfl, h.modify n _ fun p => ?_⟩
    split <;> exact ⟨rfl, rfl, rfl⟩
  | unload n =>
    simp only [step]
    split
    · rename_i hs
      obtain ⟨p, hp, hk⟩ := isSome_iff.1 hs
      unfold Subsys.unload
      rw [get_of_mem h.uniq hp hk]
      dsimp only
      split
      · exact ⟨s, L, rfl, h⟩
      · obtain ⟨s', b, L', h1, h2, _⟩ := unload_ok hC h ⟨p, hp, hk⟩ false
        exact ⟨s', L', by rw [h1]; rfl, h2⟩
    · exact ⟨s, L, rfl, h⟩

theorem inv_start (C : Name → Prop) : Inv C St.start [] :=
  ⟨List.nodup_nil, fun _ h => (nomatch h), fun _ h => (nomatch h), fun _ h => (nomatch h), trivial,
    fun _ _ => ⟨fun h => (nomatch h), fun ⟨_, h, _⟩ => (nomatch h)⟩, trivial⟩

theorem run_ok {C : Name → Prop} (hC : Distinct C) (os : List Op) {s : St} {L : List Name} (h : Inv C s L) (ho : ∀ o ∈ os, o.names C) :
    ∃ s' L', run s os = some s' ∧ Inv C s' L' := by
  induction os generalizing s L with
  | nil => exact ⟨s, L, rfl, h⟩
  | cons o os ih =>
    obtain ⟨s1, L1, h1, h2⟩ := step_ok hC h o (ho o List.mem_cons_self)
    obtain ⟨s', L', h3, h4⟩ := ih h2 fun o' ho' => ho o' (List.mem_cons_of_mem _ ho')
    exact ⟨s', L', by unfold run; rw [h1]; exact h3, h4⟩

theorem cleanupAll_ok {C : Name → Prop} (hC : Distinct C) (ns : List Name) {s : St} {L : List Name} (h : Inv C s L)
    (hk : keys s.tree = ns.map fold) :
    ∃ s', each (fun s n => (unloadPlugin s n true).map (·.1)) s ns = some s' ∧ s'.tree = [] ∧ ∃ L', Inv C s' L' := by
  induction ns generalizing s L with
  | nil =>
    refine ⟨s, rfl, ?_, L, h⟩
    simpa [keys] using hk
  | cons n ns ih =>
    have hmem : fold n ∈ keys s.tree := by rw [hk]; exact List.mem_cons_self
    obtain ⟨p, hp, hkp⟩ := List.mem_map.1 hmem
    obtain ⟨s1, b, L1, h1, h2, _, _, _, h4⟩ := unload_ok hC h ⟨p, hp, hkp⟩ true
    have hn := h.uniq
    have hk1 : keys s1.tree = ns.map fold := by
      rw [(h4 rfl).2, hk]
      rw [hk, List.map_cons, List.nodup_cons] at hn
      rw [List.map_cons, List.filter_cons]
      simp only [bne_self_eq_false, Bool.false_eq_true, if_false]
      rw [List.filter_eq_self]
      intro x hx
      simp only [bne_iff_ne, ne_eq]
      exact fun e => hn.1 (e ▸ hx)
    obtain ⟨s', g1, g2, g3⟩ := ih h2 hk1
    refine ⟨s', ?_, g2, g3⟩
    unfold each
    rw [h1]
    exact g1

end Verif.Subsys
