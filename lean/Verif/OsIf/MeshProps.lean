import Verif.OsIf.Mesh
/-
Property C189: settings of the kernel for mesh interfaces.
-/
namespace Verif.OsIf

/-! ### specification -/

/-- forwarding is on, redirects and the filter of sender addresses are off -/
def ON : Glob := ⟨49, 49, 48, 48⟩

/-- nothing is tracked yet; the files contain characters -/
structure Fresh (w : World) : Prop where
  ifs : ∀ n, w.ifs n = none
  count : w.count = 0
  orig : w.orig = ⟨0, 0, 0, 0⟩
  files : ∀ n, (w.files n).1 ≠ 0 ∧ (w.files n).2 ≠ 0
  glob : w.glob.fwd4 ≠ 0 ∧ w.glob.fwd6 ≠ 0 ∧ w.glob.redirect ≠ 0 ∧ w.glob.spoof ≠ 0

/-- the number of mesh listeners -/
def meshNow (k : Nat) : List (Bool × Bool) → Nat
  | [] => k
  | (isAdd, mesh) :: h => meshNow (if mesh then if isAdd then k + 1 else k - 1 else k) h

/-- listeners of the interface `n` come and go -/
def hist (w : World) (n : Nat) (h : List (Bool × Bool)) : World := h.foldl (fun w x => if x.1 then add w n x.2 else remove w n x.2) w

/-! ### lemmas -/

theorem set_self {α : Type} (f : Nat → α) (n : Nat) (x : α) : set f n x n = x := if_pos rfl
theorem set_other {α : Type} (f : Nat → α) (n m : Nat) (x : α) (h : m ≠ n) : set f n x m = f m := if_neg h

theorem activate_on (g o : Glob) : (activate g o).1 = ON := by simp [activate, writeFile, ON]

theorem restore (init v : Nat) (hi : init ≠ 0) (hv : v ≠ 0) : (writeFile (writeFile init 0 v).1 0 (writeFile init 0 v).2).1 = init := by
  unfold writeFile
  rw [if_neg hv]
  by_cases h : init = v
  · simp [h]
  · simp [h, hi]

theorem again (x o : Nat) : (writeFile (writeFile x 0 o).1 0 o).1 = (writeFile x 0 o).1 := by
  unfold writeFile
  by_cases h : o = 0 <;> simp [h]

/-! ### only additions -/

structure Up (w : World) : Prop where
  count : 0 ≤ w.count
  on : 0 < w.count → w.glob = ON
  ifs : ∀ n i, w.ifs n = some i → i.any = (n == ANY) ∧ i.loopback = false ∧ i.ignore = false ∧ 0 ≤ i.counter ∧ (i.mesh = true ↔ 0 < i.counter) ∧
    (i.mesh = true → w.files n = (48, 48) ∧ 0 < w.count)

theorem up_getIf {w : World} (h : Up w) (n : Nat) : (getIf w n).any = (n == ANY) ∧ (getIf w n).loopback = false ∧ (getIf w n).ignore = false ∧ 0 ≤ (getIf w n).counter ∧
    ((getIf w n).mesh = true ↔ 0 < (getIf w n).counter) ∧ ((getIf w n).mesh = true → w.files n = (48, 48) ∧ 0 < w.count) := by
  unfold getIf
  cases hi : w.ifs n with
  | none => simp
  | some i => exact h.ifs n i hi

theorem refresh_files (w : World) (n : Nat) (i : If) (h : (i.loopback || i.any) = false) (hm : i.mesh = true) :
    refresh w n i true = { w with files := set w.files n (48, 48), ifs := set w.ifs n (some { i with oRedirect := (writeFile (w.files n).1 i.oRedirect 48).2, oSpoof := (writeFile (w.files n).2 i.oSpoof 48).2 }) } := by
  unfold refresh
  simp [h, hm, writeFile]

/-- adding a mesh listener -/
theorem up_add_mesh {w : World} (h : Up w) (n : Nat) (hn : n ≠ ANY) : Up (add w n true) ∧ ∃ i, (add w n true).ifs n = some i ∧ i.mesh = true := by
  obtain ⟨g1, g2, g3, g4, g5, g6⟩ := up_getIf h n
  have hany : (getIf w n).any = false := by rw [g1]; simp [hn]
  by_cases hc : (getIf w n).counter = 0
  · have hm : (getIf w n).mesh = false := by
      cases hmm : (getIf w n).mesh with
      | false => rfl
      | true => have := g5.mp hmm; omega
    have e : add w n true =
        { ifs := set (set w.ifs n (some { getIf w n with meshL := (getIf w n).meshL + 1, mesh := true, oRedirect := (writeFile (w.files n).1 (getIf w n).oRedirect 48).2, oSpoof := (writeFile (w.files n).2 (getIf w n).oSpoof 48).2 })) n (some { getIf w n with meshL := (getIf w n).meshL + 1, mesh := true, oRedirect := (writeFile (w.files n).1 (getIf w n).oRedirect 48).2, oSpoof := (writeFile (w.files n).2 (getIf w n).oSpoof 48).2, counter := (getIf w n).counter + 1 }), files := set w.files n (48, 48), glob := (if w.count + 1 = 1 then activate w.glob w.orig else (w.glob, w.orig)).1, orig := (if w.count + 1 = 1 then activate w.glob w.orig else (w.glob, w.orig)).2, count := w.count + 1 } := by
      unfold add
      simp only [if_true, if_neg hn, hc, g3, and_self, initMesh, g2, hany, hm, Bool.or_false, Bool.false_eq_true, if_false]
      rw [refresh_files _ _ _ (by simp) rfl]
      simp [set_self]
    rw [e]
    refine ⟨⟨?_, ?_, ?_⟩, ⟨_, set_self _ _ _, rfl⟩⟩
    · have := h.count
      show 0 ≤ w.count + 1
      omega
    · intro _
      show (if w.count + 1 = 1 then activate w.glob w.orig else (w.glob, w.orig)).1 = ON
      split
      · exact activate_on _ _
      · rename_i h1
        have := h.count
        exact h.on (by omega)
    · intro m i hi
      have hc0 := h.count
      by_cases hmn : m = n
      · subst hmn
        simp only [set_self] at hi
        cases hi
        refine ⟨g1, g2, g3, by show 0 ≤ (getIf w m).counter + 1; omega, ⟨fun _ => by show 0 < (getIf w m).counter + 1; omega, fun _ => rfl⟩, fun _ => ⟨set_self _ _ _, ?_⟩⟩
        show 0 < w.count + 1
        omega
      · simp only [set_other _ _ _ _ hmn] at hi
        obtain ⟨a1, a2, a3, a4, a5, a6⟩ := h.ifs m i hi
        refine ⟨a1, a2, a3, a4, a5, fun hm => ⟨?_, ?_⟩⟩
        · show set w.files n (48, 48) m = (48, 48)
          rw [set_other _ _ _ _ hmn]; exact (a6 hm).1
        · show 0 < w.count + 1
          omega
  · have hm : (getIf w n).mesh = true := g5.mpr (by omega)
    have e : add w n true = { w with ifs := set (set w.ifs n (some { getIf w n with meshL := (getIf w n).meshL + 1 })) n (some { getIf w n with meshL := (getIf w n).meshL + 1, counter := (getIf w n).counter + 1 }) } := by
      unfold add
      simp only [if_true, if_neg hn, hc, false_and, if_false, set_self, Option.map_some]
    rw [e]
    refine ⟨⟨h.count, h.on, ?_⟩, ⟨_, set_self _ _ _, hm⟩⟩
    intro m i hi
    by_cases hmn : m = n
    · subst hmn
      simp only [set_self] at hi
      cases hi
      refine ⟨g1, g2, g3, by show 0 ≤ (getIf w m).counter + 1; omega, ⟨fun _ => by show 0 < (getIf w m).counter + 1; omega, fun _ => hm⟩, g6⟩
    · simp only [set_other _ _ _ _ hmn] at hi
      exact h.ifs m i hi

theorem up_set {w : World} (h : Up w) (n : Nat) (j : If) (hj : j.any = (n == ANY) ∧ j.loopback = false ∧ j.ignore = false ∧ 0 ≤ j.counter ∧ (j.mesh = true ↔ 0 < j.counter) ∧
    (j.mesh = true → w.files n = (48, 48) ∧ 0 < w.count)) : Up { w with ifs := set w.ifs n (some j) } := by
  refine ⟨h.count, h.on, ?_⟩
  intro m i hi
  by_cases hmn : m = n
  · subst hmn
    simp only [set_self] at hi
    cases hi
    exact hj
  · simp only [set_other _ _ _ _ hmn] at hi
    exact h.ifs m i hi

theorem up_add {w : World} (h : Up w) (n : Nat) (mesh : Bool) : Up (add w n mesh) := by
  cases mesh with
  | true =>
    by_cases hn : n = ANY
    · have e : add w n true = { w with ifs := set w.ifs n (some { getIf w n with meshL := (getIf w n).meshL + 1 }) } := by
        unfold add; simp only [if_true, if_pos hn]
      rw [e]
      exact up_set h n _ (up_getIf h n)
    · exact (up_add_mesh h n hn).1
  | false =>
    have e : add w n false = { w with ifs := set w.ifs n (some { getIf w n with plainL := (getIf w n).plainL + 1 }) } := by
      unfold add; simp
    rw [e]
    exact up_set h n _ (up_getIf h n)

theorem up_link {w : World} (h : Up w) (n : Nat) (u : Bool) : Up (link w n u false) := by
  unfold link
  cases hi : w.ifs n with
  | none => exact h
  | some i =>
    obtain ⟨g1, g2, g3, g4, g5, g6⟩ := h.ifs n i hi
    simp only
    split
    · rename_i hc
      have hm : i.mesh = true := hc.2.2.1
      unfold refresh
      simp only [Bool.false_or, hm, Bool.not_true, Bool.false_eq_true, if_false]
      split
      · exact up_set h n _ ⟨g1, rfl, g3, g4, by rw [hm] at g5; exact g5, fun _ => g6 hm⟩
      · have hf : set w.files n ((writeFile (w.files n).1 i.oRedirect 48).1, (writeFile (w.files n).2 i.oSpoof 48).1) = w.files := by
          funext m
          by_cases hmn : m = n
          · subst hmn
            rw [set_self, (g6 hm).1]
            simp [writeFile]
          · rw [set_other _ _ _ _ hmn]
        rw [hf]
        exact up_set h n _ ⟨g1, rfl, g3, g4, by rw [hm] at g5; exact g5, fun _ => g6 hm⟩
    · exact up_set h n _ ⟨g1, rfl, g3, g4, g5, g6⟩

theorem mesh_stays {w : World} (h : Up w) (n : Nat) (hn : ∃ i, w.ifs n = some i ∧ i.mesh = true) (o : Op) (ho : (∃ m b, o = .add m b) ∨ ∃ m u, o = .link m u false) :
    Up (op w o) ∧ ∃ i, (op w o).ifs n = some i ∧ i.mesh = true := by
  obtain ⟨i, hi, hm⟩ := hn
  rcases ho with ⟨m, b, rfl⟩ | ⟨m, u, rfl⟩
  · refine ⟨up_add h m b, ?_⟩
    show ∃ i, (add w m b).ifs n = some i ∧ i.mesh = true
    by_cases hmn : n = m
    · subst hmn
      cases b with
      | false =>
        refine ⟨{ i with plainL := i.plainL + 1 }, ?_, hm⟩
        unfold add
        simp [set_self, getIf, hi]
      | true =>
        by_cases ha : n = ANY
        · refine ⟨{ i with meshL := i.meshL + 1 }, ?_, hm⟩
          unfold add
          simp only [if_true, if_pos ha, set_self, getIf, hi, Option.getD_some]
        · exact (up_add_mesh h n ha).2
    · refine ⟨i, ?_, hm⟩
      rw [← hi]
      unfold add initMesh refresh
      cases b <;> simp only [Bool.false_eq_true, if_false, if_true]
      · exact set_other _ _ _ _ hmn
      · split
        · exact set_other _ _ _ _ hmn
        · refine (set_other _ _ _ _ hmn).trans ?_
          split
          · split
            · exact set_other _ _ _ _ hmn
            · split
              · exact set_other _ _ _ _ hmn
              · split
                · exact set_other _ _ _ _ hmn
                · split <;> exact set_other _ _ _ _ hmn
          · exact set_other _ _ _ _ hmn
  · refine ⟨up_link h m u, ?_⟩
    show ∃ i, (link w m u false).ifs n = some i ∧ i.mesh = true
    unfold link
    cases hj : w.ifs m with
    | none => exact ⟨i, hi, hm⟩
    | some j =>
      simp only
      by_cases hmn : n = m
      · subst hmn
        rw [hi] at hj
        cases hj
        split
        · unfold refresh
          simp only [hm]
          split
          · exact ⟨_, set_self _ _ _, rfl⟩
          · simp only [Bool.not_true, Bool.false_eq_true, if_false]
            exact ⟨_, set_self _ _ _, rfl⟩
        · exact ⟨_, set_self _ _ _, hm⟩
      · refine ⟨i, ?_, hm⟩
        rw [← hi]
        split
        · unfold refresh
          split
          · exact set_other _ _ _ _ hmn
          · split
            · exact set_other _ _ _ _ hmn
            · exact set_other _ _ _ _ hmn
        · exact set_other _ _ _ _ hmn

/-! ### C189 -/

/-- As long as no listener is removed (nor configuration changed, nor an interface turns out to be the loopback): an interface with a mesh listener
has its settings, and forwarding is on. -/
theorem C189_on_partial (w : World) (hw : Fresh w) (os : List Op) (hos : ∀ o ∈ os, (∃ m b, o = .add m b) ∨ ∃ m u, o = .link m u false)
    (n : Nat) (hn : n ≠ ANY) (hin : Op.add n true ∈ os) : (os.foldl op w).files n = (48, 48) ∧ (os.foldl op w).glob = ON := by
  have h0 : Up w := ⟨by rw [hw.count]; exact Int.le_refl 0, by rw [hw.count]; intro h; omega, by intro n i hi; rw [hw.ifs] at hi; cases hi⟩
  have later : ∀ (os : List Op) (w : World), (∀ o ∈ os, (∃ m b, o = .add m b) ∨ ∃ m u, o = .link m u false) → Up w → (∃ i, w.ifs n = some i ∧ i.mesh = true) →
      Up (os.foldl op w) ∧ ∃ i, (os.foldl op w).ifs n = some i ∧ i.mesh = true := by
    intro os
    induction os with
    | nil => intro w _ h hi; exact ⟨h, hi⟩
    | cons o os ih =>
      intro w ho h hi
      have := mesh_stays h n hi o (ho o List.mem_cons_self)
      exact ih _ (fun x hx => ho x (List.mem_cons_of_mem _ hx)) this.1 this.2
  have all : ∀ (os : List Op) (w : World), (∀ o ∈ os, (∃ m b, o = .add m b) ∨ ∃ m u, o = .link m u false) → Up w → Op.add n true ∈ os →
      Up (os.foldl op w) ∧ ∃ i, (os.foldl op w).ifs n = some i ∧ i.mesh = true := by
    intro os
    induction os with
    | nil => intro w _ _ hi; cases hi
    | cons o os ih =>
      intro w ho h hi
      rcases List.mem_cons.mp hi with rfl | hi
      · have := up_add_mesh h n hn
        exact later os _ (fun x hx => ho x (List.mem_cons_of_mem _ hx)) this.1 this.2
      · refine ih _ (fun x hx => ho x (List.mem_cons_of_mem _ hx)) ?_ hi
        rcases ho o List.mem_cons_self with ⟨m, b, rfl⟩ | ⟨m, u, rfl⟩
        · exact up_add h m b
        · exact up_link h m u
  obtain ⟨hu, i, hi, hm⟩ := all os w hos h0 hin
  have := (hu.ifs n i hi).2.2.2.2.2 hm
  exact ⟨this.1, hu.on this.2⟩

/-! ### one interface -/

/-- not yet used for the mesh -/
structure Idle (w0 w : World) (n : Nat) : Prop where
  files : w.files = w0.files
  glob : w.glob = w0.glob
  orig : w.orig = ⟨0, 0, 0, 0⟩
  count : w.count = 0
  i : (getIf w n).mesh = false ∧ (getIf w n).counter = 0 ∧ (getIf w n).meshL = 0 ∧ (getIf w n).ignore = false ∧ (getIf w n).loopback = false ∧ (getIf w n).any = false ∧
    (getIf w n).oRedirect = 0 ∧ (getIf w n).oSpoof = 0 ∧ (getIf w n).configured = false

/-- used for the mesh -/
structure Used (w0 w : World) (n k : Nat) : Prop where
  others : ∀ m, m ≠ n → w.files m = w0.files m
  mine : w.files n = (48, 48)
  glob : w.glob = ON
  back : deactivate w.glob w.orig = w0.glob
  count : w.count = 1
  i : ∃ i, w.ifs n = some i ∧ i.mesh = true ∧ i.counter = k ∧ i.meshL = k ∧ i.loopback = false ∧ i.any = false ∧ i.configured = false ∧
    (writeFile 48 0 i.oRedirect).1 = (w0.files n).1 ∧ (writeFile 48 0 i.oSpoof).1 = (w0.files n).2

theorem getIf_set (w : World) (n : Nat) (i : If) : getIf { w with ifs := set w.ifs n (some i) } n = i := by
  unfold getIf; simp [set_self]

theorem idle_plain {w0 w : World} {n : Nat} (hn : n ≠ ANY) (h : Idle w0 w n) (x : Bool × Bool) (hx : x.2 = false) : Idle w0 (if x.1 then add w n x.2 else remove w n x.2) n := by
  obtain ⟨a, b⟩ := x
  simp only at hx
  subst hx
  cases a with
  | true =>
    have e : add w n false = { w with ifs := set w.ifs n (some { getIf w n with plainL := (getIf w n).plainL + 1 }) } := by
      unfold add; simp
    simp only [if_true]
    rw [e]
    exact ⟨h.files, h.glob, h.orig, h.count, by rw [getIf_set]; exact h.i⟩
  | false =>
    simp only [Bool.false_eq_true, if_false]
    unfold remove
    cases hi : w.ifs n with
    | none => exact h
    | some i =>
      simp only [Bool.false_eq_true, if_false]
      have hg : getIf w n = i := by unfold getIf; rw [hi]; rfl
      have hh := h.i
      rw [hg] at hh
      split
      · exact h
      · unfold removeIf
        split
        · exact ⟨h.files, h.glob, h.orig, h.count, by rw [getIf_set]; exact hh⟩
        · simp only [hh.1, Bool.false_eq_true, if_false]
          refine ⟨h.files, h.glob, h.orig, h.count, ?_⟩
          unfold getIf
          simp [set_self, hn]

theorem idle_mesh {w0 w : World} (hw : Fresh w0) {n : Nat} (hn : n ≠ ANY) (h : Idle w0 w n) : Used w0 (add w n true) n 1 := by
  obtain ⟨h1, h2, h3, h4, h5, h6, h7, h8, h9⟩ := h.i
  have e : add w n true =
      { ifs := set (set w.ifs n (some { getIf w n with meshL := (getIf w n).meshL + 1, mesh := true, oRedirect := (writeFile (w.files n).1 (getIf w n).oRedirect 48).2, oSpoof := (writeFile (w.files n).2 (getIf w n).oSpoof 48).2 })) n (some { getIf w n with meshL := (getIf w n).meshL + 1, mesh := true, oRedirect := (writeFile (w.files n).1 (getIf w n).oRedirect 48).2, oSpoof := (writeFile (w.files n).2 (getIf w n).oSpoof 48).2, counter := (getIf w n).counter + 1 }), files := set w.files n (48, 48), glob := (if w.count + 1 = 1 then activate w.glob w.orig else (w.glob, w.orig)).1, orig := (if w.count + 1 = 1 then activate w.glob w.orig else (w.glob, w.orig)).2, count := w.count + 1 } := by
    unfold add
    simp only [if_true, if_neg hn, h2, h4, and_self, initMesh, h5, h6, h1, Bool.or_false, Bool.false_eq_true, if_false]
    rw [refresh_files _ _ _ (by simp) rfl]
    simp [set_self]
  have hc : w.count + 1 = 1 := by rw [h.count]; rfl
  rw [e]
  refine ⟨?_, set_self _ _ _, ?_, ?_, hc, ⟨_, set_self _ _ _, rfl, ?_, ?_, h5, h6, h9, ?_, ?_⟩⟩
  · intro m hm
    show set w.files n (48, 48) m = _
    rw [set_other _ _ _ _ hm, h.files]
  · show (if w.count + 1 = 1 then activate w.glob w.orig else (w.glob, w.orig)).1 = ON
    rw [if_pos hc]; exact activate_on _ _
  · show deactivate (if w.count + 1 = 1 then activate w.glob w.orig else (w.glob, w.orig)).1 (if w.count + 1 = 1 then activate w.glob w.orig else (w.glob, w.orig)).2 = _
    rw [if_pos hc, h.orig, h.glob]
    obtain ⟨a, b, c, d⟩ := hw.glob
    unfold deactivate activate
    simp only
    rw [restore _ _ a (by decide), restore _ _ b (by decide), restore _ _ c (by decide), restore _ _ d (by decide)]
  · show (getIf w n).counter + 1 = ((1 : Nat) : Int)
    rw [h2]; rfl
  · show (getIf w n).meshL + 1 = 1
    rw [h3]
  · show (writeFile 48 0 (writeFile (w.files n).1 (getIf w n).oRedirect 48).2).1 = _
    rw [h7, h.files]
    have := restore (w0.files n).1 48 (hw.files n).1 (by decide)
    have e48 : (writeFile (w0.files n).1 0 48).1 = 48 := by simp [writeFile]
    rw [e48] at this
    exact this
  · show (writeFile 48 0 (writeFile (w.files n).2 (getIf w n).oSpoof 48).2).1 = _
    rw [h8, h.files]
    have := restore (w0.files n).2 48 (hw.files n).2 (by decide)
    have e48 : (writeFile (w0.files n).2 0 48).1 = 48 := by simp [writeFile]
    rw [e48] at this
    exact this

theorem used_setIf {w0 w : World} {n k k' : Nat} (h : Used w0 w n k) (j : If) (hj : ∀ i, w.ifs n = some i → j.mesh = true ∧ j.counter = k' ∧ j.meshL = k' ∧ j.loopback = i.loopback ∧
    j.any = i.any ∧ j.configured = i.configured ∧ j.oRedirect = i.oRedirect ∧ j.oSpoof = i.oSpoof) (ifs : Nat → Option If) (hifs : ifs n = some j) : Used w0 { w with ifs := ifs } n k' := by
  obtain ⟨i, i1, i2, i3, i4, i5, i6, i7, i8, i9⟩ := h.i
  obtain ⟨j1, j2, j3, j4, j5, j6, j7, j8⟩ := hj i i1
  exact ⟨h.others, h.mine, h.glob, h.back, h.count, ⟨j, hifs, j1, j2, j3, j4.trans i5, j5.trans i6, j6.trans i7, by rw [j7]; exact i8, by rw [j8]; exact i9⟩⟩

theorem used_step {w0 w : World} {n k : Nat} (hn : n ≠ ANY) (h : Used w0 w n k) (hk : 0 < k) (x : Bool × Bool) (hk' : 0 < meshNow k [x]) :
    Used w0 (if x.1 then add w n x.2 else remove w n x.2) n (meshNow k [x]) := by
  obtain ⟨i, i1, i2, i3, i4, i5, i6, i7, i8, i9⟩ := h.i
  have hg : getIf w n = i := by unfold getIf; rw [i1]; rfl
  have hc : ¬ (i.counter = 0) := by omega
  obtain ⟨a, b⟩ := x
  cases a with
  | true =>
    simp only [if_true]
    cases b with
    | true =>
      have e : add w n true = { w with ifs := set (set w.ifs n (some { i with meshL := i.meshL + 1 })) n (some { i with meshL := i.meshL + 1, counter := i.counter + 1 }) } := by
        unfold add
        simp only [hg, if_true, if_neg hn, hc, false_and, if_false, set_self, Option.map_some]
      rw [e]
      refine used_setIf h { i with meshL := i.meshL + 1, counter := i.counter + 1 } ?_ _ (set_self _ _ _)
      intro i' hi'
      rw [i1] at hi'; cases hi'
      refine ⟨i2, ?_, ?_, rfl, rfl, rfl, rfl, rfl⟩
      · simp [meshNow, i3]
      · simp [meshNow, i4]
    | false =>
      have e : add w n false = { w with ifs := set w.ifs n (some { i with plainL := i.plainL + 1 }) } := by
        unfold add; simp [hg]
      rw [e]
      refine used_setIf h { i with plainL := i.plainL + 1 } ?_ _ (set_self _ _ _)
      intro i' hi'
      rw [i1] at hi'; cases hi'
      exact ⟨i2, i3, i4, rfl, rfl, rfl, rfl, rfl⟩
  | false =>
    simp only [Bool.false_eq_true, if_false]
    unfold remove
    rw [i1]
    cases b with
    | true =>
      have hk1 : 0 < k - 1 := by simpa [meshNow] using hk'
      have m0 : ¬ (i.meshL = 0) := by omega
      have c1 : ¬ (i.counter - 1 = 0) := by omega
      have l1 : i.meshL - 1 + i.plainL ≠ 0 ∨ i.configured = true := .inl (by omega)
      simp only [if_true, if_neg m0, if_neg c1, removeIf, if_pos l1]
      refine used_setIf h { i with counter := i.counter - 1, meshL := i.meshL - 1 } ?_ _ (set_self _ _ _)
      intro i' hi'
      rw [i1] at hi'; cases hi'
      refine ⟨i2, ?_, ?_, rfl, rfl, rfl, rfl, rfl⟩
      · show i.counter - 1 = ((meshNow k [(false, true)] : Nat) : Int)
        simp only [meshNow, if_true, Bool.false_eq_true, if_false]
        omega
      · show i.meshL - 1 = meshNow k [(false, true)]
        simp only [meshNow, if_true, Bool.false_eq_true, if_false]
        omega
    | false =>
      have l1 : i.meshL + (i.plainL - 1) ≠ 0 ∨ i.configured = true := .inl (by omega)
      simp only [Bool.false_eq_true, if_false]
      split
      · exact h
      · simp only [removeIf, if_pos l1]
        refine used_setIf h { i with plainL := i.plainL - 1 } ?_ _ (set_self _ _ _)
        intro i' hi'
        rw [i1] at hi'; cases hi'
        exact ⟨i2, i3, i4, rfl, rfl, rfl, rfl, rfl⟩

theorem used_last {w0 w : World} {n : Nat} (h : Used w0 w n 1) : (remove w n true).files = w0.files ∧ (remove w n true).glob = w0.glob := by
  obtain ⟨i, i1, i2, i3, i4, i5, i6, i7, i8, i9⟩ := h.i
  unfold remove
  rw [i1]
  have m0 : ¬ (i.meshL = 0) := by omega
  have c1 : i.counter - 1 = 0 := by omega
  simp only [if_true, if_neg m0, if_pos c1]
  have hcl : ∀ (j : If), j.mesh = true → j.loopback = false → j.any = false → j.oRedirect = i.oRedirect → j.oSpoof = i.oSpoof → ∀ v : World, v.orig = w.orig →
      (writeFile (v.files n).1 0 i.oRedirect).1 = (w0.files n).1 → (writeFile (v.files n).2 0 i.oSpoof).1 = (w0.files n).2 → (∀ m, m ≠ n → v.files m = w0.files m) →
      (v.count = 1 → deactivate v.glob v.orig = w0.glob) → (v.count ≠ 1 → v.glob = w0.glob) →
      (cleanupMesh v n j).files = w0.files ∧ (cleanupMesh v n j).glob = w0.glob ∧ (cleanupMesh v n j).orig = w.orig ∧ (cleanupMesh v n j).count = v.count - 1 := by
    intro j j1 j2 j3 j4 j5 v ho f1 f2 f3 g1 g2
    unfold cleanupMesh
    simp only [j1, j2, j3, Bool.or_false, Bool.not_true, Bool.false_eq_true, if_false]
    refine ⟨?_, ?_, ho, trivial⟩
    · funext m
      by_cases hm : m = n
      · subst hm
        rw [set_self, j4, j5, f1, f2]
      · rw [set_other _ _ _ _ hm, f3 m hm]
    · split
      · exact g1 (by omega)
      · exact g2 (by omega)
  have c := hcl { i with counter := i.counter - 1 } i2 i5 i6 rfl rfl w rfl (by rw [h.mine]; exact i8) (by rw [h.mine]; exact i9) h.others (fun _ => h.back) (fun hc => absurd h.count hc)
  unfold removeIf
  split
  · exact ⟨c.1, c.2.1⟩
  · simp only [i2, if_true]
    have fr := congrFun c.1 n
    have back : (writeFile (w0.files n).1 0 i.oRedirect).1 = (w0.files n).1 := by rw [← i8]; exact again 48 _
    have back2 : (writeFile (w0.files n).2 0 i.oSpoof).1 = (w0.files n).2 := by rw [← i9]; exact again 48 _
    have d := hcl { i with counter := i.counter - 1, meshL := i.meshL - 1 } i2 i5 i6 rfl rfl (cleanupMesh w n { i with counter := i.counter - 1 }) c.2.2.1
      (by rw [fr]; exact back) (by rw [fr]; exact back2) (fun m hm => by rw [c.1]) (by rw [c.2.2.2, h.count]; intro h; exact absurd h (by decide)) (fun _ => c.2.1)
    simp only [i2] at d
    exact ⟨d.1, d.2.1⟩

/-- The first use of the first interface: the settings are made with the first mesh listener, they stay while there is one, and with the last one
the files get the contents they had before. -/
theorem C189_once_partial (w : World) (hw : Fresh w) (n : Nat) (hn : n ≠ ANY) (pre mid : List (Bool × Bool)) (hpre : ∀ x ∈ pre, x.2 = false)
    (hmid : ∀ k, 0 < meshNow 1 (mid.take k)) :
    (hist w n (pre ++ (true, true) :: mid)).files n = (48, 48) ∧ (hist w n (pre ++ (true, true) :: mid)).glob = ON ∧
    (meshNow 1 mid = 1 → (remove (hist w n (pre ++ (true, true) :: mid)) n true).files = w.files ∧ (remove (hist w n (pre ++ (true, true) :: mid)) n true).glob = w.glob) := by
  have h0 : Idle w w n := by
    refine ⟨rfl, rfl, hw.orig, hw.count, ?_⟩
    unfold getIf
    rw [hw.ifs n]
    simp [hn]
  have hp : ∀ (pre : List (Bool × Bool)) (v : World), (∀ x ∈ pre, x.2 = false) → Idle w v n → Idle w (hist v n pre) n := by
    intro pre
    induction pre with
    | nil => intro v _ h; exact h
    | cons x xs ih => intro v hx h; exact ih _ (fun y hy => hx y (List.mem_cons_of_mem _ hy)) (idle_plain hn h x (hx x List.mem_cons_self))
  have hm : ∀ (mid : List (Bool × Bool)) (v : World) (k : Nat), 0 < k → (∀ j, 0 < meshNow k (mid.take j)) → Used w v n k → Used w (hist v n mid) n (meshNow k mid) := by
    intro mid
    induction mid with
    | nil => intro v k _ _ h; exact h
    | cons x xs ih =>
      intro v k hk hj h
      have h1 : 0 < meshNow k [x] := by simpa using hj 1
      have e : ∀ l, meshNow k (x :: l) = meshNow (meshNow k [x]) l := fun l => rfl
      rw [e xs]
      exact ih _ _ h1 (fun j => by rw [← e]; exact hj (j + 1)) (used_step hn h hk x h1)
  have hu : Used w (hist w n (pre ++ (true, true) :: mid)) n (meshNow 1 mid) := by
    unfold hist
    rw [List.foldl_append, List.foldl_cons]
    exact hm mid _ 1 (by decide) hmid (idle_mesh hw hn (hp pre w hpre h0))
  exact ⟨hu.mine, hu.glob, fun h1 => used_last (h1 ▸ hu)⟩

/-- a kernel without forwarding, with redirects and filters -/
def kernel : World := { ifs := fun _ => none, files := fun _ => (49, 50), glob := ⟨48, 48, 49, 49⟩, orig := ⟨0, 0, 0, 0⟩, count := 0 }

theorem kernel_fresh : Fresh kernel :=
  ⟨fun _ => rfl, rfl, rfl, fun _ => ⟨(by decide : (49 : Nat) ≠ 0), (by decide : (50 : Nat) ≠ 0)⟩, by decide⟩

/-- Of two mesh interfaces one is removed: forwarding is switched off although the other one is still in use. -/
theorem C189_two_counterexample : let w := [.add 1 true, .add 2 true, .remove 1 true].foldl op kernel
    w.glob = kernel.glob ∧ (w.ifs 2).map (·.mesh) = some true ∧ w.files 2 = (48, 48) := by decide +kernel

/-- The only mesh interface is removed and added again: forwarding stays off. -/
theorem C189_again_counterexample : let w := [.add 1 true, .remove 1 true, .add 1 true].foldl op kernel
    w.glob = kernel.glob ∧ w.count = 0 ∧ w.files 1 = (48, 48) := by decide +kernel

/-- The interface stays because of another listener: a second mesh listener gets no settings at all. -/
theorem C189_kept_counterexample : let w := [.add 1 false, .add 1 true, .remove 1 true, .add 1 true].foldl op kernel
    w.glob = kernel.glob ∧ w.files 1 = kernel.files 1 ∧ (w.ifs 1).map (·.meshL) = some 1 := by decide +kernel

/-- The section of a mesh interface is removed from the configuration: the settings are taken back. Without a section they would be made. -/
theorem C189_section_counterexample : let w := [.cfg 1 (some false), .add 1 true, .cfg 1 none].foldl op kernel
    w.glob = kernel.glob ∧ w.files 1 = kernel.files 1 ∧ (w.ifs 1).map (·.meshL) = some 1 ∧
    ([.add 1 true].foldl op kernel).glob = ON := by decide +kernel

/-- The loopback is used as mesh interface, which should be ignored: its settings are made before it is known to be one, and never taken back. -/
theorem C189_loopback_counterexample : let w := [.add 1 true, .link 1 true true, .remove 1 true].foldl op kernel
    w.glob = ON ∧ w.files 1 = (48, 48) ∧ w.ifs 1 = none := by decide +kernel

example : (hist kernel 1 ([(true, false)] ++ (true, true) :: [(true, true), (false, false), (false, true)])).files 1 = (48, 48) :=
  (C189_once_partial kernel kernel_fresh 1 (by decide) _ _ (by decide) (fun k => by
    match k with
    | 0 => decide
    | 1 => decide
    | 2 => decide
    | k + 3 => simp [meshNow])).1
example : ([.add 1 true, .link 1 true false, .add 2 false, .add 2 true].foldl op kernel).glob = ON :=
  (C189_on_partial kernel kernel_fresh _ (by
    intro o ho
    simp at ho
    rcases ho with rfl | rfl | rfl | rfl
    · exact .inl ⟨_, _, rfl⟩
    · exact .inr ⟨_, _, rfl⟩
    · exact .inl ⟨_, _, rfl⟩
    · exact .inl ⟨_, _, rfl⟩) 2 (by decide) (by simp)).2

end Verif.OsIf
