import Verif.L2Export.Model
/-
C195-C197: exported routes, sections, patterns.
-/
namespace Verif.L2Export

/-! ## Specification -/

/-- a neighbor gets the address when no neighbor has it, loses it, and the kernel answers without errors: the gateway and interface of the neighbor that has the address in the
end; `none` for other histories -/
def follow : Option Nat → List Ev → Option (Option Nat)
  | p, [] => some p
  | none, .add _ v :: es => follow (some v) es
  | some _, .remove _ :: es => follow none es
  | p, .answer true :: es => follow p es
  | _, _ => none

/-- the routes wanted in the kernel -/
def wanted (c : Cfg) : Option Nat → List Par
  | none => []
  | some v => [⟨v, c.distance, c.table, c.protocol⟩]

/-! ## Lemmas -/

/-- state of a single section: `p` has the address -/
structure Inv (e : Nat) (c : Cfg) (p : Option Nat) (s : St) : Prop where
  exps : s.exps = [(e, c)]
  kernel : s.queue.foldl effect s.kernel = (p.map (par · c)).toList
  absent : p = none → s.cur = []
  present : ∀ v, p = some v → ∃ st, st ≠ .nothing ∧ s.cur = [(e, ⟨st, par v c⟩)] ∧ (st = .added → ∀ r ∈ s.queue, r.set = true → r.live = false) ∧
    (st = .adding → ∃ r ∈ s.queue, r.set = true ∧ r.live = true)
  own : ∀ r ∈ s.queue, r.exp = e
  dead : p = none → ∀ r ∈ s.queue, r.set = true → r.live = false
  rem : ∀ r ∈ s.queue, r.set = false → r.live = true
  one : s.queue.countP (fun r => r.set && r.live) ≤ 1
  count : s.rem.length = s.queue.countP (fun r => !r.set)

theorem effect_forget (e : Nat) (q : List Req) : ∀ k, (forget q e).foldl effect k = q.foldl effect k := by
  induction q with
  | nil => intro k; rfl
  | cons r q ih =>
    intro k
    simp only [forget, List.map_cons, List.foldl_cons]
    have : effect k (if r.exp = e ∧ r.set = true then { r with live := false } else r) = effect k r := by split <;> rfl
    rw [this]
    exact ih _

theorem forget_mem {q : List Req} {e : Nat} {r : Req} (h : r ∈ forget q e) : ∃ r0 ∈ q, r.exp = r0.exp ∧ r.set = r0.set ∧ (r.set = false → r.live = r0.live) ∧ (r.exp = e → r.set = true → r.live = false) := by
  obtain ⟨r0, h1, h2⟩ := List.mem_map.1 h
  refine ⟨r0, h1, ?_⟩
  by_cases c : r0.exp = e ∧ r0.set = true
  · rw [if_pos c] at h2; subst h2; simp [c.2]
  · rw [if_neg c] at h2; subst h2
    exact ⟨rfl, rfl, fun _ => rfl, fun h3 h4 => absurd ⟨h3, h4⟩ c⟩

theorem forget_count (q : List Req) (e : Nat) : (forget q e).countP (fun r => !r.set) = q.countP (fun r => !r.set) := by
  induction q with
  | nil => rfl
  | cons r q ih =>
    simp only [forget, List.map_cons, List.countP_cons]
    have : (if r.exp = e ∧ r.set = true then { r with live := false } else r).set = r.set := by split <;> rfl
    rw [this]
    have ih' : (List.map (fun r => if r.exp = e ∧ r.set = true then { r with live := false } else r) q).countP (fun r => !r.set) = q.countP (fun r => !r.set) := ih
    rw [ih']

theorem effect_par (v : Nat) (c : Cfg) (e : Nat) (l : Bool) : effect [] ⟨e, true, par v c, l⟩ = [par v c] ∧ effect [par v c] ⟨e, false, par v c, l⟩ = [] := by
  simp [effect]

theorem add_inv {e : Nat} {c : Cfg} {s s' : St} (h : Inv e c none s) (n v : Nat) (hs : step s (.add n v) = some s') : Inv e c (some v) s' := by
  have hc := h.absent rfl
  simp only [step, h.exps, List.foldl_cons, List.foldl_nil, add1, Option.bind_some, hc, List.lookup_nil, Option.any_none, Bool.false_eq_true, if_false] at hs
  cases hs
  have hd := h.dead rfl
  exact {
    exps := rfl
    kernel := by
      simp only [List.foldl_append, List.foldl_cons, List.foldl_nil, h.kernel]
      exact (effect_par v c e true).1
    absent := fun x => (nomatch x)
    present := by
      intro v' hv
      cases hv
      exact ⟨.adding, by simp, by simp [setObj], fun x => (nomatch x), fun _ => ⟨_, List.mem_append_right _ List.mem_cons_self, rfl, rfl⟩⟩
    own := by
      intro r hr
      simp only [List.mem_append, List.mem_singleton] at hr
      rcases hr with hr | hr
      · exact h.own r hr
      · rw [hr]
    dead := fun x => (nomatch x)
    rem := by
      intro r hr hrs
      simp only [List.mem_append, List.mem_singleton] at hr
      rcases hr with hr | hr
      · exact h.rem r hr hrs
      · rw [hr]
    one := by
      simp only [List.countP_append]
      have : s.queue.countP (fun r => r.set && r.live) = 0 := by
        rw [List.countP_eq_zero]
        intro r hr hb
        simp only [Bool.and_eq_true] at hb
        have := hd r hr hb.1
        rw [this] at hb
        exact absurd hb.2 (by decide)
      rw [this]
      simp
    count := by simp [h.count] }

theorem remove_inv {e : Nat} {c : Cfg} {v : Nat} {s s' : St} (h : Inv e c (some v) s) (n : Nat) (hs : step s (.remove n) = some s') : Inv e c none s' ∧ s'.queue ≠ [] ∧ s'.cur = [] := by
  obtain ⟨st, h1, h2, h3, h4⟩ := h.present v rfl
  have hl : s.cur.lookup e = some ⟨st, par v c⟩ := by rw [h2]; simp
  simp only [step, h.exps, List.foldl_cons, List.foldl_nil, remove1, hl] at hs
  have hd : delObj s.cur e = [] := by rw [h2]; simp [delObj]
  cases hs
  cases st with
  | nothing => exact absurd rfl h1
  | adding =>
    refine ⟨?_, by simp [destroy], by simp [destroy, hd]⟩
    exact {
      exps := h.exps
      kernel := by
        simp only [destroy, List.foldl_append, List.foldl_cons, List.foldl_nil, effect_forget, h.kernel]
        exact (effect_par v c e true).2
      absent := fun _ => hd
      present := fun v x => (nomatch x)
      own := by
        intro r hr
        simp only [destroy, List.mem_append, List.mem_singleton] at hr
        rcases hr with hr | hr
        · obtain ⟨r0, g1, g2, _⟩ := forget_mem hr; rw [g2]; exact h.own r0 g1
        · rw [hr]
      dead := by
        intro _ r hr hrs
        simp only [destroy, List.mem_append, List.mem_singleton] at hr
        rcases hr with hr | hr
        · obtain ⟨r0, g1, g2, g3, g4, g5⟩ := forget_mem hr
          exact g5 (by rw [g2]; exact h.own r0 g1) hrs
        · rw [hr] at hrs; cases hrs
      rem := by
        intro r hr hrs
        simp only [destroy, List.mem_append, List.mem_singleton] at hr
        rcases hr with hr | hr
        · obtain ⟨r0, g1, g2, g3, g4, g5⟩ := forget_mem hr
          rw [g4 hrs]; exact h.rem r0 g1 (by rw [← g3]; exact hrs)
        · rw [hr]
      one := by
        simp only [destroy, List.countP_append]
        have : (forget s.queue e).countP (fun r => r.set && r.live) = 0 := by
          rw [List.countP_eq_zero]
          intro r hr hb
          simp only [Bool.and_eq_true] at hb
          obtain ⟨r0, g1, g2, g3, g4, g5⟩ := forget_mem hr
          rw [g5 (by rw [g2]; exact h.own r0 g1) hb.1] at hb
          exact absurd hb.2 (by decide)
        rw [this]
        simp
      count := by simp [destroy, List.countP_append, forget_count, h.count] }
  | added =>
    refine ⟨?_, by simp [destroy], by simp [destroy, hd]⟩
    exact {
      exps := h.exps
      kernel := by
        simp only [destroy, List.foldl_append, List.foldl_cons, List.foldl_nil, h.kernel]
        exact (effect_par v c e true).2
      absent := fun _ => hd
      present := fun v x => (nomatch x)
      own := by
        intro r hr
        simp only [destroy, List.mem_append, List.mem_singleton] at hr
        rcases hr with hr | hr
        · exact h.own r hr
        · rw [hr]
      dead := by
        intro _ r hr hrs
        simp only [destroy, List.mem_append, List.mem_singleton] at hr
        rcases hr with hr | hr
        · exact h3 rfl r hr hrs
        · rw [hr] at hrs; cases hrs
      rem := by
        intro r hr hrs
        simp only [destroy, List.mem_append, List.mem_singleton] at hr
        rcases hr with hr | hr
        · exact h.rem r hr hrs
        · rw [hr]
      one := by
        simp only [destroy, List.countP_append]
        have := h.one
        simp
        exact this
      count := by simp [destroy, List.countP_append, h.count] }

theorem answer_inv {e : Nat} {c : Cfg} {p : Option Nat} {s s' : St} (h : Inv e c p s) (hs : step s (.answer true) = some s') : Inv e c p s' := by
  simp only [step, answer] at hs
  cases hq : s.queue with
  | nil => rw [hq] at hs; cases hs; exact h
  | cons r q =>
    rw [hq] at hs
    simp only [if_true] at hs
    have hk := h.kernel
    have ho := h.own
    have hd := h.dead
    have hr := h.rem
    have h1 := h.one
    have hc := h.count
    rw [hq] at hk ho hd hr h1 hc
    rw [List.foldl_cons] at hk
    rw [List.countP_cons] at h1 hc
    by_cases c1 : r.live = false
    · rw [if_pos c1] at hs
      cases hs
      have hrs : r.set = true := by
        cases hb : r.set with
        | true => rfl
        | false => have := hr r List.mem_cons_self hb; rw [c1] at this; cases this
      exact {
        exps := h.exps
        kernel := hk
        absent := h.absent
        present := by
          intro v hv
          obtain ⟨st, g1, g2, g3, g4⟩ := h.present v hv
          rw [hq] at g3 g4
          refine ⟨st, g1, g2, fun x y hy => g3 x y (List.mem_cons_of_mem _ hy), fun x => ?_⟩
          obtain ⟨y, hy, hy2, hy3⟩ := g4 x
          rcases List.mem_cons.1 hy with hy | hy
          · rw [hy, c1] at hy3; cases hy3
          · exact ⟨y, hy, hy2, hy3⟩
        own := fun y hy => ho y (List.mem_cons_of_mem _ hy)
        dead := fun x y hy => hd x y (List.mem_cons_of_mem _ hy)
        rem := fun y hy => hr y (List.mem_cons_of_mem _ hy)
        one := by simp only; omega
        count := by simp only; rw [hc, hrs]; simp }
    · have hlive : r.live = true := by cases hb : r.live <;> simp_all
      rw [if_neg c1] at hs
      cases hset : r.set with
      | true =>
        rw [hset] at hs hc h1
        simp only [if_true] at hs
        have he : r.exp = e := ho r List.mem_cons_self
        have hz : q.countP (fun r => r.set && r.live) = 0 := by rw [hlive] at h1; simp at h1; simpa using h1
        have hdead : ∀ y ∈ q, y.set = true → y.live = false := by
          intro y hy hys
          have := (List.countP_eq_zero.1 hz) y hy
          rw [hys] at this
          simpa using this
        cases p with
        | none => have := hd rfl r List.mem_cons_self hset; rw [hlive] at this; cases this
        | some v =>
          obtain ⟨st, g1, g2, g3, g4⟩ := h.present v rfl
          have hl : s.cur.lookup e = some ⟨st, par v c⟩ := by rw [g2]; simp
          rw [he, hl] at hs
          simp only at hs
          cases hs
          exact {
            exps := h.exps
            kernel := hk
            absent := fun x => (nomatch x)
            present := by
              intro v' hv
              cases hv
              exact ⟨.added, by simp, by rw [g2]; simp [setObj], fun _ => hdead, fun x => (nomatch x)⟩
            own := fun y hy => ho y (List.mem_cons_of_mem _ hy)
            dead := fun x => (nomatch x)
            rem := fun y hy => hr y (List.mem_cons_of_mem _ hy)
            one := by simp only; omega
            count := by simp only; rw [hc]; simp }
      | false =>
        rw [hset] at hs hc h1
        simp only [Bool.false_eq_true, if_false] at hs
        split at hs
        · rename_i rem hrem
          cases hs
          exact {
            exps := h.exps
            kernel := hk
            absent := h.absent
            present := by
              intro v hv
              obtain ⟨st, g1, g2, g3, g4⟩ := h.present v hv
              rw [hq] at g3 g4
              refine ⟨st, g1, g2, fun x y hy => g3 x y (List.mem_cons_of_mem _ hy), fun x => ?_⟩
              obtain ⟨y, hy, hy2, hy3⟩ := g4 x
              rcases List.mem_cons.1 hy with hy | hy
              · rw [hy, hset] at hy2; cases hy2
              · exact ⟨y, hy, hy2, hy3⟩
            own := fun y hy => ho y (List.mem_cons_of_mem _ hy)
            dead := fun x y hy => hd x y (List.mem_cons_of_mem _ hy)
            rem := fun y hy => hr y (List.mem_cons_of_mem _ hy)
            one := by simp only; omega
            count := by simp only; rw [hrem] at hc; simp at hc; exact hc }
        · cases hs

theorem run_inv {e : Nat} {c : Cfg} (es : List Ev) : ∀ {p p' : Option Nat} {s s' : St}, Inv e c p s → follow p es = some p' → run s es = some s' → Inv e c p' s' := by
  induction es with
  | nil => intro p p' s s' h hf hr; cases hr; simp only [follow, Option.some.injEq] at hf; subst hf; exact h
  | cons ev es ih =>
    intro p p' s s' h hf hr
    simp only [run] at hr
    cases hs : step s ev with
    | none => rw [hs] at hr; cases hr
    | some s1 =>
      rw [hs] at hr
      simp only [Option.bind_some] at hr
      cases ev with
      | add n v =>
        cases p with
        | none => exact ih (add_inv h n v hs) (by simpa [follow] using hf) hr
        | some w => simp [follow] at hf
      | remove n =>
        cases p with
        | none => simp [follow] at hf
        | some w => exact ih (remove_inv h n hs).1 (by simpa [follow] using hf) hr
      | answer ok =>
        cases ok with
        | true => exact ih (answer_inv h hs) (by cases p <;> simpa [follow] using hf) hr
        | false => cases p <;> simp [follow] at hf
      | cfg e c => cases p <;> simp [follow] at hf
      | nocfg e => cases p <;> simp [follow] at hf

theorem start_inv (e : Nat) (c : Cfg) : Inv e c none { exps := [(e, c)] } where
  exps := rfl
  kernel := rfl
  absent := fun _ => rfl
  present := fun _ x => (nomatch x)
  own := by simp
  dead := by simp
  rem := by simp
  one := by simp
  count := rfl

theorem wanted_par (c : Cfg) (h1 : c.table < 256) (h2 : c.protocol < 256) (p : Option Nat) : (p.map (par · c)).toList = wanted c p := by
  cases p with
  | none => rfl
  | some v => simp [wanted, par, Nat.mod_eq_of_lt h1, Nat.mod_eq_of_lt h2]

/-! ## C195 -/

/-- One section: when all requests are answered, the kernel has exactly the route for the neighbor that has the address. Missing: two neighbors with the same address, failed
requests, two sections, and changes while requests wait, in which the program may have crashed before (see the counterexamples) -/
theorem C195_routes_partial (e : Nat) (c : Cfg) (h1 : c.table < 256) (h2 : c.protocol < 256) (es : List Ev) (s : St) (p : Option Nat) (hf : follow none es = some p)
    (hr : run { exps := [(e, c)] } es = some s) (hq : s.queue = []) : s.kernel = wanted c p := by
  have h := (run_inv es (start_inv e c) hf hr).kernel
  rw [hq] at h
  rw [← wanted_par c h1 h2]
  exact h

/-- in a state without waiting requests, adding or removing the address and the answer of the kernel work -/
theorem C195_settled (e : Nat) (c : Cfg) (h1 : c.table < 256) (h2 : c.protocol < 256) (es : List Ev) (s : St) (p : Option Nat) (hf : follow none es = some p)
    (hr : run { exps := [(e, c)] } es = some s) (hq : s.queue = []) (n v : Nat) :
    ∃ s', run s [if p = none then .add n v else .remove n, .answer true] = some s' ∧ s'.queue = [] ∧ s'.kernel = wanted c (if p = none then some v else none) := by
  have h := run_inv es (start_inv e c) hf hr
  have hk := h.kernel
  rw [hq] at hk
  simp only [List.foldl_nil] at hk
  have hrem : s.rem = [] := by have := h.count; rw [hq] at this; simpa using this
  cases p with
  | none =>
    have hc := h.absent rfl
    simp only [if_true]
    refine ⟨{ s with cur := [(e, ⟨.added, par v c⟩)], queue := [], kernel := effect s.kernel ⟨e, true, par v c, true⟩ }, ?_, rfl, ?_⟩
    · simp [run, step, h.exps, add1, hc, answer, hq, setObj]
    · simp only [hk]
      rw [← wanted_par c h1 h2]
      exact (effect_par v c e true).1
  | some w =>
    obtain ⟨st, g1, g2, g3, g4⟩ := h.present w rfl
    have hst : st = .added := by
      cases st with
      | nothing => exact absurd rfl g1
      | added => rfl
      | adding => obtain ⟨r, hr, _⟩ := g4 rfl; rw [hq] at hr; cases hr
    subst hst
    refine ⟨{ s with cur := [], queue := [], rem := [], kernel := effect s.kernel ⟨e, false, par w c, true⟩ }, ?_, rfl, ?_⟩
    · simp [run, step, h.exps, remove1, g2, destroy, delObj, hrem, hq, answer]
    · simp only [hk]
      rw [← wanted_par c h1 h2]
      exact (effect_par w c e true).2

def cfg0 : Cfg := ⟨2, 254, 100⟩
def one : St := { exps := [(1, cfg0)] }

/-- two neighbors have the address; when one of them loses it, the route is removed although the other one has the address -/
theorem C195_two_counterexample : (run one [.add 1 11, .answer true, .add 2 12, .answer true]).map (·.kernel) = some (wanted cfg0 (some 12)) ∧
    (run one [.add 1 11, .answer true, .add 2 12, .answer true, .remove 1, .answer true]).map (fun s => (s.kernel, s.cur, s.queue)) = some ([], [], []) := by decide +kernel

/-- a second neighbor gets the address before the kernel answered: the assertion fails -/
theorem C195_waiting_counterexample (s : St) (e : Nat) (c : Cfg) (o : Obj) (n v : Nat) (rest : List (Nat × Cfg)) (h : s.exps = (e, c) :: rest) (ho : s.cur.lookup e = some o) (ha : o.status = .adding) :
    step s (.add n v) = none := by
  have hn : ∀ l : List (Nat × Cfg), l.foldl (add1 v) none = none := by
    intro l
    induction l with
    | nil => rfl
    | cons x l ih => simpa [add1] using ih
  simp only [step, h, List.foldl_cons]
  have : add1 v (some s) (e, c) = none := by simp [add1, ho, ha]
  rw [this, hn]

/-- the address is added, removed, added and removed before the answer to the first removal: the second object is not in the tree from which it is removed -/
theorem C195_flap_counterexample : follow none [.add 1 11, .remove 1, .add 1 11, .remove 1, .answer true, .answer true, .answer true, .answer true] = some none ∧
    run one [.add 1 11, .remove 1, .add 1 11, .remove 1, .answer true, .answer true, .answer true] ≠ none ∧
    run one [.add 1 11, .remove 1, .add 1 11, .remove 1, .answer true, .answer true, .answer true, .answer true] = none := by decide +kernel

/-- two sections with patterns that fit: the same happens with a single change -/
theorem C195_overlap_counterexample : run { exps := [(1, cfg0), (2, ⟨3, 254, 100⟩)] } [.add 1 11, .answer true, .answer true, .remove 1, .answer true] ≠ none ∧
    run { exps := [(1, cfg0), (2, ⟨3, 254, 100⟩)] } [.add 1 11, .answer true, .answer true, .remove 1, .answer true, .answer true] = none := by decide +kernel

/-- setting the route failed: it is not repeated; there is only a request to remove the route -/
theorem C195_failed_counterexample : (run one [.add 1 11, .answer false]).map (fun s => (s.cur, s.queue)) = some ([], [⟨1, false, par 11 cfg0, true⟩]) ∧
    (run one [.add 1 11, .answer false, .answer true]).map (fun s => (s.kernel, s.queue)) = some ([], []) := by decide +kernel

example : follow none [.add 1 11, .answer true, .remove 1, .add 2 12, .answer true, .answer true] = some (some 12) ∧
    (run one [.add 1 11, .answer true, .remove 1, .add 2 12, .answer true, .answer true]).map (fun s => (s.kernel, s.queue)) = some ([⟨12, 2, 254, 100⟩], []) := by decide +kernel
example : follow none [.add 1 11, .remove 1, .answer true, .answer true] = some none ∧
    (run one [.add 1 11, .remove 1, .answer true]).map (·.kernel) = some [⟨11, 2, 254, 100⟩] ∧
    (run one [.add 1 11, .remove 1, .answer true, .answer true]).map (fun s => (s.kernel, s.queue)) = some ([], []) := by decide +kernel

/-! ## C196 -/

/-- removing the section removes its route -/
theorem C196_removed (e : Nat) (c : Cfg) (es : List Ev) (s : St) (p : Option Nat) (hf : follow none es = some p)
    (hr : run { exps := [(e, c)] } es = some s) (hq : s.queue = []) :
    ∃ s', run s [.nocfg e, .answer true] = some s' ∧ s'.queue = [] ∧ s'.kernel = [] ∧ s'.exps = [] ∧ s'.cur = [] := by
  have h := run_inv es (start_inv e c) hf hr
  have hk := h.kernel
  rw [hq] at hk
  simp only [List.foldl_nil] at hk
  have hrem : s.rem = [] := by have := h.count; rw [hq] at this; simpa using this
  cases p with
  | none =>
    have hc := h.absent rfl
    refine ⟨{ s with exps := [] }, ?_, hq, hk, rfl, hc⟩
    simp [run, step, noSection, hc, answer, hq, h.exps]
  | some w =>
    obtain ⟨st, g1, g2, g3, g4⟩ := h.present w rfl
    have hst : st = .added := by
      cases st with
      | nothing => exact absurd rfl g1
      | added => rfl
      | adding => obtain ⟨r, hr, _⟩ := g4 rfl; rw [hq] at hr; cases hr
    subst hst
    refine ⟨{ s with exps := [], cur := [], queue := [], rem := [], kernel := effect s.kernel ⟨e, false, par w c, true⟩ }, ?_, rfl, ?_, rfl, rfl⟩
    · simp [run, step, noSection, g2, destroy, delObj, hrem, hq, answer, h.exps]
    · simp only [hk]
      exact (effect_par w c e true).2

/-- a new section does not export the addresses that are known already, and a changed section does not change its routes: neither makes a request -/
theorem C196_changed_counterexample (s : St) (e : Nat) (c : Cfg) : ∃ s', step s (.cfg e c) = some s' ∧ s'.queue = s.queue ∧ s'.kernel = s.kernel ∧ s'.cur = s.cur := ⟨_, rfl, rfl, rfl, rfl⟩

/-- the route is put into the table with the last 8 bits of the configured number (1 to 65535) -/
theorem C196_table_counterexample (e : Nat) (c : Cfg) (n v : Nat) : ∃ s, run { exps := [(e, c)] } [.add n v, .answer true] = some s ∧ s.kernel.map (·.table) = [c.table % 256] :=
  ⟨{ exps := [(e, c)], cur := [(e, ⟨.added, par v c⟩)], queue := [], kernel := [par v c] }, by simp [run, step, add1, answer, setObj, effect], rfl⟩

example : (run {} [.add 1 11, .cfg 1 cfg0]).map (fun s => (s.kernel, s.queue)) = some ([], []) := by decide +kernel
example : (run one [.add 1 11, .answer true, .cfg 1 ⟨2, 253, 100⟩]).map (fun s => (s.kernel, s.queue)) = some ([⟨11, 2, 254, 100⟩], []) := by decide +kernel
example : (run one [.add 1 11, .answer true, .nocfg 1, .answer true]).map (fun s => (s.kernel, s.queue, s.cur)) = some ([], [], []) := by decide +kernel

/-! ## C197 -/

/-- a pattern fits its own name, and with an asterisk at the end (42) all names that begin with the rest -/
theorem C197_pattern (name pattern : List UInt8) : matching name pattern = true ↔ name = pattern ∨ ∃ rest, pattern = rest ++ [42] ∧ rest <+: name := by
  unfold matching
  by_cases h : name = pattern
  · simp [h]
  · rw [if_neg h]
    by_cases h2 : pattern.getLast? = some 42
    · have hne : pattern ≠ [] := by rintro rfl; simp at h2
      have hp : pattern = pattern.take (pattern.length - 1) ++ [42] := by
        have := List.dropLast_concat_getLast hne
        rw [List.getLast?_eq_some_getLast hne, Option.some.injEq] at h2
        rw [h2, List.dropLast_eq_take] at this
        exact this.symm
      rw [if_neg (by simpa using h2), decide_eq_true_eq]
      constructor
      · intro h3
        exact .inr ⟨_, hp, by rw [← h3]; exact List.take_prefix _ _⟩
      · rintro (h3 | ⟨rest, h3, h4⟩)
        · exact absurd h3 h
        · have hl : pattern.length - 1 = rest.length := by rw [h3]; simp
          rw [hl]
          obtain ⟨t, ht⟩ := h4
          rw [← ht, h3]
          simp
    · rw [if_pos h2]
      constructor
      · intro h3; cases h3
      · rintro (h3 | ⟨rest, h3, h4⟩)
        · exact absurd h3 h
        · rw [h3] at h2; simp at h2

/-- the asterisk of a section name with more than 15 characters is lost: the pattern does not fit any longer name, although its beginning is the one of the section name -/
theorem C197_long_counterexample (rest name : List UInt8) (h1 : 15 ≤ rest.length) (h2 : rest <+: name) (h3 : 15 < name.length) (h4 : (rest.take 15).getLast? ≠ some 42) :
    matching name (rest ++ [42]) = true ∧ matching name (kept (rest ++ [42])) = false := by
  refine ⟨(C197_pattern _ _).2 (.inr ⟨rest, rfl, h2⟩), ?_⟩
  have hk : kept (rest ++ [42]) = rest.take 15 := by
    unfold kept
    rw [List.take_append_of_le_length h1]
  rw [hk]
  unfold matching
  rw [if_neg (by intro he; have := congrArg List.length he; simp at this; omega), if_pos h4]

example : matching [1, 2, 3] [1, 2, 42] = true ∧ matching [1, 3] [1, 2, 42] = false ∧ matching [1, 2] [1, 2, 42] = true ∧ matching [1] [42] = true ∧ matching [] [] = true ∧ matching [1] [] = false := by decide +kernel
example : matching (List.replicate 16 97) (List.replicate 15 97 ++ [42]) = true ∧ matching (List.replicate 16 97) (kept (List.replicate 15 97 ++ [42])) = false := by decide +kernel

end Verif.L2Export
