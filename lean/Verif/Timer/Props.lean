import Verif.Timer.Lemmas
/-
Properties C26, C27, C28 and C59 of the timer scheduler.
-/
namespace Verif.Timer
open Verif.Avl (Avl Nd Res Run Order)

/-! ### C26 -/

/-- C26: as long as the 64 bit arithmetic does not overflow and the jitter is a percentage, the due time
computed for a relative interval lies behind the interval reduced by `red`, at most one slice later,
is a multiple of the slice, and `red` is at most the configured percentage of the interval (so jitter
never extends it). -/
theorem C26_due_time_partial (now jitter random rel : Nat) (hj : jitter ≤ 100) (hr : random < 2 ^ 32)
    (hm : jitter * rel < 2 ^ 64) (hn : now + rel + 100 < 2 ^ 64) :
    ∃ red, red * 100 ≤ jitter * rel ∧ red ≤ rel ∧
      now + (rel - red) < calcClock now jitter random rel ∧
      calcClock now jitter random rel ≤ now + (rel - red) + 100 ∧
      calcClock now jitter random rel % 100 = 0 := by
  obtain ⟨red, h1, h2, h3, h4, h5⟩ := calcClock_spec now jitter random rel hj hr hm hn
  exact ⟨red, h1, h2, h4, h5, h3⟩

/-- without jitter nothing is subtracted -/
theorem C26_no_jitter (now random rel : Nat) (hn : now + rel + 100 < 2 ^ 64) :
    now + rel < calcClock now 0 random rel ∧ calcClock now 0 random rel ≤ now + rel + 100 := by
  obtain ⟨red, h1, h2, h3, h4, h5⟩ := calcClock_spec now 0 0 rel (by decide) (by decide) (by omega) hn
  have : red = 0 := by omega
  subst this
  have e : calcClock now 0 random rel = calcClock now 0 0 rel := rfl
  rw [e]
  exact ⟨by omega, by omega⟩

example : calcClock 1050 25 (2 ^ 31) 2000 = 2900 := by decide

/-- The bounds are needed: an interval of 2^64-1 ms (the "infinite" validity time of a time TLV) is due
50 ms later, and with a jitter above 100% the interval underflows. -/
theorem C26_counterexample :
    calcClock 1050 0 0 (2 ^ 64 - 1) = 1100 ∧
    ∃ random, random < 2 ^ 32 ∧ 1000 + 60 * 1000 + 100 < calcClock 1000 150 random (60 * 1000) :=
  ⟨by decide +kernel, 2 ^ 32 - 1, by decide, by decide +kernel⟩

/-! ### histories -/

/-- States of the scheduler reachable from one where no timer runs, by timer operations, changes of the
clock and complete walks, with intervals and times below 2^57 ms and jitter percentages up to 100. -/
inductive Hist (rnd : Nat → Option Nat) (cb : Nat → W → List Op) : W → Prop
  | init (w : W) : (∀ t, (w.timers t).clock = 0 ∧ (w.timers t).random = 0 ∧ (w.timers t).period = 0) →
      (∀ t, (w.timers t).jitter ≤ 100) → (∀ c, (w.classes c).usage = 0) → w.tree = Avl.init true → w.now < B → Hist rnd cb w
  | op {w w' : W} (o : Op) : Hist rnd cb w → o.Small → doOp rnd w o = some w' → Hist rnd cb w'
  | tick {w : W} (now : Nat) : Hist rnd cb w → now < B → Hist rnd cb { w with now := now }
  | walk {w w' : W} (n : Nat) : Hist rnd cb w → walk rnd cb n w = .done w' → Hist rnd cb w'

/-- facts about the whole loop, for a list `R` that contains all due timers -/
theorem walk_spec (rnd : Nat → Option Nat) (cb : Nat → W → List Op) (hcb : ∀ t w, ∀ o ∈ cb t w, o.Small) :
    ∀ (n : Nat) (R : List Nat) (w : W) (s : List (Nd Nat)), R.length ≤ n → WInv w s → (∀ u, Due w u → u ∈ R) →
    ∃ w' s', walk rnd cb (n + 1) w = .done w' ∧ WInv w' s' ∧ w'.now = w.now ∧ (∀ u, ¬ Due w' u) ∧
      ∃ (fired : List Nat) (ops : List Op), w'.fired = fired.reverse ++ w.fired ∧ w'.ops = ops ++ w.ops ∧ fired.Nodup ∧
        fired.Pairwise (fun x y => (w.timers x).clock ≤ (w.timers y).clock) ∧ (∀ u ∈ fired, Due w u) ∧
        (∀ u, Due w u → u ∈ fired ∨ ∃ o ∈ ops, o.target = u) := by
  intro n
  induction n with
  | zero =>
    intro R w s hR h hd
    have hR0 : R = [] := List.length_eq_zero_iff.1 (by omega)
    rcases walkStep_spec rnd cb hcb h with ⟨h1, h2⟩ | ⟨t, _, _, h1, _⟩
    · refine ⟨w, s, by rw [walk, h1], h, rfl, h2, [], [], rfl, rfl, by simp, by simp, by simp, fun u hu => absurd hu (h2 u)⟩
    · have := hd t h1; rw [hR0] at this; simp at this
  | succ n ih =>
    intro R w s hR h hd
    rcases walkStep_spec rnd cb hcb h with ⟨h1, h2⟩ | ⟨t, w1, s1, h1, h2, h3, h4, h5, h6, h7, ops1, h8, _, h9, _⟩
    · refine ⟨w, s, by rw [walk, h1], h, rfl, h2, [], [], rfl, rfl, by simp, by simp, by simp, fun u hu => absurd hu (h2 u)⟩
    · have hlen : (R.erase t).length ≤ n := by
        rw [List.length_erase_of_mem (hd t h1)]
        have := List.length_pos_of_mem (hd t h1)
        omega
      obtain ⟨w2, s2, a1, a2, a3, a4, fired, ops, a5, a6, a7, a8, a9, a10⟩ := ih (R.erase t) w1 s1 hlen h4 (fun u hu => by
        obtain ⟨hut, hdu, _⟩ := h7 u hu
        exact (List.mem_erase_of_ne hut).2 (hd u hdu))
      refine ⟨w2, s2, by rw [walk, h3]; exact a1, a2, a3.trans h5, a4, t :: fired, ops ++ ops1, ?_, ?_, ?_, ?_, ?_, ?_⟩
      · rw [a5, h6]; simp
      · rw [a6, h8]; simp
      · rw [List.nodup_cons]
        exact ⟨fun hm => (h7 t (a9 t hm)).1 rfl, a7⟩
      · rw [List.pairwise_cons]
        refine ⟨fun u hu => h2 u (h7 u (a9 u hu)).2.1, ?_⟩
        refine List.Pairwise.imp_of_mem ?_ a8
        intro x y hx hy hxy
        rw [(h7 x (a9 x hx)).2.2, (h7 y (a9 y hy)).2.2] at hxy
        exact hxy
      · intro u hu
        rcases List.mem_cons.1 hu with rfl | hu
        · exact h1
        · exact (h7 u (a9 u hu)).2.1
      · intro u hu
        by_cases hut : u = t
        · left; rw [hut]; simp
        · by_cases ho : ∃ o ∈ ops1, o.target = u
          · obtain ⟨o, ho, he⟩ := ho
            exact Or.inr ⟨o, by simp [ho], he⟩
          · have he := h9 u hut (fun o hm hte => ho ⟨o, hm, hte⟩)
            have hd1 : Due w1 u := by
              unfold Due at hu ⊢
              rw [he, h5]; exact hu
            rcases a10 u hd1 with hf | ⟨o, hm, he'⟩
            · exact Or.inl (List.mem_cons_of_mem _ hf)
            · exact Or.inr ⟨o, by simp [hm], he'⟩

theorem walk_mono (rnd : Nat → Option Nat) (cb : Nat → W → List Op) : ∀ (n k : Nat) (w w' : W),
    walk rnd cb n w = .done w' → walk rnd cb (n + k) w = .done w' := by
  intro n
  induction n with
  | zero => intro k w w' h; simp [walk] at h
  | succ n ih =>
    intro k w w' h
    rw [show n + 1 + k = (n + k) + 1 by omega]
    rw [walk] at h ⊢
    cases hs : walkStep rnd cb w with
    | done w1 => rw [hs] at h; exact h
    | crash => rw [hs] at h; simp at h
    | more w1 => rw [hs] at h; exact ih k w1 w' h

theorem WInv.due_list {w : W} {s : List (Nd Nat)} (h : WInv w s) : ∀ u, Due w u → u ∈ s.map (·.id) := by
  intro u hu
  exact List.mem_map.2 ⟨_, h.all u hu.1, rfl⟩

theorem walk_unique (rnd : Nat → Option Nat) (cb : Nat → W → List Op) {n m : Nat} {w a b : W}
    (ha : walk rnd cb n w = .done a) (hb : walk rnd cb m w = .done b) : a = b := by
  have h1 := walk_mono rnd cb n m w a ha
  have h2 := walk_mono rnd cb m n w b hb
  rw [Nat.add_comm m n, h1] at h2
  exact Step.done.inj h2

theorem Hist.inv {rnd : Nat → Option Nat} {cb : Nat → W → List Op} (hcb : ∀ t w, ∀ o ∈ cb t w, o.Small) {w : W}
    (h : Hist rnd cb w) : ∃ s, WInv w s := by
  induction h with
  | init w h0 hj hu ht hn =>
    refine ⟨[], by rw [ht]; exact .init, by simp, fun t ht' => absurd (h0 t).1 ht', hn, fun t => ?_, hj, fun t => ?_, fun t ht' => absurd (h0 t).2.2 ht', fun c => by simp [hu]⟩
    · rw [(h0 t).2.2]; decide
    · rw [(h0 t).2.1]; decide
  | op o _ ho hd ih =>
    obtain ⟨s, ih⟩ := ih
    obtain ⟨w', s', h1, h2, _⟩ := doOp_spec rnd ih o ho
    rw [h1] at hd
    obtain rfl := Option.some.inj hd
    exact ⟨s', h2⟩
  | tick now _ hn ih =>
    obtain ⟨s, ih⟩ := ih
    exact ⟨s, ih.run, ih.key, ih.all, hn, ih.per, ih.jit, ih.ran, ih.pers, ih.usage⟩
  | walk n _ hw ih =>
    obtain ⟨s, ih⟩ := ih
    obtain ⟨w', s', h1, h2, _⟩ := walk_spec rnd cb hcb _ (s.map (·.id)) _ s (Nat.le_refl _) ih ih.due_list
    obtain rfl := walk_unique rnd cb hw h1
    exact ⟨s', h2⟩

/-- C26: in every reachable state (times, intervals below 2^57 ms, jitter up to 100%), starting a timer
succeeds and sets its due time to a multiple of the slice behind the interval reduced by at most
the jitter percentage, and at most one slice behind. -/
theorem C26_start_partial (rnd : Nat → Option Nat) (cb : Nat → W → List Op) (hcb : ∀ t w, ∀ o ∈ cb t w, o.Small)
    {w : W} (h : Hist rnd cb w) (t first interval : Nat) (hf : first < B) (hint : interval < B) :
    ∃ w', startExt rnd w t first interval = some w' ∧ Hist rnd cb w' ∧
      ∃ red, red * 100 ≤ (w.timers t).jitter * first ∧ red ≤ first ∧
        w.now + (first - red) < (w'.timers t).clock ∧ (w'.timers t).clock ≤ w.now + (first - red) + 100 ∧
        (w'.timers t).clock % 100 = 0 := by
  obtain ⟨s, hi⟩ := h.inv hcb
  obtain ⟨w', s', h1, _, _, ⟨r, hr, hc⟩, _⟩ := start_spec rnd hi t first interval hf hint
  refine ⟨w', h1, .op (.start t first interval) h ⟨hf, hint⟩ h1, ?_⟩
  rw [hc]
  have hj := hi.jit t
  have hn := hi.now
  unfold B at *
  have hm : (w.timers t).jitter * first ≤ 100 * first := Nat.mul_le_mul_right _ hj
  exact C26_due_time_partial w.now _ r first hj hr (by omega) (by omega)

/-! ### C27 -/

/-- C27: in every reachable state and for all callbacks the walk terminates (after the same iteration
whatever iteration bound is given), without a NULL access.  The timers it fires (`fired`, in order) are
pairwise different, were all due when the walk started and come in the order of their due times; a
timer that was due is fired unless an operation of a callback of this walk applied to it; when the
walk ends, no timer is due. -/
theorem C27_walk_partial (rnd : Nat → Option Nat) (cb : Nat → W → List Op) (hcb : ∀ t w, ∀ o ∈ cb t w, o.Small)
    {w : W} (h : Hist rnd cb w) :
    ∃ N w', (∀ n, N ≤ n → walk rnd cb n w = .done w') ∧ Hist rnd cb w' ∧ (∀ u, ¬ Due w' u) ∧
      ∃ (fired : List Nat) (ops : List Op), w'.fired = fired.reverse ++ w.fired ∧ w'.ops = ops ++ w.ops ∧ fired.Nodup ∧
        fired.Pairwise (fun x y => (w.timers x).clock ≤ (w.timers y).clock) ∧ (∀ u ∈ fired, Due w u) ∧
        (∀ u, Due w u → u ∈ fired ∨ ∃ o ∈ ops, o.target = u) := by
  obtain ⟨s, hi⟩ := h.inv hcb
  obtain ⟨w', s', h1, h2, _, h3, rest⟩ := walk_spec rnd cb hcb _ (s.map (·.id)) w s (Nat.le_refl _) hi hi.due_list
  refine ⟨(s.map (·.id)).length + 1, w', fun n hn => ?_, .walk _ h h1, h3, rest⟩
  have := walk_mono rnd cb _ (n - ((s.map (·.id)).length + 1)) w w' h1
  rwa [show (s.map (·.id)).length + 1 + (n - ((s.map (·.id)).length + 1)) = n by omega] at this

/-- three timers, two due, of which the first one stops the third and restarts itself -/
def demoW : W := ⟨fun _ => ⟨0, 0, 0, 0, 0⟩, fun _ => ⟨true, 0, 0, 0, none, false⟩, Avl.init true, 1000, 0, [], []⟩
def demoCb (t : Nat) (_ : W) : List Op := if t = 1 then [.stop 3, .start 1 50 170] else []
def demoRnd (n : Nat) : Option Nat := some n

/-- state right before the walk -/
def demoRun : Option W :=
  (((doOp demoRnd demoW (.start 1 10 100)).bind fun w => doOp demoRnd w (.start 2 20 0)).bind
    fun w => doOp demoRnd w (.start 3 500 100)).map fun w => { w with now := 1200 }

def demoOut : Option (List Nat × Nat × Nat × Nat) :=
  demoRun.bind fun w => match walk demoRnd demoCb 10 w with
    | .done w' => some (w'.fired, (w'.timers 1).clock, (w'.timers 2).clock, (w'.timers 3).clock)
    | _ => none

-- both due timers fire in order; the periodic one is due again (by its interval: the value for the
-- first interval its callback gave is lost)
example : demoOut = some ([2, 1], 1400, 0, 0) := by decide +kernel

example (w : W) (h : demoRun = some w) : Hist demoRnd demoCb w := by
  have hi : Hist demoRnd demoCb demoW :=
    .init _ (by intro t; simp [demoW]) (by intro t; simp [demoW]) (by intro t; simp [demoW]) rfl (by decide)
  unfold demoRun at h
  simp only [Option.map_eq_some_iff, Option.bind_eq_some_iff] at h
  obtain ⟨w3, ⟨w2, ⟨w1, h1, h2⟩, h3⟩, rfl⟩ := h
  exact .tick 1200 (.op _ (.op _ (.op _ hi (by simp [Op.Small, B]) h1) (by simp [Op.Small, B]) h2) (by simp [Op.Small, B]) h3) (by decide)

example : ∀ t w, ∀ o ∈ demoCb t w, o.Small := by
  intro t w o ho
  unfold demoCb at ho
  split at ho
  · simp at ho; rcases ho with rfl | rfl <;> simp [Op.Small, B]
  · simp at ho

/-- The bound on intervals is needed: a periodic timer with an interval of 2^64-1 ms that is due at a
multiple of the slice is due again after every restart, so the walk never ends. -/
def loopW (nrand : Nat) (fired : List Nat) (cs : Nat → Class) : W :=
  ⟨fun _ => ⟨0, 0, 2 ^ 64 - 1, 7, 1000⟩, cs, ⟨.node .nil ⟨0, 1000⟩ 0 .nil, [⟨⟨0, 1000⟩, false⟩], 1, true⟩, 1000, nrand, fired, []⟩

theorem loopW_step (nrand : Nat) (fired : List Nat) (cs : Nat → Class) (hp : (cs 0).periodic = true) :
    ∃ cs' : Nat → Class, (cs' 0).periodic = true ∧
      walkStep (fun _ => some 7) (fun _ _ => []) (loopW nrand fired cs) = .more (loopW (nrand + 1) (0 :: fired) cs') := by
  have hc : calcClock 1000 0 7 (2 ^ 64 - 1) = 1000 := by decide +kernel
  refine ⟨fun i => if i = 0 then { cs 0 with inCallback := some 0, stopped := false, fired := inc32 (cs 0).fired, changes := inc32 (cs 0).changes } else cs i, hp, ?_⟩
  have hr : Avl.remove ⟨.node .nil ⟨0, 1000⟩ 0 .nil, [⟨⟨0, 1000⟩, false⟩], 1, true⟩ 0 = .ok ⟨.nil, [], 0, true⟩ := by rfl
  have hi : Avl.insert comp ⟨.nil, [], 0, true⟩ ⟨0, 1000⟩ = .ok ⟨.node .nil ⟨0, 1000⟩ 0 .nil, [⟨⟨0, 1000⟩, false⟩], 1, true⟩ := by rfl
  have e1 : ¬ (2 ^ 64 - 1 = 0) := by decide
  have e2 : ¬ (7 % 2 ^ 32 = 0) := by decide
  have e3 : 7 % 2 ^ 32 = 7 := rfl
  have e4 : (1000 ≠ 0) = True := by simp
  unfold walkStep
  simp only [loopW, gt_iff_lt, Nat.lt_irrefl, if_false, stopSingle, markFired, setClass, e1, doOps, if_true, rehash, setTimer,
    getRandom, Option.getD_some, Bool.false_eq_true, startExt, e2, e4, hr, hp, e3, hc, hi]
  simp only [Step.more.injEq, W.mk.injEq, and_true]
  constructor
  · funext i; split <;> rfl
  · funext i; split <;> rfl

theorem C27_counterexample : ∀ n, ∃ w, walk (fun _ => some 7) (fun _ _ => []) n (loopW 0 [] fun _ => ⟨true, 1, 0, 0, none, false⟩) = .more w := by
  have key : ∀ n nrand fired cs, (cs 0).periodic = true →
      ∃ w, walk (fun _ => some 7) (fun _ _ => []) n (loopW nrand fired cs) = .more w := by
    intro n
    induction n with
    | zero => intro _ _ _ _; exact ⟨_, rfl⟩
    | succ n ih =>
      intro nrand fired cl hp
      obtain ⟨cl', hp', hs⟩ := loopW_step nrand fired cl hp
      rw [walk, hs]
      exact ih _ _ _ hp'
  exact fun n => key n 0 [] _ rfl

/-! ### C28 -/

theorem lastOp_none (t : Nat) : ∀ l : List Op, (∀ p ∈ l, p.target ≠ t) → lastOp t l = none
  | [], _ => rfl
  | o :: os, h => by
    rw [lastOp, lastOp_none t os (fun p hp => h p (by simp [hp]))]
    simp [h o (by simp)]

theorem lastOp_none' (t : Nat) : ∀ l : List Op, lastOp t l = none → ∀ p ∈ l, p.target ≠ t
  | [], _, p, hp => by simp at hp
  | o :: os, h, p, hp => by
    rw [lastOp] at h
    cases hl : lastOp t os with
    | some q => rw [hl] at h; simp at h
    | none =>
      rw [hl] at h
      simp only at h
      rcases List.mem_cons.1 hp with rfl | hp
      · intro he; rw [if_pos he] at h; simp at h
      · exact lastOp_none' t os hl p hp

theorem lastOp_mem (t : Nat) : ∀ (l : List Op) (o : Op), lastOp t l = some o → o ∈ l ∧ o.target = t
  | [], _, h => by simp [lastOp] at h
  | p :: os, o, h => by
    rw [lastOp] at h
    cases hl : lastOp t os with
    | some q =>
      rw [hl] at h
      obtain rfl := Option.some.inj h
      have := lastOp_mem t os q hl
      exact ⟨by simp [this.1], this.2⟩
    | none =>
      rw [hl] at h
      simp only at h
      split at h
      · obtain rfl := Option.some.inj h
        exact ⟨by simp, by assumption⟩
      · simp at h

theorem lastOp_split (t : Nat) (o : Op) (a b : List Op) (ho : o.target = t) (hb : ∀ p ∈ b, p.target ≠ t) :
    lastOp t (a ++ o :: b) = some o := by
  induction a with
  | nil => simp [lastOp, lastOp_none t b hb, ho]
  | cons x a ih => rw [List.cons_append, lastOp, ih]

/-- C28: after the callback of a periodic timer it is scheduled again, for a due time computed from its
interval (which is the old one if the callback did not set another one); only if the callback stopped
it, the operations the callback did on it behind decide.  A single shot timer is inactive after its
callback, unless the callback started it again; then the last operation decides. -/
theorem C28_after_callback_partial (rnd : Nat → Option Nat) (cb : Nat → W → List Op) (hcb : ∀ t w, ∀ o ∈ cb t w, o.Small)
    {w w' : W} (h : Hist rnd cb w) (hs : walkStep rnd cb w = .more w') :
    ∃ t ops, w'.fired = t :: w.fired ∧ w'.ops = ops ++ w.ops ∧ (w.timers t).clock ≠ 0 ∧ (w.timers t).clock ≤ w.now ∧
      -- periodic, not stopped by its callback
      ((w.timers t).period ≠ 0 → .stop t ∉ ops → w.now < (w'.timers t).clock ∧
        ∃ r, r < 2 ^ 32 ∧ (w'.timers t).clock = calcClock w.now (w.timers t).jitter r (w'.timers t).period) ∧
      ((w.timers t).period ≠ 0 → (∀ o ∈ ops, o.target ≠ t) → (w'.timers t).period = (w.timers t).period) ∧
      -- single shot, not started by its callback
      ((w.timers t).period = 0 → (∀ o ∈ ops, o.target ≠ t) → (w'.timers t).clock = 0) ∧
      -- otherwise the last operation of the callback on the timer decides
      ((w.timers t).period = 0 ∨ .stop t ∈ ops → ∀ newer o older, ops = newer ++ o :: older → o.target = t →
        (∀ p ∈ newer, p.target ≠ t) → After w w' t o) := by
  obtain ⟨s, hi⟩ := h.inv hcb
  rcases walkStep_spec rnd cb hcb hi with ⟨h1, _⟩ | ⟨t, w1, s1, h1, _, h2, h3, h4, h5, _, ops, h6, _, _, h7, h8, h9, h10, _⟩
  · rw [h1] at hs; simp at hs
  · rw [h2] at hs
    obtain rfl := Step.more.inj hs
    refine ⟨t, ops, h5, h6, h1.1, h1.2, fun hp hn => ?_, h8, h9, fun hor newer o older ho ht hnew => h10 hor o ?_⟩
    · obtain ⟨r, hr, hc⟩ := h7 hp hn
      refine ⟨?_, r, hr, hc⟩
      rw [hc]
      exact (calcClock_small w.now (w.timers t).jitter r (w1.timers t).period (hi.jit t) hr (h3.per t) hi.now)
    · rw [ho]
      simp only [List.reverse_append, List.reverse_cons, List.append_assoc, List.singleton_append]
      exact lastOp_split t o older.reverse newer.reverse ht (fun p hp => hnew p (by simpa using hp))

/-- `Quiet rnd cb t w w'`: the program got from `w` to `w'` without starting timer `t`, neither from
outside nor in a callback -/
inductive Quiet (rnd : Nat → Option Nat) (cb : Nat → W → List Op) (t : Nat) : W → W → Prop
  | refl (w : W) : Quiet rnd cb t w w
  | op {w w1 w' : W} (o : Op) : Quiet rnd cb t w w1 → o.Small → (∀ first interval, o ≠ .start t first interval) →
      doOp rnd w1 o = some w' → Quiet rnd cb t w w'
  | tick {w w1 : W} (now : Nat) : Quiet rnd cb t w w1 → now < B → Quiet rnd cb t w { w1 with now := now }
  | walk {w w1 w' : W} (n : Nat) (ops : List Op) : Quiet rnd cb t w w1 → walk rnd cb n w1 = .done w' → w'.ops = ops ++ w1.ops →
      (∀ first interval, .start t first interval ∉ ops) → Quiet rnd cb t w w'

theorem step_quiet (rnd : Nat → Option Nat) (cb : Nat → W → List Op) (hcb : ∀ t w, ∀ o ∈ cb t w, o.Small) {t : Nat}
    {w w' : W} {s : List (Nd Nat)} (hi : WInv w s) (h0 : (w.timers t).clock = 0) (hs : walkStep rnd cb w = .more w') :
    (∃ s', WInv w' s') ∧ ∃ ops, w'.ops = ops ++ w.ops ∧ ∃ u, u ≠ t ∧ w'.fired = u :: w.fired ∧
      ((∀ first interval, .start t first interval ∉ ops) → (w'.timers t).clock = 0) := by
  rcases walkStep_spec rnd cb hcb hi with ⟨h1, _⟩ | ⟨u, w1, s1, h1, _, h2, h3, h4, h5, _, ops, h6, _, h7, _, _, _, _, h8⟩
  · rw [h1] at hs; simp at hs
  · rw [h2] at hs
    obtain rfl := Step.more.inj hs
    have hut : u ≠ t := by intro he; rw [he] at h1; exact h1.1 h0
    refine ⟨⟨s1, h3⟩, ops, h6, u, hut, h5, fun hno => ?_⟩
    cases hl : lastOp t ops.reverse with
    | none =>
      have hn : ∀ o ∈ ops, o.target ≠ t := by
        intro o ho he
        exact lastOp_none' t _ hl o (by simpa using ho) he
      rw [h7 t (Ne.symm hut) hn]; exact h0
    | some o =>
      have ha := h8 t (Ne.symm hut) o hl
      obtain ⟨hm, ht⟩ := lastOp_mem t _ o hl
      cases o with
      | stop _ => exact ha
      | start t' f i =>
        simp only [Op.target] at ht
        subst ht
        exact absurd (by simpa using hm) (hno f i)

theorem walk_ops_suffix (rnd : Nat → Option Nat) (cb : Nat → W → List Op) (hcb : ∀ t w, ∀ o ∈ cb t w, o.Small) :
    ∀ (n : Nat) {w w' : W} {s : List (Nd Nat)}, WInv w s → walk rnd cb n w = .done w' → ∃ ops, w'.ops = ops ++ w.ops := by
  intro n w w' s hi h
  obtain ⟨w2, _, h1, _, _, _, _, ops, _, h2, _⟩ := walk_spec rnd cb hcb _ (s.map (·.id)) w s (Nat.le_refl _) hi hi.due_list
  obtain rfl := walk_unique rnd cb h h1
  exact ⟨ops, h2⟩

theorem walk_ops (rnd : Nat → Option Nat) (cb : Nat → W → List Op) (hcb : ∀ t w, ∀ o ∈ cb t w, o.Small) {t : Nat} :
    ∀ (n : Nat) {w w' : W} {s : List (Nd Nat)}, WInv w s → (w.timers t).clock = 0 → walk rnd cb n w = .done w' →
    ∃ ops, w'.ops = ops ++ w.ops ∧ ((∀ first interval, .start t first interval ∉ ops) →
      (∃ s', WInv w' s') ∧ (w'.timers t).clock = 0 ∧ ∃ f, w'.fired = f ++ w.fired ∧ t ∉ f) := by
  intro n
  induction n with
  | zero => intro w w' s _ _ h; simp [walk] at h
  | succ n ih =>
    intro w w' s hi h0 h
    rw [walk] at h
    cases hs : walkStep rnd cb w with
    | done w1 =>
      rw [hs] at h
      obtain rfl := Step.done.inj h
      rcases walkStep_spec rnd cb hcb hi with ⟨h1, _⟩ | ⟨u, w2, _, _, _, h2, _⟩
      · rw [h1] at hs
        obtain rfl := Step.done.inj hs
        exact ⟨[], rfl, fun _ => ⟨⟨s, hi⟩, h0, [], rfl, by simp⟩⟩
      · rw [h2] at hs; simp at hs
    | crash => rw [hs] at h; simp at h
    | more w1 =>
      rw [hs] at h
      obtain ⟨⟨s1, hi1⟩, ops1, a1, u, a2, a3, a4⟩ := step_quiet rnd cb hcb hi h0 hs
      by_cases hno : ∀ first interval, .start t first interval ∉ ops1
      · obtain ⟨ops, b1, b2⟩ := ih hi1 (a4 hno) h
        refine ⟨ops ++ ops1, by rw [b1, a1]; simp, fun hn => ?_⟩
        obtain ⟨c1, c2, f, c3, c4⟩ := b2 (fun a b hm => hn a b (by simp [hm]))
        exact ⟨c1, c2, f ++ [u], by rw [c3, a3]; simp, by simp [c4, Ne.symm a2]⟩
      · obtain ⟨ops, b1⟩ := walk_ops_suffix rnd cb hcb n hi1 h
        refine ⟨ops ++ ops1, by rw [b1, a1]; simp, fun hn => ?_⟩
        exact absurd (fun a b hm => hn a b (by simp [hm])) hno

theorem quiet_spec (rnd : Nat → Option Nat) (cb : Nat → W → List Op) (hcb : ∀ t w, ∀ o ∈ cb t w, o.Small) {t : Nat}
    {w w' : W} (hq : Quiet rnd cb t w w') : ∀ s, WInv w s → (w.timers t).clock = 0 →
    ∃ s', WInv w' s' ∧ (w'.timers t).clock = 0 ∧ ∃ f, w'.fired = f ++ w.fired ∧ t ∉ f := by
  intro s hi h0
  induction hq with
  | refl => exact ⟨s, hi, h0, [], rfl, by simp⟩
  | op o _ ho hns hd ih =>
    obtain ⟨s1, a1, a2, f, a3, a4⟩ := ih
    obtain ⟨w', s', h1, h2, _, h3, _, _, h4, h5, _⟩ := doOp_spec rnd a1 o ho
    rw [h1] at hd
    obtain rfl := Option.some.inj hd
    refine ⟨s', h2, ?_, f, by rw [h3, a3], a4⟩
    by_cases ht : t = o.target
    · cases o with
      | stop t' => simp only [Op.target] at ht; subst ht; exact h5
      | start t' a b => simp only [Op.target] at ht; subst ht; exact absurd rfl (hns a b)
    · rw [h4 t ht]; exact a2
  | tick now _ hn ih =>
    obtain ⟨s1, a1, a2, f, a3, a4⟩ := ih
    exact ⟨s1, ⟨a1.run, a1.key, a1.all, hn, a1.per, a1.jit, a1.ran, a1.pers, a1.usage⟩, a2, f, a3, a4⟩
  | walk n ops _ hw hops hno ih =>
    obtain ⟨s1, a1, a2, f, a3, a4⟩ := ih
    obtain ⟨ops', b1, b2⟩ := walk_ops rnd cb hcb n a1 a2 hw
    rw [b1] at hops
    obtain rfl := List.append_cancel_right hops
    obtain ⟨⟨s', c1⟩, c2, f', c3, c4⟩ := b2 hno
    exact ⟨s', c1, c2, f' ++ f, by rw [c3, a3]; simp, by simp [c4, a4]⟩

/-- C28: a timer that is stopped stays inactive and does not fire until it is started again. -/
theorem C28_stopped_partial (rnd : Nat → Option Nat) (cb : Nat → W → List Op) (hcb : ∀ t w, ∀ o ∈ cb t w, o.Small)
    {w w1 w2 : W} {t : Nat} (h : Hist rnd cb w) (hs : stop w t = some w1) (hq : Quiet rnd cb t w1 w2) :
    (w2.timers t).clock = 0 ∧ ∃ later, w2.fired = later ++ w.fired ∧ t ∉ later := by
  obtain ⟨s, hi⟩ := h.inv hcb
  obtain ⟨w1', s1, a1, a2, _, a3, _, _, a4, _⟩ := stop_spec hi t
  rw [a1] at hs
  obtain rfl := Option.some.inj hs
  obtain ⟨_, _, h1, f, h2, h3⟩ := quiet_spec rnd cb hcb hq s1 a2 a3
  exact ⟨h1, f, by rw [h2, a4], h3⟩

-- stopping a running timer and walking past its time
example : (demoRun.bind fun w => (stop w 1).bind fun w1 => match walk demoRnd (fun _ _ => []) 10 { w1 with now := 5000 } with
    | .done w2 => some ((w.timers 1).clock, (w1.timers 1).clock, w2.fired) | _ => none) = some (1100, 0, [3, 2]) := by decide +kernel

/-- The bound on intervals is needed: an interval close to 2^64 ms wraps to the due time 0, which marks
an inactive timer; stopping such a timer has no effect and it fires in the next walk. -/
theorem C28_counterexample : ((startExt demoRnd demoW 1 (2 ^ 64 - 1100) 0).bind fun w1 => (stop w1 1).bind fun w2 =>
    match walkStep demoRnd (fun _ _ => []) w2 with
    | .more w3 => some (w2.fired, w3.fired)
    | _ => none) = some ([], [1]) := by decide +kernel

/-! ### C59 -/

/-- number of running timers of a class among the given ones -/
def runningOf (w : W) (c : Nat) (ids : List Nat) : Nat :=
  (ids.filter fun t => decide ((w.timers t).clock ≠ 0 ∧ (w.timers t).cls = c)).length

/-- C59: in every reachable state the usage counter of a timer class is the number of its running timers
(`ids` is any duplicate free list containing the running timers, which always exists). -/
theorem C59_usage (rnd : Nat → Option Nat) (cb : Nat → W → List Op) (hcb : ∀ t w, ∀ o ∈ cb t w, o.Small)
    {w : W} (h : Hist rnd cb w) :
    (∃ ids : List Nat, ids.Nodup ∧ ∀ t, (w.timers t).clock ≠ 0 → t ∈ ids) ∧
    ∀ (ids : List Nat) c, ids.Nodup → (∀ t, (w.timers t).clock ≠ 0 → t ∈ ids) →
      (w.classes c).usage = runningOf w c ids % 2 ^ 32 := by
  obtain ⟨s, hi⟩ := h.inv hcb
  have hnd := run_ids comp_order hi.run
  refine ⟨⟨s.map (·.id), hnd, fun t ht => List.mem_map.2 ⟨_, hi.all t ht, rfl⟩⟩, fun ids c hids hall => ?_⟩
  rw [hi.usage c]
  congr 1
  have e : (s.filter fun n => decide ((w.timers n.id).cls = c)).length =
      ((s.map (·.id)).filter fun t => decide ((w.timers t).cls = c)).length := by
    rw [List.filter_map, List.length_map]; rfl
  rw [e]
  unfold runningOf
  apply List.Perm.length_eq
  apply (List.perm_ext_iff_of_nodup (hnd.filter _) (hids.filter _)).2
  intro t
  simp only [List.mem_filter, List.mem_map, decide_eq_true_eq]
  constructor
  · rintro ⟨⟨n, hn, rfl⟩, hc⟩
    have h1 := hi.key n hn
    have h2 : (w.timers n.id).clock ≠ 0 := by rw [h1.1]; exact h1.2
    exact ⟨hall _ h2, h2, hc⟩
  · rintro ⟨_, h2, hc⟩
    exact ⟨⟨_, hi.all t h2, rfl⟩, hc⟩

/-- C59: the time the main loop waits for is the earliest due time of all running timers (2^64-1 if none
runs) -/
theorem C59_next_event (rnd : Nat → Option Nat) (cb : Nat → W → List Op) (hcb : ∀ t w, ∀ o ∈ cb t w, o.Small)
    {w : W} (h : Hist rnd cb w) :
    ((∀ t, (w.timers t).clock = 0) ∧ nextEvent w = 2 ^ 64 - 1) ∨
    (∃ t, (w.timers t).clock ≠ 0 ∧ nextEvent w = (w.timers t).clock ∧
      ∀ u, (w.timers u).clock ≠ 0 → (w.timers t).clock ≤ (w.timers u).clock) := by
  obtain ⟨s, hi⟩ := h.inv hcb
  unfold nextEvent
  cases hl : w.tree.list with
  | nil =>
    left
    refine ⟨fun t => ?_, rfl⟩
    apply Decidable.byContradiction
    intro ht
    have := hi.all t ht
    obtain ⟨hp, _⟩ := Avl.C23_contents comp_order hi.run
    rw [hl] at hp
    have := hp.mem_iff.2 this
    simp at this
  | cons e es =>
    right
    obtain ⟨h1, h2⟩ := head_min hi hl
    exact ⟨_, h1, rfl, h2⟩

example : demoRun.map nextEvent = some 1100 ∧ (demoRun.map fun w => (w.classes 0).usage) = some 3 := by decide +kernel

end Verif.Timer
