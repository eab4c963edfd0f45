import Verif.Timer.Model
import Verif.Avl.Props
/-
Helper lemmas for the timer theorems.
-/
namespace Verif.Timer
open Verif.Avl (Avl Nd Res Run Order)

theorem comp_order : Order comp := by
  refine ⟨?_, ?_, ?_⟩ <;> intros <;> unfold comp at * <;> grind

theorem comp_le {a b : Nat} : comp a b ≤ 0 ↔ a ≤ b := by unfold comp; grind

theorem run_ids {κ : Type} {cmp : κ → κ → Int} (o : Order cmp) {d : Bool} {a : Avl κ} {s : List (Nd κ)} (h : Run cmp d a s) :
    (s.map (·.id)).Nodup := by
  obtain ⟨gs, inv, _, hp⟩ := h.inv o
  exact (hp.map _).nodup_iff.1 inv.ids

/-! ### due time -/

theorem jitter_bound (jitter random : Nat) (hj : jitter ≤ 100) (hj0 : jitter ≠ 0) (hr : random < 2 ^ 32) :
    random / ((2 ^ 32 - 1) / jitter) ≤ jitter := by
  have hq : 100 < (2 ^ 32 - 1) / jitter := by
    rw [Nat.lt_div_iff_mul_lt (by omega)]; omega
  rw [Nat.div_le_iff_le_mul_add_pred (by omega)]
  have h1 := Nat.div_add_mod (2 ^ 32 - 1) jitter
  have h2 := Nat.mod_lt (2 ^ 32 - 1) (show 0 < jitter by omega)
  rw [Nat.mul_comm] at h1
  generalize hQ : (2 ^ 32 - 1) / jitter = q at h1 hq
  have : q * jitter + q - 1 ≥ 2 ^ 32 - 1 := by omega
  omega

/-- range of `calcClock` without overflow -/
theorem calcClock_spec (now jitter random rel : Nat) (hj : jitter ≤ 100) (hr : random < 2 ^ 32)
    (hm : jitter * rel < 2 ^ 64) (hn : now + rel + 100 < 2 ^ 64) :
    ∃ red, red * 100 ≤ jitter * rel ∧ red ≤ rel ∧ calcClock now jitter random rel % 100 = 0 ∧
      now + (rel - red) < calcClock now jitter random rel ∧ calcClock now jitter random rel ≤ now + (rel - red) + 100 := by
  unfold calcClock slice
  by_cases h0 : jitter = 0
  · subst h0
    refine ⟨0, by omega, by omega, ?_, ?_, ?_⟩ <;> simp only [ne_eq, not_true_eq_false, if_false] <;> omega
  · simp only [ne_eq, h0, not_false_eq_true, if_true]
    have hb := jitter_bound jitter random hj h0 hr
    generalize random / ((2 ^ 32 - 1) / jitter) = rj at hb
    have hp : rj * rel ≤ jitter * rel := Nat.mul_le_mul_right _ hb
    have hp2 : jitter * rel ≤ 100 * rel := Nat.mul_le_mul_right _ hj
    generalize rj * rel = p at hp
    generalize jitter * rel = J at hm hp hp2
    refine ⟨p / 100, by omega, by omega, ?_, ?_, ?_⟩ <;> omega

/-- times and intervals below 2^57 ms (four million years) do not overflow -/
def B : Nat := 2 ^ 57

theorem calcClock_small (now jitter random rel : Nat) (hj : jitter ≤ 100) (hr : random < 2 ^ 32) (hrel : rel < B) (hn : now < B) :
    now < calcClock now jitter random rel := by
  unfold B at *
  have hm : jitter * rel ≤ 100 * rel := Nat.mul_le_mul_right _ hj
  obtain ⟨red, _, _, _, h, _⟩ := calcClock_spec now jitter random rel hj hr (by omega) (by omega)
  omega

/-! ### invariant -/

structure WInv (w : W) (s : List (Nd Nat)) : Prop where
  run : Run comp true w.tree s
  key : ∀ n ∈ s, (w.timers n.id).clock = n.key ∧ n.key ≠ 0
  all : ∀ t, (w.timers t).clock ≠ 0 → ⟨t, (w.timers t).clock⟩ ∈ s
  now : w.now < B
  per : ∀ t, (w.timers t).period < B
  jit : ∀ t, (w.timers t).jitter ≤ 100
  ran : ∀ t, (w.timers t).random < 2 ^ 32
  pers : ∀ t, (w.timers t).period ≠ 0 → (w.classes (w.timers t).cls).periodic = true
  usage : ∀ c, (w.classes c).usage = (s.filter (fun n => (w.timers n.id).cls = c)).length % 2 ^ 32

/-- what operations leave alone -/
structure Same (w w' : W) : Prop where
  now : w'.now = w.now
  cls : ∀ u, (w'.timers u).cls = (w.timers u).cls
  jit : ∀ u, (w'.timers u).jitter = (w.timers u).jitter
  periodic : ∀ c, (w'.classes c).periodic = (w.classes c).periodic
  inCb : ∀ c, (w'.classes c).inCallback = (w.classes c).inCallback

theorem Same.refl (w : W) : Same w w := ⟨rfl, fun _ => rfl, fun _ => rfl, fun _ => rfl, fun _ => rfl⟩

theorem Same.trans {a b c : W} (h : Same a b) (h' : Same b c) : Same a c :=
  ⟨h'.now.trans h.now, fun u => (h'.cls u).trans (h.cls u), fun u => (h'.jit u).trans (h.jit u),
    fun u => (h'.periodic u).trans (h.periodic u), fun u => (h'.inCb u).trans (h.inCb u)⟩

theorem split_at {w : W} {s : List (Nd Nat)} (h : WInv w s) {t : Nat} (ht : (w.timers t).clock ≠ 0) :
    ∃ s₁ s₂, s = s₁ ++ ⟨t, (w.timers t).clock⟩ :: s₂ ∧ (∀ n ∈ s₁ ++ s₂, n.id ≠ t) := by
  obtain ⟨s₁, s₂, rfl⟩ := List.append_of_mem (h.all t ht)
  refine ⟨s₁, s₂, rfl, ?_⟩
  have hn := run_ids comp_order h.run
  rw [List.map_append, List.map_cons, (List.perm_middle).nodup_iff, List.nodup_cons, ← List.map_append] at hn
  intro n hm he
  exact hn.1 (List.mem_map.2 ⟨n, hm, he⟩)

theorem dec32_mod (n : Nat) : dec32 ((n + 1) % 2 ^ 32) = n % 2 ^ 32 := by unfold dec32; omega

theorem inc32_mod (n : Nat) : inc32 (n % 2 ^ 32) = (n + 1) % 2 ^ 32 := by unfold inc32; omega

theorem getRandom_lt (rnd : Nat → Option Nat) (w : W) : getRandom rnd w < 2 ^ 32 := by
  unfold getRandom; exact Nat.mod_lt _ (by decide)

theorem filter_middle_length {α : Type} (p : α → Bool) (s₁ s₂ : List α) (x : α) :
    ((s₁ ++ x :: s₂).filter p).length = ((s₁ ++ s₂).filter p).length + (if p x then 1 else 0) := by
  simp only [List.filter_append, List.filter_cons, List.length_append]
  split <;> simp <;> omega

theorem stop_spec {w : W} {s : List (Nd Nat)} (h : WInv w s) (t : Nat) :
    ∃ w' s', stop w t = some w' ∧ WInv w' s' ∧ Same w w' ∧ (w'.timers t).clock = 0 ∧
      (∀ u, (w'.timers u).period = (w.timers u).period) ∧
      (∀ u, u ≠ t → w'.timers u = w.timers u) ∧ w'.fired = w.fired ∧ w'.ops = w.ops ∧
      (∀ c, (w'.classes c).stopped =
        ((w.classes c).stopped || decide ((w.timers t).clock ≠ 0 ∧ c = (w.timers t).cls ∧ (w.classes c).inCallback = some t))) := by
  unfold stop
  by_cases h0 : (w.timers t).clock = 0
  · rw [if_pos h0]
    exact ⟨w, s, rfl, h, Same.refl w, h0, fun _ => rfl, fun _ _ => rfl, rfl, rfl, fun c => by simp [h0]⟩
  · rw [if_neg h0]
    obtain ⟨s₁, s₂, rfl, hid⟩ := split_at h h0
    obtain ⟨a', ha, hrun, _⟩ := Avl.C23_remove comp_order _ h.run
    simp only at ha
    rw [ha]
    refine ⟨_, s₁ ++ s₂, rfl, ⟨hrun, ?_, ?_, h.now, ?_, ?_, ?_, ?_, ?_⟩, ⟨rfl, ?_, ?_, ?_, ?_⟩, ?_, ?_, ?_, rfl, rfl, ?_⟩
    · intro n hn
      have h1 := h.key n (by simp only [List.mem_append, List.mem_cons] at hn ⊢; rcases hn with h | h <;> simp [h])
      simp only [setClass, setTimer, if_neg (hid n hn)]
      exact h1
    · intro u hu
      simp only [setClass, setTimer] at hu ⊢
      by_cases hut : u = t
      · simp [hut] at hu
      · simp only [if_neg hut] at hu ⊢
        have h1 := h.all u hu
        simp only [List.mem_append, List.mem_cons] at h1 ⊢
        rcases h1 with h1 | h1 | h1
        · exact Or.inl h1
        · exact absurd (congrArg Nd.id h1) hut
        · exact Or.inr h1
    · intro u; simp only [setClass, setTimer]; split
      · exact h.per t
      · exact h.per u
    · intro u; simp only [setClass, setTimer]; split
      · exact h.jit t
      · exact h.jit u
    · intro u; simp only [setClass, setTimer]; split
      · simp
      · exact h.ran u
    · intro u hu
      have hpe : ∀ c, ((if c = (w.timers t).cls then ({ w.classes (w.timers t).cls with
          usage := dec32 (w.classes (w.timers t).cls).usage,
          stopped := if (w.classes (w.timers t).cls).inCallback = some t then true else (w.classes (w.timers t).cls).stopped } : Class)
          else w.classes c)).periodic = (w.classes c).periodic := by
        intro c; split
        · rename_i he; rw [he]
        · rfl
      simp only [setClass, setTimer] at hu ⊢
      rw [hpe]
      by_cases hut : u = t
      · simp only [hut, if_true] at hu ⊢; exact h.pers t hu
      · simp only [if_neg hut] at hu ⊢; exact h.pers u hu
    · intro c
      have hu := h.usage c
      rw [filter_middle_length] at hu
      have hcls : ∀ u, ((setTimer { w with tree := a' } t { w.timers t with clock := 0, random := 0 }).timers u).cls = (w.timers u).cls := by
        intro u; simp only [setTimer]; split
        · rename_i h; rw [h]
        · rfl
      simp only [setClass, hcls]
      by_cases hc : c = (w.timers t).cls
      · rw [if_pos hc]
        simp only [← hc, decide_true, if_true] at hu
        simp only [← hc, hu]
        exact dec32_mod _
      · rw [if_neg hc]
        simp only [decide_eq_true_eq, if_neg (Ne.symm hc), Nat.add_zero] at hu
        exact hu
    · intro u; simp only [setClass, setTimer]; split
      · rename_i h; rw [h]
      · rfl
    · intro u; simp only [setClass, setTimer]; split
      · rename_i h; rw [h]
      · rfl
    · intro c; simp only [setClass, setTimer]; split
      · rename_i h; rw [h]
      · rfl
    · intro c; simp only [setClass, setTimer]; split
      · rename_i h; rw [h]
      · rfl
    · simp [setClass, setTimer]
    · intro u; simp only [setClass, setTimer]; split
      · rename_i h; rw [h]
      · rfl
    · intro u hu; simp [setClass, setTimer, hu]
    · intro c
      simp only [setClass, setTimer]
      by_cases hc : c = (w.timers t).cls
      · subst hc
        by_cases hi : (w.classes (w.timers t).cls).inCallback = some t <;> simp [hi, h0]
      · simp [hc]

theorem start_spec (rnd : Nat → Option Nat) {w : W} {s : List (Nd Nat)} (h : WInv w s) (t first interval : Nat)
    (hf : first < B) (hi : interval < B) :
    ∃ w' s', startExt rnd w t first interval = some w' ∧ WInv w' s' ∧ Same w w' ∧
      (∃ r, r < 2 ^ 32 ∧ (w'.timers t).clock = calcClock w.now (w.timers t).jitter r first) ∧
      (w'.timers t).period = (if (w.classes (w.timers t).cls).periodic then interval else 0) ∧
      (∀ u, u ≠ t → w'.timers u = w.timers u) ∧ w'.fired = w.fired ∧ w'.ops = w.ops ∧
      (∀ c, (w'.classes c).stopped = (w.classes c).stopped) := by
  unfold startExt
  simp only
  generalize hr : (if (w.timers t).random = 0 then getRandom rnd w else (w.timers t).random) = r
  have hrlt : r < 2 ^ 32 := by
    rw [← hr]; split
    · exact getRandom_lt rnd w
    · exact h.ran t
  have hck := calcClock_small w.now (w.timers t).jitter r first (h.jit t) hrlt hf h.now
  generalize hclk : calcClock w.now (w.timers t).jitter r first = clk
  rw [hclk] at hck
  -- the common second half: `s'` are the other timers
  have fin : ∀ (s' : List (Nd Nat)) (tree : Avl Nat) (cl : Class), Run comp true tree s' → (∀ n ∈ s', n.id ≠ t) →
      (∀ n, n ∈ s' ↔ n ∈ s ∧ n.id ≠ t) → cl.periodic = (w.classes (w.timers t).cls).periodic →
      cl.inCallback = (w.classes (w.timers t).cls).inCallback → cl.stopped = (w.classes (w.timers t).cls).stopped →
      cl.usage = (((s'.filter (fun n => (w.timers n.id).cls = (w.timers t).cls)).length + 1) % 2 ^ 32) →
      (∀ c, c ≠ (w.timers t).cls → (w.classes c).usage = (s'.filter (fun n => (w.timers n.id).cls = c)).length % 2 ^ 32) →
      ∃ w' s', (match Avl.insert comp tree ⟨t, clk⟩ with
        | .ok tree => some (setClass (setTimer { w with tree := tree, nrand := if (w.timers t).random = 0 then w.nrand + 1 else w.nrand } t
            { w.timers t with random := r, clock := clk, period := if cl.periodic then interval else 0 }) (w.timers t).cls cl)
        | _ => none) = some w' ∧ WInv w' s' ∧ Same w w' ∧
        (∃ r, r < 2 ^ 32 ∧ (w'.timers t).clock = calcClock w.now (w.timers t).jitter r first) ∧
        (w'.timers t).period = (if (w.classes (w.timers t).cls).periodic then interval else 0) ∧
        (∀ u, u ≠ t → w'.timers u = w.timers u) ∧ w'.fired = w.fired ∧ w'.ops = w.ops ∧
        (∀ c, (w'.classes c).stopped = (w.classes c).stopped) := by
    intro s' tree cl hrun hfresh hmem hp hcb hst hus hother
    obtain ⟨_, hins⟩ := Avl.C23_insert comp_order hrun ⟨t, clk⟩ hfresh
    obtain ⟨a', ha, hrun'⟩ := hins (by simp)
    rw [ha]
    refine ⟨_, ⟨t, clk⟩ :: s', rfl, ⟨hrun', ?_, ?_, h.now, ?_, ?_, ?_, ?_, ?_⟩, ⟨rfl, ?_, ?_, ?_, ?_⟩, ⟨r, hrlt, ?_⟩, ?_, ?_, rfl, rfl, ?_⟩
    · intro n hn
      rcases List.mem_cons.1 hn with rfl | hn
      · simp only [setClass, setTimer, if_true]; exact ⟨trivial, by omega⟩
      · simp only [setClass, setTimer, if_neg (hfresh n hn)]
        exact h.key n ((hmem n).1 hn).1
    · intro u hu
      simp only [setClass, setTimer] at hu ⊢
      by_cases hut : u = t
      · simp [hut]
      · simp only [if_neg hut] at hu ⊢
        exact List.mem_cons_of_mem _ ((hmem _).2 ⟨h.all u hu, hut⟩)
    · intro u; simp only [setClass, setTimer]; split
      · split
        · exact hi
        · simp [B]
      · exact h.per u
    · intro u; simp only [setClass, setTimer]; split
      · exact h.jit t
      · exact h.jit u
    · intro u; simp only [setClass, setTimer]; split
      · exact hrlt
      · exact h.ran u
    · intro u hu
      have hpe : ∀ c, ((if c = (w.timers t).cls then cl else w.classes c)).periodic = (w.classes c).periodic := by
        intro c; split
        · rename_i he; rw [he, hp]
        · rfl
      simp only [setClass, setTimer] at hu ⊢
      rw [hpe]
      by_cases hut : u = t
      · simp only [hut, if_true] at hu ⊢
        rw [← hp]
        by_cases hcp : cl.periodic = true
        · exact hcp
        · simp [hcp] at hu
      · simp only [if_neg hut] at hu ⊢; exact h.pers u hu
    · intro c
      have e : ∀ (f : Nat → Timer), (∀ u, (f u).cls = (w.timers u).cls) →
          s'.filter (fun n => (f n.id).cls = c) = s'.filter (fun n => (w.timers n.id).cls = c) := by
        intro f hf'
        apply List.filter_congr
        intro n _
        simp [hf']
      have hcls : ∀ u, ((setTimer { w with tree := a', nrand := if (w.timers t).random = 0 then w.nrand + 1 else w.nrand } t
            { w.timers t with random := r, clock := clk, period := if cl.periodic then interval else 0 }).timers u).cls = (w.timers u).cls := by
        intro u; simp only [setTimer]; split
        · rename_i h; rw [h]
        · rfl
      simp only [setClass, List.filter_cons]
      rw [e _ hcls]
      simp only [hcls]
      by_cases hc : c = (w.timers t).cls
      · rw [if_pos hc]
        simp only [← hc, decide_true, if_true, List.length_cons]
        rw [hus, ← hc]
      · rw [if_neg hc]
        simp only [decide_eq_true_eq, if_neg (Ne.symm hc)]
        exact hother c hc
    · intro u; simp only [setClass, setTimer]; split
      · rename_i h; rw [h]
      · rfl
    · intro u; simp only [setClass, setTimer]; split
      · rename_i h; rw [h]
      · rfl
    · intro c; simp only [setClass, setTimer]; split
      · rename_i h; rw [h, hp]
      · rfl
    · intro c; simp only [setClass, setTimer]; split
      · rename_i h; rw [h, hcb]
      · rfl
    · simp [setClass, setTimer, hclk]
    · simp [setClass, setTimer, hp]
    · intro u hu; simp [setClass, setTimer, hu]
    · intro c; simp only [setClass, setTimer]; split
      · rename_i h; rw [h, hst]
      · rfl
  by_cases h0 : (w.timers t).clock = 0
  · simp only [ne_eq, h0, not_true_eq_false, if_false]
    have hfresh : ∀ n ∈ s, n.id ≠ t := by
      intro n hn he
      have := h.key n hn
      rw [he, h0] at this
      omega
    refine fin s w.tree { w.classes (w.timers t).cls with usage := inc32 (w.classes (w.timers t).cls).usage } h.run hfresh
      (fun n => ⟨fun hn => ⟨hn, hfresh n hn⟩, fun hn => hn.1⟩) rfl rfl rfl ?_ ?_
    · simp only [h.usage]; exact inc32_mod _
    · intro c _; exact h.usage c
  · simp only [ne_eq, h0, not_false_eq_true, if_true]
    obtain ⟨s₁, s₂, rfl, hid⟩ := split_at h h0
    obtain ⟨a', ha, hrun, _⟩ := Avl.C23_remove comp_order _ h.run
    simp only at ha
    rw [ha]
    simp only
    refine fin (s₁ ++ s₂) a' { w.classes (w.timers t).cls with changes := inc32 (w.classes (w.timers t).cls).changes }
      hrun hid ?_ ?_ ?_ ?_ ?_ ?_
    · intro n
      constructor
      · intro hn
        exact ⟨by simp only [List.mem_append, List.mem_cons] at hn ⊢; rcases hn with h | h <;> simp [h], hid n hn⟩
      · rintro ⟨hn, hne⟩
        simp only [List.mem_append, List.mem_cons] at hn ⊢
        rcases hn with h | h | h
        · exact Or.inl h
        · exact absurd (by rw [h]) hne
        · exact Or.inr h
    · rfl
    · rfl
    · rfl
    · have hu := h.usage (w.timers t).cls
      rw [filter_middle_length] at hu
      simp only [decide_true, if_true] at hu
      exact hu
    · intro c hc
      have hu := h.usage c
      rw [filter_middle_length] at hu
      simp only [decide_eq_true_eq, if_neg (Ne.symm hc), Nat.add_zero] at hu
      exact hu

/-! ### operations -/

/-- the timer is running and its time has come -/
def Due (w : W) (t : Nat) : Prop := (w.timers t).clock ≠ 0 ∧ (w.timers t).clock ≤ w.now

/-- intervals below 2^57 ms -/
def Op.Small : Op → Prop
  | .start _ first interval => first < B ∧ interval < B
  | .stop _ => True

/-- the last operation of a sequence that applies to a timer -/
def lastOp (t : Nat) : List Op → Option Op
  | [] => none
  | o :: os =>
    match lastOp t os with
    | some o => some o
    | none => if o.target = t then some o else none

/-- state of a timer right behind an operation on it -/
def After (w w' : W) (t : Nat) : Op → Prop
  | .start _ first interval => (∃ r, r < 2 ^ 32 ∧ (w'.timers t).clock = calcClock w.now (w.timers t).jitter r first) ∧
      (w'.timers t).period = (if (w.classes (w.timers t).cls).periodic then interval else 0)
  | .stop _ => (w'.timers t).clock = 0

theorem WInv.ghost {w : W} {s : List (Nd Nat)} (h : WInv w s) (f : List Nat) (o : List Op) :
    WInv { w with fired := f, ops := o } s := ⟨h.run, h.key, h.all, h.now, h.per, h.jit, h.ran, h.pers, h.usage⟩

theorem doOp_spec (rnd : Nat → Option Nat) {w : W} {s : List (Nd Nat)} (h : WInv w s) (o : Op) (ho : o.Small) :
    ∃ w' s', doOp rnd w o = some w' ∧ WInv w' s' ∧ Same w w' ∧ w'.fired = w.fired ∧ w'.ops = w.ops ∧
      (∀ u, Due w' u → u ≠ o.target) ∧ (∀ u, u ≠ o.target → w'.timers u = w.timers u) ∧ After w w' o.target o ∧
      ((∀ t, o ≠ .stop t) → ∀ c, (w'.classes c).stopped = (w.classes c).stopped) ∧
      (∀ c, (w.classes c).stopped = true → (w'.classes c).stopped = true) ∧
      (∀ c t, (w.classes c).inCallback = some t → o ≠ .stop t → (w'.classes c).stopped = (w.classes c).stopped) ∧
      (∀ t, o = .stop t → (w.timers t).clock ≠ 0 → (w.classes (w.timers t).cls).inCallback = some t →
        (w'.classes (w.timers t).cls).stopped = true) := by
  cases o with
  | stop t =>
    obtain ⟨w', s', h1, h2, h3, h4, h5, h6, h7, h8, h9⟩ := stop_spec h t
    refine ⟨w', s', h1, h2, h3, h7, h8, ?_, h6, h4, ?_, ?_, ?_, ?_⟩
    · intro u hu he; exact hu.1 (by rw [he]; exact h4)
    · intro hne; exact absurd rfl (hne t)
    · intro c hc; rw [h9, hc]; rfl
    · intro c u hc hne
      rw [h9, hc]
      have : u ≠ t := fun e => hne (by rw [e])
      simp [this]
    · intro u hu hclk hcb
      obtain rfl := Op.stop.inj hu
      rw [h9]; simp [hclk, hcb]
  | start t first interval =>
    obtain ⟨w', s', h1, h2, h3, ⟨r, hr, h4⟩, h5, h6, h7, h8, h9⟩ := start_spec rnd h t first interval ho.1 ho.2
    refine ⟨w', s', h1, h2, h3, h7, h8, ?_, h6, ⟨⟨r, hr, h4⟩, h5⟩, fun _ => h9, ?_, fun c _ _ _ => h9 c, ?_⟩
    · intro u hu he
      have hc := calcClock_small w.now (w.timers t).jitter r first (h.jit t) hr ho.1 h.now
      simp only [Op.target] at he
      have h10 := hu.2
      rw [he, h3.now] at h10
      omega
    · intro c hc; rw [h9]; exact hc
    · intro u hu; cases hu

theorem doOps_spec (rnd : Nat → Option Nat) : ∀ (os : List Op) (w : W) (s : List (Nd Nat)), WInv w s → (∀ o ∈ os, o.Small) →
    ∃ w' s', doOps rnd w os = some w' ∧ WInv w' s' ∧ Same w w' ∧ w'.fired = w.fired ∧ w'.ops = os.reverse ++ w.ops ∧
      (∀ u, Due w' u → ∀ o ∈ os, o.target ≠ u) ∧
      (∀ u, (∀ o ∈ os, o.target ≠ u) → w'.timers u = w.timers u) ∧
      (∀ u o, lastOp u os = some o → After w w' u o) ∧
      (∀ c, (w.classes c).stopped = true → (w'.classes c).stopped = true) ∧
      (∀ c t, (w.classes c).inCallback = some t → .stop t ∉ os → (w'.classes c).stopped = (w.classes c).stopped) ∧
      (∀ t, .stop t ∈ os → (w.timers t).clock ≠ 0 → (w.classes (w.timers t).cls).inCallback = some t →
        (w'.classes (w.timers t).cls).stopped = true) := by
  intro os
  induction os with
  | nil =>
    intro w s h _
    exact ⟨w, s, rfl, h, Same.refl w, rfl, rfl, by simp, fun _ _ => rfl, by simp [lastOp], fun _ h => h, fun _ _ _ _ => rfl, by simp⟩
  | cons o os ih =>
    intro w s h hs
    obtain ⟨w1, s1, a1, a2, a3, a4, a5, a6, a7, a8, a9, a10, a11, a12⟩ := doOp_spec rnd h o (hs o (by simp))
    obtain ⟨w2, s2, b1, b2, b3, b4, b5, b6, b7, b8, b9, b10, b11⟩ :=
      ih { w1 with ops := o :: w1.ops } s1 (a2.ghost w1.fired (o :: w1.ops)) (fun o' ho' => hs o' (by simp [ho']))
    have hsame : Same w { w1 with ops := o :: w1.ops } := ⟨a3.now, a3.cls, a3.jit, a3.periodic, a3.inCb⟩
    simp only at b4 b5 b7 b9 b10 b11
    refine ⟨w2, s2, ?_, b2, hsame.trans b3, b4.trans a4, ?_, ?_, ?_, ?_, ?_, ?_, ?_⟩
    · rw [doOps, a1]; exact b1
    · rw [b5, a5]; simp
    · intro u hu o' ho'
      rcases List.mem_cons.1 ho' with rfl | ho'
      · have hno := b6 u hu
        have hd : Due w1 u := by
          have e := b7 u hno
          have en := b3.now
          simp only at en
          unfold Due at hu ⊢
          rw [e, en] at hu; exact hu
        exact fun he => a6 u hd he.symm
      · exact b6 u hu o' ho'
    · intro u hu
      rw [b7 u (fun o' ho' => hu o' (by simp [ho'])), a7 u (fun he => hu o (by simp) he.symm)]
    · intro u o' hl
      rw [lastOp] at hl
      cases hl' : lastOp u os with
      | some o2 =>
        rw [hl'] at hl
        obtain rfl := Option.some.inj hl
        have h1 := b8 u o2 hl'
        cases o2 with
        | stop _ => exact h1
        | start _ first interval =>
          obtain ⟨⟨r, hr, h2⟩, h3⟩ := h1
          simp only [a3.now, a3.jit, a3.cls, a3.periodic] at h2 h3
          exact ⟨⟨r, hr, h2⟩, h3⟩
      | none =>
        rw [hl'] at hl
        simp only at hl
        split at hl
        · rename_i htu
          obtain rfl := Option.some.inj hl
          have hnone : ∀ o' ∈ os, o'.target ≠ u := by
            clear ih b1 b2 b3 b4 b5 b6 b7 b8 b9 b10 b11 hs
            induction os with
            | nil => simp
            | cons x os ih2 =>
              rw [lastOp] at hl'
              cases h2 : lastOp u os with
              | some y => rw [h2] at hl'; simp at hl'
              | none =>
                rw [h2] at hl'
                simp only [ite_eq_right_iff, reduceCtorEq, imp_false] at hl'
                intro o' ho'
                rcases List.mem_cons.1 ho' with rfl | ho'
                · exact hl'
                · exact ih2 h2 o' ho'
          have e := b7 u hnone
          rw [htu] at a8
          cases o with
          | stop _ => simp only [After] at a8 ⊢; rw [e]; exact a8
          | start _ first interval => simp only [After] at a8 ⊢; rw [e]; exact a8
        · simp at hl
    · intro c hc; exact b9 c (a10 c hc)
    · intro c t hc hn
      simp only [List.mem_cons, not_or] at hn
      rw [b10 c t (by rw [a3.inCb]; exact hc) hn.2, a11 c t hc (fun e => hn.1 e.symm)]
    · intro t hm hclk hcb
      by_cases ho : o = .stop t
      · exact b9 _ (a12 t ho hclk hcb)
      · rcases List.mem_cons.1 hm with he | hm
        · exact absurd he.symm ho
        · have hclk1 : (w1.timers t).clock ≠ 0 := by
            by_cases htt : t = o.target
            · cases o with
              | stop t' => simp only [Op.target] at htt; exact absurd (by rw [htt]) ho
              | start t' first interval =>
                obtain ⟨⟨r, hr, hc⟩, _⟩ := a8
                simp only [Op.target] at htt hc
                rw [htt, hc]
                have := calcClock_small w.now (w.timers t').jitter r first (h.jit t') hr (show first < B ∧ interval < B from hs (.start t' first interval) (by simp)).1 h.now
                omega
            · rw [a7 t htt]; exact hclk
          have := b11 t hm hclk1 (by rw [a3.cls, a3.inCb]; exact hcb)
          rw [a3.cls] at this
          exact this

/-! ### the walk -/

theorem head_min {w : W} {s : List (Nd Nat)} (h : WInv w s) {e : Avl.Elem Nat} {es : List (Avl.Elem Nat)} (hl : w.tree.list = e :: es) :
    (w.timers e.nd.id).clock ≠ 0 ∧ ∀ u, (w.timers u).clock ≠ 0 → (w.timers e.nd.id).clock ≤ (w.timers u).clock := by
  obtain ⟨hp, hs, _, _⟩ := Avl.C23_contents comp_order h.run
  rw [hl] at hp hs
  simp only [List.map_cons] at hp hs
  have hk := h.key e.nd (hp.mem_iff.1 (by simp))
  refine ⟨by rw [hk.1]; exact hk.2, ?_⟩
  intro u hu
  have hm := hp.mem_iff.2 (h.all u hu)
  rw [hk.1]
  rcases List.mem_cons.1 hm with he | hm
  · rw [← he]; exact Nat.le_refl _
  · exact comp_le.1 ((List.pairwise_cons.1 hs).1 _ hm)

/-- one iteration either finds nothing due or fires the timer with the smallest time -/
theorem walkStep_spec (rnd : Nat → Option Nat) (cb : Nat → W → List Op) (hcb : ∀ t w, ∀ o ∈ cb t w, o.Small)
    {w : W} {s : List (Nd Nat)} (h : WInv w s) :
    (walkStep rnd cb w = .done w ∧ ∀ u, ¬ Due w u) ∨
    (∃ t w' s', Due w t ∧ (∀ u, Due w u → (w.timers t).clock ≤ (w.timers u).clock) ∧
      walkStep rnd cb w = .more w' ∧ WInv w' s' ∧ w'.now = w.now ∧ w'.fired = t :: w.fired ∧
      (∀ u, Due w' u → u ≠ t ∧ Due w u ∧ w'.timers u = w.timers u) ∧
      ∃ ops, w'.ops = ops ++ w.ops ∧ (∃ w0, ops = (cb t w0).reverse ∧ w0.now = w.now ∧
          (∀ u, u ≠ t → w0.timers u = w.timers u)) ∧
        (∀ u, u ≠ t → (∀ o ∈ ops, o.target ≠ u) → w'.timers u = w.timers u) ∧
        ((w.timers t).period ≠ 0 → .stop t ∉ ops →
          ∃ r, r < 2 ^ 32 ∧ (w'.timers t).clock = calcClock w.now (w.timers t).jitter r (w'.timers t).period) ∧
        ((w.timers t).period ≠ 0 → (∀ o ∈ ops, o.target ≠ t) →
          (w'.timers t).period = (w.timers t).period) ∧
        ((w.timers t).period = 0 → (∀ o ∈ ops, o.target ≠ t) → (w'.timers t).clock = 0) ∧
        ((w.timers t).period = 0 ∨ .stop t ∈ ops → ∀ o, lastOp t ops.reverse = some o → After w w' t o) ∧
        (∀ u, u ≠ t → ∀ o, lastOp u ops.reverse = some o → After w w' u o)) := by
  unfold walkStep
  cases hl : w.tree.list with
  | nil =>
    left
    refine ⟨rfl, fun u hu => ?_⟩
    have := h.all u hu.1
    obtain ⟨hp, _⟩ := Avl.C23_contents comp_order h.run
    rw [hl] at hp
    have := hp.mem_iff.2 this
    simp at this
  | cons e es =>
    obtain ⟨hm0, hm⟩ := head_min h hl
    simp only
    generalize e.nd.id = t at *
    by_cases hnow : (w.timers t).clock > w.now
    · rw [if_pos hnow]
      left
      refine ⟨rfl, fun u hu => ?_⟩
      have := hm u hu.1
      have := hu.2
      omega
    · rw [if_neg hnow]
      right
      generalize hcl : ({ w.classes (w.timers t).cls with inCallback := some t, stopped := false, fired := inc32 (w.classes (w.timers t).cls).fired } : Class) = cl
      have hw0 : ({ setClass w (w.timers t).cls cl with fired := t :: w.fired } : W) = markFired w t := by rw [← hcl]; rfl
      generalize markFired w t = w0 at hw0 ⊢
      have hclass : ∀ c, w0.classes c = if c = (w.timers t).cls then cl else w.classes c := by
        intro c; rw [← hw0]; rfl
      have htm : w0.timers = w.timers := by rw [← hw0] <;> rfl
      have hW0 : WInv w0 s := by
        rw [← hw0]
        refine ⟨h.run, h.key, h.all, h.now, h.per, h.jit, h.ran, ?_, ?_⟩
        · intro u hu
          simp only [setClass]
          have := h.pers u hu
          split
          · rename_i hc; rw [← hcl]; rw [hc] at this; exact this
          · exact this
        intro c
        show (if c = (w.timers t).cls then cl else w.classes c).usage = (s.filter (fun n => (w.timers n.id).cls = c)).length % 2 ^ 32
        rw [← h.usage c]
        split
        · rename_i hc; rw [← hcl, hc]
        · rfl
      have hcl_cb : cl.inCallback = some t := by rw [← hcl]
      have hcl_st : cl.stopped = false := by rw [← hcl]
      have hcl_pe : cl.periodic = (w.classes (w.timers t).cls).periodic := by rw [← hcl]
      have hf0 : w0.fired = t :: w.fired := by rw [← hw0] <;> rfl
      have ho0 : w0.ops = w.ops := by rw [← hw0] <;> rfl
      have hn0 : w0.now = w.now := by rw [← hw0] <;> rfl
      have hper0 : ∀ c, (w0.classes c).periodic = (w.classes c).periodic := by
        intro c; rw [hclass]; split
        · rename_i hc; rw [hcl_pe, hc]
        · rfl
      -- state handed to the callback
      have hpre : ∃ w1 s1, stopSingle w0 t = some w1 ∧ WInv w1 s1 ∧ Same w0 w1 ∧
          w1.fired = w0.fired ∧ w1.ops = w0.ops ∧ (∀ u, u ≠ t → w1.timers u = w0.timers u) ∧
          (∀ u, (w1.timers u).period = (w0.timers u).period) ∧
          ((w.timers t).period = 0 → (w1.timers t).clock = 0 ∧ (w1.classes (w.timers t).cls).stopped = true) ∧
          ((w.timers t).period ≠ 0 → w1 = w0) := by
        unfold stopSingle
        by_cases hp : (w0.timers t).period = 0
        · rw [if_pos hp]
          obtain ⟨w1, s1, h1, h2, h3, h4, h5, h6, h7, h8, h9⟩ := stop_spec hW0 t
          refine ⟨w1, s1, h1, h2, h3, h7, h8, h6, h5, fun _ => ⟨h4, ?_⟩, fun hne => absurd (htm ▸ hp) hne⟩
          rw [h9, hclass, htm]
          simp [hm0, hcl_cb]
        · rw [if_neg hp]
          exact ⟨w0, s, rfl, hW0, Same.refl _, rfl, rfl, fun _ _ => rfl, fun _ => rfl, fun he => absurd (htm ▸ he) hp, fun _ => rfl⟩
      obtain ⟨w1, s1, p1, p2, p3, p4, p5, p6, p6b, p7, p8⟩ := hpre
      rw [p1]
      simp only
      obtain ⟨w2, s2, q1, q2, q3, q4, q5, q6, q7, q8, q9, q10, q11⟩ := doOps_spec rnd (cb t w1) w1 s1 p2 (fun o ho => hcb t w1 o ho)
      rw [q1]
      simp only
      have hc1 : (w1.classes (w.timers t).cls).inCallback = some t := by rw [p3.inCb, hclass]; simp [hcl_cb]
      have hdue : Due w t := ⟨hm0, by omega⟩
      have hmin : ∀ u, Due w u → (w.timers t).clock ≤ (w.timers u).clock := fun u hu => hm u hu.1
      have hw1 : ∀ u, u ≠ t → w1.timers u = w.timers u := by intro u hu; rw [p6 u hu, htm]
      have hnow2 : w2.now = w.now := q3.now.trans (p3.now.trans hn0)
      have hfired2 : w2.fired = t :: w.fired := q4.trans (p4.trans hf0)
      have hops2 : w2.ops = (cb t w1).reverse ++ w.ops := by rw [q5, p5, ho0]
      have hw0ex : ∃ w0', (cb t w1).reverse = (cb t w0').reverse ∧ w0'.now = w.now ∧ ∀ u, u ≠ t → w0'.timers u = w.timers u :=
        ⟨w1, rfl, p3.now.trans hn0, hw1⟩
      have hjit1 : ∀ u, (w1.timers u).jitter = (w.timers u).jitter := by intro u; rw [p3.jit, htm]
      have hcls1 : ∀ u, (w1.timers u).cls = (w.timers u).cls := by intro u; rw [p3.cls, htm]
      have hper1 : ∀ c, (w1.classes c).periodic = (w.classes c).periodic := by intro c; rw [p3.periodic, hper0]
      have hafter : ∀ (w' : W) u o, After w1 w' u o → After w w' u o := by
        intro w' u o ha
        cases o with
        | stop _ => exact ha
        | start _ first interval =>
          obtain ⟨⟨r, hr, h2⟩, h3⟩ := ha
          rw [hjit1, p3.now, hn0] at h2
          rw [hcls1, hper1] at h3
          exact ⟨⟨r, hr, h2⟩, h3⟩
      -- due timers after the callback
      have hdue2 : ∀ u, u ≠ t → Due w2 u → Due w u ∧ w2.timers u = w.timers u := by
        intro u hu hd
        have h1 := q7 u (q6 u hd)
        rw [hw1 u hu] at h1
        unfold Due at hd ⊢
        rw [h1, hnow2] at hd
        exact ⟨hd, h1⟩
      by_cases hst : (w2.classes (w.timers t).cls).stopped = true
      · rw [if_pos hst]
        -- the timer was stopped before or by the callback
        have hwhy : (w.timers t).period = 0 ∨ .stop t ∈ cb t w1 := by
          by_cases hp : (w.timers t).period = 0
          · exact Or.inl hp
          · right
            apply Decidable.byContradiction
            intro hn
            have h1 := q10 _ t hc1 hn
            rw [p8 hp, hclass] at h1
            simp only [if_true, hcl_st] at h1
            rw [hst] at h1; simp at h1
        refine ⟨t, w2, s2, hdue, hmin, rfl, q2, hnow2, hfired2, ?_, (cb t w1).reverse, hops2, hw0ex, ?_, ?_, ?_, ?_, ?_, ?_⟩
        · intro u hd
          have hut : u ≠ t := by
            intro he
            rw [he] at hd
            have h1 := q6 t hd
            rcases hwhy with hp | hm
            · have h2 := q7 t h1
              exact hd.1 (by rw [h2]; exact (p7 hp).1)
            · exact h1 _ hm rfl
          exact ⟨hut, hdue2 u hut hd⟩
        · intro u hu ho
          rw [q7 u (fun o ho' => ho o (by simpa using ho')), hw1 u hu]
        · intro hp hn
          rcases hwhy with h1 | h1
          · exact absurd h1 hp
          · exact absurd (by simpa using h1) hn
        · intro hp hn
          rw [q7 t (fun o ho => hn o (by simpa using ho)), p6b, htm]
        · intro hp hn
          rw [q7 t (fun o ho => hn o (by simpa using ho))]
          exact (p7 hp).1
        · intro _ o ho
          rw [List.reverse_reverse] at ho
          exact hafter _ _ _ (q8 t o ho)
        · intro u _ o ho
          rw [List.reverse_reverse] at ho
          exact hafter _ _ _ (q8 u o ho)
      · rw [if_neg hst]
        have hp : (w.timers t).period ≠ 0 := by
          intro hp; exact hst (q9 _ (p7 hp).2)
        have hns : .stop t ∉ cb t w1 := by
          intro hm'
          have := q11 t hm' (by rw [p8 hp, htm]; exact hm0) (by rw [hcls1]; exact hc1)
          rw [hcls1] at this
          exact hst this
        have hw3 : ({ setTimer w2 t { w2.timers t with random := getRandom rnd w2 } with nrand := w2.nrand + 1 } : W)
          = rehash rnd w2 t := rfl
        generalize rehash rnd w2 t = w3 at hw3 ⊢
        have hcls3 : ∀ u, (w3.timers u).cls = (w2.timers u).cls := by
          intro u; rw [← hw3]; simp only [setTimer]; split
          · rename_i he; rw [he]
          · rfl
        have hW3 : WInv w3 s2 := by
          refine ⟨?_, ?_, ?_, ?_, ?_, ?_, ?_, ?_, ?_⟩
          · rw [← hw3]; exact q2.run
          · intro n hn; rw [← hw3]; simp only [setTimer]
            split
            · rename_i he; rw [← he]; exact q2.key n hn
            · exact q2.key n hn
          · intro u; rw [← hw3]; simp only [setTimer]
            split
            · rename_i he; rw [he]; exact q2.all t
            · exact q2.all u
          · rw [← hw3]; exact q2.now
          · intro u; rw [← hw3]; simp only [setTimer]
            split
            · exact q2.per t
            · exact q2.per u
          · intro u; rw [← hw3]; simp only [setTimer]
            split
            · exact q2.jit t
            · exact q2.jit u
          · intro u; rw [← hw3]; simp only [setTimer]
            split
            · exact getRandom_lt rnd w2
            · exact q2.ran u
          · intro u hu
            rw [hcls3]
            rw [← hw3] at hu ⊢
            simp only [setTimer] at hu ⊢
            apply q2.pers u
            by_cases hut : u = t
            · simp only [hut, if_true] at hu; rw [hut]; exact hu
            · simp only [if_neg hut] at hu; exact hu
          · intro c
            simp only [hcls3]
            rw [← hw3]
            exact q2.usage c
        have hother3 : ∀ u, u ≠ t → w3.timers u = w2.timers u := by
          intro u hu; rw [← hw3]; simp [setTimer, hu]
        have hper3 : (w3.timers t).period = (w2.timers t).period := by rw [← hw3]; simp [setTimer]
        have hjit3 : (w3.timers t).jitter = (w.timers t).jitter := by
          rw [← hjit1 t, ← q3.jit t, ← hw3]; simp [setTimer]
        have hn3 : w3.now = w.now := by rw [← hnow2, ← hw3]; rfl
        have hf3 : w3.fired = w2.fired := by rw [← hw3]; rfl
        have ho3 : w3.ops = w2.ops := by rw [← hw3]; rfl
        have hpe3 : ∀ c, (w3.classes c).periodic = (w.classes c).periodic := by
          intro c; rw [← hper1, ← q3.periodic, ← hw3]; rfl
        have hclst : (w3.timers t).cls = (w.timers t).cls := by rw [hcls3, q3.cls, hcls1]
        obtain ⟨w4, s4, r1, r2, r3, ⟨r, hr, r4⟩, r5, r6, r7, r8, r9⟩ :=
          start_spec rnd hW3 t (w3.timers t).period (w3.timers t).period (hW3.per t) (hW3.per t)
        rw [r1]
        rw [hn3, hjit3] at r4
        rw [hclst, hpe3] at r5
        have hper4 : (w4.timers t).period ≤ (w3.timers t).period := by rw [r5]; split <;> omega
        refine ⟨t, w4, s4, hdue, hmin, rfl, r2, r3.now.trans hn3, r7.trans (hf3.trans hfired2), ?_, (cb t w1).reverse,
          r8.trans (ho3.trans hops2), hw0ex, ?_, ?_, ?_, ?_, ?_, ?_⟩
        · intro u hd
          have hut : u ≠ t := by
            intro he
            rw [he] at hd
            have h1 := hd.2
            have h2 := calcClock_small w.now (w.timers t).jitter r (w3.timers t).period (h.jit t) hr (hW3.per t) h.now
            rw [r4, r3.now, hn3] at h1
            omega
          have h1 : w4.timers u = w2.timers u := by rw [r6 u hut, hother3 u hut]
          have hd2 : Due w2 u := by
            unfold Due at hd ⊢
            rw [h1, r3.now, hn3] at hd
            rw [hnow2]; exact hd
          obtain ⟨h2, h3⟩ := hdue2 u hut hd2
          exact ⟨hut, h2, h1.trans h3⟩
        · intro u hu ho
          rw [r6 u hu, hother3 u hu, q7 u (fun o ho' => ho o (by simpa using ho')), hw1 u hu]
        · intro _ _
          refine ⟨r, hr, ?_⟩
          rw [r4, r5, if_pos (h.pers t hp)]
        · intro _ hn
          rw [r5, if_pos (h.pers t hp), hper3, q7 t (fun o ho => hn o (by simpa using ho)), p6b, htm]
        · intro h0; exact absurd h0 hp
        · intro hor
          rcases hor with h0 | h0
          · exact absurd h0 hp
          · exact absurd (by simpa using h0) hns
        · intro u hu o ho
          rw [List.reverse_reverse] at ho
          have h1 : w4.timers u = w2.timers u := by rw [r6 u hu, hother3 u hu]
          have h2 := hafter _ _ _ (q8 u o ho)
          cases o with
          | stop _ => simp only [After] at h2 ⊢; rw [h1]; exact h2
          | start _ _ _ => simp only [After] at h2 ⊢; rw [h1]; exact h2

end Verif.Timer
