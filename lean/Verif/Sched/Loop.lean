import Verif.Sched.Props

/-! # Properties of the loop of the scheduler and of the main loop -/

namespace Verif.Sched

/-! ## C206: how long the scheduler waits and when it returns -/

theorem waits_spec (limit d : Nat) (stop : Bool) (l : List Bool) : ∀ a ∈ (waits limit d stop l).1, a = .wait d := by
  induction l generalizing stop with
  | nil => unfold waits; split <;> simp
  | cons b l ih =>
    unfold waits
    split
    · simp
    · intro a ha
      rcases List.mem_cons.1 ha with rfl | ha
      · rfl
      · exact ih b a ha

theorem delay_eq {now deadline : Nat} (h : now < deadline) (hd : deadline < 2 ^ 64) : delay now deadline = min (deadline - now) (2 ^ 31 - 1) := by
  unfold delay
  congr 1
  omega

/-- after the due timers are fired, the next event is in the future: together with C27 and C59 -/
theorem next_future (rnd : Nat → Option Nat) (cb : Nat → Timer.W → List Timer.Op) (hcb : ∀ t w, ∀ o ∈ cb t w, o.Small)
    {w w' : Timer.W} (h : Timer.Hist rnd cb w) {n : Nat} (hw : Timer.walk rnd cb n w = .done w') (hn : w'.now < 2 ^ 64 - 1) :
    w'.now < Timer.nextEvent w' := by
  obtain ⟨N, w1, h1, h2, h3, _⟩ := Timer.C27_walk_partial rnd cb hcb h
  have e : w1 = w' := by
    have a := h1 (N + n) (by omega)
    have b := Timer.walk_mono rnd cb n N w w' hw
    rw [show n + N = N + n by omega, a] at b
    injection b
  subst e
  rcases Timer.C59_next_event rnd cb hcb h2 with ⟨_, a⟩ | ⟨t, a, b, _⟩
  · rw [a]; exact hn
  · rw [b]
    have := h3 t
    unfold Timer.Due at this
    omega

/-- every wait of a round is as long as the time from the clock of the round to the next timer or to the end of the program, whatever comes
first (24 days at most); so it neither sleeps over a timer nor over the end, and it is at least one millisecond: the loop does not spin -/
theorem C206_wait (rnd : Nat → Option Nat) (cb : Nat → Timer.W → List Timer.Op) (hcb : ∀ t w, ∀ o ∈ cb t w, o.Small)
    {w w' : Timer.W} (h : Timer.Hist rnd cb w) {n : Nat} (hw : Timer.walk rnd cb n w = .done w') {limit : Nat} (hlim : limit ≤ 2 ^ 64 - 1) {r : Round}
    (hr : r.now = some w'.now) (hx : r.next = Timer.nextEvent w') (h64 : Timer.nextEvent w' < 2 ^ 64) :
    ∀ d, Act.wait d ∈ (round limit r).1 → d = min (min (Timer.nextEvent w') limit - w'.now) 2147483647 ∧ 1 ≤ d := by
  intro d hd
  unfold round at hd
  rw [hr] at hd
  simp only at hd
  by_cases hl : w'.now ≥ limit
  · simp [if_pos hl] at hd
  · rw [if_neg hl] at hd
    have hf := next_future rnd cb hcb h hw (by omega)
    have he : delay w'.now (if r.next > limit then limit else r.next) = min (min (Timer.nextEvent w') limit - w'.now) 2147483647 := by
      rw [hx]
      by_cases c : Timer.nextEvent w' > limit
      · rw [if_pos c, delay_eq (by omega) (by omega)]
        rw [show min (Timer.nextEvent w') limit = limit by omega]
      · rw [if_neg c, delay_eq hf h64]
        rw [show min (Timer.nextEvent w') limit = Timer.nextEvent w' by omega]
    have hdd : d = delay w'.now (if r.next > limit then limit else r.next) := by
      clear he
      generalize delay w'.now (if r.next > limit then limit else r.next) = D at hd ⊢
      have key : Act.wait d ∈ (waits limit D r.stop r.intr).1 → d = D := by
        intro hx1
        have := waits_spec _ _ _ _ _ hx1
        injection this
      have key' : Act.wait d ∈ .walk w'.now :: (waits limit D r.stop r.intr).1 → d = D := by
        intro h
        rcases List.mem_cons.1 h with h | h
        · cases h
        · exact key h
      split at hd
      · simp at hd
      · split at hd
        · exact key' hd
        · split at hd
          · exact key' hd
          · exact key' hd
          · split at hd
            · rcases List.mem_append.1 hd with hd | hd
              · exact key' hd
              · simp at hd
            · exact key' hd
    rw [hdd, he]
    refine ⟨rfl, ?_⟩
    omega

/-- a deadline in the past would mean 24 days of sleep; C206_wait shows that it does not come to this -/
theorem C206_past (now deadline : Nat) (h : deadline < now) (hn : now < 2 ^ 63) : delay now deadline = 2147483647 := by
  unfold delay
  omega

/-- a loop that is asked to return (commit, reload or end) after the timers: it returns at once, without waiting for and handling events -/
theorem C206_stop {r : Round} {now : Nat} (h : r.now = some now) (hn : now < NEVER) (hs : r.stop = true) :
    round NEVER r = ([.walk now], some 0) := by
  unfold round
  simp [h, Nat.not_le.2 hn, shallEnd, hs]

theorem waits_signal (d : Nat) (l1 l2 : List Bool) (h : ∀ b ∈ l1, b = false) :
    waits NEVER d false (l1 ++ true :: l2) = (List.replicate (l1.length + 1) (.wait d), false) := by
  induction l1 with
  | nil =>
    simp only [List.nil_append, waits, shallEnd]
    cases l2 <;> simp [waits, shallEnd]
  | cons b l ih =>
    have hb : b = false := h b (List.mem_cons_self ..)
    subst hb
    simp only [List.cons_append, waits, shallEnd, ih (fun b hb => h b (List.mem_cons_of_mem _ hb))]
    simp [List.replicate_succ]

/-- a signal during the wait that asks it to return: it returns after this wait, no events are handled -/
theorem C206_signal {r : Round} {now : Nat} (h : r.now = some now) (hn : now < NEVER) (hs : r.stop = false) {l1 l2 : List Bool}
    (hi : r.intr = l1 ++ true :: l2) (hl : ∀ b ∈ l1, b = false) :
    ∃ d, round NEVER r = (.walk now :: List.replicate (l1.length + 1) (.wait d), some 0) := by
  unfold round
  simp only [h, Nat.not_le.2 hn, shallEnd, hs, hi, waits_signal _ _ _ hl]
  exact ⟨delay now (if NEVER < r.next then NEVER else r.next), by simp⟩

theorem waits_on (limit d : Nat) (hl : limit ≠ NEVER) (stop : Bool) (l : List Bool) :
    waits limit d stop l = (List.replicate (l.length + 1) (.wait d), true) := by
  induction l generalizing stop with
  | nil => simp [waits, shallEnd, hl]
  | cons b l ih => simp [waits, shallEnd, hl, ih, List.replicate_succ]

theorem waits_calm (limit d : Nat) (l : List Bool) (h : ∀ b ∈ l, b = false) :
    waits limit d false l = (List.replicate (l.length + 1) (.wait d), true) := by
  induction l with
  | nil => simp [waits, shallEnd]
  | cons b l ih =>
    have hb : b = false := h b (List.mem_cons_self ..)
    subst hb
    simp [waits, shallEnd, ih (fun b hb => h b (List.mem_cons_of_mem _ hb)), List.replicate_succ]

/-- a loop that is not asked to return: it fires the timers, waits (again after every signal) and handles the events, and goes on; it returns only
when the wait ends without events or fails, or when the clock fails -/
theorem C206_round {r : Round} {now limit : Nat} (h : r.now = some now) (hn : now < limit) (hs : r.stop = false) (hi : ∀ b ∈ r.intr, b = false) :
    ∃ d, round limit r = match r.res with
      | .got b => if r.clock2 then (.walk now :: List.replicate (r.intr.length + 1) (.wait d) ++ [.handle b], none)
        else (.walk now :: List.replicate (r.intr.length + 1) (.wait d), some (-1))
      | .timeout => (.walk now :: List.replicate (r.intr.length + 1) (.wait d), some 0)
      | .error => (.walk now :: List.replicate (r.intr.length + 1) (.wait d), some (-1)) := by
  unfold round
  simp only [h, Nat.not_le.2 hn, shallEnd, hs, waits_calm limit _ _ hi]
  refine ⟨delay now (if r.next > limit then limit else r.next), ?_⟩
  simp only [Bool.and_false, Bool.false_eq_true, if_false, Bool.not_true]
  cases r.res <;> rfl

example : handle NEVER [⟨some 5, 20, false, [false], .got [(0, ⟨true, false, false⟩)], true⟩, ⟨some 8, 20, false, [], .timeout, true⟩] =
    ([.walk 5, .wait 15, .wait 15, .handle [(0, ⟨true, false, false⟩)], .walk 8, .wait 12], some (0, [])) := by decide +kernel

/-- what the loop does in a round of the last 500 ms -/
def full (limit : Nat) (r : Round) : List Act :=
  let now := r.now.getD 0
  .walk now :: List.replicate (r.intr.length + 1) (.wait (delay now (min r.next limit))) ++ (match r.res with | .got b => [.handle b] | _ => [])

/-- a round that works and begins before the limit -/
structure Works (limit : Nat) (r : Round) : Prop where
  clock : ∃ now, r.now = some now ∧ now < limit
  clock2 : r.clock2 = true
  wait : r.res ≠ .error

theorem round_full {limit : Nat} (hl : limit ≠ NEVER) {r : Round} (h : Works limit r) :
    round limit r = (full limit r, match r.res with | .got _ => none | _ => some 0) := by
  obtain ⟨now, h1, h2⟩ := h.clock
  have e : (if r.next > limit then limit else r.next) = min r.next limit := by split <;> omega
  unfold round full
  simp only [h1, Nat.not_le.2 h2, shallEnd, hl, decide_false, Bool.false_and, Bool.false_eq_true, if_false, waits_on limit _ hl, Bool.not_true, Option.getD_some, e]
  cases hr : r.res with
  | timeout => simp
  | error => exact absurd hr h.wait
  | got b => simp [h.clock2]

/-- the end of the program: for the whole time until the limit the timers are fired and the events are handled, even though the program is asked
to stop; the first round at or behind the limit ends it, and nothing is done any more -/
theorem C206_shutdown {limit : Nat} (hl : limit ≠ NEVER) {pre post : List Round} {r : Round} (hw : ∀ x ∈ pre, Works limit x)
    {t : Nat} (hr : r.now = some t) (ht : limit ≤ t) : shutdown limit (pre.length + 1) (pre ++ r :: post) = (pre.flatMap (full limit), some post) := by
  have hend : round limit r = ([], some (-1)) := by unfold round; simp [hr, ht]
  have hh : ∀ (pre : List Round), (∀ x ∈ pre, Works limit x) → ∃ k, k ≤ pre.length ∧
      (handle limit (pre ++ r :: post) = ((pre.take k).flatMap (full limit), some (0, pre.drop k ++ r :: post)) ∧ 0 < k ∨
       handle limit (pre ++ r :: post) = (pre.flatMap (full limit), some (-1, post)) ∧ k = 0) := by
    intro pre
    induction pre with
    | nil => intro _; exact ⟨0, by simp, .inr ⟨by simp [handle, hend], rfl⟩⟩
    | cons x l ih =>
      intro hw
      have hx := round_full hl (hw x (List.mem_cons_self ..))
      cases hres : x.res with
      | timeout =>
        rw [hres] at hx
        exact ⟨1, by simp, .inl ⟨by simp [handle, hx], by omega⟩⟩
      | error => exact absurd hres (hw x (List.mem_cons_self ..)).wait
      | got b =>
        rw [hres] at hx
        simp only at hx
        obtain ⟨k, hk, h | h⟩ := ih (fun y hy => hw y (List.mem_cons_of_mem _ hy))
        · refine ⟨k + 1, by simp only [List.length_cons]; omega, .inl ⟨?_, by omega⟩⟩
          simp only [List.cons_append, handle, hx, h.1, List.take_succ_cons, List.drop_succ_cons, List.flatMap_cons]
        · refine ⟨0, by omega, .inr ⟨?_, rfl⟩⟩
          simp only [List.cons_append, handle, hx, h.1, List.flatMap_cons]
  have key : ∀ (fuel : Nat) (pre : List Round), pre.length < fuel → (∀ x ∈ pre, Works limit x) →
      shutdown limit fuel (pre ++ r :: post) = (pre.flatMap (full limit), some post) := by
    intro fuel
    induction fuel with
    | zero => intro pre h _; omega
    | succ fuel ih =>
      intro pre hf hw
      obtain ⟨k, hk, ⟨h, hp⟩ | ⟨h, hp⟩⟩ := hh pre hw
      · have hlen : (pre.drop k).length < fuel := by rw [List.length_drop]; omega
        have := ih (pre.drop k) hlen (fun x hx => hw x (List.mem_of_mem_drop hx))
        simp only [shutdown, h, this, if_true]
        rw [← List.flatMap_append, List.take_append_drop]
      · simp [shutdown, h]
  exact key _ pre (by omega) hw

/-- the waits of the last 500 ms do not go beyond their end, as the clock of the round shows it -/
theorem C206_limit {limit : Nat} {r : Round} {now : Nat} (h : r.now = some now) (hn : now < limit) (hx : now < r.next) (hx' : r.next < 2 ^ 64) (hl : limit < 2 ^ 64) :
    ∀ d, Act.wait d ∈ full limit r → now + d ≤ limit := by
  intro d hd
  unfold full at hd
  simp only [h, Option.getD_some, List.cons_append, List.mem_cons, reduceCtorEq, false_or, List.mem_append, List.mem_replicate] at hd
  rcases hd with ⟨_, hd⟩ | hd
  · injection hd with hd
    rw [delay_eq (by omega) (by omega)] at hd
    omega
  · split at hd <;> simp at hd

example : Works 1500 ⟨some 1000, 1200, true, [true], .got [], true⟩ ∧
    shutdown 1500 2 [⟨some 1000, 1200, true, [true], .got [], true⟩, ⟨some 1500, 1700, true, [], .timeout, true⟩] = ([.walk 1000, .wait 200, .wait 200, .handle []], some []) :=
  ⟨⟨⟨1000, rfl, by decide⟩, rfl, by simp⟩, by decide +kernel⟩

/-- the wait begins when the timers are done, but its length is calculated with the clock from before: it ends later than the deadline by the
time the timers took. (Missing: it ends with the deadline.) -/
theorem C206_late_partial (now took deadline : Nat) (h : now < deadline) (hd : deadline - now ≤ 2147483647) (h64 : deadline < 2 ^ 64) :
    waitEnd (now + took) (delay now deadline) [] = deadline + took := by
  simp only [waitEnd, delay_eq h h64]
  omega

/-- every signal begins the whole wait anew: with signals that come often enough the wait goes on for any time -/
theorem C206_signals_counterexample (start d : Nat) (hd : 2 ≤ d) : ∀ n, waitEnd start d ((List.range n).map fun i => start + (i + 1) * (d - 1)) = start + n * (d - 1) + d := by
  intro n
  induction n generalizing start with
  | zero => simp [waitEnd]
  | succ n ih =>
    rw [List.range_succ_eq_map, List.map_cons, List.map_map]
    simp only [waitEnd]
    rw [if_pos (by omega)]
    have e : (List.range n).map ((fun i => start + (i + 1) * (d - 1)) ∘ Nat.succ) = (List.range n).map fun i => start + (0 + 1) * (d - 1) + (i + 1) * (d - 1) := by
      apply List.map_congr_left
      intro i _
      simp only [Function.comp, Nat.succ_eq_add_one, Nat.add_mul]
      omega
    rw [e, ih]
    simp only [Nat.add_mul]
    omega

/-- a socket that hung up keeps the loop busy: it never returns, whatever the number of rounds, and no handler is called (C204_hangup) -/
theorem C206_hangup_counterexample (now next : Nat) (hn : now < NEVER) (i : Nat) : ∀ n,
    (handle NEVER (List.replicate n ⟨some now, next, false, [], .got [(i, ⟨false, false, true⟩)], true⟩)).2 = none := by
  intro n
  induction n with
  | zero => rfl
  | succ n ih =>
    rw [List.replicate_succ]
    obtain ⟨d, h⟩ := C206_round (r := ⟨some now, next, false, [], .got [(i, ⟨false, false, true⟩)], true⟩) rfl hn rfl (by simp)
    simp only [handle, h, if_true]
    exact ih

/-! ## C207: the main loop -/

/-- a reload that works: the configuration is applied, exactly once even if there is a commit as well; both requests are done -/
theorem C207_reload {t : Turn} (h : t.sched = true) (hr : t.flags.reload = true) (hc : t.clear = true) (hp : t.parse = true) (ha : t.apply1 = true) :
    turn t = ⟨none, { t.flags with reload := false, commit := false }, 1⟩ := by
  simp [turn, h, hr, hc, hp, ha, turnCommit, applied]

/-- a commit that works: the configuration is applied once and the request is done -/
theorem C207_commit {t : Turn} (h : t.sched = true) (hr : t.flags.reload = false) (hc : t.flags.commit = true) (ha : t.apply2 = true) :
    turn t = ⟨none, { t.flags with commit := false }, 1⟩ := by
  simp [turn, h, hr, hc, ha, turnCommit, applied]

/-- without a request nothing is applied -/
theorem C207_quiet {t : Turn} (h : t.sched = true) (hr : t.flags.reload = false) (hc : t.flags.commit = false) : turn t = ⟨none, t.flags, 0⟩ := by
  simp [turn, h, hr, hc, turnCommit]

/-- the exit code tells if the scheduler failed -/
theorem C207_exit {l : List Turn} : ∀ {f : Flags} {c n : Nat}, mainloop f l = some (c, n) →
    c = 0 ∨ c = 1 ∧ ∃ t ∈ l, t.sched = false := by
  induction l with
  | nil =>
    intro f c n h
    simp only [mainloop] at h
    split at h <;> simp_all
  | cons t l ih =>
    intro f c n h
    simp only [mainloop] at h
    split at h
    · simp_all
    · cases he : (turn t).exit with
      | none =>
        rw [he] at h
        simp only [Option.map_eq_some_iff] at h
        obtain ⟨⟨c', n'⟩, h1, h2⟩ := h
        injection h2 with h2 h3
        simp only at h2
        subst h2
        rcases ih h1 with h | ⟨h, t', ht, hs⟩
        · exact .inl h
        · exact .inr ⟨h, t', List.mem_cons_of_mem _ ht, hs⟩
      | some c' =>
        rw [he] at h
        simp only [Option.some.injEq, Prod.mk.injEq] at h
        obtain ⟨rfl, _⟩ := h
        by_cases hs : t.sched = true
        · left
          have hcom : ∀ f n, (turnCommit t f n).exit = some c' → c' = 0 := by
            intro f n h
            unfold turnCommit at h
            split at h
            · split at h
              · cases h
              · injection h with h; exact h.symm
            · cases h
          unfold turn at he
          simp only [hs, Bool.not_true, Bool.false_eq_true, if_false] at he
          split at he
          · split at he
            · injection he with he; exact he.symm
            · split at he
              · split at he
                · exact hcom _ _ he
                · injection he with he; exact he.symm
              · exact hcom _ _ he
          · exact hcom _ _ he
        · right
          simp only [turn, hs, Bool.not_false] at he
          exact ⟨by simpa using he.symm, t, List.mem_cons_self .., by simpa using hs⟩

/-- a scheduler that fails ends the main loop with 1 -/
theorem C207_failed {f : Flags} (hf : f.running = true) {t : Turn} (h : t.sched = false) (l : List Turn) : mainloop f (t :: l) = some (1, 0) := by
  simp [mainloop, hf, turn, h]

/-- asked to end: the main loop ends with the next turn, and with 0 if no configuration is to be applied -/
theorem C207_end {f : Flags} (hf : f.running = true) {t : Turn} (h : t.sched = true) (hr : t.flags = ⟨false, false, false⟩) (l : List Turn) : mainloop f (t :: l) = some (0, 0) := by
  cases l <;> simp [mainloop, hf, turn, h, hr, turnCommit]

/-- a configuration that cannot be applied ends the program, and the exit code says that everything is fine -/
theorem C207_apply_counterexample {f : Flags} (hf : f.running = true) {t : Turn} (h : t.sched = true) (hr : t.flags.reload = true) (hc : t.clear = true) (hp : t.parse = true)
    (ha : t.apply1 = false) (l : List Turn) : mainloop f (t :: l) = some (0, 0) := by
  simp [mainloop, hf, turn, h, hr, hc, hp, ha]

/-- a reload that cannot read the configuration (an error in the file): the request stays. From then on the scheduler returns before it waits
(C206_stop), so no socket is served any more, and the main loop reads the configuration again and again -/
theorem C207_deaf_counterexample : ∀ n : Nat,
    mainloop ⟨true, true, false⟩ (List.replicate n ⟨true, ⟨true, true, false⟩, true, false, true, true⟩) = none ∧
    ∀ (r : Round) (now : Nat), r.now = some now → now < NEVER → r.stop = (Flags.mk true true false).stop → round NEVER r = ([.walk now], some 0) := by
  intro n
  refine ⟨?_, fun r now h hn hs => C206_stop h hn hs⟩
  induction n with
  | zero => rfl
  | succ n ih =>
    rw [List.replicate_succ]
    have : turn ⟨true, ⟨true, true, false⟩, true, false, true, true⟩ = ⟨none, ⟨true, true, false⟩, 0⟩ := by decide +kernel
    simp only [mainloop, this, ih]
    rfl

example : mainloop ⟨true, false, false⟩ [⟨true, ⟨true, true, true⟩, true, true, true, true⟩, ⟨true, ⟨true, false, true⟩, true, true, true, true⟩,
    ⟨true, ⟨false, false, false⟩, true, true, true, true⟩] = some (0, 2) := by decide +kernel

end Verif.Sched
