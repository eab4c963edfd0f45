import Verif.Nl80211.Spec

/-! # Wireless interfaces: the order of the queries -/

namespace Verif.Nl80211

theorem nextOf_append (c : Nat) (pre post : List Nat) (h : c ∉ pre) : nextOf c (pre ++ c :: post) = post.head? := by
  induction pre with
  | nil => simp [nextOf]
  | cons x xs ih =>
    simp only [List.mem_cons, not_or] at h
    simp only [List.cons_append, nextOf]
    rw [if_neg (fun e => h.1 e.symm)]
    exact ih h.2

/-- the state in which interface `c` gets query `k` -/
def asks (ifs : List Nat) (c k : Nat) : St := { ifs := ifs, cur := some c, num := k, busy := true, known := true }

/-- the state between two series -/
def idle (ifs : List Nat) : St := { ifs := ifs, cur := none, num := 0, busy := false, known := true }

/-- the state at the end of a series, before the flag is cleared -/
def ended (ifs : List Nat) (b : Bool) : St := { ifs := ifs, cur := none, num := 0, busy := b, known := true }

theorem getNext_more (ifs : List Nat) (c k : Nat) (h : c ∈ ifs) (hk : k + 1 < 5) : getNext (asks ifs c k) = some (asks ifs c (k + 1)) := by
  have h0 : ifs ≠ [] := fun e => by simp [e] at h
  have h5 : ¬ k + 1 = 5 := by omega
  simp [getNext, asks, h0, h, h5]

theorem getNext_last (pre post : List Nat) (c : Nat) (h : c ∉ pre) :
    getNext (asks (pre ++ c :: post) c 4) = some { asks (pre ++ c :: post) c 0 with cur := post.head? } := by
  simp [getNext, asks, nextOf_append c pre post h]

/-- what follows when the loop has come to the interfaces `post` -/
def land (up : Nat → Bool) (ifs : List Nat) : List Nat → St
  | [] => ended ifs true
  | c :: post => if up c then asks ifs c 0 else land up ifs post

/-- the loop after an interface that is down -/
theorem skip_down (up : Nat → Bool) (pre post : List Nat) (c : Nat) (hd : (pre ++ c :: post).Nodup) (hu : up c = false) (fuel : Nat) :
    skip up (fuel + 5) (asks (pre ++ c :: post) c 0) =
      match post with
      | [] => some (ended (pre ++ c :: post) true)
      | d :: _ => if up d then some (asks (pre ++ c :: post) d 0) else skip up fuel (asks (pre ++ c :: post) d 0) := by
  have hm : c ∈ pre ++ c :: post := by simp
  have hn : c ∉ pre := by
    intro e
    rw [List.nodup_append] at hd
    exact hd.2.2 c e c (by simp) rfl
  have one : ∀ k f, k + 1 < 5 → skip up (f + 1) (asks (pre ++ c :: post) c k) = skip up f (asks (pre ++ c :: post) c (k + 1)) := by
    intro k f hk
    rw [skip, getNext_more _ c k hm hk]
    show (if up c then _ else _) = _
    rw [hu]
    rfl
  rw [one 0 (fuel + 4) (by omega), one 1 (fuel + 3) (by omega), one 2 (fuel + 2) (by omega), one 3 (fuel + 1) (by omega)]
  rw [skip, getNext_last pre post c hn]
  cases post with
  | nil => rfl
  | cons d post => rfl

theorem skip_land (up : Nat → Bool) : ∀ (post pre : List Nat) (c : Nat) (fuel : Nat), (pre ++ c :: post).Nodup → up c = false → 5 * (post.length + 1) ≤ fuel →
    skip up fuel (asks (pre ++ c :: post) c 0) = some (land up (pre ++ c :: post) post) := by
  intro post
  induction post with
  | nil =>
    intro pre c fuel hd hu hf
    obtain ⟨f, rfl⟩ : ∃ f, fuel = f + 5 := ⟨fuel - 5, by simp at hf; omega⟩
    rw [skip_down up pre [] c hd hu f]
    rfl
  | cons d post ih =>
    intro pre c fuel hd hu hf
    obtain ⟨f, rfl⟩ : ∃ f, fuel = f + 5 := ⟨fuel - 5, by simp at hf; omega⟩
    rw [skip_down up pre (d :: post) c hd hu f]
    simp only [land]
    by_cases hdn : up d = true
    · rw [if_pos hdn, if_pos hdn]
    · rw [if_neg hdn, if_neg hdn]
      simp only [Bool.not_eq_true] at hdn
      have e : pre ++ c :: d :: post = (pre ++ [c]) ++ d :: post := by simp
      rw [e] at hd ⊢
      exact ih (pre ++ [c]) d f hd hdn (by simp at hf; omega)

/-- the message that belongs to a state -/
def msgOf (s : St) : St × List Msg :=
  match s.cur with
  | none => ({ s with busy := false }, [])
  | some c => (s, [.query c s.num])

theorem trigger_known (up : Nat → Bool) (s : St) (h : s.known = true) : trigger up s = (skip up (5 * s.ifs.length + 1) s).map msgOf := by
  unfold trigger
  rw [if_neg (by simp [h])]
  cases skip up (5 * s.ifs.length + 1) s with
  | none => rfl
  | some t =>
    simp only [Option.map_some, msgOf]
    cases t.cur <;> rfl

theorem step_done (up : Nat → Bool) (s : St) (h : s.known = true) : step up s .done = trigger up s := by simp [step, h]

theorem step_timer (up : Nat → Bool) (s : St) (h : s.busy = false) : step up s .timer = trigger up s := by simp [step, h]

theorem done_more (up : Nat → Bool) (ifs : List Nat) (c k : Nat) (h : c ∈ ifs) (hu : up c = true) (hk : k + 1 < 5) :
    step up (asks ifs c k) .done = some (asks ifs c (k + 1), [.query c (k + 1)]) := by
  rw [step_done up _ rfl, trigger_known up _ rfl, skip, getNext_more ifs c k h hk]
  simp only [asks, hu, if_true]
  rfl

theorem done_last (up : Nat → Bool) (pre post : List Nat) (c : Nat) (hd : (pre ++ c :: post).Nodup) :
    step up (asks (pre ++ c :: post) c 4) .done = some (msgOf (land up (pre ++ c :: post) post)) := by
  have hn : c ∉ pre := by
    intro e
    rw [List.nodup_append] at hd
    exact hd.2.2 c e c (by simp) rfl
  rw [step_done up _ rfl, trigger_known up _ rfl, skip, getNext_last pre post c hn]
  cases post with
  | nil => rfl
  | cons d post =>
    simp only [asks, List.head?_cons, land]
    by_cases hu : up d = true
    · rw [if_pos hu, if_pos hu]; rfl
    · rw [if_neg hu, if_neg hu]
      simp only [Bool.not_eq_true] at hu
      have e : pre ++ c :: d :: post = (pre ++ [c]) ++ d :: post := by simp
      have := skip_land up post (pre ++ [c]) d (5 * (pre ++ c :: d :: post).length) (e ▸ hd) hu (by simp; omega)
      rw [← e] at this
      simp only [asks] at this
      rw [this]
      rfl

theorem timer_start (up : Nat → Bool) (ifs : List Nat) (hd : ifs.Nodup) : step up (idle ifs) .timer = some (msgOf (land up ifs ifs)) := by
  rw [step_timer up _ rfl, trigger_known up _ rfl]
  cases ifs with
  | nil => simp [skip, getNext, idle, land, ended, msgOf]
  | cons c post =>
    have hg : getNext (idle (c :: post)) = some (asks (c :: post) c 0) := by simp [getNext, idle, asks]
    rw [skip, hg]
    simp only [asks, land]
    by_cases hu : up c = true
    · rw [if_pos hu, if_pos hu]; rfl
    · rw [if_neg hu, if_neg hu]
      simp only [Bool.not_eq_true] at hu
      have := skip_land up post [] c (5 * (idle (c :: post)).ifs.length) (by simpa using hd) hu (by simp [idle])
      simp only [List.nil_append, asks] at this
      rw [this]
      rfl

theorem steps_cons (up : Nat → Bool) (s : St) (e : Ev) (es : List Ev) (t : St) (m : List Msg) (h : step up s e = some (t, m)) (x : St × List Msg)
    (hx : steps up t es = some x) : steps up s (e :: es) = some (x.1, m ++ x.2) := by
  obtain ⟨a, b⟩ := x
  simp only [steps, h, hx]

/-- from the landing on `post` all queries are sent for all interfaces of `post` that are up -/
theorem series_from (up : Nat → Bool) (ifs : List Nat) (hd : ifs.Nodup) : ∀ (post pre : List Nat), ifs = pre ++ post →
    ∃ n, n = 5 * (post.filter up).length ∧ ∃ m, steps up (msgOf (land up ifs post)).1 (List.replicate n .done) = some (idle ifs, m) ∧
      (msgOf (land up ifs post)).2 ++ m = (post.filter up).flatMap queriesOf := by
  intro post
  induction post with
  | nil => intro pre _; exact ⟨0, rfl, [], rfl, rfl⟩
  | cons c post ih =>
    intro pre he
    obtain ⟨n, hn, m, h1, h2⟩ := ih (pre ++ [c]) (by simp [he])
    by_cases hu : up c = true
    · have hl : land up ifs (c :: post) = asks ifs c 0 := by simp [land, hu]
      have hm : c ∈ ifs := by simp [he]
      rw [hl]
      refine ⟨n + 5, by simp [List.filter_cons, hu, hn]; omega, .query c 1 :: .query c 2 :: .query c 3 :: .query c 4 :: ((msgOf (land up ifs post)).2 ++ m), ?_, ?_⟩
      · show steps up (asks ifs c 0) (.done :: .done :: .done :: .done :: .done :: List.replicate n .done) = _
        have hlast : step up (asks ifs c 4) .done = some (msgOf (land up ifs post)) := by
          have := done_last up pre post c (he ▸ hd)
          rw [← he] at this
          exact this
        have s5 := steps_cons up _ _ _ _ _ hlast _ h1
        have s4 := steps_cons up _ _ _ _ _ (done_more up ifs c 3 hm hu (by omega)) _ s5
        have s3 := steps_cons up _ _ _ _ _ (done_more up ifs c 2 hm hu (by omega)) _ s4
        have s2 := steps_cons up _ _ _ _ _ (done_more up ifs c 1 hm hu (by omega)) _ s3
        exact steps_cons up _ _ _ _ _ (done_more up ifs c 0 hm hu (by omega)) _ s2
      · rw [h2]
        simp [List.filter_cons, hu, queriesOf, msgOf, asks]
    · have hl : land up ifs (c :: post) = land up ifs post := by simp [land, hu]
      rw [hl]
      refine ⟨n, by simp [List.filter_cons, hu, hn], m, h1, ?_⟩
      rw [h2]
      simp [List.filter_cons, hu]

/-- a series: the timer starts it; with each answer the next query is sent, all five for each interface that is up, in order; then the plugin waits
for the timer again -/
theorem C221_series_partial (up : Nat → Bool) (ifs : List Nat) (hd : ifs.Nodup) :
    steps up (idle ifs) (.timer :: List.replicate (5 * (ifs.filter up).length) .done) = some (idle ifs, (ifs.filter up).flatMap queriesOf) := by
  obtain ⟨n, rfl, m, h1, h2⟩ := series_from up ifs hd ifs [] rfl
  rw [← h2]
  exact steps_cons up _ _ _ (msgOf (land up ifs ifs)).1 (msgOf (land up ifs ifs)).2 (timer_start up ifs hd) _ h1

example : steps (· ≠ 2) (idle [1, 2, 3]) (.timer :: List.replicate 10 .done) =
    some (idle [1, 2, 3], [.query 1 0, .query 1 1, .query 1 2, .query 1 3, .query 1 4, .query 3 0, .query 3 1, .query 3 2, .query 3 3, .query 3 4]) := by decide

/-- while a query is under way the timer does nothing -/
theorem C221_timer (up : Nat → Bool) (s : St) (h : s.busy = true) : step up s .timer = some (s, []) := by
  simp [step, h]

/-- the first series begins with the family -/
theorem C221_first (up : Nat → Bool) (ifs : List Nat) (hd : ifs.Nodup) :
    ∃ m, steps up { ifs := ifs } ([.timer, .family] ++ List.replicate (1 + 5 * (ifs.filter up).length) .done) = some (idle ifs, m) ∧
      m = .family :: (ifs.filter up).flatMap queriesOf := by
  obtain ⟨n, rfl, m, h1, h2⟩ := series_from up ifs hd ifs [] rfl
  refine ⟨_, ?_, rfl⟩
  have hs : step up { ifs := ifs, busy := true, known := true } .done = some (msgOf (land up ifs ifs)) := by
    have := timer_start up ifs hd
    rw [step_done up _ rfl, trigger_known up _ rfl]
    have h3 : trigger up (idle ifs) = some (msgOf (land up ifs ifs)) := by
      rw [← step_timer up _ rfl]; exact this
    rw [trigger_known up _ rfl] at h3
    cases ifs with
    | nil => simp [skip, getNext, land, ended, msgOf]
    | cons c post =>
      have e : skip up (5 * (c :: post).length + 1) { ifs := c :: post, busy := true, known := true } = skip up (5 * (idle (c :: post)).ifs.length + 1) (idle (c :: post)) := by
        simp [skip, getNext, idle]
      show (skip up (5 * (c :: post).length + 1) { ifs := c :: post, busy := true, known := true }).map msgOf = _
      rw [e]; exact h3
  have s1 : step up { ifs := ifs } .timer = some ({ ifs := ifs, busy := true }, [.family]) := by simp [step, trigger]
  have s2 : step up { ifs := ifs, busy := true } .family = some ({ ifs := ifs, busy := true, known := true }, []) := rfl
  have h5 := steps_cons up _ _ _ (msgOf (land up ifs ifs)).1 (msgOf (land up ifs ifs)).2 hs _ h1
  have h6 := steps_cons up _ _ _ _ _ s2 _ h5
  have h7 := steps_cons up _ _ _ _ _ s1 _ h6
  rw [Nat.add_comm 1, List.replicate_succ]
  simp only [h2, List.nil_append] at h7
  exact h7

/-- if the query for the family fails (or knows no multicast group) the plugin never asks again -/
theorem C221_family_counterexample (up : Nat → Bool) (ifs : List Nat) (es : List Ev) (h : ∀ e ∈ es, e = .timer ∨ e = .done) :
    ∃ s, steps up { ifs := ifs } (.timer :: .done :: es) = some (s, [.family]) := by
  have key : ∀ es : List Ev, (∀ e ∈ es, e = .timer ∨ e = .done) → steps up { ifs := ifs, busy := true } es = some ({ ifs := ifs, busy := true }, []) := by
    intro es
    induction es with
    | nil => intro _; rfl
    | cons e es ih =>
      intro h
      have h1 := ih (fun e he => h e (List.mem_cons_of_mem _ he))
      have h2 : step up { ifs := ifs, busy := true } e = some ({ ifs := ifs, busy := true }, []) := by
        rcases h e (List.mem_cons_self ..) with rfl | rfl <;> simp [step]
      exact steps_cons up _ _ _ _ _ h2 _ h1
  have s1 : step up { ifs := ifs } .timer = some ({ ifs := ifs, busy := true }, [.family]) := by simp [step, trigger]
  have h1 := key (.done :: es) (by
    intro e he
    rcases List.mem_cons.1 he with rfl | he
    · exact .inr rfl
    · exact h e he)
  exact ⟨_, steps_cons up _ _ _ _ _ s1 _ h1⟩

/-- an interface that is removed while it is asked: its answer is processed with free memory; so is the end of the query, if there are others -/
theorem C221_removed_counterexample (up : Nat → Bool) (ifs : List Nat) (c k : Nat) :
    steps up (asks ifs c k) [.remove c, .answer] = none ∧ ((∃ d ∈ ifs, d ≠ c) → steps up (asks ifs c k) [.remove c, .done] = none) := by
  have hn : c ∉ ifs.filter (· ≠ c) := by simp
  refine ⟨?_, ?_⟩
  · simp only [steps, step, asks, if_neg hn]
  · rintro ⟨d, hd, hne⟩
    have h0 : ifs.filter (· ≠ c) ≠ [] := List.ne_nil_of_mem (List.mem_filter.2 ⟨hd, by simpa using hne⟩)
    have hg : getNext { asks ifs c k with ifs := ifs.filter (· ≠ c) } = none := by
      simp only [getNext, asks]
      rw [if_neg h0, if_pos hn]
    have ht : trigger up { asks ifs c k with ifs := ifs.filter (· ≠ c) } = none := by
      rw [trigger_known up _ rfl, skip, hg]; rfl
    have h1 : step up (asks ifs c k) (.remove c) = some ({ asks ifs c k with ifs := ifs.filter (· ≠ c) }, []) := rfl
    have h2 : step up { asks ifs c k with ifs := ifs.filter (· ≠ c) } .done = none := ht
    simp only [steps, h1, h2]

end Verif.Nl80211
