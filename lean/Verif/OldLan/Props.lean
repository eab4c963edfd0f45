import Verif.OldLan.Model

/-! # Properties of the locally attached networks in the configuration -/

namespace Verif.OldLan

/-! ## C209: the parameters -/

/-- a word that means what the help text says -/
def Legal : Word → Prop
  | .metric (.val n) => n < 4294967296
  | .domain (.val n) => n ≤ 255
  | .dist (.val n) => n < 4294967296
  | .domainAll => True
  | .src ok _ => ok = true
  | _ => False

def metricOf : Word → Option Nat | .metric (.val n) => some n | _ => none
def distOf : Word → Option Nat | .dist (.val n) => some n | _ => none
def domainOf : Word → Option (Option Nat) | .domain (.val n) => some (some n) | .domainAll => some none | _ => none
def srcOf : Word → Option Nat | .src _ a => some a | _ => none

/-- the last value given for an option -/
def lastOf {α} (f : Word → Option α) (ws : List Word) : Option α := (ws.filterMap f).getLast?

theorem lastOf_cons {α} (f : Word → Option α) (w : Word) (ws : List Word) :
    lastOf f (w :: ws) = match lastOf f ws with | some v => some v | none => f w := by
  unfold lastOf
  simp only [List.filterMap_cons]
  cases hw : f w with
  | none => cases (List.filterMap f ws).getLast? <;> rfl
  | some v =>
    simp only [List.getLast?_cons]
    cases (List.filterMap f ws).getLast? <;> rfl

theorem parse_legal : ∀ (ws : List Word) (d : Data), (∀ w ∈ ws, Legal w) →
    parse false d ws = (some ⟨(lastOf domainOf ws).getD d.ext, (lastOf metricOf ws).getD d.metric, (lastOf distOf ws).getD d.dist,
      match lastOf srcOf ws with | some a => some a | none => d.src⟩, false) := by
  intro ws
  induction ws with
  | nil => intro d _; simp [parse, lastOf]
  | cons w ws ih =>
    intro d h
    have hw := h w (List.mem_cons_self ..)
    have hws := fun x hx => h x (List.mem_cons_of_mem _ hx)
    simp only [lastOf_cons]
    cases w with
    | metric n =>
      cases n with
      | range => exact hw.elim
      | val n =>
        have hn : n < 4294967296 := hw
        have e : Num.u32 (.val n) = n := by simp only [Num.u32]; omega
        rw [parse, if_neg (by simp [Num.errno]), show Num.errno false (.val n) = false from rfl, ih _ hws, e]
        cases lastOf metricOf ws <;> cases lastOf distOf ws <;> cases lastOf domainOf ws <;> cases lastOf srcOf ws <;> rfl
    | domainAll =>
      rw [parse, ih _ hws]
      cases lastOf metricOf ws <;> cases lastOf distOf ws <;> cases lastOf domainOf ws <;> cases lastOf srcOf ws <;> rfl
    | domain n =>
      cases n with
      | range => exact hw.elim
      | val n =>
        have hn : n ≤ 255 := hw
        have e : Num.u32 (.val n) = n := by simp only [Num.u32]; omega
        rw [parse, e, if_neg (by simp [Num.errno]; omega), show Num.errno false (.val n) = false from rfl, ih _ hws]
        cases lastOf metricOf ws <;> cases lastOf distOf ws <;> cases lastOf domainOf ws <;> cases lastOf srcOf ws <;> rfl
    | dist n =>
      cases n with
      | range => exact hw.elim
      | val n =>
        have hn : n < 4294967296 := hw
        have e : Num.u32 (.val n) = n := by simp only [Num.u32]; omega
        rw [parse, if_neg (by simp [Num.errno]), show Num.errno false (.val n) = false from rfl, ih _ hws, e]
        cases lastOf metricOf ws <;> cases lastOf distOf ws <;> cases lastOf domainOf ws <;> cases lastOf srcOf ws <;> rfl
    | src ok a =>
      have hok : ok = true := hw
      subst hok
      rw [parse, if_pos rfl, ih _ hws]
      cases lastOf metricOf ws <;> cases lastOf distOf ws <;> cases lastOf domainOf ws <;> cases lastOf srcOf ws <;> rfl
    | unknown => exact hw.elim

/-- for legal parameters and without an old error number: the last value given counts, else the default -/
theorem C209_values_partial (ws : List Word) (h : ∀ w ∈ ws, Legal w) :
    (parse false {} ws).1 = some ⟨(lastOf domainOf ws).getD none, (lastOf metricOf ws).getD 1, (lastOf distOf ws).getD 2, lastOf srcOf ws⟩ := by
  rw [parse_legal ws {} h]
  cases lastOf srcOf ws <;> rfl

example : (parse false {} [.metric (.val 5), .domain (.val 0), .dist (.val 3), .metric (.val 7)]).1 = some ⟨some 0, 7, 3, none⟩ := by decide +kernel

/-- a word that can never be right -/
def Wrong : Word → Prop
  | .unknown => True
  | .src ok _ => ok = false
  | .domain .range => True
  | .domain (.val n) => n % 4294967296 > 255
  | _ => False

/-- one wrong parameter makes the whole value illegal -/
theorem C209_refused (ws : List Word) (w : Word) (hw : w ∈ ws) (hwr : Wrong w) (e : Bool) : (parse e {} ws).1 = none ∧ validate e ws = false := by
  have key : ∀ (ws : List Word) (e : Bool) (d : Data), w ∈ ws → (parse e d ws).1 = none := by
    intro ws
    induction ws with
    | nil => intro e d h; cases h
    | cons x ws ih =>
      intro e d h
      rcases List.mem_cons.1 h with rfl | hm
      · cases w with
        | metric n => exact hwr.elim
        | domainAll => exact hwr.elim
        | domain n =>
          have hn : n.u32 > 255 := by
            cases n with
            | range => simp only [Num.u32]; omega
            | val n => exact hwr
          rw [parse, if_pos (.inr hn)]
        | dist n => exact hwr.elim
        | src ok a =>
          have : ok = false := hwr
          subst this
          rfl
        | unknown => rfl
      · cases x with
        | metric n => rw [parse]; split; rfl; exact ih _ _ hm
        | domainAll => rw [parse]; exact ih _ _ hm
        | domain n => rw [parse]; split; rfl; exact ih _ _ hm
        | dist n => rw [parse]; split; rfl; exact ih _ _ hm
        | src ok a => rw [parse]; split; exact ih _ _ hm; rfl
        | unknown => rfl
  refine ⟨key ws e {} hw, ?_⟩
  unfold validate
  rw [key ws e {} hw]

example : Wrong (.domain (.val 256)) := by show 256 % 4294967296 > 255; decide

/-- zero where it is not allowed to be, or an error number from before, does not matter for legal parameters that are not zero -/
theorem C209_nonzero (e : Bool) (n : Nat) (h0 : 1 ≤ n) (h1 : n ≤ 255) : (parse e {} [.domain (.val n), .metric (.val n), .dist (.val n)]).1 = some ⟨some n, n, n, none⟩ := by
  have eu : Num.u32 (.val n) = n := by simp only [Num.u32]; omega
  generalize hx : Num.val n = x at eu
  have h2 : ∀ b : Bool, ¬ (n = 0 ∧ b = true ∨ n > 255) := by intro b; omega
  have h3 : ∀ b : Bool, ¬ (n = 0 ∧ b = true) := by intro b; omega
  simp only [parse, eu]
  rw [if_neg (h2 _), if_neg (h3 _), if_neg (h3 _)]

/-- whatever was accepted by the validation has a metric that can be sent, a distance of one byte and a possible domain -/
theorem C209_validated (e : Bool) (ws : List Word) (h : validate e ws = true) :
    ∃ d, (parse e {} ws).1 = some d ∧ 1 ≤ d.metric ∧ d.metric ≤ 16776960 ∧ d.dist ≤ 255 ∧ ∀ x, d.ext = some x → x ≤ 255 := by
  have hext : ∀ (ws : List Word) (e : Bool) (d d' : Data), (∀ x, d.ext = some x → x ≤ 255) → (parse e d ws).1 = some d' → ∀ x, d'.ext = some x → x ≤ 255 := by
    intro ws
    induction ws with
    | nil => intro e d d' h1 h2; simp only [parse, Option.some.injEq] at h2; subst h2; exact h1
    | cons w ws ih =>
      intro e d d' h1 h2
      cases w with
      | metric n => rw [parse] at h2; split at h2; cases h2; exact ih _ _ _ (by exact h1) h2
      | domainAll => rw [parse] at h2; exact ih _ _ _ (by intro x hx; cases hx) h2
      | domain n =>
        rw [parse] at h2
        split at h2
        · cases h2
        · rename_i hn
          exact ih _ _ _ (by intro x hx; simp only [Option.some.injEq] at hx; omega) h2
      | dist n => rw [parse] at h2; split at h2; cases h2; exact ih _ _ _ (by exact h1) h2
      | src ok a => rw [parse] at h2; split at h2; exact ih _ _ _ (by exact h1) h2; cases h2
      | unknown => cases h2
  unfold validate at h
  cases hp : (parse e {} ws).1 with
  | none => simp [hp] at h
  | some d =>
    simp only [hp] at h
    split at h
    · cases h
    · split at h
      · cases h
      · exact ⟨d, rfl, by omega, by omega, by omega, hext ws e {} d (by intro x hx; cases hx) hp⟩

example : validate false [.metric (.val 5), .domain (.val 0), .dist (.val 3)] = true := by decide +kernel

/-- domain zero cannot be configured while the error number of some earlier call is still set: the validation accepts the value, and when it is
applied it is skipped -/
theorem C209_errno_counterexample (l : Line) (hw : l.words = [.domain (.val 0)]) (w : World) :
    validate false l.words = true ∧ validate true l.words = false ∧ (array true true w [l]).1 = w ∧ (array true false w [l]).1 = applyData true w l.dst ⟨some 0, 1, 2, none⟩ := by
  refine ⟨by rw [hw]; decide +kernel, by rw [hw]; decide +kernel, ?_, ?_⟩
  · have : (parse true {} l.words).1 = none := by rw [hw]; decide +kernel
    simp [array, this]
  · have : (parse false {} l.words).1 = some ⟨some 0, 1, 2, none⟩ := by rw [hw]; decide +kernel
    simp [array, this]

/-- this holds within one value, too: a number that is too large lets a later domain zero fail (the value is refused anyway) -/
theorem C209_range (w : Word) (hw : w = .metric .range ∨ w = .dist .range) : (parse false {} [w, .domain (.val 0)]).1 = none ∧ (parse false {} [.domain (.val 0), w]).1 ≠ none := by
  rcases hw with rfl | rfl <;> decide +kernel

/-- numbers are taken modulo 2^32: a metric and a domain far out of range are accepted as another value -/
theorem C209_wrap_counterexample (n : Nat) (hn : 1 ≤ n) (h255 : n ≤ 255) (m : Nat) (hm : m % 4294967296 = n) :
    validate false [.metric (.val m), .domain (.val m)] = true ∧ (parse false {} [.metric (.val m), .domain (.val m)]).1 = some ⟨some n, n, 2, none⟩ := by
  have e : Num.u32 (.val m) = n := hm
  generalize hx : Num.val m = x at e
  have e0 : Num.errno false x = false := by rw [← hx]; rfl
  have hp : (parse false {} [.metric x, .domain x]).1 = some ⟨some n, n, 2, none⟩ := by
    have h1 : ¬ (n = 0 ∧ false = true) := by simp
    have h2 : ¬ (n = 0 ∧ false = true ∨ n > 255) := by simp; omega
    simp only [parse, e, e0]
    rw [if_neg h1, if_neg h2]
  refine ⟨?_, hp⟩
  unfold validate
  rw [hp]
  simp only
  rw [if_neg (by omega), if_neg (by omega)]

example : (4294967296 * 3 + 5) % 4294967296 = 5 := by decide

/-! ## C210: a change of the configuration -/

/-- does a configured network concern this prefix and domain -/
def Covers (doms : List Nat) (dst : Nat) (d : Data) (k : Key) (e : Nat) : Prop := k = ⟨dst, d.src⟩ ∧ e ∈ doms ∧ (d.ext = none ∨ d.ext = some e)

instance (doms dst d k e) : Decidable (Covers doms dst d k e) := by unfold Covers; infer_instance

theorem set_lan (w : World) (k k' : Key) (e e' : Nat) (v : Option (Nat × Nat)) : (w.set k e v).lan k' e' = if k' = k ∧ e' = e then v else w.lan k' e' := rfl

theorem fold_lan (k : Key) (v : Option (Nat × Nat)) (k' : Key) (e' : Nat) : ∀ (ds : List Nat) (w : World),
    (ds.foldl (fun w e => w.set k e v) w).lan k' e' = (if k' = k ∧ e' ∈ ds then v else w.lan k' e') ∧ (ds.foldl (fun w e => w.set k e v) w).doms = w.doms := by
  intro ds
  induction ds with
  | nil => intro w; simp
  | cons d ds ih =>
    intro w
    simp only [List.foldl_cons]
    rw [(ih _).1, (ih _).2, set_lan]
    refine ⟨?_, rfl⟩
    by_cases h1 : k' = k <;> by_cases h2 : e' ∈ ds <;> by_cases h3 : e' = d <;> simp [h1, h2, h3]

theorem applyData_lan (add : Bool) (w : World) (dst : Nat) (d : Data) (hd : ∀ e, d.ext = some e → e ∈ w.doms) :
    (applyData add w dst d).doms = w.doms ∧ ∀ k e, (applyData add w dst d).lan k e = if Covers w.doms dst d k e then d.value add else w.lan k e := by
  obtain ⟨ext, m, di, src⟩ := d
  cases ext with
  | none =>
    refine ⟨(fold_lan _ _ ⟨0, none⟩ 0 _ _).2, fun k e => ?_⟩
    show (w.doms.foldl (fun w e => w.set ⟨dst, src⟩ e (Data.value ⟨none, m, di, src⟩ add)) w).lan k e = _
    rw [(fold_lan _ _ k e _ _).1]
    by_cases h1 : k = ⟨dst, src⟩ ∧ e ∈ w.doms
    · rw [if_pos h1, if_pos (show Covers _ _ _ _ _ from ⟨h1.1, h1.2, .inl rfl⟩)]
    · rw [if_neg h1, if_neg (fun h : Covers _ _ _ _ _ => h1 ⟨h.1, h.2.1⟩)]
  | some x =>
    have hm := hd x rfl
    have ea : applyData add w dst ⟨some x, m, di, src⟩ = w.set ⟨dst, src⟩ x (Data.value ⟨some x, m, di, src⟩ add) := by
      simp only [applyData, domainAdd, hm, if_true]
    rw [ea]
    refine ⟨rfl, fun k e => ?_⟩
    rw [set_lan]
    by_cases h1 : k = ⟨dst, src⟩ ∧ e = x
    · rw [if_pos h1, if_pos (show Covers _ _ _ _ _ from ⟨h1.1, by rw [h1.2]; exact hm, .inr (by rw [h1.2])⟩)]
    · rw [if_neg h1, if_neg]
      rintro ⟨h2, _, h3 | h3⟩
      · cases h3
      · injection h3 with h3
        exact h1 ⟨h2, h3.symm⟩

/-- the networks of a configuration -/
def nets (ls : List Line) : List (Nat × Data) := ls.filterMap fun l => (parse false {} l.words).1.map fun d => (l.dst, d)

/-- the value configured for a prefix and a domain: that of the last line that concerns them -/
def configured (doms : List Nat) (ns : List (Nat × Data)) (k : Key) (e : Nat) : Option Data :=
  ((ns.filter fun n => decide (Covers doms n.1 n.2 k e)).getLast?).map (·.2)

/-- no number is too large for `strtoul` -/
def InRange (l : Line) : Prop := Word.metric .range ∉ l.words ∧ Word.domain .range ∉ l.words ∧ Word.dist .range ∉ l.words

theorem parse_errno : ∀ (ws : List Word) (d : Data), Word.metric .range ∉ ws → Word.domain .range ∉ ws → Word.dist .range ∉ ws → (parse false d ws).2 = false := by
  intro ws
  induction ws with
  | nil => intro d _ _ _; rfl
  | cons w ws ih =>
    intro d h1 h2 h3
    simp only [List.mem_cons, not_or] at h1 h2 h3
    have ih' := fun d => ih d h1.2 h2.2 h3.2
    cases w with
    | metric n => cases n with
      | range => exact absurd rfl h1.1
      | val n => rw [parse]; split; rfl; exact ih' _
    | domainAll => rw [parse]; exact ih' _
    | domain n => cases n with
      | range => exact absurd rfl h2.1
      | val n => rw [parse]; split; rfl; exact ih' _
    | dist n => cases n with
      | range => exact absurd rfl h3.1
      | val n => rw [parse]; split; rfl; exact ih' _
    | src ok a => rw [parse]; split; exact ih' _; rfl
    | unknown => rfl

theorem array_run (add : Bool) : ∀ (ls : List Line) (w : World), (∀ l ∈ ls, InRange l) → (∀ n ∈ nets ls, ∀ e, n.2.ext = some e → e ∈ w.doms) →
    (array add false w ls).2 = false ∧ (array add false w ls).1.doms = w.doms ∧
    ∀ k e, (array add false w ls).1.lan k e = match configured w.doms (nets ls) k e with | some d => d.value add | none => w.lan k e := by
  intro ls
  induction ls with
  | nil => intro w _ _; exact ⟨rfl, rfl, fun k e => rfl⟩
  | cons l ls ih =>
    intro w hr hd
    have hl := hr l (List.mem_cons_self ..)
    have he := parse_errno l.words {} hl.1 hl.2.1 hl.2.2
    have hr' := fun x hx => hr x (List.mem_cons_of_mem _ hx)
    unfold array
    rw [he]
    cases hp : (parse false {} l.words).1 with
    | none =>
      have hn : nets (l :: ls) = nets ls := by simp [nets, hp]
      rw [hn] at hd ⊢
      exact ih w hr' hd
    | some d =>
      have hn : nets (l :: ls) = (l.dst, d) :: nets ls := by simp [nets, hp]
      rw [hn] at hd ⊢
      obtain ⟨h1, h2⟩ := applyData_lan add w l.dst d (hd _ (List.mem_cons_self ..))
      obtain ⟨a, b, c⟩ := ih (applyData add w l.dst d) hr' (by rw [h1]; exact fun n hn => hd n (List.mem_cons_of_mem _ hn))
      refine ⟨a, by rw [b, h1], fun k e => ?_⟩
      rw [c, h1, h2]
      unfold configured
      rw [List.filter_cons]
      by_cases hc : Covers w.doms l.dst d k e
      · rw [if_pos (decide_eq_true hc), List.getLast?_cons]
        cases (List.filter (fun n => decide (Covers w.doms n.1 n.2 k e)) (nets ls)).getLast? <;> simp [hc]
      · rw [if_neg hc, if_neg (by simpa using hc)]

/-- after a change of the configuration every prefix has in every domain what the last line for it says; what only the old configuration had is
gone, what neither had is left alone. This needs that all domains the lines name exist already. -/
theorem C210_change_partial (w : World) (pre post : List Line) (hr : ∀ l ∈ pre ++ post, InRange l) (hd : ∀ n ∈ nets (pre ++ post), ∀ e, n.2.ext = some e → e ∈ w.doms) (k : Key) (e : Nat) :
    (changed false w pre post).doms = w.doms ∧
    (∀ d, configured w.doms (nets post) k e = some d → (changed false w pre post).lan k e = some (d.metric, d.dist % 256)) ∧
    (configured w.doms (nets post) k e = none → configured w.doms (nets pre) k e ≠ none → (changed false w pre post).lan k e = none) ∧
    (configured w.doms (nets post) k e = none → configured w.doms (nets pre) k e = none → (changed false w pre post).lan k e = w.lan k e) := by
  have hn : nets (pre ++ post) = nets pre ++ nets post := by simp [nets]
  rw [hn] at hd
  obtain ⟨a1, b1, c1⟩ := array_run false pre w (fun l h => hr l (List.mem_append_left _ h)) (fun n h => hd n (List.mem_append_left _ h))
  obtain ⟨a2, b2, c2⟩ := array_run true post (array false false w pre).1 (fun l h => hr l (List.mem_append_right _ h))
    (by rw [b1]; exact fun n h => hd n (List.mem_append_right _ h))
  unfold changed
  simp only [a1]
  refine ⟨by rw [b2, b1], ?_, ?_, ?_⟩
  · intro d hd
    rw [c2, b1, hd]
    rfl
  · intro h1 h2
    rw [c2, b1, h1]
    simp only
    rw [c1]
    cases hq : configured w.doms (nets pre) k e with
    | none => exact absurd hq h2
    | some d => rfl
  · intro h1 h2
    rw [c2, b1, h1]
    simp only
    rw [c1, h2]

/-- a line for a domain that does not exist yet creates it, as long as there are fewer than four; else the line is without effect -/
theorem C210_domains (add : Bool) (w : World) (dst : Nat) (d : Data) (e : Nat) (he : d.ext = some e) (hn : e ∉ w.doms) :
    (w.doms.length < 4 → (applyData add w dst d).doms = w.doms ++ [e] ∧ (applyData add w dst d).lan ⟨dst, d.src⟩ e = d.value add ∧
      ∀ k x, ¬ (k = ⟨dst, d.src⟩ ∧ x = e) → (applyData add w dst d).lan k x = w.lan k x) ∧
    (w.doms.length = 4 → applyData add w dst d = w) := by
  unfold applyData domainAdd
  simp only [he, hn, if_false]
  constructor
  · intro hl
    rw [if_neg (show ¬ w.doms.length = 4 by omega)]
    refine ⟨rfl, ?_, fun k x hx => ?_⟩
    · simp only [World.set, and_self, if_true]
    · simp only [World.set]
      rw [if_neg hx]
  · intro hl
    rw [if_pos hl]

example : (applyData true ⟨[0, 1, 2, 3], fun _ _ => none⟩ 10 ⟨some 7, 1, 2, none⟩).doms = [0, 1, 2, 3] := by decide

/-- an illegal line does not stop the others -/
theorem C210_skipped (add e : Bool) (w : World) (l : Line) (ls : List Line) (h : ∃ x ∈ l.words, Wrong x) : (array add e w (l :: ls)).1 = (array add (parse e {} l.words).2 w ls).1 := by
  obtain ⟨x, hx, hwr⟩ := h
  rw [array, (C209_refused l.words x hx hwr e).1]

/-- a network for all domains and one for domain five -/
def demoAll : Line := ⟨10, []⟩
def demoFive : Line := ⟨11, [.domain (.val 5)]⟩
def demoW : World := ⟨[0], fun _ _ => none⟩

example : (changed false ⟨[0, 5], fun _ _ => none⟩ [demoFive] [demoAll]).lan ⟨10, none⟩ 5 = some (1, 2) ∧
    (changed false ⟨[0, 5], fun _ _ => some (9, 9)⟩ [demoFive] [demoAll]).lan ⟨11, none⟩ 5 = none ∧
    (changed false ⟨[0, 5], fun _ _ => some (9, 9)⟩ [demoFive] [demoAll]).lan ⟨11, none⟩ 0 = some (9, 9) := by decide +kernel

/-- the order of the lines counts: a network for all domains is not announced in a domain that a later line creates; with the lines exchanged, or
after the same configuration is applied once more, it is -/
theorem C210_order_counterexample : (changed false demoW [] [demoAll, demoFive]).doms = [0, 5] ∧
    (changed false demoW [] [demoAll, demoFive]).lan ⟨10, none⟩ 5 = none ∧
    (changed false demoW [] [demoFive, demoAll]).lan ⟨10, none⟩ 5 = some (1, 2) ∧
    (changed false (changed false demoW [] [demoAll, demoFive]) [demoAll, demoFive] [demoAll, demoFive]).lan ⟨10, none⟩ 5 = some (1, 2) := by decide +kernel

/-! ## C211: the named sections of the newer plugin -/

/-- does the section concern this prefix and domain -/
def SecCovers (doms : List Nat) (s : Option Sec) (k : Key) (e : Nat) : Prop := ∃ x, s = some x ∧ Covers doms x.dst x.data k e

theorem secChanged_lan (w : World) (c : Option Sec × Option Sec) (hd : ∀ s, c.1 = some s ∨ c.2 = some s → ∀ e, s.data.ext = some e → e ∈ w.doms) (k : Key) (e : Nat) :
    (secChanged w c).doms = w.doms ∧
    (∀ s, c.2 = some s → Covers w.doms s.dst s.data k e → (secChanged w c).lan k e = some (s.data.metric, s.data.dist % 256)) ∧
    (¬ SecCovers w.doms c.2 k e → SecCovers w.doms c.1 k e → (secChanged w c).lan k e = none) ∧
    (¬ SecCovers w.doms c.2 k e → ¬ SecCovers w.doms c.1 k e → (secChanged w c).lan k e = w.lan k e) := by
  obtain ⟨c1, c2⟩ := c
  have h1 : ∃ w1, secApply false w c1 = w1 ∧ w1.doms = w.doms ∧
      (SecCovers w.doms c1 k e → w1.lan k e = none) ∧ (¬ SecCovers w.doms c1 k e → w1.lan k e = w.lan k e) := by
    cases c1 with
    | none => exact ⟨w, rfl, rfl, (by rintro ⟨x, h, _⟩; cases h), fun _ => rfl⟩
    | some s =>
      obtain ⟨a, b⟩ := applyData_lan false w s.dst s.data (hd s (.inl rfl))
      refine ⟨applyData false w s.dst s.data, rfl, a, ?_, ?_⟩
      · rintro ⟨x, h, hc⟩
        cases h
        rw [b, if_pos hc]
        rfl
      · intro hn
        rw [b, if_neg (fun hc => hn ⟨s, rfl, hc⟩)]
  obtain ⟨w1, e1, d1, r1, r2⟩ := h1
  unfold secChanged
  simp only [e1]
  cases c2 with
  | none => exact ⟨d1, (by intro s h; cases h), fun _ h => r1 h, fun _ h => r2 h⟩
  | some s =>
    obtain ⟨a, b⟩ := applyData_lan true w1 s.dst s.data (by rw [d1]; exact hd s (.inr rfl))
    refine ⟨by rw [← d1]; exact a, ?_, ?_, ?_⟩
    · intro s' hs hc
      cases hs
      show (applyData true w1 s.dst s.data).lan k e = _
      rw [b, d1, if_pos hc]
      rfl
    · intro hn h
      show (applyData true w1 s.dst s.data).lan k e = _
      rw [b, d1, if_neg (fun hc => hn ⟨s, rfl, hc⟩), r1 h]
    · intro hn h
      show (applyData true w1 s.dst s.data).lan k e = _
      rw [b, d1, if_neg (fun hc => hn ⟨s, rfl, hc⟩), r2 h]

/-- a prefix and domain that only one section concerns, before and after, has afterwards what this section says; one that no section concerns is left
alone. All domains named exist. -/
theorem C211_sections_partial : ∀ (cs : List (Option Sec × Option Sec)) (w : World),
    (∀ c ∈ cs, ∀ s, c.1 = some s ∨ c.2 = some s → ∀ e, s.data.ext = some e → e ∈ w.doms) → ∀ (k : Key) (e : Nat),
    (secsChanged w cs).doms = w.doms ∧
    ((∀ c ∈ cs, ¬ SecCovers w.doms c.1 k e ∧ ¬ SecCovers w.doms c.2 k e) → (secsChanged w cs).lan k e = w.lan k e) ∧
    (∀ (a b : List (Option Sec × Option Sec)) (c : Option Sec × Option Sec), cs = a ++ c :: b → (∀ x ∈ b, ¬ SecCovers w.doms x.1 k e ∧ ¬ SecCovers w.doms x.2 k e) →
      (∀ s, c.2 = some s → Covers w.doms s.dst s.data k e → (secsChanged w cs).lan k e = some (s.data.metric, s.data.dist % 256)) ∧
      (¬ SecCovers w.doms c.2 k e → SecCovers w.doms c.1 k e → (secsChanged w cs).lan k e = none)) := by
  have hdoms : ∀ (cs : List (Option Sec × Option Sec)) (w : World),
      (∀ c ∈ cs, ∀ s, c.1 = some s ∨ c.2 = some s → ∀ e, s.data.ext = some e → e ∈ w.doms) → ∀ (k : Key) (e : Nat),
      (secsChanged w cs).doms = w.doms ∧
      ((∀ c ∈ cs, ¬ SecCovers w.doms c.1 k e ∧ ¬ SecCovers w.doms c.2 k e) → (secsChanged w cs).lan k e = w.lan k e) := by
    intro cs
    induction cs with
    | nil => intro w _ k e; exact ⟨rfl, fun _ => rfl⟩
    | cons c cs ih =>
      intro w hd k e
      obtain ⟨s1, _, _, s4⟩ := secChanged_lan w c (hd c (List.mem_cons_self ..)) k e
      obtain ⟨i1, i2⟩ := ih (secChanged w c) (by rw [s1]; exact fun x hx => hd x (List.mem_cons_of_mem _ hx)) k e
      unfold secsChanged at i1 i2 ⊢
      simp only [List.foldl_cons]
      refine ⟨by rw [i1, s1], fun hn => ?_⟩
      rw [i2 (by rw [s1]; exact fun x hx => hn x (List.mem_cons_of_mem _ hx))]
      have := hn c (List.mem_cons_self ..)
      exact s4 this.2 this.1
  intro cs w hd k e
  refine ⟨(hdoms cs w hd k e).1, (hdoms cs w hd k e).2, ?_⟩
  rintro a b c rfl hb
  have hsplit : secsChanged w (a ++ c :: b) = secsChanged (secChanged (secsChanged w a) c) b := by simp [secsChanged]
  have ha := (hdoms a w (fun x hx => hd x (List.mem_append_left _ hx)) k e).1
  have hc := secChanged_lan (secsChanged w a) c (by rw [ha]; exact hd c (by simp)) k e
  rw [ha] at hc
  obtain ⟨s1, s2, s3, _⟩ := hc
  have hbb := (hdoms b (secChanged (secsChanged w a) c) (by rw [s1]; exact fun x hx => hd x (by simp [hx])) k e).2 (by rw [s1]; exact hb)
  rw [hsplit, hbb]
  exact ⟨s2, s3⟩

example : (secsChanged demoW [(some ⟨10, {}⟩, some ⟨11, {}⟩), (none, some ⟨12, ⟨some 0, 7, 1, none⟩⟩)]).lan ⟨11, none⟩ 0 = some (1, 2) := by decide +kernel

/-- two sections that exchange their prefixes: one of the two is not announced any more, although both are configured -/
theorem C211_exchange_counterexample (p q : Nat) (h : p ≠ q) (w : World) (e : Nat) (he : e ∈ w.doms) :
    (secsChanged w [(some ⟨p, {}⟩, some ⟨q, {}⟩), (some ⟨q, {}⟩, some ⟨p, {}⟩)]).lan ⟨q, none⟩ e = none ∧
    (secsChanged w [(some ⟨p, {}⟩, some ⟨q, {}⟩), (some ⟨q, {}⟩, some ⟨p, {}⟩)]).lan ⟨p, none⟩ e = some (1, 2) := by
  have hd : ∀ c ∈ [((some ⟨p, {}⟩ : Option Sec), (some ⟨q, {}⟩ : Option Sec)), (some ⟨q, {}⟩, some ⟨p, {}⟩)],
      ∀ s, c.1 = some s ∨ c.2 = some s → ∀ e, s.data.ext = some e → e ∈ w.doms := by
    intro c hc s hs e he
    exfalso
    simp only [List.mem_cons, List.not_mem_nil, or_false] at hc
    rcases hc with rfl | rfl <;> rcases hs with hs | hs <;> cases hs <;> cases he
  have hcov : ∀ x, Covers w.doms x {} ⟨x, none⟩ e := fun x => ⟨rfl, he, .inl rfl⟩
  obtain ⟨_, _, h3⟩ := C211_sections_partial _ w hd ⟨q, none⟩ e
  obtain ⟨_, _, h4⟩ := C211_sections_partial _ w hd ⟨p, none⟩ e
  refine ⟨(h3 [(some ⟨p, {}⟩, some ⟨q, {}⟩)] [] (some ⟨q, {}⟩, some ⟨p, {}⟩) rfl (by simp)).2 ?_ ⟨_, rfl, hcov q⟩,
    (h4 [(some ⟨p, {}⟩, some ⟨q, {}⟩)] [] (some ⟨q, {}⟩, some ⟨p, {}⟩) rfl (by simp)).1 _ rfl (hcov p)⟩
  rintro ⟨x, hx, hc⟩
  cases hx
  exact h (by have := hc.1; simpa using this.symm)

end Verif.OldLan
