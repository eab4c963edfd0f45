import Verif.Telnet.Props
/-
Properties of command names and timeouts of telnet sessions (C161, C162).
-/
namespace Verif.Telnet
open Spec

/-! ### C161: names -/

/-- The bytes of a C string. -/
def Text (s : Bytes) : Prop := ∀ b ∈ s, 0 < b ∧ b < 256

theorem chr_inj {a b : Nat} (ha : a < 256) (hb : b < 256) (h : chr a - chr b = 0) : a = b := by
  unfold chr at h
  split at h <;> split at h <;> omega

theorem chr_zero {a : Nat} (h0 : 0 < a) (ha : a < 256) : chr a ≠ 0 := by
  unfold chr
  split <;> omega

/-- C161: two texts are taken for the same command exactly if their first words are the same. -/
theorem C161_same_word (s t : Bytes) (hs : Text s) (ht : Text t) :
    (cmpWord s t).1 = 0 ↔ word s = word t := by
  induction s generalizing t with
  | nil =>
    cases t with
    | nil => simp [cmpWord, word]
    | cons b t =>
      have hb := ht b List.mem_cons_self
      have := chr_zero hb.1 hb.2
      unfold cmpWord word
      by_cases h : b = 32
      · simp [h]
      · simp only [if_neg h, List.takeWhile_nil, List.takeWhile_cons]
        simp [h]
        omega
  | cons a s ih =>
    have ha := hs a List.mem_cons_self
    cases t with
    | nil =>
      have := chr_zero ha.1 ha.2
      unfold cmpWord word
      by_cases h : a = 32
      · simp [h]
      · simp only [if_neg h, List.takeWhile_nil, List.takeWhile_cons]
        simp [h]
        omega
    | cons b t =>
      have hb := ht b List.mem_cons_self
      unfold cmpWord
      by_cases h : chr a - chr b = 0
      · have hab := chr_inj ha.2 hb.2 h
        subst hab
        rw [if_neg (by omega)]
        by_cases h32 : a = 32
        · simp [h32, word]
        · rw [if_neg h32, ih t (fun x hx => hs x (List.mem_cons_of_mem _ hx)) (fun x hx => ht x (List.mem_cons_of_mem _ hx))]
          simp [word, h32]
      · rw [if_pos h]
        have hab : a ≠ b := by
          intro hab; subst hab; omega
        constructor
        · intro h'; exact absurd h' h
        · intro h'
          exfalso
          simp only [word, List.takeWhile_cons] at h'
          by_cases h1 : a = 32
          · have h2 : b ≠ 32 := fun h2 => hab (h1.trans h2.symm)
            simp [h1, h2] at h'
          · by_cases h2 : b = 32
            · simp [h1, h2] at h'
            · simp [h1, h2] at h'
              exact hab h'.1

/-- A C string without control characters. -/
def NoControl (s : Bytes) : Prop := ∀ b ∈ s, 32 ≤ b ∧ b < 256

/-- The byte that decides: 0 at the end of the word. -/
def hd (s : Bytes) : Int :=
  match s with
  | [] => 0
  | b :: _ => if b = 32 then 0 else chr b

theorem cmp_le (s t : Bytes) (hs : NoControl s) (ht : NoControl t) :
    ((cmpWord s t).1 ≤ 0 ↔ hd s < hd t ∨ (hd s = hd t ∧ (hd s = 0 ∨ (cmpWord s.tail t.tail).1 ≤ 0))) ∧
    (0 ≤ (cmpWord s t).1 ↔ hd t < hd s ∨ (hd s = hd t ∧ (hd s = 0 ∨ 0 ≤ (cmpWord s.tail t.tail).1))) := by
  cases s with
  | nil =>
    cases t with
    | nil => simp [cmpWord, hd]
    | cons b t =>
      have hb := ht b List.mem_cons_self
      have h0 := chr_zero (by omega) hb.2
      unfold cmpWord hd
      by_cases h : b = 32
      · simp [h]
      · simp only [if_neg h]
        constructor <;> (constructor <;> intro h' <;> omega)
  | cons a s =>
    have ha := hs a List.mem_cons_self
    cases t with
    | nil =>
      have h0 := chr_zero (by omega) ha.2
      unfold cmpWord hd
      by_cases h : a = 32
      · simp [h]
      · simp only [if_neg h]
        constructor <;> (constructor <;> intro h' <;> omega)
    | cons b t =>
      have hb := ht b List.mem_cons_self
      have hc32 : chr 32 = 32 := rfl
      have ha1 : a ≠ 32 → chr a < 0 ∨ 32 < chr a := by
        intro h; unfold chr; split <;> omega
      have hb1 : b ≠ 32 → chr b < 0 ∨ 32 < chr b := by
        intro h; unfold chr; split <;> omega
      have hx : cmpWord (a :: s) (b :: t) = if chr a - chr b ≠ 0 then (chr a - chr b, false)
          else if a = 32 then (0, false) else cmpWord s t := rfl
      rw [hx]
      simp only [List.tail_cons, hd]
      by_cases h : chr a - chr b = 0
      · have hab := chr_inj ha.2 hb.2 h
        subst hab
        rw [if_neg (by omega)]
        by_cases h32 : a = 32
        · simp [h32]
        · have h0 := chr_zero (by omega) ha.2
          simp [h32, h0]
      · rw [if_pos h]
        have hab : a ≠ b := by
          intro hab; subst hab; omega
        by_cases h1 : a = 32
        · have h2 : b ≠ 32 := fun h2 => hab (h1.trans h2.symm)
          have := hb1 h2
          subst h1
          simp only [if_neg h2, if_true, hc32] at h ⊢
          constructor <;> (constructor <;> intro h' <;> omega)
        · have := ha1 h1
          by_cases h2 : b = 32
          · subst h2
            simp only [if_neg h1, if_true, hc32] at h ⊢
            constructor <;> (constructor <;> intro h' <;> omega)
          · simp only [if_neg h1, if_neg h2]
            constructor <;> (constructor <;> intro h' <;> omega)

theorem noControl_tail {s} (h : NoControl s) : NoControl s.tail := by
  cases s with
  | nil => exact h
  | cons a s => exact fun b hb => h b (List.mem_cons_of_mem _ hb)

theorem cmp_trans (n : Nat) : ∀ s t u : Bytes, s.length ≤ n → NoControl s → NoControl t → NoControl u →
    (cmpWord s t).1 ≤ 0 → (cmpWord t u).1 ≤ 0 → (cmpWord s u).1 ≤ 0 := by
  induction n with
  | zero =>
    intro s t u hn hs ht hu h1 h2
    have : s = [] := by
      cases s with
      | nil => rfl
      | cons x y => simp at hn
    subst this
    rw [(cmp_le _ _ hs ht).1] at h1
    rw [(cmp_le _ _ ht hu).1] at h2
    rw [(cmp_le _ _ hs hu).1]
    have : hd [] = 0 := rfl
    omega
  | succ n ih =>
    intro s t u hn hs ht hu h1 h2
    rw [(cmp_le _ _ hs ht).1] at h1
    rw [(cmp_le _ _ ht hu).1] at h2
    rw [(cmp_le _ _ hs hu).1]
    have h3 := ih s.tail t.tail u.tail (by simp; omega) (noControl_tail hs) (noControl_tail ht) (noControl_tail hu)
    omega

theorem cmp_total (n : Nat) : ∀ s t : Bytes, s.length ≤ n → NoControl s → NoControl t →
    ((cmpWord s t).1 ≤ 0 ↔ 0 ≤ (cmpWord t s).1) := by
  induction n with
  | zero =>
    intro s t hn hs ht
    have : s = [] := by
      cases s with
      | nil => rfl
      | cons x y => simp at hn
    subst this
    rw [(cmp_le _ _ hs ht).1, (cmp_le _ _ ht hs).2]
    have : hd [] = 0 := rfl
    omega
  | succ n ih =>
    intro s t hn hs ht
    have h3 := ih s.tail t.tail (by simp; omega) (noControl_tail hs) (noControl_tail ht)
    rw [(cmp_le _ _ hs ht).1, (cmp_le _ _ ht hs).2]
    omega

/-- C161, for texts without control characters: the comparison is a total order, as the tree of the
commands needs it. -/
theorem C161_order_partial (s t u : Bytes) (hs : NoControl s) (ht : NoControl t) (hu : NoControl u) :
    ((cmpWord s t).1 ≤ 0 ↔ 0 ≤ (cmpWord t s).1) ∧
    ((cmpWord s t).1 ≤ 0 → (cmpWord t u).1 ≤ 0 → (cmpWord s u).1 ≤ 0) :=
  ⟨cmp_total _ s t (Nat.le_refl _) hs ht, cmp_trans _ s t u (Nat.le_refl _) hs ht hu⟩

example : NoControl [101, 99, 104, 111] ∧ NoControl [101, 99, 104, 111, 32, 97] ∧
    (cmpWord [101, 99, 104, 111] [101, 99, 104, 111, 32, 97]).1 = 0 ∧ (cmpWord [101, 99] [101, 99, 104, 111]).1 < 0 := by
  refine ⟨?_, ?_, by decide +kernel, by decide +kernel⟩ <;> (intro b hb; simp at hb; omega)

/-- C161 fails with control characters: `x` is less than `x<tab>`, which is less than `x y`, which
is equal to `x`. -/
theorem C161_order_counterexample :
    (cmpWord [120] [120, 9]).1 < 0 ∧ (cmpWord [120, 9] [120, 32, 121]).1 < 0 ∧ (cmpWord [120, 32, 121] [120]).1 = 0 := by
  decide +kernel

/-- C161: finding a command reads the byte behind the end of the text looked for, whenever the text
is a name without parameter. -/
theorem C161_overread_counterexample (s : Bytes) (h : 32 ∉ s) : (cmpWord s s).2 = true := by
  induction s with
  | nil => rfl
  | cons a s ih =>
    simp only [List.mem_cons, not_or] at h
    unfold cmpWord
    rw [if_neg (by omega), if_neg (fun h' => h.1 h'.symm)]
    exact ih h.2

/-! ### C162: timeouts -/

theorem digits_append (a b : Bytes) (ha : ∀ x ∈ a, 48 ≤ x ∧ x ≤ 57) : ∀ acc, digits acc (a ++ b) = digits (digits acc a) b := by
  induction a with
  | nil => intro acc; rfl
  | cons x a ih =>
    intro acc
    have hx := ha x List.mem_cons_self
    simp only [List.cons_append, digits, if_pos hx]
    exact ih (fun y hy => ha y (List.mem_cons_of_mem _ hy)) _

theorem decimal_digits (n : Nat) : (∀ x ∈ decimal n, 48 ≤ x ∧ x ≤ 57) ∧ digits 0 (decimal n) = n ∧ decimal n ≠ [] := by
  induction n using Nat.strongRecOn with
  | _ n ih =>
    unfold decimal
    split
    · rename_i h
      refine ⟨by simp; omega, ?_, by simp⟩
      simp only [digits]
      rw [if_pos (by omega)]
      omega
    · rename_i h
      have := ih (n / 10) (by omega)
      refine ⟨?_, ?_, by simp⟩
      · intro x hx
        simp only [List.mem_append, List.mem_singleton] at hx
        rcases hx with hx | hx
        · exact this.1 x hx
        · omega
      · rw [digits_append _ _ this.1, this.2.1]
        simp only [digits]
        rw [if_pos (by omega)]
        omega

theorem number_decimal (n : Nat) : number (decimal n) = (false, n) := by
  have h := decimal_digits n
  have hd : (decimal n).dropWhile isSpace = decimal n := by
    cases hx : decimal n with
    | nil => exact absurd hx h.2.2
    | cons a s =>
      have ha := h.1 a (by rw [hx]; exact List.mem_cons_self)
      rw [List.dropWhile_cons_of_neg]
      simp [isSpace]
      omega
  unfold number
  rw [hd]
  split
  · rename_i r hx
    have := h.1 45 (by rw [hx]; exact List.mem_cons_self)
    omega
  · rename_i r hx
    have := h.1 43 (by rw [hx]; exact List.mem_cons_self)
    omega
  · rw [h.2.1]

/-- C162, for values of less than 50 days: `timeout n` sets the idle time to n seconds. -/
theorem C162_seconds_partial (n : Nat) (h : n * 1000 < 2 ^ 32) : timeoutOf (decimal n) = n * 1000 := by
  unfold timeoutOf
  rw [number_decimal]
  simp only [Bool.false_eq_true, if_false]
  rw [if_neg (by omega), Nat.mod_eq_of_lt (a := n) (by omega), Nat.mod_eq_of_lt h]

example : decimal 90 = [57, 48] ∧ timeoutOf [57, 48] = 90000 := by
  constructor
  · simp [decimal]
  · decide +kernel

/-- C162 fails beyond: 4294968 seconds become 704 milliseconds. -/
theorem C162_seconds_counterexample : timeoutOf (decimal 4294968) = 704 := by
  unfold timeoutOf
  rw [number_decimal]
  rfl

/-- C162: the timeout a session has been given by commands holds from the next input on. -/
theorem C162_applied (e : Env) (s : Sess) (bs : Bytes) (s' : Sess) (ha : s.active = true)
    (h : feed e s bs = .ok s') (ha' : s'.active = true) : s'.limit = s'.d.timeout := by
  simp only [feed] at h
  split at h
  · cases h
  · split at h
    · cases h
    · rename_i r hr
      cases h
      unfold conclude at ha' ⊢
      split
      · rename_i hq; simp [hq] at ha'
      · simp only
        split <;> rfl

theorem perform_timeout {e : Env} {d : Data} {a p} (h : a ≠ .timeout) : (perform e d a p).1.timeout = d.timeout := by
  cases a <;> simp only [perform]
  · unfold help
    split
    · split <;> rfl
    · rfl
  · exact absurd rfl h
  · unfold external
    split
    · rfl
    · simp only
      split <;> rfl

/-- No command changes the timeout. -/
def Fixed (e : Env) : Prop := ∀ c ∈ e.cmds, c.act ≠ .timeout

theorem handle_timeout {e : Env} {d : Data} {n p} (h : Fixed e) : (handle e d n p).1.timeout = d.timeout := by
  have hsimple : ∀ d n p, (handleSimple e d n p).1.timeout = d.timeout := by
    intro d n p
    unfold handleSimple
    split
    · rfl
    · rename_i c hc
      rw [perform_timeout (h c (permitted_some hc).2.1)]
  unfold handle
  split
  · rfl
  · rename_i c hc
    split
    · unfold doRepeat
      split
      · rfl
      · split
        · rfl
        · split
          · rfl
          · simp only
            split
            · rw [hsimple]
            · rw [(callStop_out _).2.2.2, hsimple]
    · rw [perform_timeout (h c (permitted_some hc).2.1)]

theorem fixed_lift (e : Env) (h : Fixed e) : Lift e (fun d => d.timeout = 120000) where
  stop d hd := by rw [(callStop_out d).2.2.2]; exact hd
  req _ _ _ hd _ := hd
  handle d c p hd := by rw [handle_timeout h]; exact hd
  report ch len c d r hd := by
    unfold report
    cases r <;> simp only <;> split <;> exact hd
  prompt _ hd := hd
  echo _ _ hd := hd

/-- C162 fails for the configuration: whatever timeout is configured, the first input of a client
replaces it by two minutes. -/
theorem C162_configured_counterexample (e : Env) (h : Fixed e) (r cfg : Nat) (ops : List Op) (bs : Bytes) (s : Sess)
    (hr : run e r cfg (.feed bs :: ops) = .ok s) (ha : s.active = true) : s.limit = 120000 := by
  have h1 := (fixed_lift e h).run r cfg rfl _ s hr
  simp only [run] at hr
  split at hr
  · rename_i s0 h0
    by_cases h0a : s0.active = true
    · rw [C162_applied e s0 bs s h0a hr ha]
      exact h1
    · simp only [step, feed] at hr
      split at hr
      · cases hr
      · cases hr
        exact absurd ha h0a
  · rename_i hx
    exact absurd hr (hx s)

/-- An hour is configured. -/
example : ∃ s, run { demo with cmds := demo.cmds.take 3 } 1 3600000 [.feed [104, 101, 108, 112, 10]] = .ok s ∧
    s.active = true ∧ s.limit = 120000 := ⟨_, rfl, rfl, rfl⟩

/-- C162: `timeout` without a value, and the client closes the connection: the session stays and
nothing will end it. -/
theorem C162_forever_counterexample :
    ∃ s, run demo 1 120000 [.eof 0, .feed [116, 105, 109, 101, 111, 117, 116, 10]] = .ok s ∧
      s.active = true ∧ s.closed = false ∧ s.limit = 0 := ⟨_, rfl, rfl, rfl, rfl⟩

end Verif.Telnet
