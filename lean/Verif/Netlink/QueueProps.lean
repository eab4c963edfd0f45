import Verif.Netlink.Queue
/-
Properties C183 to C185: the queue of netlink messages.
-/
namespace Verif.Netlink

variable {σ : Type} (cb : σ → Call → σ × List Nat)

/-! ### specification -/

/-- the messages on their way to the kernel, in the order they were sent -/
def wire (st : State σ) : List Msg := (st.left.filter (·.1)).flatMap (·.2)
/-- the messages that wait -/
def queue (st : State σ) : List Msg := st.buffered.flatten ++ st.out
/-- nothing happened yet -/
def start (c : σ) : State σ := { client := c }
/-- `sendmsg` takes the buffer -/
def Ev.fine : Ev σ → Prop
  | .writable r => r = .ok
  | _ => True
/-- no failure of `sendmsg`, and the kernel answers in time -/
def Ev.good : Ev σ → Prop
  | .writable r => r = .ok
  | .timeout => False
  | _ => True

/-! ### lemmas -/

/-- what holds all the time -/
structure Inv (st : State σ) : Prop where
  all : st.accepted = st.left.flatMap (·.2) ++ queue st
  size : (∀ m ∈ st.accepted, m.len ≤ 4072) → (∀ b ∈ st.buffered, b ≠ [] ∧ (b.map (·.len)).sum ≤ 4072) ∧ (st.out.map (·.len)).sum ≤ 4072 ∧
    ∀ b ∈ st.left, b.2 ≠ [] ∧ (b.2.map (·.len)).sum ≤ 4072

theorem start_inv (c : σ) : Inv (start c) := ⟨rfl, fun _ => ⟨by simp [start], by simp [start], by simp [start]⟩⟩

theorem inv_congr {st st' : State σ} (h : Inv st) (h1 : st'.accepted = st.accepted) (h2 : st'.left = st.left) (h3 : st'.buffered = st.buffered) (h4 : st'.out = st.out) : Inv st' := by
  constructor
  · unfold queue; rw [h1, h2, h3, h4]; exact h.all
  · rw [h1, h2, h3, h4]; exact h.size

theorem send_inv {st : State σ} (h : Inv st) (len : Nat) : Inv (send st len) := by
  constructor
  · unfold send queue
    have := h.all
    unfold queue at this
    by_cases hc : len + (HDR + (st.out.map (·.len)).sum) > PAGE
    · simp only [if_pos hc, enqueue]
      rw [this]; simp
    · simp only [if_neg hc]
      rw [this]; simp
  · intro hs
    unfold send at hs ⊢
    by_cases hc : len + (HDR + (st.out.map (·.len)).sum) > PAGE
    · simp only [if_pos hc, enqueue] at hs ⊢
      have hl : len ≤ 4072 := hs ⟨_, len⟩ (List.mem_append_right _ List.mem_cons_self)
      obtain ⟨h1, h2, h3⟩ := h.size (fun m hm => hs m (List.mem_append_left _ hm))
      refine ⟨?_, by simpa using hl, h3⟩
      intro b hb
      rcases List.mem_append.mp hb with hb | hb
      · exact h1 b hb
      · simp at hb
        subst hb
        refine ⟨?_, h2⟩
        intro he
        rw [he] at hc
        unfold HDR PAGE at hc
        simp at hc
        omega
    · simp only [if_neg hc] at hs ⊢
      obtain ⟨h1, h2, h3⟩ := h.size (fun m hm => hs m (List.mem_append_left _ hm))
      refine ⟨h1, ?_, h3⟩
      simp only [List.map_append, List.map_cons, List.map_nil, List.sum_append, List.sum_cons, List.sum_nil]
      unfold HDR PAGE at hc
      omega

theorem sendAll_inv (lens : List Nat) : ∀ {st : State σ}, Inv st → Inv (sendAll st lens) := by
  induction lens with
  | nil => intro st h; exact h
  | cons l ls ih => intro st h; exact ih (send_inv h l)

theorem call_inv {st : State σ} (h : Inv st) (c : Call) : Inv (call cb st c) := sendAll_inv _ (inv_congr h rfl rfl rfl rfl)

theorem job_inv {st : State σ} (h : Inv st) : Inv (jobFinished st) := by
  unfold jobFinished
  split <;> exact inv_congr h rfl rfl rfl rfl

theorem sendAll_prefix (lens : List Nat) : ∀ (st : State σ) b rest, st.buffered = b :: rest → ∃ more, (sendAll st lens).buffered = b :: (rest ++ more) := by
  induction lens with
  | nil => intro st b rest h; exact ⟨[], by simpa [sendAll] using h⟩
  | cons l ls ih =>
    intro st b rest h
    have : ∃ more, (send st l).buffered = b :: (rest ++ more) := by
      unfold send
      by_cases hc : l + (HDR + (st.out.map (·.len)).sum) > PAGE
      · simp only [if_pos hc, enqueue, h]; exact ⟨[st.out], rfl⟩
      · simp only [if_neg hc, h]; exact ⟨[], by simp⟩
    obtain ⟨more, hm⟩ := this
    obtain ⟨more', hm'⟩ := ih (send st l) b _ hm
    exact ⟨more ++ more', by show (sendAll (send st l) ls).buffered = _; rw [hm']; simp⟩

/-- sending a message leaves everything else alone -/
theorem sendAll_same (lens : List Nat) : ∀ (st : State σ), (sendAll st lens).transit = st.transit ∧ (sendAll st lens).left = st.left ∧ (sendAll st lens).calls = st.calls ∧
    (sendAll st lens).timer = st.timer ∧ (sendAll st lens).client = st.client := by
  induction lens with
  | nil => intro st; exact ⟨rfl, rfl, rfl, rfl, rfl⟩
  | cons l ls ih =>
    intro st
    have h := ih (send st l)
    have e : (send st l).transit = st.transit ∧ (send st l).left = st.left ∧ (send st l).calls = st.calls ∧ (send st l).timer = st.timer ∧ (send st l).client = st.client := by
      unfold send enqueue
      simp only
      split <;> exact ⟨rfl, rfl, rfl, rfl, rfl⟩
    show (sendAll (send st l) ls).transit = _ ∧ _
    exact ⟨h.1.trans e.1, h.2.1.trans e.2.1, h.2.2.1.trans e.2.2.1, h.2.2.2.1.trans e.2.2.2.1, h.2.2.2.2.trans e.2.2.2.2⟩

theorem call_same (st : State σ) (c : Call) : (call cb st c).transit = st.transit ∧ (call cb st c).left = st.left ∧ (call cb st c).calls = st.calls ++ [c] ∧
    (call cb st c).timer = st.timer ∧ (call cb st c).client = (cb st.client c).1 :=
  sendAll_same _ _

theorem flushFirst_inv {st : State σ} (h : Inv st) (res : Res) : Inv (flushFirst cb st res) := by
  unfold flushFirst
  cases hb : st.buffered with
  | nil => exact h
  | cons b rest =>
    simp only
    have key : ∀ (s : State σ), Inv s → (∃ more, s.buffered = b :: (rest ++ more)) →
        Inv { s with buffered := s.buffered.tail, left := s.left ++ [(decide (res = .ok), b)], write := !s.buffered.tail.isEmpty } := by
      rintro s hs ⟨more, hm⟩
      constructor
      · have := hs.all
        unfold queue at this ⊢
        simp only
        rw [this, hm]
        simp
      · intro hl
        obtain ⟨h1, h2, h3⟩ := hs.size hl
        refine ⟨fun x hx => h1 x (List.mem_of_mem_tail hx), h2, ?_⟩
        intro x hx
        rcases List.mem_append.mp hx with hx | hx
        · exact h3 x hx
        · simp at hx
          subst hx
          exact h1 b (by rw [hm]; exact List.mem_cons_self)
    cases res with
    | ok => exact inv_congr (key { st with transit := st.transit + b.length, timer := true } (inv_congr h rfl rfl rfl rfl) ⟨[], by simp [hb]⟩) rfl rfl (by simp [hb]) rfl
    | again => exact key st h ⟨[], by simp [hb]⟩
    | fail e => exact key _ (call_inv cb h _) (sendAll_prefix _ _ _ _ (by exact hb))

theorem enqueue_inv {st : State σ} (h : Inv st) (ho : st.out ≠ []) : Inv (enqueue st) := by
  constructor
  · have := h.all
    unfold queue enqueue at *
    simp only
    rw [this]; simp
  · intro hl
    obtain ⟨h1, h2, h3⟩ := h.size hl
    refine ⟨?_, by simp [enqueue], h3⟩
    intro b hb
    rcases List.mem_append.mp hb with hb | hb
    · exact h1 b hb
    · simp at hb; subst hb; exact ⟨ho, h2⟩

theorem flush_inv {st : State σ} (h : Inv st) (res : Res) : Inv (flush cb st res) := by
  unfold flush
  split
  · exact inv_congr h rfl rfl rfl rfl
  · split
    · split
      · exact inv_congr h rfl rfl rfl rfl
      · rename_i ho; exact flushFirst_inv cb (enqueue_inv h ho) res
    · exact flushFirst_inv cb h res

theorem one_inv {x : State σ × Nat × Bool} (h : Inv x.1) (m : In) : Inv (one cb x m).1 := by
  have hy : Inv (if x.2.1 ≠ m.seq ∧ x.2.2 = true then (call cb x.1 (.done x.2.1), x.2.1, false) else x).1 := by
    split
    · exact call_inv cb h _
    · exact h
  unfold one
  cases m with
  | done s => exact hy
  | err s r e => exact job_inv (call_inv cb hy _)
  | other s => exact hy

theorem fold_inv (ms : List In) : ∀ {x : State σ × Nat × Bool}, Inv x.1 → Inv (ms.foldl (one cb) x).1 := by
  induction ms with
  | nil => intro x h; exact h
  | cons m ms ih => intro x h; exact ih (one_inv cb h m)

theorem datagram_inv {st : State σ} (h : Inv st) (ms : List In) : Inv (datagram cb st ms) := by
  cases ms with
  | nil => exact h
  | cons m ms =>
    unfold datagram
    simp only
    have := fold_inv cb (m :: ms) (x := ({ st with inSeq := m.seq }, m.seq, false)) (inv_congr h rfl rfl rfl rfl)
    split
    · refine job_inv (call_inv cb ?_ _)
      exact inv_congr this rfl rfl rfl rfl
    · exact this

theorem step_inv {st : State σ} (h : Inv st) (e : Ev σ) : Inv (step cb st e) := by
  cases e with
  | act f => exact sendAll_inv _ (inv_congr h rfl rfl rfl rfl)
  | writable res =>
    unfold step
    simp only
    split
    · exact flush_inv cb h res
    · exact h
  | datagram ms => exact datagram_inv cb h ms
  | timeout =>
    unfold step
    simp only
    split
    · exact inv_congr (call_inv cb (st := { st with timer := false }) (inv_congr h rfl rfl rfl rfl) .timeout) rfl rfl rfl rfl
    · exact h

theorem run_inv (es : List (Ev σ)) : ∀ {st : State σ}, Inv st → Inv (run cb st es) := by
  induction es with
  | nil => intro st h; exact h
  | cons e es ih => intro st h; exact ih (step_inv cb h e)

/-! `left` only grows when the socket is writable -/

theorem job_left (st : State σ) : (jobFinished st).left = st.left ∧ (jobFinished st).calls = st.calls ∧ (jobFinished st).transit = st.transit - 1 := by
  unfold jobFinished
  split
  · rename_i h; exact ⟨rfl, rfl, h.symm⟩
  · exact ⟨rfl, rfl, rfl⟩

theorem one_left (x : State σ × Nat × Bool) (m : In) : (one cb x m).1.left = x.1.left := by
  unfold one
  have hy : (if x.2.1 ≠ m.seq ∧ x.2.2 = true then (call cb x.1 (.done x.2.1), x.2.1, false) else x).1.left = x.1.left := by
    split
    · exact (call_same cb _ _).2.1
    · rfl
  cases m with
  | done s => exact hy
  | err s r e => exact ((job_left _).1.trans (call_same cb _ _).2.1).trans hy
  | other s => exact hy

theorem fold_left (ms : List In) : ∀ (x : State σ × Nat × Bool), (ms.foldl (one cb) x).1.left = x.1.left := by
  induction ms with
  | nil => intro x; rfl
  | cons m ms ih => intro x; exact (ih _).trans (one_left cb x m)

theorem datagram_left (st : State σ) (ms : List In) : (datagram cb st ms).left = st.left := by
  cases ms with
  | nil => rfl
  | cons m ms =>
    unfold datagram
    simp only
    have h := fold_left cb (m :: ms) ({ st with inSeq := m.seq }, m.seq, false)
    split
    · exact ((job_left _).1.trans (call_same cb _ _).2.1).trans h
    · exact h

theorem flushFirst_left (st : State σ) (res : Res) (b : List Msg) (rest : List (List Msg)) (h : st.buffered = b :: rest) :
    (flushFirst cb st res).left = st.left ++ [(decide (res = .ok), b)] := by
  unfold flushFirst
  rw [h]
  cases res with
  | ok => rfl
  | again => rfl
  | fail e =>
    show (call cb st (.error st.inSeq e)).left ++ _ = _
    rw [(call_same cb _ _).2.1]

/-- the ways a step can change `left` -/
theorem step_left (st : State σ) (e : Ev σ) : (step cb st e).left = st.left ∨
    ∃ res b, e = .writable res ∧ st.transit = 0 ∧ (step cb st e).left = st.left ++ [(decide (res = .ok), b)] ∧
      (res = .ok → (step cb st e).transit = b.length) := by
  cases e with
  | act f => exact .inl (sendAll_same _ _).2.1
  | datagram ms => exact .inl (datagram_left cb st ms)
  | timeout =>
    unfold step
    simp only
    split
    · exact .inl (call_same cb _ _).2.1
    · exact .inl rfl
  | writable res =>
    have tr : ∀ s : State σ, ∀ b rest, s.buffered = b :: rest → s.transit = 0 → res = .ok → (flushFirst cb s res).transit = b.length := by
      intro s b rest hb h0 hr
      subst hr
      unfold flushFirst
      rw [hb]
      simp [h0]
    unfold step
    simp only
    split
    · unfold flush
      split
      · exact .inl rfl
      · rename_i ht
        split
        · rename_i hb
          split
          · exact .inl rfl
          · refine .inr ⟨res, st.out, rfl, by omega, ?_, tr (enqueue st) st.out [] (by simp [enqueue, hb]) (by show st.transit = 0; omega)⟩
            exact flushFirst_left cb (enqueue st) res st.out [] (by simp [enqueue, hb])
        · rename_i hb
          cases hbb : st.buffered with
          | nil => exact absurd hbb hb
          | cons b rest => exact .inr ⟨res, b, rfl, by omega, flushFirst_left cb st res b rest hbb, tr st b rest hbb (by omega)⟩
    · exact .inl rfl

/-! ### C183: order -/

theorem filter_sublist {α} (l : List (Bool × List α)) : ((l.filter (·.1)).flatMap (·.2)).Sublist (l.flatMap (·.2)) := by
  induction l with
  | nil => exact List.Sublist.refl _
  | cons a l ih =>
    cases h : a.1 with
    | true => simp [h]; exact ih
    | false => simp [h]; exact List.Sublist.trans ih (List.sublist_append_right _ _)

/-- Whatever happens, the messages that reach the kernel are messages handed over by the client, in the same order, none of them twice;
and what is still waiting comes after them. -/
theorem C183_order (c : σ) (es : List (Ev σ)) : (wire (run cb (start c) es) ++ queue (run cb (start c) es)).Sublist (run cb (start c) es).accepted := by
  have h := run_inv cb es (start_inv c)
  rw [h.all]
  exact List.Sublist.append (filter_sublist _) (List.Sublist.refl _)

/-- As long as `sendmsg` does not fail, nothing gets lost. -/
theorem C183_lossless_partial (c : σ) (es : List (Ev σ)) (hf : ∀ e ∈ es, e.fine) :
    wire (run cb (start c) es) ++ queue (run cb (start c) es) = (run cb (start c) es).accepted := by
  have h := run_inv cb es (start_inv c)
  have key : ∀ (es : List (Ev σ)) (st : State σ), (∀ e ∈ es, e.fine) → (∀ b ∈ st.left, b.1 = true) → ∀ b ∈ (run cb st es).left, b.1 = true := by
    intro es
    induction es with
    | nil => intro st _ h; exact h
    | cons e es ih =>
      intro st hf h
      refine ih (step cb st e) (fun x hx => hf x (List.mem_cons_of_mem _ hx)) ?_
      rcases step_left cb st e with hl | ⟨res, b, he, _, hl, _⟩
      · rw [hl]; exact h
      · have : res = .ok := by
          have := hf e List.mem_cons_self
          rw [he] at this; exact this
        rw [hl]
        intro x hx
        rcases List.mem_append.mp hx with hx | hx
        · exact h x hx
        · simp at hx; subst hx; simp [this]
  rw [h.all]
  unfold wire
  rw [List.filter_eq_self.mpr (key es (start c) hf (by simp [start]))]

/-- Nothing is sent before everything sent earlier has been answered or has timed out. -/
theorem C183_window (st : State σ) (e : Ev σ) (b : List Msg) (h : (step cb st e).left = st.left ++ [(true, b)]) : st.transit = 0 ∧ (step cb st e).transit = b.length := by
  rcases step_left cb st e with hl | ⟨res, b', _, h0, hl, ht⟩
  · rw [hl] at h
    have := congrArg List.length h
    simp at this
  · rw [hl] at h
    have := List.append_cancel_left h
    simp at this
    refine ⟨h0, ?_⟩
    rw [ht this.1, this.2]

/-- No datagram to the kernel is empty or larger than a memory page, if no message is. -/
theorem C183_size (c : σ) (es : List (Ev σ)) (hs : ∀ m ∈ (run cb (start c) es).accepted, m.len ≤ 4072) (ok : Bool) (b : List Msg) (hb : (ok, b) ∈ (run cb (start c) es).left) :
    b ≠ [] ∧ (b.map (·.len)).sum ≤ 4072 :=
  ((run_inv cb es (start_inv c)).size hs).2.2 _ hb

/-- a client that does nothing -/
def quiet : Unit → Call → Unit × List Nat := fun _ _ => ((), [])

/-- If the socket is not ready after all (EAGAIN), the messages are lost: they are not sent, they do not wait, and the client is not told. -/
theorem C183_lost_counterexample :
    let st := run quiet (start ()) [.act (fun _ => ((), [40, 60])), .writable .again]
    st.accepted = [⟨1, 40⟩, ⟨2, 60⟩] ∧ wire st = [] ∧ queue st = [] ∧ st.calls = [] ∧ st.timer = false := by decide +kernel

example : let st := run quiet (start ()) [.act (fun _ => ((), [40, 4000, 60])), .writable .ok, .act (fun _ => ((), [30])), .datagram [.err 1 1 0], .writable .ok]
    wire st = [⟨1, 40⟩, ⟨2, 4000⟩] ∧ queue st = [⟨3, 60⟩, ⟨4, 30⟩] := by decide +kernel
example : (step quiet (run quiet (start ()) [.act (fun _ => ((), [40, 60]))]) (.writable .ok)).left = [(true, [⟨1, 40⟩, ⟨2, 60⟩])] := by decide +kernel
/-- two messages are more than a page: two datagrams -/
example : wire (run quiet (start ()) [.act (fun _ => ((), [4000, 60, 50])), .writable .ok]) = [⟨1, 4000⟩, ⟨2, 60⟩] := by decide +kernel

/-! ### C184: answers -/

theorem one_err (x : State σ × Nat × Bool) (s r e : Nat) (h : x.2.2 = false) :
    (one cb x (.err s r e)).2.2 = false ∧ (one cb x (.err s r e)).1.calls = x.1.calls ++ [answer r e] ∧ (one cb x (.err s r e)).1.transit = x.1.transit - 1 := by
  unfold one
  have : ¬ (x.2.1 ≠ (In.err s r e).seq ∧ x.2.2 = true) := by rw [h]; rintro ⟨_, h⟩; cases h
  rw [if_neg this]
  refine ⟨rfl, ?_, ?_⟩
  · show (jobFinished _).calls = _
    rw [(job_left _).2.1, (call_same cb _ _).2.2.1]
  · show (jobFinished _).transit = _
    rw [(job_left _).2.2, (call_same cb _ _).1]

theorem fold_err (ms : List (Nat × Nat × Nat)) : ∀ (x : State σ × Nat × Bool), x.2.2 = false →
    ((ms.map fun m => In.err m.1 m.2.1 m.2.2).foldl (one cb) x).2.2 = false ∧
    ((ms.map fun m => In.err m.1 m.2.1 m.2.2).foldl (one cb) x).1.calls = x.1.calls ++ ms.map (fun m => answer m.2.1 m.2.2) ∧
    ((ms.map fun m => In.err m.1 m.2.1 m.2.2).foldl (one cb) x).1.transit = x.1.transit - ms.length := by
  induction ms with
  | nil => intro x h; exact ⟨h, by simp, by simp⟩
  | cons m ms ih =>
    intro x h
    obtain ⟨h1, h2, h3⟩ := one_err cb x m.1 m.2.1 m.2.2 h
    obtain ⟨i1, i2, i3⟩ := ih (one cb x (.err m.1 m.2.1 m.2.2)) h1
    refine ⟨i1, ?_, ?_⟩
    · rw [List.map_cons, List.foldl_cons, i2, h2]; simp
    · rw [List.map_cons, List.foldl_cons, i3, h3, List.length_cons]; omega

/-- Acknowledgements and errors, however many in one datagram: the client is told about each request exactly once, in the order of the answers, with
the number of the request and its result; and as many messages are no longer in transit. -/
theorem C184_answers (st : State σ) (ms : List (Nat × Nat × Nat)) :
    (datagram cb st (ms.map fun m => In.err m.1 m.2.1 m.2.2)).calls = st.calls ++ ms.map (fun m => if m.2.2 = 0 then .done m.2.1 else .error m.2.1 m.2.2) ∧
    (datagram cb st (ms.map fun m => In.err m.1 m.2.1 m.2.2)).transit = st.transit - ms.length := by
  cases ms with
  | nil => exact ⟨by simp [datagram], by simp [datagram]⟩
  | cons m ms =>
    obtain ⟨h1, h2, h3⟩ := fold_err cb (m :: ms) ({ st with inSeq := m.1 }, m.1, false) rfl
    show (let x := ((m :: ms).map fun m => In.err m.1 m.2.1 m.2.2).foldl (one cb) ({ st with inSeq := m.1 }, m.1, false)
        if x.2.2 then jobFinished (call cb { x.1 with timer := false } (.done x.2.1)) else x.1).calls = _ ∧
      (let x := ((m :: ms).map fun m => In.err m.1 m.2.1 m.2.2).foldl (one cb) ({ st with inSeq := m.1 }, m.1, false)
        if x.2.2 then jobFinished (call cb { x.1 with timer := false } (.done x.2.1)) else x.1).transit = _
    simp only [h1, Bool.false_eq_true, if_false]
    exact ⟨h2, h3⟩

theorem fold_other (seq n : Nat) : ∀ (x : State σ × Nat × Bool), x.2.2 = false → (List.replicate n (In.other seq)).foldl (one cb) x = x := by
  induction n with
  | zero => intro x _; rfl
  | succ n ih =>
    intro x h
    rw [List.replicate_succ, List.foldl_cons]
    have : one cb x (.other seq) = x := by
      unfold one
      have : ¬ (x.2.1 ≠ (In.other seq).seq ∧ x.2.2 = true) := by rw [h]; rintro ⟨_, h⟩; cases h
      rw [if_neg this]
    rw [this]; exact ih x h

/-- The last datagram of a dump: the client is told once, with the number of its request. -/
theorem C184_dump (st : State σ) (seq n : Nat) : (datagram cb st (List.replicate n (.other seq) ++ [.done seq])).calls = st.calls ++ [.done seq] ∧
    (datagram cb st (List.replicate n (.other seq) ++ [.done seq])).transit = st.transit - 1 := by
  have hx : ∀ y : In, y.seq = seq → ∀ ms, (y :: ms) = List.replicate n (.other seq) ++ [.done seq] →
      (datagram cb st (y :: ms)).calls = st.calls ++ [.done seq] ∧ (datagram cb st (y :: ms)).transit = st.transit - 1 := by
    intro y hy ms he
    unfold datagram
    simp only
    rw [he, hy, List.foldl_append, fold_other cb seq n _ rfl]
    have : List.foldl (one cb) ({ st with inSeq := seq }, seq, false) [.done seq] = ({ st with inSeq := seq }, seq, true) := by
      simp [one]
    rw [this]
    simp only [if_true]
    refine ⟨?_, ?_⟩
    · rw [(job_left _).2.1, (call_same cb _ _).2.2.1]
    · rw [(job_left _).2.2, (call_same cb _ _).1]
  cases n with
  | zero => exact hx (.done seq) rfl [] rfl
  | succ n => exact hx (.other seq) rfl _ rfl

/-- Two dumps end in one datagram: both ends are reported with the number of the first one, and only one message is taken as answered.
An answer after the end of a dump with the same number: the end is not reported. -/
theorem C184_ends_counterexample :
    (datagram quiet { start () with transit := 2 } [.done 1, .done 2]).calls = [.done 1, .done 1] ∧
    (datagram quiet { start () with transit := 2 } [.done 1, .done 2]).transit = 1 ∧
    (datagram quiet { start () with transit := 2 } [.done 1, .err 1 2 0]).calls = [.done 2] := by decide +kernel

/-- `sendmsg` fails: of all messages in the buffer one is reported, with a number out of the last datagram received, which belongs to another request. -/
theorem C184_failed_counterexample :
    let st := run quiet (start ()) [.act (fun _ => ((), [40])), .writable .ok, .datagram [.err 1 1 0], .act (fun _ => ((), [40, 50])), .writable (.fail 105)]
    st.calls = [.done 1, .error 1 105] ∧ queue st = [] ∧ wire st = [⟨1, 40⟩] := by decide +kernel

example : (datagram quiet { start () with transit := 3 } [.err 7 7 0, .err 8 8 17, .err 9 9 0]).calls = [.done 7, .error 8 17, .done 9] := by decide +kernel
example : (datagram quiet { start () with transit := 1 } [.other 7, .other 7, .done 7]).calls = [.done 7] := by decide +kernel

/-! ### C185: progress -/

/-- nobody forgot the waiting messages -/
def Live (st : State σ) : Prop := queue st ≠ [] → st.write = true ∨ 0 < st.transit

theorem send_live (st : State σ) (len : Nat) : Live (send st len) := by
  intro _
  by_cases h : st.transit = 0
  · left
    unfold send enqueue
    simp only
    split <;> simp [h]
  · right
    have : (send st len).transit = st.transit := by
      unfold send enqueue
      simp only
      split <;> rfl
    omega

theorem sendAll_live (lens : List Nat) : ∀ {st : State σ}, Live st → Live (sendAll st lens) := by
  induction lens with
  | nil => intro st h; exact h
  | cons l ls ih => intro st h; exact ih (send_live st l)

theorem live_congr {st st' : State σ} (h : Live st) (h1 : st'.buffered = st.buffered) (h2 : st'.out = st.out) (h3 : st'.write = st.write) (h4 : st'.transit = st.transit) : Live st' := by
  unfold Live queue at *
  rw [h1, h2, h3, h4]; exact h

theorem call_live {st : State σ} (h : Live st) (c : Call) : Live (call cb st c) := sendAll_live _ (live_congr h rfl rfl rfl rfl)

theorem job_live (st : State σ) : Live (jobFinished st) := by
  unfold Live jobFinished queue
  by_cases h : st.transit - 1 = 0
  · simp only [if_pos h]
    intro hq
    left
    cases hb : st.buffered with
    | cons b bs => simp
    | nil =>
      cases ho : st.out with
      | cons o os => simp
      | nil => rw [hb, ho] at hq; simp at hq
  · simp only [if_neg h]
    intro _
    right
    omega

theorem one_live {x : State σ × Nat × Bool} (h : Live x.1) (m : In) : Live (one cb x m).1 := by
  have hy : Live (if x.2.1 ≠ m.seq ∧ x.2.2 = true then (call cb x.1 (.done x.2.1), x.2.1, false) else x).1 := by
    split
    · exact call_live cb h _
    · exact h
  unfold one
  cases m with
  | done s => exact hy
  | err s r e => exact job_live _
  | other s => exact hy

theorem fold_live (ms : List In) : ∀ {x : State σ × Nat × Bool}, Live x.1 → Live (ms.foldl (one cb) x).1 := by
  induction ms with
  | nil => intro x h; exact h
  | cons m ms ih => intro x h; exact ih (one_live cb h m)

theorem flushFirst_live {st : State σ} (b : List Msg) (rest : List (List Msg)) (hb : st.buffered = b :: rest) (hne : b ≠ []) : Live (flushFirst cb st .ok) := by
  intro _
  right
  unfold flushFirst
  rw [hb]
  have : 0 < b.length := List.length_pos_iff.mpr hne
  simp
  omega

theorem step_live {st : State σ} (hi : Inv st) (hs : ∀ m ∈ st.accepted, m.len ≤ 4072) (h : Live st) (e : Ev σ) (hg : e.good) : Live (step cb st e) := by
  cases e with
  | act f => exact sendAll_live _ (live_congr h rfl rfl rfl rfl)
  | timeout => cases hg
  | datagram ms =>
    cases ms with
    | nil => exact h
    | cons m ms =>
      show Live (datagram cb st (m :: ms))
      unfold datagram
      simp only
      have := fold_live cb (m :: ms) (x := ({ st with inSeq := m.seq }, m.seq, false)) (live_congr h rfl rfl rfl rfl)
      split
      · exact job_live _
      · exact this
  | writable res =>
    have : res = .ok := hg
    subst this
    unfold step
    simp only
    split
    · unfold flush
      split
      · rename_i ht; intro _; exact .inr ht
      · split
        · rename_i hb
          split
          · rename_i ho
            intro hq
            unfold queue at hq
            simp [hb, ho] at hq
          · rename_i ho
            exact flushFirst_live cb st.out [] (by simp [enqueue, hb]) ho
        · rename_i hb
          cases hbb : st.buffered with
          | nil => exact absurd hbb hb
          | cons b rest => exact flushFirst_live cb b rest hbb ((hi.size hs).1 b (by rw [hbb]; exact List.mem_cons_self)).1
    · exact h

theorem accepted_mono_sendAll (lens : List Nat) : ∀ (st : State σ) m, m ∈ st.accepted → m ∈ (sendAll st lens).accepted := by
  induction lens with
  | nil => intro st m h; exact h
  | cons l ls ih =>
    intro st m h
    refine ih (send st l) m ?_
    unfold send enqueue
    simp only
    split <;> exact List.mem_append_left _ h

theorem accepted_mono_call (st : State σ) (c : Call) (m : Msg) (h : m ∈ st.accepted) : m ∈ (call cb st c).accepted := accepted_mono_sendAll _ _ _ h

theorem accepted_mono_job (st : State σ) (m : Msg) (h : m ∈ st.accepted) : m ∈ (jobFinished st).accepted := by
  unfold jobFinished; split <;> exact h

theorem accepted_mono_one (x : State σ × Nat × Bool) (i : In) (m : Msg) (h : m ∈ x.1.accepted) : m ∈ (one cb x i).1.accepted := by
  have hy : m ∈ (if x.2.1 ≠ i.seq ∧ x.2.2 = true then (call cb x.1 (.done x.2.1), x.2.1, false) else x).1.accepted := by
    split
    · exact accepted_mono_call cb _ _ _ h
    · exact h
  unfold one
  cases i with
  | done s => exact hy
  | err s r e => exact accepted_mono_job _ _ (accepted_mono_call cb _ _ _ hy)
  | other s => exact hy

theorem accepted_mono (st : State σ) (e : Ev σ) (m : Msg) (h : m ∈ st.accepted) : m ∈ (step cb st e).accepted := by
  have ff : ∀ (s : State σ) res, m ∈ s.accepted → m ∈ (flushFirst cb s res).accepted := by
    intro s res hm
    unfold flushFirst
    cases s.buffered with
    | nil => exact hm
    | cons b rest =>
      cases res with
      | ok => exact hm
      | again => exact hm
      | fail e => exact accepted_mono_call cb _ _ _ hm
  cases e with
  | act f => exact accepted_mono_sendAll _ _ _ h
  | timeout =>
    unfold step; simp only
    split
    · exact accepted_mono_call cb { st with timer := false } _ _ h
    · exact h
  | writable res =>
    unfold step flush; simp only
    split
    · split
      · exact h
      · split
        · split
          · exact h
          · exact ff (enqueue st) res h
        · exact ff st res h
    · exact h
  | datagram ms =>
    cases ms with
    | nil => exact h
    | cons i ms =>
      show m ∈ (datagram cb st (i :: ms)).accepted
      unfold datagram
      simp only
      have : ∀ (ms : List In) (x : State σ × Nat × Bool), m ∈ x.1.accepted → m ∈ (ms.foldl (one cb) x).1.accepted := by
        intro ms
        induction ms with
        | nil => intro x h; exact h
        | cons i ms ih => intro x h; exact ih _ (accepted_mono_one cb x i m h)
      have := this (i :: ms) ({ st with inSeq := i.seq }, i.seq, false) h
      split
      · exact accepted_mono_job _ _ (accepted_mono_call cb _ _ _ this)
      · exact this

theorem run_mono (es : List (Ev σ)) : ∀ (st : State σ) m, m ∈ st.accepted → m ∈ (run cb st es).accepted := by
  induction es with
  | nil => intro st m h; exact h
  | cons e es ih => intro st m h; exact ih _ m (accepted_mono cb st e m h)

/-- As long as the kernel takes and answers everything: while messages wait, the socket is to be told when it is writable, or answers are awaited. -/
theorem C185_live_partial (c : σ) (es : List (Ev σ)) (hg : ∀ e ∈ es, e.good) (hs : ∀ m ∈ (run cb (start c) es).accepted, m.len ≤ 4072)
    (hq : queue (run cb (start c) es) ≠ []) : (run cb (start c) es).write = true ∨ 0 < (run cb (start c) es).transit := by
  have key : ∀ (es : List (Ev σ)) (st : State σ), (∀ e ∈ es, e.good) → (∀ m ∈ (run cb st es).accepted, m.len ≤ 4072) → Inv st → Live st → Live (run cb st es) := by
    intro es
    induction es with
    | nil => intro st _ _ _ h; exact h
    | cons e es ih =>
      intro st hg hs hi h
      have hs' : ∀ m ∈ st.accepted, m.len ≤ 4072 := fun m hm => hs m (run_mono cb (e :: es) st m hm)
      exact ih (step cb st e) (fun x hx => hg x (List.mem_cons_of_mem _ hx)) hs (step_inv cb hi e) (step_live cb hi hs' h e (hg e List.mem_cons_self))
  exact key es (start c) hg hs (start_inv c) (by intro h; simp [start, queue] at h) hq

/-- answers for `n` messages in one datagram -/
def acks (n : Nat) : List In := (List.replicate n (0, 0, 0)).map fun m => In.err m.1 m.2.1 m.2.2

/-- nothing changes but counters -/
theorem quiet_call (hc : ∀ s c, (cb s c).2 = []) (st : State σ) (c : Call) : call cb st c = { st with client := (cb st.client c).1, calls := st.calls ++ [c] } := by
  unfold call
  rw [hc]; rfl

theorem quiet_acks (hc : ∀ s c, (cb s c).2 = []) (st : State σ) (n : Nat) (hn : st.transit = n) (h0 : 0 < n) (hq : queue st ≠ []) :
    (datagram cb st (acks n)).buffered = st.buffered ∧ (datagram cb st (acks n)).out = st.out ∧ (datagram cb st (acks n)).left = st.left ∧
    (datagram cb st (acks n)).transit = 0 ∧ (datagram cb st (acks n)).write = true := by
  have key : ∀ (ms : List (Nat × Nat × Nat)) (x : State σ × Nat × Bool), x.2.2 = false → queue x.1 = queue st → x.1.buffered = st.buffered → x.1.out = st.out → 
      (ms ≠ [] → x.1.transit = ms.length) → (ms = [] → x.1.write = true) →
      let y := (ms.map fun m => In.err m.1 m.2.1 m.2.2).foldl (one cb) x
      y.1.buffered = st.buffered ∧ y.1.out = st.out ∧ y.1.write = true ∧ y.2.2 = false := by
    intro ms
    induction ms with
    | nil => intro x hx _ h1 h2 _ h4; exact ⟨h1, h2, h4 rfl, hx⟩
    | cons m ms ih =>
      intro x hx hq' h1 h2 h3 _
      have h3 := h3 (by simp)
      have hstep : one cb x (.err m.1 m.2.1 m.2.2) = (jobFinished (call cb x.1 (answer m.2.1 m.2.2)), x.2.1, false) := by
        unfold one
        have : ¬ (x.2.1 ≠ (In.err m.1 m.2.1 m.2.2).seq ∧ x.2.2 = true) := by rw [hx]; rintro ⟨_, h⟩; cases h
        rw [if_neg this]
      have hb : (jobFinished (call cb x.1 (answer m.2.1 m.2.2))).buffered = st.buffered ∧ (jobFinished (call cb x.1 (answer m.2.1 m.2.2))).out = st.out := by
        rw [quiet_call cb hc]
        unfold jobFinished
        simp only
        split <;> exact ⟨h1, h2⟩
      have ht : (jobFinished (call cb x.1 (answer m.2.1 m.2.2))).transit = ms.length := by
        rw [(job_left _).2.2, (call_same cb _ _).1, h3, List.length_cons]; omega
      simp only [List.map_cons, List.foldl_cons]
      rw [hstep]
      refine ih _ rfl ?_ hb.1 hb.2 (fun _ => ht) ?_
      · unfold queue; rw [hb.1, hb.2]
      · intro hms
        subst hms
        have hl := job_live (call cb x.1 (answer m.2.1 m.2.2))
        have : queue (jobFinished (call cb x.1 (answer m.2.1 m.2.2))) ≠ [] := by
          unfold queue; rw [hb.1, hb.2]; exact hq
        rcases hl this with h | h
        · exact h
        · rw [ht] at h; simp at h
  have hne : List.replicate n ((0, 0, 0) : Nat × Nat × Nat) ≠ [] := by simp; omega
  have hacks := C184_answers cb st (List.replicate n (0, 0, 0))
  have hd : ∃ y : State σ × Nat × Bool, y.2.2 = false ∧ datagram cb st (acks n) = y.1 ∧ y.1.buffered = st.buffered ∧ y.1.out = st.out ∧ y.1.write = true := by
    match n, h0 with
    | k + 1, _ =>
      have := key (List.replicate (k + 1) (0, 0, 0)) ({ st with inSeq := 0 }, 0, false) rfl rfl rfl rfl (fun _ => by simpa using hn) (fun h => absurd h (by simp))
      obtain ⟨k1, k2, k3, k4⟩ := this
      refine ⟨_, k4, ?_, k1, k2, k3⟩
      have e : datagram cb st (acks (k + 1)) =
          (if (((List.replicate (k + 1) ((0, 0, 0) : Nat × Nat × Nat)).map fun m => In.err m.1 m.2.1 m.2.2).foldl (one cb) ({ st with inSeq := 0 }, 0, false)).2.2 then
            jobFinished (call cb { (((List.replicate (k + 1) ((0, 0, 0) : Nat × Nat × Nat)).map fun m => In.err m.1 m.2.1 m.2.2).foldl (one cb) ({ st with inSeq := 0 }, 0, false)).1 with timer := false } (.done (((List.replicate (k + 1) ((0, 0, 0) : Nat × Nat × Nat)).map fun m => In.err m.1 m.2.1 m.2.2).foldl (one cb) ({ st with inSeq := 0 }, 0, false)).2.1))
          else (((List.replicate (k + 1) ((0, 0, 0) : Nat × Nat × Nat)).map fun m => In.err m.1 m.2.1 m.2.2).foldl (one cb) ({ st with inSeq := 0 }, 0, false)).1) := rfl
      rw [e, k4]
      rfl
  obtain ⟨y, _, hy, y1, y2, y3⟩ := hd
  refine ⟨by rw [hy, y1], by rw [hy, y2], datagram_left cb st _, ?_, by rw [hy, y3]⟩
  have := hacks.2
  rw [List.length_replicate] at this
  show (datagram cb st (acks n)).transit = 0
  unfold acks
  rw [this]; omega

/-- If the client has nothing more to say, a kernel that takes and answers everything gets all messages. -/
theorem C185_drains (hc : ∀ s c, (cb s c).2 = []) (st : State σ) (hb : ∀ b ∈ st.buffered, b ≠ []) (ht : st.transit = 0) (hw : st.write = true) :
    ∃ es : List (Ev σ), (∀ e ∈ es, e = .writable .ok ∨ ∃ n, e = .datagram (acks n)) ∧ queue (run cb st es) = [] ∧ wire (run cb st es) = wire st ++ queue st := by
  have key : ∀ (k : Nat) (st : State σ), st.buffered.length + (if st.out = [] then 0 else 1) ≤ k → (∀ b ∈ st.buffered, b ≠ []) → st.transit = 0 → st.write = true →
      ∃ es : List (Ev σ), (∀ e ∈ es, e = .writable .ok ∨ ∃ n, e = .datagram (acks n)) ∧ queue (run cb st es) = [] ∧ wire (run cb st es) = wire st ++ queue st := by
    intro k
    induction k with
    | zero =>
      intro st hk _ _ _
      have h1 : st.buffered = [] := List.length_eq_zero_iff.mp (by omega)
      have h2 : st.out = [] := by
        apply Classical.byContradiction
        intro h
        rw [if_neg h] at hk; omega
      exact ⟨[], by simp, by simp [run, queue, h1, h2], by simp [run, queue, h1, h2]⟩
    | succ k ih =>
      intro st hk hb ht hw
      -- one buffer
      have hone : ∀ (s : State σ) b rest, s.buffered = b :: rest → b ≠ [] → (∀ x ∈ rest, x ≠ []) → s.transit = 0 →
          step cb st (.writable .ok) = flushFirst cb s .ok → wire s = wire st → queue s = queue st → rest.length + (if s.out = [] then 0 else 1) ≤ k →
          ∃ es : List (Ev σ), (∀ e ∈ es, e = .writable .ok ∨ ∃ n, e = .datagram (acks n)) ∧ queue (run cb st es) = [] ∧ wire (run cb st es) = wire st ++ queue st := by
        intro s b rest hsb hbn hrest hs0 hstep hwire hqueue hlen
        have f1 : flushFirst cb s .ok = { s with transit := b.length, timer := true, buffered := rest, left := s.left ++ [(true, b)], write := !rest.isEmpty } := by
          unfold flushFirst
          rw [hsb]
          simp [hs0, hsb]
        have hqs : queue s = b ++ queue (flushFirst cb s .ok) := by
          rw [f1]; unfold queue; simp [hsb]
        have hws : wire (flushFirst cb s .ok) = wire s ++ b := by
          rw [f1]; unfold wire; simp
        by_cases hq : queue (flushFirst cb s .ok) = []
        · refine ⟨[.writable .ok], by simp, ?_, ?_⟩
          · show queue (step cb st (.writable .ok)) = []
            rw [hstep, hq]
          · show wire (step cb st (.writable .ok)) = _
            rw [hstep, hws, hwire, ← hqueue, hqs, hq, List.append_nil]
        · have hbl : 0 < b.length := List.length_pos_iff.mpr hbn
          obtain ⟨a1, a2, a3, a4, a5⟩ := quiet_acks cb hc (flushFirst cb s .ok) b.length (by rw [f1]) hbl hq
          obtain ⟨es, e1, e2, e3⟩ := ih (datagram cb (flushFirst cb s .ok) (acks b.length)) (by rw [a1, a2, f1]; exact hlen) (by rw [a1, f1]; exact hrest) a4 a5
          refine ⟨.writable .ok :: .datagram (acks b.length) :: es, ?_, ?_, ?_⟩
          · intro e he
            rcases List.mem_cons.mp he with rfl | he
            · exact .inl rfl
            · rcases List.mem_cons.mp he with rfl | he
              · exact .inr ⟨_, rfl⟩
              · exact e1 e he
          · show queue (run cb (datagram cb (step cb st (.writable .ok)) (acks b.length)) es) = []
            rw [hstep]; exact e2
          · show wire (run cb (datagram cb (step cb st (.writable .ok)) (acks b.length)) es) = _
            rw [hstep, e3]
            have w1 : wire (datagram cb (flushFirst cb s .ok) (acks b.length)) = wire (flushFirst cb s .ok) := by unfold wire; rw [a3]
            have q1 : queue (datagram cb (flushFirst cb s .ok) (acks b.length)) = queue (flushFirst cb s .ok) := by unfold queue; rw [a1, a2]
            rw [w1, q1, hws, hwire, ← hqueue, hqs, List.append_assoc]
      have hstep : step cb st (.writable .ok) = flush cb st .ok := by
        unfold step; simp only; rw [if_pos hw]
      have hnt : ¬ st.transit > 0 := by omega
      cases hbb : st.buffered with
      | nil =>
        by_cases ho : st.out = []
        · exact ⟨[], by simp, by simp [run, queue, hbb, ho], by simp [run, queue, hbb, ho]⟩
        · refine hone (enqueue st) st.out [] (by simp [enqueue, hbb]) ho (by simp) ht ?_ rfl (by simp [queue, enqueue, hbb]) (by simp [enqueue])
          rw [hstep]; unfold flush; rw [if_neg hnt, if_pos hbb, if_neg ho]
      | cons b rest =>
        refine hone st b rest hbb (hb b (by rw [hbb]; exact List.mem_cons_self)) (fun x hx => hb x (by rw [hbb]; exact List.mem_cons_of_mem _ hx)) ht ?_ rfl rfl (by
          rw [hbb, List.length_cons] at hk; omega)
        rw [hstep]; unfold flush; rw [if_neg hnt, if_neg (by rw [hbb]; simp)]
  exact key _ st (Nat.le_refl _) hb ht hw

/-- The kernel does not answer, and the client repeats its request when it is told so: the repeated request is never sent, unless the
kernel answers after all or the client sends something else. -/
theorem C185_timeout_counterexample (st : State σ) (ht : 0 < st.transit) (hw : st.write = false) (htm : st.timer = true) (hcb : (cb st.client .timeout).2 ≠ [])
    (es : List (Ev σ)) (hes : ∀ e ∈ es, e = .timeout ∨ ∃ r, e = .writable r) :
    queue (run cb (step cb st .timeout) es) ≠ [] ∧ wire (run cb (step cb st .timeout) es) = wire st := by
  have hs : ∀ (lens : List Nat) (s : State σ), 0 < s.transit → s.write = false → (sendAll s lens).write = false := by
    intro lens
    induction lens with
    | nil => intro s _ h; exact h
    | cons l ls ih =>
      intro s h0 h
      have e : (send s l).write = false ∧ (send s l).transit = s.transit := by
        unfold send enqueue
        simp only
        split <;> (refine ⟨?_, rfl⟩; simp [h]; omega)
      exact ih (send s l) (by rw [e.2]; exact h0) e.1
  have hq : ∀ (lens : List Nat) (s : State σ), lens ≠ [] → queue (sendAll s lens) ≠ [] := by
    intro lens
    induction lens with
    | nil => intro s h; exact absurd rfl h
    | cons l ls ih =>
      intro s _
      cases ls with
      | nil =>
        show queue (send s l) ≠ []
        unfold queue send
        simp
      | cons l' ls => exact ih (send s l) (by simp)
  have h1 : step cb st .timeout = { call cb { st with timer := false } .timeout with transit := 0 } := by
    unfold step; simp only; rw [if_pos htm]
  have hst : ∀ e : Ev σ, (e = .timeout ∨ ∃ r, e = .writable r) → step cb (step cb st .timeout) e = step cb st .timeout := by
    have hw1 : (step cb st .timeout).write = false := by
      rw [h1]; exact hs _ _ ht hw
    have ht1 : (step cb st .timeout).timer = false := by
      rw [h1]; exact (call_same cb _ _).2.2.2.1
    generalize step cb st .timeout = s at hw1 ht1
    rintro e (rfl | ⟨r, rfl⟩)
    · simp only [step, ht1, Bool.false_eq_true, if_false]
    · simp only [step, hw1, Bool.false_eq_true, if_false]
  have hrun : ∀ (es : List (Ev σ)), (∀ e ∈ es, e = .timeout ∨ ∃ r, e = .writable r) → run cb (step cb st .timeout) es = step cb st .timeout := by
    intro es
    induction es with
    | nil => intro _; rfl
    | cons e es ih =>
      intro h
      show run cb (step cb (step cb st .timeout) e) es = _
      rw [hst e (h e List.mem_cons_self)]
      exact ih (fun x hx => h x (List.mem_cons_of_mem _ hx))
  rw [hrun es hes, h1]
  refine ⟨hq _ _ hcb, ?_⟩
  unfold wire
  rw [show ({ call cb { st with timer := false } .timeout with transit := 0 } : State σ).left = st.left from (call_same cb { st with timer := false } .timeout).2.1]

/-- a client that repeats its request once -/
def repeats : Nat → Call → Nat × List Nat
  | n + 1, .timeout => (n, [40])
  | n + 1, .error _ _ => (n, [40])
  | n, _ => (n, [])

/-- `sendmsg` fails, the client repeats its request at once: nobody waits for the socket any more. -/
theorem C185_fail_counterexample :
    let st := run repeats (start 1) [.act (fun n => (n, [40])), .writable (.fail 105)]
    queue st = [⟨2, 40⟩] ∧ st.write = false ∧ st.transit = 0 ∧ st.timer = false := by decide +kernel

/-- A dump and another request are sent together. The end of the dump stops the timer: if the other answer gets lost, the queue stands still for ever. -/
theorem C185_timer_counterexample :
    let st := run quiet (start ()) [.act (fun _ => ((), [40, 40])), .writable .ok, .datagram [.other 1, .done 1], .act (fun _ => ((), [40])), .timeout, .writable .ok]
    queue st = [⟨3, 40⟩] ∧ st.write = false ∧ st.transit = 1 ∧ st.timer = false ∧ st.calls = [.done 1] := by decide +kernel

example : queue (run repeats (step repeats (run repeats (start 1) [.act (fun n => (n, [40])), .writable .ok]) .timeout) [.writable .ok, .timeout]) ≠ [] :=
  (C185_timeout_counterexample repeats _ (by decide) (by decide) (by decide) (by decide) _ (by simp)).1
example : let st := run quiet (start ()) [.act (fun _ => ((), [4000, 4000, 40])), .writable .ok]
    queue st = [⟨2, 4000⟩, ⟨3, 40⟩] ∧ st.transit = 1 := by decide +kernel
example : queue (run quiet (run quiet (start ()) [.act (fun _ => ((), [4000, 4000, 40]))]) [.writable .ok, .datagram (acks 1), .writable .ok]) = [] := by decide +kernel

end Verif.Netlink
