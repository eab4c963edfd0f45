/-
C153: the life of a TCP session.
-/
import Verif.Stream.SessLemmas
namespace Verif.Stream

/-- **C153.**  For all callbacks, peers and kernels: what the peer was sent,
followed by what still waits, is exactly what was written to the session, in
order; and what arrived is exactly what the callbacks consumed followed by
what still waits. -/
theorem C153_in_order (c : Cfg) (t0 : Nat) (sf w : Bool) (ref : Option (List Nat)) (ops : List Op) :
    let r := run c (create c t0 sf w ref) ops
    ref.getD [] ++ collect putBy r.tr = collect sentBy r.tr ++ r.s.out ∧
    collect gotBy r.tr = collect takenBy r.tr ++ r.s.inb := by
  induction ops with
  | nil =>
    simp only [run, create, collect, List.flatMap_nil, List.append_nil, List.nil_append, and_self]
  | cons o os ih =>
    simp only [run] at ih ⊢
    obtain ⟨ih1, ih2⟩ := ih
    generalize run c (create c t0 sf w ref) os = r at ih1 ih2 ⊢
    cases o with
    | io e =>
      simp only [step]
      split
      · exact ⟨ih1, ih2⟩
      · obtain ⟨b1, b2⟩ := bal_event c e r.s
        simp only [collect_append, collect_map]
        constructor
        · rw [← List.append_assoc, ih1, List.append_assoc, b1, List.append_assoc]
        · rw [ih2, List.append_assoc, b2, List.append_assoc]
    | tick now =>
      simp only [step]
      split
      · exact ⟨ih1, ih2⟩
      · split
        · exact ⟨ih1, ih2⟩
        · split <;> exact ⟨ih1, ih2⟩
    | write bs =>
      simp only [step]
      split
      · exact ⟨ih1, ih2⟩
      · simp only [collect_append]
        constructor
        · rw [← List.append_assoc, ih1]
          simp [collect, putBy, sentBy]
        · rw [ih2]
          simp [collect, gotBy, takenBy]
    | close =>
      simp only [step]
      split <;> exact ⟨ih1, ih2⟩

/-- A state that wants to be cleaned up without having been closed has a
reason in the observations. -/
theorem pending_cause (c : Cfg) (t0 : Nat) (sf w : Bool) (ref : Option (List Nat)) (ops : List Op) :
    let r := run c (create c t0 sf w ref) ops
    r.closed = false → (r.s.st = .cleanup ∨ r.s.removed = true) → ∃ o ∈ r.tr, aborts o.2 = true := by
  induction ops with
  | nil =>
    intro r _ h
    rcases h with h | h
    · have : (if ref.isSome then St.quit else St.active) = .cleanup := h
      split at this <;> exact nomatch this
    · exact nomatch h
  | cons o os ih =>
    simp only [run] at ih ⊢
    generalize run c (create c t0 sf w ref) os = r at ih ⊢
    cases o with
    | io e =>
      simp only [step]
      split
      · exact ih
      · rename_i hcl
        intro hn h
        have hcl' : r.closed = false := by cases hx : r.closed with
          | false => rfl
          | true => exact absurd hx hcl
        have key : (r.s.st = .cleanup ∨ r.s.removed = true) ∨
            ∃ o ∈ (event c e r.s).2.2, aborts o = true := by
          unfold event at hn h ⊢
          simp only at hn h ⊢
          split
          · rename_i hw
            rw [if_pos hw] at h
            exact cause_connect e r.s h
          · rename_i hw
            rw [if_neg hw] at hn h
            have := of_decide_eq_false hn
            exact absurd h this
        rcases key with k | ⟨o, ho, ha⟩
        · obtain ⟨o, ho, ha⟩ := ih hcl' k
          exact ⟨o, List.mem_append_left _ ho, ha⟩
        · exact ⟨(e.now, o), List.mem_append_right _ (List.mem_map_of_mem ho), ha⟩
    | tick now =>
      simp only [step]
      split
      · exact ih
      · split
        · exact ih
        · split
          · intro h; exact nomatch h
          · exact ih
    | write bs =>
      simp only [step]
      split
      · exact ih
      · intro hn h
        obtain ⟨o, ho, ha⟩ := ih hn h
        exact ⟨o, List.mem_append_left _ ho, ha⟩
    | close =>
      simp only [step]
      split
      · exact ih
      · intro h; exact nomatch h

/-- **C153, complete.**  A session that an event ends has delivered every byte
ever written to it and its whole file, unless a system call failed or a
callback asked for the immediate end. -/
theorem C153_complete (c : Cfg) (t0 : Nat) (sf w : Bool) (ref : Option (List Nat)) (ops : List Op)
    (e : Event) (hopen : (run c (create c t0 sf w ref) ops).closed = false)
    (hend : (run c (create c t0 sf w ref) (.io e :: ops)).closed = true)
    (hok : ∀ o ∈ (run c (create c t0 sf w ref) (.io e :: ops)).tr, aborts o.2 = false) :
    let r := run c (create c t0 sf w ref) (.io e :: ops)
    collect sentBy r.tr = ref.getD [] ++ collect putBy r.tr ∧ (r.s.file = none ∨ r.s.file = some 0) := by
  have horder := C153_in_order c t0 sf w ref (.io e :: ops)
  have hpend := pending_cause c t0 sf w ref ops hopen
  simp only [run] at horder hend hok ⊢
  generalize run c (create c t0 sf w ref) ops = r at horder hpend hopen hend hok ⊢
  simp only [step, hopen, Bool.false_eq_true, if_false] at horder hend hok ⊢
  have key : (event c e r.s).1.out = [] ∧ fileDone (event c e r.s).1 = true := by
    have hnot : ¬ ∃ o ∈ (event c e r.s).2.2, aborts o = true := by
      rintro ⟨o, ho, ha⟩
      have := hok (e.now, o) (List.mem_append_right _ (List.mem_map_of_mem ho))
      rw [ha] at this
      exact nomatch this
    have hnot2 : ¬ (r.s.st = .cleanup ∨ r.s.removed = true) := by
      intro h
      obtain ⟨o, ho, ha⟩ := hpend h
      have := hok o (List.mem_append_left _ ho)
      rw [ha] at this
      exact nomatch this
    unfold event at hend hnot ⊢
    simp only at hend hnot ⊢
    by_cases hw : (connectStage e r.s).1.waiting = true
    · rw [if_pos hw] at hend
      exact nomatch hend
    · rw [if_neg hw] at hend hnot ⊢
      simp only at hend hnot ⊢
      rcases done_cause _ (of_decide_eq_true hend) with h | h
      · have hc := (((((cause_connect e r.s).trans (cause_read c e _)).trans (cause_handle e _)).trans
          (cause_send c e _)).trans (cause_copy e _)).trans (cause_under e _) h
        rcases hc with hc | hc
        · exact absurd hc hnot2
        · exact absurd hc hnot
      · exact h
  obtain ⟨h1, _⟩ := horder
  constructor
  · rw [h1, key.1, List.append_nil]
  · have := key.2
    unfold fileDone at this
    split at this
    · rename_i hf; exact Or.inl hf
    · rename_i n hf
      right
      rw [hf, eq_of_beq this]

/-- **C153, quiet.**  Once a callback has returned another state than active,
a request was too large, or a failure happened, no callback is called any
more. -/
theorem C153_quiet (c : Cfg) (t0 : Nat) (sf w : Bool) (ref : Option (List Nat)) (ops : List Op)
    (before after : List (Nat × Obs)) (x : Nat × Obs)
    (htr : (run c (create c t0 sf w ref) ops).tr = before ++ x :: after) (hx : ends x.2 = true) :
    ∀ y ∈ after, isCall y.2 = false := by
  have inv : ∀ ops : List Op, Quiet ((run c (create c t0 sf w ref) ops).tr.map Prod.snd) ∧
      ((∃ o ∈ (run c (create c t0 sf w ref) ops).tr, ends o.2 = true) →
        (run c (create c t0 sf w ref) ops).s.st ≠ .active) := by
    intro ops
    induction ops with
    | nil => exact ⟨trivial, by rintro ⟨o, ho, _⟩; exact nomatch ho⟩
    | cons o os ih =>
      simp only [run] at ih ⊢
      generalize run c (create c t0 sf w ref) os = r at ih ⊢
      cases o with
      | io e =>
        simp only [step]
        split
        · exact ih
        · have ph := phase_event c e r.s
          have hmap : (List.map (fun o => (e.now, o)) (event c e r.s).2.2).map Prod.snd =
              (event c e r.s).2.2 := by
            rw [List.map_map]; exact List.map_id _
          refine ⟨?_, ?_⟩
          · rw [List.map_append, hmap]
            refine quiet_append ih.1 ph.quiet ?_
            rintro ⟨o, ho, he⟩
            obtain ⟨p, hp, rfl⟩ := List.mem_map.mp ho
            exact ph.noCall (ih.2 ⟨p, hp, he⟩)
          · rintro ⟨o, ho, he⟩
            rcases List.mem_append.mp ho with h | h
            · exact ph.stays (ih.2 ⟨o, h, he⟩)
            · obtain ⟨o', ho', rfl⟩ := List.mem_map.mp h
              exact ph.ended ⟨o', ho', he⟩
      | tick now =>
        simp only [step]
        split
        · exact ih
        · split
          · exact ih
          · split <;> exact ih
      | write bs =>
        simp only [step]
        split
        · exact ih
        · refine ⟨?_, ?_⟩
          · rw [List.map_append]
            refine quiet_append ih.1 ⟨(fun h => nomatch h), trivial⟩ ?_
            intro _ o ho
            rw [List.mem_singleton.mp ho]; rfl
          · rintro ⟨o, ho, he⟩
            rcases List.mem_append.mp ho with h | h
            · exact ih.2 ⟨o, h, he⟩
            · rw [List.mem_singleton.mp h] at he; exact nomatch he
      | close =>
        simp only [step]
        split <;> exact ih
  have hq := (inv ops).1
  rw [htr, List.map_append] at hq
  have : ∀ a : List Obs, Quiet (a ++ List.map Prod.snd (x :: after)) → Quiet (List.map Prod.snd (x :: after)) := by
    intro a
    induction a with
    | nil => exact id
    | cons _ _ ih => exact fun h => ih h.2
  have h2 := this _ hq
  intro y hy
  exact h2.1 hx y.2 (List.mem_map_of_mem hy)

/-- **C153, input limit.**  No callback ever sees more input than the
configured maximum. -/
theorem C153_input_limit (c : Cfg) (t0 : Nat) (sf w : Bool) (ref : Option (List Nat)) (ops : List Op)
    (t : Nat) (seen : List Nat) (r : Reply)
    (h : (t, Obs.call seen r) ∈ (run c (create c t0 sf w ref) ops).tr ∨
      (t, Obs.under seen r) ∈ (run c (create c t0 sf w ref) ops).tr) : seen.length ≤ c.maxIn := by
  have inv : ∀ ops : List Op,
      ((run c (create c t0 sf w ref) ops).s.st = .active →
        (run c (create c t0 sf w ref) ops).s.inb.length ≤ c.maxIn) ∧
      ∀ t seen r, (t, Obs.call seen r) ∈ (run c (create c t0 sf w ref) ops).tr ∨
        (t, Obs.under seen r) ∈ (run c (create c t0 sf w ref) ops).tr → seen.length ≤ c.maxIn := by
    intro ops
    induction ops with
    | nil =>
      refine ⟨fun _ => Nat.zero_le _, ?_⟩
      intro t seen r h
      rcases h with h | h <;> exact nomatch h
    | cons o os ih =>
      simp only [run] at ih ⊢
      generalize run c (create c t0 sf w ref) os = r at ih ⊢
      cases o with
      | io e =>
        simp only [step]
        split
        · exact ih
        · have sm := small_event c e r.s
          refine ⟨sm.keeps ih.1, ?_⟩
          intro t seen rep h
          rcases h with h | h
          · rcases List.mem_append.mp h with h' | h'
            · exact ih.2 t seen rep (Or.inl h')
            · obtain ⟨o', ho', heq⟩ := List.mem_map.mp h'
              injection heq with _ heq
              subst heq
              exact sm.calls ih.1 seen rep (Or.inl ho')
          · rcases List.mem_append.mp h with h' | h'
            · exact ih.2 t seen rep (Or.inr h')
            · obtain ⟨o', ho', heq⟩ := List.mem_map.mp h'
              injection heq with _ heq
              subst heq
              exact sm.calls ih.1 seen rep (Or.inr ho')
      | tick now =>
        simp only [step]
        split
        · exact ih
        · split
          · exact ih
          · split <;> exact ih
      | write bs =>
        simp only [step]
        split
        · exact ih
        · refine ⟨ih.1, ?_⟩
          intro t seen rep h
          rcases h with h | h
          · rcases List.mem_append.mp h with h' | h'
            · exact ih.2 t seen rep (Or.inl h')
            · have := List.mem_singleton.mp h'
              injection this with _ h2
              exact nomatch h2
          · rcases List.mem_append.mp h with h' | h'
            · exact ih.2 t seen rep (Or.inr h')
            · have := List.mem_singleton.mp h'
              injection this with _ h2
              exact nomatch h2
      | close =>
        simp only [step]
        split <;> exact ih
  exact (inv ops).2 t seen r h

/-- **C153, idle.**  An open session is closed by the clock exactly when no
byte has gone through its buffers for the configured time; a session without
configured timeout is never closed by the clock. -/
theorem C153_idle (c : Cfg) (t0 : Nat) (sf w : Bool) (ref : Option (List Nat)) (ops : List Op) (now : Nat)
    (hopen : (run c (create c t0 sf w ref) ops).closed = false) :
    (run c (create c t0 sf w ref) (.tick now :: ops)).closed = true ↔
      c.timeout ≠ 0 ∧ lastByte t0 (run c (create c t0 sf w ref) ops).tr + c.timeout ≤ now := by
  have inv : ∀ ops : List Op, (run c (create c t0 sf w ref) ops).s.deadline =
      refresh c (lastByte t0 (run c (create c t0 sf w ref) ops).tr) := by
    intro ops
    induction ops with
    | nil => rfl
    | cons o os ih =>
      simp only [run] at ih ⊢
      generalize run c (create c t0 sf w ref) os = r at ih ⊢
      cases o with
      | io e =>
        simp only [step]
        split
        · exact ih
        · have fr := fresh_event c e r.s
          simp only [lastByte_append]
          by_cases hm : ∃ o ∈ (event c e r.s).2.2, moves o = true
          · rw [fr.1 hm, lastByte_moved _ _ _ hm]
          · have hn : ∀ o ∈ (event c e r.s).2.2, moves o = false := by
              intro x hx
              cases hmx : moves x
              · rfl
              · exact absurd ⟨x, hx, hmx⟩ hm
            rw [fr.2 hn, lastByte_still _ _ _ hn, ih]
      | tick now =>
        simp only [step]
        split
        · exact ih
        · split
          · exact ih
          · split <;> exact ih
      | write bs =>
        simp only [step]
        split
        · exact ih
        · simp only [lastByte_append]
          exact ih
      | close =>
        simp only [step]
        split <;> exact ih
  have hd := inv ops
  simp only [run]
  generalize run c (create c t0 sf w ref) ops = r at hd hopen ⊢
  simp only [step, hopen, Bool.false_eq_true, if_false]
  rw [hd]
  unfold refresh
  by_cases h0 : c.timeout = 0
  · rw [if_pos h0]
    exact ⟨fun h => absurd (hopen.symm.trans h) (by decide), fun h => absurd h0 h.1⟩
  · rw [if_neg h0]
    simp only
    split
    · rename_i hle
      exact ⟨fun _ => ⟨h0, hle⟩, fun _ => rfl⟩
    · rename_i hle
      exact ⟨fun h => absurd (hopen.symm.trans h) (by decide), fun h => absurd h.2 hle⟩

/-- The events are honest: the scheduler reports the chance to write only if
it was asked for, and callbacks that hand over a file also write a header. -/
def Honest (c : Cfg) (s0 : Sess) : List Op → Prop
  | [] => True
  | .io e :: os =>
    Honest c s0 os ∧ (e.isWrite = true → (run c s0 os).s.writeOn = true) ∧ e.under = none ∧
    (∀ n, e.eofReply.file = some n → e.eofReply.put ≠ []) ∧
    (∀ n, e.reply.file = some n → e.reply.put ≠ [])
  | _ :: os => Honest c s0 os

/-- **C153, armed.**  Without the callback `buffer_underrun`, an open session
that still has output or parts of a file to send always waits for the chance
to send it. -/
theorem C153_armed_partial (c : Cfg) (t0 : Nat) (sf w : Bool) (ref : Option (List Nat)) (ops : List Op)
    (hh : Honest c (create c t0 sf w ref) ops)
    (hopen : (run c (create c t0 sf w ref) ops).closed = false)
    (hleft : (run c (create c t0 sf w ref) ops).s.out ≠ [] ∨
      ∃ n, (run c (create c t0 sf w ref) ops).s.file = some (n + 1)) :
    (run c (create c t0 sf w ref) ops).s.writeOn = true := by
  have inv : ∀ ops : List Op, Honest c (create c t0 sf w ref) ops →
      (run c (create c t0 sf w ref) ops).closed = false → Armed (run c (create c t0 sf w ref) ops).s := by
    intro ops
    induction ops with
    | nil => intro _ _ _; rfl
    | cons o os ih =>
      intro hh hc
      cases o with
      | io e =>
        obtain ⟨h0, h1, h2, h3, h4⟩ := hh
        have ih' := ih h0
        simp only [run] at h1 ih' hc ⊢
        generalize run c (create c t0 sf w ref) os = r at h1 ih' hc ⊢
        simp only [step] at hc ⊢
        split
        · rename_i hcl
          rw [if_pos hcl, hcl] at hc
          exact nomatch hc
        · rename_i hcl
          rw [if_neg hcl] at hc
          have hcl' : r.closed = false := by cases hx : r.closed with
            | false => rfl
            | true => exact absurd hx hcl
          exact armed_event c e r.s (ih' hcl') h1 h2 h3 h4 hc
      | tick now =>
        have ih' := ih hh
        simp only [run] at ih' hc ⊢
        generalize run c (create c t0 sf w ref) os = r at ih' hc ⊢
        simp only [step] at hc ⊢
        cases hcl : r.closed with
        | true => rw [if_pos hcl, hcl] at hc; exact nomatch hc
        | false =>
          rw [if_neg (by decide)]
          split
          · exact ih' hcl
          · split <;> exact ih' hcl
      | write bs =>
        have ih' := ih hh
        simp only [run] at ih' hc ⊢
        generalize run c (create c t0 sf w ref) os = r at ih' hc ⊢
        simp only [step] at hc ⊢
        split
        · rename_i hcl
          exact absurd (by rw [if_pos hcl, hcl] at hc; exact nomatch hc) (fun h : False => h)
        · intro _; rfl
      | close =>
        have ih' := ih hh
        simp only [run] at ih' hc ⊢
        generalize run c (create c t0 sf w ref) os = r at ih' hc ⊢
        simp only [step] at hc ⊢
        split
        · rename_i hcl
          rw [if_pos hcl, hcl] at hc; exact nomatch hc
        · rename_i hcl
          rw [if_neg hcl] at hc; exact nomatch hc
  apply inv ops hh hopen
  rcases hleft with h | ⟨n, h⟩
  · exact Or.inl h
  · right
    unfold fileDone
    rw [h]
    rfl

/-- **C153, refused connect.**  When an outgoing connection fails, no callback
is called; the session outlives that event and goes away with the next one
that reports no further error. -/
theorem C153_refused_connect (c : Cfg) (t0 : Nat) (sf : Bool) (e1 e2 : Event) (h1 : e1.isWrite = true)
    (hs1 : e1.sockErr = true) (h2 : e2.isWrite = true) (hs2 : e2.sockErr = false) :
    (run c (create c t0 sf true none) [.io e1]).closed = false ∧
    (run c (create c t0 sf true none) [.io e2, .io e1]).closed = true ∧
    (run c (create c t0 sf true none) [.io e2, .io e1]).tr = [(e1.now, .fault)] := by
  have hrun1 : run c (create c t0 sf true none) [.io e1] =
      { s := { create c t0 sf true none with st := .cleanup }, closed := false, tr := [(e1.now, .fault)] } := by
    simp [run, step, event, connectStage, create, h1, hs1]
  refine ⟨by rw [hrun1], ?_⟩
  have hrun2 : run c (create c t0 sf true none) [.io e2, .io e1] =
      step c (run c (create c t0 sf true none) [.io e1]) (.io e2) := rfl
  rw [hrun2, hrun1]
  simp [step, event, connectStage, readStage, handleStage, sendStage, copyStage, underStage, doneStage,
    fileDone, create, h2, hs2]

/-! Where the expectations fail. -/

/-- A reply that changes nothing. -/
def idleReply : Reply := { st := .active, take := 0, put := [], close := false, file := none }

/-- An event in which nothing happens. -/
def nothing (now : Nat) : Event :=
  { now := now, isRead := false, isWrite := false, sockErr := false, recv := .again, oom := false,
    errText := [], eofReply := idleReply, reply := idleReply, send := .again, copy := .again, under := none }

/-- **C153 is false for closed connections.**  A peer that sends half a
request and closes the connection: the callback is called twice for it, and
the session stays open — with neither read nor write events wanted, so only
the timeout can end it. -/
theorem C153_eof_counterexample :
    ∃ (c : Cfg) (ops : List Op),
      let r := run c (create c 0 false false none) ops
      r.closed = false ∧ r.s.out = [] ∧ r.s.readOn = false ∧ r.s.writeOn = false ∧ r.s.st = .active ∧
      r.tr = [(1, .got [71, 69]), (1, .call [71, 69] idleReply), (2, .call [71, 69] idleReply),
        (2, .call [71, 69] idleReply)] := by
  refine ⟨⟨120000, 65536⟩,
    [.io { nothing 2 with isRead := true, recv := .eof },
     .io { nothing 1 with isRead := true, recv := .data [71, 69] }], ?_⟩
  decide +kernel

/-- **C153 is false for files.**  "A session will be closed if it does not
send or receive data for timeout milliseconds": a session that is busy
sending a file is cut off although data is flowing all the time. -/
theorem C153_copy_counterexample :
    ∃ (c : Cfg) (ops : List Op),
      let r := run c (create c 0 false false none) (.tick 111 :: ops)
      (run c (create c 0 false false none) ops).closed = false ∧ r.closed = true ∧ c.timeout = 100 ∧
      (108, Obs.copied 1000) ∈ r.tr ∧ (90, Obs.copied 1000) ∈ r.tr ∧ (50, Obs.copied 1000) ∈ r.tr ∧
      r.s.file = some 7000 := by
  refine ⟨⟨100, 65536⟩,
    [.io { nothing 108 with isWrite := true, copy := .bytes 1000 },
     .io { nothing 90 with isWrite := true, copy := .bytes 1000 },
     .io { nothing 50 with isWrite := true, copy := .bytes 1000 },
     .io { nothing 11 with isWrite := true, send := .bytes 1, copy := .bytes 1000 },
     .io { nothing 10 with isRead := true, recv := .data [1], reply := { st := .quit, take := 1, put := [2], close := false, file := some 11000 } }], ?_⟩
  decide +kernel

/-- **C153 is false with `buffer_underrun`.**  Output that the callback
`buffer_underrun` produces outside of a write event is not waited for: the
session is open, has output, and wants no write event. -/
theorem C153_underrun_counterexample :
    ∃ (c : Cfg) (ops : List Op),
      let r := run c (create c 0 false false none) ops
      r.closed = false ∧ r.s.out = [5] ∧ r.s.writeOn = false := by
  refine ⟨⟨0, 65536⟩,
    [.io { nothing 2 with isRead := true, under := some { idleReply with put := [5] } },
     .io { nothing 1 with isWrite := true }], ?_⟩
  decide +kernel

/-! Instances. -/

/-- A complete exchange: request, answer sent in two pieces, end. -/
def demo : List Op :=
  [.io { nothing 4 with isWrite := true, send := .bytes 9 },
   .io { nothing 3 with isWrite := true, send := .bytes 1 },
   .io { nothing 2 with isRead := true, recv := .data [8], reply := { st := .quit, take := 2, put := [4, 5, 6], close := false, file := none } },
   .io { nothing 1 with isRead := true, recv := .data [7] }]

example : (run ⟨100, 10⟩ (create ⟨100, 10⟩ 0 false false none) demo).closed = true ∧
    collect sentBy (run ⟨100, 10⟩ (create ⟨100, 10⟩ 0 false false none) demo).tr = [4, 5, 6] ∧
    collect gotBy (run ⟨100, 10⟩ (create ⟨100, 10⟩ 0 false false none) demo).tr = [7, 8] := by
  decide +kernel

/-- The hypotheses of `C153_complete`, `C153_quiet` and `C153_input_limit`. -/
example : (∀ o ∈ (run ⟨100, 10⟩ (create ⟨100, 10⟩ 0 false false none) demo).tr, aborts o.2 = false) ∧
    (run ⟨100, 10⟩ (create ⟨100, 10⟩ 0 false false none) (demo.drop 1)).closed = false ∧
    (∃ o ∈ (run ⟨100, 10⟩ (create ⟨100, 10⟩ 0 false false none) demo).tr, ends o.2 = true) := by
  decide +kernel

/-- The clock of `C153_idle`. -/
example : (run ⟨100, 10⟩ (create ⟨100, 10⟩ 0 false false none) (.tick 103 :: demo.drop 1)).closed = true ∧
    (run ⟨100, 10⟩ (create ⟨100, 10⟩ 0 false false none) (.tick 102 :: demo.drop 1)).closed = false := by
  decide +kernel

/-- Output waits and is waited for. -/
example : Honest ⟨100, 10⟩ (create ⟨100, 10⟩ 0 false false none) (demo.drop 1) ∧
    (run ⟨100, 10⟩ (create ⟨100, 10⟩ 0 false false none) (demo.drop 1)).s.out = [5, 6] := by
  refine ⟨?_, by decide +kernel⟩
  refine ⟨⟨⟨trivial, ?_, rfl, ?_, ?_⟩, ?_, rfl, ?_, ?_⟩, ?_, rfl, ?_, ?_⟩ <;>
    first | decide +kernel | (intro h; cases h; done) | (intro n h; cases h; done)

end Verif.Stream
