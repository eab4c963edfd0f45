import Verif.Dlep.SessionLemmas

/-! # C137, C138: framing of DLEP messages, restriction and end of a session -/

namespace Verif.Dlep

open Spec

variable {α : Type}

/-! ### C137: framing -/

/-- Every stream is, in exactly one way, a list of messages with an incomplete rest. -/
theorem C137_frames (s : Bytes) : (∃ ms r, Frames s ms r) ∧
    ∀ ms r ms' r', Frames s ms r → Frames s ms' r' → ms = ms' ∧ r = r' :=
  ⟨Frames.exists s, fun _ _ _ _ h h' => h.unique h'⟩

/-- However the network cuts the input into blocks, the session handles exactly the messages of the stream, one
after the other, until it ends.  While it is open, the input buffer contains exactly the incomplete rest and all
bytes written by the handlers have been sent; once it has ended, a beginning of them has been sent.  (Messages are
assumed to fit into the input buffer, with room for one more block.) -/
theorem C137_feed_partial (h : Handler α) (s : St α) (hk : s.restrict ≠ KILL) (limit S : Nat) (hS : S + BLOCK ≤ limit)
    (h4 : 4 ≤ S) (blocks : List Bytes) (hb : ∀ b ∈ blocks, b.length ≤ BLOCK) (ms : List (Nat × Bytes)) (r : Bytes)
    (hf : Frames blocks.flatten ms r) (hm : ∀ m ∈ ms, m.2.length + 4 ≤ S) (hr : r.length ≤ S) :
    let c := Conn.feed h limit ⟨s, [], [], false⟩ blocks
    let e := replay h s ms
    c.st = e.1 ∧ c.closed = e.2.2 ∧ (e.2.2 = false → c.inb = r ∧ c.sent = e.2.1) ∧ ∃ lost, c.sent ++ lost = e.2.1 := by
  have := feed_frames h hS h4 blocks ⟨s, [], [], false⟩ ms r rfl hk (.inl (by simp)) (by simpa using hf) hb hm hr
  simpa using this

/-- a handler which counts, echoes the payload, accepts no message of type 3 and ends the session with type 6 -/
def sampleHandler : Handler Nat where
  run := fun r n t p => ⟨if t = TERMINATION_ACK then KILL else r, KEEP, n + 1, p, if t = 3 then .error else .okay⟩
  term := fun _ => [0, 5, 0, 0]

example : Conn.feed sampleHandler LIMIT ⟨⟨ALL, 0⟩, [], [], false⟩ [[0], [9, 0, 1, 77, 0, 16, 0], [0, 0, 9, 0, 2, 1]] =
    ⟨⟨ALL, 2⟩, [0, 9, 0, 2, 1], [77], false⟩ := by
  decide +kernel

example : Frames [0, 9, 0, 1, 77, 0, 16, 0, 0, 0, 9, 0, 2, 1] [(9, [77]), (16, [])] [0, 9, 0, 2, 1] :=
  .cons (t := 9) (p := [77]) (by decide) (by decide) (.cons (t := 16) (p := []) (by decide) (by decide)
    (.rest (.inr ⟨9, 2, [1], rfl, by decide, by decide, by decide⟩)))

/-- Two ways to cut the same stream lead to the same state of the session; while the session is open also to the
same output. -/
theorem C137_segmentation_partial (h : Handler α) (s : St α) (hk : s.restrict ≠ KILL) (limit S : Nat)
    (hS : S + BLOCK ≤ limit) (h4 : 4 ≤ S) (a b : List Bytes) (hab : a.flatten = b.flatten)
    (ha : ∀ x ∈ a, x.length ≤ BLOCK) (hb : ∀ x ∈ b, x.length ≤ BLOCK) (ms : List (Nat × Bytes)) (r : Bytes)
    (hf : Frames a.flatten ms r) (hm : ∀ m ∈ ms, m.2.length + 4 ≤ S) (hr : r.length ≤ S) :
    let x := Conn.feed h limit ⟨s, [], [], false⟩ a
    let y := Conn.feed h limit ⟨s, [], [], false⟩ b
    x.st = y.st ∧ x.closed = y.closed ∧ (x.closed = false → x.inb = y.inb ∧ x.sent = y.sent) := by
  obtain ⟨a1, a2, a3, _⟩ := C137_feed_partial h s hk limit S hS h4 a ha ms r hf hm hr
  obtain ⟨b1, b2, b3, _⟩ := C137_feed_partial h s hk limit S hS h4 b hb ms r (hab ▸ hf) hm hr
  refine ⟨a1.trans b1.symm, a2.trans b2.symm, ?_⟩
  intro hc
  rw [a2] at hc
  exact ⟨(a3 hc).1.trans (b3 hc).1.symm, (a3 hc).2.trans (b3 hc).2.symm⟩

/-- What the peer gets depends on the blocks: a malformed message is answered with Session Termination, but if the
next message is in the same block, the connection is closed before the answer is sent. -/
theorem C137_lost_output_counterexample :
    ∃ (h : Handler Nat) (a b : List Bytes), a.flatten = b.flatten ∧
      (Conn.feed h LIMIT ⟨⟨ALL, 0⟩, [], [], false⟩ a).sent = h.term 1 ∧
      (Conn.feed h LIMIT ⟨⟨ALL, 0⟩, [], [], false⟩ b).sent = [] ∧ h.term 1 ≠ [] := by
  refine ⟨sampleHandler, [[0, 3, 0, 0], [0, 16, 0, 0]], [[0, 3, 0, 0, 0, 16, 0, 0]], rfl, ?_, ?_, ?_⟩ <;> decide +kernel

/-- Messages which do not fit into the input buffer (4096 bytes) are legal, and the writer writes them, but they are
never handled: the connection is closed without an answer, however the message is cut into blocks. -/
theorem C137_large_message_counterexample (h : Handler α) (s : St α) (hk : s.restrict ≠ KILL) (t : Nat) (p : Bytes)
    (ht : t < 65536) (hp : p.length < 65536) (hl : LIMIT < 4 + p.length) (blocks : List Bytes)
    (hb : blocks.flatten = be16 t ++ be16 p.length ++ p) :
    let c := Conn.feed h LIMIT ⟨s, [], [], false⟩ blocks
    c.closed = true ∧ c.st = s ∧ c.sent = [] :=
  feed_large h ht hp hl blocks ⟨s, [], [], false⟩ rfl hk (Nat.zero_le _) (by simpa using hb)

example : (List.replicate 4093 (0 : UInt8)).length < 65536 ∧ LIMIT < 4 + (List.replicate 4093 (0 : UInt8)).length := by
  rw [List.length_replicate]
  decide

/-! ### C138: restriction and end of a session -/

/-- While a session waits for one type of message, a message of another type ends it: no handler runs and nothing is
sent. -/
theorem C138_restricted (h : Handler α) (s : St α) (t : Nat) (p : Bytes) (l : List (Nat × Bytes))
    (hr : s.restrict ≠ ALL) (ht : s.restrict ≠ t) : replay h s ((t, p) :: l) = (s, [], true) := by
  simp only [replay, message]
  rw [if_pos (⟨hr, ht⟩ : s.restrict ≠ ALL ∧ s.restrict ≠ (t : Int))]
  simp

/-- the handlers of a session with the base protocol -/
def baseHandler (parse : α → Int → Bytes → Bool) (ack : Bytes) (other : Int → α → Int → Bytes → HRes α)
    (term : α → Bytes) : Handler α := ⟨baseRun parse ack other, term⟩

/-- a session which counts the other messages, answers them with one byte and fails with the fourth; a payload which
starts with 255 is malformed -/
def countHandler : Handler Nat :=
  baseHandler (fun _ _ p => p.head? ≠ some 255) [0, 6, 0, 0]
    (fun r a _ _ => ⟨r, KEEP, a + 1, [9], if a < 3 then .okay else .terminated⟩) (fun _ => [0, 5, 0, 0])

example : replay countHandler ⟨3, 0⟩ [(4, []), (3, [])] = (⟨3, 0⟩, [], true) ∧
    replay countHandler ⟨3, 0⟩ [(3, []), (3, [])] = (⟨3, 2⟩, [9, 9], false) := by
  decide +kernel

theorem message_ack (parse : α → Int → Bytes → Bool) (ack : Bytes) (other : Int → α → Int → Bytes → HRes α)
    (term : α → Bytes) (a : α) (t : Nat) (p : Bytes) :
    message (baseHandler parse ack other term) ⟨TERMINATION_ACK, a⟩ t p =
      if t ≠ 6 then (⟨TERMINATION_ACK, a⟩, [], false)
      else if parse a TERMINATION_ACK p then (⟨KILL, a⟩, [], true)
      else (⟨TERMINATION_ACK, a⟩, term a, true) := by
  by_cases ht : t = 6
  · subst ht
    rw [if_neg (by simp)]
    simp only [message]
    rw [if_neg (show ¬ (TERMINATION_ACK ≠ ALL ∧ TERMINATION_ACK ≠ ((6 : Nat) : Int)) by decide)]
    have e6 : ((6 : Nat) : Int) = TERMINATION_ACK := rfl
    rw [e6]
    simp only [baseHandler, baseRun]
    cases hp : parse a TERMINATION_ACK p with
    | false =>
      rw [if_pos rfl]
      simp only [sendTerminate]
      rw [if_pos (show TERMINATION_ACK ≠ DISCOVERY ∧ TERMINATION_ACK ≠ OFFER by decide)]
      simp
    | true =>
      rw [if_neg (by simp), if_neg (by decide), if_pos rfl]
      simp
  · rw [if_pos ht]
    simp only [message]
    rw [if_pos]
    refine ⟨by decide, ?_⟩
    simp only [TERMINATION_ACK]
    omega

/-- After a Session Termination has been sent no handler changes the application any more, whatever is received; the
first message which is not a malformed acknowledgement ends the session. -/
theorem C138_terminating (parse : α → Int → Bytes → Bool) (ack : Bytes) (other : Int → α → Int → Bytes → HRes α)
    (term : α → Bytes) (a : α) (ms : List (Nat × Bytes)) :
    (replay (baseHandler parse ack other term) ⟨TERMINATION_ACK, a⟩ ms).1.app = a ∧
    ((replay (baseHandler parse ack other term) ⟨TERMINATION_ACK, a⟩ ms).2.2 = true ↔
      ∃ m ∈ ms, m.1 ≠ 6 ∨ parse a TERMINATION_ACK m.2 = true) := by
  induction ms with
  | nil => simp [replay]
  | cons m l ih =>
    obtain ⟨t, p⟩ := m
    simp only [replay, message_ack]
    by_cases ht : t = 6
    · rw [if_neg (show ¬ t ≠ 6 by simpa using ht)]
      cases hp : parse a TERMINATION_ACK p with
      | false =>
        simp only [Bool.false_eq_true, if_false]
        rw [if_neg (show ¬ (true = false ∨ TERMINATION_ACK = KILL) by decide)]
        refine ⟨ih.1, ?_⟩
        rw [ih.2]
        simp [ht, hp]
      | true =>
        simp only [if_true]
        rw [if_pos (.inr trivial)]
        simp [hp]
    · rw [if_pos ht]
      simp [ht]

example : replay countHandler ⟨TERMINATION_ACK, 2⟩ [(6, [255]), (6, []), (9, [])] = (⟨KILL, 2⟩, [0, 5, 0, 0], true) := by
  decide +kernel

/-- A malformed message of an open session is answered with Session Termination, changes nothing else, and the
session waits for the acknowledgement. -/
theorem C138_malformed (parse : α → Int → Bytes → Bool) (ack : Bytes) (other : Int → α → Int → Bytes → HRes α)
    (term : α → Bytes) (s : St α) (t : Nat) (p : Bytes) (hr : s.restrict = ALL ∨ s.restrict = t)
    (ht : t < 65536) (hp : parse s.app t p = false) :
    message (baseHandler parse ack other term) s t p = (⟨TERMINATION_ACK, s.app⟩, term s.app, true) := by
  have hu : s.restrict ≠ DISCOVERY ∧ s.restrict ≠ OFFER := by
    simp only [DISCOVERY, OFFER, UDP]
    simp only [ALL] at hr
    omega
  simp only [message]
  rw [if_neg (by rcases hr with h | h <;> simp [h])]
  simp only [baseHandler, baseRun, hp, if_true, sendTerminate]
  rw [if_pos hu]
  simp

example : message countHandler ⟨ALL, 2⟩ 9 [255] = (⟨TERMINATION_ACK, 2⟩, [0, 5, 0, 0], true) := by decide +kernel

/-- Session Termination of the peer is acknowledged … -/
theorem C138_acknowledged (parse : α → Int → Bytes → Bool) (ack : Bytes) (other : Int → α → Int → Bytes → HRes α)
    (term : α → Bytes) (a : α) (p : Bytes) (hp : parse a TERMINATION p = true) :
    message (baseHandler parse ack other term) ⟨ALL, a⟩ TERMINATION p = (⟨ALL, a⟩, ack, true) := by
  simp only [message]
  rw [if_neg (by simp)]
  simp only [baseHandler, baseRun, hp]
  simp

example : replay countHandler ⟨ALL, 0⟩ [(5, []), (9, [])] = (⟨ALL, 1⟩, [0, 6, 0, 0, 9], false) := by decide +kernel

/-- … but the session goes on: every following message is handled as before (RFC 8175 demands that the session is
reset). -/
theorem C138_goes_on_counterexample (parse : α → Int → Bytes → Bool) (ack : Bytes)
    (other : Int → α → Int → Bytes → HRes α) (term : α → Bytes) (a : α) (p : Bytes)
    (hp : parse a TERMINATION p = true) (ms : List (Nat × Bytes)) :
    (replay (baseHandler parse ack other term) ⟨ALL, a⟩ ((5, p) :: ms)).1 =
      (replay (baseHandler parse ack other term) ⟨ALL, a⟩ ms).1 := by
  have h := C138_acknowledged parse ack other term a p hp
  simp only [replay]
  have e5 : ((5 : Nat) : Int) = TERMINATION := rfl
  rw [e5, h]
  simp [ALL, KILL]

/-- A handler which reports an error ends the session without Session Termination: nothing of this block is sent. -/
theorem C138_handler_error_counterexample (h : Handler α) (c : Conn α) (t : Nat) (p : Bytes) (hc : c.closed = false)
    (hi : c.inb = []) (hr : c.st.restrict = ALL) (ht : t < 65536) (hp : 4 + p.length ≤ LIMIT)
    (he : (h.run ALL c.st.app t p).res = .terminated) :
    (c.receive h LIMIT (be16 t ++ be16 p.length ++ p)).closed = true ∧
      (c.receive h LIMIT (be16 t ++ be16 p.length ++ p)).sent = c.sent := by
  have hp' : p.length < 65536 := by simp only [LIMIT] at hp; omega
  have hf : Frames (be16 t ++ be16 p.length ++ p) [(t, p)] [] := by
    have := Frames.cons ht hp' (.rest (s := []) (.inl (by simp)))
    simpa using this
  have hm : message h c.st t p = (⟨(h.run ALL c.st.app t p).restrict, (h.run ALL c.st.app t p).app⟩,
      (h.run ALL c.st.app t p).out, false) := by
    simp only [message, hr]
    rw [if_neg (by simp)]
    simp only [he]
  have hre : (replay h c.st [(t, p)]).2.2 = true := by simp [replay, hm]
  obtain ⟨_, _, p3, _⟩ := processBuffer_frames h hf ((be16 t ++ be16 p.length ++ p).length + 1) c.st 0 [] (by omega)
    (Int.le_refl _) (by rw [hr]; decide)
  simp only [Conn.receive, hc, hi, List.nil_append]
  rw [if_neg (by simp), if_neg (by simp only [List.length_append, be16_length]; omega), if_pos (p3.mp hre)]
  exact ⟨rfl, rfl⟩

example : (countHandler.run ALL 3 9 []).res = .terminated ∧
    ((⟨⟨ALL, 3⟩, [], [], false⟩ : Conn Nat).receive countHandler LIMIT [0, 9, 0, 0]).closed = true := by
  decide +kernel

/-- The daemon ends an established session (shutdown, lost heartbeats) without telling the peer; a session which is
not established yet, or already terminating, gets the message. -/
theorem C138_terminate_counterexample (h : Handler α) (s : St α) :
    (terminate h s).1 = { s with restrict := TERMINATION_ACK } ∧
    (s.restrict = ALL → (terminate h s).2 = []) ∧ (s.restrict ≠ ALL → (terminate h s).2 = h.term s.app) := by
  refine ⟨rfl, ?_, ?_⟩
  · intro hs; simp [terminate, hs]
  · intro hs; simp [terminate, hs]

/-- A peer which stays silent loses its session with the second expiry of the heartbeat timer at the latest. -/
theorem C138_heartbeat (h : Handler α) (s : St α) :
    (heartbeat h s).2.2 = true ∨ (heartbeat h (heartbeat h s).1).2.2 = true := by
  simp only [heartbeat]
  by_cases hs : s.restrict = TERMINATION_ACK
  · rw [if_pos hs]; exact .inl rfl
  · rw [if_neg hs]; exact .inr rfl

example : (heartbeat countHandler ⟨ALL, 0⟩).2.2 = false := by decide +kernel

end Verif.Dlep
