import Verif.Replay.Lemmas
import Verif.Replay.Clock

namespace Verif.Replay

/-! ## C133: no packet is processed twice -/

/-- C133: whatever the network replays, reorders or loses, the timestamps of the packets which B processes grow strictly, so
none is processed twice — if B never forgets A, or A's counter started at or above the window. -/
theorem C133_replay_partial (c : Cfg) (la lb : UInt32) (ops : List Op) (w : World) (hr : run c (start la lb) ops = some w)
    (hl : c.window.toNat ≤ la.toNat ∨ Op.expireB ∉ ops) : w.accepted.Pairwise (fun newer older => older < newer) ∧ w.accepted.Nodup := by
  have h := (inv_run (inv_start c la lb) hl hr).sorted
  refine ⟨h.imp (fun x => UInt32.lt_iff_toNat_lt.mpr x), h.imp (fun x e => ?_)⟩
  rw [e] at x
  exact Nat.lt_irrefl _ x

/-- a run with challenge, response and attempts to replay -/
def demoRun : List Op := [.sendA false, .sendA false, .toB 0 0, .toB 1 1, .sendB true, .toA 2 0, .sendA true, .toB 3 2, .sendA false, .toB 4 3, .toB 5 2, .toB 6 3, .expireB,
  .toB 7 3, .toB 8 2, .toB 9 3]

example : (run ⟨100, 10000, 60000⟩ (start 1000 1) demoRun).map (fun w => w.accepted) = some [1004, 1003] := by decide +kernel

/-- C133 (processed packets were sent by the neighbor) -/
theorem C133_origin (c : Cfg) (la lb : UInt32) (ops : List Op) (w : World) (hr : run c (start la lb) ops = some w) :
    ∀ t ∈ w.accepted, ∃ p ∈ w.fromA, p.ts = t := by
  have key : ∀ (ops : List Op) (w w' : World), (∀ t ∈ w.accepted, ∃ p ∈ w.fromA, p.ts = t) → run c w ops = some w' → ∀ t ∈ w'.accepted, ∃ p ∈ w'.fromA, p.ts = t := by
    intro ops
    induction ops with
    | nil => intro w w' h hr; injection hr with hr; rw [← hr]; exact h
    | cons o ops ih =>
      intro w w' h hr
      rw [run] at hr
      obtain ⟨w1, hs, hr⟩ := Option.bind_eq_some_iff.mp hr
      refine ih w1 w' ?_ hr
      cases o with
      | sendA u =>
        unfold step at hs; dsimp only at hs
        split at hs
        · injection hs with hs; subst hs
          intro t ht
          obtain ⟨p, hp, e⟩ := h t ht
          exact ⟨p, List.mem_append_left _ hp, e⟩
        · cases hs
      | sendB u =>
        unfold step at hs; dsimp only at hs
        split at hs
        · injection hs with hs; subst hs; exact h
        · cases hs
      | toA now i =>
        unfold step at hs; dsimp only at hs
        split at hs
        · cases hs
        · split at hs
          · injection hs with hs; subst hs; exact h
          · cases hs
      | toB now i =>
        unfold step at hs; dsimp only at hs
        split at hs
        · cases hs
        · next p hi =>
          split at hs
          · injection hs with hs; subst hs
            intro t ht
            dsimp only at ht
            split at ht
            · rcases List.mem_cons.mp ht with rfl | ht
              · exact ⟨p, List.mem_of_getElem? hi, rfl⟩
              · exact h t ht
            · exact h t ht
          · cases hs
      | expireA => injection hs with hs; subst hs; exact h
      | expireB => injection hs with hs; subst hs; exact h
  exact key ops _ w (fun t ht => by cases ht) hr

/-- C133 fails for nodes that have just started: once B has forgotten A, packets with timestamps below the window are processed
again without a challenge. -/
theorem C133_forgotten_counterexample : ∃ (c : Cfg) (ops : List Op) (w : World), c.window = 100 ∧ run c (start 1 1) ops = some w ∧ w.accepted = [3, 3] := by
  refine ⟨⟨100, 10000, 60000⟩, [.sendA false, .sendA false, .toB 0 0, .toB 1 1, .expireB, .toB 2 0, .toB 3 1], _, rfl, rfl, ?_⟩
  decide +kernel

/-- C133 fails if B is restarted: its counter starts again, its queries repeat, and an old response is processed again. -/
theorem C133_restart_counterexample : ∃ (c : Cfg) (ops ops' : List Op) (w w' : World), run c (start 1000 1) ops = some w ∧
    run c { w with b := ⟨1, fun _ => none⟩ } ops' = some w' ∧ (∀ o ∈ ops', ∃ now i, o = .toB now i) ∧ w'.accepted = [1003, 1003] := by
  refine ⟨⟨100, 10000, 60000⟩, [.sendA false, .sendA false, .toB 0 0, .toB 1 1, .sendB true, .toA 2 0, .sendA true, .toB 3 2], [.toB 4 0, .toB 5 1, .toB 6 2], _, _, rfl, rfl, ?_, ?_⟩
  · intro o ho
    simp at ho
    rcases ho with rfl | rfl | rfl <;> exact ⟨_, _, rfl⟩
  · decide +kernel

/-- C133 fails with a third node: a response is not bound to the node which asked. If A answers a query of node 2 with a number that B
asks for later, B processes this packet, however old it is, and goes back to its timestamp. -/
theorem C133_third_counterexample (c : Cfg) (now : Nat) (a b : Party) (n m : Node) (hb : b.nodes 0 = some n) (hq : n.query ≠ 0) (ha : a.nodes 2 = some m)
    (he : m.response = n.query) : (receive c now b 0 (sendTo a (some 2)).2).2 = true ∧
      ∃ n', (receive c now b 0 (sendTo a (some 2)).2).1.nodes 0 = some n' ∧ n'.last = a.loc + 1 := by
  have hs : (sendTo a (some 2)).2 = ⟨a.loc + 1, m.query, m.response⟩ := by rw [sendTo_known ha]
  rw [hs]
  have hv : valid c n (a.loc + 1) m.response = true := by
    unfold valid
    have : 0 < n.query := by
      rw [UInt32.lt_iff_toNat_lt]
      apply Nat.pos_of_ne_zero
      intro e; exact hq (eq_zero_of e)
    simp [he, this]
  have hj : (receive c now b 0 ⟨a.loc + 1, m.query, m.response⟩).2 = true := by
    rw [receive_known c now _ hb, judge_result]
    exact hv
  refine ⟨hj, ?_⟩
  obtain ⟨n', hn', _, _, hc⟩ := receive_spec c now b 0 ⟨a.loc + 1, m.query, m.response⟩
  refine ⟨n', hn', ?_⟩
  rcases hc with ⟨_, _, e, _⟩ | ⟨e, _⟩ | ⟨e, _⟩
  · exact e
  · rw [hj] at e; cases e
  · rw [hj] at e; cases e

/-! ## C134: a neighbor's packets are processed -/

/-- C134: a packet of a known neighbor is processed exactly if it answers the pending query, or its timestamp is above the last one by
less than the window (for counters that do not overflow). -/
theorem C134_decision_partial (c : Cfg) (now : Nat) (p : Party) (k : Nat) (pkt : Packet) (n : Node) (hn : p.nodes k = some n)
    (hw : n.last.toNat + c.window.toNat < 2 ^ 32) : (receive c now p k pkt).2 = true ↔
      (n.query ≠ 0 ∧ pkt.response = n.query) ∨ (n.last.toNat < pkt.ts.toNat ∧ pkt.ts.toNat < n.last.toNat + c.window.toNat) := by
  have hr : (receive c now p k pkt).2 = valid c n pkt.ts pkt.response := by
    rw [receive_known c now _ hn, judge_result]; rfl
  rw [hr]
  have h1 : (n.last + c.window).toNat = n.last.toNat + c.window.toNat := by
    rw [UInt32.toNat_add]; exact Nat.mod_eq_of_lt hw
  have h2 : 0 < n.query ↔ n.query ≠ 0 := by
    constructor
    · intro h e; rw [e] at h; exact absurd h (by decide)
    · intro h
      rw [UInt32.lt_iff_toNat_lt]
      exact Nat.pos_of_ne_zero (fun e => h (eq_zero_of e))
  simp only [valid, Bool.or_eq_true, Bool.and_eq_true, decide_eq_true_eq, beq_iff_eq, h2, UInt32.lt_iff_toNat_lt, h1]

/-- C134 (one round trip): if a packet of a known neighbor is dropped with a timestamp other than the last one, then B's next packet to A
asks a question, A's next packet to B answers it, and this packet is processed, whatever its timestamp is; and on both sides a
timer runs that sends this packet. -/
theorem C134_handshake (c : Cfg) (t1 t2 t3 : Nat) (a b : Party) (n : Node) (pkt : Packet) (hn : b.nodes 0 = some n) (hd : (receive c t1 b 0 pkt).2 = false)
    (hne : pkt.ts ≠ n.last) (hw : b.loc.toNat + 1 < 2 ^ 32) :
    let b1 := (receive c t1 b 0 pkt).1
    let b2 := sendTo b1 (some 0)
    let a1 := (receive c t2 a 1 b2.2).1
    let a2 := sendTo a1 (some 1)
    (receive c t3 b2.1 0 a2.2).2 = true ∧ (∃ m, b1.nodes 0 = some m ∧ m.trigger.isSome = true) ∧ (∃ m, a1.nodes 1 = some m ∧ m.trigger.isSome = true) := by
  have trig : ∀ (t : Nat) (m : Node), m.query ≠ 0 ∨ m.response ≠ 0 → (startTrigger c t m).trigger.isSome = true := by
    intro t m h
    have pos : ∀ x : UInt32, x ≠ 0 → 0 < x := by
      intro x h
      rw [UInt32.lt_iff_toNat_lt]
      exact Nat.pos_of_ne_zero (fun e => h (eq_zero_of e))
    unfold startTrigger
    have : (decide (0 < m.query) || decide (0 < m.response)) = true := by
      rcases h with h | h
      · simp [pos _ h]
      · simp [pos _ h]
    rw [this]
    rcases ht : m.trigger with _ | d <;> simp [ht]
  have recvTrig : ∀ (t : Nat) (p : Party) (k : Nat) (u : Packet) (x : Node), (receive c t p k u).1.nodes k = some x → x.query ≠ 0 ∨ x.response ≠ 0 →
      x.trigger.isSome = true := by
    intro t p k u x hx h
    unfold receive at hx
    simp only [Party.set, if_true] at hx
    injection hx with hx
    subst hx
    apply trig
    rcases h with h | h
    · left; change (startTrigger c t _).query ≠ 0 at h; rw [(startTrigger_fields c t _).2.1] at h; exact h
    · right; change (startTrigger c t _).response ≠ 0 at h; rw [(startTrigger_fields c t _).2.2] at h; exact h
  -- B's node after the packet
  have hb1 : ∃ m, (receive c t1 b 0 pkt).1.nodes 0 = some m ∧ m.query ≠ 0 ∧ m.trigger.isSome = true := by
    have hq : ∃ m, (judge c b.loc { n with response := pkt.query } pkt.ts pkt.response).1 = m ∧ m.query ≠ 0 := by
      refine ⟨_, rfl, ?_⟩
      have hv : valid c { n with response := pkt.query } pkt.ts pkt.response = false := by
        rw [receive_known c t1 _ hn, judge_result] at hd
        exact hd
      unfold judge
      rw [hv, if_neg (by decide), if_neg (show ¬ n.last = pkt.ts from fun e => hne e.symm)]
      by_cases q : n.query = 0
      · rw [if_pos (show ({ n with response := pkt.query } : Node).query = 0 from q)]
        show b.loc + 1 ≠ 0
        intro e
        have := succ_toNat hw
        rw [e] at this
        cases this
      · rw [if_neg (show ¬ ({ n with response := pkt.query } : Node).query = 0 from q)]
        exact q
    obtain ⟨m, hm, hmq⟩ := hq
    refine ⟨{ startTrigger c t1 m with vtime := t1 + c.vtime }, ?_, ?_, ?_⟩
    · rw [receive_known c t1 _ hn, hm]
      simp only [Party.set, if_true]
    · show (startTrigger c t1 m).query ≠ 0
      rw [(startTrigger_fields c t1 m).2.1]; exact hmq
    · exact trig t1 m (Or.inl hmq)
  obtain ⟨m, hm, hmq, hmt⟩ := hb1
  dsimp only
  have hb2 : (sendTo (receive c t1 b 0 pkt).1 (some 0)).2.query = m.query := by rw [sendTo_known hm]
  have hb2n : (sendTo (receive c t1 b 0 pkt).1 (some 0)).1.nodes 0 = some { m with response := 0 } := by rw [sendTo_known hm]; simp [Party.set]
  obtain ⟨x, hx, hxr, _, _⟩ := receive_spec c t2 a 1 (sendTo (receive c t1 b 0 pkt).1 (some 0)).2
  have ha2 : (sendTo (receive c t2 a 1 (sendTo (receive c t1 b 0 pkt).1 (some 0)).2).1 (some 1)).2.response = m.query := by
    rw [sendTo_known hx]
    exact hxr.trans hb2
  refine ⟨?_, ⟨m, hm, hmt⟩, ?_⟩
  · generalize hv : (sendTo (receive c t2 a 1 (sendTo (receive c t1 b 0 pkt).1 (some 0)).2).1 (some 1)).2 = v at ha2
    have pos : 0 < m.query := by
      rw [UInt32.lt_iff_toNat_lt]
      exact Nat.pos_of_ne_zero (fun e => hmq (eq_zero_of e))
    rw [receive_known c t3 _ hb2n, judge_result]
    simp [valid, ha2, pos]
  · refine ⟨x, hx, ?_⟩
    exact recvTrig t2 a 1 _ x hx (Or.inr (by rw [hxr, hb2]; exact hmq))

example : (receive ⟨100, 10000, 60000⟩ 0 ⟨7, fun _ => some ⟨5000, 0, 0, none, 0⟩⟩ 0 ⟨3, 0, 0⟩).2 = false ∧ (3 : UInt32) ≠ 5000 := by decide +kernel

/-- C134 fails for the first packet of a neighbor: it is dropped without asking a question ("reset timestamp to force query"), so a
neighbor whose packets are further apart than the validity time is never heard. -/
theorem C134_first_counterexample (c : Cfg) (now : Nat) (p : Party) (k : Nat) (pkt : Packet) (hn : p.nodes k = none) :
    (receive c now p k pkt).2 = false ∧ (∃ n, (receive c now p k pkt).1.nodes k = some n ∧ n.query = 0 ∧ (pkt.query = 0 → n.trigger = none)) ∧
    (expire (receive c now p k pkt).1 k).nodes k = none := by
  have hj : judge c p.loc { Node.zero with response := pkt.query } 0 pkt.response = ({ Node.zero with response := pkt.query }, p.loc, false) := by
    unfold judge
    rw [if_neg (by simp [valid, Node.zero]), if_pos (show Node.zero.last = 0 from rfl)]
  refine ⟨?_, ?_, by simp [expire, Party.set]⟩
  · unfold receive
    simp only [hn, Option.isNone_none, if_true, Option.getD_none, hj]
  · refine ⟨{ startTrigger c now { Node.zero with response := pkt.query } with vtime := now + c.vtime }, ?_, ?_, ?_⟩
    · unfold receive
      simp only [hn, Option.isNone_none, if_true, Option.getD_none, hj, Party.set]
    · show (startTrigger c now _).query = 0
      rw [(startTrigger_fields c now _).2.1]; rfl
    · intro e
      rw [e]
      rfl

/-- C134 fails if a packet to all arrives between the question and the answer: the question is forgotten. -/
theorem C134_lost_counterexample (c : Cfg) (t t' : Nat) (a : Party) (u m : Packet) (hm : m.query = 0) :
    (sendTo (receive c t' (receive c t a 1 u).1 1 m).1 (some 1)).2.response = 0 := by
  obtain ⟨x, hx, hxr, _, _⟩ := receive_spec c t' (receive c t a 1 u).1 1 m
  rw [sendTo_known hx]
  exact hxr.trans hm

/-- C134 fails near the end of the counter: if the last timestamp plus the window overflows, no packet is processed without a challenge. -/
theorem C134_overflow_counterexample (c : Cfg) (now : Nat) (p : Party) (k : Nat) (pkt : Packet) (n : Node) (hn : p.nodes k = some n) (hq : n.query = 0)
    (hw : 2 ^ 32 ≤ n.last.toNat + c.window.toNat) : (receive c now p k pkt).2 = false := by
  have hv : valid c n pkt.ts pkt.response = false := by
    unfold valid
    rw [hq]
    have : ¬ (n.last < pkt.ts ∧ pkt.ts < n.last + c.window) := by
      rw [UInt32.lt_iff_toNat_lt, UInt32.lt_iff_toNat_lt, UInt32.toNat_add]
      have h1 := n.last.toNat_lt
      have h2 := c.window.toNat_lt
      omega
    simpa using this
  obtain ⟨n', _, _, _, hc⟩ := receive_spec c now p k pkt
  rcases hc with ⟨_, ⟨m, hm, hv'⟩, _⟩ | ⟨e, _⟩ | ⟨e, _⟩
  · rw [hn] at hm
    injection hm with hm
    rw [← hm, hv] at hv'
    cases hv'
  · exact e
  · exact e

example : 2 ^ 32 ≤ (0xfffffff0 : UInt32).toNat + (100 : UInt32).toNat := by decide

/-! ## C135: no timer outlives its node -/

theorem receive_timers (c : Cfg) (now : Nat) (p : Party) (k : Nat) (pkt : Packet) (n' : Node) (h : (receive c now p k pkt).1.nodes k = some n') :
    n'.vtime = now + c.vtime ∧ ∀ d, n'.trigger = some d → (∃ n, p.nodes k = some n ∧ n.trigger = some d) ∨ d = now + 1 ∨ d = now + c.delay := by
  unfold receive at h
  simp only [Party.set, if_true] at h
  injection h with h
  subst h
  refine ⟨rfl, ?_⟩
  intro d hd
  dsimp only at hd
  generalize hts : (if (p.nodes k).isNone = true then (0 : UInt32) else pkt.ts) = ts at hd
  have hj : ∀ d, (judge c p.loc { (p.nodes k).getD Node.zero with response := pkt.query } ts pkt.response).1.trigger = some d →
      ∃ n, p.nodes k = some n ∧ n.trigger = some d := by
    intro d hd
    have : ((p.nodes k).getD Node.zero).trigger = some d := by
      unfold judge at hd
      split at hd
      · dsimp only at hd
        split at hd
        · cases hd
        · exact hd
      · split at hd
        · exact hd
        · split at hd <;> exact hd
    rcases hn : p.nodes k with _ | n
    · rw [hn] at this; cases this
    · rw [hn] at this; exact ⟨n, rfl, this⟩
  unfold startTrigger at hd
  split at hd
  · dsimp only at hd
    injection hd with hd
    right
    split at hd
    · exact Or.inl hd.symm
    · exact Or.inr hd.symm
  · exact Or.inl (hj d hd)

/-- C135: if the trigger delay (and one millisecond) is shorter than the validity time, no timer of a freed node is running. -/
theorem C135_timers_partial (c : Cfg) (loc : UInt32) (s : Clocked) (h1 : 1 < c.vtime) (h2 : c.delay < c.vtime) (hr : Ticks c (.init loc) s) : s.dangling = false := by
  have key : s.dangling = false ∧ ∀ k n, s.p.nodes k = some n → n.vtime ≤ s.now + c.vtime ∧ ∀ d, n.trigger = some d → d < n.vtime := by
    induction hr with
    | refl => exact ⟨rfl, fun k n h => nomatch h⟩
    | tail _ ht ih =>
      obtain ⟨hd, hi⟩ := ih
      cases ht with
      | @recv t k pkt hle hq =>
        refine ⟨hd, ?_⟩
        intro j n' hn'
        dsimp only at hn' ⊢
        by_cases e : j = k
        · subst e
          obtain ⟨e1, e2⟩ := receive_timers c t _ j pkt n' hn'
          refine ⟨by omega, ?_⟩
          intro d hd'
          rw [e1]
          rcases e2 d hd' with ⟨n, hn, hx⟩ | rfl | rfl
          · have a := (hi j n hn).1
            have b := (hi j n hn).2 d hx
            omega
          · omega
          · omega
        · rw [receive_other c t _ k j pkt e] at hn'
          have := (hi j n' hn').1
          exact ⟨by omega, (hi j n' hn').2⟩
      | @send t k hle hq =>
        refine ⟨hd, ?_⟩
        intro j n' hn'
        obtain ⟨n, hn, _, _, _, e1, e2⟩ := (sendTo_spec _ k).2.2.2 j n' hn'
        have := (hi j n hn).1
        dsimp only
        rw [e1, e2]
        exact ⟨by omega, (hi j n hn).2⟩
      | @trigger t k m hle hq hm htr =>
        refine ⟨hd, ?_⟩
        intro j n' hn'
        obtain ⟨n, hn, _, _, _, e1, e2⟩ := (sendTo_spec _ (some k)).2.2.2 j n' hn'
        dsimp only
        rw [e1, e2]
        by_cases e : j = k
        · subst e
          simp only [Party.set, if_true] at hn
          injection hn with hn
          subst hn
          have := (hi j m hm).1
          exact ⟨by dsimp only; omega, fun d hd => nomatch hd⟩
        · simp only [Party.set, if_neg e] at hn
          have := (hi j n hn).1
          exact ⟨by omega, (hi j n hn).2⟩
      | @timeout k m hle hq hm =>
        have hnone : m.trigger = none := by
          rcases hx : m.trigger with _ | d
          · rfl
          · have a := (hi k m hm).2 d hx
            have b := (hq k m hm).2 d hx
            omega
        refine ⟨by dsimp only; rw [hd, hnone]; rfl, ?_⟩
        intro j n hn
        dsimp only at hn ⊢
        simp only [expire, Party.set] at hn
        split at hn
        · cases hn
        · have := (hi j n hn).1
          exact ⟨by omega, (hi j n hn).2⟩
  exact key.1

/-- C135 fails for longer delays (the configuration has no upper limit): the node is freed while its trigger timer runs. -/
theorem C135_delay_counterexample (c : Cfg) (h : c.vtime ≤ c.delay) (hw : c.window.toNat < 1000) : ∃ s, Ticks c (.init 1) s ∧ s.dangling = true := by
  have e1 : (Clocked.init 1).p.nodes 5 = none := rfl
  have hr1 : (receive c 0 (Clocked.init 1).p 5 ⟨2, 0, 0⟩).1.nodes 5 = some ⟨0, 0, 0, none, c.vtime⟩ := by
    unfold receive judge valid startTrigger
    simp [Clocked.init, Node.zero, Party.set]
  have hr1l : (receive c 0 (Clocked.init 1).p 5 ⟨2, 0, 0⟩).1.loc = 1 := by
    unfold receive judge valid
    simp [Clocked.init, Node.zero]
  have hother : ∀ k n, (receive c 0 (Clocked.init 1).p 5 ⟨2, 0, 0⟩).1.nodes k = some n → k = 5 := by
    intro k n hn
    by_cases e : k = 5
    · exact e
    · rw [receive_other c 0 _ 5 k _ e] at hn; cases hn
  have hv : valid c ⟨0, 0, 0, none, c.vtime⟩ 1000 0 = false := by
    unfold valid
    have : ¬ ((1000 : UInt32) < 0 + c.window) := by
      rw [UInt32.lt_iff_toNat_lt]
      simp
      omega
    simp
    simpa using this
  have hr2 : (receive c 0 (receive c 0 (Clocked.init 1).p 5 ⟨2, 0, 0⟩).1 5 ⟨1000, 0, 0⟩).1.nodes 5 = some ⟨0, 2, 0, some c.delay, c.vtime⟩ := by
    generalize hg : (receive c 0 (Clocked.init 1).p 5 ⟨2, 0, 0⟩).1 = q at hr1 hr1l
    rw [receive_known c 0 _ hr1, hr1l]
    simp only [Party.set, if_true]
    unfold judge
    rw [hv]
    simp [startTrigger]
  have t1 : Tick c (Clocked.init 1) ⟨0, (receive c 0 (Clocked.init 1).p 5 ⟨2, 0, 0⟩).1, false⟩ :=
    Tick.recv (s := Clocked.init 1) (t := 0) (Nat.le_refl _) (fun k n hn => nomatch hn)
  have t2 : Tick c ⟨0, (receive c 0 (Clocked.init 1).p 5 ⟨2, 0, 0⟩).1, false⟩ ⟨0, (receive c 0 (receive c 0 (Clocked.init 1).p 5 ⟨2, 0, 0⟩).1 5 ⟨1000, 0, 0⟩).1, false⟩ :=
    Tick.recv (s := ⟨0, (receive c 0 (Clocked.init 1).p 5 ⟨2, 0, 0⟩).1, false⟩) (t := 0) (Nat.le_refl _) (fun k n _ => ⟨Nat.zero_le _, fun d _ => Nat.zero_le _⟩)
  have t3 : Tick c ⟨0, (receive c 0 (receive c 0 (Clocked.init 1).p 5 ⟨2, 0, 0⟩).1 5 ⟨1000, 0, 0⟩).1, false⟩
      ⟨c.vtime, expire (receive c 0 (receive c 0 (Clocked.init 1).p 5 ⟨2, 0, 0⟩).1 5 ⟨1000, 0, 0⟩).1 5, false || (some c.delay).isSome⟩ := by
    refine Tick.timeout (s := ⟨0, (receive c 0 (receive c 0 (Clocked.init 1).p 5 ⟨2, 0, 0⟩).1 5 ⟨1000, 0, 0⟩).1, false⟩) (n := ⟨0, 2, 0, some c.delay, c.vtime⟩) (Nat.zero_le _) ?_ hr2
    intro k n hn
    have hk : k = 5 := by
      by_cases e : k = 5
      · exact e
      · dsimp only at hn
        rw [receive_other c 0 _ 5 k _ e] at hn
        exact hother k n hn
    subst hk
    dsimp only at hn
    rw [hr2] at hn
    injection hn with hn
    subst hn
    refine ⟨Nat.le_refl _, ?_⟩
    intro d hd
    injection hd with hd
    dsimp only
    omega
  exact ⟨_, .tail (.tail (.tail .refl t1) t2) t3, rfl⟩

example : (1 < (⟨100, 10000, 60000⟩ : Cfg).vtime) ∧ (⟨100, 10000, 60000⟩ : Cfg).delay < (⟨100, 10000, 60000⟩ : Cfg).vtime := by decide

end Verif.Replay
