import Verif.Rfc5444.FlowLemmas
import Verif.DupSet.Props
/-
C149: sequence numbers.  C150: aggregation.
-/
namespace Verif.Rfc5444

/-! ## C149 -/

/-- packets of a target are numbered consecutively; missing: the target may be replaced, see `C149_packets_counterexample` -/
theorem C149_packets_partial (now max agg rnd : Nat) (es : List Ev) (hk : Kept es) :
    Consecutive (packetNumbers (run (fresh now max agg rnd) es).out) :=
  (seqInv_run _ es hk (seqInv_fresh now max agg rnd)).1

/-- packets are numbered while the protocol was asked for numbers, and have no numbers if nobody ever asked -/
theorem C149_numbered (now max agg rnd : Nat) (es : List Ev) :
    (Ev.dropAll ∉ es → ∀ p ∈ (run (fresh now max agg rnd) (es ++ [.needAll])).out, p.seq ≠ none) ∧
    (Ev.needOwn ∉ es → Ev.needAll ∉ es → ∀ p ∈ (run (fresh now max agg rnd) es).out, p.seq = none) := by
  constructor
  · intro h p hp hn
    have := (num_always now max agg rnd es h).1.2.2 p hp
    rw [hn] at this
    exact nomatch this
  · intro h1 h2 p hp
    have := (num_never now max agg rnd es h1 h2).2.2 p hp
    simpa using this

/-- two packets, a change of the configuration, another packet -/
theorem C149_packets_counterexample (now agg : Nat) :
    packetNumbers (run (fresh now 1472 agg 7) [.force, .needOwn, .recreate 100, .force, .force, .needOwn]).out = [101, 9, 8] := by
  simp [packetNumbers, run, step, flush, begin_, send, fresh]

/-- message numbers are consecutive; missing: a new interface changes the number, see `C149_messages_counterexample` -/
theorem C149_messages_partial (s : Nat) (es : List NoEv) (hn : ∀ r, NoEv.newIf r ∉ es) : Consecutive (numbers s es).2 := (numbers_inv s es hn).1

/-- a receiver that knows an older number of the last half of the circle processes the message -/
theorem C149_accepted (e : DupSet.Entry) (c n : Nat) (hc : c < 65536) (hcur : e.current = c) (h0 : 0 < n) (hn : n < 32768) (b : Bool) :
    (DupSet.test .b16 e ((c + n) % 65536) b).1 = .newest := by
  subst hcur
  have hsz : DupSet.Kind.size .b16 = 65536 := rfl
  have hm : (e.current + n) % 65536 = e.current + n ∨ (e.current + n) % 65536 + 65536 = e.current + n := by omega
  rcases DupSet.test_cases .b16 e ((e.current + n) % 65536) b (by rw [hsz]; exact Nat.mod_lt _ (by omega)) hc with
    ⟨h, _⟩ | ⟨j, h1, h2, h3, _⟩ | ⟨j, h1, h2, h3, _⟩ | ⟨j, _, _, _, h⟩
  · omega
  · rw [hsz] at h2 h3
    unfold DupSet.Behind at h3
    omega
  · rw [hsz] at h3
    unfold DupSet.Behind at h3
    omega
  · rw [h]

/-- the number after a new interface can be one all receivers ignore: any of the last half of the circle but the last 31 -/
theorem C149_messages_counterexample (e : DupSet.Entry) (s j : Nat) (es : List NoEv) (hcur : e.current = (numbers s (.next :: es)).1) (ho : e.tooOld < 8)
    (h1 : 32 ≤ j) (h2 : j < 32768) (b : Bool) : ∃ rnd, (numbers s (.next :: .newIf rnd :: .next :: es)).2.head? = some ((e.current + 65536 - j) % 65536) ∧
      (DupSet.test .b16 e ((e.current + 65536 - j) % 65536) b).1 = .tooOld := by
  have hc : e.current < 65536 := by
    rw [hcur]; exact Nat.mod_lt _ (by omega)
  refine ⟨(e.current + 65535 - j) % 65536, ?_, ?_⟩
  · show some (((e.current + 65535 - j) % 65536 % 65536 + 1) % 65536) = _
    congr 1
    omega
  · have hsz : DupSet.Kind.size .b16 = 65536 := rfl
    rcases DupSet.test_cases .b16 e ((e.current + 65536 - j) % 65536) b (by rw [hsz]; exact Nat.mod_lt _ (by omega)) hc with
      ⟨h, _⟩ | ⟨j', _, _, _, _, h⟩ | ⟨j', q1, q2, q3, _⟩ | ⟨j', q1, q2, q3, _⟩
    · omega
    · rcases h with ⟨_, h⟩ | ⟨h, _⟩
      · rw [h]
      · omega
    · rw [hsz] at q3
      unfold DupSet.Behind at q3
      omega
    · rw [hsz] at q2 q3
      unfold DupSet.Behind at q3
      omega

example : (numbers 65533 [.next, .next, .next]).2 = [0, 65535, 65534] := by decide +kernel

/-! ## C150 -/

/-- messages leave once and in order; missing: the target may be replaced, see `C150_lost_counterexample` -/
theorem C150_once_partial (now max agg rnd : Nat) (es : List Ev) (hk : Kept es) (hs : Sized max es) :
    delivered (run (fresh now max agg rnd) es).out ++ (run (fresh now max agg rnd) es).pend.map (·.id) = given max es :=
  (whole_run now max agg rnd es hs).2 hk

/-- a message leaves at most the aggregation interval of the configuration after it was put into the buffer; missing: the interval can be
overwritten, see `C150_overwrite_counterexample` -/
theorem C150_deadline_partial (now max agg rnd : Nat) (es : List Ev) (hk : Kept es) (ht : Timely (fresh now max agg rnd) es) :
    (∀ p ∈ (run (fresh now max agg rnd) es).out, ∀ m ∈ p.msgs, p.sent ≤ m.born + agg) ∧
    (∀ m ∈ (run (fresh now max agg rnd) es).pend, (run (fresh now max agg rnd) es).now ≤ m.born + agg ∧
      ∃ t, (run (fresh now max agg rnd) es).timer = some t ∧ t ≤ m.born + agg) := by
  have I := timeInv_run now max agg rnd es hk ht
  exact ⟨I.2.2.2.1, I.2.2.2.2⟩

/-- packets fit into the buffer -/
theorem C150_size (now max agg rnd : Nat) (es : List Ev) (hs : Sized max es) :
    ∀ p ∈ (run (fresh now max agg rnd) es).out, wire p ≤ max := (whole_run now max agg rnd es hs).1.2.2.2

/-- no empty packets unless forced; missing: forwarded messages that are too large, see `C150_empty_counterexample` -/
theorem C150_nonempty_partial (now max agg rnd : Nat) (es : List Ev) (hc : ∀ i s, Ev.create i s ∈ es → s + 5 ≤ max)
    (hf : ∀ i s, Ev.forward i s ∈ es → s + 5 ≤ max) (hn : Ev.force ∉ es) : ∀ p ∈ (run (fresh now max agg rnd) es).out, p.msgs ≠ [] :=
  (fullInv_run now max agg rnd es hc hf hn).2.2.2

/-- a message waits for the timer, another one does not fit any more -/
example : (run (fresh 1000 1472 100 7) [.tick, .wait 60, .create 3 900, .wait 40, .create 2 400, .create 1 300, .needAll]).out =
    [⟨some 9, [⟨3, 900, 1040⟩], 1100⟩, ⟨some 8, [⟨1, 300, 1000⟩, ⟨2, 400, 1000⟩], 1040⟩] := by decide +kernel

/-- the overwritten interval has no effect: the first message after `oonf_rfc5444_interface_set_aggregation` waits for the configured interval -/
theorem C150_overwrite_counterexample (d : Dest) (v id size : Nat) (h : d.timer = none) : (run d [.create id size, .setAgg v]).timer = some (d.now + d.agg) := by
  show (create { d with over := v } id size).timer = _
  exact (create_timer _ id size h)

/-- a message waiting in the buffer is lost when an address of the interface changes -/
theorem C150_lost_counterexample (now agg id size rnd rnd' : Nat) (h : size ≤ 1467) :
    let d := run (fresh now 1472 agg rnd) [.recreate rnd', .create id size]
    delivered d.out = [] ∧ d.pend = [] ∧ given 1472 [.recreate rnd', .create id size] = [id] := by
  refine ⟨?_, rfl, rfl⟩
  have : ¬ 1472 < 3 + size := by omega
  simp [run, step, create, ready, fresh, begin_, begunHdr, hdr, bytes, append, notify, delivered, this]

/-- from the second one on, each forwarded message that is too large makes an empty packet -/
theorem C150_empty_counterexample (now agg rnd id id' size size' : Nat) (h : 1470 ≤ size) (h' : 1470 ≤ size') :
    (run (fresh now 1472 agg rnd) [.forward id' size', .forward id size]).out = [⟨none, [], now⟩] := by
  have e1 : 1472 < 3 + size := by omega
  have e2 : 1472 < 3 + size' := by omega
  simp [run, step, forward, ready, fresh, begin_, begunHdr, hdr, bytes, flush, send, e1, e2]

end Verif.Rfc5444
