import Verif.Dlep.Udp

/-! # C144: discovery of DLEP peers -/

namespace Verif.Dlep

namespace Spec

/-- the interface takes part in discovery -/
def Discovers (mode : UdpMode) (sessions : Nat) : Prop := mode = .always ∨ mode = .single ∧ sessions = 0

/-- the datagram is for this interface: it takes part in discovery, the datagram is from somebody else and starts with the
prefix of DLEP -/
def ForUs (mode : UdpMode) (sessions self sender : Nat) (packet payload : Bytes) : Prop :=
  Discovers mode sessions ∧ sender ≠ self ∧ packet = PREFIX ++ payload

end Spec

open Spec

theorem enabled_iff (mode : UdpMode) (sessions : Nat) : udpEnabled mode sessions = true ↔ Discovers mode sessions := by
  cases mode with
  | none => simp [udpEnabled, Discovers]
  | single =>
    simp only [udpEnabled, Discovers, Bool.not_eq_true', decide_eq_false_iff_not, reduceCtorEq, false_or, true_and]
    omega
  | always => simp [udpEnabled, Discovers]

theorem enabled_false {mode : UdpMode} {sessions : Nat} (h : ¬ Discovers mode sessions) : udpEnabled mode sessions = false := by
  cases he : udpEnabled mode sessions with
  | false => rfl
  | true => exact absurd ((enabled_iff mode sessions).mp he) h

theorem receive_for_us {mode : UdpMode} {sessions self sender : Nat} {packet payload : Bytes} (handler : Bytes → Handled) (u : Udp)
    (h : ForUs mode sessions self sender packet payload) :
    receiveUdp mode sessions self handler u sender packet =
      (match (handler payload).processed with
      | none => (⟨some sender, u.out ++ (handler payload).output⟩, [])
      | some n =>
        if (handler payload).kill then (⟨some sender, u.out ++ (handler payload).output⟩, [])
        else if n < payload.length then (⟨some sender, u.out ++ (handler payload).output⟩, [])
        else if PREFIX.length < (u.out ++ (handler payload).output).length then
          (⟨none, PREFIX⟩, [(sender, u.out ++ (handler payload).output)])
        else (⟨none, u.out ++ (handler payload).output⟩, [])) := by
  obtain ⟨h1, h2, rfl⟩ := h
  have e1 : (PREFIX ++ payload).take PREFIX.length = PREFIX := by simp
  have e2 : (PREFIX ++ payload).drop PREFIX.length = payload := by simp
  unfold receiveUdp
  rw [if_neg (by rw [(enabled_iff _ _).mpr h1]; decide), if_neg (by simp), if_neg h2, if_neg (by rw [e1]; simp), e2]
  rfl

/-! ### C144 -/

/-- Datagrams which are not for the interface have no effect. -/
theorem C144_ignored (mode : UdpMode) (sessions self : Nat) (handler : Bytes → Handled) (u : Udp) (sender : Nat) (packet : Bytes)
    (h : ∀ payload, ¬ ForUs mode sessions self sender packet payload) :
    receiveUdp mode sessions self handler u sender packet = (u, []) := by
  by_cases h1 : Discovers mode sessions
  · by_cases h2 : packet.length < PREFIX.length
    · unfold receiveUdp
      rw [if_neg (by rw [(enabled_iff _ _).mpr h1]; decide), if_pos h2]
    · by_cases h3 : sender = self
      · unfold receiveUdp
        rw [if_neg (by rw [(enabled_iff _ _).mpr h1]; decide), if_neg h2, if_pos h3]
      · have h4 : packet.take PREFIX.length ≠ PREFIX := by
          intro c
          refine h (packet.drop PREFIX.length) ⟨h1, h3, ?_⟩
          have := List.take_append_drop PREFIX.length packet
          rw [c] at this
          exact this.symm
        unfold receiveUdp
        rw [if_neg (by rw [(enabled_iff _ _).mpr h1]; decide), if_neg h2, if_neg h3, if_pos h4]
  · unfold receiveUdp
    rw [if_pos (enabled_false h1)]

example : (∀ payload, ¬ ForUs .single 1 7 8 (PREFIX ++ [0, 1]) payload) ∧
    (∀ payload, ¬ ForUs .always 1 7 8 [68, 76, 69, 0, 1] payload) := by
  constructor
  · rintro p ⟨h | h, _⟩
    · exact nomatch h
    · exact nomatch h.2
  · rintro p ⟨_, _, h⟩
    simp [PREFIX] at h

/-- A datagram which is handled completely is answered to its sender, and to nobody else, with the prefix and what the
session wrote; the interface is idle again. -/
theorem C144_answered (mode : UdpMode) (sessions self : Nat) (handler : Bytes → Handled) (u : Udp) (sender : Nat)
    (packet payload : Bytes) (n : Nat) (hu : u.out = PREFIX) (h : ForUs mode sessions self sender packet payload)
    (hp : (handler payload).processed = some n) (hn : payload.length ≤ n) (hk : (handler payload).kill = false) :
    receiveUdp mode sessions self handler u sender packet =
      (udpStart, if (handler payload).output = [] then [] else [(sender, PREFIX ++ (handler payload).output)]) := by
  rw [receive_for_us handler u h, hp, hk, hu]
  simp only [Bool.false_eq_true, if_false]
  rw [if_neg (by omega)]
  by_cases ho : (handler payload).output = []
  · rw [if_pos ho, if_neg (by simp [ho]), ho, List.append_nil]
    rfl
  · rw [if_neg ho, if_pos (by
      have := List.length_pos_iff.mpr ho
      rw [List.length_append]
      omega)]
    rfl

example : ForUs .single 0 7 8 (PREFIX ++ [0, 1, 0, 0]) [0, 1, 0, 0] ∧
    receiveUdp .single 0 7 (fun p => ⟨some p.length, [0, 2, 0, 0], false⟩) udpStart 8 (PREFIX ++ [0, 1, 0, 0]) =
      (udpStart, [(8, [68, 76, 69, 80, 0, 2, 0, 0])]) :=
  ⟨⟨.inr ⟨rfl, rfl⟩, by decide, rfl⟩, by decide⟩

/-- The buffer always starts with the prefix, and everything that is sent does. -/
theorem C144_prefix (mode : UdpMode) (sessions self : Nat) (handler : Bytes → Handled) (u : Udp) (sender : Nat) (packet : Bytes)
    (signal : Bytes) (hu : PREFIX <+: u.out) :
    (let r := receiveUdp mode sessions self handler u sender packet
     PREFIX <+: r.1.out ∧ ∀ d ∈ r.2, d.1 = sender ∧ PREFIX <+: d.2) ∧
    (let r := discoveryTick mode sessions signal u
     PREFIX <+: r.1.out ∧ ∀ d ∈ r.2, PREFIX <+: d) := by
  constructor
  · by_cases h : ∃ payload, ForUs mode sessions self sender packet payload
    · obtain ⟨payload, h⟩ := h
      have ho : PREFIX <+: u.out ++ (handler payload).output := hu.trans (List.prefix_append _ _)
      rw [receive_for_us handler u h]
      dsimp only
      split
      · exact ⟨ho, by simp⟩
      · split
        · exact ⟨ho, by simp⟩
        · split
          · exact ⟨ho, by simp⟩
          · split
            · refine ⟨List.prefix_rfl, ?_⟩
              intro d hd
              rw [List.mem_singleton.mp hd]
              exact ⟨rfl, ho⟩
            · exact ⟨ho, by simp⟩
    · rw [C144_ignored mode sessions self handler u sender packet fun p hp => h ⟨p, hp⟩]
      exact ⟨hu, by simp⟩
  · have one : ∀ v : Udp, PREFIX <+: v.out → PREFIX <+: (sendMulticast mode sessions v).1.out ∧
        ∀ d ∈ (sendMulticast mode sessions v).2, PREFIX <+: d := by
      intro v hv
      unfold sendMulticast
      split
      · exact ⟨hv, by simp⟩
      · split
        · exact ⟨hv, by simp⟩
        · refine ⟨List.prefix_rfl, ?_⟩
          intro d hd
          rw [List.mem_singleton.mp hd]
          exact hv
    have h1 := one { u with out := u.out ++ signal } (hu.trans (List.prefix_append _ _))
    have h2 := one { (sendMulticast mode sessions { u with out := u.out ++ signal }).1 with
      out := (sendMulticast mode sessions { u with out := u.out ++ signal }).1.out ++ signal }
      (h1.1.trans (List.prefix_append _ _))
    refine ⟨h2.1, ?_⟩
    intro d hd
    rcases List.mem_append.mp hd with hd | hd
    · exact h1.2 d hd
    · exact h2.2 d hd

/-- An idle interface which takes part in discovery sends one Peer Discovery for each address family at every tick.
(Missing: interfaces which are not idle, see below.) -/
theorem C144_discovery_partial (mode : UdpMode) (sessions : Nat) (signal : Bytes) (hs : signal ≠ []) (h : Discovers mode sessions)
    (n : Nat) :
    discoveryTicks mode sessions signal n udpStart = (udpStart, List.replicate (2 * n) (PREFIX ++ signal)) := by
  have one : sendMulticast mode sessions ⟨none, PREFIX ++ signal⟩ = (udpStart, [PREFIX ++ signal]) := by
    unfold sendMulticast
    rw [if_neg, if_neg]
    · rfl
    · rw [(enabled_iff _ _).mpr h]; decide
    · have := List.length_pos_iff.mpr hs
      simp only [List.length_append, ne_eq, not_true, or_false]
      omega
  induction n with
  | zero => rfl
  | succ n ih =>
    have ht : discoveryTick mode sessions signal udpStart = (udpStart, [PREFIX ++ signal, PREFIX ++ signal]) := by
      simp only [discoveryTick, udpStart, one]
      rfl
    simp only [discoveryTicks, ht, ih]
    have : 2 * (n + 1) = 2 * n + 1 + 1 := by omega
    rw [this, List.replicate_succ, List.replicate_succ]
    rfl

example : discoveryTicks .single 0 [0, 1, 0, 0] 1 udpStart =
    (udpStart, [[68, 76, 69, 80, 0, 1, 0, 0], [68, 76, 69, 80, 0, 1, 0, 0]]) := by
  decide

theorem silent (mode : UdpMode) (sessions : Nat) (signal : Bytes) (n : Nat) :
    ∀ u : Udp, u.remote ≠ none ∨ ¬ Discovers mode sessions →
      discoveryTicks mode sessions signal n u =
        ({ u with out := u.out ++ (List.replicate (2 * n) signal).flatten }, []) := by
  have one : ∀ v : Udp, v.remote ≠ none ∨ ¬ Discovers mode sessions → sendMulticast mode sessions v = (v, []) := by
    intro v hv
    unfold sendMulticast
    by_cases h : v.out.length ≤ PREFIX.length ∨ v.remote ≠ none
    · rw [if_pos h]
    · rw [if_neg h, if_pos]
      exact enabled_false (hv.resolve_left fun c => h (.inr c))
  induction n with
  | zero => intro u _; simp [discoveryTicks]
  | succ n ih =>
    intro u hu
    have ht : discoveryTick mode sessions signal u = ({ u with out := u.out ++ signal ++ signal }, []) := by
      simp only [discoveryTick]
      rw [one { u with out := u.out ++ signal } hu]
      simp only
      rw [one { u with out := u.out ++ signal ++ signal } hu]
      rfl
    simp only [discoveryTicks, ht]
    rw [ih { u with out := u.out ++ signal ++ signal } hu]
    have : 2 * (n + 1) = 2 * n + 1 + 1 := by omega
    rw [this, List.replicate_succ, List.replicate_succ]
    simp [List.append_assoc]

/-- One datagram of anybody which starts with the prefix and cannot be parsed stops discovery: nothing is sent any more, and
the buffer grows with every tick. -/
theorem C144_silenced_counterexample (mode : UdpMode) (sessions self sender : Nat) (packet payload signal : Bytes)
    (handler : Bytes → Handled) (h : ForUs mode sessions self sender packet payload)
    (hp : (handler payload).processed = none) (n : Nat) :
    let u := (receiveUdp mode sessions self handler udpStart sender packet).1
    (discoveryTicks mode sessions signal n u).2 = [] ∧
      (discoveryTicks mode sessions signal n u).1.out.length = u.out.length + 2 * n * signal.length := by
  have hr : (receiveUdp mode sessions self handler udpStart sender packet).1 =
      ⟨some sender, udpStart.out ++ (handler payload).output⟩ := by
    rw [receive_for_us handler udpStart h, hp]
  simp only
  rw [hr, silent _ _ _ _ _ (.inl (by simp))]
  refine ⟨rfl, ?_⟩
  simp [List.length_flatten, Nat.add_assoc]

example : ForUs .single 0 7 8 (PREFIX ++ [0, 1, 0]) [0, 1, 0] := ⟨.inr ⟨rfl, rfl⟩, by decide, rfl⟩

/-- While a session exists, the default mode sends no discovery, but still adds two signals to the buffer at every tick; when
the session has ended, all of them are sent in one datagram. -/
theorem C144_leak_counterexample (sessions : Nat) (signal : Bytes) (hs : signal ≠ []) (h0 : 0 < sessions) (n : Nat) :
    let u := (discoveryTicks .single sessions signal n udpStart).1
    u.out.length = PREFIX.length + 2 * n * signal.length ∧
      ∃ d, (discoveryTick .single 0 signal u).2.head? = some d ∧
        d.length = PREFIX.length + (2 * n + 1) * signal.length := by
  have hd : ¬ Discovers .single sessions := by
    rintro (h | h)
    · exact nomatch h
    · omega
  have hl : 0 < signal.length := List.length_pos_iff.mpr hs
  simp only
  rw [silent _ _ _ _ _ (.inr hd)]
  refine ⟨by simp [udpStart, List.length_flatten], ?_⟩
  have hsend : sendMulticast .single 0 ⟨none, PREFIX ++ (List.replicate (2 * n) signal).flatten ++ signal⟩ =
      (⟨none, PREFIX⟩, [PREFIX ++ (List.replicate (2 * n) signal).flatten ++ signal]) := by
    unfold sendMulticast
    rw [if_neg, if_neg]
    · decide
    · simp only [List.length_append, ne_eq, not_true, or_false]
      omega
  refine ⟨PREFIX ++ (List.replicate (2 * n) signal).flatten ++ signal, ?_, ?_⟩
  · simp only [discoveryTick, udpStart, hsend]
    rfl
  · simp only [List.length_append, List.length_flatten, List.map_replicate, List.sum_replicate_nat]
    rw [Nat.add_mul]
    omega

example : (discoveryTick .single 0 [0, 1, 0, 0] (discoveryTicks .single 1 [0, 1, 0, 0] 1 udpStart).1).2.map List.length =
    [16, 8] := by
  decide

end Verif.Dlep
