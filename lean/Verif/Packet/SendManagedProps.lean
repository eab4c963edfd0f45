import Verif.Packet.SendManaged
/-
C236: packets leave through the socket of the right address family, and the result says what happened.
-/
namespace Verif.Packet.Out

/-! ### Specification -/

/-- The datagram was given to the kernel or waits at the end of the queue; nothing else changed for this socket. -/
def Taken (s s' : USock) (to : To) (d : Nat) : Prop :=
  s.opened = true ∧ s'.opened = true ∧
    ((s.backlog = [] ∧ s'.backlog = [] ∧ s'.wire = s.wire ++ [(to, d)]) ∨
      (s'.wire = s.wire ∧ s'.backlog = s.backlog ++ [(to, d)]))

/-- The datagram was taken by the socket of its address family, and everything else is as before. -/
def Handed (m m' : Managed) (to : To) (d : Nat) : Prop :=
  m'.mc4 = m.mc4 ∧ m'.mc6 = m.mc6 ∧
    ((to.fam = .v4 ∧ m'.s6 = m.s6 ∧ Taken m.s4 m'.s4 to d) ∨
      (to.fam = .v6 ∧ m'.s4 = m.s4 ∧ Taken m.s6 m'.s6 to d))

/-- There is an open socket for the address family. -/
def Active (m : Managed) (f : Fam) : Prop :=
  (f = .v4 ∧ m.s4.opened = true) ∨ (f = .v6 ∧ m.s6.opened = true)

/-- Datagrams wait in front of this one. -/
def Busy (m : Managed) (f : Fam) : Prop :=
  (f = .v4 ∧ m.s4.backlog ≠ []) ∨ (f = .v6 ∧ m.s6.backlog ≠ [])

/-- The socket of the family is closed, and its queue gone; all else stays. -/
def Dropped (m m' : Managed) (f : Fam) : Prop :=
  m'.mc4 = m.mc4 ∧ m'.mc6 = m.mc6 ∧
    ((f = .v4 ∧ m'.s6 = m.s6 ∧ m'.s4.opened = false ∧ m'.s4.backlog = [] ∧ m'.s4.wire = m.s4.wire) ∨
      (f = .v6 ∧ m'.s4 = m.s4 ∧ m'.s6.opened = false ∧ m'.s6.backlog = [] ∧ m'.s6.wire = m.s6.wire))

/-! ### C236 -/

/-- Result 0 for a destination with an address: the datagram was handed to the socket of its family, exactly
once and to no other. -/
theorem C236_zero (apply : Managed → Managed) (m : Managed) (to : To) (d : Nat) (k : Kern)
    (hf : to.fam ≠ .unspec) (h : (sendManaged apply m to d k).2 = 0) :
    Handed m (sendManaged apply m to d k).1 to d := by
  obtain ⟨⟨o4, b4, w4⟩, ⟨o6, b6, w6⟩, mc4, mc6⟩ := m
  obtain ⟨f, a, p⟩ := to
  cases f <;> cases o4 <;> cases o6 <;> cases b4 <;> cases b6 <;> cases k <;>
    simp_all [sendManaged, attempts, pktSend, Handed, Taken, remove]

/-- Result 1: exactly if there is no open socket for the address family of the destination; then nothing happens. -/
theorem C236_one (apply : Managed → Managed) (m : Managed) (to : To) (d : Nat) (k : Kern)
    (hf : to.fam ≠ .unspec) :
    ((sendManaged apply m to d k).2 = 1 ↔ ¬ Active m to.fam) ∧
      (¬ Active m to.fam → (sendManaged apply m to d k).1 = m) := by
  obtain ⟨⟨o4, b4, w4⟩, ⟨o6, b6, w6⟩, mc4, mc6⟩ := m
  obtain ⟨f, a, p⟩ := to
  cases f <;> cases o4 <;> cases o6 <;> cases b4 <;> cases b6 <;> cases k <;>
    simp_all [sendManaged, attempts, pktSend, Active, remove]

/-- Result -1: exactly if the kernel refused the datagram, which was offered at once because none waited. -/
theorem C236_minus (apply : Managed → Managed) (m : Managed) (to : To) (d : Nat) (k : Kern)
    (hf : to.fam ≠ .unspec) :
    (sendManaged apply m to d k).2 = -1
      ↔ Active m to.fam ∧ ¬ Busy m to.fam ∧ (k = .perm ∨ k = .badf ∨ k = .err) := by
  obtain ⟨⟨o4, b4, w4⟩, ⟨o6, b6, w6⟩, mc4, mc6⟩ := m
  obtain ⟨f, a, p⟩ := to
  cases f <;> cases o4 <;> cases o6 <;> cases b4 <;> cases b6 <;> cases k <;>
    simp_all [sendManaged, attempts, pktSend, Active, Busy, remove]

/-- There are no other results. -/
theorem C236_results (apply : Managed → Managed) (m : Managed) (to : To) (d : Nat) (k : Kern) :
    (sendManaged apply m to d k).2 = 0 ∨ (sendManaged apply m to d k).2 = 1 ∨
      (sendManaged apply m to d k).2 = -1 := by
  obtain ⟨⟨o4, b4, w4⟩, ⟨o6, b6, w6⟩, mc4, mc6⟩ := m
  obtain ⟨f, a, p⟩ := to
  cases f <;> cases o4 <;> cases o6 <;> cases b4 <;> cases b6 <;> cases k <;>
    simp_all [sendManaged, attempts, pktSend, remove]

/-- A refused datagram changes nothing, unless the kernel does not know the socket any more: then the
socket of this family, and only this, is closed, and the configuration is applied again. -/
theorem C236_refused (apply : Managed → Managed) (m : Managed) (to : To) (d : Nat) (k : Kern)
    (h : (sendManaged apply m to d k).2 = -1) :
    (k ≠ .badf ∧ (sendManaged apply m to d k).1 = m) ∨
      (k = .badf ∧ ∃ m', Dropped m m' to.fam ∧ (sendManaged apply m to d k).1 = apply m') := by
  obtain ⟨⟨o4, b4, w4⟩, ⟨o6, b6, w6⟩, mc4, mc6⟩ := m
  obtain ⟨f, a, p⟩ := to
  cases k
  case badf =>
    refine Or.inr ⟨rfl, ?_⟩
    cases f <;> cases o4 <;> cases o6 <;> cases b4 <;> cases b6 <;>
      simp_all [sendManaged, attempts, pktSend, remove] <;>
      exact ⟨_, by simp [Dropped], rfl⟩
  all_goals
    cases f <;> cases o4 <;> cases o6 <;> cases b4 <;> cases b6 <;>
      simp_all [sendManaged, attempts, pktSend]

/-- A multicast goes to the multicast address of the family, with the result of `oonf_packet_send_managed`; for
families other than IPv4 and IPv6 the result is 1 and nothing happens. -/
theorem C236_multicast (apply : Managed → Managed) (m : Managed) (d : Nat) (af : Fam) (k : Kern)
    (h4 : m.mc4.fam = .v4) (h6 : m.mc6.fam = .v6) :
    ((sendMulticast apply m d af k).2 = 0 →
        (af = .v4 ∧ Handed m (sendMulticast apply m d af k).1 m.mc4 d) ∨
        (af = .v6 ∧ Handed m (sendMulticast apply m d af k).1 m.mc6 d)) ∧
      ((sendMulticast apply m d af k).2 = 1 ↔ ¬ Active m af) ∧
      (¬ Active m af → (sendMulticast apply m d af k).1 = m) := by
  have n4 : m.mc4.fam ≠ .unspec := by rw [h4]; exact fun e => nomatch e
  have n6 : m.mc6.fam ≠ .unspec := by rw [h6]; exact fun e => nomatch e
  have o4 := C236_one apply m m.mc4 d k n4
  have o6 := C236_one apply m m.mc6 d k n6
  rw [h4] at o4
  rw [h6] at o6
  cases af
  case v4 =>
    have e : sendMulticast apply m d .v4 k = sendManaged apply m m.mc4 d k := rfl
    rw [e]
    exact ⟨fun h => Or.inl ⟨rfl, C236_zero apply m m.mc4 d k n4 h⟩, o4⟩
  case v6 =>
    have e : sendMulticast apply m d .v6 k = sendManaged apply m m.mc6 d k := rfl
    rw [e]
    exact ⟨fun h => Or.inr ⟨rfl, C236_zero apply m m.mc6 d k n6 h⟩, o6⟩
  all_goals simp [sendMulticast, Active]

/-- If multicast is switched off for a family (its address is unspecified), the result is 0, which stands
for "sent", but nothing is sent; the comment says 1 for this case. -/
theorem C236_off_counterexample (apply : Managed → Managed) (m : Managed) (d : Nat) (k : Kern)
    (h : m.mc4.fam = .unspec) :
    sendMulticast apply m d .v4 k = (m, 0) ∧ ¬ Handed m m m.mc4 d := by
  refine ⟨by simp [sendMulticast, sendManaged, h], ?_⟩
  rintro ⟨_, _, hh⟩
  rcases hh with ⟨e, _⟩ | ⟨e, _⟩ <;> rw [h] at e <;> cases e

/-- While output is blocked, nothing is sent. -/
theorem C236_blocked (apply : Managed → Managed) (x : Bool) (m : Managed) (dst : To) (d : Nat) (k : Kern) :
    sendTarget apply true x m dst d k = m ∧ sendInterface apply true x m dst d k = m := ⟨rfl, rfl⟩

/-- A packet for a target, or for an address through an interface: if the socket is open and the kernel takes it or it
has to wait, it is handed over with the destination `dst`; for multicast targets, and for group addresses, this
requires that the destination is the multicast address of the interface. -/
theorem C236_rfc5444_partial (apply : Managed → Managed) (multi : Bool) (m : Managed) (dst : To) (d : Nat) (k : Kern)
    (hf : dst.fam = .v4 ∨ dst.fam = .v6) (ha : Active m dst.fam) (hk : k = .sent ∨ k = .again)
    (hm : multi = true → (dst.fam = .v4 → dst = m.mc4) ∧ (dst.fam = .v6 → dst = m.mc6)) :
    Handed m (sendTarget apply false multi m dst d k) dst d ∧
      Handed m (sendInterface apply false multi m dst d k) dst d := by
  have hne : dst.fam ≠ .unspec := by rcases hf with e | e <;> rw [e] <;> exact fun e => nomatch e
  have hz : (sendManaged apply m dst d k).2 = 0 := by
    rcases C236_results apply m dst d k with e | e | e
    · exact e
    · exact absurd ha ((C236_one apply m dst d k hne).1.1 e)
    · have := ((C236_minus apply m dst d k hne).1 e).2.2
      rcases hk with rfl | rfl <;> rcases this with e | e | e <;> cases e
  have hh := C236_zero apply m dst d k hne hz
  have e : sendTarget apply false multi m dst d k = (sendManaged apply m dst d k).1 := by
    cases multi with
    | false => rfl
    | true =>
      have hm := hm rfl
      rcases hf with f | f
      · simp [sendTarget, sendMulticast, f, ← hm.1 f]
      · simp [sendTarget, sendMulticast, f, ← hm.2 f]
  have e' : sendInterface apply false multi m dst d k = sendTarget apply false multi m dst d k := rfl
  rw [e', e]
  exact ⟨hh, hh⟩

/-- A packet for a group other than the multicast address of the interface is sent to that
address instead (`oonf_rfc5444_send_interface_data` forgets the destination). -/
theorem C236_group_counterexample (apply : Managed → Managed) (m : Managed) (dst : To) (d : Nat)
    (hf : dst.fam = .v4) (hm : m.mc4.fam = .v4) (ho : m.s4.opened = true) (hb : m.s4.backlog = [])
    (hd : dst ≠ m.mc4) :
    (sendInterface apply false true m dst d .sent).s4.wire = m.s4.wire ++ [(m.mc4, d)] ∧
      ¬ Handed m (sendInterface apply false true m dst d .sent) dst d := by
  have e : (sendInterface apply false true m dst d .sent).s4
      = { m.s4 with wire := m.s4.wire ++ [(m.mc4, d)] } := by
    simp [sendInterface, sendMulticast, sendManaged, attempts, pktSend, hf, hm, ho, hb]
  refine ⟨by rw [e], ?_⟩
  rintro ⟨_, _, hh⟩
  rcases hh with ⟨_, _, _, _, hh⟩ | ⟨e', _⟩
  · rw [e] at hh
    rcases hh with ⟨_, _, hw⟩ | ⟨hw, _⟩
    · have := List.append_cancel_left hw
      simp at this
      exact hd this.symm
    · have := congrArg List.length hw
      simp at this
  · rw [hf] at e'; cases e'

/-! ### Examples -/

/-- A managed socket with both families open; one IPv6 datagram waits. -/
def both : Managed where
  s4 := { opened := true }
  s6 := { opened := true, backlog := [(⟨.v6, 9, 269⟩, 1)] }
  mc4 := ⟨.v4, 109, 269⟩
  mc6 := ⟨.v6, 109, 269⟩

example : sendManaged id both ⟨.v4, 7, 269⟩ 5 .sent
    = ({ both with s4 := { opened := true, wire := [(⟨.v4, 7, 269⟩, 5)] } }, 0) := by decide +kernel
example : (sendManaged id both ⟨.v6, 7, 269⟩ 5 .sent).1.s6.backlog
    = [(⟨.v6, 9, 269⟩, 1), (⟨.v6, 7, 269⟩, 5)] := by decide +kernel
example : Active both .v4 ∧ Busy both .v6 ∧ ¬ Busy both .v4 ∧ ¬ Active both .other := by
  simp [Active, Busy, both]
example : (sendManaged id both ⟨.v4, 7, 269⟩ 5 .badf).2 = -1 ∧
    (sendManaged id both ⟨.v4, 7, 269⟩ 5 .badf).1.s4.opened = false := by decide +kernel
example : both.mc4.fam = .v4 ∧ both.mc6.fam = .v6 := ⟨rfl, rfl⟩
example : (sendInterface id false true both ⟨.v4, 5, 269⟩ 5 .sent).s4.wire = [(⟨.v4, 109, 269⟩, 5)] := by
  decide +kernel
example : sendMulticast id {} 5 .v4 .sent = ({}, 0) := by decide +kernel

end Verif.Packet.Out
