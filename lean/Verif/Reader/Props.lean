import Verif.Reader.Visit

/-
Properties C31 to C34 of the RFC 5444 packet parser (specification in Verif.Reader.Spec).
`env.resp` is an arbitrary function, so every theorem holds for all callbacks; `pc` and `mc` are arbitrary lists
of registered packet and message consumers.
-/
namespace Verif.Reader

/-! ### examples used below -/

/-- callbacks that always return OKAY -/
def okResp : Resp := ⟨OKAY, false, [], by decide⟩
def okEnv : Env := ⟨fun _ _ _ _ => okResp, fun _ => true, true⟩
/-- consumer 1 drops the message of type 1 -/
def dropEnv : Env :=
  ⟨fun _ cid ctx _ => if cid = 1 ∧ ctx.message = some 0 then ⟨DROP_MESSAGE, false, [], by decide⟩ else okResp, fun _ => true, true⟩
def cons1 : Consumer := ⟨1, 0, true, 0, false, [], true, true, true, false, false⟩
def cons2 : Consumer := ⟨2, 1, true, 0, true, [], true, false, true, false, false⟩
/-- message of type 1 with hop limit 3, a TLV of type 5, one address block with 2 addresses 10.0.0.1 and
10.0.0.2 and a TLV of type 7 for index 1 -/
def msg1 : Bytes :=
  [1, 0x43, 0, 26, 3, 0, 4, 5, 0x10, 1, 9, 2, 0x80, 3, 10, 0, 0, 1, 2, 0, 5, 7, 0x50, 1, 1, 4]
/-- message of type 2 without hop limit -/
def msg2 : Bytes := [2, 0x03, 0, 6, 0, 0]

/-- a packet with both messages -/
def pkt12 : Bytes := 0 :: (msg1 ++ msg2)

theorem okBy {α : Type} {x : R α} {p : α → Bool} (h : (match x with | .ok a => p a | _ => false) = true) : ∃ a, x = .ok a ∧ p a = true := by
  cases x with
  | ok a => exact ⟨a, rfl, h⟩
  | err e => simp at h
  | ub u => simp at h

/-! ### C31 -/

/-- C31: for every byte string the parser returns (with success, a parse error code or the result of a callback),
and everything the callbacks got to see lies in the received packet; undefined behaviour happens only for the
packets described by `Hazard`.  Missing for the full property: there are packets with `Hazard`, see below. -/
theorem C31_packet_partial (env : Env) (pc mc : List Consumer) (buf : Bytes) :
    (∃ u, handlePacket env pc mc buf = .ub u ∧ Hazard buf u) ∨
    ∃ ret log, handlePacket env pc mc buf = .ok (ret, log) ∧ (ret = OKAY ∨ Code ret ∨ ∃ e ∈ log, e.r.res = ret) ∧
      ∀ e ∈ log, e.Valid buf ∧ ∀ h b, e.kind = .forward h b → b <:+: buf := by
  cases hr : handlePacket env pc mc buf with
  | ub u =>
    left
    rcases handlePacket_spec env pc mc buf with ⟨u', h', hz⟩ | ⟨_, h'⟩ | ⟨e, _, h'⟩ | ⟨_, _, _, _, _, _, _, _, _, _, _, h', _⟩
    · rw [hr] at h'
      cases h'
      exact ⟨u, rfl, hz⟩
    all_goals rw [hr] at h'; simp at h'
  | err e =>
    rcases handlePacket_spec env pc mc buf with ⟨u', h', hz⟩ | ⟨_, h'⟩ | ⟨e, _, h'⟩ | ⟨_, _, _, _, _, _, _, _, _, _, _, h', _⟩
    all_goals rw [hr] at h'; simp at h'
  | ok r =>
    obtain ⟨ret, log⟩ := r
    right
    refine ⟨ret, log, rfl, ?_⟩
    rcases handlePacket_visits hr with ⟨rfl, hc, _⟩ | ⟨first, tlvs, rest, k, res, evP, evM, evE, ms, tail, hp, hsuf, hret, hlog, hl, hE, hP, hT, hms, hsz, hV, _, hres, _⟩
    · exact ⟨.inr (.inl hc), by simp⟩
    · have hin : ∀ b ∈ ms, b <:+: buf := by
        intro b hb
        refine List.IsInfix.trans ?_ hsuf.isInfix
        rw [hms]
        exact (List.infix_of_mem_flatten hb).trans (List.prefix_append _ _).isInfix
      constructor
      · by_cases h5 : res = DROP_PACKET
        · rw [if_pos h5] at hret
          exact .inl hret
        · rw [if_neg h5] at hret
          rw [hret, hlog]
          rcases hres with h | ⟨_, k', h⟩ | ⟨e, he, _, h, _⟩ | ⟨e, he, h⟩
          · exact .inl h
          · exact .inr (.inl (parseMessage_code h))
          · exact .inr (.inr ⟨e, List.mem_append_right _ (List.mem_append_left _ he), h⟩)
          · exact .inr (.inr ⟨e, List.mem_append_right _ (List.mem_append_right _ he), h⟩)
      · rw [hlog]
        intro e he
        rcases List.mem_append.1 he with he | he
        · have hk := (hE e he).2
          cases hkk : e.kind with
          | fin d =>
            exact ⟨⟨fun t v h => by rw [hkk] at h; simp at h, fun t ht => by rw [hkk] at ht; simp [Kind.tlvs] at ht⟩, fun h b hf => by simp at hf⟩
          | _ => rw [hkk] at hk; exact hk.elim
        · rcases List.mem_append.1 he with he | he
          · obtain ⟨i, b, hb, hi, hv⟩ := hV.mem e he
            refine ⟨hv.mono (hin b (List.mem_of_getElem? hb)), ?_⟩
            intro h b' hk
            obtain ⟨ev0, ev1, ev2, k1, k2, msg, h1, h2, h3, h4, h5⟩ := hV.at i b hb
            rw [h1] at he
            rcases List.mem_append.1 he with he | he
            · obtain ⟨j, hj, hlt⟩ := h5 e he
              rw [hi] at hj
              have := Option.some.inj hj
              omega
            · rcases List.mem_append.1 he with he | he
              · rw [(h3.fwd e he h b' hk).2.1]
                exact hin b (List.mem_of_getElem? hb)
              · obtain ⟨j, hj, hlt⟩ := h4 e he
                rw [hi] at hj
                have := Option.some.inj hj
                omega
          · refine ⟨(hP e he).2.2.2, fun h b hk => ?_⟩
            exact absurd (isForward_iff.2 ⟨h, b, hk⟩) (hP e he).2.2.1

/-- C31: no undefined behaviour without one of the three malformed encodings -/
theorem C31_no_hazard_partial (env : Env) (pc mc : List Consumer) (buf : Bytes) (h : ∀ u, ¬ Hazard buf u) :
    ∃ ret log, handlePacket env pc mc buf = .ok (ret, log) := by
  rcases C31_packet_partial env pc mc buf with ⟨u, _, hz⟩ | ⟨ret, log, h', _⟩
  · exact absurd hz (h u)
  · exact ⟨ret, log, h'⟩

example : ∃ r, handlePacket okEnv [cons1] [cons1, cons2] pkt12 = .ok r ∧ decide (r.1 = OKAY ∧ r.2.length = 11) = true := okBy (by decide +kernel)
example : handlePacket okEnv [] [cons1, cons2] [0, 1, 3, 0, 7, 0, 0] = .ok (END_OF_BUFFER, []) := by decide +kernel

/-- a multivalue message TLV divides by zero: message TLVs have no index, so the number of values is 0 modulo 256
(rfc5444_reader.c:524-545) -/
theorem C31_division_counterexample :
    handlePacket okEnv [] [] [0, 1, 3, 0, 10, 0, 4, 5, 0x14, 1, 9] = .ub .div := by decide +kernel

/-- a packet that ends at the single prefix length of an address block is read beyond its end (rfc5444_reader.c:886) -/
theorem C31_read_counterexample :
    handlePacket okEnv [] [] [0, 1, 3, 0, 12, 0, 0, 1, 0x10, 10, 0, 0, 1] = .ub .read := by decide +kernel

/-- an address block whose zero tail is longer than an address writes outside of the address buffer as soon as a
consumer for addresses is registered (rfc5444_reader.c:850-871 and 975) -/
theorem C31_copy_counterexample :
    handlePacket okEnv [] [cons2] ([0, 1, 3, 1, 10, 0, 0, 1, 0x20, 5] ++ List.replicate 255 7 ++ [0, 0]) = .ub .copy := by decide +kernel

/-! ### C32 -/

/-- C32: whether a message is accepted, and what is read, does not depend on the bytes behind it -/
theorem C32_local {mem : Nat → Bool} {k : Nat} {m r : Bytes} {x : Msg × Nat} (hsz : sizeField m = some m.length) :
    parseMessage mem k (m ++ r) = .ok x ↔ parseMessage mem k m = .ok x := parseMessage_local hsz

example : sizeField msg1 = some msg1.length ∧ ∃ x, parseMessage (fun _ => true) 0 msg1 = .ok x ∧ decide (x.1.blocks.length = 1) = true :=
  ⟨rfl, okBy (by decide +kernel)⟩

/-- C32: the messages are found one after the other by their size fields alone (so independently of what consumers
do), each is parsed as if it were alone and its callbacks see only its own bytes, in the order of the messages; the
processing ends before the end of the packet only because of a message with a parse error, or because a callback
asks to drop the packet or returns an error -/
theorem C32_messages {env : Env} {pc mc : List Consumer} {buf : Bytes} {ret : Int} {log : List Event}
    (h : handlePacket env pc mc buf = .ok (ret, log)) :
    (log = [] ∧ Code ret) ∨
    ∃ first tlvs rest k evP evM evE ms tail, parsePacket env.mem buf = .ok (first, tlvs, rest, k) ∧ rest <:+ buf ∧
      log = evE ++ (evM ++ evP) ∧ (∀ e ∈ evE ++ evP, e.ctx = .pkt) ∧
      rest = ms.flatten ++ tail ∧ Split ms.flatten ms ∧ Visits env mc 0 k ms evP evM ∧
      (tail = [] ∨ (∃ k' c, parseMessage env.mem k' tail = .err c ∧ ret = c) ∨
        ∃ e ∈ evM ++ evP, ¬ e.kind.IsForward ∧ e.r.res ≠ OKAY ∧ (e.r.res = ret ∨ e.r.res = DROP_PACKET)) := by
  rcases handlePacket_visits h with hh | ⟨first, tlvs, rest, k, res, evP, evM, evE, ms, tail, hp, hsuf, hret, hlog, hl, hE, hP, hT, hms, hsz, hV, h0, hres, _⟩
  · exact .inl ⟨hh.1, hh.2.1⟩
  · right
    refine ⟨first, tlvs, rest, k, evP, evM, evE, ms, tail, hp, hsuf, hlog, ?_, hms, split_of ms hsz, hV, ?_⟩
    · intro e he
      rcases List.mem_append.1 he with he | he
      · exact (hE e he).1
      · exact (hP e he).1
    · by_cases hz : res = OKAY
      · exact .inl (h0 hz)
      · right
        rcases hres with h | ⟨_, k', h⟩ | ⟨e, he, hf, h, _⟩ | ⟨e, he, h⟩
        · exact absurd h hz
        · left
          refine ⟨k', res, h, ?_⟩
          rw [hret, if_neg]
          intro h5
          have := parseMessage_code h
          rw [h5] at this
          exact absurd this (by decide)
        · refine .inr ⟨e, List.mem_append_left _ he, hf, by rw [h]; exact hz, ?_⟩
          by_cases h5 : res = DROP_PACKET
          · exact .inr (h.trans h5)
          · left
            rw [hret, if_neg h5, h]
        · refine .inr ⟨e, List.mem_append_right _ he, (hP e he).2.2.1, by rw [h]; exact hz, ?_⟩
          by_cases h5 : res = DROP_PACKET
          · exact .inr (h.trans h5)
          · left
            rw [hret, if_neg h5, h]

/-- C32: the cutting of a packet into messages is unique -/
theorem C32_split_unique {b : Bytes} {ms ms' : List Bytes} (h : Split b ms) (h' : Split b ms') : ms = ms' := h.unique h'

/-- C32: of a packet of well-formed messages all are visited, even if callbacks drop TLVs, addresses or messages -/
theorem C32_all_messages {env : Env} {pc mc : List Consumer} {buf : Bytes} {ret : Int} {log : List Event} {first : UInt8} {tlvs : List Tlv}
    {rest : Bytes} {k : Nat} {ms : List Bytes} (h : handlePacket env pc mc buf = .ok (ret, log)) (hsmall : buf.length ≤ 65535)
    (hp : parsePacket env.mem buf = .ok (first, tlvs, rest, k)) (hs : Split rest ms) (hw : ∀ b ∈ ms, WellFormed b)
    (hmem : env.mem = fun _ => true) (hm : ∀ e ∈ log, e.ctx.message ≠ none → 0 ≤ e.r.res ∧ e.r.res < DROP_PACKET)
    (hpm : ∀ e ∈ log, e.ctx = .pkt → ¬ e.kind.IsFin → e.Mild) :
    ret = OKAY ∧ ∃ evP evM evE, log = evE ++ (evM ++ evP) ∧ (∀ e ∈ evE ++ evP, e.ctx = .pkt) ∧ Visits env mc 0 k ms evP evM := by
  · rcases handlePacket_visits h with ⟨_, _, hc | hc⟩ | ⟨first', tlvs', rest', k', res, evP, evM, evE, ms', tail, hp', hsuf, hret, hlog, hl, hE, hP, hT, hms, hsz, hV, h0, hres, hall⟩
    · omega
    · rw [hp] at hc
      simp at hc
    · rw [hp] at hp'
      simp only [R.ok.injEq, Prod.mk.injEq] at hp'
      obtain ⟨rfl, rfl, rfl, rfl⟩ := hp'
      obtain ⟨h1, h2⟩ := hall
        (fun e he => hm e (by rw [hlog]; exact List.mem_append_right _ (List.mem_append_left _ he)) (by
          obtain ⟨i, b, _, hi, _⟩ := hV.mem e he
          rw [hi]
          simp))
        (fun e he => hpm e (by rw [hlog]; exact List.mem_append_right _ (List.mem_append_right _ he)) (hP e he).1 (hP e he).2.1) hmem ms hs hw
      subst h2
      refine ⟨h1, evP, evM, evE, hlog, ?_, hV⟩
      intro e he
      rcases List.mem_append.1 he with he | he
      · exact (hE e he).1
      · exact (hP e he).1

theorem msg1_wf : WellFormed msg1 := ⟨rfl, fun _ => ⟨_, _, rfl⟩⟩
theorem msg2_wf : WellFormed msg2 := ⟨rfl, fun _ => ⟨_, _, rfl⟩⟩
theorem pkt12_split : Split (msg1 ++ msg2) [msg1, msg2] := by
  have := Split.cons (m := msg1) (rest := msg2 ++ []) rfl (.cons (m := msg2) rfl .nil)
  rwa [List.append_nil] at this

/-- the hypotheses of `C32_all_messages` for a packet whose first message is dropped -/
example : pkt12.length ≤ 65535 ∧ parsePacket dropEnv.mem pkt12 = .ok (0, [], msg1 ++ msg2, 0) ∧ Split (msg1 ++ msg2) [msg1, msg2] ∧
    (∀ b ∈ [msg1, msg2], WellFormed b) ∧
    ∃ r, handlePacket dropEnv [] [cons1, cons2] pkt12 = .ok r ∧
      decide (∀ e ∈ r.2, e.ctx.message ≠ none ∧ 0 ≤ e.r.res ∧ e.r.res < DROP_PACKET) = true := by
  refine ⟨by decide, by decide +kernel, pkt12_split, ?_, okBy (by decide +kernel)⟩
  intro b hb
  rcases List.mem_cons.1 hb with rfl | hb
  · exact msg1_wf
  · rw [List.mem_singleton.1 hb]
    exact msg2_wf

/-! ### C33 -/

/-- C33: a message is offered for forwarding only if a forwarding handler is set, its hop limit is greater than one,
no callback for this message dropped it without forwarding (or dropped the packet) or suppressed forwarding; what is
forwarded is the complete message with its header -/
theorem C33_forward_permitted {env : Env} {pc mc : List Consumer} {buf : Bytes} {ret : Int} {log : List Event} {e : Event} {h : Hdr} {b : Bytes}
    (hr : handlePacket env pc mc buf = .ok (ret, log)) (he : e ∈ log) (hk : e.kind = .forward h b) :
    env.hasForward = true ∧ (∃ l, h.hoplimit = some l ∧ 1 < l) ∧
    (sizeField b = some b.length ∧ ∃ k msg k', parseMessage env.mem k b = .ok (msg, k') ∧ msg.hdr = h) ∧
    ∃ m, e.ctx = .msg m ∧ ∀ e' ∈ log, e'.ctx.message = some m → ¬ e'.kind.IsForward →
      e'.r.res ≠ DROP_MESSAGE ∧ e'.r.res ≠ DROP_PACKET ∧ e'.r.noFwd = false := by
  rcases handlePacket_visits hr with ⟨rfl, hc, _⟩ | ⟨first, tlvs, rest, k, res, evP, evM, evE, ms, tail, hp, hsuf, hret, hlog, hl, hE, hP, hT, hms, hsz, hV, _, hres, _⟩
  · simp at he
  · rw [hlog] at he
    have hf := isForward_iff.2 ⟨h, b, hk⟩
    rcases List.mem_append.1 he with he | he
    · have := (hE e he).2
      rw [hk] at this
      exact this.elim
    · rcases List.mem_append.1 he with he | he
      · obtain ⟨i, b', hb, hi, hv⟩ := hV.mem e he
        rw [Nat.zero_add] at hi
        obtain ⟨ev0, ev1, ev2, k1, k2, msg, h1, h2, h3, hmem, _⟩ := hV.slice (fun e he => (hE e he).1) (fun e he => (hP e he).1) hb
        rw [← hlog] at hmem
        have he1 := hmem e (by rw [hlog]; exact List.mem_append_right _ (List.mem_append_left _ he)) hi
        obtain ⟨g1, g2, g3, g4, g5, g6⟩ := h3.fwd e he1 h b hk
        refine ⟨g4, by rw [g1]; exact g5, ⟨by rw [g2]; exact hsz b' (List.mem_of_getElem? hb), k1, msg, k2, by rw [g2]; exact h2, g1.symm⟩, _, g3, ?_⟩
        intro e' he' hm hf'
        obtain ⟨⟨q1, q2⟩, q3⟩ := g6 e' (hmem e' he' hm) hf'
        exact ⟨q1, q2, q3⟩
      · exact absurd hf (hP e he).2.2.1

/-- C33: a message is offered for forwarding at most once -/
theorem C33_forward_once {env : Env} {pc mc : List Consumer} {buf : Bytes} {ret : Int} {log : List Event}
    (hr : handlePacket env pc mc buf = .ok (ret, log)) (m : Nat) :
    (log.filter fun e => e.kind.isForward && decide (e.ctx.message = some m)).length ≤ 1 := by
  rcases handlePacket_visits hr with ⟨rfl, hc, _⟩ | ⟨first, tlvs, rest, k, res, evP, evM, evE, ms, tail, hp, hsuf, hret, hlog, hl, hE, hP, hT, hms, hsz, hV, _, hres, _⟩
  · simp
  · have hnone : ∀ l : List Event, (∀ e ∈ l, ¬ (e.kind.isForward = true ∧ e.ctx.message = some m)) →
        l.filter (fun e => e.kind.isForward && decide (e.ctx.message = some m)) = [] := by
      intro l h
      rw [List.filter_eq_nil_iff]
      intro e he
      have := h e he
      simpa using this
    by_cases hm : ∃ b, ms[m]? = some b
    · obtain ⟨b, hb⟩ := hm
      obtain ⟨ev0, ev1, ev2, k1, k2, msg, h1, h2, h3, hmem, hout⟩ := hV.slice (fun e he => (hE e he).1) (fun e he => (hP e he).1) hb
      rw [hlog, h1, List.filter_append, List.filter_append, hnone ev2, hnone ev0, List.nil_append, List.append_nil]
      · refine Nat.le_trans (List.Sublist.length_le ?_) h3.fwdOne
        rw [show (fun e : Event => e.kind.isForward && decide (e.ctx.message = some m)) =
          fun e => decide (e.ctx.message = some m) && e.kind.isForward from funext fun e => Bool.and_comm _ _, ← List.filter_filter]
        exact List.filter_sublist
      · intro e he h
        exact hout e (List.mem_append_right _ he) h.2
      · intro e he h
        exact hout e (List.mem_append_left _ he) h.2
    · rw [hnone log]
      · simp
      · intro e he h
        rw [hlog] at he
        rcases List.mem_append.1 he with he | he
        · rw [(hE e he).1] at h
          simp [Ctx.message] at h
        · rcases List.mem_append.1 he with he | he
          · obtain ⟨i, b, hb, hi, _⟩ := hV.mem e he
            rw [h.2, Nat.zero_add] at hi
            rw [← Option.some.inj hi] at hb
            exact hm ⟨b, hb⟩
          · rw [(hP e he).1] at h
            simp [Ctx.message] at h

/-- C33: conversely a message of a packet of well-formed messages with a hop limit greater than one is offered for
forwarding if the callbacks for it return OKAY, drop only TLVs or addresses, or drop the message but forward it -/
theorem C33_forwarded {env : Env} {pc mc : List Consumer} {buf : Bytes} {ret : Int} {log : List Event} {first : UInt8} {tlvs : List Tlv}
    {rest : Bytes} {k : Nat} {ms : List Bytes} (h : handlePacket env pc mc buf = .ok (ret, log)) (hsmall : buf.length ≤ 65535)
    (hp : parsePacket env.mem buf = .ok (first, tlvs, rest, k)) (hs : Split rest ms) (hw : ∀ b ∈ ms, WellFormed b)
    (hmem : env.mem = fun _ => true) (hm : ∀ e ∈ log, e.ctx.message ≠ none → 0 ≤ e.r.res ∧ e.r.res < DROP_PACKET)
    (hpm : ∀ e ∈ log, e.ctx = .pkt → ¬ e.kind.IsFin → e.Mild) {i : Nat} {b : Bytes} (hb : ms[i]? = some b) :
    ∃ k' msg k'', parseMessage env.mem k' b = .ok (msg, k'') ∧
      (env.hasForward = true → (∃ l, msg.hdr.hoplimit = some l ∧ 1 < l) →
        (∀ e ∈ log, e.ctx.message = some i → ¬ e.kind.IsForward → (e.Mild ∨ e.r.res = DROP_MSG_BUT_FORWARD) ∧ e.r.noFwd = false) →
        ∃ e ∈ log, e.ctx = .msg i ∧ e.kind = .forward msg.hdr b) := by
  obtain ⟨_, evP, evM, evE, hlog, hpkt, hV⟩ := C32_all_messages h hsmall hp hs hw hmem hm hpm
  obtain ⟨ev0, ev1, ev2, k1, k2, msg, h1, h2, h3, hin, _⟩ := hV.slice (fun e he => hpkt e (List.mem_append_left _ he))
    (fun e he => hpkt e (List.mem_append_right _ he)) hb
  refine ⟨k1, msg, k2, h2, fun hf hh hall => ?_⟩
  have hsub : ∀ e ∈ ev1, e ∈ log := by
    intro e he
    rw [hlog, h1]
    simp [he]
  obtain ⟨e, he, hk⟩ := h3.fwdIf hf hh fun e he hn => hall e (hsub e he) (h3.ctx e he) hn
  exact ⟨e, hsub e he, (h3.fwd e he _ _ hk).2.2.1, hk⟩

/-- of `pkt12` the first message is forwarded, the second has no hop limit -/
example : ∃ r, handlePacket okEnv [] [cons1, cons2] pkt12 = .ok r ∧
    decide ((r.2.filter fun e => e.kind.isForward).map (fun e => e.ctx.message) = [some 0]) = true := okBy (by decide +kernel)
/-- after a drop no forwarding -/
example : ∃ r, handlePacket dropEnv [] [cons1, cons2] pkt12 = .ok r ∧
    decide ((r.2.filter fun e => e.kind.isForward) = []) = true := okBy (by decide +kernel)

/-- consumer 1 returns an error from its start callback -/
def errEnv : Env :=
  ⟨fun _ cid _ kind => if cid = 1 ∧ kind = .start then ⟨END_OF_BUFFER, false, [], by decide⟩ else okResp, fun _ => true, true⟩

/-- the error of a consumer is forgotten when its end callback returns OKAY: the message is forwarded
(rfc5444_reader.c:1054-1057) -/
theorem C33_error_masked :
    ∃ r, handlePacket errEnv [] [cons1] pkt12 = .ok r ∧
      decide (r.1 = OKAY ∧ (∃ e ∈ r.2, e.r.res = END_OF_BUFFER ∧ e.ctx = .msg 0) ∧ ∃ e ∈ r.2, e.kind.isForward = true ∧ e.ctx = .msg 0) = true :=
  okBy (by decide +kernel)

/-! ### C34 -/

/-- C34: after a callback has dropped a TLV, an address, a message or the packet, no later callback of any consumer
sees the dropped element (see `InScope` for the end callbacks that still follow) -/
theorem C34_drop_scope {env : Env} {pc mc : List Consumer} {buf : Bytes} {ret : Int} {log : List Event}
    (h : handlePacket env pc mc buf = .ok (ret, log)) {i j : Nat} {e e' : Event} (hij : i < j) (hj : log[j]? = some e) (hi : log[i]? = some e') :
    InScope e e' := by
  have hl : LogOk log := by
    rcases handlePacket_visits h with ⟨rfl, _⟩ | ⟨first, tlvs, rest, k, res, evP, evM, evE, ms, tail, hp, hsuf, hret, hlog, hl, _⟩
    · exact List.Pairwise.nil
    · exact hl
  obtain ⟨hi', rfl⟩ := List.getElem?_eq_some_iff.1 hi
  obtain ⟨hj', rfl⟩ := List.getElem?_eq_some_iff.1 hj
  exact List.pairwise_iff_getElem.1 hl i j hi' hj' hij

/-- C34: packet TLVs outside of the scope of drops are delivered to all packet consumers -/
theorem C34_packet_delivered {env : Env} {pc mc : List Consumer} {buf : Bytes} {ret : Int} {log : List Event} {first : UInt8} {tlvs : List Tlv}
    {rest : Bytes} {k : Nat} (h : handlePacket env pc mc buf = .ok (ret, log)) (hsmall : buf.length ≤ 65535)
    (hp : parsePacket env.mem buf = .ok (first, tlvs, rest, k)) (hpm : ∀ e ∈ log, e.ctx = .pkt → ¬ e.kind.IsFin → e.Mild)
    {c : Consumer} (hc : c ∈ pc) : ∃ ev0 ev1 ev2, log = ev2 ++ (ev1 ++ ev0) ∧ PktTurn c tlvs ev0 ev1 := by
  rcases handlePacket_visits h with ⟨_, _, hc | hc⟩ | ⟨first', tlvs', rest', k', res, evP, evM, evE, ms', tail, hp', hsuf, hret, hlog, hl, hE, hP, hT, _⟩
  · omega
  · rw [hp] at hc
    simp at hc
  · rw [hp] at hp'
    simp only [R.ok.injEq, Prod.mk.injEq] at hp'
    obtain ⟨rfl, rfl, rfl, rfl⟩ := hp'
    obtain ⟨ev0, ev1, ev2, h1, h2⟩ := hT (fun e he => hpm e (by rw [hlog]; simp [he]) (hP e he).1 (hP e he).2.1) c hc
    rw [List.append_nil] at h2
    exact ⟨ev0, ev1, evE ++ (evM ++ ev2), by rw [hlog, h1]; simp only [List.append_assoc], h2⟩

/-- C34: in a packet of well-formed messages every consumer that wants a message gets its turn (see `Turn`: start
callbacks and all TLVs of the message or of the addresses that are not dropped), and the end callback, if no callback
for this message drops more than TLVs and addresses - whatever happens to other messages -/
theorem C34_message_delivered {env : Env} {pc mc : List Consumer} {buf : Bytes} {ret : Int} {log : List Event} {first : UInt8} {tlvs : List Tlv}
    {rest : Bytes} {k : Nat} {ms : List Bytes} (h : handlePacket env pc mc buf = .ok (ret, log)) (hsmall : buf.length ≤ 65535)
    (hp : parsePacket env.mem buf = .ok (first, tlvs, rest, k)) (hs : Split rest ms) (hw : ∀ b ∈ ms, WellFormed b)
    (hmem : env.mem = fun _ => true) (hm : ∀ e ∈ log, e.ctx.message ≠ none → 0 ≤ e.r.res ∧ e.r.res < DROP_PACKET)
    (hpm : ∀ e ∈ log, e.ctx = .pkt → ¬ e.kind.IsFin → e.Mild) {i : Nat} {b : Bytes} (hb : ms[i]? = some b)
    (hmild : ∀ e ∈ log, e.ctx.message = some i → ¬ e.kind.IsForward → e.Mild) :
    ∃ k' msg k'', parseMessage env.mem k' b = .ok (msg, k'') ∧ ∀ c ∈ mc, c.wants msg.hdr →
      ∃ ev0 ev1 ev2, log = ev2 ++ (ev1 ++ ev0) ∧ Turn c i msg.tlvs msg.blocks ev0 ev1 ∧
        (c.addrblock = false → c.hasEnd = true → ∃ e ∈ ev2, e.cid = c.id ∧ e.ctx = .msg i ∧ e.kind.IsFin) := by
  obtain ⟨_, evP, evM, evE, hlog, hpkt, hV⟩ := C32_all_messages h hsmall hp hs hw hmem hm hpm
  obtain ⟨ev0, ev1, ev2, k1, k2, msg, h1, h2, h3, hin, _⟩ := hV.slice (fun e he => hpkt e (List.mem_append_left _ he))
    (fun e he => hpkt e (List.mem_append_right _ he)) hb
  refine ⟨k1, msg, k2, h2, fun c hc hwant => ?_⟩
  obtain ⟨e0, e1, e2, g1, g2, g3⟩ := h3.turns (fun e he hn => hmild e (by rw [hlog, h1]; simp [he]) (h3.ctx e he) hn) c hc hwant
  refine ⟨e0 ++ ev0, e1, ev2 ++ e2, by rw [hlog, h1, g1]; simp only [List.append_assoc], g2, fun a b => ?_⟩
  obtain ⟨e, he, h⟩ := g3 a b
  exact ⟨e, List.mem_append_right _ he, h⟩

/-- consumer 1 drops message TLVs of type 5, consumer 2 drops the address with index 0 -/
def tlvEnv : Env :=
  ⟨fun _ cid ctx kind =>
    if cid = 1 ∧ kind.tlvs.any (fun t => t.type = 5) then ⟨DROP_TLV, false, [], by decide⟩
    else if cid = 2 ∧ ctx.index = 0 then ⟨DROP_ADDRESS, false, [], by decide⟩ else okResp, fun _ => true, true⟩
def cons3 : Consumer := { cons1 with id := 3, order := 2 }
def cons4 : Consumer := { cons2 with id := 4, order := 3 }

/-- the later consumers 3 and 4 see only the start of the message and the second address with its TLV -/
example : ∃ r, handlePacket tlvEnv [] [cons1, cons2, cons3, cons4] pkt12 = .ok r ∧
    decide ((r.2.filter fun e => e.cid ≥ 3 && e.ctx.message == some 0).reverse.map (fun e => (e.cid, e.ctx, e.kind.tlvs.map Tlv.type))
      = [(3, .msg 0, []), (3, .msg 0, []), (4, .addr 0 0 1 [10, 0, 0, 2] 32, []), (4, .addr 0 0 1 [10, 0, 0, 2] 32, [7])]) = true :=
  okBy (by decide +kernel)

end Verif.Reader
