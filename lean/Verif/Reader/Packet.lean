import Verif.Reader.Handle

/-! Lemmas about the handling of a whole packet. -/
namespace Verif.Reader

/-- the result of a message with the callbacks `ev` -/
structure MsgResult (res : Int) (ev : List Event) : Prop where
  source : res = OKAY ∨ ∃ e ∈ ev, ¬ e.kind.IsForward ∧ e.r.res = res ∧ (res < 0 ∨ res = DROP_PACKET)
  drop : (∃ e ∈ ev, ¬ e.kind.IsForward ∧ e.r.res = DROP_PACKET) → res = DROP_PACKET

theorem inScope_forward {e e' : Event} {m : Nat} (hk : e'.kind.IsForward) (hc : e'.ctx = .msg m)
    (hm : e.ctx.message = some m → ¬ e.kind.IsForward → e.r.res ≠ DROP_MESSAGE) (hp : ¬ e.kind.IsForward → e.r.res ≠ DROP_PACKET) :
    InScope e e' := by
  refine ⟨?_, ?_, ?_, ?_, ?_⟩
  · rintro tid _ _ ⟨t, ht, _⟩
    cases hkk : e'.kind <;> rw [hkk] at hk ht <;> first | exact hk.elim | (simp [Kind.tlvs] at ht)
  · intro ha _ hs
    have := hs.isAddr ha
    rw [hc] at this
    exact this.elim
  · intro _ hf hr hs
    rw [hc] at hs
    exact absurd hr (hm hs hf)
  · intro _ _ _ _
    exact .inr hk
  · intro hf hr
    exact absurd hr (hp hf)

theorem isForward_iff {k : Kind} : k.IsForward ↔ ∃ h b, k = .forward h b := by
  cases k <;> simp [Kind.IsForward]

theorem filter_noFwd {ev : List Event} (h : ∀ e ∈ ev, ¬ e.kind.IsForward) :
    ev.filter (fun e => e.kind.isForward) = [] := by
  rw [List.filter_eq_nil_iff]
  intro e he
  have := h e he
  cases hk : e.kind <;> rw [hk] at this <;> simp_all [Kind.IsForward, Kind.isForward]

theorem forward_events {env : Env} {cs : List Consumer} {m : Nat} {msg : Msg} {bytes : Bytes} {log ev : List Event} {res : Int}
    {st st1 st' : St} (hC : ConsPart bytes m msg.hdr cs [] msg.tlvs msg.blocks res log ev) (hlog : st.log = log) (hno : st.noFwd = false)
    (hx : Ext st st1 ev) (h : forward env m msg.hdr bytes res st1 = st')
    (hpk : ∀ e ∈ log, ¬ e.kind.IsForward → e.r.res ≠ DROP_PACKET) (hlt : ∀ e ∈ log, ∀ m', e.ctx.message = some m' → m' < m) :
    ∃ ev', st'.log = ev' ++ log ∧ MsgEvents env cs m msg bytes log ev' ∧
      ∀ e, ¬ e.kind.IsForward → (e ∈ ev' ↔ e ∈ ev) := by
  have hlog1 : st1.log = ev ++ log := by rw [hx.1, hlog]
  have hno1 : st1.noFwd = false ↔ ∀ e ∈ ev, e.r.noFwd = false := by
    rw [hx.2, hno, Bool.or_false, List.any_eq_false]
    simp
  -- without forwarding
  have hstay : st' = st1 →
      ((env.hasForward = true → (∃ l, msg.hdr.hoplimit = some l ∧ 1 < l) →
      (∀ e ∈ ev, ¬ e.kind.IsForward → (e.Mild ∨ e.r.res = DROP_MSG_BUT_FORWARD) ∧ e.r.noFwd = false) → False)) →
      ∃ ev', st'.log = ev' ++ log ∧ MsgEvents env cs m msg bytes log ev' ∧ ∀ e, ¬ e.kind.IsForward → (e ∈ ev' ↔ e ∈ ev) := by
    rintro rfl hn
    refine ⟨ev, hlog1, ⟨hC.ctx, hC.part.valid, hC.ok, ?_, ?_, ?_, ?_⟩, fun _ _ => Iff.rfl⟩
    · intro hm
      exact hC.turns fun e he => hm e he (hC.part.noFwd e he)
    · intro e he h b hk
      exact absurd (isForward_iff.2 ⟨h, b, hk⟩) (hC.part.noFwd e he)
    · intro h1 h2 h3
      exact (hn h1 h2 h3).elim
    · rw [filter_noFwd hC.part.noFwd]
      exact Nat.zero_le _
  unfold forward at h
  split at h
  · rename_i hcond
    obtain ⟨hres, hnf, hhf⟩ := hcond
    cases hl : msg.hdr.hoplimit with
    | none =>
      rw [hl] at h
      exact hstay h.symm fun _ ⟨l, h, _⟩ _ => by rw [hl] at h; simp at h
    | some l =>
      rw [hl] at h
      simp only at h
      by_cases hgt : l > 1
      · rw [if_pos hgt] at h
        have hce := call_ext env st1 FORWARD (.msg m) (.forward msg.hdr bytes)
        rw [h] at hce
        generalize hfe : (⟨FORWARD, .msg m, .forward msg.hdr bytes, (call env st1 FORWARD (.msg m) (.forward msg.hdr bytes)).1⟩ : Event) = f at hce
        have hfk : f.kind = .forward msg.hdr bytes := by rw [← hfe]
        have hfc : f.ctx = .msg m := by rw [← hfe]
        have hfwd : f.kind.IsForward := by rw [hfk]; trivial
        have hlow : ∀ e ∈ ev, e.r.res ≠ DROP_MESSAGE ∧ e.r.res ≠ DROP_PACKET := by
          intro e he
          constructor <;> intro hr <;> have := hC.part.high e he (by rw [hr]; decide) <;> rw [hr] at this <;>
            rcases hres with h | h <;> rw [h] at this <;> exact absurd this (by decide)
        refine ⟨f :: ev, ?_, ⟨?_, ?_, ?_, ?_, ?_, ?_, ?_⟩, ?_⟩
        · rw [hce.1, hlog1]
          rfl
        · intro e he
          rcases List.mem_cons.1 he with rfl | he
          · rw [hfc]; rfl
          · exact hC.ctx e he
        · intro e he
          rcases List.mem_cons.1 he with rfl | he
          · exact valid_noTlv (by rw [hfk]; rfl)
          · exact hC.part.valid e he
        · refine List.Pairwise.cons (fun e he => ?_) hC.ok
          refine inScope_forward hfwd hfc (fun hm _ => ?_) fun hf => ?_
          · rcases List.mem_append.1 he with he | he
            · exact (hlow e he).1
            · exact absurd (hlt e he m hm) (Nat.lt_irrefl _)
          · rcases List.mem_append.1 he with he | he
            · exact (hlow e he).2
            · exact hpk e he hf
        · intro hm c hc hw
          obtain ⟨e0, e1, e2, heq, hT, hE⟩ := hC.turns (fun e he => hm e (List.mem_cons_of_mem _ he) (hC.part.noFwd e he)) c hc hw
          refine ⟨e0, e1, f :: e2, by rw [heq]; rfl, hT, fun h1 h2 => ?_⟩
          obtain ⟨e, he, h⟩ := hE h1 h2
          exact ⟨e, List.mem_cons_of_mem _ he, h⟩
        · intro e he h b hk
          rcases List.mem_cons.1 he with rfl | he
          · rw [hfk] at hk
            simp only [Kind.forward.injEq] at hk
            refine ⟨hk.1.symm, hk.2.symm, hfc, hhf, ⟨l, hl, hgt⟩, ?_⟩
            intro e' he' hf
            rcases List.mem_cons.1 he' with rfl | he'
            · exact absurd hfwd hf
            · exact ⟨hlow e' he', hno1.1 hnf e' he'⟩
          · exact absurd (isForward_iff.2 ⟨h, b, hk⟩) (hC.part.noFwd e he)
        · intro _ _ _
          exact ⟨f, List.mem_cons_self, hfk⟩
        · rw [List.filter_cons, filter_noFwd hC.part.noFwd]
          split <;> simp
        · intro e hf
          rw [List.mem_cons]
          constructor
          · rintro (rfl | h)
            · exact absurd hfwd hf
            · exact h
          · exact .inr
      · rw [if_neg hgt] at h
        refine hstay h.symm fun _ ⟨l', h, h'⟩ _ => ?_
        rw [hl] at h
        rw [Option.some.inj h] at hgt
        exact hgt h'
  · rename_i hcond
    refine hstay h.symm fun h1 _ h3 => hcond ⟨?_, hno1.2 fun e he => (h3 e he (hC.part.noFwd e he)).2, h1⟩
    rcases hC.part.source with h | ⟨e, he, h, hn⟩
    · exact .inl h
    · rcases (h3 e he (hC.part.noFwd e he)).1 with h' | h'
      · exact absurd h' hn
      · exact .inr (h.symm.trans h')

theorem blksInv_init {buf : Bytes} {m : Nat} {log : List Event} (hlt : ∀ e ∈ log, ∀ m', e.ctx.message = some m' → m' < m) :
    ∀ {bs : List Block} {blk : Nat}, (∀ b ∈ bs, BlockOk buf b ∧ b.drop = [] ∧ ∀ t ∈ b.tlvs, t.drop = []) → BlksInv buf m blk log bs := by
  intro bs
  have hno : ∀ blk i, ∀ e ∈ log, ¬ (addrCtx m blk i).Same e.ctx := by
    intro blk i e he hs
    have := hlt e he m (by rw [← hs.message]; rfl)
    omega
  induction bs with
  | nil => intro _ _; trivial
  | cons b bs ih =>
    intro blk h
    obtain ⟨h1, h2, h3⟩ := h b List.mem_cons_self
    refine ⟨⟨h1, ?_, ?_⟩, ih fun b hb => h b (List.mem_cons_of_mem _ hb)⟩
    · intro i
      rw [h2]
      constructor
      · simp
      · rintro ⟨e, he, hs, _⟩
        exact absurd hs (hno _ _ e he)
    · intro i t ht
      rw [h3 t ht]
      constructor
      · simp
      · rintro ⟨e, he, hs, _⟩
        exact absurd hs (hno _ _ e he)

theorem handleMessage_spec (env : Env) (cs : List Consumer) (m k : Nat) (buf start : Bytes) (st : St) (hbuf : start <:+ buf)
    (hl : LogOk st.log) (hpk : ∀ e ∈ st.log, ¬ e.kind.IsForward → e.r.res ≠ DROP_PACKET)
    (hlt : ∀ e ∈ st.log, ∀ m', e.ctx.message = some m' → m' < m) :
    (∃ u, handleMessage env cs m k start st = .ub u ∧ Hazard buf u) ∨
    (∃ e st', parseMessage env.mem k start = .err e ∧ handleMessage env cs m k start st = .ok (e, [], k, st') ∧ st'.log = st.log) ∨
    ∃ msg k' res st' ev, parseMessage env.mem k start = .ok (msg, k') ∧ sizeField start = some msg.hdr.size ∧ msg.hdr.size ≤ start.length ∧
      4 ≤ msg.hdr.size ∧ handleMessage env cs m k start st = .ok (res, start.drop msg.hdr.size, k', st') ∧
      st'.log = ev ++ st.log ∧ MsgEvents env cs m msg (start.take msg.hdr.size) st.log ev ∧ MsgResult res ev := by
  unfold handleMessage
  simp only
  have hP := parseMessage_sat env.mem k buf start hbuf
  cases hp : parseMessage env.mem k start with
  | ub u =>
    rw [hp] at hP
    exact .inl ⟨u, rfl, hP⟩
  | err e => exact .inr (.inl ⟨e, _, rfl, rfl, rfl⟩)
  | ok r =>
    obtain ⟨msg, k'⟩ := r
    rw [hp] at hP
    obtain ⟨hsz, hle, h4, _, ⟨htl, htd⟩, hbl⟩ := hP
    simp only at hsz hle h4 htl htd hbl
    simp only
    have hmark : MarkAt (.msg m) 0 st.log msg.tlvs := by
      intro t ht
      rw [htd t ht]
      constructor
      · simp
      · rintro ⟨e, he, hs, _⟩
        have := hlt e he m (by rw [← hs.message]; rfl)
        omega
    have hopen : Open (.msg m) st.log := by
      refine ⟨hpk, fun e he _ hs => ?_, fun e he ha => ha.elim⟩
      have := hlt e he m hs.symm
      omega
    rcases consLoop_spec env m msg.hdr (start.take msg.hdr.size) cs [] msg.tlvs msg.blocks { st with noFwd := false } htl hmark (blksInv_init hlt hbl) hl hopen with
      ⟨h1, hz⟩ | ⟨res, st1, ev, h1, hx, hC⟩
    · left
      rw [h1]
      exact ⟨.copy, rfl, start, msg.hdr.size, hbuf, hsz, hz⟩
    · right
      right
      rw [h1]
      simp only
      obtain ⟨ev', hlog', hM, hiff⟩ := forward_events (env := env) (bytes := start.take msg.hdr.size) (st := { st with noFwd := false }) hC rfl rfl hx rfl hpk hlt
      refine ⟨msg, k', _, _, ev', rfl, hsz, hle, h4, rfl, hlog', hM, ?_⟩
      refine ⟨?_, ?_⟩
      · split
        · exact .inl rfl
        · rename_i hn
          rcases hC.part.source with h | ⟨e, he, h, _⟩
          · exact .inl h
          · have hnf := hC.part.noFwd e he
            by_cases h0 : res = OKAY
            · exact .inl h0
            · refine .inr ⟨e, (hiff e hnf).2 he, hnf, h, ?_⟩
              by_cases h5 : res = DROP_PACKET
              · exact .inr h5
              · left
                have h0' : res ≠ 0 := h0
                have : ¬ res > 0 := fun h => hn ⟨h, h5⟩
                omega
      · rintro ⟨e, he, hnf, hr⟩
        have h5 : res = DROP_PACKET := by
          have he' := (hiff e hnf).1 he
          have h1 := hC.part.high e he' (by rw [hr]; decide)
          rw [hr] at h1
          rcases hC.part.source with h | ⟨e2, _, h, _⟩
          · rw [h] at h1
            exact absurd h1 (by decide)
          · have := e2.r.le
            rw [h] at this
            exact Int.le_antisymm this h1
        rw [if_neg (by rw [h5]; simp)]
        exact h5

/-- the messages of a packet from message number `m` (allocation `k`) on -/
inductive Msgs (env : Env) (cs : List Consumer) : Nat → Nat → Bytes → List Event → List Event → Int → Prop
  | done (m k : Nat) (log : List Event) : Msgs env cs m k [] log [] OKAY
  | bad {m k : Nat} {rest : Bytes} {log : List Event} {e : Int} : rest ≠ [] → parseMessage env.mem k rest = .err e → Msgs env cs m k rest log [] e
  | stop {m k k' : Nat} {rest : Bytes} {log ev : List Event} {msg : Msg} {res : Int} : rest ≠ [] → parseMessage env.mem k rest = .ok (msg, k') →
    sizeField rest = some msg.hdr.size → msg.hdr.size ≤ rest.length →
    MsgEvents env cs m msg (rest.take msg.hdr.size) log ev → MsgResult res ev → res ≠ OKAY → Msgs env cs m k rest log ev res
  | next {m k k' : Nat} {rest : Bytes} {log ev ev' : List Event} {msg : Msg} {res : Int} : rest ≠ [] → parseMessage env.mem k rest = .ok (msg, k') →
    sizeField rest = some msg.hdr.size → msg.hdr.size ≤ rest.length →
    MsgEvents env cs m msg (rest.take msg.hdr.size) log ev → MsgResult OKAY ev →
    Msgs env cs (m + 1) k' (rest.drop msg.hdr.size) (ev ++ log) ev' res → Msgs env cs m k rest log (ev' ++ ev) res

theorem msgLoop_spec (env : Env) (cs : List Consumer) (buf : Bytes) : ∀ n m k rest st, rest.length < n → rest <:+ buf →
    LogOk st.log → (∀ e ∈ st.log, ¬ e.kind.IsForward → e.r.res ≠ DROP_PACKET) →
    (∀ e ∈ st.log, ∀ m', e.ctx.message = some m' → m' < m) →
    (∃ u, msgLoop env cs n m k rest st = .ub u ∧ Hazard buf u) ∨
    ∃ res m' st' ev, msgLoop env cs n m k rest st = .ok (res, m', st') ∧ st'.log = ev ++ st.log ∧ LogOk (ev ++ st.log) ∧
      Msgs env cs m k rest st.log ev res := by
  intro n
  induction n with
  | zero => intro m k rest st h; omega
  | succ n ih =>
    intro m k rest st hn hbuf hl hpk hlt
    unfold msgLoop
    split
    · rename_i h
      subst h
      exact .inr ⟨OKAY, m, st, [], rfl, rfl, hl, .done m k st.log⟩
    · rename_i hne
      rcases handleMessage_spec env cs m k buf rest st hbuf hl hpk hlt with ⟨u, h1, hz⟩ | ⟨e, st', hp, h1, hlog⟩ |
        ⟨msg, k', res, st', ev, hp, hsz, hle, h4, h1, hlog, hM, hR⟩
      · rw [h1]
        exact .inl ⟨u, rfl, hz⟩
      · rw [h1]
        simp only
        right
        by_cases h0 : e = OKAY
        · -- an error code is never OKAY; nothing is left anyway
          rw [if_neg (by simp [h0])]
          have hn0 : 0 < n := by
            have : rest.length ≠ 0 := by simpa using hne
            omega
          obtain ⟨n', rfl⟩ : ∃ n', n = n' + 1 := ⟨n - 1, by omega⟩
          refine ⟨OKAY, m + 1, st', [], ?_, hlog, hl, ?_⟩
          · unfold msgLoop
            rw [if_pos rfl]
          · rw [← h0]
            exact .bad hne hp
        · rw [if_pos h0]
          exact ⟨e, m + 1, st', [], rfl, hlog, hl, .bad hne hp⟩
      · rw [h1]
        simp only
        by_cases h0 : res = OKAY
        · subst h0
          rw [if_neg (by simp)]
          have hnd : ∀ e ∈ ev, ¬ e.kind.IsForward → e.r.res ≠ DROP_PACKET := by
            intro e he hf hr
            exact absurd (hR.drop ⟨e, he, hf, hr⟩) (by decide)
          have hpk' : ∀ e ∈ st'.log, ¬ e.kind.IsForward → e.r.res ≠ DROP_PACKET := by
            rw [hlog]
            intro e he
            rcases List.mem_append.1 he with he | he
            · exact hnd e he
            · exact hpk e he
          have hlt' : ∀ e ∈ st'.log, ∀ m', e.ctx.message = some m' → m' < m + 1 := by
            rw [hlog]
            intro e he m' hm
            rcases List.mem_append.1 he with he | he
            · rw [hM.ctx e he] at hm
              have := Option.some.inj hm
              omega
            · have := hlt e he m' hm
              omega
          rcases ih (m + 1) k' (rest.drop msg.hdr.size) st' (by rw [List.length_drop]; omega) ((List.drop_suffix _ _).trans hbuf)
            (by rw [hlog]; exact hM.ok) hpk' hlt' with ⟨u, h2, hz⟩ | ⟨res, m', st2, ev2, h2, hlog2, hl2, hMs⟩
          · exact .inl ⟨u, h2, hz⟩
          · right
            rw [hlog] at hlog2 hMs hl2
            refine ⟨res, m', st2, ev2 ++ ev, h2, ?_, ?_, .next hne hp hsz hle hM hR hMs⟩
            · rw [hlog2, List.append_assoc]
            · rw [List.append_assoc]
              exact hl2
        · rw [if_pos h0]
          exact .inr ⟨res, m + 1, st', ev, rfl, hlog, hM.ok, .stop hne hp hsz hle hM hR h0⟩

/-! ### packet consumers -/

theorem startCall_pkt {env : Env} {c : Consumer} {st st' : St} {res : Int} (h : startCall env c .pkt st = (res, st')) :
    ∃ ev, Ext st st' ev ∧ (∀ e ∈ ev, e.ctx = .pkt ∧ e.cid = c.id ∧ e.kind = .start ∧ e.r.res = res) ∧ (ev = [] → res = OKAY) ∧ ev.length ≤ 1 ∧
      (c.hasStart = true → ev ≠ []) := start_ev h

/-- the callbacks of the packet consumers before the messages -/
structure PktPart (buf : Bytes) (res : Int) (log ev : List Event) : Prop where
  each : ∀ e ∈ ev, e.ctx = .pkt ∧ ¬ e.kind.IsFin ∧ ¬ e.kind.IsForward ∧ e.Valid buf
  lvl : ∀ e ∈ ev, e.Quiet ∨ (e.r.res = res ∧ res ≠ OKAY)
  source : res = OKAY ∨ ∃ e ∈ ev, e.r.res = res
  ok : LogOk (ev ++ log)

theorem PktPart.append {buf : Bytes} {res : Int} {log ev ev' : List Event} (h : PktPart buf OKAY log ev) (h' : PktPart buf res (ev ++ log) ev') :
    PktPart buf res log (ev' ++ ev) where
  each := by
    intro e he
    rcases List.mem_append.1 he with he | he
    · exact h'.each e he
    · exact h.each e he
  lvl := by
    intro e he
    rcases List.mem_append.1 he with he | he
    · exact h'.lvl e he
    · rcases h.lvl e he with h1 | h1
      · exact .inl h1
      · exact absurd rfl h1.2
  source := by
    rcases h'.source with h | ⟨e, he, h⟩
    · exact .inl h
    · exact .inr ⟨e, List.mem_append_left _ he, h⟩
  ok := by
    rw [List.append_assoc]
    exact h'.ok

theorem PktPart.open {buf : Bytes} {log ev : List Event} (h : PktPart buf OKAY log ev) (ho : Open .pkt log) : Open .pkt (ev ++ log) := by
  refine ⟨fun e he => ?_, fun e he hm => (hm rfl).elim, fun e he ha => ha.elim⟩
  rcases List.mem_append.1 he with he | he
  · intro _
    rcases h.lvl e he with (h1 | h1) | h1
    · rw [h1]; decide
    · rw [h1]; decide
    · exact absurd rfl h1.2
  · exact ho.pkt e he

theorem start_part {env : Env} {c : Consumer} {st st' : St} {res : Int} (buf : Bytes) (h : startCall env c .pkt st = (res, st'))
    (hl : LogOk st.log) (ho : Open .pkt st.log) : ∃ ev, Ext st st' ev ∧ PktPart buf res st.log ev ∧
      (∀ tlvs, MarkAt .pkt 0 st.log tlvs → MarkAt .pkt 0 (ev ++ st.log) tlvs) ∧ (∀ e ∈ ev, e.cid = c.id ∧ e.kind = .start) ∧
      ((∀ e ∈ ev, e.Mild) → res = OKAY) ∧ (c.hasStart = true → ev ≠ []) := by
  obtain ⟨ev, hx, hev, hn, hlen, hs⟩ := start_ev h
  refine ⟨ev, hx, ⟨?_, ?_, ?_, ?_⟩, ?_, fun e he => ⟨(hev e he).2.1, (hev e he).2.2.1⟩, ?_, hs⟩
  · intro e he
    obtain ⟨h1, _, h3, _⟩ := hev e he
    refine ⟨h1, by rw [h3]; exact id, by rw [h3]; exact id, valid_noTlv (by rw [h3]; rfl)⟩
  · intro e he
    by_cases h0 : res = OKAY
    · exact .inl (.inl ((hev e he).2.2.2.trans h0))
    · exact .inr ⟨(hev e he).2.2.2, h0⟩
  · by_cases h0 : res = OKAY
    · exact .inl h0
    · obtain ⟨e, he⟩ := List.exists_mem_of_ne_nil ev (fun h => h0 (hn h))
      exact .inr ⟨e, he, (hev e he).2.2.2⟩
  · refine hl.append (logOk_short hlen) fun e' he' => ?_
    refine inScope_open (by rw [(hev e' he').1]; exact ho) fun e he tid hd hs hsee => ?_
    obtain ⟨t, ht, _⟩ := hsee
    rw [(hev e' he').2.2.1] at ht
    simp [Kind.tlvs] at ht
  · intro tlvs hm
    exact hm.frame fun e he _ => not_drops_start (hev e he).2.2.1
  · intro hm
    by_cases h0 : res = OKAY
    · exact h0
    · obtain ⟨e, he⟩ := List.exists_mem_of_ne_nil ev (fun h => h0 (hn h))
      rcases hm e he with h' | ⟨_, h'⟩ | ⟨_, h'⟩
      · exact (hev e he).2.2.2.symm.trans h'
      · rw [(hev e he).2.2.1] at h'
        exact h'.elim
      · rw [(hev e he).1] at h'
        exact h'.elim

theorem sched_part {c : Consumer} {buf : Bytes} {n : UInt8} {tlvs tlvs' : List Tlv} {res : Int} {log ev : List Event}
    (hc : Calls c .pkt 0 tlvs tlvs' res ev) (hok : TlvsOk n buf tlvs) (hl : LogOk log) (ho : Open .pkt log) (hm : MarkAt .pkt 0 log tlvs) :
    PktPart buf res log ev where
  each := by
    intro e he
    obtain ⟨h1, _, h3, _⟩ := hc.each e he
    refine ⟨h1, ?_, ?_, hc.valid hok e he⟩
    · intro hf
      cases hkk : e.kind <;> rw [hkk] at h3 hf <;> first | exact h3.elim | exact hf.elim
    · intro hf
      cases hkk : e.kind <;> rw [hkk] at h3 hf <;> first | exact h3.elim | exact hf.elim
  lvl := by
    intro e he
    rcases (hc.each e he).2.2.2 with h | h | h
    · exact .inl (.inl h)
    · exact .inl (.inr h)
    · exact .inr h
  source := by
    rcases hc.source with h | ⟨_, h⟩
    · exact .inl h
    · exact .inr h
  ok := hc.logOk hl ho hm

/-- what the packet consumers get -/
def PktTurns (cs : List Consumer) (tlvs : List Tlv) (log ev : List Event) : Prop :=
  (∀ e ∈ ev, e.Mild) → ∀ c ∈ cs, ∃ ev0 ev1 ev2, ev = ev2 ++ (ev1 ++ ev0) ∧ PktTurn c tlvs (ev0 ++ log) ev1

theorem PktTurns.cons {c : Consumer} {cs : List Consumer} {tlvs tlvs' : List Tlv} {log ev1 ev : List Event}
    (h : PktTurns cs tlvs' (ev1 ++ log) ev) (h1 : (∀ e ∈ ev1, e.Mild) → PktTurn c tlvs log ev1)
    (ht : ∀ tid, HasTlv tlvs tid 0 → HasTlv tlvs' tid 0) : PktTurns (c :: cs) tlvs log (ev ++ ev1) := by
  intro hm c' hc'
  rcases List.mem_cons.1 hc' with rfl | hc'
  · exact ⟨[], ev1, ev, by simp, h1 fun e he => hm e (List.mem_append_right _ he)⟩
  · obtain ⟨e0, e1, e2, heq, hT⟩ := h (fun e he => hm e (List.mem_append_left _ he)) c' hc'
    refine ⟨e0 ++ ev1, e1, e2, by rw [heq]; simp only [List.append_assoc], ?_⟩
    rw [List.append_assoc]
    exact ⟨hT.cid, hT.start, fun h tid htid => hT.tlv h tid (ht tid htid)⟩

theorem pktLoop_spec (env : Env) (buf : Bytes) (hasTlv : Bool) : ∀ cs started tlvs st, TlvsOk 0 buf tlvs → MarkAt .pkt 0 st.log tlvs →
    LogOk st.log → Open .pkt st.log → (hasTlv = false → tlvs = []) →
    ∃ res started' st' ev, pktLoop env hasTlv cs started tlvs st = .ok (res, started', st') ∧ Ext st st' ev ∧ PktPart buf res st.log ev ∧
      ((∀ e ∈ ev, e.Mild) → res = OKAY) ∧ PktTurns cs tlvs st.log ev := by
  intro cs
  induction cs with
  | nil =>
    intro started tlvs st _ _ hl _ _
    exact ⟨OKAY, started, st, [], rfl, Ext.nil st, ⟨by simp, by simp, .inl rfl, hl⟩, fun _ => rfl, fun _ c hc => by simp at hc⟩
  | cons c cs ih =>
    intro started tlvs st htl hmk hl ho hem
    unfold pktLoop
    generalize hs : startCall env c .pkt st = r
    obtain ⟨res1, st1⟩ := r
    simp only
    obtain ⟨ev1, hx1, hp1, hm1, hst1, hmild1⟩ := start_part buf hs hl ho
    have hcid1 : ∀ e ∈ ev1, e.cid = c.id ∧ e.ctx = .pkt := fun e he => ⟨(hst1 e he).1, (hp1.each e he).1⟩
    have hstart1 : ∀ log', c.hasStart = true → Started c.id .pkt ev1 log' := by
      intro log' h
      obtain ⟨e, he⟩ := List.exists_mem_of_ne_nil ev1 (hmild1.2 h)
      exact .inl ⟨e, he, by rw [(hp1.each e he).1]; trivial, (hst1 e he).1, (hst1 e he).2⟩
    have hearly : ∀ {ev2 log'} , Started c.id .pkt ev1 log' → Started c.id .pkt (ev2 ++ ev1) log' := fun h => h.earlier
    by_cases h0 : res1 = OKAY
    · subst h0
      rw [if_neg (by simp)]
      have hl1 : LogOk st1.log := by rw [hx1.1]; exact hp1.ok
      have ho1 : Open .pkt st1.log := by rw [hx1.1]; exact hp1.open ho
      have hmk1 : MarkAt .pkt 0 st1.log tlvs := by rw [hx1.1]; exact hm1 _ hmk
      split
      · obtain ⟨res2, tlvs2, st2, ev2, h2, hx2, hc⟩ := schedule_spec env c .pkt 0 tlvs st1 htl.ids
        rw [h2]
        simp only
        have hp2 := sched_part hc htl hl1 ho1 hmk1
        rw [hx1.1] at hp2
        have hp12 := hp1.append hp2
        have hmild2 : (∀ e ∈ ev2, e.Mild) → res2 = OKAY := by
          intro hm
          rcases hc.source with h | ⟨hn, e, he, h⟩
          · exact h
          · rcases hm e he with h' | ⟨h', _⟩ | ⟨_, h'⟩
            · exact h.symm.trans h'
            · exact absurd (h.symm.trans h') hn
            · rw [(hc.each e he).1] at h'
              exact h'.elim
        have hturn : (∀ e ∈ ev2 ++ ev1, e.Mild) → PktTurn c tlvs st.log (ev2 ++ ev1) := by
          intro hm
          refine ⟨?_, fun h => (hstart1 _ h).earlier, ?_⟩
          · intro e he
            rcases List.mem_append.1 he with he | he
            · exact ⟨(hc.each e he).2.1, (hc.each e he).1⟩
            · exact hcid1 e he
          · rintro h tid ⟨t, ht, rfl, hi1, hi2⟩
            by_cases hd : 0 ∈ t.drop
            · obtain ⟨e, he, h3, h4⟩ := (hmk t ht).1 hd
              exact .inr (.inl ⟨e, he, h3, h4⟩)
            · have hi : indexMatch t 0 = true := by
                unfold indexMatch
                simp [hd, Nat.le_zero.1 hi1]
              obtain ⟨e, he, t', v, hk, hid⟩ := hc.deliver (hmild2 fun e he => hm e (List.mem_append_left _ he)) h t ht hi
              exact .inl ⟨e, List.mem_append_left _ he, by rw [(hc.each e he).1]; trivial, (hc.each e he).2.1, t', v, hk, hid⟩
        by_cases h0 : res2 = OKAY
        · subst h0
          rw [if_neg (by simp)]
          have htlvs : hasTlv = false → tlvs2 = [] := by
            intro h
            have := hc.upd.ids
            rw [hem h] at this
            simpa using this
          obtain ⟨res3, started3, st3, ev3, h3, hx3, hp3, hm3, ht3⟩ := ih (c :: started) tlvs2 st2 (htl.upd hc.upd)
            (by rw [hx2.1]; exact hc.marks hmk1) (by rw [hx2.1, hx1.1, ← List.append_assoc]; exact hp12.ok)
            (by rw [hx2.1, hx1.1, ← List.append_assoc]; exact hp12.open ho) htlvs
          rw [hx2.1, hx1.1, ← List.append_assoc] at hp3 ht3
          exact ⟨res3, started3, st3, _, h3, (hx1.trans hx2).trans hx3, hp12.append hp3,
            fun hm => hm3 fun e he => hm e (List.mem_append_left _ he), ht3.cons hturn fun tid h => h.upd hc.upd⟩
        · rw [if_pos h0]
          refine ⟨res2, _, st2, _, rfl, hx1.trans hx2, hp12, fun hm => hmild2 fun e he => hm e (List.mem_append_left _ he), fun hm => ?_⟩
          exact absurd (hmild2 fun e he => hm e (List.mem_append_left _ he)) h0
      · rename_i hno
        obtain ⟨res3, started3, st3, ev3, h3, hx3, hp3, hm3, ht3⟩ := ih (c :: started) tlvs st1 htl hmk1 hl1 ho1 hem
        rw [hx1.1] at hp3 ht3
        refine ⟨res3, started3, st3, _, h3, hx1.trans hx3, hp1.append hp3,
          fun hm => hm3 fun e he => hm e (List.mem_append_left _ he), ht3.cons (fun _ => ⟨hcid1, hstart1 _, ?_⟩) fun tid h => h⟩
        rintro h tid ⟨t, ht, _⟩
        have : hasTlv = false := by
          cases hh : hasTlv
          · rfl
          · rw [hh, h] at hno
            exact absurd rfl hno
        rw [hem this] at ht
        simp at ht
    · rw [if_pos h0]
      exact ⟨res1, _, st1, ev1, rfl, hx1, hp1, hmild1.1, fun hm => absurd (hmild1.1 hm) h0⟩

theorem pktEnd_spec (env : Env) (res : Int) : ∀ cs st, ∃ ev, (pktEnd env res cs st).log = ev ++ st.log ∧
    (∀ e ∈ ev, e.ctx = .pkt ∧ e.kind = .fin (decide (res ≠ OKAY))) ∧ (LogOk st.log → LogOk (ev ++ st.log)) := by
  intro cs
  induction cs with
  | nil => exact fun st => ⟨[], rfl, by simp, id⟩
  | cons c cs ih =>
    intro st
    unfold pktEnd
    split
    · have hx := call_ext env st c.id .pkt (.fin (decide (res ≠ OKAY)))
      generalize hc : call env st c.id .pkt (.fin (decide (res ≠ OKAY))) = r at hx
      obtain ⟨r, st1⟩ := r
      simp only at hx ⊢
      obtain ⟨ev, hlog, hev, hok⟩ := ih st1
      refine ⟨ev ++ [_], by rw [hlog, hx.1, List.append_assoc], ?_, ?_⟩
      · intro e he
        rcases List.mem_append.1 he with he | he
        · exact hev e he
        · rw [List.mem_singleton.1 he]
          exact ⟨rfl, rfl⟩
      · intro hl
        have hl1 : LogOk st1.log := by
          rw [hx.1]
          refine hl.append (logOk_short (by simp)) fun e' he' e _ => ?_
          rw [List.mem_singleton.1 he']
          refine inScope_fin trivial fun ha _ hs => ?_
          exact ((hs.isAddr ha) : (Ctx.pkt).IsAddr).elim
        have := hok hl1
        rw [hx.1] at this
        rw [List.append_assoc]
        exact this
    · exact ih st

/-- the outcome for a packet whose header and TLVs are parsed -/
theorem handlePacket_spec (env : Env) (pc mc : List Consumer) (buf : Bytes) :
    (∃ u, handlePacket env pc mc buf = .ub u ∧ Hazard buf u) ∨
    (buf.length > 65535 ∧ handlePacket env pc mc buf = .ok (TOO_LARGE, [])) ∨
    (∃ e, parsePacket env.mem buf = .err e ∧ handlePacket env pc mc buf = .ok (e, [])) ∨
    ∃ first tlvs rest k res evP evM evE, buf.length ≤ 65535 ∧ parsePacket env.mem buf = .ok (first, tlvs, rest, k) ∧ rest <:+ buf ∧
      handlePacket env pc mc buf = .ok (if res = DROP_PACKET then OKAY else res, evE ++ (evM ++ evP)) ∧
      LogOk (evE ++ (evM ++ evP)) ∧
      (∀ e ∈ evE, e.ctx = .pkt ∧ e.kind.IsFin) ∧
      PktTurns pc tlvs [] evP ∧ ((PktPart buf res [] evP ∧ res ≠ OKAY ∧ evM = [] ∧ ¬ ∀ e ∈ evP, e.Mild) ∨ (PktPart buf OKAY [] evP ∧ Msgs env mc 0 k rest evP evM res)) := by
  unfold handlePacket
  split
  · rename_i h
    exact .inr (.inl ⟨h, rfl⟩)
  · rename_i hlen
    have hP := parsePacket_sat env.mem buf
    cases hp : parsePacket env.mem buf with
    | ub u =>
      rw [hp] at hP
      exact .inl ⟨u, rfl, hP⟩
    | err e => exact .inr (.inr (.inl ⟨e, rfl, rfl⟩))
    | ok r =>
      obtain ⟨first, tlvs, rest, k⟩ := r
      rw [hp] at hP
      obtain ⟨hsuf, htl, htd, htnil⟩ := hP
      simp only at hsuf htl htd htnil
      simp only
      obtain ⟨res1, started, st1, evP, h1, hx1, hPk, hPm, hPt⟩ := pktLoop_spec env buf (decide (first &&& 0x04 ≠ 0)) pc [] tlvs ⟨[], false⟩ htl
        (by intro t ht; rw [htd t ht]; simp) List.Pairwise.nil ⟨by simp, by simp, by simp⟩ (by
          intro h
          exact htnil (by simpa using h))
      rw [h1]
      simp only
      have hlog1 : st1.log = evP := by rw [hx1.1]; simp
      by_cases h0 : res1 = OKAY
      · subst h0
        rw [if_neg (by simp)]
        have hok : LogOk st1.log := by
          rw [hlog1]
          have := hPk.ok
          simpa using this
        rcases msgLoop_spec env mc buf (rest.length + 1) 0 k rest st1 (by omega) hsuf hok
          (by
            rw [hlog1]
            intro e he _
            rcases hPk.lvl e he with (h | h) | h
            · rw [h]; decide
            · rw [h]; decide
            · exact absurd rfl h.2)
          (by
            rw [hlog1]
            intro e he m' hm
            rw [(hPk.each e he).1] at hm
            simp [Ctx.message] at hm) with ⟨u, h2, hz⟩ | ⟨res, m', st2, evM, h2, hlog2, hl2, hMs⟩
        · rw [h2]
          exact .inl ⟨u, rfl, hz⟩
        · rw [h2]
          simp only
          right; right; right
          obtain ⟨evE, hE1, hE2, hE3⟩ := pktEnd_spec env res started st2
          rw [hlog2, hlog1] at hE1 hE3
          rw [hlog1] at hl2 hMs
          exact ⟨first, tlvs, rest, k, res, evP, evM, evE, by omega, rfl, hsuf, by rw [hE1], hE3 hl2,
            fun e he => ⟨(hE2 e he).1, by rw [(hE2 e he).2]; trivial⟩, hPt, .inr ⟨hPk, hMs⟩⟩
      · rw [if_pos h0]
        simp only
        right; right; right
        obtain ⟨evE, hE1, hE2, hE3⟩ := pktEnd_spec env res1 started st1
        rw [hlog1] at hE1 hE3
        refine ⟨first, tlvs, rest, k, res1, evP, [], evE, by omega, rfl, hsuf, by rw [hE1]; rfl, hE3 ?_,
            fun e he => ⟨(hE2 e he).1, by rw [(hE2 e he).2]; trivial⟩, hPt, .inl ⟨hPk, h0, rfl, fun hm => h0 (hPm hm)⟩⟩
        have := hPk.ok
        simpa using this

end Verif.Reader
