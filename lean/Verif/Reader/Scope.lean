import Verif.Reader.Sched

/-! Lemmas about the callbacks for a message and a packet. -/
namespace Verif.Reader

theorem LogOk.append {ev log : List Event} (h : LogOk log) (h' : LogOk ev) (hx : ∀ e' ∈ ev, ∀ e ∈ log, InScope e e') :
    LogOk (ev ++ log) := List.pairwise_append.2 ⟨h', h, hx⟩

theorem logOk_short {ev : List Event} (h : ev.length ≤ 1) : LogOk ev := by
  match ev, h with
  | [], _ => exact List.Pairwise.nil
  | [_], _ => exact List.pairwise_singleton _ _

theorem Ctx.Same.symm {a b : Ctx} (h : a.Same b) : b.Same a := by
  unfold Ctx.Same at *
  split at h
  · trivial
  · exact h.symm
  · exact ⟨h.1.symm, h.2.1.symm, h.2.2.symm⟩
  · exact h.elim

theorem Ctx.Same.trans {a b c : Ctx} (h : a.Same b) (h' : b.Same c) : a.Same c := by
  cases a <;> cases b <;> cases c <;> simp_all [Ctx.Same]

theorem Ctx.Same.refl (a : Ctx) : a.Same a := by
  cases a <;> simp [Ctx.Same]

theorem Ctx.Same.isAddr {a b : Ctx} (h : a.Same b) (ha : a.IsAddr) : b.IsAddr := by
  cases a <;> cases b <;> simp_all [Ctx.Same, Ctx.IsAddr]

theorem Ctx.Same.message {a b : Ctx} (h : a.Same b) : a.message = b.message := by
  cases a <;> cases b <;> simp_all [Ctx.Same, Ctx.message]

/-- nothing in the history drops the packet, message or address -/
structure Open (ctx : Ctx) (log : List Event) : Prop where
  pkt : ∀ e ∈ log, ¬ e.kind.IsForward → e.r.res ≠ DROP_PACKET
  msg : ∀ e ∈ log, ctx.message ≠ none → ctx.message = e.ctx.message → ¬ e.kind.IsForward →
    e.r.res ≠ DROP_MESSAGE ∧ e.r.res ≠ DROP_MSG_BUT_FORWARD
  addr : ∀ e ∈ log, ctx.IsAddr → ctx.Same e.ctx → e.r.res ≠ DROP_ADDRESS

/-- the drop marks for an index are those made in the history -/
def MarkAt (ctx : Ctx) (j : Nat) (log : List Event) (tlvs : List Tlv) : Prop :=
  ∀ t ∈ tlvs, j ∈ t.drop ↔ ∃ e ∈ log, ctx.Same e.ctx ∧ e.Drops t.id

theorem MarkAt.frame {ctx : Ctx} {j : Nat} {log ev : List Event} {tlvs : List Tlv} (h : MarkAt ctx j log tlvs)
    (hev : ∀ e ∈ ev, ctx.Same e.ctx → ∀ tid, ¬ e.Drops tid) : MarkAt ctx j (ev ++ log) tlvs := by
  intro t ht
  rw [h t ht]
  constructor
  · rintro ⟨e, he, h⟩
    exact ⟨e, List.mem_append_right _ he, h⟩
  · rintro ⟨e, he, hs, hd⟩
    rcases List.mem_append.1 he with he | he
    · exact absurd hd (hev e he hs t.id)
    · exact ⟨e, he, hs, hd⟩

theorem Calls.marks {c : Consumer} {ctx : Ctx} {idx : Nat} {tlvs tlvs' : List Tlv} {res : Int} {ev log : List Event}
    (h : Calls c ctx idx tlvs tlvs' res ev) (hm : MarkAt ctx idx log tlvs) : MarkAt ctx idx (ev ++ log) tlvs' := by
  intro t' ht'
  obtain ⟨t, ht, he, hd⟩ := h.upd.mem ht'
  have hid : t'.id = t.id := by rw [he]
  rw [hd idx, hm t ht, hid]
  constructor
  · rintro (⟨e, he, h'⟩ | ⟨_, e, he, h'⟩)
    · exact ⟨e, List.mem_append_right _ he, h'⟩
    · refine ⟨e, List.mem_append_left _ he, ?_, h'⟩
      rw [(h.each e he).1]
      exact Ctx.Same.refl _
  · rintro ⟨e, he, h'⟩
    rcases List.mem_append.1 he with he | he
    · exact .inr ⟨rfl, e, he, h'.2⟩
    · exact .inl ⟨e, he, h'⟩

/-- other indices keep their marks -/
theorem Calls.other {c : Consumer} {ctx ctx' : Ctx} {idx j : Nat} {tlvs tlvs' : List Tlv} {res : Int} {ev log : List Event}
    (h : Calls c ctx idx tlvs tlvs' res ev) (hm : MarkAt ctx' j log tlvs) (hj : j ≠ idx) (hs : ¬ ctx'.Same ctx) :
    MarkAt ctx' j (ev ++ log) tlvs' := by
  intro t' ht'
  obtain ⟨t, ht, he, hd⟩ := h.upd.mem ht'
  have hid : t'.id = t.id := by rw [he]
  rw [hd j, hid]
  have := hm.frame (ev := ev) (fun e he hs' => by rw [(h.each e he).1] at hs'; exact absurd hs' hs) t ht
  rw [← this]
  constructor
  · rintro (h' | h')
    · exact h'
    · exact absurd h'.1 hj
  · exact .inl

theorem inScope_open {e' : Event} {log : List Event} (h : Open e'.ctx log)
    (ht : ∀ e ∈ log, ∀ tid, e.Drops tid → e.ctx.Same e'.ctx → ¬ e'.Sees tid) : ∀ e ∈ log, InScope e e' := by
  intro e he
  refine ⟨ht e he, ?_, ?_, ?_, ?_⟩
  · intro ha hr hs
    exact absurd hr (h.addr e he (hs.isAddr ha) hs.symm)
  · intro hm hf hr hs
    exact absurd hr (h.msg e he (hs ▸ hm) hs.symm hf).1
  · intro hm hf hr hs
    exact absurd hr (h.msg e he (hs ▸ hm) hs.symm hf).2
  · intro hf hr
    exact absurd hr (h.pkt e he hf)

theorem inScope_quiet {e e' : Event} (h : e.Quiet) (ht : ∀ tid, e.Drops tid → ¬ e'.Sees tid) : InScope e e' := by
  refine ⟨fun tid hd _ => ht tid hd, ?_, ?_, ?_, ?_⟩
  · intro _ hr
    rcases h with h | h <;> rw [h] at hr <;> exact absurd hr (by decide)
  · intro _ _ hr
    rcases h with h | h <;> rw [h] at hr <;> exact absurd hr (by decide)
  · intro _ _ hr
    rcases h with h | h <;> rw [h] at hr <;> exact absurd hr (by decide)
  · intro _ hr
    rcases h with h | h <;> rw [h] at hr <;> exact absurd hr (by decide)

theorem not_sees_fin {e : Event} (h : e.kind.IsFin) (tid : Nat) : ¬ e.Sees tid := by
  rintro ⟨t, ht, _⟩
  unfold Kind.IsFin at h
  split at h
  · rename_i hk
    rw [hk] at ht
    simp [Kind.tlvs] at ht
  · exact h

theorem inScope_fin {e e' : Event} (h : e'.kind.IsFin)
    (ha : e.ctx.IsAddr → e.r.res = DROP_ADDRESS → e.ctx.Same e'.ctx → ¬ e.kind.IsFin ∧ e'.cid = e.cid) : InScope e e' where
  tlv := fun tid _ _ => not_sees_fin h tid
  addr := fun h1 h2 h3 => ⟨(ha h1 h2 h3).1, h, (ha h1 h2 h3).2⟩
  msg := fun _ _ _ _ => h
  fwd := fun _ _ _ _ => .inl h
  pkt := fun _ _ => h

theorem Calls.logOk {c : Consumer} {ctx : Ctx} {idx : Nat} {tlvs tlvs' : List Tlv} {res : Int} {ev log : List Event}
    (h : Calls c ctx idx tlvs tlvs' res ev) (hl : LogOk log) (ho : Open ctx log) (hm : MarkAt ctx idx log tlvs) :
    LogOk (ev ++ log) := by
  refine hl.append (h.scope.imp fun hq => inScope_quiet hq.1 hq.2) fun e' he' => ?_
  have hc := (h.each e' he').1
  refine inScope_open (by rw [hc]; exact ho) fun e he tid hd hs hsee => ?_
  obtain ⟨t, ht, rfl⟩ := hsee
  obtain ⟨_, t0, ht0, heq, hn⟩ := h.sees e' he' t ht
  refine hn ((hm t0 ht0).2 ⟨e, he, ?_, ?_⟩)
  · rw [← hc]
    exact hs.symm
  · have : t.id = t0.id := by rw [heq]
    rw [← this]
    exact hd

theorem Calls.valid {c : Consumer} {ctx : Ctx} {n : UInt8} {buf : Bytes} {tlvs tlvs' : List Tlv} {res : Int} {ev : List Event}
    (h : Calls c ctx ctx.index tlvs tlvs' res ev) (hok : TlvsOk n buf tlvs) : ∀ e ∈ ev, e.Valid buf := by
  intro e he
  have hr : ∀ t ∈ e.kind.tlvs, t.index1.toNat ≤ ctx.index ∧ ctx.index ≤ t.index2.toNat ∧
      (valueAt t ctx.index).length = t.length ∧ valueAt t ctx.index <:+: buf := by
    intro t ht
    obtain ⟨hi, t0, ht0, heq, _⟩ := h.sees e he t ht
    have hok' : TlvOk n t := by
      rw [heq]
      have := (hok.all t0 ht0).1
      exact ⟨this.len, this.single, this.multi, this.idx⟩
    have hv := valueAt_ok hok' hi
    have hb : t.value <:+: buf := by
      rw [heq]
      exact (hok.all t0 ht0).2
    unfold indexMatch at hi
    simp only [Bool.and_eq_true, decide_eq_true_eq] at hi
    exact ⟨hi.1.2, hi.2, hv.1, hv.2.trans hb⟩
  refine ⟨fun t v hk => ?_, fun t ht => ?_⟩
  · have hv := h.vals e he t v hk
    have := hr t (by rw [hk]; simp [Kind.tlvs])
    rw [hv]
    exact this.2.2
  · rw [(h.each e he).1]
    exact hr t ht

/-! ### addresses -/

/-- what is known about the callbacks of one part of the processing with result `res` -/
structure Part (buf : Bytes) (res : Int) (ev : List Event) : Prop where
  high : ∀ e ∈ ev, 3 ≤ e.r.res → e.r.res ≤ res
  source : res = OKAY ∨ ∃ e ∈ ev, e.r.res = res ∧ ¬ e.Mild
  noFwd : ∀ e ∈ ev, ¬ e.kind.IsForward
  valid : ∀ e ∈ ev, e.Valid buf

/-- marks of an address block agree with the history -/
structure BlkInv (buf : Bytes) (m blk : Nat) (log : List Event) (b : Block) : Prop where
  ok : BlockOk buf b
  drop : ∀ i, i ∈ b.drop ↔ ∃ e ∈ log, (addrCtx m blk i).Same e.ctx ∧ e.r.res = DROP_ADDRESS
  marks : ∀ i, MarkAt (addrCtx m blk i) i log b.tlvs

theorem BlkInv.frame {buf : Bytes} {m blk : Nat} {log ev : List Event} {b : Block} (h : BlkInv buf m blk log b)
    (hev : ∀ e ∈ ev, ∀ i, ¬ (addrCtx m blk i).Same e.ctx) : BlkInv buf m blk (ev ++ log) b where
  ok := h.ok
  drop := by
    intro i
    rw [h.drop i]
    constructor
    · rintro ⟨e, he, h⟩
      exact ⟨e, List.mem_append_right _ he, h⟩
    · rintro ⟨e, he, hs, h⟩
      rcases List.mem_append.1 he with he | he
      · exact absurd hs (hev e he i)
      · exact ⟨e, he, hs, h⟩
  marks := fun i => (h.marks i).frame fun e he hs => absurd hs (hev e he i)

theorem start_ev {env : Env} {c : Consumer} {ctx : Ctx} {st st' : St} {res : Int}
    (h : startCall env c ctx st = (res, st')) :
    ∃ ev, Ext st st' ev ∧ (∀ e ∈ ev, e.ctx = ctx ∧ e.cid = c.id ∧ e.kind = .start ∧ e.r.res = res) ∧ (ev = [] → res = OKAY) ∧
      ev.length ≤ 1 ∧ (c.hasStart = true → ev ≠ []) := by
  unfold startCall at h
  split at h
  · have he := call_ext env st c.id ctx .start
    generalize call env st c.id ctx .start = r at h he
    simp only [Prod.mk.injEq] at h
    obtain ⟨rfl, rfl⟩ := h
    exact ⟨_, he, by simp, by simp, by simp, by simp⟩
  · obtain ⟨rfl, rfl⟩ := Prod.mk.inj h
    rename_i hs
    exact ⟨[], Ext.nil st, by simp, by simp, by simp, fun h => absurd h hs⟩

theorem not_drops_start {e : Event} (h : e.kind = .start) (tid : Nat) : ¬ e.Drops tid := by
  unfold Event.Drops
  rw [h]
  simp

theorem not_drops_fin {e : Event} (h : e.kind.IsFin) (tid : Nat) : ¬ e.Drops tid := by
  unfold Event.Drops
  unfold Kind.IsFin at h
  split at h
  · rename_i hk
    rw [hk]
    simp
  · exact h.elim

theorem valid_noTlv {buf : Bytes} {e : Event} (h : e.kind.tlvs = []) : e.Valid buf := by
  refine ⟨fun t v hk => ?_, fun t ht => ?_⟩
  · rw [hk] at h
    simp [Kind.tlvs] at h
  · rw [h] at ht
    simp at ht

/-- a start callback and the TLV block of one packet, message or address -/
structure Body (env : Env) (c : Consumer) (ctx : Ctx) (buf : Bytes) (tlvs tlvs' : List Tlv) (res : Int) (log ev : List Event) : Prop where
  each : ∀ e ∈ ev, e.ctx = ctx ∧ e.cid = c.id ∧ ¬ e.kind.IsFin ∧ ¬ e.kind.IsForward
  lvl : ∀ e ∈ ev, e.Quiet ∨ (e.r.res = res ∧ res ≠ OKAY)
  source : res = OKAY ∨ ∃ e ∈ ev, e.r.res = res ∧ ¬ (e.r.res = DROP_TLV ∧ e.kind.IsTlvs)
  valid : ∀ e ∈ ev, e.Valid buf
  ok : LogOk log → Open ctx log → MarkAt ctx ctx.index log tlvs → LogOk (ev ++ log)
  marks : MarkAt ctx ctx.index log tlvs → MarkAt ctx ctx.index (ev ++ log) tlvs'
  others : ∀ ctx' j, MarkAt ctx' j log tlvs → j ≠ ctx.index → ¬ ctx'.Same ctx → MarkAt ctx' j (ev ++ log) tlvs'
  upd : ∃ P, Upd ctx.index P tlvs tlvs'
  start : c.hasStart = true → ∃ e ∈ ev, e.kind = .start
  deliver : res = OKAY → c.hasTlv = true → ∀ t ∈ tlvs, indexMatch t ctx.index = true → ∃ e ∈ ev, ∃ t' v, e.kind = .tlv t' v ∧ t'.id = t.id
  mild : (∀ e ∈ ev, e.Mild) → res = OKAY ∨ (res = DROP_ADDRESS ∧ ctx.IsAddr ∧ ∃ e ∈ ev, e.r.res = DROP_ADDRESS)

/-- start callback followed by the TLV block if the result is OKAY -/
theorem body_spec (env : Env) (c : Consumer) (ctx : Ctx) (buf : Bytes) (n : UInt8) (tlvs : List Tlv) (st : St)
    (hok : TlvsOk n buf tlvs) :
    ∃ res tlvs' st' ev, bodyCall env c ctx tlvs ctx.index st = .ok (res, tlvs', st') ∧
      Ext st st' ev ∧ Body env c ctx buf tlvs tlvs' res st.log ev := by
  unfold bodyCall
  generalize hstart : startCall env c ctx st = r1
  obtain ⟨res1, st1⟩ := r1
  simp only
  obtain ⟨ev1, hx1, he1, hn1, hl1, hs1⟩ := start_ev hstart
  have hlog1 : ∀ ctx', ∀ log : List Event, ctx' = ctx → LogOk log → Open ctx' log → LogOk (ev1 ++ log) := by
    rintro ctx' log rfl hl ho
    refine hl.append (logOk_short hl1) fun e' he' => ?_
    · refine inScope_open (by rw [(he1 e' he').1]; exact ho) fun e he tid hd hs hsee => ?_
      obtain ⟨t, ht, _⟩ := hsee
      rw [(he1 e' he').2.2.1] at ht
      simp [Kind.tlvs] at ht
  have hmark1 : ∀ (ctx' : Ctx) (j : Nat), MarkAt ctx' j st.log tlvs → MarkAt ctx' j (ev1 ++ st.log) tlvs :=
    fun ctx' j hm => hm.frame fun e he _ => not_drops_start (he1 e he).2.2.1
  by_cases h0 : res1 = OKAY
  · rw [if_pos h0]
    subst h0
    obtain ⟨res, tlvs', st', ev, hs, hx, hc⟩ := schedule_spec env c ctx ctx.index tlvs st1 hok.ids
    refine ⟨res, tlvs', st', ev ++ ev1, hs, hx1.trans hx, ⟨?_, ?_, ?_, ?_, ?_, ?_, ?_, ?_, ?_, ?_, ?_⟩⟩
    · intro e he
      rcases List.mem_append.1 he with he | he
      · refine ⟨(hc.each e he).1, (hc.each e he).2.1, ?_, ?_⟩
        · intro hf
          have := (hc.each e he).2.2.1
          unfold Kind.IsTlvs at this
          unfold Kind.IsFin at hf
          split at hf
          · rename_i hk
            rw [hk] at this
            exact this
          · exact hf
        · intro hf
          have := (hc.each e he).2.2.1
          unfold Kind.IsTlvs at this
          unfold Kind.IsForward at hf
          split at hf
          · rename_i hk
            rw [hk] at this
            exact this
          · exact hf
      · refine ⟨(he1 e he).1, (he1 e he).2.1, ?_, ?_⟩ <;> rw [(he1 e he).2.2.1] <;> exact id
    · intro e he
      rcases List.mem_append.1 he with he | he
      · rcases (hc.each e he).2.2.2 with h | h | h
        · exact .inl (.inl h)
        · exact .inl (.inr h)
        · exact .inr h
      · exact .inl (.inl (he1 e he).2.2.2)
    · rcases hc.source with h | ⟨hn, e, he, h⟩
      · exact .inl h
      · exact .inr ⟨e, List.mem_append_left _ he, h, fun h' => hn (h.symm.trans h'.1)⟩
    · intro e he
      rcases List.mem_append.1 he with he | he
      · exact hc.valid hok e he
      · refine valid_noTlv ?_
        rw [(he1 e he).2.2.1]
        rfl
    · intro hl ho hm
      rw [List.append_assoc]
      refine hc.logOk (hlog1 ctx st.log rfl hl ho) ?_ (hmark1 _ _ hm)
      have hne : ∀ e ∈ ev1, e.r.res = OKAY := fun e he => (he1 e he).2.2.2
      refine ⟨?_, ?_, ?_⟩
      · intro e he
        rcases List.mem_append.1 he with he | he
        · rw [hne e he]; intro _; decide
        · exact ho.pkt e he
      · intro e he
        rcases List.mem_append.1 he with he | he
        · rw [hne e he]; intro _ _ _; decide
        · exact ho.msg e he
      · intro e he
        rcases List.mem_append.1 he with he | he
        · rw [hne e he]; intro _ _; decide
        · exact ho.addr e he
    · intro hm
      rw [List.append_assoc]
      exact hc.marks (hmark1 _ _ hm)
    · intro ctx' j hm hj hs
      rw [List.append_assoc]
      exact hc.other (hmark1 _ _ hm) hj hs
    · exact ⟨_, hc.upd⟩
    · intro h
      obtain ⟨e, he⟩ := List.exists_mem_of_ne_nil _ (hs1 h)
      exact ⟨e, List.mem_append_right _ he, (he1 e he).2.2.1⟩
    · intro h1 h2 t ht hi
      obtain ⟨e, he, h⟩ := hc.deliver h1 h2 t ht hi
      exact ⟨e, List.mem_append_left _ he, h⟩
    · intro hm
      rcases hc.source with h | ⟨hn, e, he, h⟩
      · exact .inl h
      · rcases hm e (List.mem_append_left _ he) with h' | ⟨h', _⟩ | ⟨h', ha⟩
        · exact .inl (h.symm.trans h')
        · exact absurd (h.symm.trans h') hn
        · refine .inr ⟨h.symm.trans h', ?_, e, List.mem_append_left _ he, h'⟩
          rw [← (hc.each e he).1]
          exact ha
  · rw [if_neg h0]
    refine ⟨res1, tlvs, st1, ev1, rfl, hx1, ⟨?_, ?_, ?_, ?_, ?_, ?_, ?_, ?_, ?_, ?_, ?_⟩⟩
    · intro e he
      refine ⟨(he1 e he).1, (he1 e he).2.1, ?_, ?_⟩ <;> rw [(he1 e he).2.2.1] <;> exact id
    · intro e he
      exact .inr ⟨(he1 e he).2.2.2, h0⟩
    · right
      obtain ⟨e, he⟩ := List.exists_mem_of_ne_nil ev1 (fun h => h0 (hn1 h))
      exact ⟨e, he, (he1 e he).2.2.2, fun h' => by rw [(he1 e he).2.2.1] at h'; exact h'.2⟩
    · intro e he
      refine valid_noTlv ?_
      rw [(he1 e he).2.2.1]
      rfl
    · intro hl ho _
      exact hlog1 ctx _ rfl hl ho
    · exact hmark1 _ _
    · intro ctx' j hm _ _
      exact hmark1 _ _ hm
    · exact ⟨fun _ => False, Upd.refl (by simp)⟩
    · intro h
      obtain ⟨e, he⟩ := List.exists_mem_of_ne_nil _ (hs1 h)
      exact ⟨e, he, (he1 e he).2.2.1⟩
    · intro h
      exact absurd h h0
    · intro hm
      obtain ⟨e, he⟩ := List.exists_mem_of_ne_nil ev1 (fun h => h0 (hn1 h))
      rcases hm e he with h' | ⟨_, hk⟩ | ⟨h', ha⟩
      · exact absurd ((he1 e he).2.2.2.symm.trans h') h0
      · rw [(he1 e he).2.2.1] at hk
        exact hk.elim
      · refine .inr ⟨(he1 e he).2.2.2.symm.trans h', ?_, e, he, h'⟩
        rw [← (he1 e he).1]
        exact ha

theorem addrEnd_spec {env : Env} {c : Consumer} {ctx : Ctx} {res res' : Int} {st st' : St}
    (h : addrEnd env c ctx res st = (res', st')) :
    ∃ ev, Ext st st' ev ∧ (∀ e ∈ ev, e.ctx = ctx ∧ e.cid = c.id ∧ e.kind.IsFin ∧ e.r.res ≤ res') ∧ ev.length ≤ 1 ∧ res ≤ res' ∧
      (res' = res ∨ ∃ e ∈ ev, e.r.res = res') := by
  unfold addrEnd at h
  split at h
  · have he := call_ext env st c.id ctx (.fin (decide (res ≠ OKAY)))
    generalize call env st c.id ctx (.fin (decide (res ≠ OKAY))) = r at h he
    simp only [Prod.mk.injEq] at h
    obtain ⟨rfl, rfl⟩ := h
    refine ⟨_, he, ?_, by simp, ?_, ?_⟩
    · intro e he'
      rw [List.mem_singleton.1 he']
      refine ⟨rfl, rfl, trivial, ?_⟩
      simp only
      split <;> omega
    · split <;> omega
    · split
      · exact .inr ⟨_, List.mem_singleton.2 rfl, rfl⟩
      · exact .inl rfl
  · obtain ⟨rfl, rfl⟩ := Prod.mk.inj h
    exact ⟨[], Ext.nil st, by simp, by simp, Int.le_refl _, .inl rfl⟩

/-- the callbacks of one address -/
structure AddrPart (buf : Bytes) (m blk i : Nat) (c : Consumer) (b b' : Block) (res : Int) (log ev : List Event) : Prop where
  ctx : ∀ e ∈ ev, (addrCtx m blk i).Same e.ctx ∧ e.cid = c.id
  part : Part buf res ev
  ok : LogOk (ev ++ log)
  inv : res = OKAY → BlkInv buf m blk (ev ++ log) b'
  num : b'.num = b.num
  upd : ∃ P, Upd i P b.tlvs b'.tlvs
  start : c.hasStart = true → i ∉ b.drop → ∃ e ∈ ev, e.kind = .start
  tlv : c.hasTlv = true → i ∉ b.drop → res = OKAY → (∀ e ∈ ev, e.Mild) → ∀ t ∈ b.tlvs, indexMatch t i = true →
    (∃ e ∈ ev, ∃ t' v, e.kind = .tlv t' v ∧ t'.id = t.id) ∨ ∃ e ∈ ev, e.r.res = DROP_ADDRESS
  mild : (∀ e ∈ ev, e.Mild) → res = OKAY

theorem Open.addrCtx {m blk i : Nat} {log : List Event} {ctx : Ctx} (h : Open (.msg m) log) (hc : (addrCtx m blk i).Same ctx)
    (ha : ∀ e ∈ log, (Reader.addrCtx m blk i).Same e.ctx → e.r.res ≠ DROP_ADDRESS) : Open ctx log := by
  have hm : ctx.message = some m := by
    rw [← hc.message]
    rfl
  refine ⟨h.pkt, fun e he h1 h2 => ?_, fun e he _ hs => ha e he (hc.trans hs)⟩
  rw [hm] at h2
  exact h.msg e he (by simp [Ctx.message]) h2

theorem addrCtx_inj {m blk i j : Nat} {ctx : Ctx} (h : (addrCtx m blk i).Same ctx) (h' : (addrCtx m blk j).Same ctx) : i = j := by
  have := h.trans h'.symm
  exact this.2.2

theorem addrStep_spec (env : Env) (m : Nat) (len : UInt8) (c : Consumer) (blk : Nat) (buf : Bytes) (b : Block) (i : Nat) (st : St)
    (hi : i < b.num.toNat) (hinv : BlkInv buf m blk st.log b) (hl : LogOk st.log) (ho : Open (.msg m) st.log) :
    (addrStep env m len c blk b i st = .ub .copy ∧ BadMessage buf) ∨
    ∃ res b' st' ev, addrStep env m len c blk b i st = .ok (res, b', st') ∧ Ext st st' ev ∧ AddrPart buf m blk i c b b' res st.log ev := by
  unfold addrStep
  by_cases hd : i ∈ b.drop
  · right
    rw [if_pos (by simpa using hd)]
    refine ⟨OKAY, b, st, [], rfl, Ext.nil st, ⟨by simp, ⟨by simp, .inl rfl, by simp, by simp⟩, hl, fun _ => hinv, rfl, ⟨fun _ => False, Upd.refl (by simp)⟩, ?_, ?_, ?_⟩⟩
    · intro _ h
      exact absurd hd h
    · intro _ h
      exact absurd hd h
    · intro _
      rfl
  · rw [if_neg (by simpa using hd)]
    cases ha : copyTo b.addr b.midStart.toNat ((b.mid.drop (b.midLen.toNat * i)).take b.midLen.toNat) with
    | none =>
      left
      refine ⟨rfl, ?_⟩
      rcases hinv.ok.fits with hfit | hhaz
      · exfalso
        obtain ⟨a, ha'⟩ := copyTo_isSome (a := b.addr) (off := b.midStart.toNat)
          (src := (b.mid.drop (b.midLen.toNat * i)).take b.midLen.toNat) (by
            rw [List.length_take]
            omega)
        rw [ha] at ha'
        simp at ha'
      · exact hhaz
    | some a =>
      right
      have hplen : ∃ p, plenOf b i = some p := by
        unfold plenOf
        cases hp : b.prefixes with
        | none => exact ⟨_, rfl⟩
        | some p =>
          have := hinv.ok.pre p hp
          exact ⟨p[i]'(by omega), by simp⟩
      obtain ⟨plen, hplen⟩ := hplen
      rw [hplen]
      simp only
      generalize hctx : Ctx.addr m blk i (a.take len.toNat) plen = ctx
      have hsame : (addrCtx m blk i).Same ctx := by
        rw [← hctx]
        exact ⟨rfl, rfl, rfl⟩
      have hidx : ctx.index = i := by
        rw [← hctx]
        rfl
      obtain ⟨res2, tlvs', st2, ev, hb, hx, hB⟩ := body_spec env c ctx buf b.num b.tlvs st hinv.ok.tlvs
      rw [hidx] at hb
      unfold addrCalls
      simp only
      rw [hb]
      simp only
      generalize hend : addrEnd env c ctx res2 st2 = r3
      obtain ⟨res3, st3⟩ := r3
      obtain ⟨ev2, hx2, he2, hlen2, hle, hsrc⟩ := addrEnd_spec hend
      simp only
      have hlive : ∀ e ∈ st.log, (addrCtx m blk i).Same e.ctx → e.r.res ≠ DROP_ADDRESS := fun e he hs hr => hd ((hinv.drop i).2 ⟨e, he, hs, hr⟩)
      have hopen : Open ctx st.log := ho.addrCtx hsame hlive
      have hmk : MarkAt ctx ctx.index st.log b.tlvs := by
        rw [hidx]
        intro t ht
        rw [hinv.marks i t ht]
        constructor
        · rintro ⟨e, he, hs, h⟩
          exact ⟨e, he, hsame.symm.trans hs, h⟩
        · rintro ⟨e, he, hs, h⟩
          exact ⟨e, he, hsame.trans hs, h⟩
      have hlog1 := hB.ok hl hopen hmk
      have hlog : LogOk (ev2 ++ (ev ++ st.log)) := by
        refine hlog1.append (logOk_short hlen2) fun e' he' e he => ?_
        · refine inScope_fin (he2 e' he').2.2.1 fun _ hr hs => ?_
          rcases List.mem_append.1 he with he | he
          · exact ⟨(hB.each e he).2.2.1, by rw [(he2 e' he').2.1, (hB.each e he).2.1]⟩
          · refine absurd hr (hlive e he ?_)
            rw [(he2 e' he').1] at hs
            exact hsame.trans hs.symm
      -- level of the results
      have hhigh : ∀ e ∈ ev2 ++ ev, 2 ≤ e.r.res → e.r.res ≤ res3 := by
        intro e he h2
        rcases List.mem_append.1 he with he | he
        · exact (he2 e he).2.2.2
        · rcases hB.lvl e he with (h | h) | h
          · rw [h] at h2; exact absurd h2 (by decide)
          · rw [h] at h2; exact absurd h2 (by decide)
          · rw [h.1]; exact hle
      have hsource : res3 = OKAY ∨ ∃ e ∈ ev2 ++ ev, e.r.res = res3 ∧ ¬ (e.r.res = DROP_TLV ∧ e.kind.IsTlvs) := by
        rcases hsrc with h | ⟨e, he, h⟩
        · rcases hB.source with h' | ⟨e, he, h', hn⟩
          · exact .inl (h.trans h')
          · exact .inr ⟨e, List.mem_append_right _ he, h'.trans h.symm, hn⟩
        · refine .inr ⟨e, List.mem_append_left _ he, h, fun hk => ?_⟩
          have := (he2 e he).2.2.1
          have hk := hk.2
          cases hkk : e.kind <;> rw [hkk] at this hk <;> first | exact this | exact hk
      have hctxs : ∀ e ∈ ev2 ++ ev, (addrCtx m blk i).Same e.ctx ∧ e.cid = c.id := by
        intro e he
        rcases List.mem_append.1 he with he | he
        · rw [(he2 e he).1]; exact ⟨hsame, (he2 e he).2.1⟩
        · rw [(hB.each e he).1]; exact ⟨hsame, (hB.each e he).2.1⟩
      have hnof : ∀ e ∈ ev2 ++ ev, ¬ e.kind.IsForward := by
        intro e he
        rcases List.mem_append.1 he with he | he
        · intro hf
          have := (he2 e he).2.2.1
          cases hk : e.kind <;> rw [hk] at this hf <;> first | exact this | exact hf
        · exact (hB.each e he).2.2.2
      have hvalid : ∀ e ∈ ev2 ++ ev, e.Valid buf := by
        intro e he
        rcases List.mem_append.1 he with he | he
        · refine valid_noTlv ?_
          have := (he2 e he).2.2.1
          cases hk : e.kind <;> rw [hk] at this <;> first | rfl | exact this.elim
        · exact hB.valid e he
      obtain ⟨P, hupd⟩ := hB.upd
      have hbok : BlockOk buf { b with addr := a, tlvs := tlvs' } :=
        ⟨hinv.ok.mid, copyTo_some ha hinv.ok.addr, hinv.ok.pre, hinv.ok.fits, hinv.ok.tlvs.upd hupd⟩
      have hmarks : ∀ j, MarkAt (addrCtx m blk j) j (ev2 ++ (ev ++ st.log)) tlvs' := by
        intro j
        refine MarkAt.frame ?_ fun e he _ => not_drops_fin (he2 e he).2.2.1
        by_cases hj : j = i
        · subst hj
          have := hB.marks hmk
          rw [hidx] at this
          intro t ht
          rw [this t ht]
          constructor
          · rintro ⟨e, he, hs, h⟩
            exact ⟨e, he, hsame.trans hs, h⟩
          · rintro ⟨e, he, hs, h⟩
            exact ⟨e, he, hsame.symm.trans hs, h⟩
        · exact hB.others _ j (hinv.marks j) (by rw [hidx]; exact hj) fun hs => hj (addrCtx_inj hs hsame)
      have hother : ∀ j, j ≠ i → ((∃ e ∈ ev2 ++ (ev ++ st.log), (addrCtx m blk j).Same e.ctx ∧ e.r.res = DROP_ADDRESS) ↔ j ∈ b.drop) := by
        intro j hj
        rw [hinv.drop j]
        constructor
        · rintro ⟨e, he, hs, h⟩
          rw [← List.append_assoc] at he
          rcases List.mem_append.1 he with he | he
          · exact absurd (addrCtx_inj hs (hctxs e he).1) hj
          · exact ⟨e, he, hs, h⟩
        · rintro ⟨e, he, h⟩
          exact ⟨e, List.mem_append_right _ (List.mem_append_right _ he), h⟩
      have hmild : (∀ e ∈ ev2 ++ ev, e.Mild) → res3 = OKAY ∨ res3 = DROP_ADDRESS := by
        intro hmild
        rcases hsrc with h | ⟨e, he, h⟩
        · rcases hB.mild (fun e he => hmild e (List.mem_append_right _ he)) with h' | h'
          · exact .inl (h.trans h')
          · exact .inr (h.trans h'.1)
        · rcases hmild e (List.mem_append_left _ he) with h' | ⟨_, hk⟩ | h'
          · exact .inl (h.symm.trans h')
          · exfalso
            have := (he2 e he).2.2.1
            cases hkk : e.kind <;> rw [hkk] at this hk <;> first | exact this | exact hk
          · exact .inr (h.symm.trans h'.1)
      have hdeliver : c.hasTlv = true → (∀ e ∈ ev2 ++ ev, e.Mild) → ∀ t ∈ b.tlvs, indexMatch t i = true →
          (∃ e ∈ ev2 ++ ev, ∃ t' v, e.kind = .tlv t' v ∧ t'.id = t.id) ∨ ∃ e ∈ ev2 ++ ev, e.r.res = DROP_ADDRESS := by
        intro hct hmild t ht hti
        rcases hB.mild (fun e he => hmild e (List.mem_append_right _ he)) with h' | ⟨_, _, e, he, h'⟩
        · obtain ⟨e, he, h⟩ := hB.deliver h' hct t ht (by rw [hidx]; exact hti)
          exact .inl ⟨e, List.mem_append_right _ he, h⟩
        · exact .inr ⟨e, List.mem_append_right _ he, h'⟩
      by_cases h2 : res3 = DROP_ADDRESS
      · rw [if_pos h2]
        refine ⟨OKAY, _, st3, ev2 ++ ev, rfl, hx.trans hx2, ⟨hctxs, ⟨?_, .inl rfl, hnof, hvalid⟩, ?_, fun _ => ⟨?_, ?_, ?_⟩, rfl, ⟨P, by rw [← hidx]; exact hupd⟩, ?_, ?_, fun _ => rfl⟩⟩
        · intro e he h3
          have := hhigh e he (by omega)
          rw [h2] at this
          exact absurd (Int.le_trans h3 this) (by decide)
        · rw [List.append_assoc]
          exact hlog
        · exact ⟨hbok.mid, hbok.addr, hbok.pre, hbok.fits, hbok.tlvs⟩
        · intro j
          rw [List.append_assoc]
          by_cases hj : j = i
          · subst hj
            simp only [List.mem_cons, true_or, true_iff]
            rcases hsource with h | ⟨e, he, h, _⟩
            · rw [h2] at h
              exact absurd h (by decide)
            · exact ⟨e, by rw [← List.append_assoc]; exact List.mem_append_left _ he, (hctxs e he).1, h.trans h2⟩
          · rw [hother j hj]
            simp [hj]
        · intro j
          rw [List.append_assoc]
          exact hmarks j
        · intro h _
          obtain ⟨e, he, hk⟩ := hB.start h
          exact ⟨e, List.mem_append_right _ he, hk⟩
        · intro h _ _
          exact hdeliver h
      · rw [if_neg h2]
        have hsource' : res3 = OKAY ∨ ∃ e ∈ ev2 ++ ev, e.r.res = res3 ∧ ¬ e.Mild := by
          rcases hsource with h | ⟨e, he, h, hn⟩
          · exact .inl h
          · by_cases h0 : res3 = OKAY
            · exact .inl h0
            · refine .inr ⟨e, he, h, ?_⟩
              rintro (h' | h' | h')
              · exact h0 (h.symm.trans h')
              · exact hn h'
              · exact h2 (h.symm.trans h'.1)
        refine ⟨res3, _, st3, ev2 ++ ev, rfl, hx.trans hx2, ⟨hctxs, ⟨?_, hsource', hnof, hvalid⟩, ?_, fun hok => ⟨?_, ?_, ?_⟩, rfl, ⟨P, by rw [← hidx]; exact hupd⟩, ?_, ?_, ?_⟩⟩
        · intro e he h3
          exact hhigh e he (by omega)
        · rw [List.append_assoc]
          exact hlog
        · exact hbok
        · intro j
          rw [List.append_assoc]
          by_cases hj : j = i
          · subst hj
            constructor
            · intro h
              exact absurd h hd
            · rintro ⟨e, he, hs, h⟩
              exfalso
              rw [← List.append_assoc] at he
              rcases List.mem_append.1 he with he | he
              · have := hhigh e he (by rw [h]; decide)
                rw [h, hok] at this
                exact absurd this (by decide)
              · exact hlive e he hs h
          · rw [hother j hj]
        · intro j
          rw [List.append_assoc]
          exact hmarks j
        · intro h _
          obtain ⟨e, he, hk⟩ := hB.start h
          exact ⟨e, List.mem_append_right _ he, hk⟩
        · intro h _ _
          exact hdeliver h
        · intro h
          rcases hmild h with h | h
          · exact h
          · exact absurd h h2

end Verif.Reader
