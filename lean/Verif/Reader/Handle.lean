import Verif.Reader.Scope

/-! Lemmas about the callbacks for a message and a packet. -/
namespace Verif.Reader

theorem HasTlv.upd {idx : Nat} {P : Nat → Prop} {l l' : List Tlv} (h : Upd idx P l l') {tid j : Nat} (ht : HasTlv l tid j) :
    HasTlv l' tid j := by
  obtain ⟨t, hm, hid, h1, h2⟩ := ht
  obtain ⟨t', hm', he, _⟩ := h.mem' hm
  refine ⟨t', hm', ?_⟩
  rw [he]
  exact ⟨hid, h1, h2⟩

theorem Part.nil (buf : Bytes) : Part buf OKAY [] := ⟨by simp, .inl rfl, by simp, by simp⟩

theorem Part.append {buf : Bytes} {res : Int} {ev ev' : List Event} (h : Part buf OKAY ev) (h' : Part buf res ev') :
    Part buf res (ev' ++ ev) := by
  refine ⟨fun e he h3 => ?_, ?_, fun e he => ?_, fun e he => ?_⟩
  · rcases List.mem_append.1 he with he | he
    · exact h'.high e he h3
    · exact absurd (Int.le_trans h3 (h.high e he h3)) (by decide)
  · rcases h'.source with h | ⟨e, he, h⟩
    · exact .inl h
    · exact .inr ⟨e, List.mem_append_left _ he, h⟩
  · rcases List.mem_append.1 he with he | he
    · exact h'.noFwd e he
    · exact h.noFwd e he
  · rcases List.mem_append.1 he with he | he
    · exact h'.valid e he
    · exact h.valid e he

theorem Part.low {buf : Bytes} {ev : List Event} (h : Part buf OKAY ev) {e : Event} (he : e ∈ ev) :
    e.r.res ≠ DROP_PACKET ∧ e.r.res ≠ DROP_MESSAGE ∧ e.r.res ≠ DROP_MSG_BUT_FORWARD := by
  refine ⟨?_, ?_, ?_⟩ <;> intro hr <;> have := h.high e he (by rw [hr]; decide) <;> rw [hr] at this <;> exact absurd this (by decide)

theorem Open.append {m : Nat} {buf : Bytes} {log ev : List Event} (h : Open (.msg m) log) (hp : Part buf OKAY ev) :
    Open (.msg m) (ev ++ log) := by
  refine ⟨fun e he => ?_, fun e he => ?_, fun e he ha => ha.elim⟩
  · rcases List.mem_append.1 he with he | he
    · exact fun _ => (hp.low he).1
    · exact h.pkt e he
  · rcases List.mem_append.1 he with he | he
    · exact fun _ _ _ => ⟨(hp.low he).2.1, (hp.low he).2.2⟩
    · exact h.msg e he

/-- the callbacks for the addresses from `i` to `i + n` of one block -/
structure BlkPart (buf : Bytes) (m blk i n : Nat) (c : Consumer) (b b' : Block) (res : Int) (log ev : List Event) : Prop where
  ctx : ∀ e ∈ ev, (∃ j, i ≤ j ∧ j < i + n ∧ (addrCtx m blk j).Same e.ctx) ∧ e.cid = c.id
  part : Part buf res ev
  ok : LogOk (ev ++ log)
  inv : res = OKAY → BlkInv buf m blk (ev ++ log) b'
  num : b'.num = b.num
  tlvs : ∀ tid j, HasTlv b.tlvs tid j → HasTlv b'.tlvs tid j
  start : c.hasStart = true → res = OKAY → ∀ j, i ≤ j → j < i + n → Started c.id (addrCtx m blk j) ev log
  tlv : c.hasTlv = true → (∀ e ∈ ev, e.Mild) → ∀ j, i ≤ j → j < i + n → ∀ tid, HasTlv b.tlvs tid j →
    Delivered c.id (addrCtx m blk j) tid ev log
  mild : (∀ e ∈ ev, e.Mild) → res = OKAY

theorem AddrPart.started {buf : Bytes} {m blk i : Nat} {c : Consumer} {b b' : Block} {res : Int} {log ev : List Event}
    (h : AddrPart buf m blk i c b b' res log ev) (hinv : BlkInv buf m blk log b) (hs : c.hasStart = true) :
    Started c.id (addrCtx m blk i) ev log := by
  by_cases hd : i ∈ b.drop
  · obtain ⟨e, he, h1, h2⟩ := (hinv.drop i).1 hd
    exact .inr ⟨e, he, trivial, h1, h2⟩
  · obtain ⟨e, he, hk⟩ := h.start hs hd
    exact .inl ⟨e, he, (h.ctx e he).1, (h.ctx e he).2, hk⟩

theorem AddrPart.delivered {buf : Bytes} {m blk i : Nat} {c : Consumer} {b b' : Block} {res : Int} {log ev : List Event}
    (h : AddrPart buf m blk i c b b' res log ev) (hinv : BlkInv buf m blk log b) (hs : c.hasTlv = true)
    (hm : ∀ e ∈ ev, e.Mild) (tid : Nat) (ht : HasTlv b.tlvs tid i) : Delivered c.id (addrCtx m blk i) tid ev log := by
  by_cases hd : i ∈ b.drop
  · obtain ⟨e, he, h1, h2⟩ := (hinv.drop i).1 hd
    exact .inr (.inr ⟨e, List.mem_append_right _ he, trivial, h1, h2⟩)
  · obtain ⟨t, htm, rfl, h1, h2⟩ := ht
    by_cases hdt : i ∈ t.drop
    · obtain ⟨e, he, h3, h4⟩ := (hinv.marks i t htm).1 hdt
      exact .inr (.inl ⟨e, he, h3, h4⟩)
    · have hi : indexMatch t i = true := by
        unfold indexMatch
        simp [hdt, h1, h2]
      rcases h.tlv hs hd (h.mild hm) hm t htm hi with ⟨e, he, t', v, hk, hid⟩ | ⟨e, he, hr⟩
      · exact .inl ⟨e, he, (h.ctx e he).1, (h.ctx e he).2, t', v, hk, hid⟩
      · exact .inr (.inr ⟨e, List.mem_append_left _ he, trivial, (h.ctx e he).1, hr⟩)

/-- a later part of a turn -/
theorem Started.later {cid : Nat} {ctx : Ctx} {ev1 ev2 log : List Event} (h : Started cid ctx ev2 (ev1 ++ log))
    (hd : ∀ e ∈ ev1, ¬ ctx.Same e.ctx) : Started cid ctx (ev2 ++ ev1) log := by
  rcases h with ⟨e, he, h⟩ | ⟨e, he, h0, h1, h2⟩
  · exact .inl ⟨e, List.mem_append_left _ he, h⟩
  · rcases List.mem_append.1 he with he | he
    · exact absurd h1 (hd e he)
    · exact .inr ⟨e, he, h0, h1, h2⟩

theorem Started.earlier {cid : Nat} {ctx : Ctx} {ev1 ev2 log : List Event} (h : Started cid ctx ev1 log) :
    Started cid ctx (ev2 ++ ev1) log := by
  rcases h with ⟨e, he, h⟩ | h
  · exact .inl ⟨e, List.mem_append_right _ he, h⟩
  · exact .inr h

theorem Delivered.later {cid : Nat} {ctx : Ctx} {tid : Nat} {ev1 ev2 log : List Event} (h : Delivered cid ctx tid ev2 (ev1 ++ log))
    (hd : ∀ e ∈ ev1, ¬ ctx.Same e.ctx) : Delivered cid ctx tid (ev2 ++ ev1) log := by
  rcases h with ⟨e, he, h⟩ | ⟨e, he, h1, h2⟩ | ⟨e, he, h0, h1, h2⟩
  · exact .inl ⟨e, List.mem_append_left _ he, h⟩
  · rcases List.mem_append.1 he with he | he
    · exact absurd h1 (hd e he)
    · exact .inr (.inl ⟨e, he, h1, h2⟩)
  · exact .inr (.inr ⟨e, by rw [List.append_assoc]; exact he, h0, h1, h2⟩)

theorem Delivered.earlier {cid : Nat} {ctx : Ctx} {tid : Nat} {ev1 ev2 log : List Event} (h : Delivered cid ctx tid ev1 log) :
    Delivered cid ctx tid (ev2 ++ ev1) log := by
  rcases h with ⟨e, he, h⟩ | h | ⟨e, he, h⟩
  · exact .inl ⟨e, List.mem_append_right _ he, h⟩
  · exact .inr (.inl h)
  · exact .inr (.inr ⟨e, by rw [List.append_assoc]; exact List.mem_append_right _ he, h⟩)

theorem addrLoop_spec (env : Env) (m : Nat) (len : UInt8) (c : Consumer) (blk : Nat) (buf : Bytes) :
    ∀ n i b st, i + n ≤ b.num.toNat → BlkInv buf m blk st.log b → LogOk st.log → Open (.msg m) st.log →
      (addrLoop env m len c blk n i b st = .ub .copy ∧ BadMessage buf) ∨
      ∃ res b' st' ev, addrLoop env m len c blk n i b st = .ok (res, b', st') ∧ Ext st st' ev ∧ BlkPart buf m blk i n c b b' res st.log ev := by
  intro n
  induction n with
  | zero =>
    intro i b st _ hinv hl _
    right
    refine ⟨OKAY, b, st, [], rfl, Ext.nil st, ⟨by simp, Part.nil buf, hl, fun _ => hinv, rfl, fun _ _ h => h, ?_, ?_, fun _ => rfl⟩⟩
    · intro _ _ j h1 h2
      omega
    · intro _ _ j h1 h2
      omega
  | succ n ih =>
    intro i b st hn hinv hl ho
    unfold addrLoop
    rcases addrStep_spec env m len c blk buf b i st (by omega) hinv hl ho with ⟨h1, hz⟩ | ⟨res, b1, st1, ev1, h1, hx1, hA⟩
    · left
      rw [h1]
      exact ⟨rfl, hz⟩
    · rw [h1]
      simp only
      have hlog1 : st1.log = ev1 ++ st.log := hx1.1
      obtain ⟨P, hupd⟩ := hA.upd
      by_cases hres : res = OKAY
      · rw [if_neg (by simp [hres])]
        subst hres
        have hinv1 : BlkInv buf m blk st1.log b1 := by rw [hlog1]; exact hA.inv rfl
        rcases ih (i + 1) b1 st1 (by rw [hA.num]; omega) hinv1 (by rw [hlog1]; exact hA.ok) (by rw [hlog1]; exact ho.append hA.part) with
          ⟨h2, hz⟩ | ⟨res2, b2, st2, ev2, h2, hx2, hB⟩
        · left
          exact ⟨h2, hz⟩
        · right
          have hdis : ∀ j, i + 1 ≤ j → ∀ e ∈ ev1, ¬ (addrCtx m blk j).Same e.ctx := by
            intro j hj e he hs
            have := addrCtx_inj hs (hA.ctx e he).1
            omega
          have hB' := hB
          rw [hlog1] at hB
          refine ⟨res2, b2, st2, ev2 ++ ev1, h2, hx1.trans hx2, ⟨?_, hA.part.append hB.part, ?_, ?_, hB.num.trans hA.num, ?_, ?_, ?_, ?_⟩⟩
          · intro e he
            rcases List.mem_append.1 he with he | he
            · obtain ⟨⟨j, hj1, hj2, hj3⟩, hc⟩ := hB.ctx e he
              exact ⟨⟨j, by omega, by omega, hj3⟩, hc⟩
            · exact ⟨⟨i, by omega, by omega, (hA.ctx e he).1⟩, (hA.ctx e he).2⟩
          · rw [List.append_assoc]
            exact hB.ok
          · rw [List.append_assoc]
            exact hB.inv
          · exact fun tid j h => hB.tlvs tid j (h.upd hupd)
          · intro hs hr j hj1 hj2
            by_cases hj : j = i
            · subst hj
              exact (hA.started hinv hs).earlier
            · exact (hB.start hs hr j (by omega) (by omega)).later (hdis j (by omega))
          · intro hs hm j hj1 hj2 tid ht
            have hm1 : ∀ e ∈ ev1, e.Mild := fun e he => hm e (List.mem_append_right _ he)
            have hm2 : ∀ e ∈ ev2, e.Mild := fun e he => hm e (List.mem_append_left _ he)
            by_cases hj : j = i
            · subst hj
              exact (hA.delivered hinv hs hm1 tid ht).earlier
            · exact (hB.tlv hs hm2 j (by omega) (by omega) tid (ht.upd hupd)).later (hdis j (by omega))
          · intro hm
            exact hB.mild fun e he => hm e (List.mem_append_left _ he)
      · rw [if_pos hres]
        right
        refine ⟨res, b1, st1, ev1, rfl, hx1, ⟨?_, hA.part, hA.ok, hA.inv, hA.num, fun tid j h => h.upd hupd, ?_, ?_, hA.mild⟩⟩
        · intro e he
          exact ⟨⟨i, by omega, by omega, (hA.ctx e he).1⟩, (hA.ctx e he).2⟩
        · intro _ h
          exact absurd h hres
        · intro _ hm
          exact absurd (hA.mild hm) hres

/-- marks of the address blocks from number `blk` on -/
def BlksInv (buf : Bytes) (m blk : Nat) (log : List Event) : List Block → Prop
  | [] => True
  | b :: bs => BlkInv buf m blk log b ∧ BlksInv buf m (blk + 1) log bs

theorem addrCtx_blk {m blk blk' i j : Nat} {ctx : Ctx} (h : (addrCtx m blk i).Same ctx) (h' : (addrCtx m blk' j).Same ctx) : blk = blk' := by
  have := h.trans h'.symm
  exact this.2.1

theorem BlksInv.frame {buf : Bytes} {m : Nat} {log ev : List Event} {bs : List Block} : ∀ {blk : Nat}, BlksInv buf m blk log bs →
    (∀ e ∈ ev, ∀ blk' ≥ blk, ∀ i, ¬ (addrCtx m blk' i).Same e.ctx) → BlksInv buf m blk (ev ++ log) bs := by
  induction bs with
  | nil => intro blk _ _; trivial
  | cons b bs ih =>
    intro blk h hev
    exact ⟨h.1.frame fun e he i => hev e he blk (Nat.le_refl _) i, ih h.2 fun e he blk' hb i => hev e he blk' (by omega) i⟩

/-- the callbacks for all addresses -/
structure AddrsPart (buf : Bytes) (m blk : Nat) (c : Consumer) (bs bs' : List Block) (res : Int) (log ev : List Event) : Prop where
  ctx : ∀ e ∈ ev, (∃ blk' j, blk ≤ blk' ∧ (addrCtx m blk' j).Same e.ctx) ∧ e.cid = c.id
  part : Part buf res ev
  ok : LogOk (ev ++ log)
  inv : res = OKAY → BlksInv buf m blk (ev ++ log) bs'
  shape : bs'.map Block.num = bs.map Block.num ∧
    ∀ (k : Nat) (b : Block), bs[k]? = some b → ∃ b' : Block, bs'[k]? = some b' ∧ ∀ tid j, HasTlv b.tlvs tid j → HasTlv b'.tlvs tid j
  start : c.hasStart = true → res = OKAY → ∀ (k : Nat) (b : Block), bs[k]? = some b → ∀ j < b.num.toNat, Started c.id (addrCtx m (blk + k) j) ev log
  tlv : c.hasTlv = true → (∀ e ∈ ev, e.Mild) → ∀ (k : Nat) (b : Block), bs[k]? = some b → ∀ j < b.num.toNat, ∀ tid, HasTlv b.tlvs tid j →
    Delivered c.id (addrCtx m (blk + k) j) tid ev log
  mild : (∀ e ∈ ev, e.Mild) → res = OKAY

theorem msgaddr_spec (env : Env) (m : Nat) (len : UInt8) (c : Consumer) (buf : Bytes) :
    ∀ bs blk st, BlksInv buf m blk st.log bs → LogOk st.log → Open (.msg m) st.log →
      (msgaddrConsumer env m len c blk bs st = .ub .copy ∧ BadMessage buf) ∨
      ∃ res bs' st' ev, msgaddrConsumer env m len c blk bs st = .ok (res, bs', st') ∧ Ext st st' ev ∧
        AddrsPart buf m blk c bs bs' res st.log ev := by
  intro bs
  induction bs with
  | nil =>
    intro blk st _ hl _
    right
    exact ⟨OKAY, [], st, [], rfl, Ext.nil st, ⟨by simp, Part.nil buf, hl, fun _ => trivial, ⟨rfl, by simp⟩, by simp, by simp, fun _ => rfl⟩⟩
  | cons b bs ih =>
    intro blk st hinv hl ho
    unfold msgaddrConsumer
    rcases addrLoop_spec env m len c blk buf b.num.toNat 0 b st (by omega) hinv.1 hl ho with ⟨h1, hz⟩ | ⟨res, b1, st1, ev1, h1, hx1, hA⟩
    · left
      rw [h1]
      exact ⟨rfl, hz⟩
    · rw [h1]
      simp only
      have hlog1 : st1.log = ev1 ++ st.log := hx1.1
      have hctx1 : ∀ e ∈ ev1, ∀ blk' ≠ blk, ∀ i, ¬ (addrCtx m blk' i).Same e.ctx := by
        intro e he blk' hb i hs
        obtain ⟨⟨j, _, _, hj⟩, _⟩ := hA.ctx e he
        exact hb (addrCtx_blk hs hj)
      by_cases hres : res = OKAY
      · rw [if_neg (by simp [hres])]
        subst hres
        have hinv1 : BlksInv buf m (blk + 1) st1.log bs := by
          rw [hlog1]
          exact hinv.2.frame fun e he blk' hb i => hctx1 e he blk' (by omega) i
        rcases ih (blk + 1) st1 hinv1 (by rw [hlog1]; exact hA.ok) (by rw [hlog1]; exact ho.append hA.part) with
          ⟨h2, hz⟩ | ⟨res2, bs2, st2, ev2, h2, hx2, hB⟩
        · left
          rw [h2]
          exact ⟨rfl, hz⟩
        · right
          rw [h2]
          simp only
          rw [hlog1] at hB
          refine ⟨res2, _, st2, ev2 ++ ev1, rfl, hx1.trans hx2, ⟨?_, hA.part.append hB.part, ?_, ?_, ⟨?_, ?_⟩, ?_, ?_, ?_⟩⟩
          · intro e he
            rcases List.mem_append.1 he with he | he
            · obtain ⟨⟨b', j, hb, hj⟩, hc⟩ := hB.ctx e he
              exact ⟨⟨b', j, by omega, hj⟩, hc⟩
            · obtain ⟨⟨j, _, _, hj⟩, hc⟩ := hA.ctx e he
              exact ⟨⟨blk, j, Nat.le_refl _, hj⟩, hc⟩
          · rw [List.append_assoc]
            exact hB.ok
          · intro hr
            rw [List.append_assoc]
            refine ⟨(hA.inv rfl).frame fun e he i hs => ?_, hB.inv hr⟩
            obtain ⟨⟨b', j, hb, hj⟩, _⟩ := hB.ctx e he
            have := addrCtx_blk hs hj
            omega
          · rw [List.map_cons, List.map_cons, hB.shape.1, hA.num]
          · intro k x hk
            cases k with
            | zero =>
              obtain rfl := Option.some.inj hk
              exact ⟨b1, rfl, hA.tlvs⟩
            | succ k => exact hB.shape.2 k x hk
          · intro hs hr k x hk j hj
            cases k with
            | zero =>
              obtain rfl := Option.some.inj hk
              exact (hA.start hs rfl j (by omega) (by omega)).earlier
            | succ k =>
              have := hB.start hs hr k x hk j hj
              rw [show blk + 1 + k = blk + (k + 1) by omega] at this
              exact this.later fun e he => hctx1 e he _ (by omega) j
          · intro hs hm k x hk j hj tid ht
            have hm1 : ∀ e ∈ ev1, e.Mild := fun e he => hm e (List.mem_append_right _ he)
            have hm2 : ∀ e ∈ ev2, e.Mild := fun e he => hm e (List.mem_append_left _ he)
            cases k with
            | zero =>
              obtain rfl := Option.some.inj hk
              exact (hA.tlv hs hm1 j (by omega) (by omega) tid ht).earlier
            | succ k =>
              have := hB.tlv hs hm2 k x hk j hj tid ht
              rw [show blk + 1 + k = blk + (k + 1) by omega] at this
              exact this.later fun e he => hctx1 e he _ (by omega) j
          · intro hm
            exact hB.mild fun e he => hm e (List.mem_append_left _ he)
      · rw [if_pos hres]
        right
        refine ⟨res, _, st1, ev1, rfl, hx1, ⟨?_, hA.part, hA.ok, fun h => absurd h hres, ⟨?_, ?_⟩, fun _ h => absurd h hres, ?_, hA.mild⟩⟩
        · intro e he
          obtain ⟨⟨j, _, _, hj⟩, hc⟩ := hA.ctx e he
          exact ⟨⟨blk, j, Nat.le_refl _, hj⟩, hc⟩
        · rw [List.map_cons, List.map_cons, hA.num]
        · intro k x hk
          cases k with
          | zero =>
            obtain rfl := Option.some.inj hk
            exact ⟨b1, rfl, hA.tlvs⟩
          | succ k => exact ⟨x, hk, fun _ _ h => h⟩
        · intro _ hm
          exact absurd (hA.mild hm) hres

/-! ### end callbacks of a message -/

theorem endCbs_spec (env : Env) (m : Nat) (buf : Bytes) : ∀ cs res st res' st', endCbs env m cs res st = (res', st') →
    ∃ ev, Ext st st' ev ∧ (∀ e ∈ ev, e.ctx = .msg m ∧ e.kind.IsFin ∧ e.r.res ≤ res' ∧ e.Valid buf ∧ ¬ e.kind.IsForward) ∧ res ≤ res' ∧
      (res' = res ∨ ∃ e ∈ ev, e.r.res = res') ∧ (LogOk st.log → LogOk (ev ++ st.log)) ∧
      ∀ c ∈ cs, c.hasEnd = true → ∃ e ∈ ev, e.cid = c.id ∧ e.ctx = .msg m ∧ e.kind.IsFin := by
  intro cs
  induction cs with
  | nil =>
    intro res st res' st' h
    obtain ⟨rfl, rfl⟩ := Prod.mk.inj h
    exact ⟨[], Ext.nil st, by simp, Int.le_refl _, .inl rfl, id, by simp⟩
  | cons c cs ih =>
    intro res st res' st' h
    unfold endCbs at h
    split at h
    · have he := call_ext env st c.id (.msg m) (.fin (decide (res ≠ OKAY)))
      generalize call env st c.id (.msg m) (.fin (decide (res ≠ OKAY))) = r at h he
      obtain ⟨r, st1⟩ := r
      simp only at h he
      obtain ⟨ev, hx, hev, hle, hsrc, hok, hend⟩ := ih _ _ _ _ h
      have h1 : res ≤ res' ∧ r.res ≤ res' := by
        split at hle
        · omega
        · omega
      refine ⟨ev ++ [_], he.trans hx, ?_, h1.1, ?_, ?_, ?_⟩
      · intro e he
        rcases List.mem_append.1 he with he | he
        · exact hev e he
        · rw [List.mem_singleton.1 he]
          exact ⟨rfl, trivial, h1.2, valid_noTlv rfl, id⟩
      · rcases hsrc with h | ⟨e, he, h⟩
        · split at h
          · exact .inr ⟨_, List.mem_append_right _ (List.mem_singleton.2 rfl), h.symm⟩
          · exact .inl h
        · exact .inr ⟨e, List.mem_append_left _ he, h⟩
      · intro hl
        have hl1 : LogOk st1.log := by
          rw [he.1]
          refine hl.append (logOk_short (by simp)) fun e' he' e _ => ?_
          rw [List.mem_singleton.1 he']
          refine inScope_fin trivial fun ha _ hs => ?_
          exact ((hs.isAddr ha) : (Ctx.msg m).IsAddr).elim
        have := hok hl1
        rw [he.1] at this
        rw [List.append_assoc]
        exact this
      · intro c' hc' hce
        rcases List.mem_cons.1 hc' with rfl | hc'
        · exact ⟨_, List.mem_append_right _ (List.mem_singleton.2 rfl), rfl, rfl, trivial⟩
        · obtain ⟨e, he, h⟩ := hend c' hc' hce
          exact ⟨e, List.mem_append_left _ he, h⟩
    · rename_i hne
      obtain ⟨ev, hx, hev, hle, hsrc, hok, hend⟩ := ih _ _ _ _ h
      refine ⟨ev, hx, hev, hle, hsrc, hok, ?_⟩
      intro c' hc' hce
      rcases List.mem_cons.1 hc' with rfl | hc'
      · exact absurd hce hne
      · exact hend c' hc' hce

theorem not_drops_isFin {e : Event} (h : e.kind.IsFin) (tid : Nat) : ¬ e.Drops tid := by
  rintro ⟨_, h'⟩
  unfold Kind.IsFin at h
  split at h
  · rename_i hk
    rw [hk] at h'
    exact h'
  · exact h

/-- a series of end callbacks of message `m` with result `res` -/
structure Ends (buf : Bytes) (m : Nat) (res : Int) (log ev : List Event) : Prop where
  ctx : ∀ e ∈ ev, e.ctx = .msg m
  fin : ∀ e ∈ ev, e.kind.IsFin
  part : Part buf res ev
  ok : LogOk log → LogOk (ev ++ log)
  mild : (∀ e ∈ ev, e.Mild) → res = OKAY

theorem Ends.mark {buf : Bytes} {m : Nat} {res : Int} {log ev : List Event} (h : Ends buf m res log ev) {tlvs : List Tlv}
    (hm : MarkAt (.msg m) 0 log tlvs) : MarkAt (.msg m) 0 (ev ++ log) tlvs :=
  hm.frame fun e he _ => not_drops_isFin (h.fin e he)

theorem not_same_msg {m blk i m' : Nat} : ¬ (addrCtx m blk i).Same (.msg m') := id

theorem BlksInv.msgs {buf : Bytes} {m blk : Nat} {log ev : List Event} {bs : List Block} (h : BlksInv buf m blk log bs)
    (hev : ∀ e ∈ ev, e.ctx = .msg m) : BlksInv buf m blk (ev ++ log) bs :=
  h.frame fun e he blk' _ i => by rw [hev e he]; exact not_same_msg

theorem mild_fin {e : Event} {m : Nat} (hc : e.ctx = .msg m) (hf : e.kind.IsFin) (hm : e.Mild) : e.r.res = OKAY := by
  rcases hm with h' | ⟨_, h'⟩ | ⟨_, h'⟩
  · exact h'
  · cases hkk : e.kind <;> rw [hkk] at hf h' <;> first | exact hf.elim | exact h'.elim
  · rw [hc] at h'
    exact h'.elim

theorem endCbs_ends {env : Env} {m : Nat} (buf : Bytes) {cs : List Consumer} {st st' : St} {res' : Int}
    (h : endCbs env m cs OKAY st = (res', st')) : ∃ ev, Ext st st' ev ∧ Ends buf m res' st.log ev ∧
      ∀ c ∈ cs, c.hasEnd = true → ∃ e ∈ ev, e.cid = c.id ∧ e.ctx = .msg m ∧ e.kind.IsFin := by
  obtain ⟨ev, hx, hev, hle, hsrc, hok, hend⟩ := endCbs_spec env m buf cs OKAY st res' st' h
  have hsrc' : res' = OKAY ∨ ∃ e ∈ ev, e.r.res = res' ∧ ¬ e.Mild := by
    rcases hsrc with h | ⟨e, he, h⟩
    · exact .inl h
    · by_cases h0 : res' = OKAY
      · exact .inl h0
      · exact .inr ⟨e, he, h, fun hm => h0 (h.symm.trans (mild_fin (hev e he).1 (hev e he).2.1 hm))⟩
  refine ⟨ev, hx, ⟨fun e he => (hev e he).1, fun e he => (hev e he).2.1,
    ⟨fun e he _ => (hev e he).2.2.1, hsrc', fun e he => (hev e he).2.2.2.2, fun e he => (hev e he).2.2.2.1⟩, hok, ?_⟩, hend⟩
  intro hm
  rcases hsrc with h | ⟨e, he, h⟩
  · exact h
  · rcases hm e he with h' | ⟨_, h'⟩ | ⟨_, h'⟩
    · rw [← h, h']
    · have := (hev e he).2.1
      unfold Kind.IsFin at this
      split at this
      · rename_i hk
        rw [hk] at h'
        exact h'.elim
      · exact this.elim
    · rw [(hev e he).1] at h'
      exact h'.elim

theorem orderStep_spec {env : Env} {m : Nat} (buf : Bytes) {c : Consumer} {same same' : List Consumer} {st st' : St} {res : Int}
    (h : orderStep env m c same st = (res, same', st')) : ∃ ev, Ext st st' ev ∧ Ends buf m res st.log ev ∧
      ∀ c ∈ same, c ∈ same' ∨ (c.hasEnd = true → ∃ e ∈ ev, e.cid = c.id ∧ e.ctx = .msg m ∧ e.kind.IsFin) := by
  unfold orderStep at h
  have triv : ∀ {st : St}, Ends buf m OKAY st.log [] := fun {st} => ⟨by simp, by simp, Part.nil buf, id, fun _ => rfl⟩
  split at h
  · simp only [Prod.mk.injEq] at h
    obtain ⟨rfl, rfl, rfl⟩ := h
    exact ⟨[], Ext.nil st, triv, by simp⟩
  · split at h
    · generalize hE : endCbs env m _ OKAY st = r at h
      obtain ⟨r, st1⟩ := r
      simp only [Prod.mk.injEq] at h
      obtain ⟨rfl, rfl, rfl⟩ := h
      obtain ⟨ev, hx, he, hend⟩ := endCbs_ends buf hE
      exact ⟨ev, hx, he, fun c hc => .inr (hend c hc)⟩
    · simp only [Prod.mk.injEq] at h
      obtain ⟨rfl, rfl, rfl⟩ := h
      exact ⟨[], Ext.nil st, triv, fun c hc => .inl hc⟩

/-- the callbacks of a message except for forwarding -/
structure ConsPart (buf : Bytes) (m : Nat) (h : Hdr) (cs same : List Consumer) (tlvs : List Tlv) (blocks : List Block) (res : Int)
    (log ev : List Event) : Prop where
  ctx : ∀ e ∈ ev, e.ctx.message = some m
  part : Part buf res ev
  ok : LogOk (ev ++ log)
  mild : (∀ e ∈ ev, e.Mild) → res = OKAY
  ends : ∀ c ∈ same, c.hasEnd = true → ∃ e ∈ ev, e.cid = c.id ∧ e.ctx = .msg m ∧ e.kind.IsFin
  turns : (∀ e ∈ ev, e.Mild) → ∀ c ∈ cs, c.wants h → ∃ ev0 ev1 ev2, ev = ev2 ++ (ev1 ++ ev0) ∧ Turn c m tlvs blocks (ev0 ++ log) ev1 ∧
    (c.addrblock = false → c.hasEnd = true → ∃ e ∈ ev2, e.cid = c.id ∧ e.ctx = .msg m ∧ e.kind.IsFin)

theorem msg_part {c : Consumer} {m : Nat} {buf : Bytes} {env : Env} {tlvs tlvs' : List Tlv} {res : Int} {log ev : List Event}
    (h : Body env c (.msg m) buf tlvs tlvs' res log ev) : Part buf res ev := by
  refine ⟨fun e he h3 => ?_, ?_, fun e he => (h.each e he).2.2.2, h.valid⟩
  rotate_left
  · rcases h.source with h1 | ⟨e, he, h1, hn⟩
    · exact .inl h1
    · by_cases h0 : res = OKAY
      · exact .inl h0
      · refine .inr ⟨e, he, h1, ?_⟩
        rintro (h' | h' | ⟨_, h'⟩)
        · exact h0 (h1.symm.trans h')
        · exact hn h'
        · rw [(h.each e he).1] at h'
          exact h'
  rcases h.lvl e he with (h' | h') | ⟨h', _⟩
  · rw [h'] at h3
    exact absurd h3 (by decide)
  · rw [h'] at h3
    exact absurd h3 (by decide)
  · rw [h']
    exact Int.le_refl _

/-- the end callbacks after a result -/
theorem endCbs_part {env : Env} {m : Nat} {buf : Bytes} {cs : List Consumer} {res res' : Int} {st st' : St} {ev0 : List Event}
    (h : endCbs env m cs res st = (res', st')) (hp : Part buf res ev0) : ∃ ev, Ext st st' ev ∧ Part buf res' (ev ++ ev0) ∧
      (∀ e ∈ ev, e.ctx = .msg m) ∧ (LogOk st.log → LogOk (ev ++ st.log)) ∧
      ∀ c ∈ cs, c.hasEnd = true → ∃ e ∈ ev, e.cid = c.id ∧ e.ctx = .msg m ∧ e.kind.IsFin := by
  obtain ⟨ev, hx, hev, hle, hsrc, hok, hend⟩ := endCbs_spec env m buf cs res st res' st' h
  refine ⟨ev, hx, ⟨?_, ?_, ?_, ?_⟩, fun e he => (hev e he).1, hok, hend⟩
  · intro e he h3
    rcases List.mem_append.1 he with he | he
    · exact (hev e he).2.2.1
    · exact Int.le_trans (hp.high e he h3) hle
  · rcases hsrc with h | ⟨e, he, h⟩
    · rw [h]
      rcases hp.source with h | ⟨e, he, h⟩
      · exact .inl h
      · exact .inr ⟨e, List.mem_append_right _ he, h⟩
    · by_cases h0 : res' = OKAY
      · exact .inl h0
      · exact .inr ⟨e, List.mem_append_left _ he, h, fun hm => h0 (h.symm.trans (mild_fin (hev e he).1 (hev e he).2.1 hm))⟩
  · intro e he
    rcases List.mem_append.1 he with he | he
    · exact (hev e he).2.2.2.2
    · exact hp.noFwd e he
  · intro e he
    rcases List.mem_append.1 he with he | he
    · exact (hev e he).2.2.2.1
    · exact hp.valid e he

/-- the shape of the address blocks is the same -/
def SameShape (bs bs' : List Block) : Prop :=
  ∀ (k : Nat) (b : Block), bs[k]? = some b → ∃ b' : Block, bs'[k]? = some b' ∧ b'.num = b.num ∧ ∀ tid j, HasTlv b.tlvs tid j → HasTlv b'.tlvs tid j

theorem AddrsPart.sameShape {buf : Bytes} {m blk : Nat} {c : Consumer} {bs bs' : List Block} {res : Int} {log ev : List Event}
    (h : AddrsPart buf m blk c bs bs' res log ev) : SameShape bs bs' := by
  intro k b hb
  obtain ⟨b', hb', ht⟩ := h.shape.2 k b hb
  refine ⟨b', hb', ?_, ht⟩
  have := congrArg (fun l => l[k]?) h.shape.1
  simp only [List.getElem?_map, hb, hb', Option.map_some, Option.some.injEq] at this
  exact this

theorem Turn.mono {c : Consumer} {m : Nat} {tlvs tlvs' : List Tlv} {bs bs' : List Block} {log ev : List Event}
    (h : Turn c m tlvs' bs' log ev) (ht : ∀ tid j, HasTlv tlvs tid j → HasTlv tlvs' tid j) (hb : SameShape bs bs') : Turn c m tlvs bs log ev where
  cid := h.cid
  msgStart := h.msgStart
  msgTlv := fun h1 h2 tid htid => h.msgTlv h1 h2 tid (ht tid 0 htid)
  addrStart := by
    intro h1 h2 k b hk j hj
    obtain ⟨b', hb', hn, _⟩ := hb k b hk
    exact h.addrStart h1 h2 k b' hb' j (by rw [hn]; exact hj)
  addrTlv := by
    intro h1 h2 k b hk j hj tid htid
    obtain ⟨b', hb', hn, ht'⟩ := hb k b hk
    exact h.addrTlv h1 h2 k b' hb' j (by rw [hn]; exact hj) tid (ht' tid j htid)

/-- more callbacks before and after -/
theorem ConsPart.before {buf : Bytes} {m : Nat} {h : Hdr} {cs same same' : List Consumer} {tlvs tlvs' : List Tlv} {bs bs' : List Block}
    {res : Int} {log ev ev0 : List Event} (hC : ConsPart buf m h cs same' tlvs' bs' res (ev0 ++ log) ev)
    (hp : Part buf OKAY ev0) (hctx : ∀ e ∈ ev0, e.ctx.message = some m)
    (hends : ∀ c ∈ same, c ∈ same' ∨ (c.hasEnd = true → ∃ e ∈ ev0, e.cid = c.id ∧ e.ctx = .msg m ∧ e.kind.IsFin))
    (ht : ∀ tid j, HasTlv tlvs tid j → HasTlv tlvs' tid j) (hb : SameShape bs bs') :
    ConsPart buf m h cs same tlvs bs res log (ev ++ ev0) where
  ctx := by
    intro e he
    rcases List.mem_append.1 he with he | he
    · exact hC.ctx e he
    · exact hctx e he
  part := hp.append hC.part
  ok := by rw [List.append_assoc]; exact hC.ok
  mild := fun hm => hC.mild fun e he => hm e (List.mem_append_left _ he)
  ends := by
    intro c hc he
    rcases hends c hc with h1 | h1
    · obtain ⟨e, hm, h⟩ := hC.ends c h1 he
      exact ⟨e, List.mem_append_left _ hm, h⟩
    · obtain ⟨e, hm, h⟩ := h1 he
      exact ⟨e, List.mem_append_right _ hm, h⟩
  turns := by
    intro hm c hc hw
    obtain ⟨e0, e1, e2, heq, hT, hE⟩ := hC.turns (fun e he => hm e (List.mem_append_left _ he)) c hc hw
    refine ⟨e0 ++ ev0, e1, e2, by rw [heq]; simp only [List.append_assoc], ?_, hE⟩
    rw [List.append_assoc]
    exact hT.mono ht hb

theorem consLoop_spec (env : Env) (m : Nat) (h : Hdr) (buf : Bytes) :
    ∀ cs same tlvs blocks st, TlvsOk 0 buf tlvs → MarkAt (.msg m) 0 st.log tlvs → BlksInv buf m 0 st.log blocks → LogOk st.log →
      Open (.msg m) st.log →
      (consLoop env m h cs same tlvs blocks st = .ub .copy ∧ BadMessage buf) ∨
      ∃ res st' ev, consLoop env m h cs same tlvs blocks st = .ok (res, st') ∧ Ext st st' ev ∧
        ConsPart buf m h cs same tlvs blocks res st.log ev := by
  intro cs
  induction cs with
  | nil =>
    intro same tlvs blocks st _ _ _ hl _
    right
    unfold consLoop
    generalize hE : endCbs env m same OKAY st = r
    obtain ⟨res, st'⟩ := r
    obtain ⟨ev, hx, he, hend⟩ := endCbs_ends buf hE
    refine ⟨res, st', ev, rfl, hx, ⟨?_, he.part, he.ok hl, he.mild, hend, by simp⟩⟩
    intro e hm
    rw [he.ctx e hm]
    rfl
  | cons c cs ih =>
    intro same tlvs blocks st htl hmk hbl hl ho
    unfold consLoop
    split
    · rename_i hw
      rcases ih same tlvs blocks st htl hmk hbl hl ho with hu | ⟨res, st', ev, h1, hx, hC⟩
      · exact .inl hu
      · right
        refine ⟨res, st', ev, h1, hx, ⟨hC.ctx, hC.part, hC.ok, hC.mild, hC.ends, ?_⟩⟩
        intro hm c' hc' hw'
        rcases List.mem_cons.1 hc' with rfl | hc'
        · exfalso
          rcases hw' with h1 | h1
          · exact hw.1 h1
          · exact hw.2 h1
        · exact hC.turns hm c' hc' hw'
    · generalize hO : orderStep env m c same st = r
      obtain ⟨res0, same0, st0⟩ := r
      simp only
      obtain ⟨ev0, hx0, hE0, hends0⟩ := orderStep_spec buf hO
      have hlog0 : st0.log = ev0 ++ st.log := hx0.1
      have hctx0 : ∀ e ∈ ev0, e.ctx.message = some m := fun e he => by rw [hE0.ctx e he]; rfl
      by_cases hres0 : res0 = OKAY
      case neg =>
        rw [if_pos hres0]
        right
        refine ⟨res0, st0, ev0, rfl, hx0, ⟨hctx0, hE0.part, hE0.ok hl, hE0.mild, ?_, ?_⟩⟩
        · intro c' hc' he
          rcases hends0 c' hc' with h1 | h1
          · -- the consumers stay only with result OKAY
            exfalso
            unfold orderStep at hO
            split at hO
            · simp only [Prod.mk.injEq] at hO
              exact hres0 hO.1.symm
            · split at hO
              · generalize endCbs env m _ OKAY st = r at hO
                obtain ⟨r, st1⟩ := r
                simp only [Prod.mk.injEq] at hO
                rw [← hO.2.1] at h1
                simp at h1
              · simp only [Prod.mk.injEq] at hO
                exact hres0 hO.1.symm
          · exact h1 he
        · intro hm
          exact absurd (hE0.mild hm) hres0
      case pos =>
        subst hres0
        rw [if_neg (by simp)]
        have hmk0 : MarkAt (.msg m) 0 st0.log tlvs := by rw [hlog0]; exact hE0.mark hmk
        have hbl0 : BlksInv buf m 0 st0.log blocks := by rw [hlog0]; exact hbl.msgs hE0.ctx
        have hl0 : LogOk st0.log := by rw [hlog0]; exact hE0.ok hl
        have ho0 : Open (.msg m) st0.log := by rw [hlog0]; exact ho.append hE0.part
        by_cases hab : c.addrblock = true
        · rw [if_pos hab]
          rcases msgaddr_spec env m h.addrLen c buf blocks 0 st0 hbl0 hl0 ho0 with ⟨h1, hz⟩ | ⟨res1, bs1, st1, ev1, h1, hx1, hA⟩
          · left
            rw [h1]
            exact ⟨rfl, hz⟩
          · rw [h1]
            simp only
            have hlog1 : st1.log = ev1 ++ (ev0 ++ st.log) := by rw [hx1.1, hlog0]
            have hctx1 : ∀ e ∈ ev1, e.ctx.message = some m := by
              intro e he
              obtain ⟨⟨b', j, _, hj⟩, _⟩ := hA.ctx e he
              rw [← hj.message]
              rfl
            have haddr1 : ∀ e ∈ ev1, ¬ (Ctx.msg m).Same e.ctx := by
              intro e he hs
              obtain ⟨⟨b', j, _, hj⟩, _⟩ := hA.ctx e he
              exact not_same_msg (hj.trans hs.symm)
            have hp01 : Part buf res1 (ev1 ++ ev0) := hE0.part.append hA.part
            have hctx01 : ∀ e ∈ ev1 ++ ev0, e.ctx.message = some m := by
              intro e he
              rcases List.mem_append.1 he with he | he
              · exact hctx1 e he
              · exact hctx0 e he
            have hok1 : LogOk (ev1 ++ (ev0 ++ st.log)) := by rw [← hlog0]; exact hA.ok
            by_cases hres1 : res1 = OKAY
            · subst hres1
              rw [if_neg (by simp)]
              rcases ih same0 tlvs bs1 st1 htl
                (by rw [hlog1, ← hlog0]; exact hmk0.frame fun e he hs => absurd hs (haddr1 e he))
                (by rw [hlog1, ← hlog0]; exact hA.inv rfl)
                (by rw [hlog1]; exact hok1)
                (by rw [hlog1, ← List.append_assoc]; exact ho.append hp01) with hu | ⟨res, st', ev, h2, hx, hC⟩
              · exact .inl hu
              · right
                rw [hlog1, ← List.append_assoc] at hC
                have hC' := hC.before hp01 hctx01 (same := same) (tlvs := tlvs) (bs := blocks) (fun c' hc' => by
                  rcases hends0 c' hc' with h | h
                  · exact .inl h
                  · refine .inr fun he => ?_
                    obtain ⟨e, hm, h⟩ := h he
                    exact ⟨e, List.mem_append_right _ hm, h⟩) (fun _ _ h => h) hA.sameShape
                refine ⟨res, st', ev ++ (ev1 ++ ev0), h2, (hx0.trans hx1).trans hx, ⟨hC'.ctx, hC'.part, hC'.ok, hC'.mild, hC'.ends, ?_⟩⟩
                intro hm c' hc' hw'
                rcases List.mem_cons.1 hc' with rfl | hc'
                · refine ⟨ev0, ev1, ev, rfl, ⟨?_, ?_, ?_, ?_, ?_⟩, ?_⟩
                  · intro e he
                    refine ⟨(hA.ctx e he).2, hctx1 e he, fun _ => hab, fun _ => ?_⟩
                    obtain ⟨⟨b', j, _, hj⟩, _⟩ := hA.ctx e he
                    exact hj.isAddr trivial
                  · intro h
                    rw [hab] at h
                    exact absurd h (by decide)
                  · intro h
                    rw [hab] at h
                    exact absurd h (by decide)
                  · intro _ hs k b hk j hj
                    have := hA.start hs rfl k b hk j hj
                    rw [hlog0, Nat.zero_add] at this
                    exact this
                  · intro _ hs k b hk j hj tid ht
                    have := hA.tlv hs (fun e he => hm e (List.mem_append_right _ (List.mem_append_left _ he))) k b hk j hj tid ht
                    rw [hlog0, Nat.zero_add] at this
                    exact this
                  · intro h
                    rw [hab] at h
                    exact absurd h (by decide)
                · exact hC'.turns hm c' hc' hw'
            · rw [if_pos hres1]
              right
              generalize hE : endCbs env m same0 res1 st1 = r
              obtain ⟨res2, st2⟩ := r
              obtain ⟨ev2, hx2, hp2, hctx2, hok2, hend2⟩ := endCbs_part hE hp01
              rw [hlog1] at hok2
              refine ⟨res2, st2, ev2 ++ (ev1 ++ ev0), rfl, (hx0.trans hx1).trans hx2, ⟨?_, hp2, ?_, ?_, ?_, ?_⟩⟩
              · intro e he
                rcases List.mem_append.1 he with he | he
                · rw [hctx2 e he]; rfl
                · exact hctx01 e he
              · simp only [List.append_assoc]
                exact hok2 hok1
              · intro hm
                exact absurd (hA.mild fun e he => hm e (List.mem_append_right _ (List.mem_append_left _ he))) hres1
              · intro c' hc' he
                rcases hends0 c' hc' with h | h
                · obtain ⟨e, hm, h⟩ := hend2 c' h he
                  exact ⟨e, List.mem_append_left _ hm, h⟩
                · obtain ⟨e, hm, h⟩ := h he
                  exact ⟨e, List.mem_append_right _ (List.mem_append_right _ hm), h⟩
              · intro hm
                exact absurd (hA.mild fun e he => hm e (List.mem_append_right _ (List.mem_append_left _ he))) hres1
        · rw [if_neg hab]
          have hab' : c.addrblock = false := by simpa using hab
          obtain ⟨res1, tlvs1, st1, ev1, h1, hx1, hB⟩ := body_spec env c (.msg m) buf 0 tlvs st0 htl
          unfold msgtlvConsumer
          rw [show (Ctx.msg m).index = 0 from rfl] at h1
          rw [h1]
          simp only
          have hlog1 : st1.log = ev1 ++ (ev0 ++ st.log) := by rw [hx1.1, hlog0]
          have hctx1 : ∀ e ∈ ev1, e.ctx.message = some m := fun e he => by rw [(hB.each e he).1]; rfl
          have hp01 : Part buf res1 (ev1 ++ ev0) := hE0.part.append (msg_part hB)
          have hctx01 : ∀ e ∈ ev1 ++ ev0, e.ctx.message = some m := by
            intro e he
            rcases List.mem_append.1 he with he | he
            · exact hctx1 e he
            · exact hctx0 e he
          have hok1 : LogOk (ev1 ++ (ev0 ++ st.log)) := by rw [← hlog0]; exact hB.ok hl0 ho0 hmk0
          have hmild : (∀ e ∈ ev1, e.Mild) → res1 = OKAY := by
            intro hm
            rcases hB.mild hm with h | ⟨_, h, _⟩
            · exact h
            · exact h.elim
          obtain ⟨P, hupd⟩ := hB.upd
          by_cases hres1 : res1 = OKAY
          · subst hres1
            rw [if_neg (by simp)]
            rcases ih (c :: same0) tlvs1 blocks st1 (htl.upd hupd)
              (by rw [hlog1, ← hlog0]; exact hB.marks hmk0)
              (by rw [hlog1, ← hlog0]; exact hbl0.msgs fun e he => (hB.each e he).1)
              (by rw [hlog1]; exact hok1)
              (by rw [hlog1, ← List.append_assoc]; exact ho.append hp01) with hu | ⟨res, st', ev, h2, hx, hC⟩
            · exact .inl hu
            · right
              rw [hlog1, ← List.append_assoc] at hC
              have hC' := hC.before hp01 hctx01 (same := same) (tlvs := tlvs) (bs := blocks) (fun c' hc' => by
                rcases hends0 c' hc' with h | h
                · exact .inl (List.mem_cons_of_mem _ h)
                · refine .inr fun he => ?_
                  obtain ⟨e, hm, h⟩ := h he
                  exact ⟨e, List.mem_append_right _ hm, h⟩) (fun _ _ h => h.upd hupd) (fun k b hb => ⟨b, hb, rfl, fun _ _ h => h⟩)
              refine ⟨res, st', ev ++ (ev1 ++ ev0), h2, (hx0.trans hx1).trans hx, ⟨hC'.ctx, hC'.part, hC'.ok, hC'.mild, hC'.ends, ?_⟩⟩
              intro hm c' hc' hw'
              rcases List.mem_cons.1 hc' with rfl | hc'
              · refine ⟨ev0, ev1, ev, rfl, ⟨?_, ?_, ?_, ?_, ?_⟩, ?_⟩
                · intro e he
                  refine ⟨(hB.each e he).2.1, hctx1 e he, ?_⟩
                  rw [(hB.each e he).1, hab']
                  exact ⟨fun h => h.elim, fun h => absurd h (by decide)⟩
                · intro _ hs
                  obtain ⟨e, he, hk⟩ := hB.start hs
                  exact .inl ⟨e, he, by rw [(hB.each e he).1]; exact Ctx.Same.refl _, (hB.each e he).2.1, hk⟩
                · rintro _ hs tid ⟨t, ht, rfl, hi1, hi2⟩
                  by_cases hd : 0 ∈ t.drop
                  · obtain ⟨e, he, h3, h4⟩ := (hmk0 t ht).1 hd
                    rw [hlog0] at he
                    exact .inr (.inl ⟨e, he, h3, h4⟩)
                  · have hi : indexMatch t 0 = true := by
                      unfold indexMatch
                      simp [hd, Nat.le_zero.1 hi1]
                    obtain ⟨e, he, t', v, hk, hid⟩ := hB.deliver rfl hs t ht hi
                    exact .inl ⟨e, he, by rw [(hB.each e he).1]; exact Ctx.Same.refl _, (hB.each e he).2.1, t', v, hk, hid⟩
                · intro h
                  exact absurd h hab
                · intro h
                  exact absurd h hab
                · intro _ he
                  exact hC.ends _ List.mem_cons_self he
              · exact hC'.turns hm c' hc' hw'
          · rw [if_pos hres1]
            right
            generalize hE : endCbs env m (c :: same0) res1 st1 = r
            obtain ⟨res2, st2⟩ := r
            obtain ⟨ev2, hx2, hp2, hctx2, hok2, hend2⟩ := endCbs_part hE hp01
            rw [hlog1] at hok2
            refine ⟨res2, st2, ev2 ++ (ev1 ++ ev0), rfl, (hx0.trans hx1).trans hx2, ⟨?_, hp2, ?_, ?_, ?_, ?_⟩⟩
            · intro e he
              rcases List.mem_append.1 he with he | he
              · rw [hctx2 e he]; rfl
              · exact hctx01 e he
            · simp only [List.append_assoc]
              exact hok2 hok1
            · intro hm
              exact absurd (hmild fun e he => hm e (List.mem_append_right _ (List.mem_append_left _ he))) hres1
            · intro c' hc' he
              rcases hends0 c' hc' with h | h
              · obtain ⟨e, hm, h⟩ := hend2 c' (List.mem_cons_of_mem _ h) he
                exact ⟨e, List.mem_append_left _ hm, h⟩
              · obtain ⟨e, hm, h⟩ := h he
                exact ⟨e, List.mem_append_right _ (List.mem_append_right _ hm), h⟩
            · intro hm
              exact absurd (hmild fun e he => hm e (List.mem_append_right _ (List.mem_append_left _ he))) hres1

end Verif.Reader
