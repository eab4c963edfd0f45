import Verif.Reader.Packet
import Verif.Reader.Local

/-! Lemmas that connect the handling of a packet with the list of its messages. -/
namespace Verif.Reader

theorem sizeField_take {rest : Bytes} {n : Nat} (h : sizeField rest = some n) (h4 : 4 ≤ n) : sizeField (rest.take n) = some n := by
  unfold sizeField at h
  split at h
  · rename_i a b c d e
    obtain ⟨k, rfl⟩ : ∃ k, n = k + 4 := ⟨n - 4, by omega⟩
    rw [← h]
    rfl
  · simp at h

theorem parseMessage_size {mem : Nat → Bool} {k : Nat} {rest : Bytes} {msg : Msg} {k' : Nat}
    (h : parseMessage mem k rest = .ok (msg, k')) : sizeField rest = some msg.hdr.size ∧ msg.hdr.size ≤ rest.length ∧ 4 ≤ msg.hdr.size := by
  have := parseMessage_sat mem k rest rest (List.suffix_refl _)
  rw [h] at this
  exact ⟨this.1, this.2.1, this.2.2.1⟩

/-- a message in front of other bytes is parsed as if it were alone -/
theorem parseMessage_alone {mem : Nat → Bool} {k : Nat} {rest : Bytes} {msg : Msg} {k' : Nat}
    (h : parseMessage mem k rest = .ok (msg, k')) :
    sizeField (rest.take msg.hdr.size) = some (rest.take msg.hdr.size).length ∧ parseMessage mem k (rest.take msg.hdr.size) = .ok (msg, k') := by
  obtain ⟨h1, h2, h4⟩ := parseMessage_size h
  have hs : sizeField (rest.take msg.hdr.size) = some (rest.take msg.hdr.size).length := by
    rw [List.length_take, Nat.min_eq_left h2]
    exact sizeField_take h1 h4
  refine ⟨hs, parseMessage_unapp hs (r := rest.drop msg.hdr.size) ?_⟩
  rw [List.take_append_drop]
  exact h

theorem Event.Valid.mono {a b : Bytes} {e : Event} (h : e.Valid a) (hab : a <:+: b) : e.Valid b :=
  ⟨fun t v hk => ⟨(h.value t v hk).1, (h.value t v hk).2.trans hab⟩,
    fun t ht => ⟨(h.range t ht).1, (h.range t ht).2.1, (h.range t ht).2.2.1, (h.range t ht).2.2.2.trans hab⟩⟩

theorem split_of : ∀ ms : List Bytes, (∀ b ∈ ms, sizeField b = some b.length) → Split ms.flatten ms
  | [], _ => .nil
  | b :: bs, h => by
    rw [List.flatten_cons]
    exact .cons (h b List.mem_cons_self) (split_of bs fun b hb => h b (List.mem_cons_of_mem _ hb))

theorem Split.unique {b : Bytes} {ms ms' : List Bytes} (h : Split b ms) (h' : Split b ms') : ms = ms' := by
  induction h generalizing ms' with
  | nil =>
    generalize hb : ([] : Bytes) = b at h'
    cases h' with
    | nil => rfl
    | @cons m r ms hs _ =>
      have : m = [] := by
        have := congrArg List.length hb
        simp only [List.length_nil, List.length_append] at this
        exact List.length_eq_zero_iff.1 (by omega)
      rw [this] at hs
      simp [sizeField] at hs
  | @cons m r ms hs hsp ih =>
    generalize hb : m ++ r = b at h'
    cases h' with
    | nil =>
      have : m = [] := by
        have := congrArg List.length hb
        simp only [List.length_nil, List.length_append] at this
        exact List.length_eq_zero_iff.1 (by omega)
      rw [this] at hs
      simp [sizeField] at hs
    | @cons m' r' ms' hs' hsp' =>
      have hl : m.length = m'.length := by
        have h1 := sizeField_append (r := r) hs
        rw [hb, sizeField_append hs'] at h1
        exact (Option.some.inj h1).symm
      obtain ⟨h1, h2⟩ := List.append_inj hb hl
      subst h1 h2
      rw [ih hsp']

/-- the messages of a packet are visited up to the first parse error or the first result that is not OKAY -/
theorem Msgs.visits {env : Env} {cs : List Consumer} {m k : Nat} {rest : Bytes} {log ev : List Event} {res : Int}
    (h : Msgs env cs m k rest log ev res) :
    ∃ ms tail, rest = ms.flatten ++ tail ∧ (∀ b ∈ ms, sizeField b = some b.length) ∧ Visits env cs m k ms log ev ∧
      (res = OKAY → tail = []) ∧
      (res = OKAY ∨ (tail ≠ [] ∧ ∃ k', parseMessage env.mem k' tail = .err res) ∨
        ∃ e ∈ ev, ¬ e.kind.IsForward ∧ e.r.res = res ∧ (res < 0 ∨ res = DROP_PACKET)) := by
  induction h with
  | done m k log => exact ⟨[], [], rfl, by simp, .nil m k log, fun _ => rfl, .inl rfl⟩
  | @bad m k rest log e hne hp =>
    refine ⟨[], rest, rfl, by simp, .nil m k log, ?_, .inr (.inl ⟨hne, k, hp⟩)⟩
    intro h0
    have := parseMessage_code hp
    rw [h0] at this
    exact absurd this (by decide)
  | @stop m k k' rest log ev msg res hne hp hs hl hE hR h0 =>
    have ha := parseMessage_alone hp
    refine ⟨[rest.take msg.hdr.size], rest.drop msg.hdr.size, by simp, by simpa using ha.1, ?_, fun h => absurd h h0, ?_⟩
    · exact .cons (ev' := []) ha.2 hE (.nil _ _ _)
    · rcases hR.source with h | h
      · exact absurd h h0
      · exact .inr (.inr h)
  | @next m k k' rest log ev ev' msg res hne hp hs hl hE hR hM ih =>
    obtain ⟨ms, tail, h1, h2, h3, h4, h5⟩ := ih
    have ha := parseMessage_alone hp
    refine ⟨rest.take msg.hdr.size :: ms, tail, ?_, ?_, .cons ha.2 hE h3, h4, ?_⟩
    · rw [List.flatten_cons, List.append_assoc, ← h1, List.take_append_drop]
    · intro b hb
      rcases List.mem_cons.1 hb with rfl | hb
      · exact ha.1
      · exact h2 b hb
    · rcases h5 with h | h | ⟨e, he, h⟩
      · exact .inl h
      · exact .inr (.inl h)
      · exact .inr (.inr ⟨e, List.mem_append_left _ he, h⟩)

/-- all messages are visited if each is well-formed and the callbacks do not abort -/
theorem Msgs.all {env : Env} {cs : List Consumer} {m k : Nat} {rest : Bytes} {log ev : List Event} {res : Int}
    (h : Msgs env cs m k rest log ev res) (hmem : env.mem = fun _ => true)
    (hev : ∀ e ∈ ev, 0 ≤ e.r.res ∧ e.r.res < DROP_PACKET) : ∀ ms, Split rest ms → (∀ b ∈ ms, WellFormed b) →
    res = OKAY ∧ Visits env cs m k ms log ev := by
  induction h with
  | done m k log =>
    intro ms hms _
    cases hms' : ms with
    | nil => exact ⟨rfl, .nil m k log⟩
    | cons b bs =>
      rw [hms'] at hms
      generalize hr : ([] : Bytes) = rest at hms
      cases hms with
      | cons hs _ =>
        have := congrArg List.length hr
        simp only [List.length_nil, List.length_append] at this
        rw [List.length_eq_zero_iff.1 (show b.length = 0 by omega)] at hs
        simp [sizeField] at hs
  | @bad m k rest log e hne hp =>
    intro ms hms hw
    cases hms with
    | nil => exact absurd rfl hne
    | @cons b r bs hs hsp =>
      obtain ⟨_, hok⟩ := hw b List.mem_cons_self
      obtain ⟨msg, k', hok⟩ := hok k
      rw [hmem, parseMessage_app hs hok] at hp
      simp at hp
  | @stop m k k' rest log ev msg res hne hp hs hl hE hR h0 =>
    intro ms _ _
    rcases hR.source with h | ⟨e, he, _, hr, h⟩
    · exact absurd h h0
    · have := hev e he
      rw [hr] at this
      simp only [DROP_PACKET] at this h
      omega
  | @next m k k' rest log ev ev' msg res hne hp hs hl hE hR hM ih =>
    intro ms hms hw
    cases hms with
    | nil => exact absurd rfl hne
    | @cons b r bs hsb hsp =>
      have hsz : msg.hdr.size = b.length := by
        rw [sizeField_append hsb] at hs
        exact (Option.some.inj hs).symm
      have ht : (b ++ r).take msg.hdr.size = b := by rw [hsz, List.take_left]
      have hd : (b ++ r).drop msg.hdr.size = r := by rw [hsz, List.drop_left]
      rw [ht] at hE
      rw [hd] at ih
      obtain ⟨h1, h2⟩ := ih (fun e he => hev e (List.mem_append_left _ he)) bs hsp fun b hb => hw b (List.mem_cons_of_mem _ hb)
      exact ⟨h1, .cons (parseMessage_unapp hsb hp) hE h2⟩

/-- the callbacks of one of the messages of a packet -/
theorem Visits.at {env : Env} {cs : List Consumer} {m k : Nat} {ms : List Bytes} {log ev : List Event} (h : Visits env cs m k ms log ev) :
    ∀ (i : Nat) (b : Bytes), ms[i]? = some b → ∃ ev0 ev1 ev2 k' k'' msg, ev = ev2 ++ (ev1 ++ ev0) ∧ parseMessage env.mem k' b = .ok (msg, k'') ∧
      MsgEvents env cs (m + i) msg b (ev0 ++ log) ev1 ∧
      (∀ e ∈ ev0, ∃ j, e.ctx.message = some (m + j) ∧ j < i) ∧ (∀ e ∈ ev2, ∃ j, e.ctx.message = some (m + j) ∧ i < j) := by
  have hin : ∀ {m k ms log ev}, Visits env cs m k ms log ev → ∀ e ∈ ev, ∃ j, e.ctx.message = some (m + j) := by
    intro m k ms log ev h
    induction h with
    | nil => simp
    | cons hp hE _ ih =>
      intro e he
      rcases List.mem_append.1 he with he | he
      · obtain ⟨j, hj⟩ := ih e he
        exact ⟨j + 1, by rw [hj]; congr 1; omega⟩
      · exact ⟨0, hE.ctx e he⟩
  induction h with
  | nil => simp
  | @cons m k k' b bs log ev ev' msg hp hE hV ih =>
    intro i b' hb'
    cases i with
    | zero =>
      simp only [List.getElem?_cons_zero, Option.some.injEq] at hb'
      subst hb'
      refine ⟨[], ev, ev', k, k', msg, by simp, hp, hE, by simp, ?_⟩
      intro e he
      obtain ⟨j, hj⟩ := hin hV e he
      exact ⟨j + 1, by rw [hj]; congr 1; omega, by omega⟩
    | succ i =>
      simp only [List.getElem?_cons_succ] at hb'
      obtain ⟨e0, e1, e2, k1, k2, msg', h1, h2, h3, h4, h5⟩ := ih i b' hb'
      refine ⟨e0 ++ ev, e1, e2, k1, k2, msg', by rw [h1]; simp only [List.append_assoc], h2, ?_, ?_, ?_⟩
      · rw [List.append_assoc, show m + (i + 1) = m + 1 + i by omega]
        exact h3
      · intro e he
        rcases List.mem_append.1 he with he | he
        · obtain ⟨j, hj, hlt⟩ := h4 e he
          exact ⟨j + 1, by rw [hj]; congr 1; omega, by omega⟩
        · exact ⟨0, hE.ctx e he, by omega⟩
      · intro e he
        obtain ⟨j, hj, hlt⟩ := h5 e he
        exact ⟨j + 1, by rw [hj]; congr 1; omega, by omega⟩

/-- every callback belongs to a message -/
theorem Visits.mem {env : Env} {cs : List Consumer} {m k : Nat} {ms : List Bytes} {log ev : List Event} (h : Visits env cs m k ms log ev) :
    ∀ e ∈ ev, ∃ (i : Nat) (b : Bytes), ms[i]? = some b ∧ e.ctx.message = some (m + i) ∧ e.Valid b := by
  induction h with
  | nil => simp
  | cons hp hE _ ih =>
    intro e he
    rcases List.mem_append.1 he with he | he
    · obtain ⟨i, b, h1, h2, h3⟩ := ih e he
      exact ⟨i + 1, b, by simpa using h1, by rw [h2]; congr 1; omega, h3⟩
    · exact ⟨0, _, rfl, hE.ctx e he, hE.valid e he⟩

/-- the callbacks of message number `i` in the history of the whole packet -/
theorem Visits.slice {env : Env} {cs : List Consumer} {k : Nat} {ms : List Bytes} {evE evM evP : List Event} (h : Visits env cs 0 k ms evP evM)
    (hE : ∀ e ∈ evE, e.ctx = .pkt) (hP : ∀ e ∈ evP, e.ctx = .pkt) {i : Nat} {b : Bytes} (hb : ms[i]? = some b) :
    ∃ ev0 ev1 ev2 k' k'' msg, evE ++ (evM ++ evP) = ev2 ++ (ev1 ++ ev0) ∧ parseMessage env.mem k' b = .ok (msg, k'') ∧
      MsgEvents env cs i msg b ev0 ev1 ∧ (∀ e ∈ evE ++ (evM ++ evP), e.ctx.message = some i → e ∈ ev1) ∧
      (∀ e ∈ ev2 ++ ev0, e.ctx.message ≠ some i) := by
  obtain ⟨ev0, ev1, ev2, k1, k2, msg, h1, h2, h3, h4, h5⟩ := h.at i b hb
  rw [Nat.zero_add] at h3
  have hout : ∀ e ∈ (evE ++ ev2) ++ (ev0 ++ evP), e.ctx.message ≠ some i := by
    intro e he hm
    rcases List.mem_append.1 he with he | he
    · rcases List.mem_append.1 he with he | he
      · rw [hE e he] at hm
        simp [Ctx.message] at hm
      · obtain ⟨j, hj, hlt⟩ := h5 e he
        rw [hm] at hj
        have := Option.some.inj hj
        omega
    · rcases List.mem_append.1 he with he | he
      · obtain ⟨j, hj, hlt⟩ := h4 e he
        rw [hm] at hj
        have := Option.some.inj hj
        omega
      · rw [hP e he] at hm
        simp [Ctx.message] at hm
  refine ⟨ev0 ++ evP, ev1, evE ++ ev2, k1, k2, msg, by rw [h1]; simp only [List.append_assoc], h2, h3, ?_, hout⟩
  intro e he hm
  rw [h1] at he
  rcases List.mem_append.1 he with he | he
  · exact absurd hm (hout e (by simp [he]))
  · rcases List.mem_append.1 he with he | he
    · rcases List.mem_append.1 he with he | he
      · exact absurd hm (hout e (by simp [he]))
      · rcases List.mem_append.1 he with he | he
        · exact he
        · exact absurd hm (hout e (by simp [he]))
    · exact absurd hm (hout e (by simp [he]))

/-- how a packet is handled when there is no undefined behaviour -/
theorem handlePacket_visits {env : Env} {pc mc : List Consumer} {buf : Bytes} {ret : Int} {log : List Event}
    (h : handlePacket env pc mc buf = .ok (ret, log)) :
    (log = [] ∧ Code ret ∧ (65535 < buf.length ∨ parsePacket env.mem buf = .err ret)) ∨
    ∃ first tlvs rest k res evP evM evE ms tail, parsePacket env.mem buf = .ok (first, tlvs, rest, k) ∧ rest <:+ buf ∧
      ret = (if res = DROP_PACKET then OKAY else res) ∧ log = evE ++ (evM ++ evP) ∧ LogOk log ∧
      (∀ e ∈ evE, e.ctx = .pkt ∧ e.kind.IsFin) ∧
      (∀ e ∈ evP, e.ctx = .pkt ∧ ¬ e.kind.IsFin ∧ ¬ e.kind.IsForward ∧ e.Valid buf) ∧ PktTurns pc tlvs [] evP ∧
      rest = ms.flatten ++ tail ∧ (∀ b ∈ ms, sizeField b = some b.length) ∧ Visits env mc 0 k ms evP evM ∧
      (res = OKAY → tail = []) ∧
      (res = OKAY ∨ (tail ≠ [] ∧ ∃ k', parseMessage env.mem k' tail = .err res) ∨
        (∃ e ∈ evM, ¬ e.kind.IsForward ∧ e.r.res = res ∧ (res < 0 ∨ res = DROP_PACKET)) ∨ ∃ e ∈ evP, e.r.res = res) ∧
      ((∀ e ∈ evM, 0 ≤ e.r.res ∧ e.r.res < DROP_PACKET) → (∀ e ∈ evP, e.Mild) → env.mem = (fun _ => true) →
        ∀ ms', Split rest ms' → (∀ b ∈ ms', WellFormed b) → ret = OKAY ∧ ms = ms') := by
  rcases handlePacket_spec env pc mc buf with ⟨u, h', _⟩ | ⟨_, h'⟩ | ⟨e, hp, h'⟩ | ⟨first, tlvs, rest, k, res, evP, evM, evE, _, hp, hsuf, h', hl, hE, hT, hc⟩
  · rw [h] at h'
    simp at h'
  · rw [h] at h'
    simp only [R.ok.injEq, Prod.mk.injEq] at h'
    exact .inl ⟨h'.2, by rw [h'.1]; decide, .inl (by assumption)⟩
  · rw [h] at h'
    simp only [R.ok.injEq, Prod.mk.injEq] at h'
    exact .inl ⟨h'.2, by rw [h'.1]; exact parsePacket_code hp, .inr (by rw [h'.1]; exact hp)⟩
  · rw [h] at h'
    simp only [R.ok.injEq, Prod.mk.injEq] at h'
    right
    rcases hc with ⟨hP, h0, hM, hnm⟩ | ⟨hP, hM⟩
    · refine ⟨first, tlvs, rest, k, res, evP, evM, evE, [], rest, hp, hsuf, h'.1, h'.2, by rw [h'.2]; exact hl, hE, hP.each, hT, rfl, by simp,
        by rw [hM]; exact .nil _ _ _, fun h => absurd h h0, ?_, ?_⟩
      · rcases hP.source with h | h
        · exact .inl h
        · exact .inr (.inr (.inr h))
      · exact fun _ hm => absurd hm hnm
    · obtain ⟨ms, tail, h1, h2, h3, h4, h5⟩ := hM.visits
      refine ⟨first, tlvs, rest, k, res, evP, evM, evE, ms, tail, hp, hsuf, h'.1, h'.2, by rw [h'.2]; exact hl, hE, hP.each, hT, h1, h2, h3, h4, ?_, ?_⟩
      · rcases h5 with h | h | h
        · exact .inl h
        · exact .inr (.inl h)
        · exact .inr (.inr (.inl h))
      · intro hev hm hmem ms' hs hw
        obtain ⟨h6, h7⟩ := hM.all hmem hev ms' hs hw
        have h8 := h4 h6
        rw [h8, List.append_nil] at h1
        refine ⟨by rw [h'.1, h6]; rfl, (split_of ms h2).unique (h1 ▸ hs)⟩

end Verif.Reader
