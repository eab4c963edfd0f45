import Verif.Hello.TimerProps
import Verif.Hello.AddrProps

/-! C94: what a symmetric link means for both routers. -/
namespace Verif.Hello
open Verif.Nhdp (Status calculateStatus)
open Verif.Codec (timeMax)

/-! ### Specification -/

/-- the runs of two routers: HELLOs are lost, repeated or reordered arbitrarily, but are not received more than `D` ms after they were sent;
validity times are at most `V` -/
inductive SReach (V D : Nat) : Sys → Prop
  | start : SReach V D Sys.start
  | tick {s : Sys} (dt : Nat) (qa qb : Quality) : SReach V D s → s.now + dt < 2 ^ 60 → SReach V D (sysStep s (.tick dt qa qb))
  | sendA {s : Sys} : SReach V D s → SReach V D (sysStep s .sendA)
  | sendB {s : Sys} : SReach V D s → SReach V D (sysStep s .sendB)
  | recvA {s : Sys} (m : Nat × Option Bool) (vtime lhold : Nat) (q q' : Quality) : SReach V D s → m ∈ s.sentB → s.now ≤ m.1 + D →
      0 < vtime → vtime ≤ V → V ≤ timeMax → lhold < 2 ^ 60 → SReach V D (sysStep s (.recvA m vtime lhold q q'))
  | recvB {s : Sys} (m : Nat × Option Bool) (vtime lhold : Nat) (q q' : Quality) : SReach V D s → m ∈ s.sentA → s.now ≤ m.1 + D →
      0 < vtime → vtime ≤ V → V ≤ timeMax → lhold < 2 ^ 60 → SReach V D (sysStep s (.recvB m vtime lhold q q'))

def statusIs (l : Option Lk) (st : Status) : Prop := ∃ x, l = some x ∧ x.status = st

/-! ### Lemmas -/

theorem statusOf_sym {q : Quality} {s h : Nat} (e : statusOf q s h = .symmetric) : s ≠ 0 := by
  have := ((Verif.Nhdp.C49_symmetric _).1 e).1
  simpa using this

theorem statusOf_heard {q : Quality} {s h : Nat} (e : statusOf q s h = .heard) : h ≠ 0 := by
  have := ((Verif.Nhdp.C49_heard _).1 e).1
  simpa using this

theorem says_true {l : Option Lk} (h : says l = some true) : statusIs l .heard ∨ statusIs l .symmetric := by
  cases l with
  | none => cases h
  | some x =>
    unfold says at h
    dsimp only at h
    rw [ownSeen_addrTlvs] at h
    cases hs : x.status with
    | heard => exact Or.inl ⟨x, rfl, hs⟩
    | symmetric => exact Or.inr ⟨x, rfl, hs⟩
    | pending => rw [hs] at h; split at h <;> cases h
    | lost => rw [hs] at h; split at h <;> cases h

/-- what the status of a link says about its timers -/
structure Consistent (l : Lk) : Prop where
  sym : l.status = .symmetric → l.sym ≠ 0
  heard : l.status = .heard → l.heard ≠ 0

theorem upd_consistent (l : Lk) (q : Quality) : Consistent (upd l q) := ⟨statusOf_sym, statusOf_heard⟩

/-- one router: reception times of HELLOs of the other one (`mine`), reception times at the other one (`theirs`) -/
structure Side (V D : Nat) (l : Option Lk) (mine theirs : List Nat) : Prop where
  cons : ∀ x, l = some x → Consistent x
  sym : ∀ x, l = some x → x.sym ≠ 0 → ∃ t ∈ mine, x.sym ≤ t + V + 100
  peer : ∀ x, l = some x → x.sym ≠ 0 → ∃ t ∈ theirs, x.sym ≤ t + 2 * V + D + 300
  heard : ∀ x, l = some x → x.heard ≠ 0 → ∃ t ∈ mine, x.heard ≤ t + V + 200

theorem Side.advance {V D : Nat} {l : Option Lk} {mine theirs : List Nat} (h : Side V D l mine theirs) (now : Nat) (q : Quality) :
    Side V D (advance now q l) mine theirs := by
  cases l with
  | none => exact h
  | some y =>
    unfold Hello.advance
    dsimp only
    split
    · exact ⟨fun _ hx => (nomatch hx), fun _ hx => (nomatch hx), fun _ hx => (nomatch hx), fun _ hx => (nomatch hx)⟩
    · split
      · have f1 : ∀ c, fire now c ≠ 0 → fire now c = c ∧ c ≠ 0 := by intro c; unfold fire; split <;> omega
        refine ⟨?_, ?_, ?_, ?_⟩
        · intro x hx; injection hx with hx; rw [← hx]; exact upd_consistent _ _
        · intro x hx hs
          injection hx with hx
          have e : x.sym = fire now y.sym := by rw [← hx]; rfl
          rw [e] at hs ⊢
          rw [(f1 _ hs).1]; exact h.sym y rfl (f1 _ hs).2
        · intro x hx hs
          injection hx with hx
          have e : x.sym = fire now y.sym := by rw [← hx]; rfl
          rw [e] at hs ⊢
          rw [(f1 _ hs).1]; exact h.peer y rfl (f1 _ hs).2
        · intro x hx hs
          injection hx with hx
          have e : x.heard = fire now y.heard := by rw [← hx]; rfl
          rw [e] at hs ⊢
          rw [(f1 _ hs).1]; exact h.heard y rfl (f1 _ hs).2
      · exact h

/-- the peer received another HELLO -/
theorem Side.peer_recv {V D : Nat} {l : Option Lk} {mine theirs : List Nat} (h : Side V D l mine theirs) (t : Nat) :
    Side V D l mine (t :: theirs) :=
  ⟨h.cons, h.sym, fun x hx hs => by obtain ⟨t', h1, h2⟩ := h.peer x hx hs; exact ⟨t', by simp [h1], h2⟩, h.heard⟩

/-- what is known about a HELLO: if it says that the receiver is heard, the sender received a HELLO not long before -/
def MsgOk (V : Nat) (theirs : List Nat) (m : Nat × Option Bool) : Prop := m.2 = some true → ∃ t ∈ theirs, m.1 < t + V + 200

theorem Side.recv {V D now : Nat} {l : Option Lk} {mine theirs : List Nat} (h : Side V D l mine theirs) (hr : LReach now l)
    (m : Nat × Option Bool) (hm : MsgOk V theirs m) (hD : now ≤ m.1 + D) {vtime lhold : Nat} (hv0 : 0 < vtime) (hv : vtime ≤ V)
    (hV : V ≤ timeMax) (hl : lhold < 2 ^ 60) (q q' : Quality) :
    Side V D (some (recv now vtime lhold q q' m.2 l)) (now :: mine) theirs := by
  have hi := lreach_inv hr
  have hv' : vtime < 2 ^ 32 := by simp only [timeMax] at hV; omega
  have hb := setT_bounds (now := now) (rel := vtime) hv0 (by have := hi.1; omega)
  have hsym : symOf l = 0 ∨ now ≤ symOf l := by
    cases l with
    | none => exact Or.inl rfl
    | some y => have : y.sym = 0 ∨ now < y.sym := (hi.2 y rfl).1.sym; show y.sym = 0 ∨ now ≤ y.sym; omega
  have hsymb : symOf l < 2 ^ 61 := by
    cases l with
    | none => show 0 < _; omega
    | some y => exact (hi.2 y rfl).1.symB
  have hvtb : vtOf l < 2 ^ 62 := by
    cases l with
    | none => show 0 < _; omega
    | some y => exact (hi.2 y rfl).1.vtB
  obtain ⟨r0, _, _, r3, _⟩ := recv_spec q q' m.2 hi.1 hv0 (by omega) hl hsym hsymb hvtb
  -- the symmetric timer
  have hsymcase : (Hello.recv now vtime lhold q q' m.2 l).sym ≠ 0 →
      (∃ t ∈ now :: mine, (Hello.recv now vtime lhold q q' m.2 l).sym ≤ t + V + 100) ∧
      (∃ t ∈ theirs, (Hello.recv now vtime lhold q q' m.2 l).sym ≤ t + 2 * V + D + 300) := by
    intro hne
    match hsaid : m.2 with
    | none =>
      rw [hsaid] at r0 hne
      dsimp only at r0
      rw [r0] at hne ⊢
      cases l with
      | none => exact absurd rfl hne
      | some y =>
        obtain ⟨t, h1, h2⟩ := h.sym y rfl hne
        exact ⟨⟨t, by simp [h1], h2⟩, h.peer y rfl hne⟩
    | some true =>
      rw [hsaid] at r0
      dsimp only at r0
      rw [r0]
      obtain ⟨t, h1, h2⟩ := hm hsaid
      exact ⟨⟨now, by simp, by omega⟩, ⟨t, h1, by omega⟩⟩
    | some false =>
      rw [hsaid] at r0 hne
      dsimp only at r0
      exact absurd r0 hne
  refine ⟨?_, ?_, ?_, ?_⟩
  · intro x hx; injection hx with hx; rw [← hx]; exact upd_consistent _ _
  · intro x hx hs
    injection hx with hx
    rw [← hx] at hs ⊢
    exact (hsymcase hs).1
  · intro x hx hs
    injection hx with hx
    rw [← hx] at hs ⊢
    exact (hsymcase hs).2
  · intro x hx hs
    injection hx with hx
    rw [← hx] at hs ⊢
    by_cases hz : (Hello.recv now vtime lhold q q' m.2 l).sym = 0
    · refine ⟨now, by simp, ?_⟩
      rw [hz, Nat.max_eq_left (Nat.zero_le _)] at r3
      omega
    · obtain ⟨t, h1, h2⟩ := (hsymcase hz).1
      rcases Nat.le_total (now + vtime) (Hello.recv now vtime lhold q q' m.2 l).sym with h3 | h3
      · rw [Nat.max_eq_right h3] at r3
        exact ⟨t, h1, by omega⟩
      · rw [Nat.max_eq_left h3] at r3
        exact ⟨now, by simp, by omega⟩

/-- invariant of the runs of two routers -/
structure SInv (V D : Nat) (s : Sys) : Prop where
  la : LReach s.now s.a
  lb : LReach s.now s.b
  a : Side V D s.a s.recvA s.recvB
  b : Side V D s.b s.recvB s.recvA
  sentA : ∀ m ∈ s.sentA, MsgOk V s.recvA m
  sentB : ∀ m ∈ s.sentB, MsgOk V s.recvB m

theorem MsgOk.recv {V t : Nat} {theirs : List Nat} {m : Nat × Option Bool} (h : MsgOk V theirs m) : MsgOk V (t :: theirs) m := by
  intro hm
  obtain ⟨t', h1, h2⟩ := h hm
  exact ⟨t', by simp [h1], h2⟩

theorem msgOk_new {V D now : Nat} {l : Option Lk} {mine theirs : List Nat} (h : Side V D l mine theirs) (hr : LReach now l) :
    MsgOk V mine (now, says l) := by
  intro hs
  have hlate : ∀ x, l = some x → (x.sym ≠ 0 → now < x.sym) ∧ (x.heard ≠ 0 → now < x.heard) := by
    intro x hx
    subst hx
    obtain ⟨h1, h2, _⟩ := C93_not_late_partial hr
    exact ⟨h1, h2⟩
  rcases says_true hs with ⟨x, hx, hst⟩ | ⟨x, hx, hst⟩
  · have hh := (h.cons x hx).heard hst
    obtain ⟨t, h1, h2⟩ := h.heard x hx hh
    have := (hlate x hx).2 hh
    exact ⟨t, h1, by show now < _; omega⟩
  · have hh := (h.cons x hx).sym hst
    obtain ⟨t, h1, h2⟩ := h.sym x hx hh
    have := (hlate x hx).1 hh
    exact ⟨t, h1, by show now < _; omega⟩

theorem sreach_inv {V D : Nat} {s : Sys} (h : SReach V D s) : SInv V D s := by
  induction h with
  | start =>
    have hs : Side V D none [] [] := ⟨fun _ hx => (nomatch hx), fun _ hx => (nomatch hx), fun _ hx => (nomatch hx), fun _ hx => (nomatch hx)⟩
    exact ⟨.new, .new, hs, hs, fun _ hm => (nomatch hm), fun _ hm => (nomatch hm)⟩
  | tick dt qa qb _ hb ih =>
    exact ⟨.tick qa ih.la (by show _ ≤ _ + _; omega) hb, .tick qb ih.lb (by show _ ≤ _ + _; omega) hb, ih.a.advance _ _, ih.b.advance _ _,
      ih.sentA, ih.sentB⟩
  | sendA _ ih =>
    refine ⟨ih.la, ih.lb, ih.a, ih.b, ?_, ih.sentB⟩
    intro m hm
    rcases List.mem_cons.1 hm with rfl | hm
    · exact msgOk_new ih.a ih.la
    · exact ih.sentA m hm
  | sendB _ ih =>
    refine ⟨ih.la, ih.lb, ih.a, ih.b, ih.sentA, ?_⟩
    intro m hm
    rcases List.mem_cons.1 hm with rfl | hm
    · exact msgOk_new ih.b ih.lb
    · exact ih.sentB m hm
  | recvA m vtime lhold q q' _ hm hD h0 h1 h2 h3 ih =>
    exact ⟨.hello vtime lhold q q' m.2 ih.la h0 (by omega) h3, ih.lb, ih.a.recv ih.la m (ih.sentB m hm) hD h0 h1 h2 h3 q q',
      ih.b.peer_recv _, fun m' hm' => (ih.sentA m' hm').recv, ih.sentB⟩
  | recvB m vtime lhold q q' _ hm hD h0 h1 h2 h3 ih =>
    exact ⟨ih.la, .hello vtime lhold q q' m.2 ih.lb h0 (by omega) h3, ih.a.peer_recv _,
      ih.b.recv ih.lb m (ih.sentA m hm) hD h0 h1 h2 h3 q q', ih.sentA, fun m' hm' => (ih.sentB m' hm').recv⟩

/-! ### Properties -/

/-- C94: if a router regards the link to another one as symmetric, then messages got through in both directions recently: it received a
HELLO of the other one within the last `V` ms, and the other one received a HELLO of it within the last `2 V + D` ms (`V`: longest
validity time, `D`: longest delay of a HELLO; up to 300 ms more because timers fire in steps of 100 ms).  For all losses, repetitions
and orders of HELLOs, whatever happens to link quality and addresses. -/
theorem C94_symmetric_is_bidirectional {V D : Nat} {s : Sys} (h : SReach V D s) (hs : statusIs s.a .symmetric) :
    (∃ t ∈ s.recvA, s.now < t + V + 100) ∧ ∃ t ∈ s.recvB, s.now < t + 2 * V + D + 300 := by
  obtain ⟨x, hx, hst⟩ := hs
  have i := sreach_inv h
  have hne := (i.a.cons x hx).sym hst
  have hl : LReach s.now (some x) := hx ▸ i.la
  have hlate := (C93_not_late_partial hl).1 hne
  obtain ⟨t, h1, h2⟩ := i.a.sym x hx hne
  obtain ⟨t', h3, h4⟩ := i.a.peer x hx hne
  exact ⟨⟨t, h1, by omega⟩, ⟨t', h3, by omega⟩⟩

/-- C94: if a router regards a link as heard, it received a HELLO of the other one within the last `V` ms. -/
theorem C94_heard_is_recent {V D : Nat} {s : Sys} (h : SReach V D s) (hs : statusIs s.a .heard) : ∃ t ∈ s.recvA, s.now < t + V + 200 := by
  obtain ⟨x, hx, hst⟩ := hs
  have i := sreach_inv h
  have hne := (i.a.cons x hx).heard hst
  have hl : LReach s.now (some x) := hx ▸ i.la
  have hlate := (C93_not_late_partial hl).2.1 hne
  obtain ⟨t, h1, h2⟩ := i.a.heard x hx hne
  exact ⟨t, h1, by omega⟩

/-- C94: the times are times of receptions in the past. -/
theorem C94_times {V D : Nat} {s : Sys} (h : SReach V D s) : (∀ t ∈ s.recvA, t ≤ s.now) ∧ ∀ t ∈ s.recvB, t ≤ s.now := by
  induction h with
  | start => exact ⟨fun _ ht => (nomatch ht), fun _ ht => (nomatch ht)⟩
  | @tick s dt qa qb _ _ ih => exact ⟨fun t ht => by have := ih.1 t ht; show t ≤ s.now + dt; omega, fun t ht => by have := ih.2 t ht; show t ≤ s.now + dt; omega⟩
  | sendA _ ih => exact ih
  | sendB _ ih => exact ih
  | recvA m vtime lhold q q' _ _ _ _ _ _ _ ih =>
    refine ⟨fun t ht => ?_, ih.2⟩
    rcases List.mem_cons.1 ht with rfl | ht
    · exact Nat.le_refl _
    · exact ih.1 t ht
  | recvB m vtime lhold q q' _ _ _ _ _ _ _ ih =>
    refine ⟨ih.1, fun t ht => ?_⟩
    rcases List.mem_cons.1 ht with rfl | ht
    · exact Nat.le_refl _
    · exact ih.2 t ht

/-! ### Establishing a symmetric link -/

theorem recv_ann {now vtime lhold : Nat} (hn : now < 2 ^ 60) (hv0 : 0 < vtime) (hv : vtime ≤ timeMax) (said : Option Bool) {l : Option Lk}
    (h0 : symOf l = 0) (hst : ¬ statusIs l .symmetric) : (recv now vtime lhold good good said l).ann = true := by
  have hold : (recvAddr l).status ≠ .symmetric := by
    cases l with
    | none => intro h; cases h
    | some x => intro h; exact hst ⟨x, rfl, h⟩
  have hann : (recvAddr l).ann = true := by cases l <;> rfl
  have updann : ∀ (x : Lk) (q : Quality), x.status ≠ .symmetric → x.ann = true → (upd x q).ann = true := by
    intro x q h1 h2
    dsimp only [upd]
    rw [if_neg (fun h => h1 h.1)]
    split
    · rfl
    · exact h2
  unfold recv
  match said with
  | none => exact updann _ _ hold hann
  | some false =>
    have hr : recvSym now vtime lhold good (some false) (recvAddr l) = recvAddr l := by
      unfold recvSym; rw [recvAddr_sym, h0]; rfl
    rw [hr]
    exact updann _ _ hold hann
  | some true =>
    have hv' : vtime < 2 ^ 32 := by simp only [timeMax] at hv; omega
    have hb := setT_bounds (now := now) (rel := vtime) hv0 (by omega)
    have hsym : ∀ h : Nat, statusOf good (setT now vtime) h = .symmetric := by
      intro h
      have : setT now vtime ≠ 0 := by omega
      simp [statusOf, calculateStatus, good, this]
    have h1 : (recvSym now vtime lhold good (some true) (recvAddr l)).ann = true := updann _ _ hold hann
    dsimp only [upd]
    rw [if_neg, if_neg]
    · exact h1
    · rintro ⟨h, _⟩; exact h (hsym _)
    · rintro ⟨_, h⟩; exact h (hsym _)

theorem says_of {x : Lk} (ha : x.ann = true) (hs : x.status = .symmetric ∨ x.status = .heard) : says (some x) = some true := by
  unfold says
  dsimp only
  rw [ownSeen_addrTlvs, ha]
  rcases hs with h | h <;> rw [h] <;> rfl

theorem advance_idle {now : Nat} {q : Quality} {x : Lk} (h1 : x.sym = 0 ∨ now < x.sym) (h2 : x.heard = 0 ∨ now < x.heard)
    (h3 : x.vt = 0 ∨ now < x.vt) : advance now q (some x) = some x := by
  unfold advance
  dsimp only
  rw [if_neg (by omega), if_neg (by omega)]

theorem advance_sym {now : Nat} {q : Quality} {l : Option Lk} (h : symOf l = 0) : symOf (advance now q l) = 0 := by
  cases l with
  | none => rfl
  | some x =>
    have h : x.sym = 0 := h
    unfold advance
    dsimp only
    split
    · rfl
    · split
      · show fire now x.sym = 0; unfold fire; rw [h]; simp
      · exact h

theorem not_sym {V D : Nat} {l : Option Lk} {mine theirs : List Nat} (h : Side V D l mine theirs) (h0 : symOf l = 0) :
    ¬ statusIs l .symmetric := by
  rintro ⟨x, hx, hst⟩
  subst hx
  exact (h.cons x rfl).sym hst h0

/-- after a HELLO with validity time `vtime`, and `d < vtime` ms later: not yet symmetric routers announce the sender as heard -/
theorem recv_then {V D now vtime lhold d : Nat} {l : Option Lk} {mine theirs : List Nat} (hr : LReach now l) (hside : Side V D l mine theirs)
    (h0 : symOf l = 0) (hv0 : 0 < vtime) (hv : vtime ≤ timeMax) (hl : lhold < 2 ^ 60) (hd : d < vtime) (said : Option Bool) :
    ∃ x, recv now vtime lhold good good said l = x ∧ advance (now + d) good (some x) = some x ∧ says (some x) = some true ∧
      (said = some true → x.status = .symmetric) := by
  refine ⟨_, rfl, ?_, ?_, ?_⟩
  · obtain ⟨h1, h2, h3, h4, h5⟩ := C93_hello_partial hr hv0 hv hl good good said
    refine advance_idle ?_ (Or.inr (by omega)) (Or.inr (by omega))
    match said with
    | none => left; rw [h5 rfl]; exact h0
    | some true => right; have := (h3 rfl).1; omega
    | some false => left; exact h4 rfl
  · refine says_of (recv_ann (lreach_inv hr).1 hv0 hv said h0 (not_sym hside h0)) ?_
    rw [C93_status_partial hr hv0 hv hl good said]
    split
    · exact Or.inl rfl
    · exact Or.inr rfl
  · intro hs
    rw [C93_status_partial hr hv0 hv hl good said, if_pos (Or.inl hs)]

/-- the HELLO which `b` sends now is received by `a` at once, with validity time `v` -/
def bToA (s : Sys) (v lhold : Nat) : Sys := sysStep (sysStep s .sendB) (.recvA (s.now, says s.b) v lhold good good)
/-- the HELLO which `a` sends now is received by `b` at once, with validity time `v` -/
def aToB (s : Sys) (v lhold : Nat) : Sys := sysStep (sysStep s .sendA) (.recvB (s.now, says s.a) v lhold good good)

theorem bToA_reach {V D : Nat} {s : Sys} (h : SReach V D s) {v lhold : Nat} (hv0 : 0 < v) (hv : v ≤ V) (hV : V ≤ timeMax) (hl : lhold < 2 ^ 60) :
    SReach V D (bToA s v lhold) :=
  .recvA (s.now, says s.b) v lhold good good (.sendB h) (by simp [sysStep]) (by simp [sysStep]) hv0 hv hV hl

theorem aToB_reach {V D : Nat} {s : Sys} (h : SReach V D s) {v lhold : Nat} (hv0 : 0 < v) (hv : v ≤ V) (hV : V ≤ timeMax) (hl : lhold < 2 ^ 60) :
    SReach V D (aToB s v lhold) :=
  .recvB (s.now, says s.a) v lhold good good (.sendA h) (by simp [sysStep]) (by simp [sysStep]) hv0 hv hV hl

/-- C94: three HELLOs in alternating directions, each within the validity time of the one before, make the link symmetric on both sides,
whatever happened before, if it was not symmetric on either side and nothing is wrong with link quality and addresses. -/
theorem C94_handshake {V D : Nat} {s : Sys} (h : SReach V D s) (ha : symOf s.a = 0) (hb : symOf s.b = 0) {v1 v2 v3 h1 h2 h3 d1 d2 : Nat}
    (hV : V ≤ timeMax) (hv1 : 0 < v1 ∧ v1 ≤ V) (hv2 : 0 < v2 ∧ v2 ≤ V) (hv3 : 0 < v3 ∧ v3 ≤ V) (hh1 : h1 < 2 ^ 60) (hh2 : h2 < 2 ^ 60)
    (hh3 : h3 < 2 ^ 60) (hd1 : d1 < v1) (hd2 : d2 < v2) (hnow : s.now + d1 + d2 < 2 ^ 60) :
    let s1 := bToA s v1 h1
    let s2 := aToB (sysStep s1 (.tick d1 good good)) v2 h2
    let s3 := bToA (sysStep s2 (.tick d2 good good)) v3 h3
    statusIs s3.a .symmetric ∧ statusIs s3.b .symmetric := by
  intro s1 s2 s3
  have i0 := sreach_inv h
  obtain ⟨x, hx, hx2, hx3, _⟩ := recv_then (d := d1) i0.la i0.a ha hv1.1 (by omega) hh1 hd1 (says s.b)
  have hs1a : s1.a = some x := by rw [← hx]; rfl
  have hr1 : SReach V D s1 := bToA_reach h hv1.1 hv1.2 hV hh1
  have hr1' : SReach V D (sysStep s1 (.tick d1 good good)) := .tick d1 good good hr1 (by show s.now + d1 < _; omega)
  have i1 := sreach_inv hr1'
  have ha1 : (sysStep s1 (.tick d1 good good)).a = some x := by
    show advance (s.now + d1) good s1.a = some x
    rw [hs1a]; exact hx2
  have hb1 : symOf (sysStep s1 (.tick d1 good good)).b = 0 := advance_sym (now := s.now + d1) (q := good) (l := s.b) hb
  obtain ⟨y, hy, hy2, hy3, hy4⟩ := recv_then (d := d2) i1.lb i1.b hb1 hv2.1 (by omega) hh2 hd2 (says (sysStep s1 (.tick d1 good good)).a)
  have hysym : y.status = .symmetric := hy4 (by rw [ha1]; exact hx3)
  have hs2b : s2.b = some y := by rw [← hy]; rfl
  have hr2 : SReach V D s2 := aToB_reach hr1' hv2.1 hv2.2 hV hh2
  have hr2' : SReach V D (sysStep s2 (.tick d2 good good)) := .tick d2 good good hr2 (by show s.now + d1 + d2 < _; omega)
  have i2 := sreach_inv hr2'
  have hb2 : (sysStep s2 (.tick d2 good good)).b = some y := by
    show advance (s.now + d1 + d2) good s2.b = some y
    rw [hs2b]; exact hy2
  constructor
  · refine ⟨_, rfl, ?_⟩
    have := C93_status_partial i2.la hv3.1 (by omega) hh3 good (says (sysStep s2 (.tick d2 good good)).b)
    refine this.trans (if_pos (Or.inl ?_))
    rw [hb2]; exact hy3
  · exact ⟨y, hb2, hysym⟩

/-- the first HELLOs of two routers -/
example :
    let s1 := bToA (sysStep Sys.start (.tick 1000 good good)) 20000 20000
    let s2 := aToB (sysStep s1 (.tick 500 good good)) 20000 20000
    let s3 := bToA (sysStep s2 (.tick 1500 good good)) 20000 20000
    s1.a.map (·.status) = some .heard ∧ s2.b.map (·.status) = some .symmetric ∧ s3.a.map (·.status) = some .symmetric ∧
    (sysStep s3 (.tick 20000 good good)).b.map (·.status) = some .lost ∧
    (sysStep s3 (.tick 20000 good good)).a.map (·.status) = some .symmetric := by decide +kernel

example : SReach 20000 0 (bToA (sysStep Sys.start (.tick 1000 good good)) 20000 20000) :=
  bToA_reach (.tick 1000 good good .start (by decide)) (by decide) (by decide) (by decide) (by decide)

end Verif.Hello
