/-
Helper lemmas for the properties of a TCP session.
-/
import Verif.Stream.SessSpec
namespace Verif.Stream

/-- Between two states of the session no byte got lost, doubled or reordered. -/
def Bal (s : Sess) (l : List Obs) (s' : Sess) : Prop :=
  s.out ++ l.flatMap putBy = l.flatMap sentBy ++ s'.out ∧
  s.inb ++ l.flatMap gotBy = l.flatMap takenBy ++ s'.inb

theorem Bal.trans {s s1 s2 : Sess} {l1 l2 : List Obs} (h1 : Bal s l1 s1) (h2 : Bal s1 l2 s2) :
    Bal s (l1 ++ l2) s2 := by
  constructor
  · rw [List.flatMap_append, List.flatMap_append, ← List.append_assoc, h1.1, List.append_assoc, h2.1,
      List.append_assoc]
  · rw [List.flatMap_append, List.flatMap_append, ← List.append_assoc, h1.2, List.append_assoc, h2.2,
      List.append_assoc]

theorem Bal.refl {s s' : Sess} (ho : s'.out = s.out) (hi : s'.inb = s.inb) : Bal s [] s' := by
  simp [Bal, ho, hi]

theorem bal_connect (e : Event) (s : Sess) : Bal s (connectStage e s).2 (connectStage e s).1 := by
  unfold connectStage
  split
  · split <;> simp [Bal, putBy, sentBy, gotBy, takenBy]
  · simp [Bal]

theorem bal_read (c : Cfg) (e : Event) (s : Sess) : Bal s (readStage c e s).2 (readStage c e s).1 := by
  unfold readStage
  split
  · split
    · split
      · simp [Bal, putBy, sentBy, gotBy, takenBy]
      · split <;> simp [Bal, putBy, sentBy, gotBy, takenBy]
    · simp [Bal, putBy, sentBy, gotBy, takenBy]
    · simp [Bal]
    · simp [Bal, putBy, sentBy, gotBy, takenBy, answer]
  · simp [Bal]

theorem bal_handle (e : Event) (s : Sess) : Bal s (handleStage e s).2 (handleStage e s).1 := by
  unfold handleStage
  split <;> simp [Bal, putBy, sentBy, gotBy, takenBy, answer]

theorem bal_send (c : Cfg) (e : Event) (s : Sess) : Bal s (sendStage c e s).2 (sendStage c e s).1 := by
  unfold sendStage
  split
  · split
    · split
      · split <;> simp [Bal, putBy, sentBy, gotBy, takenBy]
      · simp [Bal]
      · simp [Bal, putBy, sentBy, gotBy, takenBy]
    · simp [Bal]
  · simp [Bal]

theorem bal_copy (e : Event) (s : Sess) : Bal s (copyStage e s).2 (copyStage e s).1 := by
  unfold copyStage
  split
  · split
    · simp [Bal]
    · split
      · split <;> simp [Bal, putBy, sentBy, gotBy, takenBy]
      · simp [Bal, putBy, sentBy, gotBy, takenBy]
  · simp [Bal]

theorem bal_under (e : Event) (s : Sess) : Bal s (underStage e s).2 (underStage e s).1 := by
  unfold underStage
  split
  · split <;> simp [Bal, putBy, sentBy, gotBy, takenBy, answer]
  · simp [Bal]

theorem bal_done (s : Sess) : Bal s [] (doneStage s) := by
  unfold doneStage
  split <;> simp [Bal]

theorem bal_event (c : Cfg) (e : Event) (s : Sess) : Bal s (event c e s).2.2 (event c e s).1 := by
  unfold event
  simp only
  split
  · exact bal_connect e s
  · have h := (((((bal_connect e s).trans (bal_read c e _)).trans (bal_handle e _)).trans
      (bal_send c e _)).trans (bal_copy e _)).trans (bal_under e _)
    have h' := h.trans (bal_done _)
    simpa using h'

theorem collect_append (f : Obs → List Nat) (a b : List (Nat × Obs)) :
    collect f (a ++ b) = collect f a ++ collect f b := by
  simp [collect]

theorem collect_map (f : Obs → List Nat) (t : Nat) (l : List Obs) :
    collect f (l.map (fun o => (t, o))) = l.flatMap f := by
  simp [collect, List.flatMap_map]

/-! Which observations a stage makes and what they mean for the state. -/

theorem connect_st (e : Event) (s : Sess) :
    (connectStage e s).1.st = s.st ∨
      ((connectStage e s).1.st = .cleanup ∧ Obs.fault ∈ (connectStage e s).2) := by
  unfold connectStage
  split
  · split <;> simp
  · simp

theorem connect_keeps (e : Event) (s : Sess) :
    (connectStage e s).1.inb = s.inb ∧ (connectStage e s).1.out = s.out ∧
    (connectStage e s).1.file = s.file ∧ (connectStage e s).1.writeOn = s.writeOn ∧
    (connectStage e s).1.removed = s.removed ∧ (connectStage e s).1.deadline = s.deadline ∧
    (connectStage e s).1.readOn = s.readOn := by
  unfold connectStage
  split
  · split <;> simp
  · simp

/-- Why a session can be in the state `CLEANUP` or marked as removed. -/
def Cause (s : Sess) (l : List Obs) (s' : Sess) : Prop :=
  (s'.st = .cleanup ∨ s'.removed = true) → (s.st = .cleanup ∨ s.removed = true) ∨ ∃ o ∈ l, aborts o = true

theorem Cause.trans {s s1 s2 : Sess} {l1 l2 : List Obs} (h1 : Cause s l1 s1) (h2 : Cause s1 l2 s2) :
    Cause s (l1 ++ l2) s2 := by
  intro h
  rcases h2 h with h' | ⟨o, ho, ha⟩
  · rcases h1 h' with h'' | ⟨o, ho, ha⟩
    · exact Or.inl h''
    · exact Or.inr ⟨o, List.mem_append_left _ ho, ha⟩
  · exact Or.inr ⟨o, List.mem_append_right _ ho, ha⟩

theorem cause_same {s s' : Sess} (hs : s'.st = s.st) (hr : s'.removed = s.removed) : Cause s [] s' := by
  intro h; rw [hs, hr] at h; exact Or.inl h

theorem cause_connect (e : Event) (s : Sess) : Cause s (connectStage e s).2 (connectStage e s).1 := by
  unfold connectStage
  split
  · split
    · intro _; exact Or.inr ⟨.fault, List.mem_singleton.mpr rfl, rfl⟩
    · exact cause_same rfl rfl
  · exact cause_same rfl rfl

theorem cause_answer {s : Sess} {r : Reply} (h : (answer s r).st = .cleanup ∨ (answer s r).removed = true) :
    s.removed = true ∨ (r.close || r.st == .cleanup) = true := by
  rcases h with h | h
  · right
    have : r.st = .cleanup := h
    rw [this]; simp
  · have : (s.removed || r.close) = true := h
    rcases Bool.or_eq_true _ _ |>.mp this with h' | h'
    · exact Or.inl h'
    · right; rw [h']; rfl

theorem cause_read (c : Cfg) (e : Event) (s : Sess) : Cause s (readStage c e s).2 (readStage c e s).1 := by
  unfold readStage
  split
  · split
    · split
      · intro _; exact Or.inr ⟨.fault, List.mem_singleton.mpr rfl, rfl⟩
      · split
        · intro h
          rcases h with h | h
          · exact nomatch h
          · exact Or.inl (Or.inr h)
        · intro h; exact Or.inl h
    · intro _; exact Or.inr ⟨.fault, List.mem_singleton.mpr rfl, rfl⟩
    · exact cause_same rfl rfl
    · intro h
      rcases cause_answer (s := { s with st := .quit }) h with h | h
      · exact Or.inl (Or.inr h)
      · exact Or.inr ⟨_, List.mem_singleton.mpr rfl, h⟩
  · exact cause_same rfl rfl

theorem cause_handle (e : Event) (s : Sess) : Cause s (handleStage e s).2 (handleStage e s).1 := by
  unfold handleStage
  split
  · intro h
    rcases cause_answer (s := s) h with h | h
    · exact Or.inl (Or.inr h)
    · exact Or.inr ⟨_, List.mem_singleton.mpr rfl, h⟩
  · exact cause_same rfl rfl

theorem cause_send (c : Cfg) (e : Event) (s : Sess) : Cause s (sendStage c e s).2 (sendStage c e s).1 := by
  unfold sendStage
  split
  · split
    · split
      · split
        · exact cause_same rfl rfl
        · intro h; exact Or.inl h
      · exact cause_same rfl rfl
      · intro _; exact Or.inr ⟨.fault, List.mem_singleton.mpr rfl, rfl⟩
    · exact cause_same rfl rfl
  · exact cause_same rfl rfl

theorem cause_copy (e : Event) (s : Sess) : Cause s (copyStage e s).2 (copyStage e s).1 := by
  unfold copyStage
  split
  · split
    · exact cause_same rfl rfl
    · split
      · split
        · intro _; exact Or.inr ⟨.fault, List.mem_singleton.mpr rfl, rfl⟩
        · intro h; exact Or.inl h
      · intro _; exact Or.inr ⟨.fault, List.mem_singleton.mpr rfl, rfl⟩
  · exact cause_same rfl rfl

theorem cause_under (e : Event) (s : Sess) : Cause s (underStage e s).2 (underStage e s).1 := by
  unfold underStage
  split
  · split
    · exact cause_same rfl rfl
    · intro h
      rcases cause_answer (s := s) h with h | h
      · exact Or.inl (Or.inr h)
      · exact Or.inr ⟨_, List.mem_singleton.mpr rfl, h⟩
  · exact cause_same rfl rfl

/-- The end of an event: `CLEANUP` either was there before or everything has
been handed over. -/
theorem done_cause (s : Sess) (h : (doneStage s).st = .cleanup ∨ (doneStage s).removed = true) :
    (s.st = .cleanup ∨ s.removed = true) ∨ ((doneStage s).out = [] ∧ fileDone (doneStage s) = true) := by
  by_cases hd : s.out = [] ∧ fileDone s = true
  · right
    unfold doneStage
    rw [if_pos hd]
    exact ⟨hd.1, hd.2⟩
  · left
    unfold doneStage at h
    rwa [if_neg hd] at h

/-! Calls and the end of the active phase. -/

/-- In a list of observations no callback is called after the active phase
has ended. -/
def Quiet : List Obs → Prop
  | [] => True
  | o :: l => (ends o = true → ∀ o' ∈ l, isCall o' = false) ∧ Quiet l

/-- A stage that leaves a state other than active alone and reports the end
of the active phase. -/
structure Phase (s : Sess) (l : List Obs) (s' : Sess) : Prop where
  noCall : s.st ≠ .active → ∀ o ∈ l, isCall o = false
  stays : s.st ≠ .active → s'.st ≠ .active
  ended : (∃ o ∈ l, ends o = true) → s'.st ≠ .active
  quiet : Quiet l

theorem quiet_append {a b : List Obs} (ha : Quiet a) (hb : Quiet b)
    (h : (∃ o ∈ a, ends o = true) → ∀ o' ∈ b, isCall o' = false) : Quiet (a ++ b) := by
  induction a with
  | nil => exact hb
  | cons o l ih =>
    refine ⟨fun he o' ho' => ?_, ih ha.2 (fun ⟨x, hx, hxe⟩ => h ⟨x, List.mem_cons_of_mem _ hx, hxe⟩)⟩
    rcases List.mem_append.mp ho' with h' | h'
    · exact ha.1 he o' h'
    · exact h ⟨o, List.mem_cons_self, he⟩ o' h'

theorem Phase.trans {s s1 s2 : Sess} {l1 l2 : List Obs} (h1 : Phase s l1 s1) (h2 : Phase s1 l2 s2) :
    Phase s (l1 ++ l2) s2 where
  noCall hs o ho := by
    rcases List.mem_append.mp ho with h | h
    · exact h1.noCall hs o h
    · exact h2.noCall (h1.stays hs) o h
  stays hs := h2.stays (h1.stays hs)
  ended := by
    rintro ⟨o, ho, he⟩
    rcases List.mem_append.mp ho with h | h
    · exact h2.stays (h1.ended ⟨o, h, he⟩)
    · exact h2.ended ⟨o, h, he⟩
  quiet := quiet_append h1.quiet h2.quiet (fun h => h2.noCall (h1.ended h))

theorem phase_nil {s s' : Sess} (h : s'.st = s.st) : Phase s [] s' where
  noCall _ _ ho := nomatch ho
  stays hs := by rw [h]; exact hs
  ended := by rintro ⟨_, ho, _⟩; exact nomatch ho
  quiet := trivial

theorem phase_one {s s' : Sess} {o : Obs} (h1 : s.st ≠ .active → isCall o = false ∧ s'.st ≠ .active)
    (h2 : ends o = true → s'.st ≠ .active) : Phase s [o] s' where
  noCall hs o' ho := by rw [List.mem_singleton.mp ho]; exact (h1 hs).1
  stays hs := (h1 hs).2
  ended := by
    rintro ⟨o', ho, he⟩
    rw [List.mem_singleton.mp ho] at he
    exact h2 he
  quiet := ⟨(fun _ o' ho => nomatch ho), trivial⟩

theorem phase_connect (e : Event) (s : Sess) : Phase s (connectStage e s).2 (connectStage e s).1 := by
  unfold connectStage
  split
  · split
    · exact phase_one (fun _ => ⟨rfl, (nomatch ·)⟩) (fun _ => (nomatch ·))
    · exact phase_nil rfl
  · exact phase_nil rfl

theorem phase_read (c : Cfg) (e : Event) (s : Sess) : Phase s (readStage c e s).2 (readStage c e s).1 := by
  unfold readStage
  split
  case isTrue hc =>
    have ha : s.st = .active := hc.1
    split
    · split
      · exact phase_one (fun _ => ⟨rfl, (nomatch ·)⟩) (fun _ => (nomatch ·))
      · split
        · exact phase_one (fun _ => ⟨rfl, (nomatch ·)⟩) (fun _ => (nomatch ·))
        · exact phase_one (fun h => absurd ha h) (fun h => nomatch h)
    · exact phase_one (fun _ => ⟨rfl, (nomatch ·)⟩) (fun _ => (nomatch ·))
    · exact phase_nil rfl
    · refine phase_one (fun h => absurd ha h) (fun h => ?_)
      have h' : (e.eofReply.st != .active) = true := h
      simpa [answer] using h'
  · exact phase_nil rfl

theorem phase_handle (e : Event) (s : Sess) : Phase s (handleStage e s).2 (handleStage e s).1 := by
  unfold handleStage
  split
  case isTrue hc =>
    refine phase_one (fun h => absurd hc.1 h) (fun h => ?_)
    have h' : (e.reply.st != .active) = true := h
    simpa [answer] using h'
  · exact phase_nil rfl

theorem phase_send (c : Cfg) (e : Event) (s : Sess) : Phase s (sendStage c e s).2 (sendStage c e s).1 := by
  unfold sendStage
  split
  · split
    · split
      · split
        · exact phase_nil rfl
        · exact phase_one (fun h => ⟨rfl, h⟩) (fun h => nomatch h)
      · exact phase_nil rfl
      · exact phase_one (fun _ => ⟨rfl, (nomatch ·)⟩) (fun _ => (nomatch ·))
    · exact phase_nil rfl
  · exact phase_nil rfl

theorem phase_copy (e : Event) (s : Sess) : Phase s (copyStage e s).2 (copyStage e s).1 := by
  unfold copyStage
  split
  · split
    · exact phase_nil rfl
    · split
      · split
        · exact phase_one (fun _ => ⟨rfl, (nomatch ·)⟩) (fun _ => (nomatch ·))
        · exact phase_one (fun h => ⟨rfl, h⟩) (fun h => nomatch h)
      · exact phase_one (fun _ => ⟨rfl, (nomatch ·)⟩) (fun _ => (nomatch ·))
  · exact phase_nil rfl

theorem phase_under (e : Event) (s : Sess) : Phase s (underStage e s).2 (underStage e s).1 := by
  unfold underStage
  split
  case isTrue hc =>
    split
    · exact phase_nil rfl
    · rename_i r _
      refine phase_one (fun h => absurd hc.1 h) (fun h => ?_)
      have h' : (r.st != .active) = true := h
      simpa [answer] using h'
  · exact phase_nil rfl

theorem done_active {s : Sess} (h : s.st ≠ .active) : (doneStage s).st ≠ .active := by
  unfold doneStage
  split
  · show (if s.st = .quit then St.cleanup else s.st) ≠ .active
    split
    · exact (nomatch ·)
    · exact h
  · exact h

theorem phase_done (s : Sess) : Phase s [] (doneStage s) where
  noCall _ _ ho := nomatch ho
  stays hs := done_active hs
  ended := by rintro ⟨_, ho, _⟩; exact nomatch ho
  quiet := trivial

theorem phase_event (c : Cfg) (e : Event) (s : Sess) : Phase s (event c e s).2.2 (event c e s).1 := by
  unfold event
  simp only
  split
  · exact phase_connect e s
  · have h := (((((phase_connect e s).trans (phase_read c e _)).trans (phase_handle e _)).trans
      (phase_send c e _)).trans (phase_copy e _)).trans (phase_under e _)
    have h' := h.trans (phase_done _)
    simpa using h'

/-! The size of the input a callback sees. -/

/-- The input buffer of an active session is within the limit, and so is the
input every callback saw. -/
structure Small (c : Cfg) (s : Sess) (l : List Obs) (s' : Sess) : Prop where
  calls : (s.st = .active → s.inb.length ≤ c.maxIn) →
    ∀ seen r, Obs.call seen r ∈ l ∨ Obs.under seen r ∈ l → seen.length ≤ c.maxIn
  keeps : (s.st = .active → s.inb.length ≤ c.maxIn) → s'.st = .active → s'.inb.length ≤ c.maxIn

theorem Small.trans {c : Cfg} {s s1 s2 : Sess} {l1 l2 : List Obs} (h1 : Small c s l1 s1)
    (h2 : Small c s1 l2 s2) : Small c s (l1 ++ l2) s2 where
  calls hs seen r ho := by
    rcases ho with ho | ho
    · rcases List.mem_append.mp ho with h | h
      · exact h1.calls hs seen r (Or.inl h)
      · exact h2.calls (h1.keeps hs) seen r (Or.inl h)
    · rcases List.mem_append.mp ho with h | h
      · exact h1.calls hs seen r (Or.inr h)
      · exact h2.calls (h1.keeps hs) seen r (Or.inr h)
  keeps hs := h2.keeps (h1.keeps hs)

theorem small_plain {c : Cfg} {s s' : Sess} {l : List Obs} (hl : ∀ o ∈ l, isCall o = false)
    (h : s'.st = .active → s.st = .active ∧ s'.inb = s.inb) : Small c s l s' where
  calls _ seen r ho := by
    rcases ho with ho | ho
    · exact nomatch hl _ ho
    · exact nomatch hl _ ho
  keeps hs ha := by rw [(h ha).2]; exact hs (h ha).1

theorem small_connect (c : Cfg) (e : Event) (s : Sess) :
    Small c s (connectStage e s).2 (connectStage e s).1 := by
  unfold connectStage
  split
  · split
    · exact small_plain (fun o ho => by rw [List.mem_singleton.mp ho]; rfl) (fun h => nomatch h)
    · exact small_plain (fun o ho => nomatch ho) (fun h => ⟨h, rfl⟩)
  · exact small_plain (fun o ho => nomatch ho) (fun h => ⟨h, rfl⟩)

theorem small_answer {c : Cfg} {s s' : Sess} {r : Reply} {o : Obs}
    (ho : o = .call s.inb r ∨ o = .under s.inb r) (ha : s.st = .active)
    (hi : s'.inb = s.inb.drop r.take) : Small c s [o] s' where
  calls hs seen r' h := by
    have : seen = s.inb := by
      rcases h with h | h <;> rw [List.mem_singleton] at h <;> rcases ho with ho | ho <;> rw [ho] at h
      · injection h
      · exact nomatch h
      · exact nomatch h
      · injection h
    rw [this]; exact hs ha
  keeps hs _ := by
    rw [hi, List.length_drop]
    have := hs ha
    omega

theorem small_read (c : Cfg) (e : Event) (s : Sess) : Small c s (readStage c e s).2 (readStage c e s).1 := by
  unfold readStage
  split
  case isTrue hc =>
    split
    · split
      · exact small_plain (fun o ho => by rw [List.mem_singleton.mp ho]; rfl) (fun h => nomatch h)
      · split
        · exact small_plain (fun o ho => by rw [List.mem_singleton.mp ho]; rfl) (fun h => nomatch h)
        · rename_i hl
          refine ⟨fun _ seen r ho => ?_, fun _ _ => Nat.le_of_not_lt hl⟩
          rcases ho with ho | ho <;> rw [List.mem_singleton] at ho <;> exact (nomatch ho)
    · exact small_plain (fun o ho => by rw [List.mem_singleton.mp ho]; rfl) (fun h => nomatch h)
    · exact small_plain (fun o ho => nomatch ho) (fun h => ⟨h, rfl⟩)
    · exact small_answer (Or.inl rfl) hc.1 rfl
  · exact small_plain (fun o ho => nomatch ho) (fun h => ⟨h, rfl⟩)

theorem small_handle (c : Cfg) (e : Event) (s : Sess) :
    Small c s (handleStage e s).2 (handleStage e s).1 := by
  unfold handleStage
  split
  case isTrue hc => exact small_answer (Or.inl rfl) hc.1 rfl
  · exact small_plain (fun o ho => nomatch ho) (fun h => ⟨h, rfl⟩)

theorem small_send (c : Cfg) (e : Event) (s : Sess) : Small c s (sendStage c e s).2 (sendStage c e s).1 := by
  unfold sendStage
  split
  · split
    · split
      · split
        · exact small_plain (fun o ho => nomatch ho) (fun h => ⟨h, rfl⟩)
        · exact small_plain (fun o ho => by rw [List.mem_singleton.mp ho]; rfl) (fun h => ⟨h, rfl⟩)
      · exact small_plain (fun o ho => nomatch ho) (fun h => ⟨h, rfl⟩)
      · exact small_plain (fun o ho => by rw [List.mem_singleton.mp ho]; rfl) (fun h => nomatch h)
    · exact small_plain (fun o ho => nomatch ho) (fun h => ⟨h, rfl⟩)
  · exact small_plain (fun o ho => nomatch ho) (fun h => ⟨h, rfl⟩)

theorem small_copy (c : Cfg) (e : Event) (s : Sess) : Small c s (copyStage e s).2 (copyStage e s).1 := by
  unfold copyStage
  split
  · split
    · exact small_plain (fun o ho => nomatch ho) (fun h => ⟨h, rfl⟩)
    · split
      · split
        · exact small_plain (fun o ho => by rw [List.mem_singleton.mp ho]; rfl) (fun h => nomatch h)
        · exact small_plain (fun o ho => by rw [List.mem_singleton.mp ho]; rfl) (fun h => ⟨h, rfl⟩)
      · exact small_plain (fun o ho => by rw [List.mem_singleton.mp ho]; rfl) (fun h => nomatch h)
  · exact small_plain (fun o ho => nomatch ho) (fun h => ⟨h, rfl⟩)

theorem small_under (c : Cfg) (e : Event) (s : Sess) : Small c s (underStage e s).2 (underStage e s).1 := by
  unfold underStage
  split
  case isTrue hc =>
    split
    · exact small_plain (fun o ho => nomatch ho) (fun h => ⟨h, rfl⟩)
    · exact small_answer (Or.inr rfl) hc.1 rfl
  · exact small_plain (fun o ho => nomatch ho) (fun h => ⟨h, rfl⟩)

theorem small_done (c : Cfg) (s : Sess) : Small c s [] (doneStage s) := by
  refine small_plain (fun o ho => nomatch ho) (fun h => ?_)
  refine ⟨Decidable.byContradiction (fun hn => done_active hn h), ?_⟩
  unfold doneStage
  split <;> rfl

theorem small_event (c : Cfg) (e : Event) (s : Sess) : Small c s (event c e s).2.2 (event c e s).1 := by
  unfold event
  simp only
  split
  · exact small_connect c e s
  · have h := (((((small_connect c e s).trans (small_read c e _)).trans (small_handle c e _)).trans
      (small_send c e _)).trans (small_copy c e _)).trans (small_under c e _)
    have h' := h.trans (small_done c _)
    simpa using h'

/-! The timeout. -/

/-- Does this observation move bytes through a buffer? -/
def moves : Obs → Bool
  | .got _ => true
  | .sent _ => true
  | _ => false

/-- The deadline was moved iff bytes were. -/
def Fresh (c : Cfg) (now : Nat) (s : Sess) (l : List Obs) (s' : Sess) : Prop :=
  ((∃ o ∈ l, moves o = true) → s'.deadline = refresh c now) ∧
  ((∀ o ∈ l, moves o = false) → s'.deadline = s.deadline)

theorem Fresh.trans {c : Cfg} {now : Nat} {s s1 s2 : Sess} {l1 l2 : List Obs} (h1 : Fresh c now s l1 s1)
    (h2 : Fresh c now s1 l2 s2) : Fresh c now s (l1 ++ l2) s2 := by
  constructor
  · rintro ⟨o, ho, hm⟩
    by_cases h : ∃ o ∈ l2, moves o = true
    · exact h2.1 h
    · have hn : ∀ o ∈ l2, moves o = false := by
        intro x hx
        cases hmx : moves x
        · rfl
        · exact absurd ⟨x, hx, hmx⟩ h
      rw [h2.2 hn]
      rcases List.mem_append.mp ho with h' | h'
      · exact h1.1 ⟨o, h', hm⟩
      · exact absurd ⟨o, h', hm⟩ h
  · intro h
    rw [h2.2 (fun o ho => h o (List.mem_append_right _ ho)), h1.2 (fun o ho => h o (List.mem_append_left _ ho))]

theorem fresh_still {c : Cfg} {now : Nat} {s s' : Sess} {l : List Obs} (hl : ∀ o ∈ l, moves o = false)
    (h : s'.deadline = s.deadline) : Fresh c now s l s' :=
  ⟨fun ⟨o, ho, hm⟩ => by (rw [hl o ho] at hm; cases hm), fun _ => h⟩

theorem fresh_moved {c : Cfg} {now : Nat} {s s' : Sess} {o : Obs} (hm : moves o = true)
    (h : s'.deadline = refresh c now) : Fresh c now s [o] s' :=
  ⟨fun _ => h, fun hn => by rw [hn o List.mem_cons_self] at hm; exact nomatch hm⟩

theorem fresh_connect (c : Cfg) (e : Event) (s : Sess) :
    Fresh c e.now s (connectStage e s).2 (connectStage e s).1 := by
  unfold connectStage
  split
  · split
    · exact fresh_still (fun o ho => by rw [List.mem_singleton.mp ho]; rfl) rfl
    · exact fresh_still (fun o ho => nomatch ho) rfl
  · exact fresh_still (fun o ho => nomatch ho) rfl

theorem fresh_read (c : Cfg) (e : Event) (s : Sess) :
    Fresh c e.now s (readStage c e s).2 (readStage c e s).1 := by
  unfold readStage
  split
  · split
    · split
      · exact fresh_still (fun o ho => by rw [List.mem_singleton.mp ho]; rfl) rfl
      · split
        · exact fresh_still (fun o ho => by rw [List.mem_singleton.mp ho]; rfl) rfl
        · exact fresh_moved rfl rfl
    · exact fresh_still (fun o ho => by rw [List.mem_singleton.mp ho]; rfl) rfl
    · exact fresh_still (fun o ho => nomatch ho) rfl
    · exact fresh_still (fun o ho => by rw [List.mem_singleton.mp ho]; rfl) rfl
  · exact fresh_still (fun o ho => nomatch ho) rfl

theorem fresh_handle (c : Cfg) (e : Event) (s : Sess) :
    Fresh c e.now s (handleStage e s).2 (handleStage e s).1 := by
  unfold handleStage
  split
  · exact fresh_still (fun o ho => by rw [List.mem_singleton.mp ho]; rfl) rfl
  · exact fresh_still (fun o ho => nomatch ho) rfl

theorem fresh_send (c : Cfg) (e : Event) (s : Sess) :
    Fresh c e.now s (sendStage c e s).2 (sendStage c e s).1 := by
  unfold sendStage
  split
  · split
    · split
      · split
        · exact fresh_still (fun o ho => nomatch ho) rfl
        · exact fresh_moved rfl rfl
      · exact fresh_still (fun o ho => nomatch ho) rfl
      · exact fresh_still (fun o ho => by rw [List.mem_singleton.mp ho]; rfl) rfl
    · exact fresh_still (fun o ho => nomatch ho) rfl
  · exact fresh_still (fun o ho => nomatch ho) rfl

theorem fresh_copy (c : Cfg) (e : Event) (s : Sess) :
    Fresh c e.now s (copyStage e s).2 (copyStage e s).1 := by
  unfold copyStage
  split
  · split
    · exact fresh_still (fun o ho => nomatch ho) rfl
    · split
      · split
        · exact fresh_still (fun o ho => by rw [List.mem_singleton.mp ho]; rfl) rfl
        · exact fresh_still (fun o ho => by rw [List.mem_singleton.mp ho]; rfl) rfl
      · exact fresh_still (fun o ho => by rw [List.mem_singleton.mp ho]; rfl) rfl
  · exact fresh_still (fun o ho => nomatch ho) rfl

theorem fresh_under (c : Cfg) (e : Event) (s : Sess) :
    Fresh c e.now s (underStage e s).2 (underStage e s).1 := by
  unfold underStage
  split
  · split
    · exact fresh_still (fun o ho => nomatch ho) rfl
    · exact fresh_still (fun o ho => by rw [List.mem_singleton.mp ho]; rfl) rfl
  · exact fresh_still (fun o ho => nomatch ho) rfl

theorem fresh_done (c : Cfg) (now : Nat) (s : Sess) : Fresh c now s [] (doneStage s) := by
  refine fresh_still (fun o ho => nomatch ho) ?_
  unfold doneStage
  split <;> rfl

theorem fresh_event (c : Cfg) (e : Event) (s : Sess) : Fresh c e.now s (event c e s).2.2 (event c e s).1 := by
  unfold event
  simp only
  split
  · exact fresh_connect c e s
  · have h := (((((fresh_connect c e s).trans (fresh_read c e _)).trans (fresh_handle c e _)).trans
      (fresh_send c e _)).trans (fresh_copy c e _)).trans (fresh_under c e _)
    have h' := h.trans (fresh_done c _ _)
    simpa using h'

theorem lastByte_append (t0 : Nat) (a b : List (Nat × Obs)) :
    lastByte t0 (a ++ b) = lastByte (lastByte t0 a) b := by
  induction a generalizing t0 with
  | nil => rfl
  | cons x a ih =>
    obtain ⟨t, o⟩ := x
    cases o <;> simp only [List.cons_append, lastByte] <;> exact ih _

theorem lastByte_still (t0 t : Nat) (l : List Obs) (h : ∀ o ∈ l, moves o = false) :
    lastByte t0 (l.map (fun o => (t, o))) = t0 := by
  induction l with
  | nil => rfl
  | cons o l ih =>
    have ho := h o List.mem_cons_self
    have hl := ih (fun x hx => h x (List.mem_cons_of_mem _ hx))
    cases o <;> first | exact hl | cases ho

theorem lastByte_moved (t0 t : Nat) (l : List Obs) (h : ∃ o ∈ l, moves o = true) :
    lastByte t0 (l.map (fun o => (t, o))) = t := by
  induction l generalizing t0 with
  | nil => obtain ⟨o, ho, _⟩ := h; exact nomatch ho
  | cons o l ih =>
    by_cases hl : ∃ o ∈ l, moves o = true
    · cases o <;> exact ih _ hl
    · have hn : ∀ x ∈ l, moves x = false := by
        intro x hx
        cases hm : moves x
        · rfl
        · exact absurd ⟨x, hx, hm⟩ hl
      obtain ⟨x, hx, hm⟩ := h
      have : x = o := by
        rcases List.mem_cons.mp hx with rfl | hx'
        · rfl
        · rw [hn x hx'] at hm; exact nomatch hm
      subst this
      cases x <;> first | exact lastByte_still _ _ _ hn | cases hm

/-! Waiting for the chance to write. -/

/-- Something is left to send and the scheduler waits for the chance. -/
def Armed (s : Sess) : Prop := (s.out ≠ [] ∨ fileDone s = false) → s.writeOn = true

theorem armed_done {s : Sess} (h : Armed s) : Armed (doneStage s) := by
  unfold doneStage
  split
  case isTrue hd =>
    intro h'
    rcases h' with h' | h'
    · exact absurd hd.1 h'
    · have : fileDone s = false := h'
      rw [hd.2] at this; exact nomatch this
  · exact h

theorem writeOn_stages (c : Cfg) (e : Event) (s : Sess) (h : s.writeOn = true) :
    (readStage c e s).1.writeOn = true ∧ (handleStage e s).1.writeOn = true ∧
    (sendStage c e s).1.writeOn = true ∧ (copyStage e s).1.writeOn = true ∧
    (underStage e s).1.writeOn = true := by
  refine ⟨?_, ?_, ?_, ?_, ?_⟩
  · unfold readStage
    split
    · split
      · split
        · exact h
        · split <;> exact h
      · exact h
      · exact h
      · exact h
    · exact h
  · unfold handleStage; split <;> exact h
  · unfold sendStage
    split
    · split
      · split
        · split <;> exact h
        · exact h
        · exact h
      · rfl
    · exact h
  · unfold copyStage
    split
    · split
      · exact h
      · split
        · split <;> exact h
        · exact h
    · exact h
  · unfold underStage
    split
    · split <;> exact h
    · exact h

/-- Before the output is sent: armed, or there is output. -/
def Ready (s : Sess) : Prop := Armed s ∨ s.out ≠ []

theorem ready_read (c : Cfg) (e : Event) (s : Sess) (h : Ready s)
    (hf : ∀ n, e.eofReply.file = some n → e.eofReply.put ≠ []) : Ready (readStage c e s).1 := by
  unfold readStage
  split
  · split
    · split
      · exact h
      · split
        · by_cases he : e.errText = []
          · rcases h with h | h
            · left
              intro h'
              rw [show (({ s with inb := s.inb ++ _, out := s.out ++ e.errText, st := .quit } : Sess).out) =
                s.out from by simp [he]] at h'
              exact h h'
            · right
              intro h'
              exact h (List.append_eq_nil_iff.mp h').1
          · right
            intro h'
            exact he (List.append_eq_nil_iff.mp h').2
        · exact h
    · exact h
    · exact h
    · by_cases hp : e.eofReply.put = []
      · have hfn : e.eofReply.file = none := by
          cases hx : e.eofReply.file with
          | none => rfl
          | some n => exact absurd hp (hf n hx)
        rcases h with h | h
        · left
          intro h'
          have ho : (answer { s with st := .quit } e.eofReply).out = s.out := by simp [answer, hp]
          have hfile : (answer { s with st := .quit } e.eofReply).file = s.file := by simp [answer, hfn]
          rcases h' with h' | h'
          · exact h (Or.inl (by intro hx; exact h' (ho.trans hx)))
          · refine h (Or.inr ?_)
            have h'' : fileDone (answer { s with st := .quit } e.eofReply) = false := h'
            unfold fileDone at h'' ⊢
            rw [hfile] at h''
            exact h''
        · right
          intro h'
          exact h (List.append_eq_nil_iff.mp h').1
      · right
        intro h'
        exact hp (List.append_eq_nil_iff.mp h').2
  · exact h

theorem ready_handle (e : Event) (s : Sess) (h : Ready s)
    (hf : ∀ n, e.reply.file = some n → e.reply.put ≠ []) : Ready (handleStage e s).1 := by
  unfold handleStage
  split
  · by_cases hp : e.reply.put = []
    · have hfn : e.reply.file = none := by
        cases hx : e.reply.file with
        | none => rfl
        | some n => exact absurd hp (hf n hx)
      rcases h with h | h
      · left
        intro h'
        have ho : (answer s e.reply).out = s.out := by simp [answer, hp]
        have hfile : (answer s e.reply).file = s.file := by simp [answer, hfn]
        rcases h' with h' | h'
        · exact h (Or.inl (by intro hx; exact h' (ho.trans hx)))
        · refine h (Or.inr ?_)
          have h'' : fileDone (answer s e.reply) = false := h'
          unfold fileDone at h'' ⊢
          rw [hfile] at h''
          exact h''
      · right
        intro h'
        exact h (List.append_eq_nil_iff.mp h').1
    · right
      intro h'
      exact hp (List.append_eq_nil_iff.mp h').2
  · exact h

theorem armed_send {c : Cfg} {e : Event} {s : Sess} (h : Ready s) (hw : e.isWrite = false) :
    Armed (sendStage c e s).1 ∨ (sendStage c e s).1.st = .cleanup := by
  unfold sendStage
  split
  · rw [hw]
    left
    intro _
    rfl
  · rename_i hc
    rcases h with h | h
    · exact Or.inl h
    · right
      exact Decidable.byContradiction (fun hn => hc ⟨hn, h⟩)

theorem armed_event (c : Cfg) (e : Event) (s : Sess) (h : Armed s) (hw : e.isWrite = true → s.writeOn = true)
    (hu : e.under = none) (h1 : ∀ n, e.eofReply.file = some n → e.eofReply.put ≠ [])
    (h2 : ∀ n, e.reply.file = some n → e.reply.put ≠ []) (hc : (event c e s).2.1 = false) :
    Armed (event c e s).1 := by
  have hk := connect_keeps e s
  have h0 : Armed (connectStage e s).1 := by
    intro h'
    rw [hk.2.2.2.1]
    apply h
    rcases h' with h' | h'
    · left; rw [← hk.2.1]; exact h'
    · right
      unfold fileDone at h' ⊢
      rw [hk.2.2.1] at h'
      exact h'
  unfold event at hc ⊢
  simp only at hc ⊢
  split
  · exact h0
  · rename_i hwt
    rw [if_neg hwt] at hc
    simp only at hc ⊢
    cases hb : e.isWrite with
    | true =>
      have w0 : (connectStage e s).1.writeOn = true := by rw [hk.2.2.2.1]; exact hw hb
      have w1 := (writeOn_stages c e _ w0).1
      have w2 := (writeOn_stages c e _ w1).2.1
      have w3 := (writeOn_stages c e _ w2).2.2.1
      have w4 := (writeOn_stages c e _ w3).2.2.2.1
      have w5 := (writeOn_stages c e _ w4).2.2.2.2
      exact armed_done (fun _ => w5)
    | false =>
      have r1 := ready_read c e _ (Or.inl h0) h1
      have r2 := ready_handle e _ r1 h2
      have hcp : ∀ x : Sess, copyStage e x = (x, []) := by
        intro x
        unfold copyStage
        rw [if_neg (by rw [hb]; intro hx; exact nomatch hx.2.2)]
      have hun : ∀ x : Sess, underStage e x = (x, []) := by
        intro x
        unfold underStage
        split
        · rw [hu]
        · rfl
      rw [hcp, hun] at hc ⊢
      rcases armed_send (c := c) r2 hb with h3 | h3
      · exact armed_done h3
      · exfalso
        have hd : (doneStage (sendStage c e (handleStage e (readStage c e (connectStage e s).1).1).1).1).st =
            .cleanup := by
          unfold doneStage
          split
          · show (if _ = St.quit then St.cleanup else _) = _
            rw [h3]; rfl
          · exact h3
        have := of_decide_eq_false hc
        exact this (Or.inl hd)

end Verif.Stream
