import Verif.Telnet.Lemmas
/-
Invariants of telnet sessions: order of continuous commands, access lists, output.
-/
namespace Verif.Telnet
open Spec

/-! ### Access -/

theorem permitted_some {cmds r n c} (h : permitted cmds r n = some c) :
    lookup cmds n = some c ∧ c ∈ cmds ∧ accepted r c = true := by
  unfold permitted at h
  split at h
  · rename_i x hx
    split at h
    · cases h
      exact ⟨hx, List.mem_of_find?_eq_some hx, by assumption⟩
    · cases h
  · cases h

theorem accepted_iff (r : Nat) (c : Cmd) : accepted r c = true ↔ ∀ f, c.acl = some f → f r = true := by
  unfold accepted
  split
  · rename_i h; simp [h]
  · rename_i f h; simp [h]

theorem permitted_allowed {e : Env} {r n c} (h : permitted e.cmds r n = some c) : Allowed e r c.name :=
  ⟨c, (permitted_some h).2.1, rfl, (accepted_iff _ _).mp (permitted_some h).2.2⟩

/-- Only what the client may use is called or shown. -/
def AclInv (e : Env) (r : Nat) (d : Data) : Prop :=
  d.remote = r ∧ (∀ n, .ran n ∈ d.log → Allowed e r n) ∧
  (∀ n, .helpFor n ∈ d.out ∨ .listed n ∈ d.out → Allowed e r n)

theorem callStop_out (d : Data) : (callStop d).out = d.out ∧ (callStop d).remote = d.remote ∧
    (callStop d).echo = d.echo ∧ (callStop d).timeout = d.timeout := by
  unfold callStop
  split <;> simp

theorem callStop_ran (d : Data) (n) : .ran n ∈ (callStop d).log → .ran n ∈ d.log := by
  unfold callStop
  split <;> simp

theorem AclInv.stop {e r d} (h : AclInv e r d) : AclInv e r (callStop d) := by
  have hc := callStop_out d
  exact ⟨by rw [hc.2.1]; exact h.1, fun n hn => h.2.1 n (callStop_ran d n hn), by rw [hc.1]; exact h.2.2⟩

theorem AclInv.out {e r} {d : Data} (h : AclInv e r d) (o : List Out)
    (ho : ∀ n, .helpFor n ∈ o ∨ .listed n ∈ o → Allowed e r n) : AclInv e r { d with out := d.out ++ o } := by
  refine ⟨h.1, h.2.1, fun n hn => ?_⟩
  simp only [List.mem_append] at hn
  rcases hn with (hn | hn) | (hn | hn)
  · exact h.2.2 n (Or.inl hn)
  · exact ho n (Or.inl hn)
  · exact h.2.2 n (Or.inr hn)
  · exact ho n (Or.inr hn)

theorem AclInv.ran {e r} {d : Data} {c : Cmd} (h : AclInv e r d) (hc : Allowed e r c.name) :
    AclInv e r { d with log := d.log ++ [.ran c.name] } := by
  refine ⟨h.1, fun n hn => ?_, h.2.2⟩
  simp only [List.mem_append, List.mem_singleton] at hn
  rcases hn with hn | hn
  · exact h.2.1 n hn
  · cases hn; exact hc

theorem AclInv.help {e r d} (h : AclInv e r d) (p) : AclInv e r (help e d p) := by
  unfold Telnet.help
  split
  · split
    · exact h.out _ (by intro n hn; simp at hn)
    · rename_i c hc
      refine h.out _ ?_
      intro n hn
      simp at hn
      subst hn
      rw [h.1] at hc
      exact permitted_allowed hc
  · rw [List.append_assoc, List.append_assoc]
    refine h.out _ ?_
    intro n hn
    simp at hn
    obtain ⟨c, hc, rfl⟩ := hn
    rw [h.1] at hc
    exact ⟨c, hc.1, rfl, (accepted_iff _ _).mp hc.2⟩

theorem AclInv.external {e r d} (h : AclInv e r d) (g) : AclInv e r (external e d g).1 := by
  unfold Telnet.external
  split
  · exact h.out _ (by intro n hn; simp at hn)
  · simp only
    have h1 := h.out (((e.world d.next).out).map .bytes) (by intro n hn; simp at hn)
    split
    · refine ⟨h1.1, fun n hn => ?_, h1.2.2⟩
      simp at hn
      exact h.2.1 n hn
    · exact h1

theorem AclInv.perform {e r d} (h : AclInv e r d) (a p) : AclInv e r (perform e d a p).1 := by
  cases a <;> simp only [Telnet.perform]
  · exact h
  · exact h.help p
  · exact h.out _ (by intro n hn; simp at hn)
  · exact h
  · exact h.out _ (by intro n hn; simp at hn)
  · exact h.external _

theorem AclInv.handleSimple {e r d} (h : AclInv e r d) (c p) : AclInv e r (handleSimple e d c p).1 := by
  unfold Telnet.handleSimple
  split
  · exact h
  · rename_i x hx
    rw [h.1] at hx
    exact (h.ran (permitted_allowed hx)).perform _ _

theorem AclInv.doRepeat {e r d} (h : AclInv e r d) (p) : AclInv e r (doRepeat e d p).1 := by
  unfold Telnet.doRepeat
  split
  · exact h.out _ (by intro n hn; simp at hn)
  · split
    · exact h.out _ (by intro n hn; simp at hn)
    · rename_i rest _
      split
      · exact h.out _ (by intro n hn; simp at hn)
      · simp only
        have h1 : ∀ t s k, AclInv e r { d with timer := t, stop := s, next := k, log := d.log ++ [.began d.next] } := by
          intro t s k
          refine ⟨h.1, fun n hn => ?_, h.2.2⟩
          simp at hn
          exact h.2.1 n hn
        split
        · exact (h1 _ _ _).handleSimple _ _
        · exact ((h1 _ _ _).handleSimple _ _).stop

theorem AclInv.handle {e r d} (h : AclInv e r d) (c p) : AclInv e r (handle e d c p).1 := by
  unfold Telnet.handle
  split
  · exact h
  · rename_i x hx
    rw [h.1] at hx
    have h1 := h.ran (permitted_allowed hx)
    split
    · exact h1.doRepeat _
    · exact h1.perform _ _

theorem AclInv.take {e r} {d : Data} (h : AclInv e r d) (len : Nat) (o : Out)
    (ho : ∀ n, o ≠ .helpFor n ∧ o ≠ .listed n) : AclInv e r { d with out := d.out.take len ++ [o] } := by
  refine ⟨h.1, h.2.1, fun n hn => ?_⟩
  simp only [List.mem_append, List.mem_singleton] at hn
  rcases hn with (hn | hn) | (hn | hn)
  · exact h.2.2 n (Or.inl (List.mem_of_mem_take hn))
  · exact absurd hn.symm (ho n).1
  · exact h.2.2 n (Or.inr (List.mem_of_mem_take hn))
  · exact absurd hn.symm (ho n).2

theorem AclInv.report {e r d} (h : AclInv e r d) (ch len c x) : AclInv e r (report ch len c d x) := by
  unfold Telnet.report
  have nl : ∀ d', AclInv e r d' → AclInv e r (if (!ch && d'.echo) = true then { d' with out := d'.out ++ [.nl] } else d') := by
    intro d' h'
    split
    · exact h'.out _ (by intro n hn; simp at hn)
    · exact h'
  cases x <;> simp only
  · exact nl _ h
  · exact nl { d with echo := false } ⟨h.1, h.2.1, h.2.2⟩
  · exact nl _ (h.take _ _ (by simp))
  · exact nl _ (h.take _ _ (by simp))
  · exact nl _ (h.take _ _ (by simp))

theorem acl_lift (e : Env) (r : Nat) : Lift e (AclInv e r) where
  stop _ h := h.stop
  req d c p h _ := by
    refine ⟨h.1, fun n hn => ?_, h.2.2⟩
    simp at hn
    exact h.2.1 n hn
  handle _ c p h := h.handle c p
  report ch len c _ x h := h.report ch len c x
  prompt _ h := h.out _ (by intro n hn; simp at hn)
  echo _ _ h := ⟨h.1, h.2.1, h.2.2⟩

/-! ### Continuous commands -/

/-- Number of the command a stop handler belongs to. -/
def Stop.num : Stop → Nat
  | .rep k => k
  | .ext k => k

/-- Order of continuous commands. -/
def OneInv (d : Data) : Prop :=
  Proper d.log (d.stop.map Stop.num) ∧ (∀ k, .began k ∈ d.log → k < d.next) ∧
  (d.timer.isSome ↔ ∃ k, d.stop = some (.rep k))

theorem OneInv.stop {d} (h : OneInv d) : OneInv (callStop d) := by
  unfold callStop
  obtain ⟨h1, h2, h3⟩ := h
  split
  · exact ⟨h1, h2, h3⟩
  · rename_i k hk
    rw [hk] at h1
    exact ⟨.ended h1, by simpa using h2, by simp⟩
  · rename_i k hk
    rw [hk] at h1
    refine ⟨.ended h1, by simpa using h2, ?_⟩
    rw [h3, hk]
    simp

theorem OneInv.keep {d d' : Data} (h : OneInv d) (hs : d'.stop = d.stop) (ht : d'.timer = d.timer)
    (hn : d'.next = d.next) (hl : d'.log = d.log) : OneInv d' := by
  unfold OneInv
  rw [hs, ht, hn, hl]
  exact h

theorem OneInv.ran {d : Data} (h : OneInv d) (n : Bytes) : OneInv { d with log := d.log ++ [.ran n] } :=
  ⟨.ran h.1, by simpa using h.2.1, h.2.2⟩

theorem OneInv.external {e d g} (h : OneInv d) (hg : g = true) : OneInv (external e d g).1 := by
  subst hg
  unfold Telnet.external
  split
  · exact h.keep rfl rfl rfl rfl
  · rename_i hs
    simp only [true_and, ne_eq, Decidable.not_not] at hs
    obtain ⟨h1, h2, h3⟩ := h
    rw [hs] at h1 h3
    simp only
    split
    · refine ⟨.began h1 (fun hm => absurd (h2 _ hm) (Nat.lt_irrefl _)), ?_, ?_⟩
      · intro k hk
        simp only [List.mem_append, List.mem_singleton] at hk
        rcases hk with hk | hk
        · have := h2 k hk
          simp only
          omega
        · cases hk
          simp
      · simp [h3]
    · refine ⟨by rw [hs]; exact h1, fun k hk => ?_, by rw [hs]; exact h3⟩
      have := h2 k hk
      simp only
      omega

theorem OneInv.perform {e d a p} (h : OneInv d) (hg : a ≠ .ext false) : OneInv (perform e d a p).1 := by
  cases a with
  | ext g =>
    simp only [Telnet.perform]
    apply h.external
    cases g
    · exact absurd rfl hg
    · rfl
  | help =>
    simp only [Telnet.perform, Telnet.help]
    split
    · split <;> exact h.keep rfl rfl rfl rfl
    · exact h.keep rfl rfl rfl rfl
  | _ => exact h.keep rfl rfl rfl rfl

theorem OneInv.handleSimple {e d c p} (h : OneInv d) (hg : Guarded e) : OneInv (handleSimple e d c p).1 := by
  unfold Telnet.handleSimple
  split
  · exact h
  · rename_i x hx
    exact (h.ran x.name).perform (hg x (permitted_some hx).2.1)

theorem OneInv.doRepeat {e d p} (h : OneInv d) (hg : Guarded e) (hs : d.stop = none) :
    OneInv (doRepeat e d p).1 := by
  unfold Telnet.doRepeat
  split
  · exact h.keep rfl rfl rfl rfl
  · split
    · exact h.keep rfl rfl rfl rfl
    · split
      · exact h.keep rfl rfl rfl rfl
      · simp only
        obtain ⟨h1, h2, h3⟩ := h
        rw [hs] at h1
        have hd : ∀ t, OneInv { d with timer := some t, stop := some (.rep d.next), next := d.next + 1, log := d.log ++ [.began d.next] } := by
          intro t
          refine ⟨.began h1 (fun hm => absurd (h2 _ hm) (Nat.lt_irrefl _)), ?_, by simp⟩
          intro k hk
          simp only [List.mem_append, List.mem_singleton] at hk
          rcases hk with hk | hk
          · have := h2 k hk
            simp only
            omega
          · cases hk
            simp
        split
        · exact (hd _).handleSimple hg
        · exact ((hd _).handleSimple hg).stop

theorem OneInv.handle {e d c p} (h : OneInv d) (hg : Guarded e) : OneInv (handle e d c p).1 := by
  unfold Telnet.handle
  split
  · exact h
  · rename_i x hx
    split
    · rename_i hr
      exact (h.ran x.name).doRepeat hg hr.2
    · exact (h.ran x.name).perform (hg x (permitted_some hx).2.1)

theorem one_lift (e : Env) (hg : Guarded e) : Lift e OneInv where
  stop _ h := h.stop
  req d c p h hs := by
    obtain ⟨h1, h2, h3⟩ := h
    rw [hs] at h1
    refine ⟨?_, by simpa using h2, h3⟩
    rw [hs]
    exact .req h1
  handle _ c p h := h.handle hg
  report ch len c d x h := by
    have hk : (report ch len c d x).stop = d.stop ∧ (report ch len c d x).timer = d.timer ∧ (report ch len c d x).next = d.next := by
      unfold Telnet.report
      cases x <;> simp only <;> split <;> simp
    exact h.keep hk.1 hk.2.1 hk.2.2 (report_log _ _ _ _ _)
  prompt _ h := h.keep rfl rfl rfl rfl
  echo _ _ h := h.keep rfl rfl rfl rfl

/-! ### Output -/

/-- The output grows by something without a prompt; the console does not begin to echo. -/
def Quiet (d d' : Data) : Prop :=
  (∃ o, d'.out = d.out ++ o ∧ .prompt ∉ o) ∧ (d.echo = false → d'.echo = false)

theorem Quiet.refl (d : Data) : Quiet d d := ⟨⟨[], by simp, by simp⟩, id⟩

theorem Quiet.trans {a b c : Data} (h : Quiet a b) (h' : Quiet b c) : Quiet a c := by
  obtain ⟨⟨o, ho, hp⟩, he⟩ := h
  obtain ⟨⟨o', ho', hp'⟩, he'⟩ := h'
  exact ⟨⟨o ++ o', by rw [ho', ho, List.append_assoc], by simp [hp, hp']⟩, fun h => he' (he h)⟩

theorem Quiet.same {d d' : Data} (ho : d'.out = d.out) (he : d'.echo = d.echo) : Quiet d d' :=
  ⟨⟨[], by simp [ho], by simp⟩, by rw [he]; exact id⟩

theorem Quiet.add {d d' : Data} (o : List Out) (ho : d'.out = d.out ++ o) (hp : .prompt ∉ o)
    (he : d'.echo = d.echo) : Quiet d d' := ⟨⟨o, ho, hp⟩, by rw [he]; exact id⟩

theorem stop_quiet (d : Data) : Quiet d (callStop d) :=
  .same (callStop_out d).1 (callStop_out d).2.2.1

theorem perform_quiet (e d a p) : Quiet d (perform e d a p).1 := by
  cases a <;> simp only [perform]
  · exact .refl d
  · unfold help
    split
    · split
      · exact .add _ rfl (by simp) rfl
      · exact .add _ rfl (by simp) rfl
    · exact .add ([.frame] ++ ((e.cmds.filter (accepted d.remote)).map fun c => .listed c.name) ++ [.frame]) (by simp) (by simp) rfl
  · exact .add _ rfl (by simp) rfl
  · exact .same rfl rfl
  · exact .add _ rfl (by simp) rfl
  · unfold external
    split
    · exact .add _ rfl (by simp) rfl
    · simp only
      split <;> exact .add _ rfl (by simp) rfl

theorem handleSimple_quiet (e d c p) : Quiet d (handleSimple e d c p).1 := by
  unfold handleSimple
  split
  · exact .refl d
  · exact Quiet.trans (.same rfl rfl) (perform_quiet _ _ _ _)

theorem handle_quiet (e d c p) : Quiet d (handle e d c p).1 := by
  unfold handle
  split
  · exact .refl d
  · split
    · rename_i x hx _
      refine Quiet.trans (b := { d with log := d.log ++ [.ran x.name] }) (.same rfl rfl) ?_
      unfold doRepeat
      split
      · exact .add _ rfl (by simp) rfl
      · split
        · exact .add _ rfl (by simp) rfl
        · split
          · exact .add _ rfl (by simp) rfl
          · simp only
            split
            · exact Quiet.trans (.same rfl rfl) (handleSimple_quiet _ _ _ _)
            · refine Quiet.trans ?_ (stop_quiet _)
              exact Quiet.trans (.same rfl rfl) (handleSimple_quiet _ _ _ _)
    · exact Quiet.trans (.same rfl rfl) (perform_quiet _ _ _ _)

theorem report_quiet (ch) (c) (d d' : Data) (r) (h : Quiet d d') : Quiet d (report ch d.out.length c d' r) := by
  have nl : ∀ x : Data, Quiet d x → Quiet d (if (!ch && x.echo) = true then { x with out := x.out ++ [.nl] } else x) := by
    intro x hx
    split
    · exact hx.trans (.add _ rfl (by simp) rfl)
    · exact hx
  obtain ⟨⟨o, ho, hp⟩, he⟩ := h
  have cut : d'.out.take d.out.length = d.out := by rw [ho]; simp
  unfold report
  cases r <;> simp only
  · exact nl _ ⟨⟨o, ho, hp⟩, he⟩
  · exact nl { d' with echo := false } ⟨⟨o, ho, hp⟩, fun _ => rfl⟩
  · exact nl { d' with out := d'.out.take d.out.length ++ [.failed c] } ⟨⟨[.failed c], by simp only [cut], by simp⟩, he⟩
  · exact nl { d' with out := d'.out.take d.out.length ++ [.failed c] } ⟨⟨[.failed c], by simp only [cut], by simp⟩, he⟩
  · exact nl { d' with out := d'.out.take d.out.length ++ [.unknown c] } ⟨⟨[.unknown c], by simp only [cut], by simp⟩, he⟩

theorem piece_quiet (e ch d p) : Quiet d (runPiece e ch d p).1 := by
  unfold runPiece
  simp only
  have h1 := stop_quiet d
  have h2 : Quiet d (handle e { callStop d with log := (callStop d).log ++ [.req (request p).1 (request p).2] } (request p).1 (request p).2).1 :=
    h1.trans (Quiet.trans (.same rfl rfl) (handle_quiet _ _ _ _))
  split
  · exact h1
  · split
    · exact h2
    · exact report_quiet _ _ _ _ _ h2

theorem pieces_quiet (e ch ps) : ∀ d, Quiet d (runPieces e ch d ps).1 := by
  induction ps with
  | nil => intro d; exact .refl d
  | cons p ps ih =>
    intro d
    unfold runPieces
    simp only
    split
    · exact piece_quiet _ _ _ _
    · exact (piece_quiet _ _ _ _).trans (ih _)

theorem line_quiet (e d l) : Quiet d (runLine e d l).1 := by
  unfold runLine
  split <;> exact pieces_quiet _ _ _ _

theorem loop_quiet (e a) (n : Nat) : ∀ inb d w r, loop e a n inb d w = some r → Quiet d r.d := by
  induction n with
  | zero =>
    intro inb d w r hr
    unfold loop at hr
    split at hr
    · cases hr; exact .refl _
    · cases hr
  | succ n ih =>
    intro inb d w r hr
    unfold loop at hr
    split at hr
    · cases hr; exact .refl _
    · split at hr
      · simp only at hr
        split at hr
        · cases hr; exact line_quiet _ _ _
        · exact (line_quiet _ _ _).trans (ih _ _ _ _ hr)
      · simp only at hr
        split at hr
        · cases hr; exact line_quiet _ _ _
        · split at hr
          · cases hr; exact line_quiet _ _ _
          · exact (line_quiet _ _ _).trans (ih _ _ _ _ hr)

/-- Lines are handled exactly if there is a complete one. -/
theorem loop_worked (e) (n : Nat) : ∀ inb d w r, loop e true n inb d w = some r →
    (r.worked = true ↔ w = true ∨ lines inb ≠ []) := by
  induction n with
  | zero =>
    intro inb d w r hr
    unfold loop at hr
    split at hr
    · rename_i h
      cases hr
      have : lines inb = [] := by
        rcases h with h | h
        · subst h; rfl
        · exact lines_none _ (cutAt_none _ _ h.1).2
      simp [this]
    · cases hr
  | succ n ih =>
    intro inb d w r hr
    unfold loop at hr
    split at hr
    · rename_i h
      cases hr
      have : lines inb = [] := by
        rcases h with h | h
        · subst h; rfl
        · exact lines_none _ (cutAt_none _ _ h.1).2
      simp [this]
    · rename_i hne
      cases hc : (cutAt 10 inb).2 with
      | none => simp [hc] at hne
      | some rest =>
        have hl : lines inb ≠ [] := by
          have := cutAt_some _ _ _ hc
          rw [this.1, lines_sep _ _ this.2]
          simp
        simp only [hc] at hr
        split at hr
        · cases hr; simp [hl]
        · split at hr
          · cases hr; simp [hl]
          · have := (ih _ _ _ _ hr).mpr (Or.inl rfl)
            simp [this, hl]

end Verif.Telnet
