import Verif.Telnet.Spec
/-
Lemmas on telnet sessions.
-/
namespace Verif.Telnet
open Spec

/-- What a property of the data must satisfy to hold in every reachable session. -/
structure Lift (e : Env) (I : Data → Prop) : Prop where
  stop : ∀ d, I d → I (callStop d)
  req : ∀ d c p, I d → d.stop = none → I { d with log := d.log ++ [.req c p] }
  handle : ∀ d c p, I d → I (handle e d c p).1
  report : ∀ ch len c d r, I d → I (report ch len c d r)
  prompt : ∀ d, I d → I { d with out := d.out ++ [.prompt] }
  echo : ∀ d b, I d → I { d with echo := b }

theorem callStop_stop (d : Data) : (callStop d).stop = none := by
  unfold callStop
  split <;> simp_all

theorem Lift.piece {e I} (h : Lift e I) (ch : Bool) (d : Data) (p : Bytes) (hd : I d) :
    I (runPiece e ch d p).1 := by
  unfold runPiece
  have h1 := h.stop d hd
  have h2 := h.handle _ (request p).1 (request p).2
    (h.req _ (request p).1 (request p).2 h1 (callStop_stop d))
  simp only
  split
  · exact h1
  · split
    · exact h2
    · exact h.report _ _ _ _ _ h2

theorem Lift.pieces {e I} (h : Lift e I) (ch : Bool) (ps : List Bytes) :
    ∀ d, I d → I (runPieces e ch d ps).1 := by
  induction ps with
  | nil => intro d hd; exact hd
  | cons p ps ih =>
    intro d hd
    have h1 := h.piece ch d p hd
    unfold runPieces
    simp only
    split
    · exact h1
    · exact ih _ h1

theorem Lift.line {e I} (h : Lift e I) (d : Data) (l : Bytes) (hd : I d) : I (runLine e d l).1 := by
  unfold runLine
  split
  · exact h.pieces _ _ _ hd
  · exact h.pieces _ _ _ hd

theorem Lift.loop {e I} (h : Lift e I) (a : Bool) (n : Nat) :
    ∀ inb d w r, I d → loop e a n inb d w = some r → I r.d := by
  induction n with
  | zero =>
    intro inb d w r hd hr
    unfold Telnet.loop at hr
    split at hr
    · cases hr; exact hd
    · cases hr
  | succ n ih =>
    intro inb d w r hd hr
    unfold Telnet.loop at hr
    split at hr
    · cases hr; exact hd
    · split at hr
      · simp only at hr
        have h1 := h.line d (cstr inb) hd
        split at hr
        · cases hr; exact h1
        · exact ih _ _ _ _ h1 hr
      · simp only at hr
        have h1 := h.line d (cstr (stripCr (cutAt 10 inb).1)) hd
        split at hr
        · cases hr; exact h1
        · split at hr
          · cases hr; exact h1
          · exact ih _ _ _ _ h1 hr

theorem Lift.conclude {e I} (h : Lift e I) (s : Sess) (a : Bool) (r : Done) (hr : I r.d) :
    I (conclude s a r).d := by
  unfold Telnet.conclude
  split
  · exact hr
  · simp only
    split
    · exact h.prompt _ hr
    · exact hr

theorem Lift.step {e I} (h : Lift e I) (s : Sess) (op : Op) (s' : Sess) (hs : I s.d)
    (hr : step e s op = .ok s') : I s'.d := by
  cases op with
  | feed bs =>
    simp only [Telnet.step, feed] at hr
    split at hr
    · cases hr
    · split at hr
      · cases hr; exact hs
      · split at hr
        · cases hr
        · rename_i r hl
          cases hr
          exact h.conclude _ _ _ (h.loop _ _ _ _ _ _ hs hl)
  | eof n =>
    simp only [Telnet.step, eof] at hr
    split at hr
    · cases hr
    · split at hr
      · cases hr; exact hs
      · split at hr
        · cases hr
        · rename_i r hl
          cases hr
          exact h.conclude _ _ _ (h.loop _ _ _ _ _ _ hs hl)
  | tick =>
    simp only [Telnet.step, tick] at hr
    split at hr
    · cases hr; exact hs
    · split at hr
      · cases hr
      · cases hr
        simp only
        split
        · exact h.handle _ _ _ hs
        · exact h.stop _ (h.handle _ _ _ hs)
  | halt p =>
    simp only [Telnet.step, halt] at hr
    split at hr
    · cases hr
    · cases hr
      have h1 := h.echo _ true (h.stop _ hs)
      cases p
      · exact h1
      · exact h.prompt _ h1
  | close =>
    simp only [Telnet.step, close] at hr
    split at hr
    · cases hr
    · cases hr
      exact h.echo _ true (h.stop _ hs)

theorem Lift.run {e I} (h : Lift e I) (r cfg : Nat) (h0 : I { remote := r }) (ops : List Op) :
    ∀ s, run e r cfg ops = .ok s → I s.d := by
  induction ops with
  | nil => intro s hs; cases hs; exact h0
  | cons op ops ih =>
    intro s hs
    unfold Telnet.run at hs
    split at hs
    · rename_i s0 h1
      exact h.step s0 op s (ih s0 h1) hs
    · rename_i hx
      exact absurd hs (by rename_i x; intro h; exact hx s h)

/-! ### Requests -/

theorem asked_append (a b : List Ev) : asked (a ++ b) = asked a ++ asked b := by
  simp [asked]

theorem callStop_asked (d : Data) : asked (callStop d).log = asked d.log := by
  unfold callStop
  split <;> simp [asked]

theorem external_asked (e d g) : asked (external e d g).1.log = asked d.log := by
  unfold external
  split
  · rfl
  · simp only
    split <;> simp [asked]

theorem help_log (e d p) : (help e d p).log = d.log := by
  unfold help
  split
  · split <;> rfl
  · rfl

theorem perform_asked (e d a p) : asked (perform e d a p).1.log = asked d.log := by
  cases a <;> simp only [perform]
  · rw [help_log]
  · exact external_asked _ _ _

theorem handleSimple_asked (e d c p) : asked (handleSimple e d c p).1.log = asked d.log := by
  unfold handleSimple
  split
  · rfl
  · rw [perform_asked]; simp [asked]

theorem doRepeat_asked (e d p) : asked (doRepeat e d p).1.log = asked d.log := by
  unfold doRepeat
  split
  · rfl
  · split
    · rfl
    · split
      · rfl
      · simp only
        split
        · rw [handleSimple_asked]; simp [asked]
        · rw [callStop_asked, handleSimple_asked]; simp [asked]

theorem handle_asked (e d c p) : asked (handle e d c p).1.log = asked d.log := by
  unfold handle
  split
  · rfl
  · split
    · rw [doRepeat_asked]; simp [asked]
    · rw [perform_asked]; simp [asked]

theorem report_log (ch len c d r) : (report ch len c d r).log = d.log := by
  unfold report
  cases r <;> simp only <;> split <;> rfl

/-! ### Splitting -/

theorem cutAt_fst (c : Nat) (s : Bytes) : (cutAt c s).1 = s.takeWhile (· ≠ c) := by
  induction s with
  | nil => rfl
  | cons b s ih =>
    unfold cutAt
    by_cases h : b = c
    · simp [h]
    · simp [h, ih]

theorem cutAt_none (c : Nat) (s : Bytes) (h : (cutAt c s).2 = none) : (cutAt c s).1 = s ∧ c ∉ s := by
  induction s with
  | nil => simp [cutAt]
  | cons b s ih =>
    unfold cutAt at h ⊢
    by_cases hb : b = c
    · simp [hb] at h
    · simp only [if_neg hb] at h ⊢
      have := ih h
      refine ⟨by rw [this.1], ?_⟩
      simp [this.2]
      exact fun h => hb h.symm

theorem cutAt_some (c : Nat) (s r : Bytes) (h : (cutAt c s).2 = some r) :
    s = (cutAt c s).1 ++ c :: r ∧ c ∉ (cutAt c s).1 := by
  induction s with
  | nil => simp [cutAt] at h
  | cons b s ih =>
    unfold cutAt at h ⊢
    by_cases hb : b = c
    · simp [hb] at h ⊢
      exact h
    · simp only [if_neg hb] at h ⊢
      have := ih h
      refine ⟨by rw [List.cons_append, ← this.1], ?_⟩
      simp [this.2]
      exact fun h => hb h.symm

theorem split_ne (c s) : split c s ≠ [] := by
  cases s with
  | nil => simp [split]
  | cons b s =>
    unfold split
    split
    · simp
    · split <;> simp

theorem split_cons (c b : Nat) (s w : Bytes) (ws : List Bytes) (h : split c s = w :: ws) :
    split c (b :: s) = if b = c then [] :: w :: ws else (b :: w) :: ws := by
  rw [split, h]

theorem split_nosep (c : Nat) (s : Bytes) (h : c ∉ s) : split c s = [s] := by
  induction s with
  | nil => rfl
  | cons b s ih =>
    simp only [List.mem_cons, not_or] at h
    rw [split_cons _ _ _ _ _ (ih h.2), if_neg (fun h' => h.1 h'.symm)]

theorem split_cons_sep (c : Nat) (r : Bytes) : split c (c :: r) = [] :: split c r := by
  cases h : split c r with
  | nil => exact absurd h (split_ne c r)
  | cons w ws => rw [split_cons _ _ _ _ _ h, if_pos rfl]

theorem split_sep (c : Nat) (l r : Bytes) (h : c ∉ l) : split c (l ++ c :: r) = l :: split c r := by
  induction l with
  | nil => exact split_cons_sep c r
  | cons b l ih =>
    simp only [List.mem_cons, not_or] at h
    rw [List.cons_append, split_cons _ _ _ _ _ (ih h.2), if_neg (fun h' => h.1 h'.symm)]

theorem lines_sep (l r : Bytes) (h : 10 ∉ l) : lines (l ++ 10 :: r) = l :: lines r := by
  unfold lines
  rw [split_sep _ _ _ h]
  rw [List.dropLast_cons_of_ne_nil (split_ne 10 r)]

theorem lines_none (l : Bytes) (h : 10 ∉ l) : lines l = [] := by
  unfold lines
  rw [split_nosep _ _ h]; rfl

/-- What a line asks for. -/
def lineAsks (l : Bytes) : List (Bytes × Option Bytes) := (commands (text l)).filterMap asks

theorem requests_sep (l r : Bytes) (h : 10 ∉ l) : requests (l ++ 10 :: r) = lineAsks l ++ requests r := by
  unfold requests
  rw [lines_sep _ _ h]; rfl

theorem requests_none (l : Bytes) (h : 10 ∉ l) : requests l = [] := by
  unfold requests
  rw [lines_none _ h]; rfl

theorem requests_append (a : Bytes) (n : Nat) (hn : a.length ≤ n) (b : Bytes) : requests a <+: requests (a ++ b) := by
  induction n generalizing a with
  | zero =>
    have : a = [] := by
      cases a with
      | nil => rfl
      | cons x y => simp at hn
    subst this
    rw [requests_none [] (by simp)]
    exact List.nil_prefix
  | succ n ih =>
    cases hc : (cutAt 10 a).2 with
    | none =>
      rw [requests_none a (cutAt_none _ _ hc).2]
      exact List.nil_prefix
    | some r =>
      have h := cutAt_some _ _ _ hc
      rw [h.1, List.append_assoc, List.cons_append, requests_sep _ _ h.2, requests_sep _ _ h.2]
      rw [List.prefix_append_right_inj]
      apply ih
      have := congrArg List.length h.1
      simp at this
      omega

theorem parts_split (n : Nat) : ∀ s : Bytes, s.length ≤ n → parts n s = split 47 s := by
  induction n with
  | zero =>
    intro s hs
    have : s = [] := by
      cases s with
      | nil => rfl
      | cons x y => simp at hs
    subst this; rfl
  | succ n ih =>
    intro s hs
    unfold parts
    simp only
    split
    · rename_i h
      have := cutAt_none _ _ h
      rw [this.1, split_nosep _ _ this.2]
    · rename_i r h
      have h1 := cutAt_some _ _ _ h
      have h2 := congrArg List.length h1.1
      simp at h2
      rw [ih r (by omega)]
      conv => rhs; rw [h1.1, split_sep _ _ _ h1.2]

theorem cstr_text (l : Bytes) : cstr (stripCr l) = text l := by
  unfold cstr stripCr text
  rw [cutAt_fst]

theorem asks_request (p : Bytes) : asks p = if (cutAt 32 p).1 = [] then none else some (request p) := by
  cases h : (cutAt 32 p).2 with
  | none =>
    have h1 := cutAt_none _ _ h
    have h2 : p.takeWhile (· ≠ 32) = p := by rw [← cutAt_fst]; exact h1.1
    have hp : cutAt 32 p = (p, none) := Prod.ext h1.1 h
    simp only [asks, request, h2, hp]
    simp
  | some r =>
    have h1 := cutAt_some _ _ _ h
    have hf := cutAt_fst 32 p
    have hd : p.drop ((cutAt 32 p).1.length + 1) = r := by
      conv => lhs; arg 2; rw [h1.1]
      simp
    have hl : (cutAt 32 p).1.length ≠ p.length := by
      have := congrArg List.length h1.1
      simp at this
      omega
    have hp : cutAt 32 p = ((cutAt 32 p).1, some r) := Prod.ext rfl h
    simp only [asks, request, ← hf, hd, if_neg hl]
    rw [hp]
    by_cases hr : r = [104, 101, 108, 112]
    · simp [hr, helpWord]
    · simp [hr, helpWord]

theorem runPiece_asked (e ch d p) :
    asked (runPiece e ch d p).1.log = asked d.log ++ (asks p).toList := by
  unfold runPiece
  rw [asks_request]
  simp only
  split
  · simp [callStop_asked]
  · split
    · rw [handle_asked, asked_append, callStop_asked]
      simp [asked]
    · rw [report_log, handle_asked, asked_append, callStop_asked]
      simp [asked]

theorem runPieces_asked (e ch) (ps : List Bytes) : ∀ d,
    asked (runPieces e ch d ps).1.log <+: asked d.log ++ ps.filterMap asks ∧
    ((runPieces e ch d ps).2 = false → asked (runPieces e ch d ps).1.log = asked d.log ++ ps.filterMap asks) := by
  induction ps with
  | nil => intro d; simp [runPieces]
  | cons p ps ih =>
    intro d
    have hp := runPiece_asked e ch d p
    have he : (p :: ps).filterMap asks = (asks p).toList ++ ps.filterMap asks := by
      cases h : asks p <;> simp [h]
    unfold runPieces
    simp only
    split
    · rename_i h
      refine ⟨?_, fun h' => by rw [h] at h'; cases h'⟩
      rw [hp, he, ← List.append_assoc]
      exact List.prefix_append _ _
    · have := ih (runPiece e ch d p).1
      rw [hp] at this
      rw [he, ← List.append_assoc]
      exact this

theorem runLine_asked (e d l) :
    asked (runLine e d l).1.log <+: asked d.log ++ (commands l).filterMap asks ∧
    ((runLine e d l).2.1 = false → asked (runLine e d l).1.log = asked d.log ++ (commands l).filterMap asks) := by
  unfold runLine
  split
  · rename_i s
    simp only [commands]
    rw [parts_split _ _ (Nat.le_refl _)]
    exact runPieces_asked _ _ _ _
  · rename_i h
    have : commands l = [l] := by
      unfold commands
      split
      · rename_i s; exact absurd rfl (h s)
      · rfl
    rw [this]
    exact runPieces_asked _ _ _ _

theorem cutAt_append (c : Nat) (s x r : Bytes) (h : (cutAt c s).2 = some r) :
    s ++ x = (cutAt c s).1 ++ c :: (r ++ x) := by
  conv => lhs; rw [(cutAt_some _ _ _ h).1]
  simp

theorem loop_asked (e) (n : Nat) : ∀ inb d w r, loop e true n inb d w = some r →
    (∀ x, asked r.d.log <+: asked d.log ++ requests (inb ++ x)) ∧
    (r.quit = false → (∀ x, asked d.log ++ requests (inb ++ x) = asked r.d.log ++ requests (r.inb ++ x)) ∧ 10 ∉ r.inb) := by
  have base : ∀ inb d w (r : Done), (inb = [] ∨ ((cutAt 10 inb).2 = none ∧ True)) → some (Done.mk inb d false w) = some r →
      (∀ x, asked r.d.log <+: asked d.log ++ requests (inb ++ x)) ∧
      (r.quit = false → (∀ x, asked d.log ++ requests (inb ++ x) = asked r.d.log ++ requests (r.inb ++ x)) ∧ 10 ∉ r.inb) := by
    intro inb d w r h hr
    cases hr
    refine ⟨fun x => List.prefix_append _ _, fun _ => ⟨fun x => rfl, ?_⟩⟩
    rcases h with h | h
    · simp [h]
    · exact (cutAt_none _ _ h.1).2
  induction n with
  | zero =>
    intro inb d w r hr
    unfold loop at hr
    split at hr
    · rename_i h
      exact base inb d w r (by simpa using h) hr
    · cases hr
  | succ n ih =>
    intro inb d w r hr
    unfold loop at hr
    split at hr
    · rename_i h
      exact base inb d w r (by simpa using h) hr
    · rename_i hne
      cases hc : (cutAt 10 inb).2 with
      | none => simp [hc] at hne
      | some rest =>
        simp only [hc] at hr
        have hl := runLine_asked e d (cstr (stripCr (cutAt 10 inb).1))
        rw [cstr_text] at hl hr
        have hsplit : ∀ x, requests (inb ++ x) = lineAsks (cutAt 10 inb).1 ++ requests (rest ++ x) := by
          intro x
          rw [cutAt_append _ _ _ _ hc, requests_sep _ _ (cutAt_some _ _ _ hc).2]
        have hpre : ∀ x, asked (runLine e d (text (cutAt 10 inb).1)).1.log <+: asked d.log ++ requests (inb ++ x) := by
          intro x
          rw [hsplit, ← List.append_assoc]
          exact List.IsPrefix.trans hl.1 (List.prefix_append _ _)
        split at hr
        · cases hr
          exact ⟨hpre, (fun h => nomatch h)⟩
        · rename_i hq
          split at hr
          · cases hr
            exact ⟨hpre, (fun h => nomatch h)⟩
          · have h1 := ih _ _ _ _ hr
            have h2 := hl.2 (by simpa using hq)
            have h3 : ∀ x, asked d.log ++ requests (inb ++ x) =
                asked (runLine e d (text (cutAt 10 inb).1)).1.log ++ requests (rest ++ x) := by
              intro x
              rw [hsplit, h2, List.append_assoc]; rfl
            refine ⟨fun x => by rw [h3]; exact h1.1 x, fun hq' => ?_⟩
            exact ⟨fun x => by rw [h3]; exact (h1.2 hq').1 x, (h1.2 hq').2⟩

/-- The loop over the input of an active session ends. -/
theorem loop_ends (e) (n : Nat) : ∀ inb d w, inb.length ≤ n → ∃ r, loop e true n inb d w = some r := by
  induction n with
  | zero =>
    intro inb d w h
    have : inb = [] := by
      cases inb with
      | nil => rfl
      | cons x y => simp at h
    subst this
    exact ⟨_, by unfold loop; rw [if_pos (Or.inl rfl)]⟩
  | succ n ih =>
    intro inb d w h
    unfold loop
    split
    · exact ⟨_, rfl⟩
    · rename_i hne
      cases hc : (cutAt 10 inb).2 with
      | none => simp [hc] at hne
      | some rest =>
        have hlen : rest.length ≤ n := by
          have := congrArg List.length (cutAt_some _ _ _ hc).1
          simp at this
          omega
        simp only
        split
        · exact ⟨_, rfl⟩
        · split
          · exact ⟨_, rfl⟩
          · exact ih _ _ _ hlen

end Verif.Telnet
