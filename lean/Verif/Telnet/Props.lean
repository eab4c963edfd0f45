import Verif.Telnet.Invs
/-
Properties of telnet sessions (C156-C160).
-/
namespace Verif.Telnet
open Spec

/-! ### C156: what is asked for -/

/-- Histories with input, repetitions and ends of continuous output. -/
def Plain : List Op → Prop
  | [] => True
  | .eof _ :: _ => False
  | _ :: ops => Plain ops

theorem asked_step (e s op s') (h : step e s op = .ok s') (hop : ∀ bs, op ≠ .feed bs) (hop' : ∀ n, op ≠ .eof n) :
    asked s'.d.log = asked s.d.log ∧ (s'.active = true → s.active = true) ∧ s'.inb = s.inb := by
  cases op with
  | feed bs => exact absurd rfl (hop bs)
  | eof n => exact absurd rfl (hop' n)
  | tick =>
    simp only [step, tick] at h
    split at h
    · cases h; exact ⟨rfl, id, rfl⟩
    · split at h
      · cases h
      · cases h
        refine ⟨?_, id, rfl⟩
        simp only
        split
        · exact handle_asked _ _ _ _
        · rw [callStop_asked, handle_asked]
  | halt p =>
    simp only [step, halt] at h
    split at h
    · cases h
    · cases h; exact ⟨callStop_asked _, id, rfl⟩
  | close =>
    simp only [step, close] at h
    split at h
    · cases h
    · cases h; exact ⟨callStop_asked _, (fun h => nomatch h), rfl⟩

theorem feed_asked (e s bs s') (h : feed e s bs = .ok s') (ha : s.active = true) :
    (∀ x, asked s'.d.log <+: asked s.d.log ++ requests ((s.inb ++ bs) ++ x)) ∧
    (s'.active = true → (∀ x, asked s.d.log ++ requests ((s.inb ++ bs) ++ x) = asked s'.d.log ++ requests (s'.inb ++ x)) ∧ 10 ∉ s'.inb) := by
  simp only [feed] at h
  split at h
  · cases h
  · split at h
    · cases h
    · rename_i r hl
      cases h
      have := loop_asked e _ _ _ _ _ hl
      have hlog : (conclude s true r).d.log = r.d.log := by
        unfold conclude
        split
        · rfl
        · simp only; split <;> rfl
      rw [hlog]
      refine ⟨this.1, fun hact => ?_⟩
      have hq : r.quit = false := by
        cases hq : r.quit
        · rfl
        · simp [conclude, hq] at hact
      have hin : (conclude s true r).inb = r.inb := by
        simp [conclude, hq]
      rw [hin]
      exact this.2 hq

theorem input_cons (op : Op) (ops : List Op) (h : ∀ bs, op ≠ .feed bs) : input (op :: ops) = input ops := by
  cases op with
  | feed bs => exact absurd rfl (h bs)
  | _ => rfl

theorem history_asked (e r cfg) (ops : List Op) : ∀ s, Plain ops → run e r cfg ops = .ok s →
    (∀ x, asked s.d.log <+: requests (input ops ++ x)) ∧
    (s.active = true → (∀ x, requests (input ops ++ x) = asked s.d.log ++ requests (s.inb ++ x)) ∧ 10 ∉ s.inb) := by
  induction ops with
  | nil =>
    intro s _ hs
    cases hs
    exact ⟨fun x => List.nil_prefix, fun _ => ⟨fun x => rfl, by simp [start]⟩⟩
  | cons op ops ih =>
    intro s hp hs
    simp only [run] at hs
    split at hs
    · rename_i s0 h0
      have hp0 : Plain ops := by
        cases op <;> first | exact hp | cases hp
      have h1 := ih s0 hp0 h0
      by_cases hop : ∃ bs, op = .feed bs
      · obtain ⟨bs, rfl⟩ := hop
        by_cases ha : s0.active = true
        · have h2 := feed_asked e s0 bs s hs ha
          have h3 := (h1.2 ha).1
          simp only [input]
          constructor
          · intro x
            rw [List.append_assoc, h3, ← List.append_assoc]
            exact h2.1 x
          · intro hact
            refine ⟨fun x => ?_, (h2.2 hact).2⟩
            rw [List.append_assoc, h3, ← List.append_assoc]
            exact (h2.2 hact).1 x
        · simp only [step, feed] at hs
          split at hs
          · cases hs
          · cases hs
            simp only [input]
            exact ⟨fun x => by rw [List.append_assoc]; exact h1.1 _, fun h => absurd h ha⟩
      · have hop' : ∀ bs, op ≠ .feed bs := fun bs h => hop ⟨bs, h⟩
        have h2 := asked_step e s0 op s hs hop' (by
          intro n hn; subst hn; cases hp)
        rw [input_cons _ _ hop', h2.1, h2.2.2]
        exact ⟨h1.1, fun h => h1.2 (h2.2.1 h)⟩
    · rename_i hx
      exact absurd hs (hx s)

/-- C156: the commands carried out on behalf of the client are those of the complete lines sent, in
order, each once, however the input was cut into pieces: all of them while the session goes on, a
first part of them if it has been ended. -/
theorem C156_requests (e : Env) (r cfg : Nat) (ops : List Op) (s : Sess) (hp : Plain ops)
    (h : run e r cfg ops = .ok s) :
    asked s.d.log <+: requests (input ops) ∧ (s.active = true → asked s.d.log = requests (input ops)) := by
  have h1 := history_asked e r cfg ops s hp h
  refine ⟨by simpa using h1.1 [], fun ha => ?_⟩
  have h2 := (h1.2 ha).1 []
  simp only [List.append_nil] at h2
  rw [h2, requests_none _ (h1.2 ha).2, List.append_nil]

theorem handle_quits {e : Env} {d c p} (h : (handle e d c p).2 = .quit) :
    ∃ x ∈ e.cmds, lookup e.cmds c = some x ∧ (x.act = .quit ∨ ∃ g n, x.act = .ext g ∧ (e.world n).res = .quit) := by
  unfold handle at h
  split at h
  · cases h
  · rename_i x hx
    have hs := permitted_some hx
    refine ⟨x, hs.2.1, hs.1, ?_⟩
    split at h
    · unfold doRepeat at h
      split at h
      · cases h
      · split at h
        · cases h
        · split at h <;> cases h
    · revert h
      cases hx' : x.act <;> simp only [perform] <;> intro h
      · exact Or.inl trivial
      · cases h
      · cases h
      · cases h
      · cases h
      · rename_i g
        unfold external at h
        split at h
        · cases h
        · simp only at h
          split at h
          · cases h
          · exact Or.inr ⟨g, _, rfl, h⟩

/-- A request that may end a session. -/
def Ends (e : Env) (name : Bytes) : Prop :=
  ∃ x ∈ e.cmds, lookup e.cmds name = some x ∧ (x.act = .quit ∨ ∃ g n, x.act = .ext g ∧ (e.world n).res = .quit)

theorem piece_quits {e ch d p} (h : (runPiece e ch d p).2 = true) : ∃ q, asks p = some q ∧ Ends e q.1 := by
  unfold runPiece at h
  simp only at h
  split at h
  · cases h
  · rename_i hne
    split at h
    · rename_i hq
      exact ⟨request p, by rw [asks_request, if_neg hne], handle_quits hq⟩
    · cases h

theorem pieces_quit {e ch} (ps : List Bytes) : ∀ d, (runPieces e ch d ps).2 = true →
    ∃ q ∈ ps.filterMap asks, Ends e q.1 := by
  induction ps with
  | nil => intro d h; cases h
  | cons p ps ih =>
    intro d h
    unfold runPieces at h
    simp only at h
    split at h
    · obtain ⟨q, hq, hr⟩ := piece_quits h
      exact ⟨q, by simp [hq], hr⟩
    · obtain ⟨q, hq, hr⟩ := ih _ h
      refine ⟨q, ?_, hr⟩
      cases ha : asks p <;> simp only [List.filterMap_cons, ha]
      · exact hq
      · exact List.mem_cons_of_mem _ hq

theorem line_quits {e d l} (h : (runLine e d l).2.1 = true ∨ (runLine e d l).2.2 = true) :
    l.head? = some 47 ∨ ∃ q ∈ (commands l).filterMap asks, Ends e q.1 := by
  unfold runLine at h
  split at h
  · exact Or.inl rfl
  · rename_i hne
    rcases h with h | h
    · right
      have : commands l = [l] := by
        unfold commands
        split
        · rename_i s; exact absurd rfl (hne s)
        · rfl
      rw [this]
      exact pieces_quit _ _ h
    · cases h

theorem loop_quits (e) (n : Nat) : ∀ inb d w r, loop e true n inb d w = some r → r.quit = true →
    (∃ l ∈ lines inb, (text l).head? = some 47) ∨ ∃ q ∈ requests inb, Ends e q.1 := by
  induction n with
  | zero =>
    intro inb d w r hr hq
    unfold loop at hr
    split at hr
    · cases hr; cases hq
    · cases hr
  | succ n ih =>
    intro inb d w r hr hq
    unfold loop at hr
    split at hr
    · cases hr; cases hq
    · rename_i hne
      cases hc : (cutAt 10 inb).2 with
      | none => simp [hc] at hne
      | some rest =>
        have hs := cutAt_some _ _ _ hc
        have hl : lines inb = (cutAt 10 inb).1 :: lines rest := by
          conv => lhs; rw [hs.1]
          exact lines_sep _ _ hs.2
        have hrq : requests inb = lineAsks (cutAt 10 inb).1 ++ requests rest := by
          conv => lhs; rw [hs.1]
          exact requests_sep _ _ hs.2
        simp only [hc] at hr
        rw [cstr_text] at hr
        have hline : ((runLine e d (text (cutAt 10 inb).1)).2.1 = true ∨ (runLine e d (text (cutAt 10 inb).1)).2.2 = true) →
            (∃ l ∈ lines inb, (text l).head? = some 47) ∨ ∃ q ∈ requests inb, Ends e q.1 := by
          intro h
          rcases line_quits h with h | ⟨q, hq, he⟩
          · exact Or.inl ⟨_, by rw [hl]; exact List.mem_cons_self, h⟩
          · exact Or.inr ⟨q, by rw [hrq]; exact List.mem_append_left _ hq, he⟩
        split at hr
        · rename_i h; exact hline (Or.inl h)
        · split at hr
          · rename_i h; exact hline (Or.inr h)
          · rcases ih _ _ _ _ hr hq with ⟨l, h1, h2⟩ | ⟨q, h1, h2⟩
            · exact Or.inl ⟨l, by rw [hl]; exact List.mem_cons_of_mem _ h1, h2⟩
            · exact Or.inr ⟨q, by rw [hrq]; exact List.mem_append_right _ h1, h2⟩

/-- C156: input ends a session only by a line that begins with a slash, or by asking for a command
that ends it. -/
theorem C156_goes_on (e : Env) (s : Sess) (bs : Bytes) (s' : Sess) (ha : s.active = true)
    (h : feed e s bs = .ok s') (hl : ∀ l ∈ lines (s.inb ++ bs), (text l).head? ≠ some 47)
    (hq : ∀ q ∈ requests (s.inb ++ bs), ¬ Ends e q.1) : s'.active = true := by
  simp only [feed] at h
  split at h
  · cases h
  · split at h
    · cases h
    · rename_i r hr
      cases h
      cases hx : r.quit
      · simp [conclude, hx]
      · rcases loop_quits e _ _ _ _ _ hr hx with ⟨l, h1, h2⟩ | ⟨q, h1, h2⟩
        · exact absurd h2 (hl l h1)
        · exact absurd h2 (hq q h1)

/-- A request that ends a session whoever asks: everybody may use the command, and it is `quit`. -/
def Leaves (e : Env) (name : Bytes) : Prop := ∃ x, lookup e.cmds name = some x ∧ x.acl = none ∧ x.act = .quit

theorem handle_leaves {e name} (h : Leaves e name) (d par) : (handle e d name par).2 = .quit := by
  obtain ⟨x, h1, h2, h3⟩ := h
  simp [handle, permitted, h1, accepted, h2, h3, perform]

theorem piece_leaves {e ch d p q} (h : asks p = some q) (hq : Leaves e q.1) : (runPiece e ch d p).2 = true := by
  rw [asks_request] at h
  split at h
  · cases h
  · rename_i hne
    cases h
    simp [runPiece, hne, handle_leaves hq]

theorem pieces_leave {e ch q} (ps : List Bytes) : ∀ d, q ∈ ps.filterMap asks → Leaves e q.1 → (runPieces e ch d ps).2 = true := by
  induction ps with
  | nil => intro d h; simp at h
  | cons p ps ih =>
    intro d h hq
    unfold runPieces
    simp only
    split
    · assumption
    · rename_i hn
      obtain ⟨p', hp, ha⟩ := List.mem_filterMap.mp h
      rcases List.mem_cons.mp hp with hp | hp
      · subst hp; exact absurd (piece_leaves ha hq) hn
      · exact ih _ (List.mem_filterMap.mpr ⟨p', hp, ha⟩) hq

theorem line_leaves {e d l q} (h : q ∈ (commands l).filterMap asks) (hq : Leaves e q.1) : (runLine e d l).2.1 = true := by
  unfold runLine
  split
  · rename_i s
    simp only [commands] at h
    rw [parts_split _ _ (Nat.le_refl _)]
    exact pieces_leave _ _ h hq
  · rename_i hne
    have : commands l = [l] := by
      unfold commands
      split
      · rename_i s; exact absurd rfl (hne s)
      · rfl
    rw [this] at h
    exact pieces_leave _ _ h hq

theorem loop_leaves (e) (n : Nat) : ∀ inb d w r, loop e true n inb d w = some r → r.quit = false →
    ∀ q ∈ requests inb, ¬ Leaves e q.1 := by
  induction n with
  | zero =>
    intro inb d w r hr hf q hq
    unfold loop at hr
    split at hr
    · rename_i h
      rw [requests_none inb (by rcases h with h | h; · simp [h]
                                · exact (cutAt_none _ _ h.1).2)] at hq
      simp at hq
    · cases hr
  | succ n ih =>
    intro inb d w r hr hf q hq
    unfold loop at hr
    split at hr
    · rename_i h
      rw [requests_none inb (by rcases h with h | h; · simp [h]
                                · exact (cutAt_none _ _ h.1).2)] at hq
      simp at hq
    · rename_i hne
      cases hc : (cutAt 10 inb).2 with
      | none => simp [hc] at hne
      | some rest =>
        have hs := cutAt_some _ _ _ hc
        rw [hs.1, requests_sep _ _ hs.2] at hq
        simp only [hc] at hr
        rw [cstr_text] at hr
        split at hr
        · cases hr; cases hf
        · rename_i hx
          split at hr
          · cases hr; cases hf
          · intro hv
            rcases List.mem_append.mp hq with hq | hq
            · exact hx (line_leaves hq hv)
            · exact ih _ _ _ _ hr hf q hq hv

/-- C156: a complete line of the input that asks for `quit` (alone or among other commands) ends the
session. -/
theorem C156_quit (e : Env) (s : Sess) (bs : Bytes) (s' : Sess) (h : feed e s bs = .ok s')
    (q : Bytes × Option Bytes) (hq : q ∈ requests (s.inb ++ bs)) (hv : Leaves e q.1) : s'.active = false := by
  simp only [feed] at h
  split at h
  · cases h
  · split at h
    · cases h; rename_i h; simpa using h
    · split at h
      · cases h
      · rename_i r hr
        cases h
        cases hx : r.quit
        · exact absurd hv (loop_leaves e _ _ _ _ _ hr hx q hq)
        · simp [conclude, hx]

/-- The commands of the console and `route`, for the examples: `echo`, `help`, `quit`, `repeat`,
`route`, `timeout`. -/
def demo : Env where
  cmds := [⟨[101, 99, 104, 111], none, .echo⟩, ⟨helpWord, none, .help⟩, ⟨[113, 117, 105, 116], none, .quit⟩,
    ⟨[114, 101, 112, 101, 97, 116], none, .rep⟩, ⟨[114, 111, 117, 116, 101], some (· == 1), .ext false⟩,
    ⟨[116, 105, 109, 101, 111, 117, 116], none, .timeout⟩]
  world := fun _ => ⟨.active, [], true⟩

/-- `echo a` in two pieces, with a carriage return, and the beginning of another line. -/
example : ∃ s, run demo 1 5 [.feed [97, 13, 10, 113], .feed [101, 99, 104, 111, 32]] = .ok s ∧ s.active = true ∧
    asked s.d.log = [([101, 99, 104, 111], some [97])] ∧ s.inb = [113] := ⟨_, rfl, rfl, by decide +kernel, rfl⟩

example : requests [101, 99, 104, 111, 32, 97, 13, 10, 113] = [([101, 99, 104, 111], some [97])] := by decide +kernel

/-- `/echo a/help`, several commands in a line, and the session ends. -/
example : ∃ s, run demo 1 5 [.feed [47, 101, 99, 104, 111, 32, 97, 47, 104, 101, 108, 112, 10]] = .ok s ∧ s.active = false ∧
    asked s.d.log = [([101, 99, 104, 111], some [97]), (helpWord, none)] := ⟨_, rfl, rfl, by decide +kernel⟩

/-- `echo a` and `quit`. -/
example : ∃ s, feed demo (start 1 5) [101, 99, 104, 111, 32, 97, 10, 113, 117, 105, 116, 10] = .ok s ∧ s.active = false ∧
    Leaves demo [113, 117, 105, 116] ∧
    ([113, 117, 105, 116], none) ∈ requests [101, 99, 104, 111, 32, 97, 10, 113, 117, 105, 116, 10] :=
  ⟨_, rfl, by decide +kernel, ⟨_, rfl, rfl, rfl⟩, by decide +kernel⟩

/-! ### C157: the console returns -/

/-- C157: handling input always comes to an end. -/
theorem C157_input_returns (e : Env) (s : Sess) (bs : Bytes) : feed e s bs ≠ .hung := by
  unfold feed
  split
  · exact (fun h => nomatch h)
  · split
    · exact (fun h => nomatch h)
    · obtain ⟨r, hr⟩ := loop_ends e _ (s.inb ++ bs) s.d false (Nat.le_refl _)
      rw [hr]
      exact (fun h => nomatch h)

/-- C157, what holds when the other side closes the connection: without an incomplete line, or with
an incomplete line that begins with a slash, the console returns. -/
theorem C157_closing_partial (e : Env) (s : Sess) (fuel : Nat) (hc : s.closed = false)
    (h : s.inb = [] ∨ (s.inb.head? = some 47 ∧ 10 ∉ s.inb ∧ 0 < fuel)) : ∃ s', eof e s fuel = .ok s' := by
  unfold eof
  rw [if_neg (by simp [hc])]
  split
  · exact ⟨_, rfl⟩
  · have : ∃ r, loop e false fuel s.inb s.d false = some r := by
      rcases h with h | ⟨h, h10, hf⟩
      · rw [h]
        cases fuel <;> exact ⟨_, by unfold loop; rw [if_pos (Or.inl rfl)]⟩
      · cases fuel with
        | zero => omega
        | succ n =>
          have hne : s.inb ≠ [] := by
            intro h'; rw [h'] at h; cases h
          have hcut : (cutAt 10 s.inb).2 = none := by
            cases hx : (cutAt 10 s.inb).2 with
            | none => rfl
            | some r =>
              have := (cutAt_some _ _ _ hx).1
              exact absurd (by rw [this]; simp) h10
          have hline : ∀ d, (runLine e d (cstr s.inb)).2.2 = true := by
            intro d
            cases hs : s.inb with
            | nil => exact absurd hs hne
            | cons b t =>
              rw [hs] at h
              simp at h
              subst h
              rfl
          unfold loop
          rw [if_neg (by simp [hne])]
          simp only [hcut, hline, or_true, if_true]
          exact ⟨_, rfl⟩
    obtain ⟨r, hr⟩ := this
    rw [hr]
    exact ⟨_, rfl⟩

theorem takeWhile_all (p : Nat → Bool) (l : Bytes) : ∀ y ∈ l.takeWhile p, p y = true := by
  induction l with
  | nil => intro y hy; simp at hy
  | cons a l ih =>
    intro y hy
    simp only [List.takeWhile_cons] at hy
    split at hy
    · rcases List.mem_cons.mp hy with rfl | hy'
      · assumption
      · exact ih y hy'
    · cases hy

/-- An incomplete line with the first word `w`, which is not a chain. -/
def Partial (w : Bytes) (inb : Bytes) : Prop :=
  inb ≠ [] ∧ 10 ∉ inb ∧ inb.head? ≠ some 47 ∧ (cutAt 32 (cstr inb)).1 = w

theorem partial_scar {w inb} (h : Partial w inb) : Partial w (scar inb) := by
  obtain ⟨h1, h2, h3, h4⟩ := h
  unfold scar
  simp only
  split
  · rename_i hs
    cases hr : (cutAt 32 (cstr inb)).2 with
    | none => rw [hr] at hs; cases hs
    | some r =>
      have hcut := cutAt_some _ _ _ hr
      rw [h4] at hcut
      have hc : cstr inb = inb.takeWhile (· ≠ 0) := cutAt_fst 0 inb
      have hpre : inb = w ++ 32 :: (r ++ inb.dropWhile (· ≠ 0)) := by
        have := List.takeWhile_append_dropWhile (p := (· ≠ 0)) (l := inb)
        rw [← hc, hcut.1] at this
        simpa using this.symm
      have hw0 : ∀ y ∈ w, y ≠ 0 := by
        intro y hy
        have : y ∈ cstr inb := by rw [hcut.1]; simp [hy]
        rw [hc] at this
        simpa using takeWhile_all _ _ _ this
      have hset : inb.set w.length 0 = w ++ 0 :: (r ++ inb.dropWhile (· ≠ 0)) := by
        conv => lhs; rw [hpre]
        simp
      rw [h4, hset]
      refine ⟨by simp, ?_, ?_, ?_⟩
      · intro h10
        simp only [List.mem_append, List.mem_cons] at h10
        apply h2
        rw [hpre]
        simp only [List.mem_append, List.mem_cons]
        rcases h10 with h | h | h | h
        · exact Or.inl h
        · cases h
        · exact Or.inr (Or.inr (Or.inl h))
        · exact Or.inr (Or.inr (Or.inr h))
      · intro hh
        apply h3
        rw [hpre]
        cases w with
        | nil => simp at hh
        | cons a w => simpa using hh
      · have : cstr (w ++ 0 :: (r ++ inb.dropWhile (· ≠ 0))) = w := by
          unfold cstr
          rw [cutAt_fst, List.takeWhile_append_of_pos (by simpa using hw0)]
          simp
        rw [this, cutAt_fst]
        have h32 : ∀ y ∈ w, y ≠ 32 := fun y hy hy' => hcut.2 (hy' ▸ hy)
        have h5 := List.takeWhile_append_of_pos (l₁ := w) (l₂ := []) (p := fun x => decide (x ≠ 32)) (by simpa using h32)
        simpa using h5
  · exact ⟨h1, h2, h3, h4⟩

theorem runLine_stays {e d inb w} (h : Partial w inb) (h1 : ¬ Ends e w) (h2 : ¬ Ends e helpWord) :
    (runLine e d (cstr inb)).2.1 = false ∧ (runLine e d (cstr inb)).2.2 = false := by
  have hh : (cstr inb).head? ≠ some 47 := by
    have := h.2.2.1
    cases hi : inb with
    | nil => simp [cstr, cutAt]
    | cons b t =>
      rw [hi] at this
      unfold cstr
      rw [cutAt_fst]
      simp only [List.takeWhile_cons]
      split
      · simpa using this
      · simp
  have hl : ¬ ((runLine e d (cstr inb)).2.1 = true ∨ (runLine e d (cstr inb)).2.2 = true) := by
    intro hq
    rcases line_quits hq with hq | ⟨q, hq, he⟩
    · exact hh hq
    · have hc : commands (cstr inb) = [cstr inb] := by
        unfold commands
        split
        · rename_i s hs; rw [hs] at hh; exact absurd rfl hh
        · rfl
      rw [hc] at hq
      simp only [List.filterMap_cons, List.filterMap_nil] at hq
      rw [asks_request] at hq
      split at hq
      · cases hq
      · rename_i x hx
        split at hx
        · cases hx
        · cases hx
          simp at hq
          subst hq
          unfold request at he
          simp only at he
          split at he
          · exact h2 he
          · rw [h.2.2.2] at he; exact h1 he
  simp only [not_or, Bool.not_eq_true] at hl
  exact hl

theorem loop_forever (e w) (h1 : ¬ Ends e w) (h2 : ¬ Ends e helpWord) (n : Nat) :
    ∀ inb d x, Partial w inb → loop e false n inb d x = none := by
  induction n with
  | zero =>
    intro inb d x h
    unfold loop
    rw [if_neg (by simp [h.1])]
  | succ n ih =>
    intro inb d x h
    have hcut : (cutAt 10 inb).2 = none := by
      cases hx : (cutAt 10 inb).2 with
      | none => rfl
      | some r =>
        have := (cutAt_some _ _ _ hx).1
        exact absurd (by rw [this]; simp) h.2.1
    have hs := runLine_stays (d := d) h h1 h2
    unfold loop
    rw [if_neg (by simp [h.1])]
    simp only [hcut, hs.1, hs.2, Bool.false_eq_true, or_self, if_false]
    exact ih _ _ _ (partial_scar h)

/-- C157 fails when the other side closes the connection behind an incomplete line: whatever the
line is (if it begins with neither a slash nor a command that ends the session), the console handles
it again and again and never returns. -/
theorem C157_unfinished_counterexample (e : Env) (s : Sess) (hc : s.closed = false) (ha : s.active = true)
    (hne : s.inb ≠ []) (h10 : 10 ∉ s.inb) (h47 : s.inb.head? ≠ some 47)
    (h1 : ¬ Ends e ((s.inb.takeWhile (· ≠ 0)).takeWhile (· ≠ 32))) (h2 : ¬ Ends e helpWord) :
    ∀ fuel, eof e s fuel = .hung := by
  intro fuel
  unfold eof
  rw [if_neg (by simp [hc]), if_neg (by simp [ha])]
  rw [loop_forever e _ h1 h2 fuel s.inb s.d false ⟨hne, h10, h47, by rw [cutAt_fst, cstr, cutAt_fst]⟩]

/-- `echo x` without the end of the line. -/
example : ∀ fuel, run demo 1 5 [.eof fuel, .feed [101, 99, 104, 111, 32, 120]] = .hung := by
  intro fuel
  have : run demo 1 5 [.feed [101, 99, 104, 111, 32, 120]] =
      .ok { start 1 5 with inb := [101, 99, 104, 111, 32, 120], limit := 120000 } := rfl
  simp only [run] at this ⊢
  rw [this]
  refine C157_unfinished_counterexample demo _ rfl rfl (by decide) (by decide) (by decide) ?_ ?_ fuel
  · rintro ⟨x, _, hx, h⟩
    have : x = ⟨[101, 99, 104, 111], none, .echo⟩ := (Option.some.inj hx).symm
    subst this
    rcases h with h | ⟨_, _, h, _⟩ <;> cases h
  · rintro ⟨x, _, hx, h⟩
    have : x = ⟨helpWord, none, .help⟩ := (Option.some.inj hx).symm
    subst this
    rcases h with h | ⟨_, _, h, _⟩ <;> cases h

/-- C157: closing the connection does not end a session either: after complete lines it stays
active until it times out. -/
theorem C157_open_counterexample (e : Env) (s : Sess) (fuel : Nat) (hc : s.closed = false) (ha : s.active = true)
    (h : s.inb = []) : ∃ s', eof e s fuel = .ok s' ∧ s'.active = true ∧ s'.closed = false ∧ s'.d = s.d ∧ s'.limit = s.d.timeout := by
  unfold eof
  rw [if_neg (by simp [hc]), if_neg (by simp [ha]), h]
  have : loop e false fuel [] s.d false = some ⟨[], s.d, false, false⟩ := by
    cases fuel <;> (unfold loop; rw [if_pos (Or.inl rfl)])
  rw [this]
  exact ⟨_, rfl, rfl, hc, rfl, rfl⟩

example : ∃ s, run demo 1 5 [.eof 0, .feed [104, 101, 108, 112, 10]] = .ok s ∧ s.active = true ∧ s.limit = 120000 := ⟨_, rfl, rfl, rfl⟩

/-! ### C158: continuous commands -/

/-- C158, for commands that look whether another one is running: at most one continuous command runs
in a session, it is ended once and before anything else is asked for, the timer of `repeat` is
active exactly while its command is the running one. -/
theorem C158_one_partial (e : Env) (hg : Guarded e) (r cfg : Nat) (ops : List Op) (s : Sess)
    (h : run e r cfg ops = .ok s) :
    ∃ x, Proper s.d.log x ∧ (x = none ↔ s.d.stop = none) ∧ (s.d.timer.isSome → x ≠ none) := by
  have h1 := (one_lift e hg).run r cfg ⟨.nil, by simp, by simp⟩ ops s h
  refine ⟨_, h1.1, by simp, fun ht => ?_⟩
  obtain ⟨k, hk⟩ := h1.2.2.mp ht
  rw [hk]
  simp

/-- C158: when such a session is given back, nothing of it is running any more. -/
theorem C158_closed_partial (e : Env) (hg : Guarded e) (r cfg : Nat) (ops : List Op) (s : Sess)
    (h : run e r cfg (.close :: ops) = .ok s) :
    Proper s.d.log none ∧ s.d.timer = none ∧ step e s .tick = .ok s := by
  have h1 := (one_lift e hg).run r cfg ⟨.nil, by simp, by simp⟩ _ s h
  have hs : s.d.stop = none := by
    simp only [run] at h
    split at h
    · simp only [step, close] at h
      split at h
      · cases h
      · cases h
        exact callStop_stop _
    · rename_i hx
      exact absurd h (hx s)
  have ht : s.d.timer = none := by
    cases ht : s.d.timer with
    | none => rfl
    | some t =>
      obtain ⟨k, hk⟩ := h1.2.2.mp (by rw [ht]; rfl)
      rw [hs] at hk
      cases hk
  have h2 := h1.1
  rw [hs] at h2
  refine ⟨h2, ht, ?_⟩
  simp only [step, tick, ht]

/-- C158: a command carried out for another module (without a connection) leaves nothing running. -/
theorem C158_execute_partial (e : Env) (hg : Guarded e) (r : Nat) (c : Bytes) (p : Option Bytes) :
    Proper (execute e r c p).1.log none ∧ (execute e r c p).1.timer = none := by
  have h0 : OneInv { remote := r, echo := false, timeout := 0 } := ⟨.nil, by simp, by simp⟩
  have h1 := (h0.handle (c := c) (p := p) hg).stop
  have hs := callStop_stop (handle e { remote := r, echo := false, timeout := 0 } c p).1
  refine ⟨?_, ?_⟩
  · have h2 := h1.1
    rw [hs] at h2
    exact h2
  · cases ht : (execute e r c p).1.timer with
    | none => rfl
    | some t =>
      obtain ⟨k, hk⟩ := h1.2.2.mp (by
        have : (callStop (handle e { remote := r, echo := false, timeout := 0 } c p).1).timer = some t := ht
        rw [this]; rfl)
      rw [hs] at hk
      cases hk

/-- The console without `route`, all of whose commands look. -/
def calm : Env := { demo with cmds := demo.cmds.map fun c => if c.act = .ext false then { c with act := .ext true } else c }

/-- `repeat 1 echo a`, two repetitions, `help`, and the end. -/
example : Guarded calm ∧ ∃ s, run calm 1 5 [.close, .feed [104, 101, 108, 112, 10], .tick, .tick,
      .feed [114, 101, 112, 101, 97, 116, 32, 49, 32, 101, 99, 104, 111, 32, 97, 10]] = .ok s ∧
    (Ev.began 0 ∈ s.d.log ∧ Ev.ended 0 ∈ s.d.log) := by
  refine ⟨?_, _, rfl, by decide +kernel⟩
  intro c hc
  simp only [calm, demo, List.map_cons, List.map_nil, List.mem_cons, List.not_mem_nil, or_false] at hc
  rcases hc with rfl | rfl | rfl | rfl | rfl | rfl <;> exact (fun h => nomatch h)

/-- C158 fails for `route`, which installs its stop handler in place of the one of `repeat`: the
timer of `repeat` goes on when the command is ended, and fires in the memory given back with the
session. -/
theorem C158_route_counterexample :
    (∃ s, run demo 1 5 [.close, .feed [114, 101, 112, 101, 97, 116, 32, 49, 32, 114, 111, 117, 116, 101, 32, 103, 101, 116, 10]] = .ok s ∧
      s.d.stop = none ∧ s.d.timer.isSome = true ∧ s.closed = true ∧ Ev.ended 0 ∉ s.d.log ∧ Ev.began 0 ∈ s.d.log) ∧
    run demo 1 5 [.tick, .close, .feed [114, 101, 112, 101, 97, 116, 32, 49, 32, 114, 111, 117, 116, 101, 32, 103, 101, 116, 10]] = .freed :=
  ⟨⟨_, rfl, rfl, by decide +kernel, rfl, by decide +kernel, by decide +kernel⟩, rfl⟩

/-- C158 fails in the same way for commands carried out without a connection: their session is on
the stack. -/
theorem C158_stack_counterexample :
    (execute demo 1 [114, 101, 112, 101, 97, 116] (some [49, 32, 114, 111, 117, 116, 101, 32, 103, 101, 116])).1.timer.isSome = true := by
  decide +kernel

/-! ### C159: access lists -/

/-- C159: only commands the client may use are called in its session, directly, in a chain or by
`repeat`, and only these are shown by `help`. -/
theorem C159_access (e : Env) (r cfg : Nat) (ops : List Op) (s : Sess) (h : run e r cfg ops = .ok s) :
    (∀ n, .ran n ∈ s.d.log → Allowed e r n) ∧
    (∀ n, .helpFor n ∈ s.d.out ∨ .listed n ∈ s.d.out → Allowed e r n) := by
  have h1 := (acl_lift e r).run r cfg ⟨rfl, by simp, by simp⟩ ops s h
  exact ⟨h1.2.1, h1.2.2⟩

/-- C159: the same without a connection. -/
theorem C159_execute (e : Env) (r : Nat) (c : Bytes) (p : Option Bytes) :
    (∀ n, .ran n ∈ (execute e r c p).1.log → Allowed e r n) ∧
    (∀ n, .helpFor n ∈ (execute e r c p).1.out ∨ .listed n ∈ (execute e r c p).1.out → Allowed e r n) := by
  have h0 : AclInv e r { remote := r, echo := false, timeout := 0 } := ⟨rfl, by simp, by simp⟩
  have h1 := (h0.handle c p).stop
  exact ⟨h1.2.1, h1.2.2⟩

/-- Client 1 may use `route`, client 2 may not. -/
example : Allowed demo 1 [114, 111, 117, 116, 101] ∧ ¬ Allowed demo 2 [114, 111, 117, 116, 101] ∧
    (∃ s, run demo 1 5 [.feed [114, 111, 117, 116, 101, 10]] = .ok s ∧ Ev.ran [114, 111, 117, 116, 101] ∈ s.d.log) ∧
    (∃ s, run demo 2 5 [.feed [114, 111, 117, 116, 101, 10]] = .ok s ∧ Ev.ran [114, 111, 117, 116, 101] ∉ s.d.log) := by
  refine ⟨⟨⟨[114, 111, 117, 116, 101], some (· == 1), .ext false⟩, by simp [demo], rfl, ?_⟩, ?_, ⟨_, rfl, by decide +kernel⟩, ⟨_, rfl, by decide +kernel⟩⟩
  · intro f hf; cases hf; rfl
  · rintro ⟨c, hc, hn, hf⟩
    simp only [demo, List.mem_cons, List.not_mem_nil, or_false] at hc
    rcases hc with rfl | rfl | rfl | rfl | rfl | rfl <;> first | (cases hn; done) | skip
    have := hf _ rfl
    simp at this

/-! ### C160: answers -/

/-- C160: input adds one prompt, at the end of the output, if there was a complete line and the
session goes on and echoes; and none otherwise. -/
theorem C160_prompt (e : Env) (s : Sess) (bs : Bytes) (s' : Sess) (ha : s.active = true)
    (h : feed e s bs = .ok s') :
    ∃ o, .prompt ∉ o ∧ s'.d.out = s.d.out ++ o ++
      (if s'.active = true ∧ s'.d.echo = true ∧ lines (s.inb ++ bs) ≠ [] then [.prompt] else []) := by
  simp only [feed] at h
  split at h
  · cases h
  · split at h
    · cases h
    · rename_i r hr
      cases h
      obtain ⟨⟨o, ho, hp⟩, _⟩ := loop_quiet _ _ _ _ _ _ _ hr
      have hw := loop_worked _ _ _ _ _ _ hr
      simp only [Bool.false_eq_true, false_or] at hw
      refine ⟨o, hp, ?_⟩
      unfold conclude
      cases hq : r.quit
      · rw [if_neg (by simp)]
        simp only [true_and]
        by_cases hx : r.worked = true ∧ r.d.echo = true
        · rw [if_pos hx, if_pos ⟨hx.2, hw.mp hx.1⟩, ho]
        · rw [if_neg hx, if_neg (fun hc => hx ⟨hw.mpr hc.2, hc.1⟩), ho, List.append_nil]
      · rw [if_pos rfl]
        simp [ho]

theorem text_plain (l : Bytes) (h0 : 0 ∉ l) (h13 : 13 ∉ l) : text l = l := by
  unfold text
  rw [if_neg]
  · have h5 := List.takeWhile_append_of_pos (l₁ := l) (l₂ := []) (p := fun x => decide (x ≠ 0))
      (by intro a ha; simp; intro h; exact h0 (h ▸ ha))
    simpa using h5
  · intro h
    exact h13 (List.mem_of_getLast? h)

theorem handle_unknown {e : Env} {d : Data} {c p} (h : permitted e.cmds d.remote c = none) : handle e d c p = (d, .unknown) := by
  unfold handle
  rw [h]

theorem cutAt_end (l : Bytes) (h : 10 ∉ l) : (cutAt 10 (l ++ [10])).2 = some [] := by
  induction l with
  | nil => rfl
  | cons b l ih =>
    simp only [List.mem_cons, not_or] at h
    simp only [List.cons_append, cutAt]
    rw [if_neg (fun h' => h.1 h'.symm)]
    exact ih h.2

/-- The outcome of one complete plain line. -/
theorem feed_line (e : Env) (s : Sess) (l : Bytes) (hc : s.closed = false) (ha : s.active = true) (hi : s.inb = [])
    (h10 : 10 ∉ l) (h0 : 0 ∉ l) (h13 : 13 ∉ l) (h47 : l.head? ≠ some 47)
    (hq : (runPiece e false s.d l).2 = false) :
    feed e s (l ++ [10]) = .ok (conclude s true ⟨[], (runPiece e false s.d l).1, false, true⟩) := by
  have hcut : (cutAt 10 (l ++ [10])).2 = some [] ∧ (cutAt 10 (l ++ [10])).1 = l := by
    constructor
    · exact cutAt_end l h10
    · rw [cutAt_fst, List.takeWhile_append_of_pos (by intro a ha; simp; intro h; exact h10 (h ▸ ha))]
      simp
  have hline : runLine e s.d l = ((runPiece e false s.d l).1, false, false) := by
    unfold runLine
    split
    · rename_i t; exact absurd rfl h47
    · simp only [runPieces, hq]
      simp
  unfold feed
  rw [if_neg (by simp [hc]), if_neg (by simp [ha]), hi, List.nil_append]
  have hlen : (l ++ [10]).length = l.length + 1 := by simp
  rw [hlen]
  have : loop e true (l.length + 1) (l ++ [10]) s.d false = some ⟨[], (runPiece e false s.d l).1, false, true⟩ := by
    unfold loop
    rw [if_neg (by simp [hcut.1])]
    simp only [hcut.1, hcut.2, cstr_text, text_plain l h0 h13, hline]
    simp only [Bool.false_eq_true, if_false]
    cases l <;> (unfold loop; simp)
  rw [this]

/-- C160: a line that asks for something the client may not use, or nobody knows, is answered by an
error with its first word, an empty line and a prompt; nothing is called. -/
theorem C160_unknown (e : Env) (s : Sess) (l : Bytes) (q : Bytes × Option Bytes) (hc : s.closed = false)
    (ha : s.active = true) (hi : s.inb = []) (he : s.d.echo = true) (hs : s.d.stop = none)
    (h10 : 10 ∉ l) (h0 : 0 ∉ l) (h13 : 13 ∉ l) (h47 : l.head? ≠ some 47) (hq : asks l = some q)
    (hn : ∀ c, lookup e.cmds q.1 = some c → ∃ f, c.acl = some f ∧ f s.d.remote = false) :
    ∃ s', feed e s (l ++ [10]) = .ok s' ∧ s'.active = true ∧
      s'.d.out = s.d.out ++ [.unknown (word l), .nl, .prompt] ∧ s'.d.log = s.d.log ++ [.req q.1 q.2] := by
  have hstop : callStop s.d = s.d := by
    unfold callStop
    rw [hs]
  rw [asks_request] at hq
  split at hq
  · cases hq
  · rename_i hne
    cases hq
    have hperm : permitted e.cmds s.d.remote (request l).1 = none := by
      unfold permitted
      split
      · rename_i c hc'
        obtain ⟨f, hf, hf'⟩ := hn c hc'
        rw [if_neg]
        unfold accepted
        rw [hf]
        simp [hf']
      · rfl
    have hpiece : runPiece e false s.d l =
        ({ s.d with log := s.d.log ++ [.req (request l).1 (request l).2], out := s.d.out ++ [.unknown (word l)] ++ [.nl] }, false) := by
      unfold runPiece
      simp only [hstop]
      rw [if_neg hne, handle_unknown (by exact hperm)]
      rw [if_neg (by simp)]
      simp [report, he, cutAt_fst, word]
    refine ⟨_, feed_line e s l hc ha hi h10 h0 h13 h47 (by rw [hpiece]), ?_⟩
    rw [hpiece]
    simp [conclude, he]

theorem callStop_grows (d : Data) {l} (h : l <+: d.log) : l <+: (callStop d).log := by
  refine List.IsPrefix.trans h ?_
  unfold callStop
  split <;> simp

theorem perform_grows (e d a p) {l} (h : l <+: d.log) : l <+: (perform e d a p).1.log := by
  cases a <;> simp only [perform]
  · exact h
  · rw [help_log]; exact h
  · exact h
  · exact h
  · exact h
  · unfold external
    split
    · exact h
    · simp only
      split
      · exact List.IsPrefix.trans h (List.prefix_append _ _)
      · exact h

theorem handleSimple_grows (e d c p) {l} (h : l <+: d.log) : l <+: (handleSimple e d c p).1.log := by
  unfold handleSimple
  split
  · exact h
  · exact perform_grows _ _ _ _ (List.IsPrefix.trans h (List.prefix_append _ _))

theorem doRepeat_grows (e d p) {l} (h : l <+: d.log) : l <+: (doRepeat e d p).1.log := by
  unfold doRepeat
  split
  · exact h
  · split
    · exact h
    · split
      · exact h
      · simp only
        split
        · exact handleSimple_grows _ _ _ _ (List.IsPrefix.trans h (List.prefix_append _ _))
        · exact callStop_grows _ (handleSimple_grows _ _ _ _ (List.IsPrefix.trans h (List.prefix_append _ _)))

theorem handle_calls {e : Env} {d : Data} {n p c} (h : permitted e.cmds d.remote n = some c) :
    d.log ++ [.ran c.name] <+: (handle e d n p).1.log := by
  unfold handle
  rw [h]
  simp only
  split
  · exact doRepeat_grows _ _ _ (List.prefix_refl _)
  · exact perform_grows _ _ _ _ (List.prefix_refl _)

/-- C160: a line that asks for a command the client may use calls it, after the running continuous
command has been ended. -/
theorem C160_called (e : Env) (s : Sess) (l : Bytes) (q : Bytes × Option Bytes) (c : Cmd) (hc : s.closed = false)
    (ha : s.active = true) (hi : s.inb = [])
    (h10 : 10 ∉ l) (h0 : 0 ∉ l) (h13 : 13 ∉ l) (h47 : l.head? ≠ some 47) (hq : asks l = some q)
    (hl : lookup e.cmds q.1 = some c) (hacl : ∀ f, c.acl = some f → f s.d.remote = true)
    (hend : ¬ Ends e q.1) :
    ∃ s' y, feed e s (l ++ [10]) = .ok s' ∧ s'.active = true ∧
      s'.d.log = s.d.log ++ (s.d.stop.map fun x => Ev.ended x.num).toList ++ [.req q.1 q.2, .ran c.name] ++ y := by
  have hstop : (callStop s.d).log = s.d.log ++ (s.d.stop.map fun x => Ev.ended x.num).toList := by
    unfold callStop
    split
    · rename_i h; simp [h]
    · rename_i h; simp [h, Stop.num]
    · rename_i h; simp [h, Stop.num]
  have hq' := hq
  rw [asks_request] at hq
  split at hq
  · cases hq
  · rename_i hne
    cases hq
    have hperm : permitted e.cmds s.d.remote (request l).1 = some c := by
      unfold permitted
      rw [hl]
      simp only
      rw [if_pos ((accepted_iff _ _).mpr hacl)]
    have hnq : (runPiece e false s.d l).2 = false := by
      cases hx : (runPiece e false s.d l).2
      · rfl
      · obtain ⟨q, h1, h2⟩ := piece_quits hx
        rw [hq'] at h1
        cases h1
        exact absurd h2 hend
    have hgrow : ∃ y, (runPiece e false s.d l).1.log = s.d.log ++ (s.d.stop.map fun x => Ev.ended x.num).toList ++
        [.req (request l).1 (request l).2, .ran c.name] ++ y := by
      have hp : permitted e.cmds { callStop s.d with log := (callStop s.d).log ++ [Ev.req (request l).1 (request l).2] }.remote (request l).1 = some c := by
        simp only [(callStop_out s.d).2.1]
        exact hperm
      obtain ⟨y, hy⟩ := handle_calls (p := (request l).2) hp
      refine ⟨y, ?_⟩
      have : (runPiece e false s.d l).1.log = (handle e { callStop s.d with log := (callStop s.d).log ++ [Ev.req (request l).1 (request l).2] } (request l).1 (request l).2).1.log := by
        unfold runPiece
        simp only
        rw [if_neg hne]
        split
        · rfl
        · rw [report_log]
      rw [this, ← hy, hstop]
      simp
    obtain ⟨y, hy⟩ := hgrow
    refine ⟨_, y, feed_line e s l hc ha hi h10 h0 h13 h47 hnq, ?_⟩
    have hlog : (conclude s true ⟨[], (runPiece e false s.d l).1, false, true⟩).d.log = (runPiece e false s.d l).1.log := by
      unfold conclude
      simp only [Bool.false_eq_true, if_false]
      split <;> rfl
    rw [hlog]
    exact ⟨by simp [conclude], hy⟩

/-- `rout`, which nobody knows, and `route` by a client that may not use it. -/
example : (∃ s, run demo 2 5 [.feed [114, 111, 117, 116, 10]] = .ok s ∧ s.d.out = [.unknown [114, 111, 117, 116], .nl, .prompt]) ∧
    ∃ s, run demo 2 5 [.feed [114, 111, 117, 116, 101, 10]] = .ok s ∧ s.d.out = [.unknown [114, 111, 117, 116, 101], .nl, .prompt] :=
  ⟨⟨_, rfl, by decide +kernel⟩, _, rfl, by decide +kernel⟩

/-- C160 fails after a continuous command: once the session does not echo, no input makes it echo
again, and no prompt is printed any more. -/
theorem C160_echo_counterexample :
    (∀ (e : Env) (s : Sess) (bs : Bytes) (s' : Sess), s.d.echo = false → feed e s bs = .ok s' →
      s'.d.echo = false ∧ ∃ o, .prompt ∉ o ∧ s'.d.out = s.d.out ++ o) ∧
    ∃ s, run demo 1 5 [.feed [10], .feed [114, 101, 112, 101, 97, 116, 32, 49, 32, 101, 99, 104, 111, 32, 97, 10]] = .ok s ∧
      s.active = true ∧ s.d.stop = none ∧ s.d.timer = none ∧ s.d.echo = false := by
  refine ⟨fun e s bs s' he h => ?_, _, rfl, rfl, by decide +kernel, by decide +kernel, by decide +kernel⟩
  simp only [feed] at h
  split at h
  · cases h
  · split at h
    · cases h
      exact ⟨he, [], by simp, by simp⟩
    · split at h
      · cases h
      · rename_i r hr
        cases h
        obtain ⟨⟨o, ho, hp⟩, he'⟩ := loop_quiet _ _ _ _ _ _ _ hr
        have he2 := he' he
        have hd : (conclude s true r).d = r.d := by
          unfold conclude
          simp only [he2]
          split <;> simp
        rw [hd]
        exact ⟨he2, o, hp, ho⟩

end Verif.Telnet
