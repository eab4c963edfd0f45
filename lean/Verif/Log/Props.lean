import Verif.Log.Spec
/-
C163: every message reaches exactly the handlers that want it.
-/
namespace Verif.Log
open Spec

/-! ### masks -/

theorem spread_table : ∀ (a : Fin 256) (sev : Sev),
    (spread (BitVec.ofFin (w := 8) a) &&& bit sev != 0#8) =
      (List.finRange 4).any (fun s => decide (s ≤ sev) && (BitVec.ofFin (w := 8) a).getLsbD s.val) := by
  decide +kernel

theorem spread_bit (x : BitVec 8) (sev : Sev) :
    (spread x &&& bit sev != 0#8) = (List.finRange 4).any (fun s => decide (s ≤ sev) && x.getLsbD s.val) :=
  spread_table x.toFin sev

theorem test_processed (u : Mask) (src : Nat) (sev : Sev) : test (processed u) src sev = wants u src sev := by
  unfold test processed wants
  rw [spread_bit]
  simp only [BitVec.getLsbD_or, has]

theorem test_eq (m : Mask) (src : Nat) (sev : Sev) : test m src sev = has m src sev := by
  have key : ∀ (a : Fin 256) (sev : Sev), (BitVec.ofFin (w := 8) a &&& bit sev != 0#8) = (BitVec.ofFin (w := 8) a).getLsbD sev.val := by
    decide +kernel
  exact key (m src).toFin sev

theorem fold_bit (hs : List Handler) (src : Nat) (i : Nat) (g : BitVec 8) :
    (hs.foldl (fun g h => g ||| h.proc src) g).getLsbD i = (g.getLsbD i || hs.any fun h => (h.proc src).getLsbD i) := by
  induction hs generalizing g with
  | nil => simp
  | cons h hs ih => simp [ih, Bool.or_assoc]

theorem clear_bit (src : Nat) (sev : Sev) : has clear src sev = decide (2 ≤ sev) := by
  have key : ∀ sev : Sev, (12#8).getLsbD sev.val = decide (2 ≤ sev) := by decide +kernel
  exact key sev

/-! ### the state follows the history -/

/-- Handlers as registered, masks up to date. -/
structure Inv (ops : List Op) (st : State) : Prop where
  hs : st.hs.map (fun h => (h.id, h.user, h.console)) = registered ops
  proc : ∀ h ∈ st.hs, h.proc = processed h.user
  glob : st.hs ≠ [] → ∀ src sev, has st.glob src sev = (decide (2 ≤ sev) || st.hs.any fun h => wants h.user src sev)

theorem update_hs (st : State) : (update st).hs.map (fun h => (h.id, h.user, h.console)) = st.hs.map (fun h => (h.id, h.user, h.console)) := by
  simp [update, Function.comp_def]

theorem update_glob (st : State) (src : Nat) (sev : Sev) :
    has (update st).glob src sev = (decide (2 ≤ sev) || (update st).hs.any fun h => wants h.user src sev) := by
  have h1 : has (update st).glob src sev = (has clear src sev || (update st).hs.any fun h => has h.proc src sev) := by
    simp only [has, update, fold_bit]
  rw [h1, clear_bit]
  congr 1
  simp only [update, List.any_map]
  congr 1
  funext h
  simp only [Function.comp_apply, ← test_eq, test_processed]

theorem update_inv (ops : List Op) (st : State)
    (h : st.hs.map (fun h => (h.id, h.user, h.console)) = registered ops) : Inv ops (update st) where
  hs := by rw [update_hs, h]
  proc := by
    intro h hh
    simp only [update, List.mem_map] at hh
    obtain ⟨x, _, rfl⟩ := hh
    rfl
  glob := fun _ src sev => update_glob st src sev

/-- What a message leaves alone. -/
def Same (a b : State) : Prop := b.hs = a.hs ∧ b.glob = a.glob

theorem each_same (fd : Nat) (nest : State → Outcome) (m : Msg)
    (hn : ∀ st st', nest st = .ok st' → Same st st') :
    ∀ hs st st', each fd nest m hs st = .ok st' → Same st st' := by
  intro hs
  induction hs with
  | nil => intro st st' h; cases h; exact ⟨rfl, rfl⟩
  | cons x hs ih =>
    intro st st' h
    unfold each at h
    split at h
    · simp only at h
      split at h
      · split at h
        · rename_i st1 h1
          have a := hn _ _ h1
          have b := ih _ _ h
          exact ⟨b.1.trans a.1, b.2.trans a.2⟩
        · rename_i o ho
          exact absurd h (ho st')
      · have b := ih _ _ h
        exact ⟨b.1, b.2⟩
    · exact ih _ _ h

theorem log_same (fd n : Nat) : ∀ st m st', log fd n st m = .ok st' → Same st st' := by
  induction n with
  | zero => intro st m st' h; cases h
  | succ n ih =>
    intro st m st' h
    unfold log at h
    simp only at h
    split at h
    · cases h
    · have := each_same fd _ m (fun a b h => ih a _ b h) _ _ _ h
      exact ⟨this.1, this.2⟩

theorem emit_same {fd n st m st'} (h : emit fd n st m = .ok st') : Same st st' := by
  unfold emit at h
  split at h
  · exact log_same fd n _ _ _ h
  · cases h; exact ⟨rfl, rfl⟩

theorem run_inv (fd n : Nat) (sev : Sev) : ∀ ops st, run fd n sev ops = .ok st → Inv ops st := by
  intro ops
  induction ops with
  | nil =>
    intro st h
    cases h
    exact ⟨rfl, by simp [init], by simp [init]⟩
  | cons o ops ih =>
    intro st h
    unfold run at h
    split at h
    · rename_i st0 h0
      have i0 := ih st0 h0
      cases o with
      | add id m c =>
        cases h
        refine update_inv _ _ ?_
        simp [registered, i0.hs]
      | remove id =>
        cases h
        refine update_inv _ _ ?_
        simp only [registered, ← i0.hs, List.filter_map]
        rfl
      | change id m =>
        cases h
        refine update_inv _ _ ?_
        simp only [registered, ← i0.hs, List.map_map]
        congr 1
        funext h
        simp only [Function.comp_apply]
        split <;> rfl
      | emit m =>
        have s := emit_same h
        exact ⟨by rw [s.1]; exact i0.hs, by rw [s.1]; exact i0.proc, by rw [s.1, s.2]; exact i0.glob⟩
    · rename_i hx
      exact absurd h (hx st)

/-! ### delivery -/

theorem each_calm (fd : Nat) (nest : State → Outcome) (m : Msg) :
    ∀ (hs : List Handler) (st : State), (∀ h ∈ hs, h.console = false ∨ test st.glob fd 0 = false) → st.buf = some m →
    ∃ st', each fd nest m hs st = .ok st' ∧ st'.warnings = st.warnings ∧
      st'.out = st.out ++ (hs.filter fun h => test h.proc m.src m.sev).map fun h => (h.id, some m) := by
  intro hs
  induction hs with
  | nil => intro st _ _; exact ⟨st, rfl, rfl, by simp⟩
  | cons x hs ih =>
    intro st hc hb
    unfold each
    cases hx : test x.proc m.src m.sev
    · simp only [Bool.false_eq_true, if_false]
      obtain ⟨st', h1, h2, h3⟩ := ih st (fun h hh => hc h (List.mem_cons_of_mem _ hh)) hb
      exact ⟨st', h1, h2, by rw [h3, List.filter_cons, hx]; rfl⟩
    · simp only [if_true]
      have hn : (x.console && test st.glob (modified fd).src (modified fd).sev) = false := by
        rcases hc x List.mem_cons_self with h | h
        · rw [h]; rfl
        · have : test st.glob (modified fd).src (modified fd).sev = test st.glob fd 0 := rfl
          rw [this, h]; simp
      rw [hn]
      simp only [Bool.false_eq_true, if_false]
      obtain ⟨st', h1, h2, h3⟩ := ih { st with out := st.out ++ [(x.id, st.buf)] } (fun h hh => hc h (List.mem_cons_of_mem _ hh)) hb
      refine ⟨st', h1, h2, ?_⟩
      rw [h3, List.filter_cons, hx]
      simp [hb]

theorem receivers_eq {ops st} (i : Inv ops st) (m : Msg) :
    (st.hs.filter fun h => test h.proc m.src m.sev).map (fun h => (h.id, some m)) = (receivers ops m).map fun k => (k, some m) := by
  unfold receivers
  rw [← i.hs, List.filter_map, List.map_map, List.map_map]
  have : st.hs.filter (fun h => test h.proc m.src m.sev) =
      st.hs.filter ((fun r : Nat × Mask × Bool => wants r.2.1 m.src m.sev) ∘ fun h => (h.id, h.user, h.console)) := by
    apply List.filter_congr
    intro h hh
    rw [i.proc h hh, test_processed]
    rfl
  rw [this]
  rfl

/-- C163, while writing a message does not cause another one: after every history, a message is
written by exactly the registered handlers that want it, with its text, in the order of
registration. -/
theorem C163_delivered_partial (fd n : Nat) (sev : Sev) (ops : List Op) (st : State) (m : Msg) (hn : 0 < n)
    (h : run fd n sev ops = .ok st) (hr : registered ops ≠ []) (hc : Calm fd ops) :
    ∃ st', run fd n sev (.emit m :: ops) = .ok st' ∧
      st'.out = st.out ++ (receivers ops m).map fun k => (k, some m) := by
  have i := run_inv fd n sev ops st h
  have hne : st.hs ≠ [] := by
    intro h0
    rw [← i.hs, h0] at hr
    exact hr rfl
  have hcalm : ∀ h ∈ st.hs, h.console = false ∨ test st.glob fd 0 = false := by
    intro x hx
    rcases hc with hc | hc
    · exact .inl (hc (x.id, x.user, x.console) (by rw [← i.hs]; exact List.mem_map_of_mem hx))
    · right
      rw [test_eq, i.glob hne]
      simp only [Bool.or_eq_false_iff, List.any_eq_false]
      refine ⟨by decide, fun y hy => ?_⟩
      have := hc (y.id, y.user, y.console) (by rw [← i.hs]; exact List.mem_map_of_mem hy)
      simpa using this
  rw [← receivers_eq i]
  simp only [run, h, step, emit]
  cases hg : test st.glob m.src m.sev
  · refine ⟨st, by simp, ?_⟩
    have : st.hs.filter (fun h => test h.proc m.src m.sev) = [] := by
      rw [List.filter_eq_nil_iff]
      intro x hx
      rw [test_eq, i.glob hne] at hg
      simp only [Bool.or_eq_false_iff, List.any_eq_false] at hg
      rw [i.proc x hx, test_processed]
      exact hg.2 x hx
    rw [this]
    simp
  · obtain ⟨k, rfl⟩ : ∃ k, n = k + 1 := ⟨n - 1, by omega⟩
    simp only [if_true]
    unfold log
    simp only
    rw [if_neg hne]
    obtain ⟨st', h1, _, h3⟩ := each_calm fd (fun st => log fd k st (modified fd)) m st.hs
      { st with buf := some m, warnings := count m st.warnings } hcalm rfl
    exact ⟨st', h1, h3⟩

/-- Source 5, a handler for debug messages of source 5 and one for information of all sources. -/
example : ∃ st, run 9 1 2 [.emit ⟨1, 3, 7⟩, .emit ⟨0, 5, 8⟩, .add 2 (fun i => if i = 0 then 2#8 else 0#8) true,
      .add 1 (fun i => if i = 5 then 1#8 else 4#8) false] = .ok st ∧
    st.out = [(1, some ⟨0, 5, 8⟩), (2, some ⟨1, 3, 7⟩)] := ⟨_, rfl, by decide +kernel⟩

/-- Nobody misses warnings as long as its mask names them. -/
theorem C163_warnings (m : Mask) (src : Nat) (sev : Sev) (h : has m src 2 = true) (hs : 2 ≤ sev) : wants m src sev = true := by
  unfold wants
  rw [List.any_eq_true]
  exact ⟨2, List.mem_finRange _, by simp [hs, h]⟩

/-! ### the number of warnings -/

theorem each_warnings (fd : Nat) (nest : State → Outcome) (m : Msg)
    (hn : ∀ st st', nest st = .ok st' → st'.warnings = st.warnings) :
    ∀ hs st st', each fd nest m hs st = .ok st' → st'.warnings = st.warnings := by
  intro hs
  induction hs with
  | nil => intro st st' h; cases h; rfl
  | cons x hs ih =>
    intro st st' h
    unfold each at h
    split at h
    · simp only at h
      split at h
      · split at h
        · rename_i st1 h1
          have := hn _ _ h1
          exact (ih _ _ h).trans this
        · rename_i o ho
          exact absurd h (ho st')
      · have := ih _ _ h
        exact this
    · exact ih _ _ h

theorem log_nested (fd n : Nat) : ∀ st st', log fd n st (modified fd) = .ok st' → st'.warnings = st.warnings := by
  induction n with
  | zero => intro st st' h; cases h
  | succ n ih =>
    intro st st' h
    unfold log at h
    simp only at h
    split at h
    · cases h
    · have := each_warnings fd _ (modified fd) (fun a b h => ih a b h) _ _ _ h
      rw [this]
      rfl

theorem init_glob (sev : Sev) (hs : sev ≤ 2) (src : Nat) (s : Sev) (h : 2 ≤ s) : has (init sev).glob src s = true := by
  have key : ∀ sev s : Sev, sev ≤ 2 → 2 ≤ s →
      ((List.finRange 4).foldl (fun m s => if sev ≤ s then m ||| bit s else m) 0#8).getLsbD s.val = true := by decide +kernel
  exact key sev s hs h

theorem glob_warn (fd n : Nat) (sev : Sev) (hs : sev ≤ 2) : ∀ ops st, run fd n sev ops = .ok st →
    ∀ src s, 2 ≤ s → has st.glob src s = true := by
  intro ops
  induction ops with
  | nil => intro st h src s h2; cases h; exact init_glob sev hs src s h2
  | cons o ops ih =>
    intro st h src s h2
    unfold run at h
    split at h
    · rename_i st0 h0
      cases o with
      | add id m c => cases h; simp [Log.add, update_glob, h2]
      | remove id => cases h; simp [Log.remove, update_glob, h2]
      | change id m => cases h; simp [Log.change, update_glob, h2]
      | emit m => rw [(emit_same h).2]; exact ih st0 h0 src s h2
    · rename_i hx
      exact absurd h (hx st)

/-- C163: the number of warnings shown for a source is the number of its warnings, whatever the
handlers do. -/
theorem C163_counted (fd n : Nat) (sev : Sev) (hs : sev ≤ 2) (src : Nat) (h0 : src ≠ 0) :
    ∀ ops st, run fd n sev ops = .ok st → st.warnings src = warned src ops % 2 ^ 32 := by
  intro ops
  induction ops with
  | nil => intro st h; cases h; rfl
  | cons o ops ih =>
    intro st h
    have hrun := h
    unfold run at h
    split at h
    · rename_i st0 h1
      have i0 := ih st0 h1
      cases o with
      | add id m c => cases h; exact i0
      | remove id => cases h; exact i0
      | change id m => cases h; exact i0
      | emit m =>
        simp only [warned]
        simp only [step, emit] at h
        split at h
        · cases n with
          | zero => cases h
          | succ n =>
            unfold log at h
            simp only at h
            split at h
            · cases h
            · have := each_warnings fd _ m (fun a b h => log_nested fd n a b h) _ _ _ h
              rw [this]
              simp only [count]
              by_cases hm : m.sev = 2
              · rw [if_pos hm]
                simp only [if_neg h0]
                by_cases he : m.src = src
                · rw [if_pos he.symm, if_pos ⟨hm, he⟩, i0]
                  omega
                · rw [if_neg (fun h : src = m.src => he h.symm), if_neg (fun h => he h.2), i0]
                  omega
              · rw [if_neg hm, if_neg (fun h => hm h.1), i0]
                omega
        · rename_i ht
          cases h
          have hm : m.sev ≠ 2 := by
            intro hm
            have := glob_warn fd n sev hs ops st h1 m.src m.sev (by rw [hm]; decide)
            rw [← test_eq] at this
            exact ht this
          rw [if_neg (fun h => hm h.1), i0]
          omega
    · rename_i hx
      exact absurd h (hx st)

example : ∃ st, run 9 1 2 [.emit ⟨2, 3, 7⟩, .emit ⟨2, 4, 7⟩, .emit ⟨1, 3, 7⟩, .emit ⟨2, 3, 7⟩, .add 1 clear false] = .ok st ∧
    st.warnings 3 = 2 ∧ st.warnings 0 = 3 := ⟨_, rfl, by decide +kernel, by decide +kernel⟩

/-! ### where it fails -/

/-- C163 fails without handlers: a warning before the configuration is applied, or after the
handlers were removed, dereferences NULL instead of being written to stderr. -/
theorem C163_null_counterexample (fd n : Nat) (sev : Sev) (ops : List Op) (st : State) (m : Msg) (hn : 0 < n)
    (hs : sev ≤ 2) (h : run fd n sev ops = .ok st) (hr : registered ops = []) (hm : 2 ≤ m.sev) :
    run fd n sev (.emit m :: ops) = .null := by
  have i := run_inv fd n sev ops st h
  have hne : st.hs = [] := by
    have := i.hs
    rw [hr] at this
    exact List.map_eq_nil_iff.mp this
  have hg := glob_warn fd n sev hs ops st h m.src m.sev hm
  obtain ⟨k, rfl⟩ : ∃ k, n = k + 1 := ⟨n - 1, by omega⟩
  simp only [run, h, step, emit, test_eq, hg, if_true]
  unfold log
  simp only
  rw [if_pos hne]

/-- The first warning after the start of the program. -/
example : run 9 1 2 [.emit ⟨2, 1, 0⟩] = .null := rfl

theorem each_deep (fd : Nat) (nest : State → Outcome) (m : Msg) (h : Handler)
    (hw : test h.proc m.src m.sev = true) (hc : h.console = true) :
    ∀ hs st, h ∈ hs → test st.glob fd 0 = true →
    (∀ st', Same st st' → nest st' = .deep) → each fd nest m hs st = .deep := by
  intro hs
  induction hs with
  | nil => intro st hm; cases hm
  | cons x hs ih =>
    intro st hm hg hd
    unfold each
    have hg' : test st.glob (modified fd).src (modified fd).sev = true := hg
    split
    · simp only
      have hd' := hd { st with out := st.out ++ [(x.id, st.buf)] } ⟨rfl, rfl⟩
      split
      · rw [hd']
      · rename_i hcc
        rcases List.mem_cons.mp hm with rfl | hm'
        · exact absurd (by rw [hc, hg']; rfl) hcc
        · exact ih { st with out := st.out ++ [(x.id, st.buf)] } hm' hg (fun st' hs => hd st' hs)
    · rename_i hx
      rcases List.mem_cons.mp hm with rfl | hm'
      · exact absurd hw hx
      · exact ih _ hm' hg hd

theorem log_deep (fd : Nat) (h : Handler) (hc : h.console = true) (hw : test h.proc fd 0 = true) (n : Nat) :
    ∀ st m, h ∈ st.hs → test st.glob fd 0 = true → test h.proc m.src m.sev = true → log fd n st m = .deep := by
  induction n with
  | zero => intros; rfl
  | succ n ih =>
    intro st m hm hg hwm
    unfold log
    simp only
    rw [if_neg (by intro h0; rw [h0] at hm; cases hm)]
    refine each_deep fd _ m h hwm hc st.hs _ hm hg ?_
    intro st' hs
    refine ih st' (modified fd) ?_ ?_ hw
    · rw [hs.1]; exact hm
    · rw [hs.2]; exact hg

/-- C163 fails for a telnet console that shows the debug messages of the sockets: every message it
shows asks for write events, which is again such a message, without end. -/
theorem C163_endless_counterexample (fd k : Nat) (sev : Sev) (ops : List Op) (st : State) (id : Nat) (mask : Mask) (m : Msg)
    (h : run fd k sev ops = .ok st) (hr : (id, mask, true) ∈ registered ops) (hfd : wants mask fd 0 = true)
    (hm : wants mask m.src m.sev = true) : ∀ n, emit fd n st m = .deep := by
  intro n
  have i := run_inv fd k sev ops st h
  rw [← i.hs] at hr
  obtain ⟨x, hx, he⟩ := List.mem_map.mp hr
  simp only [Prod.mk.injEq] at he
  obtain ⟨_, hu, hcon⟩ := he
  rw [← hu] at hfd hm
  have hne : st.hs ≠ [] := by intro h0; rw [h0] at hx; cases hx
  have hp := i.proc x hx
  have hg : ∀ src s, wants x.user src s = true → test st.glob src s = true := by
    intro src s hw
    rw [test_eq, i.glob hne]
    simp only [Bool.or_eq_true, List.any_eq_true]
    exact .inr ⟨x, hx, hw⟩
  unfold emit
  rw [if_pos (hg _ _ hm)]
  exact log_deep fd x hcon (by rw [hp, test_processed, hfd]) n st m hx (hg _ _ hfd) (by rw [hp, test_processed, hm])

/-- `log.debug` is set to `all`, somebody types `log`: the mask of the console is the global one. -/
example : ∀ n, ∃ st, run 9 1 2 [.add 2 (fun _ => 15#8) true, .add 1 (fun i => if i = 0 then 13#8 else 12#8) false] = .ok st ∧
    emit 9 n st ⟨2, 1, 0⟩ = .deep := fun n => ⟨_, rfl, C163_endless_counterexample 9 1 2
      [.add 2 (fun _ => 15#8) true, .add 1 (fun i => if i = 0 then 13#8 else 12#8) false] _ 2 (fun _ => 15#8) _ rfl
      (by simp [registered]) (by decide +kernel) (by decide +kernel) n⟩

/-- C163 fails for two consoles while a file has the debug messages of the sockets: the second
console gets the text of such a message instead of the warning. -/
theorem C163_text_counterexample :
    ∃ st, run 9 2 2 [.emit ⟨2, 1, 77⟩, .add 3 clear true, .add 2 clear true, .add 1 (fun i => if i = 9 then 13#8 else 12#8) false] = .ok st ∧
      (1, some ⟨2, 1, 77⟩) ∈ st.out ∧ (3, some ⟨2, 1, 77⟩) ∉ st.out ∧ (3, some ⟨0, 9, 0⟩) ∈ st.out ∧
      wants clear 9 0 = false :=
  ⟨_, rfl, by decide +kernel, by decide +kernel, by decide +kernel, by decide +kernel⟩

end Verif.Log
