import Verif.Icv.Registry

namespace Verif.Icv.Reg

/-! ## C132: a signature works exactly while its algorithms are loaded -/

/-- the pointers of a signature are the loaded algorithms of its types (null if they are not loaded), and it is
registered exactly if it has both -/
def Sound (st : St) (s : Sig) : Prop :=
  s.hash = (if s.hashT ∈ st.hashes then some (.hash s.hashT) else none) ∧
  s.crypt = (if s.cryptT ∈ st.crypts then some (.crypt s.cryptT) else none) ∧
  (s.reg = true ↔ s.hashT ∈ st.hashes ∧ s.cryptT ∈ st.crypts)

theorem handle_hash (s : Sig) : (handle s).hash = s.hash ∧ (handle s).crypt = s.crypt ∧ (handle s).hashT = s.hashT ∧
    (handle s).cryptT = s.cryptT ∧ (handle s).id = s.id := by
  unfold handle
  split
  · exact ⟨rfl, rfl, rfl, rfl, rfl⟩
  · split <;> exact ⟨rfl, rfl, rfl, rfl, rfl⟩

theorem handle_reg (s : Sig) : (handle s).reg = (s.hash.isSome && s.crypt.isSome) := by
  unfold handle
  cases h : s.reg <;> cases hh : s.hash <;> cases hc : s.crypt <;> simp [h]

/-- a signature which is settled after `_handle_postprocessor` -/
theorem sound_handle {st : St} {s : Sig} (h1 : s.hash = (if s.hashT ∈ st.hashes then some (.hash s.hashT) else none))
    (h2 : s.crypt = (if s.cryptT ∈ st.crypts then some (.crypt s.cryptT) else none)) : Sound st (handle s) := by
  obtain ⟨a, b, c, d, _⟩ := handle_hash s
  refine ⟨by rw [a, c, h1], by rw [b, d, h2], ?_⟩
  rw [handle_reg, c, d, h1, h2]
  by_cases x : s.hashT ∈ st.hashes <;> by_cases y : s.cryptT ∈ st.crypts <;> simp [x, y]


/-- one step keeps all signatures sound, unless it loads an encryption function -/
theorem step_sound {st : St} {o : Op} (h : ∀ s ∈ st.sigs, Sound st s)
    (ho : ∀ t, o = .addCrypt t → ∀ s ∈ st.sigs, s.hashT ≠ t ∧ s.cryptT ≠ t) : ∀ s ∈ (step st o).sigs, Sound (step st o) s := by
  cases o with
  | addHash t =>
    unfold step; dsimp only
    by_cases c : t ∈ st.hashes
    · rw [if_pos c]; exact h
    rw [if_neg c]
    intro s0 hs0
    obtain ⟨s, hs, rfl⟩ := List.mem_map.mp hs0
    obtain ⟨a, b, d⟩ := h s hs
    unfold hashAdded
    by_cases e : s.hashT = t
    · have hn : s.hash = none := by rw [a, if_neg (by rw [e]; exact c)]
      rw [if_pos ⟨e, hn⟩]
      apply sound_handle
      · show _ = if s.hashT ∈ t :: st.hashes then _ else _
        rw [if_pos (by rw [e]; exact List.mem_cons_self), e]
      · exact b
    · rw [if_neg (fun x => e x.1)]
      have hm : s.hashT ∈ t :: st.hashes ↔ s.hashT ∈ st.hashes := by simp [e]
      refine ⟨?_, b, ?_⟩
      · show _ = if s.hashT ∈ t :: st.hashes then _ else _
        rw [a]; simp only [hm]
      · show _ ↔ s.hashT ∈ t :: st.hashes ∧ _
        rw [hm]; exact d
  | removeHash t =>
    unfold step; dsimp only
    by_cases c : t ∈ st.hashes
    rotate_left
    · rw [if_neg c]; exact h
    rw [if_pos c]
    intro s0 hs0
    obtain ⟨s, hs, rfl⟩ := List.mem_map.mp hs0
    obtain ⟨a, b, d⟩ := h s hs
    unfold hashRemoved
    by_cases e : s.hashT = t
    · have hn : s.hash ≠ none := by rw [a, if_pos (by rw [e]; exact c)]; exact nofun
      rw [if_pos ⟨e, hn⟩]
      apply sound_handle
      · show none = if s.hashT ∈ st.hashes.filter _ then _ else _
        rw [if_neg (by rw [e]; simp)]
      · exact b
    · rw [if_neg (fun x => e x.1)]
      have hm : s.hashT ∈ st.hashes.filter (· ≠ t) ↔ s.hashT ∈ st.hashes := by simp [e]
      refine ⟨?_, b, ?_⟩
      · show _ = if s.hashT ∈ st.hashes.filter _ then _ else _
        rw [a]; simp only [hm]
      · show _ ↔ s.hashT ∈ st.hashes.filter _ ∧ _
        rw [hm]; exact d
  | addCrypt t =>
    unfold step; dsimp only
    by_cases c : t ∈ st.crypts
    · rw [if_pos c]; exact h
    rw [if_neg c]
    intro s0 hs0
    obtain ⟨s, hs, rfl⟩ := List.mem_map.mp hs0
    obtain ⟨a, b, d⟩ := h s hs
    obtain ⟨e1, e2⟩ := ho t rfl s hs
    unfold hashAdded
    rw [if_neg (fun x => e1 x.1)]
    have hm : s.cryptT ∈ t :: st.crypts ↔ s.cryptT ∈ st.crypts := by simp [e2]
    refine ⟨a, ?_, ?_⟩
    · show _ = if s.cryptT ∈ t :: st.crypts then _ else _
      rw [b]; simp only [hm]
    · show _ ↔ _ ∧ s.cryptT ∈ t :: st.crypts
      rw [hm]; exact d
  | removeCrypt t =>
    unfold step; dsimp only
    by_cases c : t ∈ st.crypts
    rotate_left
    · rw [if_neg c]; exact h
    rw [if_pos c]
    intro s0 hs0
    obtain ⟨s, hs, rfl⟩ := List.mem_map.mp hs0
    obtain ⟨a, b, d⟩ := h s hs
    unfold cryptRemoved
    by_cases e : s.cryptT = t
    · have hn : s.crypt ≠ none := by rw [b, if_pos (by rw [e]; exact c)]; exact nofun
      rw [if_pos ⟨e, hn⟩]
      apply sound_handle
      · exact a
      · show none = if s.cryptT ∈ st.crypts.filter _ then _ else _
        rw [if_neg (by rw [e]; simp)]
    · rw [if_neg (fun x => e x.1)]
      have hm : s.cryptT ∈ st.crypts.filter (· ≠ t) ↔ s.cryptT ∈ st.crypts := by simp [e]
      refine ⟨a, ?_, ?_⟩
      · show _ = if s.cryptT ∈ st.crypts.filter _ then _ else _
        rw [b]; simp only [hm]
      · show _ ↔ _ ∧ s.cryptT ∈ st.crypts.filter _
        rw [hm]; exact d
  | addSig id hT cT =>
    intro s0 hs0
    rcases List.mem_cons.mp hs0 with rfl | hs
    · exact sound_handle rfl rfl
    · exact h s0 hs
  | removeSig id =>
    intro s0 hs0
    exact h s0 (List.mem_filter.mp hs0).1

/-- C132 (what holds): as long as no encryption function is loaded while a signature with its number as hash or
encryption type exists, every signature is used exactly while both algorithms are loaded, and has the right
ones. -/
theorem C132_loaded_partial (ops : List Op)
    (h : ∀ pre t rest, ops = pre ++ .addCrypt t :: rest → ∀ s ∈ (run pre).sigs, s.hashT ≠ t ∧ s.cryptT ≠ t) :
    ∀ s ∈ (run ops).sigs, s.hash = (if s.hashT ∈ (run ops).hashes then some (.hash s.hashT) else none) ∧
      s.crypt = (if s.cryptT ∈ (run ops).crypts then some (.crypt s.cryptT) else none) ∧
      (s.reg = true ↔ s.hashT ∈ (run ops).hashes ∧ s.cryptT ∈ (run ops).crypts) := by
  have key : ∀ (n : Nat) (ops : List Op), ops.length = n →
      (∀ pre t rest, ops = pre ++ .addCrypt t :: rest → ∀ s ∈ (run pre).sigs, s.hashT ≠ t ∧ s.cryptT ≠ t) →
      ∀ s ∈ (run ops).sigs, Sound (run ops) s := by
    intro n
    induction n with
    | zero =>
      intro ops hn _ s hs
      rw [List.length_eq_zero_iff.mp hn] at hs
      cases hs
    | succ n ih =>
      intro ops hn hh
      have hne : ops ≠ [] := by intro e; rw [e] at hn; cases hn
      obtain ⟨pre, o, rfl⟩ : ∃ pre o, ops = pre ++ [o] := ⟨ops.dropLast, ops.getLast hne, (List.dropLast_concat_getLast hne).symm⟩
      have hr : run (pre ++ [o]) = step (run pre) o := by unfold run; rw [List.foldl_append]; rfl
      rw [hr]
      apply step_sound
      · exact ih pre (by simpa using hn) (fun p t r e => hh p t (r ++ [o]) (by rw [e]; simp))
      · intro t e
        exact hh pre t [] (by rw [e])
  exact key ops.length ops rfl h

example : (run [.addHash 3, .addCrypt 3, .addSig 1 3 3, .addSig 2 4 3, .removeHash 3, .addHash 4]).sigs =
    [⟨2, 4, 3, some (.hash 4), some (.crypt 3), true⟩, ⟨1, 3, 3, none, some (.crypt 3), false⟩] := by decide

/-- C132 (in any case): a signature is never used for sending while one of its pointers is null, and a pointer to an
unloaded encryption function is never kept. -/
theorem C132_no_null_partial (ops : List Op) : ∀ s ∈ (run ops).sigs, (s.reg = true ↔ s.hash ≠ none ∧ s.crypt ≠ none) ∧
    (s.crypt ≠ none → s.crypt = some (.crypt s.cryptT) ∧ s.cryptT ∈ (run ops).crypts) := by
  have hd : ∀ s : Sig, (handle s).reg = true ↔ (handle s).hash ≠ none ∧ (handle s).crypt ≠ none := by
    intro s
    obtain ⟨a, b, _, _, _⟩ := handle_hash s
    rw [handle_reg, a, b]
    cases s.hash <;> cases s.crypt <;> simp
  have key : ∀ (ops : List Op) (st : St), (∀ s ∈ st.sigs, (s.reg = true ↔ s.hash ≠ none ∧ s.crypt ≠ none) ∧
      (s.crypt ≠ none → s.crypt = some (.crypt s.cryptT) ∧ s.cryptT ∈ st.crypts)) →
      ∀ s ∈ (ops.foldl step st).sigs, (s.reg = true ↔ s.hash ≠ none ∧ s.crypt ≠ none) ∧
      (s.crypt ≠ none → s.crypt = some (.crypt s.cryptT) ∧ s.cryptT ∈ (ops.foldl step st).crypts) := by
    intro ops
    induction ops with
    | nil => intro st h; exact h
    | cons o ops ih =>
      intro st h
      apply ih
      cases o with
      | addHash t =>
        unfold step; dsimp only
        split
        · exact h
        · intro s0 hs0
          obtain ⟨s, hs, rfl⟩ := List.mem_map.mp hs0
          unfold hashAdded
          split
          · refine ⟨hd _, ?_⟩
            obtain ⟨_, b, _, d, _⟩ := handle_hash { s with hash := some (.hash t) }
            rw [b, d]
            exact (h s hs).2
          · exact h s hs
      | removeHash t =>
        unfold step; dsimp only
        split
        · intro s0 hs0
          obtain ⟨s, hs, rfl⟩ := List.mem_map.mp hs0
          unfold hashRemoved
          split
          · refine ⟨hd _, ?_⟩
            obtain ⟨_, b, _, d, _⟩ := handle_hash { s with hash := none }
            rw [b, d]
            exact (h s hs).2
          · exact h s hs
        · exact h
      | addCrypt t =>
        unfold step; dsimp only
        split
        · exact h
        · intro s0 hs0
          obtain ⟨s, hs, rfl⟩ := List.mem_map.mp hs0
          unfold hashAdded
          split
          · refine ⟨hd _, ?_⟩
            obtain ⟨_, b, _, d, _⟩ := handle_hash { s with hash := some (.crypt t) }
            rw [b, d]
            intro hc
            exact ⟨((h s hs).2 hc).1, List.mem_cons_of_mem _ ((h s hs).2 hc).2⟩
          · refine ⟨(h s hs).1, fun hc => ⟨((h s hs).2 hc).1, List.mem_cons_of_mem _ ((h s hs).2 hc).2⟩⟩
      | removeCrypt t =>
        unfold step; dsimp only
        split
        · intro s0 hs0
          obtain ⟨s, hs, rfl⟩ := List.mem_map.mp hs0
          unfold cryptRemoved
          split
          · refine ⟨hd _, ?_⟩
            obtain ⟨_, b, _, _, _⟩ := handle_hash { s with crypt := none }
            rw [b]
            exact fun hc => absurd rfl hc
          · next hn =>
            refine ⟨(h s hs).1, fun hc => ⟨((h s hs).2 hc).1, ?_⟩⟩
            refine List.mem_filter.mpr ⟨((h s hs).2 hc).2, ?_⟩
            have : s.cryptT ≠ t := fun e => hn ⟨e, hc⟩
            simpa using this
        · exact h
      | addSig id hT cT =>
        intro s0 hs0
        rcases List.mem_cons.mp hs0 with rfl | hs
        · refine ⟨hd _, ?_⟩
          obtain ⟨_, b, _, d, _⟩ := handle_hash ⟨id, hT, cT, if hT ∈ st.hashes then some (.hash hT) else none, if cT ∈ st.crypts then some (.crypt cT) else none, false⟩
          rw [b, d]
          show _ → (if cT ∈ st.crypts then some (Obj.crypt cT) else none) = _ ∧ cT ∈ st.crypts
          by_cases c : cT ∈ st.crypts
          · rw [if_pos c]; exact fun _ => ⟨rfl, c⟩
          · dsimp only; rw [if_neg c]; exact fun hc => absurd rfl hc
        · exact h s0 hs
      | removeSig id =>
        intro s0 hs0
        exact h s0 (List.mem_filter.mp hs0).1
  exact key ops _ (fun s hs => nomatch hs)

/-- C132 fails: a signature which was configured before its encryption function was loaded is never used,
whatever is loaded later (until the encryption function is unloaded and the signature configured again). -/
theorem C132_never_active_counterexample (id : Nat) (h c : UInt8) (ops : List Op) (hs : ∀ o ∈ ops, ∀ i a b, o ≠ .addSig i a b) :
    ∀ s ∈ (run (.addSig id h c :: ops)).sigs, s.reg = false := by
  have key : ∀ (ops : List Op) (st : St), (∀ o ∈ ops, ∀ i a b, o ≠ .addSig i a b) → (∀ s ∈ st.sigs, s.crypt = none ∧ s.reg = false) →
      ∀ s ∈ (ops.foldl step st).sigs, s.crypt = none ∧ s.reg = false := by
    intro ops
    induction ops with
    | nil => intro st _ h; exact h
    | cons o ops ih =>
      intro st ho h
      apply ih _ (fun o' h' => ho o' (List.mem_cons_of_mem _ h'))
      have hh : ∀ s : Sig, s.crypt = none → (handle s).crypt = none ∧ (handle s).reg = false := by
        intro s hc
        obtain ⟨_, b, _, _, _⟩ := handle_hash s
        rw [handle_reg, b, hc]
        cases s.hash <;> exact ⟨rfl, rfl⟩
      cases o with
      | addHash t =>
        unfold step; dsimp only
        split
        · exact h
        · intro s0 hs0
          obtain ⟨s, hs, rfl⟩ := List.mem_map.mp hs0
          unfold hashAdded
          split
          · exact hh _ (h s hs).1
          · exact h s hs
      | removeHash t =>
        unfold step; dsimp only
        split
        · intro s0 hs0
          obtain ⟨s, hs, rfl⟩ := List.mem_map.mp hs0
          unfold hashRemoved
          split
          · exact hh _ (h s hs).1
          · exact h s hs
        · exact h
      | addCrypt t =>
        unfold step; dsimp only
        split
        · exact h
        · intro s0 hs0
          obtain ⟨s, hs, rfl⟩ := List.mem_map.mp hs0
          unfold hashAdded
          split
          · exact hh _ (h s hs).1
          · exact h s hs
      | removeCrypt t =>
        unfold step; dsimp only
        split
        · intro s0 hs0
          obtain ⟨s, hs, rfl⟩ := List.mem_map.mp hs0
          unfold cryptRemoved
          split
          · exact hh _ rfl
          · exact h s hs
        · exact h
      | addSig i a b => exact absurd rfl (ho _ List.mem_cons_self i a b)
      | removeSig id =>
        intro s0 hs0
        exact h s0 (List.mem_filter.mp hs0).1
  intro s hm
  refine (key ops (step ⟨[], [], []⟩ (.addSig id h c)) hs ?_ s hm).2
  intro s0 hs0
  simp [step, handle] at hs0
  subst hs0
  exact ⟨rfl, rfl⟩

example : (run [.addSig 1 3 3, .addHash 3, .addCrypt 3]).hashes = [3] ∧ (run [.addSig 1 3 3, .addHash 3, .addCrypt 3]).crypts = [3] ∧
    (run [.addSig 1 3 3, .addHash 3, .addCrypt 3]).sigs = [⟨1, 3, 3, some (.hash 3), none, false⟩] := by decide

/-- C132 fails: loading an encryption function makes it the hash function of every signature which waits for a hash
function of the same number. -/
theorem C132_confusion_counterexample (ops : List Op) (t : UInt8) (ht : t ∉ (run ops).crypts) (s : Sig) (hs : s ∈ (run ops).sigs)
    (hn : s.hash = none) (he : s.hashT = t) : ∃ s' ∈ (run (ops ++ [.addCrypt t])).sigs, s'.id = s.id ∧ s'.hashT = t ∧ s'.hash = some (.crypt t) := by
  have hr : run (ops ++ [.addCrypt t]) = step (run ops) (.addCrypt t) := by unfold run; rw [List.foldl_append]; rfl
  rw [hr]
  unfold step; dsimp only
  rw [if_neg ht]
  refine ⟨_, List.mem_map.mpr ⟨s, hs, rfl⟩, ?_⟩
  unfold hashAdded
  rw [if_pos ⟨he, hn⟩]
  obtain ⟨a, _, c, _, e⟩ := handle_hash { s with hash := some (.crypt t) }
  exact ⟨e, c.trans he, a⟩

example : (run [.addSig 1 3 0, .addCrypt 0, .addCrypt 3]).sigs = [⟨1, 3, 0, some (.crypt 3), none, false⟩] := by decide

end Verif.Icv.Reg
