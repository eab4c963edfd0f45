import Verif.Log.CfgProps
import Verif.Log.Filter
import Verif.Str.Props
/-
C165: what `log add` and `log remove` do to the messages of a telnet session.
-/
namespace Verif.Log
open Spec Str

/-- Equal names, upper and lower case being the same. -/
def Alike (a b : Name) : Prop := a.map toLower = b.map toLower

/-- Source names are different, also without regard to case, and not empty. -/
def Tidy (names : List Name) : Prop :=
  (∀ (i j : Nat) (a b : Name), names[i]? = some a → names[j]? = some b → Alike a b → i = j) ∧ ∀ a ∈ names, a ≠ []

theorem findSome_none {α β} {f : α → Option β} {l : List α} (h : ∀ a ∈ l, f a = none) : l.findSome? f = none := by
  rw [List.findSome?_eq_none_iff]; exact h

theorem findSrc_some {names : List Name} (ht : Tidy names) {p ws} {w : List UInt8} (hp : Words p (w :: ws)) {i : Nat} {k : Name}
    (hi : names[i]? = some k) (ha : Alike w k) :
    ∃ r, findSrc names p = some (i, r) ∧ Words r ws := by
  have hk : k ≠ [] := ht.2 k (List.mem_of_getElem? hi)
  have h1 := C55_has_next hp k hk
  obtain ⟨r, hr⟩ : ∃ r, strHasNextWord p k = some r := Option.isSome_iff_exists.mp (h1.1.mpr ⟨w, ws, rfl, ha⟩)
  refine ⟨r, ?_, h1.2 r hr⟩
  have hlt : i < names.length := (List.getElem?_eq_some_iff.mp hi).1
  have hsplit : List.range names.length = List.range i ++ i :: (List.range' (i + 1) (names.length - (i + 1))) := by
    have h1 : List.range' i (names.length - (i + 1) + 1) = i :: List.range' (i + 1) (names.length - (i + 1)) := rfl
    have h2 := List.range'_append_1 (s := 0) (m := i) (n := names.length - (i + 1) + 1)
    rw [Nat.zero_add, h1] at h2
    rw [List.range_eq_range', List.range_eq_range', h2]
    congr 1
    omega
  unfold findSrc
  rw [hsplit, List.findSome?_append, findSome_none, List.findSome?_cons, hi]
  · simp [hr]
  · intro j hj
    rw [List.mem_range] at hj
    cases hjk : names[j]? with
    | none => rfl
    | some a =>
      simp only [Option.bind_some, Option.map_eq_none_iff]
      have h2 := C55_has_next hp a (ht.2 a (List.mem_of_getElem? hjk))
      cases hx : strHasNextWord p a with
      | none => rfl
      | some r' =>
        obtain ⟨w', rest, he, hal⟩ := h2.1.mp (by rw [hx]; rfl)
        cases he
        have := ht.1 j i a k hjk hi (hal.symm.trans ha)
        omega

theorem findSrc_none {names : List Name} (hne : ∀ a ∈ names, a ≠ []) {p ws} {w : List UInt8} (hp : Words p (w :: ws))
    (h : ∀ k ∈ names, ¬ Alike w k) : findSrc names p = none := by
  apply findSome_none
  intro j hj
  cases hjk : names[j]? with
  | none => rfl
  | some a =>
    simp only [Option.bind_some, Option.map_eq_none_iff]
    have hm := List.mem_of_getElem? hjk
    have h2 := C55_has_next hp a (hne a hm)
    cases hx : strHasNextWord p a with
    | none => rfl
    | some r' =>
      obtain ⟨w', rest, he, hal⟩ := h2.1.mp (by rw [hx]; rfl)
      cases he
      exact absurd hal (h a hm)

theorem words_ne {p w ws} (h : Words p (w :: ws)) : p ≠ [] := by
  intro h0
  subst h0
  generalize hg : ([] : List UInt8) = q at h
  cases h with
  | more b w r ws hb hw hne hr h =>
    have := congrArg List.length hg
    simp only [List.length_nil, List.length_append] at this
    exact hne (List.length_eq_zero_iff.mp (by omega))

theorem skipBlank_twice (s : List UInt8) : skipBlank (skipBlank s) = skipBlank s := by
  unfold skipBlank
  induction s with
  | nil => rfl
  | cons c s ih =>
    by_cases h : isBlank c = true
    · simp only [List.dropWhile_cons, h, if_true]; exact ih
    · simp [h]

theorem has_skipped {p k r : List UInt8} (h : strHasNextWord p k = some r) : skipBlank r = r := by
  unfold strHasNextWord at h
  simp only at h
  split at h
  · cases h; rfl
  · split at h
    · cases h; exact skipBlank_twice _
    · cases h
  · cases h

theorem findSrc_skipped {names p i r} (h : findSrc names p = some (i, r)) : skipBlank r = r := by
  unfold findSrc at h
  obtain ⟨j, _, hj⟩ := List.exists_of_findSome?_eq_some h
  simp only [Option.bind_eq_some_iff, Option.map_eq_some_iff] at hj
  obtain ⟨k, _, r', h1, h2⟩ := hj
  cases h2
  exact has_skipped h1

theorem words_length {p ws} (h : Words p ws) : ws.length ≤ p.length := by
  induction h with
  | none b hb => simp
  | more b w r ws hb hw hne hr h ih =>
    have := List.length_pos_iff.mpr hne
    simp only [List.length_append, List.length_cons]
    omega

theorem words_nil {p} (h : Words p []) (hs : skipBlank p = p) : p = [] := by
  have := (skip_empty_iff h).2 rfl
  rw [hs] at this
  exact this

/-- The sources named in a list of words. -/
def Named (names : List Name) (ws : List (List UInt8)) (src : Nat) : Prop :=
  ∃ w ∈ ws, ∃ k, names[src]? = some k ∧ Alike w k

open Classical in
/-- The loop over good words. -/
theorem filterLoop_good {names : List Name} (ht : Tidy names) (add : Bool) (sev : Sev) :
    ∀ (ws : List (List UInt8)) (fuel : Nat) (p : List UInt8) (m : Mask), Words p ws → skipBlank p = p → ws.length < fuel →
    (∀ w ∈ ws, ∃ k ∈ names, Alike w k) →
    (filterLoop names add sev fuel p m).2 = .nothing ∧
    ∀ i s, has (filterLoop names add sev fuel p m).1 i s = true ↔
      (if s = sev ∧ Named names ws i then add = true else has m i s = true) := by
  intro ws
  induction ws with
  | nil =>
    intro fuel p m hp hs hf _
    cases fuel with
    | zero => omega
    | succ fuel =>
      unfold filterLoop
      rw [if_pos (words_nil hp hs)]
      refine ⟨rfl, fun i s => ?_⟩
      rw [if_neg (by rintro ⟨_, w, hw, _⟩; cases hw)]
  | cons w ws ih =>
    intro fuel p m hp hs hf hk
    cases fuel with
    | zero => omega
    | succ fuel =>
      obtain ⟨k, hkm, hal⟩ := hk w List.mem_cons_self
      obtain ⟨i, hi⟩ := List.mem_iff_getElem?.mp hkm
      obtain ⟨r, hr, hw⟩ := findSrc_some ht hp hi hal
      unfold filterLoop
      rw [if_neg (words_ne hp), hr]
      simp only
      simp only [List.length_cons] at hf
      obtain ⟨h1, h2⟩ := ih fuel r (if add then set m i sev else reset m i sev) hw (findSrc_skipped hr) (by omega)
        (fun w hw => hk w (List.mem_cons_of_mem _ hw))
      refine ⟨h1, fun j s => ?_⟩
      rw [h2]
      by_cases hn : s = sev ∧ Named names ws j
      · rw [if_pos hn, if_pos ⟨hn.1, by obtain ⟨w', a, b⟩ := hn.2; exact ⟨w', List.mem_cons_of_mem _ a, b⟩⟩]
      · rw [if_neg hn]
        by_cases hij : j = i ∧ s = sev
        · obtain ⟨rfl, rfl⟩ := hij
          have hin : s = s ∧ Named names (w :: ws) j := ⟨rfl, w, List.mem_cons_self, k, hi, hal⟩
          rw [if_pos hin]
          cases add
          · simp [has_reset]
          · simp [has_set]
        · have hn' : ¬ (s = sev ∧ Named names (w :: ws) j) := by
            rintro ⟨hs', w', hw', k', hk', hal'⟩
            rcases List.mem_cons.mp hw' with rfl | hw'
            · exact hij ⟨ht.1 j i k' k hk' hi (hal'.symm.trans hal), hs'⟩
            · exact hn ⟨hs', w', hw', k', hk', hal'⟩
          rw [if_neg hn']
          have : (decide (j = i) && decide (s = sev)) = false := by
            rw [Bool.and_eq_false_iff, decide_eq_false_iff_not, decide_eq_false_iff_not]
            by_cases h : j = i
            · exact .inr (fun hs' => hij ⟨h, hs'⟩)
            · exact .inl h
          cases add
          · simp [has_reset, this]
          · simp [has_set, this]

/-- C165: the severities are called `DEBUG`, `INFO`, `WARN` and `ASSERT`. -/
theorem C165_names : (List.finRange 4).map sevName = ["DEBUG", "INFO", "WARN", "ASSERT"].map (·.toUTF8.toList) := by
  decide +kernel

theorem sevName_ne (s : Sev) : sevName s ≠ [] := by revert s; decide +kernel

theorem sevName_inj : ∀ s t : Sev, Alike (sevName s) (sevName t) → s = t := by
  unfold Alike
  decide +kernel

theorem findSev_some {p ws} {w : List UInt8} (hp : Words p (w :: ws)) (s : Sev) (ha : Alike w (sevName s)) :
    ∃ r, findSev p = some (s, r) ∧ Words r ws ∧ skipBlank r = r := by
  have h1 := C55_has_next hp (sevName s) (sevName_ne s)
  obtain ⟨r, hr⟩ : ∃ r, strHasNextWord p (sevName s) = some r := Option.isSome_iff_exists.mp (h1.1.mpr ⟨w, ws, rfl, ha⟩)
  have hno : ∀ t, t ≠ s → strHasNextWord p (sevName t) = none := by
    intro t hts
    cases hx : strHasNextWord p (sevName t) with
    | none => rfl
    | some r' =>
      obtain ⟨w', rest, he, hal⟩ := (C55_has_next hp (sevName t) (sevName_ne t)).1.mp (by rw [hx]; rfl)
      cases he
      exact absurd (sevName_inj t s (hal.symm.trans ha)) hts
  refine ⟨r, ?_, h1.2 r hr, has_skipped hr⟩
  unfold findSev
  have hl : List.finRange 4 = [0, 1, 2, 3] := by decide +kernel
  rw [hl]
  match s, hr, hno with
  | 0, hr, hno => simp [hr]
  | 1, hr, hno => simp [hr, hno 0 (by decide)]
  | 2, hr, hno => simp [hr, hno 0 (by decide), hno 1 (by decide)]
  | 3, hr, hno => simp [hr, hno 0 (by decide), hno 1 (by decide), hno 2 (by decide)]

open Classical in
/-- C165, for the severities debug, info and warn and known sources: the command changes exactly the
entries of the named sources for the named severity, and prints nothing. -/
theorem C165_entries_partial (names : List Name) (ht : Tidy names) (add : Bool) (m : Mask) (p : List UInt8) (w : List UInt8)
    (ws : List (List UInt8)) (s : Sev) (hp : Words p (w :: ws)) (hw : Alike w (sevName s)) (hs : s ≠ 3)
    (hk : ∀ w ∈ ws, ∃ k ∈ names, Alike w k) :
    (updateFilter names add m p).2 = .nothing ∧
    ∀ i t, has (updateFilter names add m p).1 i t = true ↔
      (if t = s ∧ Named names ws i then add = true else has m i t = true) := by
  obtain ⟨r, h1, h2, h3⟩ := findSev_some hp s hw
  unfold updateFilter
  rw [h1]
  simp only
  rw [if_neg hs]
  have := words_length h2
  exact filterLoop_good ht add s ws _ r m h2 h3 (by omega) hk

/-- C165: after `log add` the session gets what it got before and the named severity and higher ones
of the named sources (or of all sources, if `all` is named). -/
theorem C165_add_partial (names : List Name) (ht : Tidy names) (m : Mask) (p : List UInt8) (w : List UInt8)
    (ws : List (List UInt8)) (s : Sev) (hp : Words p (w :: ws)) (hw : Alike w (sevName s)) (hs : s ≠ 3)
    (hk : ∀ w ∈ ws, ∃ k ∈ names, Alike w k) (src : Nat) (sev : Sev) :
    wants (updateFilter names true m p).1 src sev = true ↔
      (wants m src sev = true ∨ (s ≤ sev ∧ (Named names ws src ∨ Named names ws 0))) := by
  have h := (C165_entries_partial names ht true m p w ws s hp hw hs hk).2
  rw [wants_iff, wants_iff]
  have h' : ∀ i t, has (updateFilter names true m p).1 i t = true ↔ (has m i t = true ∨ (t = s ∧ Named names ws i)) := by
    intro i t
    rw [h i t]
    split
    · rename_i hx; exact ⟨fun _ => .inr hx, fun _ => rfl⟩
    · rename_i hx; exact ⟨.inl, fun h => h.resolve_right hx⟩
  constructor
  · rintro ⟨t, hle, h1⟩
    rw [h', h'] at h1
    rcases h1 with (h1 | ⟨rfl, h1⟩) | (h1 | ⟨rfl, h1⟩)
    · exact .inl ⟨t, hle, .inl h1⟩
    · exact .inr ⟨hle, .inl h1⟩
    · exact .inl ⟨t, hle, .inr h1⟩
    · exact .inr ⟨hle, .inr h1⟩
  · rintro (⟨t, hle, h1⟩ | ⟨hle, h1⟩)
    · exact ⟨t, hle, h1.imp (fun h => (h' _ _).mpr (.inl h)) (fun h => (h' _ _).mpr (.inl h))⟩
    · exact ⟨s, hle, h1.imp (fun h => (h' _ _).mpr (.inr ⟨rfl, h⟩)) (fun h => (h' _ _).mpr (.inr ⟨rfl, h⟩))⟩

/-- C165: after `log remove` the session does not get messages of the severity and the sources any
more, if it does not ask for lower severities of the source, and not for all sources. -/
theorem C165_remove_partial (names : List Name) (ht : Tidy names) (m : Mask) (p : List UInt8) (w : List UInt8)
    (ws : List (List UInt8)) (s : Sev) (hp : Words p (w :: ws)) (hw : Alike w (sevName s)) (hs : s ≠ 3)
    (hk : ∀ w ∈ ws, ∃ k ∈ names, Alike w k) (src : Nat) (hsrc : Named names ws src)
    (hlow : ∀ t < s, has m src t = false) (hall : ∀ t ≤ s, has m 0 t = false) :
    wants (updateFilter names false m p).1 src s = false := by
  have h := (C165_entries_partial names ht false m p w ws s hp hw hs hk).2
  rw [Bool.eq_false_iff]
  intro hx
  rw [wants_iff] at hx
  obtain ⟨t, hle, h1 | h1⟩ := hx
  · rw [h] at h1
    split at h1
    · cases h1
    · rename_i hn
      have hne : t ≠ s := fun he => hn ⟨he, hsrc⟩
      rw [hlow t (Fin.lt_iff_le_and_ne.mpr ⟨hle, hne⟩)] at h1
      cases h1
  · rw [h] at h1
    split at h1
    · cases h1
    · rw [hall t hle] at h1
      cases h1

theorem core_tidy : Tidy core := by
  refine ⟨?_, by decide +kernel⟩
  have key : ∀ i j : Fin 6, core[i.val].map toLower = core[j.val].map toLower → i = j := by decide +kernel
  intro i j a b hi hj he
  obtain ⟨hi', rfl⟩ := List.getElem?_eq_some_iff.mp hi
  obtain ⟨hj', rfl⟩ := List.getElem?_eq_some_iff.mp hj
  have := key ⟨i, hi'⟩ ⟨j, hj'⟩ he
  exact congrArg Fin.val this

/-- `debug main Config`. -/
example : let p : List UInt8 := [100, 101, 98, 117, 103, 32, 109, 97, 105, 110, 32, 67, 111, 110, 102, 105, 103]
    ((updateFilter core true clear p).2 = .nothing ∧ wants (updateFilter core true clear p).1 3 0 = true ∧
      wants (updateFilter core true clear p).1 2 0 = false) ∧
    Words p [[100, 101, 98, 117, 103], [109, 97, 105, 110], [67, 111, 110, 102, 105, 103]] := by
  refine ⟨by decide +kernel, ?_⟩
  refine Words.more [] [100, 101, 98, 117, 103] [32, 109, 97, 105, 110, 32, 67, 111, 110, 102, 105, 103] _ (by simp)
    (by decide +kernel) (by simp) (by decide +kernel) ?_
  refine Words.more [32] [109, 97, 105, 110] [32, 67, 111, 110, 102, 105, 103] _ (by decide +kernel)
    (by decide +kernel) (by simp) (by decide +kernel) ?_
  exact Words.more [32] [67, 111, 110, 102, 105, 103] [] [] (by decide +kernel)
    (by decide +kernel) (by simp) (by simp) (.none [] (by simp))

/-! ### where it fails -/

/-- C165 fails for unknown severities: nothing is changed, but no error is printed; the severity
`assert` is called unknown. -/
theorem C165_severity_counterexample (names : List Name) (add : Bool) (m : Mask) (p : List UInt8) (w : List UInt8)
    (ws : List (List UInt8)) (hp : Words p (w :: ws)) :
    ((∀ s, ¬ Alike w (sevName s)) → updateFilter names add m p = (m, .nothing)) ∧
    (Alike w (sevName 3) → updateFilter names add m p = (m, .badSeverity)) := by
  constructor
  · intro h
    have : findSev p = none := by
      apply findSome_none
      intro s _
      cases hx : strHasNextWord p (sevName s) with
      | none => rfl
      | some r' =>
        obtain ⟨w', rest, he, hal⟩ := (C55_has_next hp (sevName s) (sevName_ne s)).1.mp (by rw [hx]; rfl)
        cases he
        exact absurd hal (h s)
    unfold updateFilter
    rw [this]
  · intro h
    obtain ⟨r, h1, _⟩ := findSev_some hp 3 h
    unfold updateFilter
    rw [h1]
    simp

/-- C165 fails for unknown sources: the command is refused, but the sources before the unknown one
are changed: `log add debug main nobody`. -/
theorem C165_refused_counterexample :
    let r := updateFilter core true clear [100, 101, 98, 117, 103, 32, 109, 97, 105, 110, 32, 110, 111, 98, 111, 100, 121]
    r.2 = .badSource ∧ wants r.1 1 0 = true ∧ wants clear 1 0 = false := by
  decide +kernel

/-- C165 fails for `log remove debug all` in a session of a program that logs debug messages of all
sources: the mask of the session is a copy of the calculated global mask, in which each source has its
own entry. -/
theorem C165_all_counterexample : ∃ st,
    run 9 1 2 [.add 1 (fun i => if i = 0 then 13#8 else 12#8) false] = .ok st ∧
    ∀ src, 0 < src →
      wants (updateFilter core false (sessionMask st) [100, 101, 98, 117, 103, 32, 97, 108, 108]).1 src 0 = true := by
  refine ⟨_, rfl, fun src hs => ?_⟩
  have hp : Words [100, 101, 98, 117, 103, 32, 97, 108, 108] [[100, 101, 98, 117, 103], [97, 108, 108]] := by
    refine Words.more [] [100, 101, 98, 117, 103] [32, 97, 108, 108] _ (by simp) (by decide +kernel) (by simp) (by decide +kernel) ?_
    exact Words.more [32] [97, 108, 108] [] [] (by decide +kernel) (by decide +kernel) (by simp) (by simp) (.none [] (by simp))
  rw [wants_iff]
  refine ⟨0, Fin.le_refl _, .inl ?_⟩
  rw [(C165_entries_partial core core_tidy false _ _ _ _ 0 hp (by unfold Alike; decide +kernel) (by decide)
    (by intro w hw; simp only [List.mem_singleton] at hw; subst hw; exact ⟨[97, 108, 108], by decide +kernel, rfl⟩)).2]
  rw [if_neg]
  · have hi := run_inv 9 1 2 [.add 1 (fun i => if i = 0 then 13#8 else 12#8) false] _ rfl
    unfold sessionMask
    rw [hi.glob (by simp [Log.add, update])]
    simp only [Bool.or_eq_true, List.any_eq_true]
    refine .inr ⟨⟨1, fun i => if i = 0 then 13#8 else 12#8, _, false⟩, List.mem_map.mpr ⟨_, List.mem_append_right _ List.mem_cons_self, rfl⟩, ?_⟩
    rw [wants_iff]
    exact ⟨0, Fin.le_refl _, .inr (by decide +kernel)⟩
  · rintro ⟨_, w, hw, k, hk, ha⟩
    simp only [List.mem_singleton] at hw
    subst hw
    have := core_tidy.1 0 src [97, 108, 108] k rfl hk ha
    omega

/-- C165 fails for `log remove info main` if debug messages of the source are asked for: information
is still shown. -/
theorem C165_lower_counterexample (m : Mask) (src : Nat) (s t : Sev) (h : t < s) (hm : has m src t = true) :
    wants (reset m src s) src s = true := by
  rw [wants_iff]
  refine ⟨t, Fin.le_of_lt h, .inl ?_⟩
  rw [has_reset, hm]
  have : t ≠ s := fun he => by subst he; exact absurd h (Fin.lt_irrefl _)
  simp [this]

end Verif.Log
