import Verif.Cfg.Lemmas

namespace Verif.Cfg

theorem vals_eq (d : Db) (t : Str) (n : Option Str) (e : Str) :
    vals d t n e = (findNamed d t n).bind fun s => (find Entry.key s.entries (some e)).map (·.vals) := by
  unfold vals findEntry
  cases findNamed d t n <;> rfl

/-! ### Effect of the operations -/

/-- C102: adding a section creates it if it is missing and changes nothing else. -/
theorem C102_addSection (d : Db) (t : Str) (n : Option Str) (t' : Str) (n' : Option Str) (e' : Str) :
    has (addSection d t n) t' n' = (has d t' n' || decide (SameSec t n t' n')) ∧ vals (addSection d t n) t' n' e' = vals d t' n' e' := by
  rw [vals_eq, vals_eq]
  unfold has
  rw [findNamed_addSection]
  by_cases h : SameSec t n t' n'
  · rw [if_pos h]
    rw [decide_eq_true h]
    cases findNamed d t' n' <;> simp [find]
  · rw [if_neg h, decide_eq_false h]
    simp

/-- C102: setting an entry creates the section and the entry if necessary, puts the value in front of the old ones, behind them, or replaces
them, and changes nothing else. -/
theorem C102_setEntry (d : Db) (t : Str) (n : Option Str) (e v : Str) (a f : Bool) (t' : Str) (n' : Option Str) (e' : Str) :
    has (setEntry d t n e v a f) t' n' = (has d t' n' || decide (SameSec t n t' n')) ∧
    vals (setEntry d t n e v a f) t' n' e' =
      if SameEntry t n e t' n' e' then
        some (let old := if a then (vals d t' n' e').getD [] else []
              if f then [v] ++ old else old ++ [v])
      else vals d t' n' e' := by
  rw [vals_eq, vals_eq]
  unfold has setEntry
  rw [findNamed_updNamed _ _ _ (by intro s; rfl), findNamed_addSection]
  by_cases h : SameSec t n t' n'
  · rw [if_pos h, if_pos h]
    constructor
    · rw [decide_eq_true h]; simp
    · simp only [Option.map_some, Option.bind_some]
      rw [find_setIn]
      by_cases he : Same (some e) (some e')
      · rw [if_pos he, if_pos ⟨h.1, h.2, he⟩]
        cases hn : findNamed d t' n' with
        | none => simp [find, addVal]
        | some s =>
          simp only [Option.getD_some, Option.map_some, Option.bind_some]
          cases find Entry.key s.entries (some e') <;> simp [addVal]
      · rw [if_neg he, if_neg (fun x => he x.2.2)]
        cases findNamed d t' n' <;> simp [find]
  · rw [if_neg h, if_neg h, if_neg (fun x => h ⟨x.1, x.2.1⟩), decide_eq_false h]
    simp

/-- C102: removing a section type removes all its sections and their entries and nothing else; the result tells if there was one. -/
theorem C102_removeType (d : Db) (t t' : Str) (n' : Option Str) (e' : Str) :
    has (removeType d t).1 t' n' = (has d t' n' && !decide (Same (some t) (some t'))) ∧
    vals (removeType d t).1 t' n' e' = (if Same (some t) (some t') then none else vals d t' n' e') ∧
    ((removeType d t).2 = false → ∀ n, has d t n = false) := by
  rw [vals_eq, vals_eq]
  unfold has removeType
  cases hd : findType d t with
  | none =>
    dsimp only
    have hno : ∀ t', Same (some t) (some t') → ∀ n, findNamed d t' n = none := by
      intro t' h n
      unfold findNamed
      rw [← findType_congr d h, hd]
    refine ⟨?_, ?_, fun _ n => by rw [hno t rfl]; rfl⟩
    · by_cases h : Same (some t) (some t')
      · rw [hno t' h]; simp
      · simp [h]
    · by_cases h : Same (some t) (some t')
      · rw [hno t' h, if_pos h]; rfl
      · rw [if_neg h]
  | some s =>
    dsimp only
    have : findNamed (del SType.key d (some t)) t' n' = if Same (some t) (some t') then none else findNamed d t' n' := by
      unfold findNamed findType
      rw [find_del]
      by_cases h : Same (some t) (some t')
      · rw [if_pos h, if_pos h]
      · rw [if_neg h, if_neg h]
    rw [this]
    refine ⟨?_, ?_, fun h => (nomatch h)⟩
    · by_cases h : Same (some t) (some t')
      · rw [if_pos h, decide_eq_true h]; simp
      · rw [if_neg h, decide_eq_false h]; simp
    · by_cases h : Same (some t) (some t')
      · rw [if_pos h, if_pos h]; rfl
      · rw [if_neg h, if_neg h]

/-- C102: removing a section removes it and its entries and nothing else; the result tells if it was there. -/
theorem C102_removeNamed (d : Db) (t : Str) (n : Option Str) (t' : Str) (n' : Option Str) (e' : Str) :
    has (removeNamed d t n).1 t' n' = (has d t' n' && !decide (SameSec t n t' n')) ∧
    vals (removeNamed d t n).1 t' n' e' = (if SameSec t n t' n' then none else vals d t' n' e') ∧
    (removeNamed d t n).2 = has d t n := by
  rw [vals_eq, vals_eq]
  unfold has removeNamed
  cases hd : findNamed d t n with
  | none =>
    dsimp only
    have hno : SameSec t n t' n' → findNamed d t' n' = none := fun h => by rw [← findNamed_congr d h]; exact hd
    refine ⟨?_, ?_, rfl⟩
    · by_cases h : SameSec t n t' n'
      · rw [hno h]; simp
      · rw [decide_eq_false h]; simp
    · by_cases h : SameSec t n t' n'
      · rw [hno h, if_pos h]; rfl
      · rw [if_neg h]
  | some s =>
    dsimp only
    have : findNamed (upd SType.key d (some t) fun s => { s with names := del Named.name s.names n }) t' n' =
        if SameSec t n t' n' then none else findNamed d t' n' := by
      unfold findNamed
      rw [findType_upd d t t' (by intro s; rfl)]
      by_cases h : Same (some t) (some t')
      · rw [if_pos h]
        cases findType d t' with
        | none => simp
        | some s =>
          simp only [Option.map_some]
          rw [find_del]
          by_cases h2 : Same n n'
          · rw [if_pos h2, if_pos ⟨h, h2⟩]
          · rw [if_neg h2, if_neg (fun x => h2 x.2)]
      · rw [if_neg h, if_neg (fun x => h x.1)]
    rw [this]
    refine ⟨?_, ?_, rfl⟩
    · by_cases h : SameSec t n t' n'
      · rw [if_pos h, decide_eq_true h]; simp
      · rw [if_neg h, decide_eq_false h]; simp
    · by_cases h : SameSec t n t' n'
      · rw [if_pos h, if_pos h]; rfl
      · rw [if_neg h, if_neg h]

/-- C102: removing an entry removes it and nothing else; the result tells if it was there. -/
theorem C102_removeEntry (d : Db) (t : Str) (n : Option Str) (e : Str) (t' : Str) (n' : Option Str) (e' : Str) :
    has (removeEntry d t n e).1 t' n' = has d t' n' ∧
    vals (removeEntry d t n e).1 t' n' e' = (if SameEntry t n e t' n' e' then none else vals d t' n' e') ∧
    (removeEntry d t n e).2 = (vals d t n e).isSome := by
  unfold removeEntry
  cases hd : findEntry d t n e with
  | none =>
    dsimp only
    refine ⟨rfl, ?_, by unfold vals; rw [hd]; rfl⟩
    by_cases h : SameEntry t n e t' n' e'
    · rw [if_pos h]
      unfold vals
      rw [← findEntry_congr d h, hd]; rfl
    · rw [if_neg h]
  | some x =>
    dsimp only
    refine ⟨?_, ?_, by unfold vals; rw [hd]; rfl⟩
    · unfold has
      rw [findNamed_updNamed _ _ _ (by intro s; rfl)]
      by_cases h : SameSec t n t' n'
      · rw [if_pos h]; simp
      · rw [if_neg h]
    · rw [vals_eq, vals_eq, findNamed_updNamed _ _ _ (by intro s; rfl)]
      by_cases h : SameSec t n t' n'
      · rw [if_pos h]
        cases findNamed d t' n' with
        | none => simp
        | some s =>
          simp only [Option.map_some, Option.bind_some]
          rw [find_del]
          by_cases he : Same (some e) (some e')
          · rw [if_pos he, if_pos ⟨h.1, h.2, he⟩]; rfl
          · rw [if_neg he, if_neg (fun x => he x.2.2)]
      · rw [if_neg h, if_neg (fun x => h ⟨x.1, x.2.1⟩)]

/-- C102: removing a value removes its first copy, and the entry if there is no other value, and nothing else; the result tells if it was there. -/
theorem C102_removeElement {d : Db} (hd : Wf d) (t : Str) (n : Option Str) (e v : Str) (t' : Str) (n' : Option Str) (e' : Str) :
    has (removeElement d t n e v).1 t' n' = has d t' n' ∧
    vals (removeElement d t n e v).1 t' n' e' =
      (if SameEntry t n e t' n' e' then
        match vals d t n e with
        | none => none
        | some vs => if vs.erase v = [] then none else some (vs.erase v)
       else vals d t' n' e') ∧
    ((removeElement d t n e v).2 = true ↔ ∃ vs, vals d t n e = some vs ∧ v ∈ vs) := by
  have hne : ∀ x, findEntry d t n e = some x → x.vals ≠ [] := by
    intro x hx
    unfold findEntry findNamed findType at hx
    split at hx
    · cases hx
    rename_i s hs
    split at hs
    · cases hs
    rename_i st hst
    exact hd.vals st (find_mem hst).1 s (find_mem hs).1 x (find_mem hx).1
  have hsame : ∀ x, findEntry d t n e = some x → SameEntry t n e t' n' e' → vals d t' n' e' = some x.vals := by
    intro x hx h
    unfold vals; rw [← findEntry_congr d h, hx]; rfl
  unfold removeElement
  cases hx : findEntry d t n e with
  | none =>
    dsimp only
    have hv : vals d t n e = none := by unfold vals; rw [hx]; rfl
    rw [hv]
    refine ⟨rfl, ?_, by simp⟩
    by_cases h : SameEntry t n e t' n' e'
    · rw [if_pos h]; unfold vals; rw [← findEntry_congr d h, hx]; rfl
    · rw [if_neg h]
  | some x =>
    dsimp only
    have hv : vals d t n e = some x.vals := by unfold vals; rw [hx]; rfl
    rw [hv]
    dsimp only
    by_cases hl : x.vals.length ≤ 1
    · rw [if_pos hl]
      obtain ⟨w, hw⟩ : ∃ w, x.vals = [w] := by
        cases hxv : x.vals with
        | nil => exact absurd hxv (hne x hx)
        | cons w l =>
          rw [hxv] at hl
          simp at hl
          rw [hl]; exact ⟨w, rfl⟩
      by_cases he : x.vals = [v]
      · rw [if_pos he]
        have hr := C102_removeEntry d t n e t' n' e'
        refine ⟨hr.1, ?_, by simp [he]⟩
        dsimp only
        rw [hr.2.1, he]
        by_cases h : SameEntry t n e t' n' e'
        · rw [if_pos h, if_pos h]; simp
        · rw [if_neg h, if_neg h]
      · rw [if_neg he]
        have hwv : v ≠ w := fun h => he (by rw [hw, h])
        refine ⟨rfl, ?_, by simp [hw, hwv]⟩
        by_cases h : SameEntry t n e t' n' e'
        · rw [if_pos h, hsame x hx h, hw, List.erase_cons_tail (by simpa using fun e => hwv e.symm)]; simp
        · rw [if_neg h]
    · rw [if_neg hl]
      by_cases hc : x.vals.contains v = true
      · rw [if_pos hc]
        have hm : v ∈ x.vals := by simpa using hc
        have hen : x.vals.erase v ≠ [] := by
          intro h0
          have := List.length_erase_of_mem hm
          rw [h0] at this
          simp at this
          omega
        refine ⟨?_, ?_, by simp [hm]⟩
        · unfold has
          rw [findNamed_updNamed _ _ _ (by intro s; rfl)]
          by_cases h : SameSec t n t' n'
          · rw [if_pos h]; simp
          · rw [if_neg h]
        · rw [if_neg hen, vals_eq, findNamed_updNamed _ _ _ (by intro s; rfl)]
          by_cases h : SameSec t n t' n'
          · rw [if_pos h]
            by_cases he : Same (some e) (some e')
            · rw [if_pos ⟨h.1, h.2, he⟩]
              have hx' := findEntry_congr d (⟨h.1, h.2, he⟩ : SameEntry t n e t' n' e')
              rw [hx] at hx'
              unfold findEntry at hx'
              cases hnm : findNamed d t' n' with
              | none => rw [hnm] at hx'; cases hx'
              | some s =>
                rw [hnm] at hx'
                simp only [Option.map_some, Option.bind_some]
                rw [find_upd (by intro s; rfl), if_pos he]
                have hx' : some x = find Entry.key s.entries (some e') := hx'
                rw [← hx']; rfl
            · rw [if_neg (fun x => he x.2.2), vals_eq]
              cases findNamed d t' n' with
              | none => rfl
              | some s =>
                simp only [Option.map_some, Option.bind_some]
                rw [find_upd (by intro s; rfl), if_neg he]
          · rw [if_neg h, if_neg (fun x => h ⟨x.1, x.2.1⟩), vals_eq]
      · rw [if_neg hc]
        have hm : v ∉ x.vals := by simpa using hc
        refine ⟨rfl, ?_, by simp [hm]⟩
        by_cases h : SameEntry t n e t' n' e'
        · rw [if_pos h, hsame x hx h, List.erase_of_not_mem hm, if_neg (hne x hx)]
        · rw [if_neg h]

theorem Wf.removeElement {d : Db} (h : Wf d) (t : Str) (n : Option Str) (e v : Str) : Wf (removeElement d t n e v).1 := by
  unfold Cfg.removeElement
  split
  · exact h
  · rename_i x hx
    split
    · split
      · exact h.removeEntry t n e
      · exact h
    · rename_i hl
      split
      · rename_i hc
        refine h.updNamed t n (fun _ => rfl) (fun s hs => hs.upd (by intro s; rfl) _) ?_
        intro s hs y hy
        obtain ⟨z, hz, rfl⟩ := mem_upd.1 hy
        split
        · intro h0
          have hm : v ∈ x.vals := by simpa using hc
          have := List.length_erase_of_mem hm
          have h0 : x.vals.erase v = [] := h0
          rw [h0] at this
          simp at this
          omega
        · exact hs z hz
      · exact h

/-- C102: in every database which can be built every key occurs once and no entry is without value. -/
theorem C102_wellformed (os : List Op) : Wf (run [] os) := by
  have : ∀ (os : List Op) d, Wf d → Wf (run d os) := by
    intro os
    induction os with
    | nil => exact fun _ h => h
    | cons o os ih =>
      intro d h
      refine ih _ ?_
      cases o with
      | addSection t n => exact h.addSection t n
      | setEntry t n e v a f => exact h.setEntry t n e v a f
      | removeType t => exact h.removeType t
      | removeNamed t n => exact h.removeNamed t n
      | removeEntry t n e => exact h.removeEntry t n e
      | removeElement t n e v => exact h.removeElement t n e v
  exact this os [] wf_nil

example : vals (run [] [.setEntry [97] (some [98]) [99] [49] true true, .setEntry [65] (some [66]) [67] [50] true true, .removeElement [97] (some [98]) [99] [49]])
    [97] (some [98]) [99] = some [[50]] := by decide +kernel

/-! ### Copies -/

/-- elementary steps of a copy -/
inductive CStep
  | sec (t : Str) (n : Option Str)
  | val (t : Str) (n : Option Str) (e v : Str)

def cstep (d : Db) : CStep → Db
  | .sec t n => addSection d t n
  | .val t n e v => setEntry d t n e v true false

def entrySteps (t : Str) (n : Option Str) (se : Option Str) (e : Entry) : List CStep :=
  if wanted e.key se then e.vals.map fun v => .val t n e.name v else []

def namedSteps (t : Str) (sn se : Option Str) (n : Named) : List CStep :=
  if wanted n.name sn then .sec t n.name :: n.entries.flatMap (entrySteps t n.name se) else []

def typeSteps (st sn se : Option Str) (s : SType) : List CStep :=
  if wanted s.key st then s.names.flatMap (namedSteps s.type sn se) else []

theorem foldl_flatMap' {α β γ : Type} (f : α → List β) (g : γ → β → γ) (l : List α) (c : γ) :
    (l.flatMap f).foldl g c = l.foldl (fun c a => (f a).foldl g c) c := by
  induction l generalizing c with
  | nil => rfl
  | cons a l ih => rw [List.flatMap_cons, List.foldl_append, ih]; rfl

theorem append_steps (dst src : Db) (st sn se : Option Str) :
    append dst src st sn se = (src.flatMap (typeSteps st sn se)).foldl cstep dst := by
  unfold append
  rw [foldl_flatMap']
  congr 1
  funext d s
  unfold typeSteps
  split
  · rw [foldl_flatMap']
    congr 1
    funext d n
    unfold namedSteps
    split
    · rw [List.foldl_cons, foldl_flatMap']
      show _ = List.foldl _ (addSection d s.type n.name) _
      congr 1
      funext d e
      unfold entrySteps
      split
      · rw [List.foldl_map]; rfl
      · rfl
    · rfl
  · rfl

/-- the values a list of steps adds to an entry -/
def added (t : Str) (n : Option Str) (e : Str) (cs : List CStep) : List Str :=
  cs.filterMap fun c => match c with
    | .val t' n' e' v => if SameEntry t' n' e' t n e then some v else none
    | .sec _ _ => none

def touched (t : Str) (n : Option Str) (cs : List CStep) : Bool :=
  cs.any fun c => match c with
    | .val t' n' _ _ => decide (SameSec t' n' t n)
    | .sec t' n' => decide (SameSec t' n' t n)

theorem steps_view (cs : List CStep) (d : Db) (t : Str) (n : Option Str) (e : Str) :
    has (cs.foldl cstep d) t n = (has d t n || touched t n cs) ∧
    vals (cs.foldl cstep d) t n e = if added t n e cs = [] then vals d t n e else some ((vals d t n e).getD [] ++ added t n e cs) := by
  induction cs generalizing d with
  | nil => simp [touched, added]
  | cons c cs ih =>
    rw [List.foldl_cons, (ih _).1, (ih _).2]
    cases c with
    | sec t' n' =>
      have h := C102_addSection d t' n' t n e
      simp only [cstep]
      rw [h.1, h.2]
      constructor
      · simp [touched, Bool.or_assoc]
      · rfl
    | val t' n' e' v =>
      have h := C102_setEntry d t' n' e' v true false t n e
      simp only [cstep]
      rw [h.1, h.2]
      constructor
      · simp [touched, Bool.or_assoc]
      · by_cases hs : SameEntry t' n' e' t n e
        · rw [if_pos hs]
          have : added t n e (.val t' n' e' v :: cs) = v :: added t n e cs := by
            unfold added; rw [List.filterMap_cons]; dsimp only; rw [if_pos hs]
          rw [this, if_neg (List.cons_ne_nil _ _)]
          by_cases h0 : added t n e cs = []
          · rw [if_pos h0, h0]; rfl
          · rw [if_neg h0]; simp
        · rw [if_neg hs]
          have : added t n e (.val t' n' e' v :: cs) = added t n e cs := by
            unfold added; rw [List.filterMap_cons]; dsimp only; rw [if_neg hs]
          rw [this]

theorem added_flatMap {α : Type} (t : Str) (n : Option Str) (e : Str) (f : α → List CStep) (l : List α) :
    added t n e (l.flatMap f) = l.flatMap fun a => added t n e (f a) := by
  induction l with
  | nil => rfl
  | cons a l ih =>
    rw [List.flatMap_cons, List.flatMap_cons, ← ih]
    unfold added
    rw [List.filterMap_append]

theorem touched_flatMap {α : Type} (t : Str) (n : Option Str) (f : α → List CStep) (l : List α) :
    touched t n (l.flatMap f) = l.any fun a => touched t n (f a) := by
  unfold touched
  rw [List.any_flatMap]

/-- only the element with the key contributes -/
theorem flatMap_uniq {α β : Type} {key : α → Option Str} {l : List α} (h : Uniq key l) (k : Option Str) (f : α → List β)
    (hf : ∀ x ∈ l, fold (key x) ≠ fold k → f x = []) : l.flatMap f = match find key l k with | none => [] | some x => f x := by
  induction l with
  | nil => rfl
  | cons x l ih =>
    rw [List.flatMap_cons, find_cons]
    have hu : Uniq key l := (List.nodup_cons.1 h).2
    by_cases hk : fold (key x) = fold k
    · rw [if_pos hk]
      have hrest : l.flatMap f = [] := by
        rw [List.flatMap_eq_nil_iff]
        intro y hy
        refine hf y (List.mem_cons_of_mem _ hy) ?_
        intro hy'
        exact (List.nodup_cons.1 h).1 (List.mem_map.2 ⟨y, hy, hy'.trans hk.symm⟩)
      rw [hrest]; simp
    · rw [if_neg hk, hf x List.mem_cons_self hk, List.nil_append]
      exact ih hu fun y hy => hf y (List.mem_cons_of_mem _ hy)

theorem any_uniq {α : Type} {key : α → Option Str} {l : List α} (h : Uniq key l) (k : Option Str) (f : α → Bool)
    (hf : ∀ x ∈ l, fold (key x) ≠ fold k → f x = false) : l.any f = match find key l k with | none => false | some x => f x := by
  induction l with
  | nil => rfl
  | cons x l ih =>
    rw [List.any_cons, find_cons]
    have hu : Uniq key l := (List.nodup_cons.1 h).2
    by_cases hk : fold (key x) = fold k
    · rw [if_pos hk]
      have hrest : l.any f = false := by
        rw [List.any_eq_false]
        intro y hy
        rw [hf y (List.mem_cons_of_mem _ hy) fun hy' => (List.nodup_cons.1 h).1 (List.mem_map.2 ⟨y, hy, hy'.trans hk.symm⟩)]
        decide
      rw [hrest]; simp
    · rw [if_neg hk, hf x List.mem_cons_self hk, Bool.false_or]
      exact ih hu fun y hy => hf y (List.mem_cons_of_mem _ hy)

theorem wanted_congr {k k' : Option Str} (h : fold k = fold k') (w : Option Str) : wanted k w = wanted k' w := by
  unfold wanted; rw [h]

theorem map_val_added (t' : Str) (n' : Option Str) (e' : Str) (t : Str) (n : Option Str) (e : Str) (vs : List Str) :
    added t n e (vs.map fun v => CStep.val t' n' e' v) = if SameEntry t' n' e' t n e then vs else [] := by
  induction vs with
  | nil => simp [added]
  | cons v vs ih =>
    unfold added at ih ⊢
    rw [List.map_cons, List.filterMap_cons]
    dsimp only
    by_cases h : SameEntry t' n' e' t n e
    · rw [if_pos h] at ih ⊢
      rw [if_pos h]
      dsimp only
      rw [ih]
    · rw [if_neg h] at ih ⊢
      rw [if_neg h]
      exact ih

theorem added_src {src : Db} (hw : Wf src) (st sn se : Option Str) (t : Str) (n : Option Str) (e : Str) :
    added t n e (src.flatMap (typeSteps st sn se)) =
      if wanted (some t) st && wanted n sn && wanted (some e) se then (vals src t n e).getD [] else [] := by
  have hentry : ∀ t' n' (x : Entry), added t n e (entrySteps t' n' se x) = if wanted x.key se ∧ SameEntry t' n' x.name t n e then x.vals else [] := by
    intro t' n' x
    unfold entrySteps
    by_cases h1 : wanted x.key se = true
    · rw [if_pos h1, map_val_added]
      by_cases h2 : SameEntry t' n' x.name t n e
      · rw [if_pos h2, if_pos ⟨h1, h2⟩]
      · rw [if_neg h2, if_neg (fun h => h2 h.2)]
    · rw [if_neg h1, if_neg (fun h => h1 h.1)]; rfl
  have hnamed : ∀ t' (x : Named), added t n e (namedSteps t' sn se x) =
      if wanted x.name sn then x.entries.flatMap (fun y => added t n e (entrySteps t' x.name se y)) else [] := by
    intro t' x
    unfold namedSteps
    split
    · rw [← added_flatMap]; rfl
    · rfl
  have htype : ∀ x : SType, added t n e (typeSteps st sn se x) =
      if wanted x.key st then x.names.flatMap (fun y => added t n e (namedSteps x.type sn se y)) else [] := by
    intro x
    unfold typeSteps
    split
    · rw [← added_flatMap]
    · rfl
  obtain ⟨hu, hT⟩ := wf_iff.1 hw
  rw [added_flatMap, flatMap_uniq hu (some t)]
  · rw [vals_eq]
    unfold findNamed findType
    cases hs : find SType.key src (some t) with
    | none => simp
    | some s =>
      obtain ⟨hsm, hsk⟩ := find_mem hs
      dsimp only
      rw [htype, wanted_congr hsk]
      by_cases w1 : wanted (some t) st = true
      · rw [if_pos w1, w1, flatMap_uniq (hT s hsm).names n]
        · cases hn : find Named.name s.names n with
          | none => simp
          | some y =>
            obtain ⟨hym, hyk⟩ := find_mem hn
            dsimp only
            rw [hnamed, wanted_congr hyk]
            by_cases w2 : wanted n sn = true
            · rw [if_pos w2, w2, flatMap_uniq ((hT s hsm).entries y hym) (some e)]
              · simp only [Option.bind_some]
                cases he : find Entry.key y.entries (some e) with
                | none => simp
                | some z =>
                  obtain ⟨hzm, hzk⟩ := find_mem he
                  dsimp only
                  rw [hentry, wanted_congr hzk]
                  have : SameEntry s.type y.name z.name t n e := ⟨hsk, hyk, hzk⟩
                  by_cases w3 : wanted (some e) se = true
                  · rw [if_pos ⟨w3, this⟩, w3]; rfl
                  · rw [if_neg (fun h => w3 h.1)]; simp [w3]
              · intro z _ hz
                rw [hentry, if_neg (fun h => hz h.2.2.2)]
            · rw [if_neg w2]; simp [w2]
        · intro y _ hy
          rw [hnamed]
          split
          · rw [List.flatMap_eq_nil_iff]
            intro z _
            rw [hentry, if_neg (fun h => hy h.2.2.1)]
          · rfl
      · rw [if_neg w1]; simp [w1]
  · intro s _ hs
    rw [htype]
    split
    · rw [List.flatMap_eq_nil_iff]
      intro y _
      rw [hnamed]
      split
      · rw [List.flatMap_eq_nil_iff]
        intro z _
        rw [hentry, if_neg (fun h => hs h.2.1)]
      · rfl
    · rfl

theorem touched_src {src : Db} (hw : Wf src) (st sn se : Option Str) (t : Str) (n : Option Str) :
    touched t n (src.flatMap (typeSteps st sn se)) = (wanted (some t) st && wanted n sn && has src t n) := by
  have hentry : ∀ t' n' (x : Entry), ¬SameSec t' n' t n → touched t n (entrySteps t' n' se x) = false := by
    intro t' n' x h
    unfold entrySteps
    split
    · unfold touched
      rw [List.any_eq_false]
      intro c hc
      obtain ⟨v, _, rfl⟩ := List.mem_map.1 hc
      simpa using h
    · rfl
  have hnamed : ∀ t' (x : Named), touched t n (namedSteps t' sn se x) = (wanted x.name sn && decide (SameSec t' x.name t n)) := by
    intro t' x
    unfold namedSteps
    by_cases h1 : wanted x.name sn = true
    · rw [if_pos h1, h1, Bool.true_and]
      show (decide (SameSec t' x.name t n) || touched t n (x.entries.flatMap (entrySteps t' x.name se))) = _
      by_cases h2 : SameSec t' x.name t n
      · rw [decide_eq_true h2, Bool.true_or]
      · rw [touched_flatMap]
        have : (x.entries.any fun a => touched t n (entrySteps t' x.name se a)) = false := by
          rw [List.any_eq_false]
          intro y _
          rw [hentry _ _ _ h2]; decide
        rw [this, Bool.or_false]
    · rw [if_neg h1]
      simp [h1, touched]
  have htype : ∀ x : SType, touched t n (typeSteps st sn se x) =
      (wanted x.key st && x.names.any (fun y => touched t n (namedSteps x.type sn se y))) := by
    intro x
    unfold typeSteps
    split
    · rename_i h; rw [touched_flatMap, h, Bool.true_and]
    · rename_i h; simp [h, touched]
  obtain ⟨hu, hT⟩ := wf_iff.1 hw
  rw [touched_flatMap, any_uniq hu (some t)]
  · unfold has findNamed findType
    cases hs : find SType.key src (some t) with
    | none => simp
    | some s =>
      obtain ⟨hsm, hsk⟩ := find_mem hs
      dsimp only
      rw [htype, wanted_congr hsk, any_uniq (hT s hsm).names n]
      · cases hn : find Named.name s.names n with
        | none => simp
        | some y =>
          obtain ⟨hym, hyk⟩ := find_mem hn
          dsimp only
          rw [hnamed, wanted_congr hyk]
          have : SameSec s.type y.name t n := ⟨hsk, hyk⟩
          rw [decide_eq_true this]
          simp
      · intro y _ hy
        rw [hnamed]
        have : ¬SameSec s.type y.name t n := fun h => hy h.2
        simp only [this, decide_false, Bool.and_false]
  · intro s _ hs
    rw [htype]
    have : (s.names.any fun y => touched t n (namedSteps s.type sn se y)) = false := by
      rw [List.any_eq_false]
      intro y _
      rw [hnamed]
      have : ¬SameSec s.type y.name t n := fun h => hs h.1
      simp only [this, decide_false, Bool.and_false]
      decide
    rw [this, Bool.and_false]

/-- the part of a database which is selected by type, name and entry (`NULL`: all of them) -/
def Selected (st sn : Option Str) (t : Str) (n : Option Str) : Prop := (st = none ∨ Same (some t) st) ∧ (sn = none ∨ Same n sn)

/-- C103: copying (a part of) a database into another one adds the sections and puts the values of every entry, in their order, behind those
which are already there, and changes nothing else. -/
theorem C103_append (dst : Db) {src : Db} (hw : Wf src) (st sn se : Option Str) (t : Str) (n : Option Str) (e : Str) :
    (has (append dst src st sn se) t n = true ↔ has dst t n = true ∨ (Selected st sn t n ∧ has src t n = true)) ∧
    vals (append dst src st sn se) t n e =
      match vals src t n e with
      | some vs => if (st = none ∨ Same (some t) st) ∧ (sn = none ∨ Same n sn) ∧ (se = none ∨ Same (some e) se) then some ((vals dst t n e).getD [] ++ vs) else vals dst t n e
      | none => vals dst t n e := by
  have hwant : ∀ k w, wanted k w = true ↔ (w = none ∨ Same k w) := by
    intro k w
    unfold wanted
    simp
  rw [append_steps]
  obtain ⟨h1, h2⟩ := steps_view (src.flatMap (typeSteps st sn se)) dst t n e
  rw [h1, h2, added_src hw, touched_src hw]
  constructor
  · unfold Selected
    rw [← hwant, ← hwant]
    simp only [Bool.or_eq_true, Bool.and_eq_true]
  · cases hv : vals src t n e with
    | none => simp
    | some vs =>
      have hne : vs ≠ [] := by
        unfold vals at hv
        obtain ⟨x, hx, rfl⟩ := Option.map_eq_some_iff.1 hv
        unfold findEntry findNamed findType at hx
        split at hx
        · cases hx
        rename_i s hs
        split at hs
        · cases hs
        rename_i s' hst
        exact hw.vals s' (find_mem hst).1 s (find_mem hs).1 x (find_mem hx).1
      simp only [Option.getD_some]
      by_cases h : (wanted (some t) st && wanted n sn && wanted (some e) se) = true
      · rw [if_pos h, if_neg hne]
        simp only [Bool.and_eq_true] at h
        rw [if_pos ⟨(hwant _ _).1 h.1.1, (hwant _ _).1 h.1.2, (hwant _ _).1 h.2⟩]
      · rw [if_neg h, if_pos rfl]
        simp only [Bool.and_eq_true] at h
        rw [if_neg (fun x => h ⟨⟨(hwant _ _).2 x.1, (hwant _ _).2 x.2.1⟩, (hwant _ _).2 x.2.2⟩)]

/-- C103: a duplicate contains the same sections and values as the original. -/
theorem C103_duplicate (os : List Op) : Equal (duplicate (run [] os)) (run [] os) := by
  have hw := C102_wellformed os
  constructor
  · intro t n
    have h := (C103_append [] hw none none none t n []).1
    unfold duplicate
    have h0 : has [] t n = false := rfl
    rw [h0] at h
    unfold Selected at h
    rw [Bool.eq_iff_iff, h]
    simp
  · intro t n e
    have h := (C103_append [] hw none none none t n e).2
    unfold duplicate
    rw [h]
    have h0 : vals [] t n e = none := rfl
    rw [h0]
    cases vals (run [] os) t n e <;> simp

example : duplicate (run [] [.setEntry [97] none [99] [49] true true, .setEntry [97] none [99] [50] true true, .addSection [98] none]) =
    [⟨[97], [⟨none, [⟨[99], [[50], [49]]⟩]⟩]⟩, ⟨[98], [⟨none, []⟩]⟩] := by decide +kernel

/-! ### Lookup -/

/-- C104: a section without an own value for an entry has the value of the unnamed section of its type, and if there is none the default of
the schema. -/
theorem C104_lookup (schema : Str → Str → Option (Option (List Str))) (d : Db) (t : Str) (n : Option Str) (e : Str) :
    (∀ vs, vals d t n e = some vs → getValue schema d t n e = some vs) ∧
    (vals d t n e = none → n ≠ none → getValue schema d t n e = getValue schema d t none e) ∧
    (vals d t n e = none → vals d t none e = none → getValue schema d t n e = (schema t e).getD none) := by
  unfold vals getValue
  refine ⟨?_, ?_, ?_⟩
  · intro vs h
    obtain ⟨x, hx, rfl⟩ := Option.map_eq_some_iff.1 h
    rw [hx]
  · intro h hn
    rw [Option.map_eq_none_iff] at h
    rw [h]
    dsimp only
    cases n with
    | none => exact absurd rfl hn
    | some n =>
      simp only [Option.isSome_some, if_true, Option.isSome_none, Bool.false_eq_true, if_false]
  · intro h h0
    rw [Option.map_eq_none_iff] at h h0
    rw [h, h0]
    dsimp only
    split
    · rename_i h; split at h <;> cases h
    · cases schema t e with
      | none => rfl
      | some v => cases v <;> rfl

/-- C104: a value which is set becomes the (first) value of its section; set in the unnamed section it becomes the value of exactly the sections
of the type which have no own value. -/
theorem C104_set (schema : Str → Str → Option (Option (List Str))) (d : Db) (t : Str) (n : Option Str) (e v : Str) (a : Bool) (t' : Str) (n' : Option Str) (e' : Str) :
    ((∃ vs, getValue schema (setEntry d t n e v a true) t n e = some (v :: vs))) ∧
    (¬SameEntry t n e t' n' e' → ¬SameEntry t n e t' none e' → getValue schema (setEntry d t n e v a true) t' n' e' = getValue schema d t' n' e') ∧
    (SameEntry t n e t' none e' → ∀ vs, vals d t' n' e' = some vs → n' ≠ none → getValue schema (setEntry d t n e v a true) t' n' e' = some vs) ∧
    (SameEntry t n e t' none e' → vals d t' n' e' = none → ∃ vs, getValue schema (setEntry d t n e v a true) t' n' e' = some (v :: vs)) := by
  have hfe : ∀ (d : Db) t n e, getValue schema d t n e =
      ((vals d t n e).or (if n.isSome then vals d t none e else none)).or ((schema t e).getD none) := by
    intro d t n e
    unfold getValue vals
    cases findEntry d t n e with
    | some x => rfl
    | none =>
      dsimp only
      cases n with
      | none =>
        cases schema t e with
        | none => rfl
        | some w => cases w <;> rfl
      | some n =>
        simp only [Option.isSome_some, if_true]
        cases findEntry d t none e with
        | some x => rfl
        | none =>
          cases schema t e with
          | none => rfl
          | some w => cases w <;> rfl
  have hset := fun t' n' e' => (C102_setEntry d t n e v a true t' n' e').2
  refine ⟨?_, ?_, ?_, ?_⟩
  · rw [hfe, hset, if_pos ⟨rfl, rfl, rfl⟩]
    exact ⟨_, rfl⟩
  · intro h1 h2
    rw [hfe, hfe, hset, if_neg h1, hset, if_neg h2]
  · intro h vs hv hn
    rw [hfe, hset, if_neg, hv]
    · rfl
    · intro h'
      have : fold n' = fold none := h'.2.1.symm.trans h.2.1
      cases n' with
      | none => exact hn rfl
      | some _ => cases this
  · intro h hv
    by_cases h' : SameEntry t n e t' n' e'
    · rw [hfe, hset, if_pos h']
      exact ⟨_, rfl⟩
    · rw [hfe, hset, if_neg h', hv, hset, if_pos h]
      cases n' with
      | none => exact absurd h h'
      | some _ => exact ⟨_, rfl⟩

end Verif.Cfg
