import Verif.Cfg.Spec

namespace Verif.Cfg

section
variable {α : Type} {key : α → Option Str}

theorem find_none {l : List α} {k : Option Str} : find key l k = none ↔ ∀ x ∈ l, fold (key x) ≠ fold k := by
  unfold find
  rw [List.find?_eq_none]
  simp only [beq_iff_eq, ne_eq]

theorem find_mem {l : List α} {k : Option Str} {x : α} (h : find key l k = some x) : x ∈ l ∧ fold (key x) = fold k := by
  unfold find at h
  exact ⟨List.mem_of_find?_eq_some h, by have := List.find?_some h; simpa using this⟩

theorem find_congr {l : List α} {k k' : Option Str} (h : fold k = fold k') : find key l k = find key l k' := by
  unfold find; rw [h]

theorem find_append (a b : List α) (k : Option Str) : find key (a ++ b) k = (find key a k).or (find key b k) := by
  unfold find; exact List.find?_append

theorem find_cons (x : α) (l : List α) (k : Option Str) : find key (x :: l) k = if fold (key x) = fold k then some x else find key l k := by
  unfold find
  rw [List.find?_cons]
  by_cases h : fold (key x) = fold k
  · rw [if_pos h]; simp [h]
  · rw [if_neg h]
    have : (fold (key x) == fold k) = false := by simpa using h
    rw [this]

/-- a new key -/
theorem find_ins {l : List α} {x : α} {k0 : Option Str} (hk0 : key x = k0) (hx : find key l k0 = none) (k : Option Str) :
    find key (ins key l x) k = if Same k0 k then some x else find key l k := by
  subst hk0
  unfold ins
  have hl : l = l.takeWhile (fun y => keyLt (fold (key y)) (fold (key x))) ++ l.dropWhile (fun y => keyLt (fold (key y)) (fold (key x))) :=
    List.takeWhile_append_dropWhile.symm
  generalize l.takeWhile (fun y => keyLt (fold (key y)) (fold (key x))) = a at *
  generalize l.dropWhile (fun y => keyLt (fold (key y)) (fold (key x))) = b at *
  subst hl
  rw [find_append, find_cons]
  by_cases h : fold (key x) = fold k
  · rw [if_pos h, if_pos h]
    have : find key a k = none := by
      rw [find_none] at hx ⊢
      intro y hy
      rw [← h]
      exact hx y (List.mem_append_left _ hy)
    rw [this]; rfl
  · rw [if_neg h, if_neg h, find_append]

theorem find_upd {l : List α} {f : α → α} (hf : ∀ x, key (f x) = key x) (k k' : Option Str) :
    find key (upd key l k f) k' = if Same k k' then (find key l k').map f else find key l k' := by
  induction l with
  | nil => unfold upd find; split <;> rfl
  | cons x l ih =>
    unfold upd at ih ⊢
    rw [List.map_cons, find_cons, find_cons]
    have hk : key (if fold (key x) = fold k then f x else x) = key x := by split; exact hf x; rfl
    rw [hk, ih]
    by_cases h : fold (key x) = fold k'
    · simp only [if_pos h, Option.map_some]
      by_cases h2 : fold k = fold k'
      · rw [if_pos h2, if_pos (h.trans h2.symm)]
      · rw [if_neg h2, if_neg (fun e => h2 (e.symm.trans h))]
    · simp only [if_neg h]

theorem find_del (l : List α) (k k' : Option Str) : find key (del key l k) k' = if Same k k' then none else find key l k' := by
  unfold del
  induction l with
  | nil => simp [find]
  | cons x l ih =>
    rw [List.filter_cons]
    by_cases h : fold (key x) = fold k
    · rw [if_neg (by simp [h]), ih, find_cons]
      by_cases h2 : fold k = fold k'
      · rw [if_pos h2, if_pos h2]
      · rw [if_neg h2, if_neg h2, if_neg (fun e => h2 (h.symm.trans e))]
    · rw [if_pos (by simpa using h), find_cons, find_cons, ih]
      by_cases h2 : fold k = fold k'
      · rw [if_pos h2, if_neg (fun e => h (e.trans h2.symm)), if_pos h2]
      · rw [if_neg h2, if_neg h2]

/-- keys of a tree occur once -/
def Uniq (key : α → Option Str) (l : List α) : Prop := (l.map fun x => fold (key x)).Nodup

theorem Uniq.nil : Uniq key [] := List.nodup_nil

theorem Uniq.ins {l : List α} {x : α} (h : Uniq key l) (hx : find key l (key x) = none) : Uniq key (ins key l x) := by
  unfold Cfg.ins Uniq at *
  have hl : l = l.takeWhile (fun y => keyLt (fold (key y)) (fold (key x))) ++ l.dropWhile (fun y => keyLt (fold (key y)) (fold (key x))) :=
    List.takeWhile_append_dropWhile.symm
  generalize l.takeWhile (fun y => keyLt (fold (key y)) (fold (key x))) = a at *
  generalize l.dropWhile (fun y => keyLt (fold (key y)) (fold (key x))) = b at *
  subst hl
  rw [find_none] at hx
  rw [List.map_append, List.map_cons]
  rw [List.map_append] at h
  refine (List.perm_middle.nodup_iff).2 ?_
  refine List.nodup_cons.2 ⟨?_, h⟩
  rw [← List.map_append]
  intro hm
  obtain ⟨y, hy, e⟩ := List.mem_map.1 hm
  exact hx y hy e

theorem Uniq.upd {l : List α} {f : α → α} (hf : ∀ x, key (f x) = key x) (h : Uniq key l) (k : Option Str) : Uniq key (upd key l k f) := by
  unfold Cfg.upd Uniq at *
  rw [List.map_map]
  have : ((fun x => fold (key x)) ∘ fun x => if fold (key x) = fold k then f x else x) = fun x => fold (key x) := by
    funext x
    simp only [Function.comp]
    split
    · rw [hf]
    · rfl
  rw [this]
  exact h

theorem Uniq.del {l : List α} (h : Uniq key l) (k : Option Str) : Uniq key (del key l k) := by
  unfold Cfg.del Uniq at *
  exact (List.Sublist.map _ List.filter_sublist).nodup h

theorem mem_ins {l : List α} {x y : α} : y ∈ ins key l x ↔ y = x ∨ y ∈ l := by
  unfold ins
  have hl : l = l.takeWhile (fun y => keyLt (fold (key y)) (fold (key x))) ++ l.dropWhile (fun y => keyLt (fold (key y)) (fold (key x))) :=
    List.takeWhile_append_dropWhile.symm
  generalize l.takeWhile (fun y => keyLt (fold (key y)) (fold (key x))) = a at *
  generalize l.dropWhile (fun y => keyLt (fold (key y)) (fold (key x))) = b at *
  subst hl
  simp only [List.mem_append, List.mem_cons]
  constructor
  · rintro (h | h | h)
    · exact Or.inr (Or.inl h)
    · exact Or.inl h
    · exact Or.inr (Or.inr h)
  · rintro (h | h | h)
    · exact Or.inr (Or.inl h)
    · exact Or.inl h
    · exact Or.inr (Or.inr h)

theorem mem_upd {l : List α} {k : Option Str} {f : α → α} {y : α} : y ∈ upd key l k f ↔ ∃ x ∈ l, y = if fold (key x) = fold k then f x else x := by
  unfold upd
  rw [List.mem_map]
  constructor
  · rintro ⟨x, hx, rfl⟩; exact ⟨x, hx, rfl⟩
  · rintro ⟨x, hx, rfl⟩; exact ⟨x, hx, rfl⟩

theorem mem_del {l : List α} {k : Option Str} {y : α} (h : y ∈ del key l k) : y ∈ l := (List.mem_filter.1 h).1

theorem Uniq.find {l : List α} (h : Uniq key l) {x : α} (hx : x ∈ l) {k : Option Str} (hk : fold (key x) = fold k) : find key l k = some x := by
  induction l with
  | nil => cases hx
  | cons y l ih =>
    rw [find_cons]
    unfold Uniq at h
    rw [List.map_cons, List.nodup_cons] at h
    rcases List.mem_cons.1 hx with rfl | hx
    · rw [if_pos hk]
    · rw [if_neg, ih h.2 hx]
      intro e
      exact h.1 (List.mem_map.2 ⟨x, hx, hk.trans e.symm⟩)

end

/-! ### Parts of the database -/

theorem findType_congr (d : Db) {t t' : Str} (h : Same (some t) (some t')) : findType d t = findType d t' := find_congr h

theorem findNamed_congr (d : Db) {t t' : Str} {n n' : Option Str} (h : SameSec t n t' n') : findNamed d t n = findNamed d t' n' := by
  unfold findNamed
  rw [findType_congr d h.1]
  cases findType d t' with
  | none => rfl
  | some s => exact find_congr h.2

theorem findEntry_congr (d : Db) {t t' : Str} {n n' : Option Str} {e e' : Str} (h : SameEntry t n e t' n' e') : findEntry d t n e = findEntry d t' n' e' := by
  unfold findEntry
  rw [findNamed_congr d ⟨h.1, h.2.1⟩]
  cases findNamed d t' n' with
  | none => rfl
  | some s => exact find_congr h.2.2

theorem findType_upd (d : Db) (t t' : Str) {f : SType → SType} (hf : ∀ s, (f s).type = s.type) :
    findType (upd SType.key d (some t) f) t' = if Same (some t) (some t') then (findType d t').map f else findType d t' :=
  find_upd (key := SType.key) (fun s => congrArg some (hf s)) _ _

/-- change of a named section -/
theorem findNamed_updNamed (d : Db) (t : Str) (n : Option Str) {f : Named → Named} (hf : ∀ s, (f s).name = s.name) (t' : Str) (n' : Option Str) :
    findNamed (updNamed d t n f) t' n' = if SameSec t n t' n' then (findNamed d t' n').map f else findNamed d t' n' := by
  unfold findNamed updNamed
  rw [findType_upd d t t' (by intro s; rfl)]
  by_cases h : Same (some t) (some t')
  · rw [if_pos h]
    cases hd : findType d t' with
    | none => simp
    | some s =>
      simp only [Option.map_some]
      rw [find_upd hf]
      by_cases h2 : Same n n'
      · rw [if_pos h2, if_pos ⟨h, h2⟩]
      · rw [if_neg h2, if_neg (fun e => h2 e.2)]
  · rw [if_neg h, if_neg (fun e => h e.1)]

theorem findNamed_addSection (d : Db) (t : Str) (n : Option Str) (t' : Str) (n' : Option Str) :
    findNamed (addSection d t n) t' n' = if SameSec t n t' n' then some ((findNamed d t' n').getD ⟨n, []⟩) else findNamed d t' n' := by
  unfold addSection
  cases hd : findType d t with
  | none =>
    dsimp only
    unfold findNamed findType
    rw [find_ins (key := SType.key) (k0 := some t) (by rfl) hd]
    by_cases h : Same (some t) (some t')
    · rw [if_pos h]
      have hd' : findType d t' = none := by rw [← findType_congr d h]; exact hd
      unfold findType at hd'
      dsimp only
      rw [find_ins (k0 := n) rfl (by rfl), hd']
      by_cases h2 : Same n n'
      · rw [if_pos h2, if_pos ⟨h, h2⟩]; rfl
      · rw [if_neg h2, if_neg (fun e => h2 e.2)]; rfl
    · rw [if_neg h, if_neg (fun e => h e.1)]
  | some s =>
    dsimp only
    cases hn : find Named.name s.names n with
    | some x =>
      dsimp only
      by_cases h : SameSec t n t' n'
      · rw [if_pos h]
        have : findNamed d t' n' = some x := by rw [← findNamed_congr d h]; unfold findNamed; rw [hd]; exact hn
        rw [this]; rfl
      · rw [if_neg h]
    | none =>
      dsimp only
      unfold findNamed
      rw [findType_upd d t t' (by intro s; rfl)]
      by_cases h : Same (some t) (some t')
      · rw [if_pos h]
        have hd' : findType d t' = some s := by rw [← findType_congr d h]; exact hd
        rw [hd']
        simp only [Option.map_some]
        rw [find_ins (k0 := n) rfl hn]
        by_cases h2 : Same n n'
        · rw [if_pos h2, if_pos ⟨h, h2⟩, ← find_congr h2, hn]; rfl
        · rw [if_neg h2, if_neg (fun e => h2 e.2)]
      · rw [if_neg h, if_neg (fun e => h e.1)]

theorem find_setIn (es : List Entry) (e v : Str) (a f : Bool) (e' : Str) :
    find Entry.key (setIn es e v a f) (some e') =
      if Same (some e) (some e') then
        some (match find Entry.key es (some e') with
          | none => ⟨e, addVal [] v a f⟩
          | some x => { x with vals := addVal x.vals v a f })
      else find Entry.key es (some e') := by
  unfold setIn
  cases h : find Entry.key es (some e) with
  | none =>
    dsimp only
    rw [find_ins (key := Entry.key) (k0 := some e) (by rfl) h]
    by_cases h2 : Same (some e) (some e')
    · rw [if_pos h2, if_pos h2, ← find_congr h2, h]
    · rw [if_neg h2, if_neg h2]
  | some x =>
    dsimp only
    rw [find_upd (by intro s; rfl)]
    by_cases h2 : Same (some e) (some e')
    · rw [if_pos h2, if_pos h2, ← find_congr h2, h]; rfl
    · rw [if_neg h2, if_neg h2]

/-! ### Well formed databases -/

theorem wf_nil : Wf [] := ⟨List.nodup_nil, fun _ h => (nomatch h), fun _ h => (nomatch h), fun _ h => (nomatch h)⟩

/-- a section type is well formed -/
structure WfT (s : SType) : Prop where
  names : Uniq Named.name s.names
  entries : ∀ n ∈ s.names, Uniq Entry.key n.entries
  vals : ∀ n ∈ s.names, ∀ e ∈ n.entries, e.vals ≠ []

theorem wf_iff {d : Db} : Wf d ↔ Uniq SType.key d ∧ ∀ s ∈ d, WfT s :=
  ⟨fun h => ⟨h.types, fun s hs => ⟨h.names s hs, h.entries s hs, h.vals s hs⟩⟩,
   fun h => ⟨h.1, fun s hs => (h.2 s hs).names, fun s hs => (h.2 s hs).entries, fun s hs => (h.2 s hs).vals⟩⟩

theorem Wf.upd {d : Db} (h : Wf d) (t : Str) {f : SType → SType} (hf : ∀ s, (f s).type = s.type) (hw : ∀ s, WfT s → WfT (f s)) :
    Wf (upd SType.key d (some t) f) := by
  rw [wf_iff] at h ⊢
  refine ⟨h.1.upd (key := SType.key) (fun s => congrArg some (hf s)) _, ?_⟩
  intro s hs
  obtain ⟨x, hx, rfl⟩ := mem_upd.1 hs
  split
  · exact hw x (h.2 x hx)
  · exact h.2 x hx

theorem wfT_single (t : Str) (n : Option Str) : WfT ⟨t, ins Named.name [] ⟨n, []⟩⟩ := by
  refine ⟨List.nodup_cons.2 ⟨(fun h => (nomatch h)), List.nodup_nil⟩, ?_, ?_⟩
  · intro x hx
    rcases mem_ins.1 hx with rfl | hx
    · exact List.nodup_nil
    · cases hx
  · intro x hx
    rcases mem_ins.1 hx with rfl | hx
    · exact fun _ h => (nomatch h)
    · cases hx

theorem Wf.addSection {d : Db} (h : Wf d) (t : Str) (n : Option Str) : Wf (addSection d t n) := by
  unfold Cfg.addSection
  cases hd : findType d t with
  | none =>
    dsimp only
    rw [wf_iff] at h ⊢
    refine ⟨h.1.ins hd, ?_⟩
    intro s hs
    rcases mem_ins.1 hs with rfl | hs
    · exact wfT_single t n
    · exact h.2 s hs
  | some s =>
    dsimp only
    cases hn : find Named.name s.names n with
    | some x => exact h
    | none =>
      dsimp only
      rw [wf_iff] at h ⊢
      refine ⟨h.1.upd (by intro s; rfl) _, ?_⟩
      intro y hy
      obtain ⟨x, hx, rfl⟩ := mem_upd.1 hy
      split
      · rename_i hk
        have : x = s := by
          have := h.1.find hx hk
          unfold findType at hd
          rw [hd] at this
          cases this; rfl
        subst this
        have hw := h.2 x hx
        refine ⟨hw.names.ins hn, ?_, ?_⟩
        · intro y hy
          rcases mem_ins.1 hy with rfl | hy
          · exact List.nodup_nil
          · exact hw.entries y hy
        · intro y hy
          rcases mem_ins.1 hy with rfl | hy
          · exact fun _ h => (nomatch h)
          · exact hw.vals y hy
      · exact h.2 x hx

theorem Wf.updNamed {d : Db} (h : Wf d) (t : Str) (n : Option Str) {f : Named → Named} (hf : ∀ s, (f s).name = s.name)
    (hu : ∀ s, Uniq Entry.key s.entries → Uniq Entry.key (f s).entries) (hv : ∀ s, (∀ e ∈ s.entries, e.vals ≠ []) → ∀ e ∈ (f s).entries, e.vals ≠ []) :
    Wf (updNamed d t n f) := by
  refine h.upd t (fun _ => rfl) ?_
  intro s hs
  refine ⟨hs.names.upd hf _, ?_, ?_⟩
  · intro y hy
    obtain ⟨x, hx, rfl⟩ := mem_upd.1 hy
    split
    · exact hu x (hs.entries x hx)
    · exact hs.entries x hx
  · intro y hy
    obtain ⟨x, hx, rfl⟩ := mem_upd.1 hy
    split
    · exact hv x (hs.vals x hx)
    · exact hs.vals x hx

theorem addVal_ne (old : List Str) (v : Str) (a f : Bool) : addVal old v a f ≠ [] := by
  unfold addVal
  cases f <;> simp

theorem Wf.setEntry {d : Db} (h : Wf d) (t : Str) (n : Option Str) (e v : Str) (a f : Bool) : Wf (setEntry d t n e v a f) := by
  unfold Cfg.setEntry
  refine (h.addSection t n).updNamed t n (fun _ => rfl) ?_ ?_
  · intro s hs
    show Uniq Entry.key (setIn _ _ _ _ _)
    unfold setIn
    split
    · rename_i h; exact hs.ins h
    · exact hs.upd (by intro s; rfl) _
  · intro s hs x hx
    have hx : x ∈ setIn s.entries e v a f := hx
    unfold setIn at hx
    split at hx
    · rcases mem_ins.1 hx with rfl | hx
      · exact addVal_ne _ _ _ _
      · exact hs x hx
    · obtain ⟨y, hy, rfl⟩ := mem_upd.1 hx
      split
      · exact addVal_ne _ _ _ _
      · exact hs y hy

theorem Wf.removeType {d : Db} (h : Wf d) (t : Str) : Wf (removeType d t).1 := by
  unfold Cfg.removeType
  split
  · exact h
  · rw [wf_iff] at h ⊢
    exact ⟨h.1.del _, fun s hs => h.2 s (mem_del hs)⟩

theorem Wf.removeNamed {d : Db} (h : Wf d) (t : Str) (n : Option Str) : Wf (removeNamed d t n).1 := by
  unfold Cfg.removeNamed
  split
  · exact h
  · refine h.upd t (fun _ => rfl) ?_
    intro s hs
    exact ⟨hs.names.del _, fun x hx => hs.entries x (mem_del hx), fun x hx => hs.vals x (mem_del hx)⟩

theorem Wf.removeEntry {d : Db} (h : Wf d) (t : Str) (n : Option Str) (e : Str) : Wf (removeEntry d t n e).1 := by
  unfold Cfg.removeEntry
  split
  · exact h
  · exact h.updNamed t n (fun _ => rfl) (fun s hs => hs.del _) (fun s hs x hx => hs x (mem_del hx))

end Verif.Cfg
