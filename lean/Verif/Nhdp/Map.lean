/-
Finite maps as lists of pairs: the lists and trees of objects of `nhdp_db.c` with their key (address of the object or network address).
-/
namespace Verif.Nhdp

abbrev Map (κ : Type) (α : Type) := List (κ × α)

namespace Map
variable {κ : Type} [DecidableEq κ] {α : Type}

/-- `avl_find_element`, access by pointer (`none`: no such object) -/
def get (m : Map κ α) (k : κ) : Option α :=
  match m with
  | [] => none
  | (j, v) :: m => if j = k then some v else get m k

/-- change of the fields of an object -/
def upd (m : Map κ α) (k : κ) (f : α → α) : Map κ α := m.map fun x => if x.1 = k then (x.1, f x.2) else x

/-- `avl_remove`, `list_remove` -/
def del (m : Map κ α) (k : κ) : Map κ α := m.filter fun x => x.1 ≠ k

/-- `avl_insert`, `list_add_tail` -/
def add (m : Map κ α) (k : κ) (v : α) : Map κ α := m ++ [(k, v)]

def keys (m : Map κ α) : List κ := m.map (·.1)

/-- the objects with a property are changed -/
def updWhere (m : Map κ α) (p : κ → α → Bool) (f : α → α) : Map κ α := m.map fun x => if p x.1 x.2 then (x.1, f x.2) else x

/-- the objects with a property are removed -/
def delWhere (m : Map κ α) (p : κ → α → Bool) : Map κ α := m.filter fun x => !p x.1 x.2

/-- the key of the first object with a property -/
def findKey (m : Map κ α) (p : κ → α → Bool) : Option κ := (m.find? fun x => p x.1 x.2).map (·.1)

theorem get_cons (j k : κ) (v : α) (m : Map κ α) : get ((j, v) :: m) k = if j = k then some v else get m k := rfl

theorem get_upd (m : Map κ α) (k j : κ) (f : α → α) : get (upd m k f) j = if j = k then (get m j).map f else get m j := by
  induction m with
  | nil => simp [upd, get]
  | cons x m ih =>
    obtain ⟨i, v⟩ := x
    unfold upd at ih ⊢
    rw [List.map_cons]
    by_cases hik : i = k
    · rw [if_pos hik, get_cons, get_cons, ih]
      by_cases hij : i = j
      · rw [if_pos hij, if_pos hij, if_pos (by rw [← hij, hik])]
        rfl
      · rw [if_neg hij, if_neg hij]
    · rw [if_neg hik, get_cons, get_cons, ih]
      by_cases hij : i = j
      · rw [if_pos hij, if_pos hij, if_neg (by rw [← hij]; exact hik)]
      · rw [if_neg hij, if_neg hij]

theorem get_del (m : Map κ α) (k j : κ) : get (del m k) j = if j = k then none else get m j := by
  induction m with
  | nil => simp [del, get]
  | cons x m ih =>
    obtain ⟨i, v⟩ := x
    unfold del at ih ⊢
    rw [List.filter_cons]
    by_cases hik : i = k
    · rw [if_neg (by simpa using hik), ih, get_cons]
      by_cases hj : j = k
      · rw [if_pos hj, if_pos hj]
      · rw [if_neg hj, if_neg hj, if_neg (by rw [hik]; exact fun e => hj e.symm)]
    · rw [if_pos (by simpa using hik), get_cons, get_cons, ih]
      by_cases hij : i = j
      · rw [if_pos hij, if_pos hij, if_neg (by rw [← hij]; exact hik)]
      · rw [if_neg hij, if_neg hij]

theorem get_add (m : Map κ α) (k j : κ) (v : α) (h : get m k = none) : get (add m k v) j = if j = k then some v else get m j := by
  induction m with
  | nil =>
    unfold add
    rw [List.nil_append, get_cons]
    by_cases hj : k = j
    · rw [if_pos hj, if_pos hj.symm]
    · rw [if_neg hj, if_neg fun e => hj e.symm]
  | cons x m ih =>
    obtain ⟨i, w⟩ := x
    rw [get_cons] at h
    by_cases hik : i = k
    · rw [if_pos hik] at h
      cases h
    · rw [if_neg hik] at h
      have ih := ih h
      unfold add at ih ⊢
      rw [List.cons_append, get_cons, get_cons, ih]
      by_cases hij : i = j
      · rw [if_pos hij, if_pos hij, if_neg (by rw [← hij]; exact hik)]
      · rw [if_neg hij, if_neg hij]

theorem mem_keys {m : Map κ α} {k : κ} : k ∈ keys m ↔ get m k ≠ none := by
  induction m with
  | nil => simp [keys, get]
  | cons x m ih =>
    obtain ⟨i, v⟩ := x
    unfold keys at ih ⊢
    rw [List.map_cons, List.mem_cons, get_cons, ih]
    by_cases hik : i = k
    · rw [if_pos hik]
      simp [hik]
    · rw [if_neg hik]
      constructor
      · rintro (h | h)
        · exact absurd h.symm hik
        · exact h
      · exact .inr

theorem keys_upd (m : Map κ α) (k : κ) (f : α → α) : keys (upd m k f) = keys m := by
  unfold keys upd
  rw [List.map_map]
  apply List.map_congr_left
  intro x _
  show (if x.1 = k then (x.1, f x.2) else x).1 = x.1
  split <;> rfl

omit [DecidableEq κ] in
theorem keys_updWhere (m : Map κ α) (p : κ → α → Bool) (f : α → α) : keys (updWhere m p f) = keys m := by
  unfold keys updWhere
  rw [List.map_map]
  apply List.map_congr_left
  intro x _
  show (if p x.1 x.2 = true then (x.1, f x.2) else x).1 = x.1
  split <;> rfl

theorem get_updWhere (m : Map κ α) (p : κ → α → Bool) (f : α → α) (j : κ) :
    get (updWhere m p f) j = (get m j).map fun v => if p j v then f v else v := by
  induction m with
  | nil => rfl
  | cons x m ih =>
    obtain ⟨i, v⟩ := x
    unfold updWhere at ih ⊢
    rw [List.map_cons]
    dsimp only
    have : (if p i v = true then (i, f v) else (i, v)) = (i, if p i v = true then f v else v) := by split <;> rfl
    rw [this, get_cons, get_cons, ih]
    by_cases hij : i = j
    · rw [if_pos hij, if_pos hij, hij]
      rfl
    · rw [if_neg hij, if_neg hij]

/-- only the present value of a key counts if no key occurs twice -/
theorem get_delWhere (m : Map κ α) (hm : (keys m).Nodup) (p : κ → α → Bool) (j : κ) :
    get (delWhere m p) j = match get m j with | none => none | some v => if p j v then none else some v := by
  induction m with
  | nil => rfl
  | cons x m ih =>
    obtain ⟨i, v⟩ := x
    unfold keys at hm ih
    rw [List.map_cons, List.nodup_cons] at hm
    have ih := ih hm.2
    unfold delWhere at ih ⊢
    rw [List.filter_cons, get_cons]
    by_cases hij : i = j
    · subst hij
      rw [if_pos rfl]
      have hn : get m i = none := by
        have := mt (mem_keys (m := m) (k := i)).2 hm.1
        simpa using this
      rw [hn] at ih
      cases hp : p i v
      · simp [hp, get_cons]
      · simp [hp, ih]
    · rw [if_neg hij]
      cases hp : p i v
      · simp [get_cons, hij, ih]
      · simp [ih]

theorem nodup_del (m : Map κ α) (k : κ) (h : (keys m).Nodup) : (keys (del m k)).Nodup := by
  unfold keys del at *
  exact h.sublist (List.Sublist.map _ List.filter_sublist)

omit [DecidableEq κ] in
theorem nodup_delWhere (m : Map κ α) (p : κ → α → Bool) (h : (keys m).Nodup) : (keys (delWhere m p)).Nodup := by
  unfold keys delWhere at *
  exact h.sublist (List.Sublist.map _ List.filter_sublist)

theorem nodup_add (m : Map κ α) (k : κ) (v : α) (h : (keys m).Nodup) (hk : get m k = none) : (keys (add m k v)).Nodup := by
  have h2 : k ∉ keys m := fun hm => mem_keys.1 hm hk
  unfold keys add at *
  rw [List.map_append, List.map_cons, List.map_nil, List.nodup_append]
  refine ⟨h, by simp, ?_⟩
  intro a ha b hb e
  rw [List.mem_singleton.1 hb] at e
  dsimp only at e
  subst e
  exact h2 ha

theorem findKey_some {m : Map κ α} {p : κ → α → Bool} {k : κ} (h : findKey m p = some k) (hm : (keys m).Nodup) :
    ∃ v, get m k = some v ∧ p k v = true := by
  unfold findKey at h
  induction m with
  | nil => cases h
  | cons x m ih =>
    obtain ⟨i, v⟩ := x
    unfold keys at hm ih
    rw [List.map_cons, List.nodup_cons] at hm
    rw [List.find?_cons] at h
    cases hp : p i v with
    | true =>
      dsimp only at h
      rw [hp] at h
      injection h with h
      dsimp only at h
      subst h
      exact ⟨v, by rw [get_cons, if_pos rfl], hp⟩
    | false =>
      dsimp only at h
      rw [hp] at h
      obtain ⟨w, hw, hpw⟩ := ih h hm.2
      refine ⟨w, ?_, hpw⟩
      have hki : i ≠ k := by
        intro e
        refine hm.1 ?_
        have : k ∈ keys m := mem_keys.2 (by rw [hw]; simp)
        unfold keys at this
        rw [e]
        exact this
      rw [get_cons, if_neg hki]
      exact hw

end Map
end Verif.Nhdp
