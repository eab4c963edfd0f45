import Verif.DlepDest.Spec

namespace Verif.DlepDest

theorem told_append (l : List Msg) (m : Msg) : told (l ++ [m]) = tell (told l) m := by
  simp [told, List.foldl_append]

def Up (s : Sess) (k : Key) : Prop := ∃ l, s.locals k = some l ∧ (l.state = .upSent ∨ l.state = .upAcked)

/-- invariant of a session that reports neighbors, without the part about complete announcement -/
structure Base (db : Db) (s : Sess) : Prop where
  toldUp : ∀ k, told s.out k = true → Up s k
  states : ∀ k l, s.locals k = some l → l.state = .upSent ∨ l.state = .upAcked ∨ l.state = .downSent
  present : ∀ k, Up s k → k ∈ db.map ekey

structure Inv (db : Db) (s : Sess) : Prop extends Base db s where
  full : s.ready = true → ∀ k, Reported s.cfg db k → told s.out k = true ∧ Up s k

def Wf (db : Db) : Prop := ∀ n d, (n, some d) ∈ db → (n, none) ∈ db

structure RInv (r : Radio) : Prop where
  listening : r.listening = true
  nodup : Unshared r.db
  wf : Wf r.db
  sess : ∀ s ∈ r.sessions, s.cfg.neighbors = true → Inv r.db s

theorem hasNeigh_iff (db : Db) (n : Key) : hasNeigh db n = true ↔ (n, none) ∈ db := by
  simp [hasNeigh]

theorem reported_present {c : Cfg} {db : Db} {k : Key} (h : Reported c db k) : k ∈ db.map ekey := by
  rcases h with ⟨_, h⟩ | ⟨_, n, d, h, rfl⟩
  · exact List.mem_map.2 ⟨_, h, rfl⟩
  · exact List.mem_map.2 ⟨_, h, rfl⟩

/-! ### sessions -/

@[simp] theorem set_cfg (s : Sess) (k : Key) (l : Option Local) : (s.set k l).cfg = s.cfg := rfl
@[simp] theorem set_ready (s : Sess) (k : Key) (l : Option Local) : (s.set k l).ready = s.ready := rfl
@[simp] theorem set_out (s : Sess) (k : Key) (l : Option Local) : (s.set k l).out = s.out := rfl
@[simp] theorem set_same (s : Sess) (k : Key) (l : Option Local) : (s.set k l).locals k = l := by simp [Sess.set]
theorem set_other (s : Sess) (k j : Key) (l : Option Local) (h : j ≠ k) : (s.set k l).locals j = s.locals j := by
  simp [Sess.set, h]

/-- effect of writing a message -/
theorem gen_cases (db : Db) (s : Sess) (m : Msg) : gen db s m = s ∨ gen db s m = { s with out := s.out ++ [m] } := by
  unfold gen
  split
  · split
    · split
      · exact Or.inr rfl
      · exact Or.inl rfl
    · exact Or.inl rfl
  · split
    · split
      · exact Or.inr rfl
      · exact Or.inl rfl
    · exact Or.inl rfl
  · exact Or.inr rfl

@[simp] theorem gen_cfg (db : Db) (s : Sess) (m : Msg) : (gen db s m).cfg = s.cfg := by
  rcases gen_cases db s m with h | h <;> rw [h]
@[simp] theorem gen_ready (db : Db) (s : Sess) (m : Msg) : (gen db s m).ready = s.ready := by
  rcases gen_cases db s m with h | h <;> rw [h]
@[simp] theorem gen_locals (db : Db) (s : Sess) (m : Msg) : (gen db s m).locals = s.locals := by
  rcases gen_cases db s m with h | h <;> rw [h]

/-- a step that only makes the destination `k` come up -/
structure Grow (s s' : Sess) (k : Key) : Prop where
  cfg : s'.cfg = s.cfg
  ready : s'.ready = s.ready
  locals : ∀ j, j ≠ k → s'.locals j = s.locals j
  up : Up s' k
  told : ∀ j, j ≠ k → told s'.out j = told s.out j
  toldK : Verif.DlepDest.told s.out k = true → Verif.DlepDest.told s'.out k = true

theorem Grow.upMono {s s' : Sess} {k : Key} (g : Grow s s' k) (j : Key) (h : Up s j) : Up s' j := by
  by_cases hj : j = k
  · subst hj; exact g.up
  · obtain ⟨l, hl, hs⟩ := h
    exact ⟨l, (g.locals j hj).trans hl, hs⟩

theorem Grow.toldMono {s s' : Sess} {k : Key} (g : Grow s s' k) (j : Key) (h : Verif.DlepDest.told s.out j = true) :
    Verif.DlepDest.told s'.out j = true := by
  by_cases hj : j = k
  · subst hj; exact g.toldK h
  · rw [g.told j hj]; exact h

theorem Grow.base {db : Db} {s s' : Sess} {k : Key} (g : Grow s s' k) (hk : k ∈ db.map ekey) (h : Base db s) : Base db s' where
  toldUp j hj := by
    by_cases e : j = k
    · subst e; exact g.up
    · rw [g.told j e] at hj
      exact g.upMono j (h.toldUp j hj)
  states j l hl := by
    by_cases e : j = k
    · subst e
      obtain ⟨l', hl', hs⟩ := g.up
      rw [hl'] at hl
      cases hl
      rcases hs with hs | hs
      · exact Or.inl hs
      · exact Or.inr (Or.inl hs)
    · rw [g.locals j e] at hl
      exact h.states j l hl
  present j hj := by
    by_cases e : j = k
    · subst e; exact hk
    · obtain ⟨l, hl, hs⟩ := hj
      rw [g.locals j e] at hl
      exact h.present j ⟨l, hl, hs⟩

theorem Grow.inv {db : Db} {s s' : Sess} {k : Key} (g : Grow s s' k) (hk : k ∈ db.map ekey) (h : Inv db s) : Inv db s' :=
  { g.base hk h.toBase with
    full := by
      intro hr j hj
      rw [g.cfg] at hj
      have := h.full (g.ready ▸ hr) j hj
      exact ⟨g.toldMono j this.1, g.upMono j this.2⟩ }

theorem told_up_other (l : List Msg) (k j : Key) (h : j ≠ k) : told (l ++ [.up k]) j = told l j := by
  rw [told_append]; simp [tell, h]
theorem told_up_same (l : List Msg) (k : Key) : told (l ++ [.up k]) k = true := by
  rw [told_append]; simp [tell]
theorem told_down_other (l : List Msg) (k j : Key) (h : j ≠ k) : told (l ++ [.down k]) j = told l j := by
  rw [told_append]; simp [tell, h]
theorem told_down_same (l : List Msg) (k : Key) : told (l ++ [.down k]) k = false := by
  rw [told_append]; simp [tell]
theorem told_update (l : List Msg) (k : Key) : told (l ++ [.update k]) = told l := by
  rw [told_append]; rfl
theorem told_initAck (l : List Msg) : told (l ++ [.initAck]) = told l := by
  rw [told_append]; rfl
theorem told_sessionUpdate (l : List Msg) : told (l ++ [.sessionUpdate]) = told l := by
  rw [told_append]; rfl

/-- writing DESTINATION_UP and marking the local neighbor as up -/
theorem grow_up (db : Db) (s : Sess) (k : Key) (l l' : Local) (h : l'.state = .upSent ∨ l'.state = .upAcked) :
    Grow s ((gen db (s.set k (some l)) (.up k)).set k (some l')) k where
  cfg := by simp
  ready := by simp
  locals j hj := by rw [set_other _ _ _ _ hj, gen_locals, set_other _ _ _ _ hj]
  up := ⟨l', by simp, h⟩
  told j hj := by
    rw [set_out]
    rcases gen_cases db (s.set k (some l)) (.up k) with e | e <;> rw [e]
    · rfl
    · exact told_up_other _ _ _ hj
  toldK h := by
    rw [set_out]
    rcases gen_cases db (s.set k (some l)) (.up k) with e | e <;> rw [e]
    · exact h
    · exact told_up_same _ _

theorem grow_update (db : Db) (s : Sess) (k : Key) (l l' : Local) (h : l'.state = .upSent ∨ l'.state = .upAcked) :
    Grow s ((gen db (s.set k (some l)) (.update k)).set k (some l')) k where
  cfg := by simp
  ready := by simp
  locals j hj := by rw [set_other _ _ _ _ hj, gen_locals, set_other _ _ _ _ hj]
  up := ⟨l', by simp, h⟩
  told j _ := by
    rw [set_out]
    rcases gen_cases db (s.set k (some l)) (.update k) with e | e <;> rw [e]
    · rfl
    · show told (s.out ++ [.update k]) j = _
      rw [told_update]
  toldK h := by
    rw [set_out]
    rcases gen_cases db (s.set k (some l)) (.update k) with e | e <;> rw [e]
    · exact h
    · show told (s.out ++ [.update k]) k = _
      rw [told_update]; exact h

theorem grow_set (s : Sess) (k : Key) (l' : Local) (h : l'.state = .upSent ∨ l'.state = .upAcked) :
    Grow s (s.set k (some l')) k where
  cfg := rfl
  ready := rfl
  locals j hj := set_other _ _ _ _ hj
  up := ⟨l', by simp, h⟩
  told _ _ := rfl
  toldK h := h

theorem addLocal_some {s : Sess} {k : Key} (h : k.lid = [] ∨ k.lid.length = s.cfg.lidLen) : ∃ l, addLocal s k = some l := by
  unfold addLocal
  split
  · exact ⟨_, rfl⟩
  · have : ¬ (k.lid.length ≠ 0 ∧ k.lid.length ≠ s.cfg.lidLen) := by
      rintro ⟨h1, h2⟩
      rcases h with h | h
      · exact h1 (by rw [h]; rfl)
      · exact h2 h
    rw [if_neg this]
    exact ⟨_, rfl⟩

/-- what `_l2_neigh_added_to_session` does for an allowed key -/
theorem addedTo_spec {db : Db} {s : Sess} {n k : Key} (hn : (n, none) ∈ db) (hk : k.lid = [] ∨ k.lid.length = s.cfg.lidLen) :
    Grow s (addedTo db s n k) k ∧ (addedTo db s n k).out = s.out ++ [.up k] := by
  obtain ⟨l, hl⟩ := addLocal_some hk
  unfold addedTo
  rw [hl]
  refine ⟨grow_up _ _ _ _ _ (Or.inl rfl), ?_⟩
  simp only [set_out]
  simp only [gen, set_same, (hasNeigh_iff db n).2 hn, if_true]
  rfl

@[simp] theorem addedTo_cfg (db : Db) (s : Sess) (n k : Key) : (addedTo db s n k).cfg = s.cfg := by
  unfold addedTo
  split
  · rfl
  · simp

@[simp] theorem added_cfg (db : Db) (dst : Bool) (n k : Key) (s : Sess) : (added db dst n k s).cfg = s.cfg := by
  unfold added
  split <;> simp

@[simp] theorem changed_cfg (db : Db) (dst : Bool) (k : Key) (s : Sess) : (changed db dst k s).cfg = s.cfg := by
  unfold changed
  split
  · rfl
  · split
    · rfl
    · simp only
      split <;> simp

@[simp] theorem removed_cfg (db : Db) (dst : Bool) (k : Key) (s : Sess) : (removed db dst k s).cfg = s.cfg := by
  unfold removed
  split
  · rfl
  · split <;> simp

theorem changed_inv {db : Db} {dst : Bool} {k : Key} {s : Sess} (hk : k ∈ db.map ekey) (h : Inv db s) : Inv db (changed db dst k s) := by
  unfold changed
  split
  · exact h
  · split
    · exact h
    · rename_i l _
      simp only
      split
      · rename_i hs
        refine Grow.inv (k := k) (grow_set s k _ ?_) hk h
        exact Or.inl hs
      · rename_i hs
        refine Grow.inv (k := k) (grow_update db s k _ _ ?_) hk h
        exact Or.inr hs
      · exact (grow_up db s k _ _ (Or.inl rfl)).inv hk h

theorem mem_filter_key {db : Db} {e : Key × Option Nat} (hd : Unshared db) (he : e ∈ db) (k : Key) :
    k ∈ (db.filter fun x => x != e).map ekey ↔ k ∈ db.map ekey ∧ k ≠ ekey e := by
  induction db with
  | nil => cases he
  | cons a l ih =>
    have hd' := hd
    simp only [Unshared, List.map_cons, List.nodup_cons] at hd
    by_cases ha : a = e
    · subst ha
      have hne : ∀ x ∈ l, x ≠ a := fun x hx hxa => hd.1 (List.mem_map.2 ⟨x, hx, by rw [hxa]⟩)
      have hf : (l.filter fun x => x != a) = l := List.filter_eq_self.2 fun x hx => by simpa using hne x hx
      simp only [List.filter_cons, bne_self_eq_false, Bool.false_eq_true, if_false, hf, List.map_cons, List.mem_cons]
      constructor
      · intro hk
        exact ⟨Or.inr hk, fun hka => hd.1 (hka ▸ hk)⟩
      · rintro ⟨hk | hk, hne⟩
        · exact absurd hk hne
        · exact hk
    · have hel : e ∈ l := by
        rcases List.mem_cons.1 he with h | h
        · exact absurd h.symm ha
        · exact h
      have hb : (a != e) = true := by simpa using ha
      simp only [List.filter_cons, hb, if_true, List.map_cons, List.mem_cons, ih hd.2 hel]
      constructor
      · rintro (hk | ⟨hk, hne⟩)
        · refine ⟨Or.inl hk, ?_⟩
          intro hke
          exact hd.1 (List.mem_map.2 ⟨e, hel, by rw [← hke, hk]⟩)
        · exact ⟨Or.inr hk, hne⟩
      · rintro ⟨hk | hk, hne⟩
        · exact Or.inl hk
        · exact Or.inr ⟨hk, hne⟩

theorem unshared_filter {db : Db} (p : Key × Option Nat → Bool) (h : Unshared db) : Unshared (db.filter p) :=
  List.Pairwise.sublist (List.Sublist.map _ List.filter_sublist) h

theorem reported_filter {c : Cfg} {db : Db} {p : Key × Option Nat → Bool} {k : Key} (h : Reported c (db.filter p) k) : Reported c db k := by
  rcases h with ⟨h1, h2⟩ | ⟨h1, n, d, h2, h3⟩
  · exact Or.inl ⟨h1, (List.mem_filter.1 h2).1⟩
  · exact Or.inr ⟨h1, n, d, (List.mem_filter.1 h2).1, h3⟩

/-- removal of an entry -/
theorem removed_inv {db : Db} {e : Key × Option Nat} {s : Sess} (hd : Unshared db) (he : e ∈ db) (hc : s.cfg.neighbors = true)
    (h : Inv db s) : Inv (db.filter fun x => x != e) (removed db false (ekey e) s) := by
  have hs : skipped s.cfg false = false := by simp [skipped, hc]
  unfold removed
  rw [hs]
  simp only [Bool.false_eq_true, if_false]
  split
  · rename_i hn
    have hnu : ¬ Up s (ekey e) := by rintro ⟨l, hl, _⟩; rw [hn] at hl; cases hl
    refine ⟨⟨h.toldUp, h.states, ?_⟩, ?_⟩
    · intro k hk
      exact (mem_filter_key hd he k).2 ⟨h.present k hk, fun hke => hnu (hke ▸ hk)⟩
    · intro hr k hk
      exact h.full hr k (reported_filter hk)
  · rename_i l hl
    refine ⟨⟨?_, ?_, ?_⟩, ?_⟩
    · intro k hk
      simp only [set_out, gen] at hk
      by_cases hke : k = ekey e
      · rw [hke, told_down_same] at hk; cases hk
      · rw [told_down_other _ _ _ hke] at hk
        obtain ⟨l', hl', hs'⟩ := h.toldUp k hk
        exact ⟨l', by rw [set_other _ _ _ _ hke, gen_locals]; exact hl', hs'⟩
    · intro k l' hl'
      by_cases hke : k = ekey e
      · rw [hke, set_same] at hl'
        cases hl'
        exact Or.inr (Or.inr rfl)
      · rw [set_other _ _ _ _ hke, gen_locals] at hl'
        exact h.states k l' hl'
    · intro k hk
      obtain ⟨l', hl', hs'⟩ := hk
      by_cases hke : k = ekey e
      · rw [hke, set_same] at hl'
        cases hl'
        rcases hs' with hs' | hs' <;> cases hs'
      · rw [set_other _ _ _ _ hke, gen_locals] at hl'
        exact (mem_filter_key hd he k).2 ⟨h.present k ⟨l', hl', hs'⟩, hke⟩
    · intro hr k hk
      have hke := ((mem_filter_key hd he k).1 (reported_present hk)).2
      have hr' : s.ready = true := by simpa using hr
      have hk' : Reported s.cfg db k := by
        have := reported_filter hk
        simpa using this
      obtain ⟨h1, l', hl', hs'⟩ := h.full hr' k hk'
      refine ⟨?_, l', by rw [set_other _ _ _ _ hke, gen_locals]; exact hl', hs'⟩
      simp only [set_out, gen]
      rw [told_down_other _ _ _ hke]
      exact h1

theorem reported_append {c : Cfg} {db : Db} {e : Key × Option Nat} {k : Key} (h : Reported c (db ++ [e]) k) :
    Reported c db k ∨ k = ekey e := by
  rcases h with ⟨h1, h2⟩ | ⟨h1, n, d, h2, h3⟩
  · rcases List.mem_append.1 h2 with h2 | h2
    · exact Or.inl (Or.inl ⟨h1, h2⟩)
    · simp only [List.mem_singleton] at h2
      exact Or.inr (by rw [← h2]; rfl)
  · rcases List.mem_append.1 h2 with h2 | h2
    · exact Or.inl (Or.inr ⟨h1, n, d, h2, h3⟩)
    · simp only [List.mem_singleton] at h2
      exact Or.inr (by rw [← h2]; exact h3)

theorem base_mono {db db' : Db} {s : Sess} (h : Base db s) (hs : ∀ k, k ∈ db.map ekey → k ∈ db'.map ekey) : Base db' s :=
  ⟨h.toldUp, h.states, fun k hk => hs k (h.present k hk)⟩

/-- addition of an entry -/
theorem added_inv {db : Db} {e : Key × Option Nat} {s : Sess} (hn : (e.1, none) ∈ db ++ [e]) (hl : e.1.lid = [] ∨ e.1.lid.length = s.cfg.lidLen)
    (hc : s.cfg.neighbors = true) (h : Inv db s) : Inv (db ++ [e]) (added (db ++ [e]) false e.1 (ekey e) s) := by
  have hs : skipped s.cfg false = false := by simp [skipped, hc]
  unfold added
  rw [hs]
  simp only [Bool.false_eq_true, if_false]
  have hlid : (ekey e).lid = e.1.lid := by
    unfold ekey
    split <;> rfl
  obtain ⟨g, ho⟩ := addedTo_spec (db := db ++ [e]) (s := s) (n := e.1) (k := ekey e) hn (by rw [hlid]; exact hl)
  have hk : ekey e ∈ (db ++ [e]).map ekey := List.mem_map.2 ⟨e, by simp, rfl⟩
  have hb : Base (db ++ [e]) s := base_mono h.toBase fun k hk => by
    rw [List.map_append]; exact List.mem_append_left _ hk
  refine { g.base hk hb with full := ?_ }
  intro hr k hr'
  rw [g.cfg] at hr'
  rcases reported_append hr' with hr' | hr'
  · have := h.full (g.ready ▸ hr) k hr'
    exact ⟨g.toldMono k this.1, g.upMono k this.2⟩
  · subst hr'
    exact ⟨by rw [ho]; exact told_up_same _ _, g.up⟩

/-! ### session initialization -/

theorem announce_spec {db : Db} (hw : Wf db) (l : Db) (hl : ∀ e ∈ l, e ∈ db) (s : Sess) (hlid : LidOk s.cfg db) :
    (announce db l s).cfg = s.cfg ∧ (announce db l s).ready = s.ready ∧
      (announce db l s).out = s.out ++ (l.filter (selected s.cfg)).map (fun e => .up (ekey e)) ∧
      (Base db s → Base db (announce db l s)) ∧ (∀ k, Up s k → Up (announce db l s) k) ∧
      (∀ k, told s.out k = true → told (announce db l s).out k = true) ∧
      ∀ e ∈ l, selected s.cfg e = true → told (announce db l s).out (ekey e) = true ∧ Up (announce db l s) (ekey e) := by
  induction l generalizing s with
  | nil => simp [announce]
  | cons e l ih =>
    unfold announce
    by_cases he : selected s.cfg e = true
    · rw [if_pos he]
      have hmem := hl e (by simp)
      have hn : (e.1, none) ∈ db := by
        obtain ⟨n, o⟩ := e
        cases o with
        | none => exact hmem
        | some d => exact hw n d hmem
      have hkl : (ekey e).lid = e.1.lid := by
        unfold ekey
        split <;> rfl
      obtain ⟨g, ho⟩ := addedTo_spec (db := db) (s := s) (n := e.1) (k := ekey e) hn (by rw [hkl]; exact hlid e hmem)
      obtain ⟨h1, h2, h3, h4, h5, h6, h7⟩ := ih (fun x hx => hl x (by simp [hx])) (addedTo db s e.1 (ekey e)) (by rw [addedTo_cfg]; exact hlid)
      rw [addedTo_cfg] at h1 h3 h7
      refine ⟨h1, h2.trans g.ready, ?_, fun h => h4 (g.base (List.mem_map.2 ⟨e, hmem, rfl⟩) h), fun k h => h5 k (g.upMono k h),
        fun k h => h6 k (g.toldMono k h), ?_⟩
      · rw [h3, ho, List.filter_cons_of_pos he, List.map_cons, List.append_assoc]
        rfl
      · intro x hx hxs
        rcases List.mem_cons.1 hx with hx | hx
        · subst hx
          exact ⟨h6 _ (by rw [ho]; exact told_up_same _ _), h5 _ g.up⟩
        · exact h7 x hx hxs
    · rw [if_neg he]
      obtain ⟨h1, h2, h3, h4, h5, h6, h7⟩ := ih (fun x hx => hl x (by simp [hx])) s hlid
      refine ⟨h1, h2, ?_, h4, h5, h6, ?_⟩
      · rw [h3, List.filter_cons_of_neg he]
      · intro x hx hxs
        rcases List.mem_cons.1 hx with hx | hx
        · subst hx; exact absurd hxs he
        · exact h7 x hx hxs

theorem reported_selected {c : Cfg} {db : Db} {k : Key} (h : Reported c db k) : ∃ e ∈ db, selected c e = true ∧ ekey e = k := by
  rcases h with ⟨h1, h2⟩ | ⟨h1, n, d, h2, h3⟩
  · exact ⟨_, h2, h1, rfl⟩
  · exact ⟨_, h2, h1, h3.symm⟩

@[simp] theorem sessionInit_cfg (db : Db) (s : Sess) (hw : Wf db) (hl : LidOk s.cfg db) : (sessionInit db s).cfg = s.cfg := by
  unfold sessionInit
  split
  · rfl
  · exact (announce_spec hw db (fun _ h => h) { s with out := s.out ++ [.initAck] } hl).1

theorem init_inv {db : Db} {s : Sess} (hw : Wf db) (hl : LidOk s.cfg db) (h : Inv db s) : Inv db (sessionInit db s) := by
  unfold sessionInit
  split
  · exact h
  · obtain ⟨h1, h2, h3, h4, h5, h6, h7⟩ := announce_spec hw db (fun _ h => h) { s with out := s.out ++ [.initAck] } hl
    have hb : Base db { s with out := s.out ++ [.initAck] } :=
      ⟨fun k hk => h.toldUp k (by rw [told_initAck] at hk; exact hk), h.states, h.present⟩
    have hb' := h4 hb
    refine ⟨⟨hb'.toldUp, hb'.states, hb'.present⟩, ?_⟩
    intro _ k hk
    simp only at hk
    rw [h1] at hk
    obtain ⟨e, he, hs, rfl⟩ := reported_selected hk
    exact h7 e he hs

/-! ### acknowledgements -/

theorem upAck_inv {db : Db} {s s' : Sess} {k : Key} {okay : Bool} (h : Inv db s) (hs : upAck db s k okay = some s') : Inv db s' ∧ s'.cfg = s.cfg := by
  unfold upAck at hs
  split at hs
  · split at hs
    · cases hs
    · rename_i l hl
      split at hs
      · rename_i hst
        have hp : k ∈ db.map ekey := h.present k ⟨l, hl, Or.inl hst⟩
        simp only at hs
        split at hs
        · cases hs
          exact ⟨(grow_update db s k _ _ (Or.inr rfl)).inv hp h, by simp⟩
        · cases hs
          exact ⟨(grow_set s k _ (Or.inr rfl)).inv hp h, by simp⟩
      · cases hs; exact ⟨h, rfl⟩
  · cases hs; exact ⟨h, rfl⟩

theorem downAck_inv {db : Db} {s s' : Sess} {k : Key} {okay : Bool} (h : Inv db s) (hs : downAck s k okay = some s') : Inv db s' ∧ s'.cfg = s.cfg := by
  unfold downAck at hs
  split at hs
  · split at hs
    · cases hs
    · rename_i l hl
      split at hs
      · rename_i hst
        cases hs
        have hnu : ¬ Up s k := by
          rintro ⟨l', hl', hs'⟩
          rw [hl] at hl'
          cases hl'
          rw [hst] at hs'
          rcases hs' with hs' | hs' <;> cases hs'
        have hup : ∀ j, Up s j → Up (s.set k none) j := by
          intro j hj
          have hjk : j ≠ k := fun e => hnu (e ▸ hj)
          obtain ⟨l', hl', hs'⟩ := hj
          exact ⟨l', by rw [set_other _ _ _ _ hjk]; exact hl', hs'⟩
        refine ⟨⟨⟨fun j hj => hup j (h.toldUp j hj), ?_, ?_⟩, ?_⟩, rfl⟩
        · intro j l' hl'
          by_cases hjk : j = k
          · subst hjk; simp at hl'
          · rw [set_other _ _ _ _ hjk] at hl'
            exact h.states j l' hl'
        · rintro j ⟨l', hl', hs'⟩
          by_cases hjk : j = k
          · subst hjk; simp at hl'
          · rw [set_other _ _ _ _ hjk] at hl'
            exact h.present j ⟨l', hl', hs'⟩
        · intro hr j hj
          have := h.full hr j hj
          exact ⟨this.1, hup j this.2⟩
      · cases hs; exact ⟨h, rfl⟩
  · cases hs; exact ⟨h, rfl⟩

theorem upAck_cfg {db : Db} {s s' : Sess} {k : Key} {okay : Bool} (h : upAck db s k okay = some s') : s'.cfg = s.cfg ∧ s'.ready = s.ready := by
  unfold upAck at h
  split at h
  · split at h
    · cases h
    · split at h
      · simp only at h
        split at h <;> cases h <;> simp
      · cases h; exact ⟨rfl, rfl⟩
  · cases h; exact ⟨rfl, rfl⟩

theorem downAck_cfg {s s' : Sess} {k : Key} {okay : Bool} (h : downAck s k okay = some s') : s'.cfg = s.cfg ∧ s'.ready = s.ready := by
  unfold downAck at h
  split at h
  · split at h
    · cases h
    · split at h <;> cases h <;> exact ⟨rfl, rfl⟩
  · cases h; exact ⟨rfl, rfl⟩

/-! ### the radio -/

theorem notify_inv {r : Radio} {db' : Db} {f : Sess → Sess} (h : RInv r) (hd : Unshared db') (hw : Wf db')
    (hf : ∀ s ∈ r.sessions, s.cfg.neighbors = true → Inv r.db s → Inv db' (f s)) (hc : ∀ s, (f s).cfg = s.cfg) :
    RInv { r.notify f with db := db' } := by
  have hn : r.notify f = { r with sessions := r.sessions.map f } := by
    unfold Radio.notify
    rw [if_pos h.listening]
  rw [hn]
  refine ⟨h.listening, hd, hw, ?_⟩
  intro s hs hcfg
  obtain ⟨s0, hs0, rfl⟩ := List.mem_map.1 hs
  rw [hc] at hcfg
  exact hf s0 hs0 hcfg (h.sess s0 hs0 hcfg)

@[simp] theorem notify_db (r : Radio) (f : Sess → Sess) : (r.notify f).db = r.db := by
  unfold Radio.notify
  split <;> rfl

theorem notify_same {r : Radio} {f : Sess → Sess} (h : RInv r)
    (hf : ∀ s ∈ r.sessions, s.cfg.neighbors = true → Inv r.db s → Inv r.db (f s)) (hc : ∀ s, (f s).cfg = s.cfg) : RInv (r.notify f) := by
  have := notify_inv h h.nodup h.wf hf hc
  have e : { r.notify f with db := r.db } = r.notify f := by
    have : (r.notify f).db = r.db := notify_db r f
    conv => rhs; rw [show r.notify f = { r.notify f with db := (r.notify f).db } from rfl, this]
  rwa [e] at this

theorem notify_cfgs (r : Radio) (f : Sess → Sess) (hc : ∀ s, (f s).cfg = s.cfg) :
    (r.notify f).sessions.map (·.cfg) = r.sessions.map (·.cfg) := by
  unfold Radio.notify
  split
  · simp only [List.map_map]
    exact List.map_congr_left fun s _ => hc s
  · rfl

theorem cfg_of_map {a b : List Sess} (h : a.map (·.cfg) = b.map (·.cfg)) {p : Cfg → Prop} (hb : ∀ s ∈ b, p s.cfg) : ∀ s ∈ a, p s.cfg := by
  intro s hs
  have : s.cfg ∈ b.map (·.cfg) := h ▸ List.mem_map.2 ⟨s, hs, rfl⟩
  obtain ⟨t, ht, e⟩ := List.mem_map.1 this
  exact e ▸ hb t ht

theorem neighAdd_inv {r : Radio} {n : Key} (h : RInv r) (hu : Unshared (neighAdd r n).db)
    (hl : ∀ s ∈ (neighAdd r n).sessions, LidOk s.cfg (neighAdd r n).db) : RInv (neighAdd r n) := by
  unfold neighAdd at *
  by_cases hn : hasNeigh r.db n = true
  · rw [if_pos hn]; exact h
  · rw [if_neg hn] at hu hl ⊢
    simp only [notify_db] at hu hl
    have hl' := cfg_of_map (notify_cfgs { r with db := r.db ++ [(n, none)] } (added (r.db ++ [(n, none)]) false n n) (by simp)).symm (p := fun c => LidOk c (r.db ++ [(n, none)])) hl
    have hw : Wf (r.db ++ [(n, none)]) := by
      intro m d hm
      rcases List.mem_append.1 hm with hm | hm
      · exact List.mem_append_left _ (h.wf m d hm)
      · simp at hm
    have := notify_inv (f := added (r.db ++ [(n, none)]) false n n) h hu hw
      (fun s hs hc hi => added_inv (e := (n, none)) (by simp) (hl' s hs (n, none) (by simp)) hc hi) (by simp)
    have e : ({ r.notify (added (r.db ++ [(n, none)]) false n n) with db := r.db ++ [(n, none)] } : Radio) =
        ({ r with db := r.db ++ [(n, none)] } : Radio).notify (added (r.db ++ [(n, none)]) false n n) := by
      unfold Radio.notify
      simp only [h.listening, if_true]
    rwa [e] at this

theorem dstAdd_inv {r : Radio} {n : Key} {d : Nat} (h : RInv r) (hu : Unshared (dstAdd r n d).db)
    (hl : ∀ s ∈ (dstAdd r n d).sessions, LidOk s.cfg (dstAdd r n d).db) : RInv (dstAdd r n d) := by
  unfold dstAdd at *
  by_cases hn : (hasNeigh r.db n && !r.db.contains (n, some d)) = true
  · rw [if_pos hn] at hu hl ⊢
    simp only [notify_db] at hu hl
    have hnn : (n, none) ∈ r.db := by
      rw [Bool.and_eq_true] at hn
      exact (hasNeigh_iff _ _).1 hn.1
    have hl' := cfg_of_map (notify_cfgs { r with db := r.db ++ [(n, some d)] } (added (r.db ++ [(n, some d)]) false n (dstKey n d)) (by simp)).symm
      (p := fun c => LidOk c (r.db ++ [(n, some d)])) hl
    have hw : Wf (r.db ++ [(n, some d)]) := by
      intro m d' hm
      rcases List.mem_append.1 hm with hm | hm
      · exact List.mem_append_left _ (h.wf m d' hm)
      · simp only [List.mem_singleton, Prod.mk.injEq] at hm
        rw [hm.1]
        exact List.mem_append_left _ hnn
    have := notify_inv (f := added (r.db ++ [(n, some d)]) false n (dstKey n d)) h hu hw
      (fun s hs hc hi => added_inv (e := (n, some d)) (List.mem_append_left _ hnn) (hl' s hs (n, some d) (by simp)) hc hi) (by simp)
    have e : ({ r.notify (added (r.db ++ [(n, some d)]) false n (dstKey n d)) with db := r.db ++ [(n, some d)] } : Radio) =
        ({ r with db := r.db ++ [(n, some d)] } : Radio).notify (added (r.db ++ [(n, some d)]) false n (dstKey n d)) := by
      unfold Radio.notify
      simp only [h.listening, if_true]
    rwa [e] at this
  · rw [if_neg hn]; exact h

theorem dstRemove_inv {r : Radio} {n : Key} {d : Nat} (h : RInv r) : RInv (dstRemove r n d) := by
  unfold dstRemove
  split
  · rename_i hn
    have hm : (n, some d) ∈ r.db := by simpa using hn
    simp only [notify_db]
    refine notify_inv h (unshared_filter _ h.nodup) ?_ (fun s _ hc hi => removed_inv (e := (n, some d)) h.nodup hm hc hi) (by simp)
    intro m d' hm'
    refine List.mem_filter.2 ⟨h.wf m d' (List.mem_filter.1 hm').1, by simp⟩
  · exact h

theorem dstRemove_db (r : Radio) (n : Key) (d : Nat) : (dstRemove r n d).db = r.db.filter fun e => e != (n, some d) := by
  unfold dstRemove
  split
  · simp
  · rename_i hn
    refine (List.filter_eq_self.2 ?_).symm
    intro e he
    have hm : (n, some d) ∉ r.db := by simpa using hn
    have : e ≠ (n, some d) := fun h => hm (h ▸ he)
    simpa using this

theorem fold_dst {n : Key} (ds : List Nat) (r : Radio) (h : RInv r) :
    RInv (ds.foldl (fun r d => dstRemove r n d) r) ∧
      ∀ e, e ∈ (ds.foldl (fun r d => dstRemove r n d) r).db ↔ e ∈ r.db ∧ ∀ d ∈ ds, e ≠ (n, some d) := by
  induction ds generalizing r with
  | nil => exact ⟨h, by simp⟩
  | cons d ds ih =>
    obtain ⟨h1, h2⟩ := ih (dstRemove r n d) (dstRemove_inv h)
    refine ⟨h1, fun e => ?_⟩
    rw [List.foldl_cons, h2, dstRemove_db, List.mem_filter]
    constructor
    · rintro ⟨⟨ha, hb⟩, hc⟩
      refine ⟨ha, ?_⟩
      intro d' hd'
      rcases List.mem_cons.1 hd' with rfl | hd'
      · simpa using hb
      · exact hc d' hd'
    · rintro ⟨ha, hc⟩
      refine ⟨⟨ha, ?_⟩, fun d' hd' => hc d' (by simp [hd'])⟩
      simpa using hc d (by simp)

theorem mem_dests {db : Db} {n : Key} {d : Nat} (h : (n, some d) ∈ db) : d ∈ dests db n := by
  unfold dests
  exact List.mem_filterMap.2 ⟨_, h, by simp⟩

theorem dests_mem {db : Db} {n : Key} {d : Nat} (h : d ∈ dests db n) : (n, some d) ∈ db := by
  unfold dests at h
  obtain ⟨⟨m, o⟩, he, hd⟩ := List.mem_filterMap.1 h
  simp only at hd
  split at hd
  · rename_i hm
    rw [hm, hd] at he
    exact he
  · cases hd

theorem neighRemove_inv {r : Radio} {n : Key} (h : RInv r) : RInv (neighRemove r n) := by
  unfold neighRemove
  split
  · rename_i hn
    obtain ⟨h1, h2⟩ := fold_dst (n := n) (dests r.db n) r h
    have hm : (n, none) ∈ ((dests r.db n).foldl (fun r d => dstRemove r n d) r).db :=
      (h2 _).2 ⟨(hasNeigh_iff _ _).1 hn, fun d _ => by simp⟩
    simp only [notify_db]
    refine notify_inv h1 (unshared_filter _ h1.nodup) ?_ (fun s _ hc hi => removed_inv (e := (n, none)) h1.nodup hm hc hi) (by simp)
    intro m d' hm'
    have hm1 := (List.mem_filter.1 hm').1
    refine List.mem_filter.2 ⟨h1.wf m d' hm1, ?_⟩
    have hne : m ≠ n := by
      intro hmn
      subst hmn
      have := (h2 _).1 hm1
      exact this.2 d' (mem_dests this.1) rfl
    simpa using hne
  · exact h

theorem neighChange_inv {r : Radio} {n : Key} (h : RInv r) : RInv (neighChange r n) := by
  unfold neighChange
  split
  · rename_i hn
    have h1 : RInv (r.notify (changed r.db false n)) :=
      notify_same h (fun s _ _ hi => changed_inv (List.mem_map.2 ⟨_, (hasNeigh_iff _ _).1 hn, rfl⟩) hi) (by simp)
    have h2 : ∀ d ∈ dests r.db n, dstKey n d ∈ (r.notify (changed r.db false n)).db.map ekey := by
      intro d hd
      rw [notify_db]
      exact List.mem_map.2 ⟨_, dests_mem hd, rfl⟩
    generalize hg : dests r.db n = ds at h2
    clear hg
    generalize r.notify (changed r.db false n) = q at h1 h2
    induction ds generalizing q with
    | nil => exact h1
    | cons d ds ih =>
      rw [List.foldl_cons]
      refine ih _ (notify_same h1 (fun s _ _ hi => changed_inv (h2 d (by simp)) hi) (by simp)) ?_
      intro d' hd'
      rw [notify_db]
      exact h2 d' (by simp [hd'])
  · exact h

theorem mem_modify {α : Type} {l : List α} {i : Nat} {f : α → α} {x : α} (h : x ∈ l.modify i f) :
    x ∈ l ∨ ∃ y, l[i]? = some y ∧ x = f y := by
  obtain ⟨j, hj⟩ := List.mem_iff_getElem?.1 h
  rw [List.getElem?_modify] at hj
  by_cases hij : i = j
  · subst hij
    cases hy : l[i]? with
    | none => rw [hy] at hj; simp at hj
    | some y =>
      rw [hy] at hj
      simp at hj
      exact Or.inr ⟨y, rfl, hj.symm⟩
  · simp only [hij, if_false] at hj
    exact Or.inl (List.mem_iff_getElem?.2 ⟨j, by simpa using hj⟩)

theorem on_inv {r : Radio} {i : Nat} {f : Sess → Sess} (h : RInv r)
    (hf : ∀ s, r.sessions[i]? = some s → (f s).cfg = s.cfg ∧ (s.cfg.neighbors = true → Inv r.db s → Inv r.db (f s))) : RInv (r.on i f) := by
  refine ⟨h.listening, h.nodup, h.wf, ?_⟩
  intro s hs hc
  rcases mem_modify hs with hs | ⟨y, hy, rfl⟩
  · exact h.sess s hs hc
  · obtain ⟨h1, h2⟩ := hf y hy
    have hc' : y.cfg.neighbors = true := h1 ▸ hc
    exact h2 hc' (h.sess y (List.mem_iff_getElem?.2 ⟨i, hy⟩) hc')

theorem modify_cfgs {l : List Sess} {i : Nat} {f : Sess → Sess} {p : Cfg → Prop} (h : ∀ s ∈ l.modify i f, p s.cfg)
    (hf : ∀ s, l[i]? = some s → (f s).cfg = s.cfg) {s : Sess} (hs : l[i]? = some s) : p s.cfg := by
  have : f s ∈ l.modify i f := by
    refine List.mem_iff_getElem?.2 ⟨i, ?_⟩
    rw [List.getElem?_modify, hs]
    simp
  exact hf s hs ▸ h _ this

theorem start_inv (r : Radio) (s : Sess) (hl : s.locals = fun _ => none) (ho : s.out = []) (hr : s.ready = false) : Inv r.db s := by
  refine ⟨⟨?_, ?_, ?_⟩, ?_⟩
  · intro k hk; rw [ho] at hk; cases hk
  · intro k l hk; rw [hl] at hk; cases hk
  · rintro k ⟨l, hk, _⟩; rw [hl] at hk; cases hk
  · intro h; rw [hr] at h; cases h

end Verif.DlepDest
