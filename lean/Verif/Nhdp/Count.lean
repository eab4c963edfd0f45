import Verif.Nhdp.HelloWf

namespace Verif.Nhdp
open Map (get_upd get_del get_add mem_keys keys_upd keys_updWhere get_updWhere get_delWhere nodup_del nodup_delWhere nodup_add findKey_some)

/-- the counter of each neighbor is the number of its symmetric links -/
def Cnt (db : Db) : Prop := ∀ n x, db.neighs.get n = some x → x.sym = (symLinks db n).length

theorem mem_symLinks {db : Db} {n l : Nat} : l ∈ symLinks db n ↔ IsSym db n l := by
  unfold symLinks IsSym
  rw [List.mem_filter, mem_keys]
  cases hg : db.links.get l with
  | none => simp
  | some x => simp

theorem nodup_symLinks {db : Db} (w : WF db) (n : Nat) : (symLinks db n).Nodup := w.nodupL.sublist List.filter_sublist

theorem symLinks_congr {db db' : Db} (w : WF db) (w' : WF db') {n : Nat} (h : ∀ l, IsSym db' n l ↔ IsSym db n l) :
    (symLinks db' n).length = (symLinks db n).length := by
  refine List.Perm.length_eq ((List.perm_ext_iff_of_nodup (nodup_symLinks w' n) (nodup_symLinks w n)).2 fun l => ?_)
  rw [mem_symLinks, mem_symLinks]
  exact h l

theorem symLinks_more {db db' : Db} (w : WF db) (w' : WF db') {n l0 : Nat} (h0 : ¬ IsSym db n l0) (h : ∀ l, IsSym db' n l ↔ l = l0 ∨ IsSym db n l) :
    (symLinks db' n).length = (symLinks db n).length + 1 := by
  have h1 : (l0 :: symLinks db n).Nodup := by
    rw [List.nodup_cons, mem_symLinks]
    exact ⟨h0, nodup_symLinks w n⟩
  have := List.Perm.length_eq ((List.perm_ext_iff_of_nodup (nodup_symLinks w' n) h1).2 fun l => by
    rw [mem_symLinks, List.mem_cons, mem_symLinks]
    exact h l)
  rw [this]
  rfl

theorem cnt_same {db db' : Db} (w : WF db) (w' : WF db') (hc : Cnt db)
    (hn : ∀ n x', db'.neighs.get n = some x' → ∃ x, db.neighs.get n = some x ∧ x'.sym = x.sym)
    (hl : ∀ n, db'.neighs.get n ≠ none → ∀ l, IsSym db' n l ↔ IsSym db n l) : Cnt db' := by
  intro n x' hx'
  obtain ⟨x, hx, e⟩ := hn n x' hx'
  rw [e, hc n x hx, symLinks_congr w w' (hl n (by rw [hx']; simp))]

theorem cnt_empty : Cnt Db.empty := by
  intro n x h
  cases h

/-- only links and neighbors count -/
theorem cnt_of_eq {db db' : Db} (w : WF db) (w' : WF db') (hc : Cnt db) (h1 : db'.neighs = db.neighs) (h2 : db'.links = db.links) : Cnt db' := by
  refine cnt_same w w' hc (fun n x' h => ⟨x', by rw [← h1]; exact h, rfl⟩) fun n _ l => ?_
  unfold IsSym
  rw [h2]

theorem isSym_links {db db' : Db} (h : ∀ l x', db'.links.get l = some x' → ∃ x, db.links.get l = some x ∧ x'.neigh = x.neigh ∧ x'.ifc = x.ifc ∧ x'.status = x.status)
    (hk : db'.links.keys = db.links.keys) (n l : Nat) : IsSym db' n l ↔ IsSym db n l := by
  constructor
  · rintro ⟨x', hx', e1, e2⟩
    obtain ⟨x, hx, q1, _, q2⟩ := h l x' hx'
    exact ⟨x, hx, by rw [← q1]; exact e1, by rw [← q2]; exact e2⟩
  · rintro ⟨x, hx, e1, e2⟩
    have : db'.links.get l ≠ none := by
      rw [← mem_keys, hk, mem_keys, hx]
      simp
    obtain ⟨x', hx'⟩ := Option.ne_none_iff_exists'.1 this
    obtain ⟨y, hy, q1, _, q2⟩ := h l x' hx'
    rw [hx] at hy
    injection hy with hy
    exact ⟨x', hx', by rw [q1, ← hy]; exact e1, by rw [q2, ← hy]; exact e2⟩

theorem cnt_sameDb {d d' : Db} (h : SameDb d d') (w : WF d) (hc : Cnt d) : Cnt d' :=
  cnt_same w (h.wf w) hc h.neighs fun n _ l => isSym_links h.links h.keysL n l

/-! ### Operations -/

theorem neighAdd_cnt {db : Db} (w : WF db) (hc : Cnt db) : Cnt (neighAdd db).1 := by
  obtain ⟨w', hg⟩ := neighAdd_ok w
  intro n x hx
  rw [hg] at hx
  have hs : ∀ l, IsSym (neighAdd db).1 n l ↔ IsSym db n l := fun l => Iff.rfl
  by_cases hn : n = db.next
  · rw [if_pos hn] at hx
    injection hx with hx
    rw [← hx]
    have : symLinks (neighAdd db).1 n = [] := by
      rw [List.eq_nil_iff_forall_not_mem]
      intro l hl
      obtain ⟨y, hy, e, _⟩ := mem_symLinks.1 hl
      have hy : db.links.get l = some y := hy
      have h1 := w.freshN y.neigh (w.linkNeigh l y hy)
      omega
    rw [this]
    rfl
  · rw [if_neg hn] at hx
    rw [hc n x hx, symLinks_congr w w' hs]

theorem linkAdd_cnt {db db' : Db} (w : WF db) (hc : Cnt db) {n ifc l : Nat} (h : linkAdd db n ifc = some (db', l)) : Cnt db' := by
  have hn : db.neighs.get n ≠ none := by
    intro e
    unfold linkAdd at h
    rw [e] at h
    cases h
  obtain ⟨d, e, w', hd, hg⟩ := linkAdd_ok w hn ifc
  rw [e] at h
  injection h with h
  injection h with h _
  subst h
  refine cnt_same w w' hc (fun m x' hx' => ⟨x', by rw [hd] at hx'; exact hx', rfl⟩) fun m _ j => ?_
  have hl : db.links.get db.next = none := by
    cases hg : db.links.get db.next with
    | none => rfl
    | some x => exact absurd (w.freshL _ (by rw [hg]; simp)) (Nat.lt_irrefl _)
  unfold IsSym
  rw [hg]
  by_cases hj : j = db.next
  · rw [if_pos hj, hj, hl]
    constructor
    · rintro ⟨x, hx, _, e⟩
      injection hx with hx
      rw [← hx] at e
      cases e
    · rintro ⟨x, hx, _⟩
      cases hx
  · rw [if_neg hj]

theorem updateStatus_cnt {db db' : Db} (w : WF db) (hc : Cnt db) {l : Nat} {st : Status} (h : updateStatus db l st = some db') : Cnt db' := by
  have hl : db.links.get l ≠ none := by
    intro e
    unfold updateStatus at h
    rw [e] at h
    cases h
  obtain ⟨lnk, hl⟩ := Option.ne_none_iff_exists'.1 hl
  obtain ⟨na, d, e, w', hd⟩ := updateStatus_ok w hl st
  rw [e] at h
  injection h with h
  subst h
  have hsym : ∀ m j, IsSym { db with
      links := db.links.upd l fun x => { x with status := st }
      neighs := db.neighs.upd lnk.neigh fun x => { x with sym := x.sym + d }
      naddrs := na } m j ↔ (if j = l then m = lnk.neigh ∧ st = .symmetric else IsSym db m j) := by
    intro m j
    unfold IsSym
    dsimp only
    rw [get_upd]
    by_cases hj : j = l
    · rw [if_pos hj, if_pos hj, hj, hl]
      constructor
      · rintro ⟨x, hx, e1, e2⟩
        injection hx with hx
        rw [← hx] at e1 e2
        exact ⟨e1.symm, e2⟩
      · rintro ⟨e1, e2⟩
        exact ⟨_, rfl, e1.symm, e2⟩
    · rw [if_neg hj, if_neg hj]
  have hold : ∀ m, IsSym db m l ↔ m = lnk.neigh ∧ lnk.status = .symmetric := by
    intro m
    unfold IsSym
    rw [hl]
    constructor
    · rintro ⟨x, hx, e1, e2⟩
      injection hx with hx
      rw [hx]
      exact ⟨e1.symm, e2⟩
    · rintro ⟨e1, e2⟩
      exact ⟨_, rfl, e1.symm, e2⟩
  intro m x' hx'
  have hx' : (db.neighs.upd lnk.neigh fun x => { x with sym := x.sym + d }).get m = some x' := hx'
  obtain ⟨x, hx, ex⟩ := get_upd_some hx'
  have hcx := hc m x hx
  by_cases hm : m = lnk.neigh
  · have ex : x'.sym = x.sym + d := by
      have hx'2 : (db.neighs.upd lnk.neigh fun x => { x with sym := x.sym + d }).get m = some x' := hx'
      rw [get_upd, if_pos hm, hx] at hx'2
      injection hx'2 with hx'2
      rw [← hx'2]
    rw [ex, hcx]
    by_cases h1 : lnk.status = .symmetric
    · by_cases h2 : st = .symmetric
      · rw [symLinks_congr w w' (n := m) fun j => by
          rw [hsym]
          by_cases hj : j = l
          · rw [if_pos hj, hj, hold]
            exact ⟨fun _ => ⟨hm, h1⟩, fun _ => ⟨hm, h2⟩⟩
          · rw [if_neg hj], hd, if_pos h1, if_pos h2]
        rfl
      · rw [symLinks_more w' w (n := m) (l0 := l) (by rw [hsym, if_pos rfl]; exact fun h => h2 h.2) fun j => by
          rw [hsym]
          by_cases hj : j = l
          · rw [if_pos hj, hj, hold]
            exact ⟨fun _ => .inl rfl, fun _ => ⟨hm, h1⟩⟩
          · rw [if_neg hj]
            exact ⟨.inr, fun h => h.resolve_left hj⟩, hd, if_pos h1, if_neg h2]
        omega
    · by_cases h2 : st = .symmetric
      · rw [symLinks_more w w' (n := m) (l0 := l) (by rw [hold]; exact fun h => h1 h.2) fun j => by
          rw [hsym]
          by_cases hj : j = l
          · rw [if_pos hj]
            exact ⟨fun _ => .inl hj, fun _ => ⟨hm, h2⟩⟩
          · rw [if_neg hj]
            exact ⟨.inr, fun h => h.resolve_left hj⟩, hd, if_neg h1, if_pos h2]
        omega
      · rw [symLinks_congr w w' (n := m) fun j => by
          rw [hsym]
          by_cases hj : j = l
          · rw [if_pos hj, hj, hold]
            exact ⟨fun h => absurd h.2 h2, fun h => absurd h.2 h1⟩
          · rw [if_neg hj], hd, if_neg h1, if_neg h2]
        omega
  · have ex : x' = x := by
      rcases ex with ex | ⟨ex, _⟩
      · exact ex
      · exact absurd ex hm
    rw [ex, hcx, symLinks_congr w w' (n := m) fun j => ?_]
    rw [hsym]
    by_cases hj : j = l
    · rw [if_pos hj, hj, hold]
      exact ⟨fun h => absurd h.1 hm, fun h => absurd h.1 hm⟩
    · rw [if_neg hj]

theorem neighRemove_cnt {db db' : Db} (w : WF db) (hc : Cnt db) {n : Nat} (h : neighRemove db n = some db') : Cnt db' := by
  have hn : db.neighs.get n ≠ none := by
    intro e
    unfold neighRemove at h
    rw [e] at h
    cases h
  obtain ⟨d, e, w', q1, _, _, _, q4⟩ := neighRemove_ok w hn
  rw [e] at h
  injection h with h
  subst h
  refine cnt_same w w' hc ?_ ?_
  · intro m x' hx'
    rw [q1, get_del] at hx'
    by_cases hm : m = n
    · rw [if_pos hm] at hx'
      cases hx'
    · rw [if_neg hm] at hx'
      exact ⟨x', hx', rfl⟩
  · intro m hm l
    have hmn : m ≠ n := by
      intro e
      rw [q1, get_del, if_pos e] at hm
      exact hm rfl
    unfold IsSym
    rw [q4]
    by_cases hl : l ∈ linksOf db n
    · rw [if_pos hl]
      obtain ⟨y, hy, ey⟩ := mem_linksOf.1 hl
      rw [hy]
      constructor
      · rintro ⟨x, hx, _⟩
        cases hx
      · rintro ⟨x, hx, e1, _⟩
        injection hx with hx
        rw [← hx, ey] at e1
        exact absurd e1.symm hmn
    · rw [if_neg hl]

/-- the removal of a link: its neighbor's counter is too large by one if the link was symmetric -/
theorem linkRemove_sym {db db' : Db} (w : WF db) {l : Nat} (h : linkRemove db l = some db') :
    WF db' ∧ db'.neighs = db.neighs ∧ db'.naddrs = db.naddrs ∧ db'.links = db.links.del l ∧ (∀ m j, IsSym db' m j ↔ j ≠ l ∧ IsSym db m j) := by
  have hl : db.links.get l ≠ none := by
    intro e
    unfold linkRemove at h
    rw [e] at h
    cases h
  obtain ⟨lp, e, w'⟩ := linkRemove_ok w hl
  rw [e] at h
  injection h with h
  subst h
  refine ⟨w', rfl, rfl, rfl, fun m j => ?_⟩
  unfold IsSym
  dsimp only
  rw [get_del]
  by_cases hj : j = l
  · rw [if_pos hj]
    constructor
    · rintro ⟨x, hx, _⟩
      cases hx
    · rintro ⟨h, _⟩
      exact absurd hj h
  · rw [if_neg hj]
    exact ⟨fun h => ⟨hj, h⟩, fun h => h.2⟩

theorem linkExpired_ok {db : Db} (w : WF db) {l : Nat} (hl : db.links.get l ≠ none) : ∃ db', linkExpired db l = some db' ∧ WF db' ∧ (Cnt db → Cnt db') := by
  obtain ⟨lnk, hl⟩ := Option.ne_none_iff_exists'.1 hl
  have step1 : ∃ m na, (if lnk.status = .symmetric then notSymmetric db l else some db) = some { db with neighs := m, naddrs := na } ∧
      WF { db with neighs := m, naddrs := na } ∧ m.keys = db.neighs.keys ∧
      (∀ k x', m.get k = some x' → ∃ x, db.neighs.get k = some x ∧ x'.sym = x.sym - if k = lnk.neigh ∧ lnk.status = .symmetric then 1 else 0) := by
    by_cases h1 : lnk.status = .symmetric
    · rw [if_pos h1]
      obtain ⟨na, e, w1⟩ := notSymmetric_ok w hl
      refine ⟨_, na, e, w1, keys_upd _ _ _, ?_⟩
      intro k x' hx'
      obtain ⟨x, hx, ex⟩ := get_upd_some hx'
      refine ⟨x, hx, ?_⟩
      rw [get_upd, hx] at hx'
      by_cases hk : k = lnk.neigh
      · rw [if_pos hk] at hx'
        injection hx' with hx'
        rw [if_pos ⟨hk, h1⟩, ← hx']
      · rw [if_neg hk] at hx'
        injection hx' with hx'
        rw [if_neg fun h => hk h.1, ← hx']
        omega
    · rw [if_neg h1]
      refine ⟨db.neighs, db.naddrs, rfl, w, rfl, fun k x' hx' => ⟨x', hx', ?_⟩⟩
      rw [if_neg fun h => h1 h.2]
      omega
  obtain ⟨m, na, e1, w1, hk, hm⟩ := step1
  unfold linkExpired
  rw [hl]
  dsimp only
  rw [e1]
  dsimp only
  obtain ⟨lp, e2, w2⟩ := linkRemove_ok w1 (l := l) (by
    show db.links.get l ≠ none
    rw [hl]
    simp)
  obtain ⟨_, _, _, _, hs⟩ := linkRemove_sym w1 e2
  rw [e2]
  dsimp only
  dsimp only at w2
  have hc2 : Cnt db → Cnt { db with neighs := m, naddrs := na, lpart := lp, laddrs := db.laddrs.delWhere fun _ a => decide (a.link = l), links := db.links.del l } := by
    intro hc k x' hx'
    have hx' : m.get k = some x' := hx'
    obtain ⟨x, hx, ex⟩ := hm k x' hx'
    have hs : ∀ j, IsSym { db with neighs := m, naddrs := na, lpart := lp, laddrs := db.laddrs.delWhere fun _ a => decide (a.link = l), links := db.links.del l } k j ↔
      j ≠ l ∧ IsSym db k j := hs k
    have hold : IsSym db k l ↔ k = lnk.neigh ∧ lnk.status = .symmetric := by
      unfold IsSym
      rw [hl]
      constructor
      · rintro ⟨x, hx, e1, e2⟩
        injection hx with hx
        rw [hx]
        exact ⟨e1.symm, e2⟩
      · rintro ⟨e1, e2⟩
        exact ⟨_, rfl, e1.symm, e2⟩
    rw [ex, hc k x hx]
    by_cases h1 : k = lnk.neigh ∧ lnk.status = .symmetric
    · rw [if_pos h1, symLinks_more w2 w (n := k) (l0 := l) (by rw [hs]; exact fun h => h.1 rfl) fun j => by
        rw [hs]
        by_cases hj : j = l
        · rw [hj, hold]
          exact ⟨fun _ => .inl rfl, fun _ => h1⟩
        · exact ⟨fun h => .inr ⟨hj, h⟩, fun h => (h.resolve_left hj).2⟩]
      omega
    · rw [if_neg h1, symLinks_congr w w2 (n := k) fun j => by
        rw [hs]
        constructor
        · exact fun h => h.2
        · intro h
          refine ⟨?_, h⟩
          intro e
          rw [e, hold] at h
          exact h1 h]
      omega
  split
  · have hn : m.get lnk.neigh ≠ none := by
      rw [← mem_keys, hk, mem_keys]
      exact w.linkNeigh l lnk hl
    obtain ⟨db', e3, w3, _⟩ := neighRemove_ok w2 (n := lnk.neigh) hn
    exact ⟨db', e3, w3, fun hc => neighRemove_cnt w2 (hc2 hc) e3⟩
  · exact ⟨_, rfl, w2, hc2⟩

/-! ### HELLO -/

/-- counters are right, listed link addresses belong to the link `l` -/
structure CI (db : Db) (h : Hello) (l : Nat) : Prop where
  cnt : Cnt db
  own : ∀ e ∈ h.entries, e.localIf = some true → ∀ la, db.laddrs.get (h.ifc, e.addr) = some la → la.link = l

theorem own_sub {db db' : Db} {h : Hello} {l : Nat} (hs : ∀ k la, db'.laddrs.get k = some la → db.laddrs.get k = some la)
    (ho : ∀ e ∈ h.entries, e.localIf = some true → ∀ la, db.laddrs.get (h.ifc, e.addr) = some la → la.link = l) :
    ∀ e ∈ h.entries, e.localIf = some true → ∀ la, db'.laddrs.get (h.ifc, e.addr) = some la → la.link = l :=
  fun e he he1 la hla => ho e he he1 la (hs _ _ hla)

/-- one address on the link: nothing is removed if it belongs to the link or its old link keeps another address -/
theorem localifLink_cnt {db db' : Db} {h : Hello} {l n : Nat} (hi : Inv db h l n) (hc : CI db h l) (a : Addr)
    (ha : ∀ la, db.laddrs.get (h.ifc, a) = some la → la.link = l ∨ ∀ old, db.links.get la.link = some old → old.count - 1 ≠ 0)
    (he : localifLink db h.ifc l a = some db') : CI db' h l := by
  obtain ⟨d, e, i', _, _⟩ := localifLink_ok hi a
  rw [he] at e
  injection e with e
  subst e
  obtain ⟨w, hn, lnk, hl, hif, hd⟩ := hi
  have w' := i'.wf
  unfold localifLink at he
  cases h1 : db.laddrs.get (h.ifc, a) with
  | none =>
    rw [h1] at he
    dsimp only at he
    rw [hl] at he
    dsimp only at he
    obtain ⟨x, hx⟩ := Option.ne_none_iff_exists'.1 (w.linkNeigh l lnk hl)
    rw [hx] at he
    injection he with he
    subst he
    refine ⟨cnt_of_eq w w' hc.cnt rfl rfl, ?_⟩
    intro e he he1 la hla
    have hla : (db.laddrs.add (lnk.ifc, a) ⟨l, false⟩).get (h.ifc, e.addr) = some la := hla
    rw [hif, get_add _ _ _ _ h1] at hla
    by_cases hk : (h.ifc, e.addr) = (h.ifc, a)
    · rw [if_pos hk] at hla
      injection hla with hla
      rw [← hla]
    · rw [if_neg hk] at hla
      exact hc.own e he he1 la hla
  | some la =>
    obtain ⟨old, hold, holdif⟩ := w.laddrLink _ _ h1
    rw [h1] at he
    dsimp only at he
    rw [hold] at he
    dsimp only at he
    have hcnt : ∀ (L : Map (Nat × Addr) LAddr),
        WF { db with links := db.links.upd la.link fun x => { x with count := x.count - 1 }, laddrs := L } →
        Cnt { db with links := db.links.upd la.link fun x => { x with count := x.count - 1 }, laddrs := L } := by
      intro L wL
      refine cnt_same w wL hc.cnt (fun n x' h => ⟨x', h, rfl⟩) fun n _ j => ?_
      refine isSym_links ?_ (by dsimp only; rw [keys_upd]) n j
      intro j x' hx'
      have hx' : (db.links.upd la.link fun x => { x with count := x.count - 1 }).get j = some x' := hx'
      obtain ⟨x, hx, e⟩ := get_upd_some hx'
      refine ⟨x, hx, ?_⟩
      rcases e with e | ⟨_, e⟩ <;> rw [e] <;> exact ⟨rfl, rfl, rfl⟩
    by_cases h2 : la.link = l
    · rw [if_pos h2] at he
      injection he with he
      subst he
      refine ⟨hcnt _ w', ?_⟩
      intro e he he1 x hx
      have hx : (db.laddrs.upd (h.ifc, a) fun x => { x with mark := false }).get (h.ifc, e.addr) = some x := hx
      obtain ⟨y, hy, e2⟩ := get_upd_some hx
      have : x.link = y.link := by
        rcases e2 with e2 | ⟨_, e2⟩ <;> rw [e2]
      rw [this]
      exact hc.own e he he1 y hy
    · rw [if_neg h2] at he
      have hl1 : ∃ lnk1, (db.links.upd la.link fun x => { x with count := x.count - 1 }).get l = some lnk1 ∧ lnk1.neigh = lnk.neigh := by
        rw [get_upd, hl]
        split
        · exact ⟨_, rfl, rfl⟩
        · exact ⟨_, rfl, rfl⟩
      obtain ⟨lnk1, hlnk1, hng1⟩ := hl1
      rw [hlnk1] at he
      dsimp only at he
      obtain ⟨x1, hx1⟩ := Option.ne_none_iff_exists'.1 (w.linkNeigh _ old hold)
      obtain ⟨x2, hx2⟩ := Option.ne_none_iff_exists'.1 (w.linkNeigh _ lnk hl)
      rw [hx1, hng1, hx2] at he
      dsimp only at he
      have h3 : old.count - 1 ≠ 0 := (ha la h1).resolve_left h2 old hold
      rw [if_neg h3] at he
      injection he with he
      subst he
      refine ⟨hcnt _ w', ?_⟩
      intro e he he1 x hx
      have hx : ((db.laddrs.upd (h.ifc, a) fun x => { x with link := l }).upd (h.ifc, a) fun x => { x with mark := false }).get (h.ifc, e.addr) = some x := hx
      obtain ⟨y, hy, e2⟩ := get_upd_some hx
      have : x.link = y.link := by
        rcases e2 with e2 | ⟨_, e2⟩ <;> rw [e2]
      rw [this]
      obtain ⟨z, hz, e3⟩ := get_upd_some hy
      rcases e3 with e3 | ⟨_, e3⟩
      · rw [e3]
        exact hc.own e he he1 z hz
      · rw [e3]

theorem localifNeigh_cnt {db db' : Db} {h : Hello} {l n : Nat} (hi : Inv db h l n) (hc : CI db h l) (a : Addr)
    (ha : (∃ lnk, db.links.get l = some lnk ∧ lnk.neigh = n) ∨ ∀ na, db.naddrs.get a = some na → na.neigh = n)
    (he : localifNeigh db n a = some db') : CI db' h l := by
  obtain ⟨d, e, i'⟩ := localifNeigh_ok hi a ha
  rw [he] at e
  injection e with e
  subst e
  obtain ⟨w, hn, lnk, hl, hif, hd⟩ := hi
  have w' := i'.wf
  unfold localifNeigh at he
  cases h1 : db.naddrs.get a with
  | none =>
    rw [h1] at he
    dsimp only at he
    obtain ⟨x, hx⟩ := Option.ne_none_iff_exists'.1 hn
    rw [hx] at he
    injection he with he
    subst he
    exact ⟨cnt_of_eq w w' hc.cnt rfl rfl, hc.own⟩
  | some na =>
    obtain ⟨old, hold⟩ := Option.ne_none_iff_exists'.1 (w.naddrNeigh _ _ h1)
    rw [h1] at he
    dsimp only at he
    rw [hold] at he
    dsimp only at he
    have w1 := wf_neighs_upd w na.neigh fun x => { x with count := x.count - 1 }
    have hcnt : ∀ (L : Map Addr NAddr),
        WF { db with neighs := db.neighs.upd na.neigh fun x => { x with count := x.count - 1 }, naddrs := L } →
        Cnt { db with neighs := db.neighs.upd na.neigh fun x => { x with count := x.count - 1 }, naddrs := L } := by
      intro L wL
      refine cnt_same w wL hc.cnt (fun n x' h => ?_) fun n _ j => Iff.rfl
      have h : (db.neighs.upd na.neigh fun x => { x with count := x.count - 1 }).get n = some x' := h
      obtain ⟨x, hx, e⟩ := get_upd_some h
      refine ⟨x, hx, ?_⟩
      rcases e with e | ⟨_, e⟩ <;> rw [e]
    by_cases h2 : na.neigh = n
    · rw [if_pos h2] at he
      injection he with he
      subst he
      exact ⟨hcnt _ w', hc.own⟩
    · rw [if_neg h2] at he
      have hn1 : (db.neighs.upd na.neigh fun x => { x with count := x.count - 1 }).get n ≠ none := by
        rw [← mem_keys, keys_upd, mem_keys]
        exact hn
      obtain ⟨x, hx⟩ := Option.ne_none_iff_exists'.1 hn1
      rw [hx] at he
      dsimp only at he
      have w2 : WF { db with neighs := db.neighs.upd na.neigh fun x => { x with count := x.count - 1 },
                             naddrs := db.naddrs.upd a fun x => { x with neigh := n } } := by
        refine wf_naddrs w1 _ (by rw [keys_upd]; exact w.nodupA) ?_
        intro k y hy
        obtain ⟨z, hz, e⟩ := get_upd_some hy
        rcases e with e | ⟨_, e⟩
        · rw [e]
          exact w1.naddrNeigh k z hz
        · rw [e]
          exact hn1
      by_cases h3 : old.count - 1 = 0
      · rw [if_pos h3] at he
        obtain ⟨d, e, w3, q1, q2, q3, q5, q4⟩ := neighRemove_ok w2 (n := na.neigh) (by
          show (db.neighs.upd na.neigh fun x => { x with count := x.count - 1 }).get na.neigh ≠ none
          rw [get_upd, if_pos rfl, hold]
          simp)
        rw [e] at he
        injection he with he
        subst he
        refine ⟨cnt_of_eq w3 w' (neighRemove_cnt w2 (hcnt _ w2) e) rfl rfl, ?_⟩
        exact own_sub (db := db) q5 hc.own
      · rw [if_neg h3] at he
        injection he with he
        subst he
        exact ⟨hcnt _ w', hc.own⟩

theorem processLocalif_cnt {db db' : Db} {h : Hello} {l n : Nat} (hi : Inv db h l n) (hc : CI db h l) (a : Addr) (t : Bool)
    (hb : t = true → ∀ la, db.laddrs.get (h.ifc, a) = some la → la.link = l ∨ ∀ old, db.links.get la.link = some old → old.count - 1 ≠ 0)
    (ha : (∃ lnk, db.links.get l = some lnk ∧ lnk.neigh = n) ∨ ∀ na, db.naddrs.get a = some na → na.neigh = n)
    (he : processLocalif db h.ifc l n a t = some db') : CI db' h l := by
  unfold processLocalif at he
  cases t with
  | false =>
    rw [if_neg (by simp)] at he
    exact localifNeigh_cnt hi hc a ha he
  | true =>
    rw [if_pos rfl] at he
    obtain ⟨db1, e1, i1, hna, hlk⟩ := localifLink_ok hi a
    rw [e1] at he
    refine localifNeigh_cnt i1 (localifLink_cnt hi hc a (hb rfl) e1) a ?_ he
    rcases ha with ⟨lnk, hl, e⟩ | ha
    · left
      obtain ⟨_, _, lnk1, hl1, _⟩ := i1
      obtain ⟨lnk', hl', e'⟩ := hlk lnk1 hl1
      rw [hl] at hl'
      injection hl' with hl'
      exact ⟨lnk1, hl1, by rw [e', ← hl']; exact e⟩
    · right
      rw [hna]
      exact ha

/-- dualstack information changes only partners -/
theorem dualstack_eq {db db' : Db} {h : Hello} {l n : Nat} (he : dualstack db h l n = some db') : ∃ p q, db' = { db with npart := p, lpart := q } := by
  unfold dualstack at he
  cases h1 : h.orig with
  | none =>
    rw [h1] at he
    injection he with he
    exact ⟨db.npart, db.lpart, he.symm⟩
  | some o =>
    rw [h1] at he
    dsimp only at he
    cases h2 : h.origV4 with
    | none =>
      rw [h2] at he
      dsimp only at he
      split at he
      · cases h3 : disconnect db.neighs.keys db.npart n with
        | none =>
          rw [h3] at he
          cases he
        | some p =>
          rw [h3] at he
          simp only [Option.map_some, Option.bind_some] at he
          cases h4 : disconnect db.links.keys db.lpart l with
          | none =>
            rw [h4] at he
            cases he
          | some q =>
            rw [h4] at he
            injection he with he
            exact ⟨p, q, he.symm⟩
      · injection he with he
        exact ⟨db.npart, db.lpart, he.symm⟩
    | some v4 =>
      rw [h2] at he
      dsimp only at he
      have step1 : ∀ d, dualNeigh db n v4 = some d → ∃ p, d = { db with npart := p } := by
        intro d hd
        unfold dualNeigh at hd
        cases h3 : byOriginator db v4 with
        | none =>
          rw [h3] at hd
          injection hd with hd
          exact ⟨db.npart, hd.symm⟩
        | some n2 =>
          rw [h3] at hd
          obtain ⟨p, _, hp⟩ := Option.map_eq_some_iff.1 hd
          exact ⟨p, hp.symm⟩
      cases h3 : dualNeigh db n v4 with
      | none =>
        rw [h3] at he
        cases he
      | some d =>
        obtain ⟨p, hp⟩ := step1 d h3
        rw [h3] at he
        simp only [Option.bind_some] at he
        unfold dualLink at he
        cases h4 : linkByOriginator d h.ifc v4 with
        | none =>
          rw [h4] at he
          injection he with he
          exact ⟨p, db.lpart, by rw [← he, hp]⟩
        | some l2 =>
          rw [h4] at he
          obtain ⟨q, _, hq⟩ := Option.map_eq_some_iff.1 he
          exact ⟨p, q, by rw [← hq, hp]⟩

theorem dualstack_cnt {db db' : Db} {h : Hello} {l n : Nat} (hi : Inv db h l n) (hc : CI db h l) (he : dualstack db h l n = some db') : CI db' h l := by
  obtain ⟨d, e, i'⟩ := dualstack_ok hi
  rw [he] at e
  injection e with e
  subst e
  obtain ⟨p, q, hd⟩ := dualstack_eq he
  have w' := i'.wf
  rw [hd] at w' ⊢
  exact ⟨cnt_of_eq hi.wf w' hc.cnt rfl rfl, hc.own⟩

theorem pass1End_cnt {db db' : Db} {h : Hello} {l n : Nat} (hi : Inv db h l n) (hc : CI db h l) (t : Bool)
    (ht : t = false → ∀ lnk, db.links.get l = some lnk → lnk.neigh = n)
    (hb : t = false → ∀ la, db.laddrs.get (h.ifc, h.src) = some la → la.link = l ∨ ∀ old, db.links.get la.link = some old → old.count - 1 ≠ 0)
    (he : pass1End db h t l n = some db') : CI db' h l := by
  unfold pass1End at he
  rw [touchLink_ok hi] at he
  simp only [Option.bind_some] at he
  cases t with
  | true =>
    rw [if_pos rfl] at he
    simp only [Option.bind_some] at he
    rw [touchLink_ok hi] at he
    exact dualstack_cnt hi hc he
  | false =>
    rw [if_neg (by simp)] at he
    obtain ⟨_, _, lnk, hl, _⟩ := id hi
    obtain ⟨db1, e1, i1⟩ := processLocalif_ok hi h.src true (.inl ⟨lnk, hl, ht rfl lnk hl⟩)
    have c1 := processLocalif_cnt hi hc h.src true (fun _ => hb rfl) (.inl ⟨lnk, hl, ht rfl lnk hl⟩) e1
    rw [e1] at he
    simp only [Option.bind_some] at he
    rw [touchLink_ok i1] at he
    exact dualstack_cnt i1 c1 he

theorem pass2_cnt {db db' : Db} {h : Hello} {l n : Nat} (hi : Inv db h l n) (hc : CI db h l) (e : Entry) (hm : e ∈ h.entries)
    (he : pass2 db h.ifc l n e = some db') : CI db' h l := by
  have hd : (∃ lnk, db.links.get l = some lnk ∧ lnk.neigh = n) ∨ (e.localIf ≠ none → ∀ na, db.naddrs.get e.addr = some na → na.neigh = n) := by
    obtain ⟨_, _, lnk, hl, _, hd⟩ := hi
    rcases hd with hd | hd
    · exact .inl ⟨lnk, hl, hd⟩
    · exact .inr fun h1 => hd e hm h1
  unfold pass2 at he
  have h1 : ∃ db1, localifStep db h.ifc l n e = some db1 ∧ Inv db1 h l n ∧ CI db1 h l := by
    unfold localifStep
    cases h2 : e.localIf with
    | none => exact ⟨db, rfl, hi, hc⟩
    | some t =>
      have ha : (∃ lnk, db.links.get l = some lnk ∧ lnk.neigh = n) ∨ ∀ na, db.naddrs.get e.addr = some na → na.neigh = n := by
        rcases hd with hd | hd
        · exact .inl hd
        · exact .inr (hd (by rw [h2]; simp))
      obtain ⟨db1, e1, i1⟩ := processLocalif_ok hi e.addr t ha
      refine ⟨db1, e1, i1, processLocalif_cnt hi hc e.addr t ?_ ha e1⟩
      intro ht la hla
      rw [ht] at h2
      exact .inl (hc.own e hm h2 la hla)
  obtain ⟨db1, e1, i1, c1⟩ := h1
  rw [e1] at he
  simp only [Option.bind_some] at he
  split at he
  · rw [touchLink_ok i1] at he
    simp only [Option.bind_some] at he
    rw [touchNeigh_ok i1.neigh] at he
    injection he with he
    rw [← he]
    exact c1
  · injection he with he
    rw [← he]
    exact c1

theorem pass2All_cnt {h : Hello} {l n : Nat} (es : List Entry) : ∀ {db db' : Db}, Inv db h l n → CI db h l → (∀ e ∈ es, e ∈ h.entries) →
    pass2All db h.ifc l n es = some db' → CI db' h l := by
  induction es with
  | nil =>
    intro db db' _ hc _ he
    injection he with he
    rw [← he]
    exact hc
  | cons e es ih =>
    intro db db' hi hc hm he
    obtain ⟨db1, e1, i1⟩ := pass2_ok hi e (hm e (List.mem_cons_self ..))
    have c1 := pass2_cnt hi hc e (hm e (List.mem_cons_self ..)) e1
    unfold pass2All at he
    rw [e1] at he
    exact ih i1 c1 (fun f hf => hm f (List.mem_cons_of_mem _ hf)) he

theorem pass2End_cnt {db db' : Db} {h : Hello} {l n : Nat} (hi : Inv db h l n) (hc : Cnt db) (heard : Option Status) (st : Status)
    (he : pass2End db h heard st l n = some db') : Cnt db' := by
  unfold pass2End at he
  rw [touchLink_ok hi] at he
  simp only [Option.bind_some] at he
  rw [touchNeigh_ok hi.neigh] at he
  simp only [Option.bind_some] at he
  obtain ⟨w, hn, lnk, hl, hif, _⟩ := hi
  have w1 : WF { db with laddrs := db.laddrs.delWhere fun _ a => decide (a.link = l) && a.mark } := by
    refine wf_laddrs w _ (nodup_delWhere _ _ w.nodupB) ?_
    intro k x hx
    rw [get_delWhere _ w.nodupB] at hx
    cases hg : db.laddrs.get k with
    | none =>
      rw [hg] at hx
      cases hx
    | some y =>
      rw [hg] at hx
      dsimp only at hx
      split at hx
      · cases hx
      · injection hx with hx
        rw [← hx]
        exact w.laddrLink k y hg
  have w2 := wf_naddrs_mark w1 (fun _ a => decide (a.neigh = n) && a.mark) (fun a => { a with lost := true }) fun _ => rfl
  generalize hdb : ({ db with
    laddrs := db.laddrs.delWhere fun _ a => decide (a.link = l) && a.mark
    naddrs := db.naddrs.updWhere (fun _ a => decide (a.neigh = n) && a.mark) fun a => { a with lost := true } } : Db) = db2 at w2 he
  have c2 : Cnt db2 := cnt_of_eq w w2 hc (by rw [← hdb]) (by rw [← hdb])
  have hn2 : db2.neighs.get n ≠ none := by rw [← hdb]; exact hn
  have hl2 : ∃ lnk, db2.links.get l = some lnk ∧ lnk.ifc = h.ifc := ⟨lnk, by rw [← hdb]; exact hl, hif⟩
  have step : ∃ db3, heardStep db2 l heard = some db3 ∧ WF db3 ∧ db3.neighs.get n ≠ none ∧ (∃ lnk, db3.links.get l = some lnk ∧ lnk.ifc = h.ifc) ∧ Cnt db3 := by
    unfold heardStep
    cases heard with
    | none => exact ⟨db2, rfl, w2, hn2, hl2, c2⟩
    | some s =>
      obtain ⟨db3, e3, w3, q1, q2⟩ := updateStatus_inv w2 hn2 hl2 s
      exact ⟨db3, e3, w3, q1, q2, updateStatus_cnt w2 c2 e3⟩
  obtain ⟨db3, e3, w3, hn3, hl3, c3⟩ := step
  rw [e3] at he
  simp only [Option.bind_some] at he
  obtain ⟨m, e4, hk, hm⟩ := setOriginator_ok hn3 h.orig
  rw [e4] at he
  simp only [Option.bind_some] at he
  have w4 := wf_neighs w3 m hk
  have c4 : Cnt { db3 with neighs := m } := by
    refine cnt_same w3 w4 c3 (fun k x' hx' => ?_) fun _ _ _ => Iff.rfl
    obtain ⟨x, hx, e, _⟩ := hm k x' hx'
    exact ⟨x, hx, e⟩
  have hn4 : m.get n ≠ none := by
    rw [← mem_keys, hk, mem_keys]
    exact hn3
  obtain ⟨db5, e5, w5, hn5, hl5⟩ := updateStatus_inv w4 hn4 hl3 st
  have c5 := updateStatus_cnt w4 c4 e5
  rw [e5] at he
  simp only [Option.bind_some] at he
  rw [touchNeigh_ok hn5] at he
  injection he with he
  rw [← he]
  exact c5

/-- without THIS_IF address the first pass does not touch links -/
theorem pass1All_links {h : Hello} (es : List Entry) : ∀ {d d' : Db} {c c' : Current}, (∀ e ∈ es, e.localIf ≠ some true) →
    pass1All d h c es = some (d', c') → d'.links = d.links := by
  induction es with
  | nil =>
    intro d d' c c' _ he
    injection he with he
    injection he with he _
    rw [he]
  | cons e es ih =>
    intro d d' c c' hn he
    unfold pass1All at he
    cases h1 : pass1 d h c e with
    | none =>
      rw [h1] at he
      cases he
    | some x =>
      rw [h1] at he
      simp only [Option.bind_some] at he
      rw [ih (fun f hf => hn f (List.mem_cons_of_mem _ hf)) he]
      unfold pass1 at h1
      dsimp only at h1
      generalize (if h.orig = some e.addr then { c with origInBlock := true } else c) = c1 at h1
      cases h2 : pass1Neigh d c1 e with
      | none =>
        rw [h2] at h1
        cases h1
      | some y =>
        rw [h2] at h1
        simp only [Option.bind_some] at h1
        unfold pass1Link at h1
        rw [if_pos (hn e (List.mem_cons_self ..))] at h1
        injection h1 with h1
        rw [← h1]
        unfold pass1Neigh at h2
        dsimp only
        split at h2
        · injection h2 with h2
          rw [← h2]
        · split at h2
          · injection h2 with h2
            rw [← h2]
          · split at h2
            · cases h2
            · injection h2 with h2
              rw [← h2]

theorem allocate_cnt {d0 d db : Db} (w0 : WF d0) (hs : SameDb d0 d) (h : Hello) (hm : OneLink d0 h) {c : Current} (hp : P1 d0 h.ifc h.entries c) (hc : Cnt d0)
    {l n : Nat} (he : allocate d h c = some (db, l, n)) :
    CI db h l ∧ (∀ k la, db.laddrs.get k = some la → ∃ la', d.laddrs.get k = some la' ∧ la.link = la'.link) ∧
      (∀ j, db.links.get j = d.links.get j ∨ (j = l ∧ d.links.get j = none)) := by
  have w := hs.wf w0
  have hcn : ∀ n, c.neigh = some n → d.neighs.get n ≠ none := by
    intro n hn
    obtain ⟨e, _, _, na, hna, e2⟩ := hp.found n hn
    rw [← mem_keys, hs.keysN, mem_keys, ← e2]
    exact w0.naddrNeigh _ _ hna
  obtain ⟨m, c', e1, hk, hc', hcl, _, hsym⟩ := originatorStep_ok w h c hcn
  have w1 := wf_neighs w m hk
  have c1 : Cnt { d with neighs := m } := by
    refine cnt_same w w1 (cnt_sameDb hs w0 hc) (fun k x' hx' => ?_) fun _ _ _ => Iff.rfl
    obtain ⟨x, hx, e, _⟩ := hsym k x' hx'
    exact ⟨x, hx, e⟩
  obtain ⟨w2, hn, hl, _, hla, _⟩ := chooseNeigh_ok w1 c' hc'
  have c2 : Cnt (chooseNeigh { d with neighs := m } c').1 := by
    unfold chooseNeigh at w2 ⊢
    cases h1 : c'.neigh with
    | none => exact neighAdd_cnt w1 c1
    | some n =>
      rw [h1] at w2
      exact cnt_of_eq w1 w2 c1 rfl rfl
  unfold allocate at he
  rw [e1] at he
  dsimp only at he
  generalize hd2 : chooseNeigh { d with neighs := m } c' = y at he w2 hn hl hla c2
  obtain ⟨d2, n2⟩ := y
  dsimp only at he w2 hn hl hla c2
  have hlc : c.laddrConflict = false := by
    cases hcc : c.laddrConflict with
    | false => rfl
    | true =>
      obtain ⟨e, he, f, hf, q1, q2, la, lb, q3, q4, q5⟩ := hp.lconflict hcc
      exact absurd (hm e he f hf q1 q2 la lb q3 q4) q5
  unfold chooseLink at he
  rw [hcl] at he
  cases h1 : c.link with
  | none =>
    rw [h1] at he
    dsimp only at he
    cases h2 : linkAdd d2 n2 h.ifc with
    | none =>
      rw [h2] at he
      cases he
    | some z =>
      obtain ⟨d3, l3⟩ := z
      rw [h2] at he
      injection he with he
      injection he with he1 he2
      injection he2 with he2 he3
      subst he1 he2 he3
      obtain ⟨d3', e3, w3, hd3, hg3⟩ := linkAdd_ok w2 hn h.ifc
      rw [h2] at e3
      injection e3 with e3
      injection e3 with e3 e4
      subst e3 e4
      have hfresh : d2.links.get d2.next = none := by
        cases hg : d2.links.get d2.next with
        | none => rfl
        | some x => exact absurd (w2.freshL _ (by rw [hg]; simp)) (Nat.lt_irrefl _)
      have hla3 : d3.laddrs = d.laddrs := by
        rw [hd3]
        exact hla
      refine ⟨⟨linkAdd_cnt w2 c2 h2, ?_⟩, ?_, ?_⟩
      · intro e he he1 la hla'
        rw [hla3, hs.laddrs] at hla'
        have := hp.lsame hlc e he he1 la hla'
        rw [h1] at this
        cases this
      · intro k la hk
        rw [hla3] at hk
        exact ⟨la, hk, rfl⟩
      · intro j
        rw [hg3]
        by_cases hj : j = d2.next
        · right
          refine ⟨hj, ?_⟩
          have : d2.links.get j = none := by rw [hj]; exact hfresh
          rw [hl] at this
          exact this
        · left
          rw [if_neg hj, hl]
  | some j =>
    rw [h1] at he
    injection he with he
    injection he with he1 he2
    injection he2 with he2 he3
    subst he1 he2 he3
    have hback : ∀ k la, (d2.laddrs.updWhere (fun _ a => decide (a.link = j)) fun a => { a with mark := true }).get k = some la →
        ∃ la', d.laddrs.get k = some la' ∧ la.link = la'.link := by
      intro k la hk
      rw [get_updWhere] at hk
      obtain ⟨y, hy, e⟩ := Option.map_eq_some_iff.1 hk
      refine ⟨y, by rw [hla] at hy; exact hy, ?_⟩
      rw [← e]
      split <;> rfl
    have w3 := wf_laddrs_mark w2 (fun _ a => decide (a.link = j)) (fun a => { a with mark := true }) fun _ => rfl
    refine ⟨⟨cnt_of_eq w2 w3 c2 rfl rfl, ?_⟩, hback, ?_⟩
    · intro e he he1 la hla'
      obtain ⟨la', h2, h3⟩ := hback _ _ hla'
      rw [hs.laddrs] at h2
      have := hp.lsame hlc e he he1 la' h2
      rw [h1] at this
      injection this with this
      rw [h3, ← this]
    · intro k
      left
      show d2.links.get k = _
      rw [hl]

/-- a HELLO whose addresses belong together keeps the counters right -/
theorem hello_cnt {db : Db} (w : WF db) (h : Hello) (hm : NoMix db h) (ho : OneLink db h) (heard : Option Status) (st : Status) (hc : Cnt db)
    {db' : Db} (he : hello db h heard st = some db') : Cnt db' := by
  obtain ⟨d1, c, e1, s1, p1⟩ := pass1All_ok w h h.entries (same_resetCounts db h.ifc) (p1_init db h.ifc)
  obtain ⟨d2, l, n, e2, i2, ht⟩ := allocate_ok w s1 h hm p1
  obtain ⟨d3, e3, i3⟩ := pass1End_ok i2 c.hasThisif ht
  obtain ⟨d4, e4, i4⟩ := pass2All_ok h.entries i3 fun _ h => h
  unfold hello at he
  rw [e1] at he
  simp only [Option.bind_some] at he
  rw [e2] at he
  simp only [Option.bind_some] at he
  rw [e3] at he
  simp only [Option.bind_some] at he
  rw [e4] at he
  obtain ⟨c2, hb1, hb2⟩ := allocate_cnt w s1 h ho p1 hc e2
  have c3 := pass1End_cnt i2 c2 c.hasThisif ht (by
    intro hthis la hla
    by_cases hll : la.link = l
    · exact .inl hll
    · right
      intro old hold
      -- no link of the interface has been counted
      have hno : ∀ e ∈ h.entries, e.localIf ≠ some true := by
        intro e he he1
        have := p1.thisif.2 ⟨e, he, he1⟩
        rw [hthis] at this
        cases this
      have hlinks := pass1All_links h.entries hno e1
      rcases hb2 la.link with hb | ⟨hb, _⟩
      · rw [hold, hlinks] at hb
        have hb : some old = (db.links.updWhere (fun _ l => decide (l.ifc = h.ifc)) fun l => { l with count := 0 }).get la.link := hb
        rw [get_updWhere] at hb
        obtain ⟨y, hy, e⟩ := Option.map_eq_some_iff.1 hb.symm
        obtain ⟨lk, hlk, hif⟩ := i2.wf.laddrLink _ _ hla
        rw [hold] at hlk
        injection hlk with hlk
        have hif : old.ifc = h.ifc := by rw [hlk]; exact hif
        have hy2 : y.ifc = h.ifc := by
          rw [← hif, ← e]
          split <;> rfl
        rw [if_pos (by simpa using hy2)] at e
        rw [← e]
        show (0 : Int) - 1 ≠ 0
        omega
      · exact absurd hb hll) e3
  have c4 := pass2All_cnt h.entries i3 c3 (fun _ h => h) e4
  exact pass2End_cnt i4 c4.cnt heard st he

end Verif.Nhdp
