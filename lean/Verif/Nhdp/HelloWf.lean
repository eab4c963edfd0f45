import Verif.Nhdp.HelloLemmas

namespace Verif.Nhdp
open Map (get_upd get_del get_add mem_keys keys_upd keys_updWhere get_updWhere get_delWhere nodup_del nodup_delWhere nodup_add findKey_some)

/-- the listed known addresses belong to the neighbor `n` -/
def Owned (db : Db) (h : Hello) (n : Nat) : Prop := ∀ e ∈ h.entries, e.localIf ≠ none → ∀ na, db.naddrs.get e.addr = some na → na.neigh = n

/-- invariant of the second pass: `_current.link` and `_current.neighbor` exist -/
structure Inv (db : Db) (h : Hello) (l n : Nat) : Prop where
  wf : WF db
  neigh : db.neighs.get n ≠ none
  link : ∃ lnk, db.links.get l = some lnk ∧ lnk.ifc = h.ifc ∧ (lnk.neigh = n ∨ Owned db h n)

/-! ### Originator and allocation -/

theorem originatorStep_ok {db : Db} (w : WF db) (h : Hello) (c : Current) (hc : ∀ n, c.neigh = some n → db.neighs.get n ≠ none) :
    ∃ m c', originatorStep db h c = some ({ db with neighs := m }, c') ∧ m.keys = db.neighs.keys ∧ (∀ n, c'.neigh = some n → m.get n ≠ none) ∧
      c'.link = c.link ∧ (c.neigh ≠ none → c'.neigh = c.neigh) ∧
      (∀ j x', m.get j = some x' → ∃ x, db.neighs.get j = some x ∧ x'.sym = x.sym ∧ x'.count = x.count) := by
  have triv : ∃ m c', some (db, c) = some ({ db with neighs := m }, c') ∧ m.keys = db.neighs.keys ∧ (∀ n, c'.neigh = some n → m.get n ≠ none) ∧
      c'.link = c.link ∧ (c.neigh ≠ none → c'.neigh = c.neigh) ∧
      (∀ j x', m.get j = some x' → ∃ x, db.neighs.get j = some x ∧ x'.sym = x.sym ∧ x'.count = x.count) :=
    ⟨db.neighs, c, rfl, rfl, hc, rfl, fun _ => rfl, fun j x' h => ⟨x', h, rfl, rfl⟩⟩
  unfold originatorStep
  cases h.orig with
  | none => exact triv
  | some o =>
    dsimp only
    by_cases h1 : c.origInBlock = true
    · rw [if_pos h1]
      exact triv
    · rw [if_neg h1]
      unfold handleOriginator
      cases h2 : byOriginator db o with
      | none => exact triv
      | some n =>
        dsimp only
        have hn : db.neighs.get n ≠ none := by
          obtain ⟨x, hx, _⟩ := findKey_some h2 w.nodupN
          rw [hx]
          simp
        by_cases h3 : c.neigh = some n
        · rw [if_pos h3]
          exact triv
        · rw [if_neg h3]
          by_cases h4 : c.neigh = none ∧ c.naddrConflict = false
          · rw [if_pos h4]
            refine ⟨db.neighs, _, rfl, rfl, ?_, rfl, fun h5 => absurd h4.1 h5, fun j x' h => ⟨x', h, rfl, rfl⟩⟩
            intro m hm
            injection hm with hm
            rw [← hm]
            exact hn
          · rw [if_neg h4]
            obtain ⟨x, hx⟩ := Option.ne_none_iff_exists'.1 hn
            rw [hx]
            dsimp only
            by_cases h5 : x.count > 0
            · rw [if_pos h5]
              exact triv
            · rw [if_neg h5]
              obtain ⟨m, e, hk, hm⟩ := setOriginator_ok hn none
              rw [e]
              refine ⟨m, c, rfl, hk, ?_, rfl, fun _ => rfl, hm⟩
              intro j hj
              rw [← mem_keys, hk, mem_keys]
              exact hc j hj

theorem chooseNeigh_ok {db : Db} (w : WF db) (c : Current) (hc : ∀ n, c.neigh = some n → db.neighs.get n ≠ none) :
    WF (chooseNeigh db c).1 ∧ (chooseNeigh db c).1.neighs.get (chooseNeigh db c).2 ≠ none ∧ (chooseNeigh db c).1.links = db.links ∧
      (∀ n, c.neigh = some n → (chooseNeigh db c).2 = n) ∧ (chooseNeigh db c).1.laddrs = db.laddrs ∧
      (∀ a na, (chooseNeigh db c).1.naddrs.get a = some na → ∃ na', db.naddrs.get a = some na' ∧ na.neigh = na'.neigh) := by
  unfold chooseNeigh
  cases h1 : c.neigh with
  | none =>
    obtain ⟨h2, h3⟩ := neighAdd_ok w
    refine ⟨h2, ?_, rfl, fun n hn => (by cases hn), rfl, fun a na h => ⟨na, h, rfl⟩⟩
    dsimp only
    rw [h3]
    have : (neighAdd db).2 = db.next := rfl
    rw [this, if_pos rfl]
    simp
  | some n =>
    refine ⟨wf_naddrs_mark w _ _ fun _ => rfl, hc n h1, rfl, fun m hm => (by injection hm), rfl, ?_⟩
    intro a na hna
    have hna : (db.naddrs.updWhere (fun _ a => decide (a.neigh = n)) fun a => { a with mark := true }).get a = some na := hna
    rw [get_updWhere] at hna
    obtain ⟨y, hy, e⟩ := Option.map_eq_some_iff.1 hna
    refine ⟨y, hy, ?_⟩
    rw [← e]
    split <;> rfl

theorem chooseLink_ok {db : Db} (w : WF db) (ifc : Nat) {n : Nat} (hn : db.neighs.get n ≠ none) (c : Current)
    (hc : ∀ l, c.link = some l → ∃ lnk, db.links.get l = some lnk ∧ lnk.ifc = ifc) :
    ∃ db' l lnk, chooseLink db ifc n c = some (db', l) ∧ WF db' ∧ db'.neighs = db.neighs ∧ db'.naddrs = db.naddrs ∧
      db'.links.get l = some lnk ∧ lnk.ifc = ifc ∧ (c.link = none → lnk.neigh = n) ∧ (∀ j, c.link = some j → l = j ∧ db.links.get l = some lnk) := by
  unfold chooseLink
  cases h1 : c.link with
  | none =>
    obtain ⟨db', e, w', hdb, hg⟩ := linkAdd_ok w hn ifc
    refine ⟨db', db.next, ⟨n, ifc, .lost, 0⟩, e, w', by rw [hdb], by rw [hdb], by rw [hg, if_pos rfl], rfl, fun _ => rfl, fun j hj => (by cases hj)⟩
  | some l =>
    obtain ⟨lnk, hl, hi⟩ := hc l h1
    refine ⟨_, l, lnk, rfl, wf_laddrs_mark w _ _ fun _ => rfl, rfl, rfl, hl, hi, fun h => (by cases h), ?_⟩
    intro j hj
    injection hj with hj
    exact ⟨hj, hl⟩

/-- after the allocation the invariant of the second pass holds; without THIS_IF address the link is the neighbor's -/
theorem allocate_ok {d0 d : Db} (w0 : WF d0) (hs : SameDb d0 d) (h : Hello) (hm : NoMix d0 h) {c : Current} (hp : P1 d0 h.ifc h.entries c) :
    ∃ db l n, allocate d h c = some (db, l, n) ∧ Inv db h l n ∧
      (c.hasThisif = false → ∀ lnk, db.links.get l = some lnk → lnk.neigh = n) := by
  have w := hs.wf w0
  have hc : ∀ n, c.neigh = some n → d.neighs.get n ≠ none := by
    intro n hn
    obtain ⟨e, _, _, na, hna, e2⟩ := hp.found n hn
    rw [← mem_keys, hs.keysN, mem_keys, ← e2]
    exact w0.naddrNeigh _ _ hna
  obtain ⟨m, c', e1, hk, hc', hcl, hcn, _⟩ := originatorStep_ok w h c hc
  have w1 := wf_neighs w m hk
  obtain ⟨w2, hn, hl, hcn2, hla, hna⟩ := chooseNeigh_ok w1 c' hc'
  obtain ⟨db, l, lnk, e3, w3, p1, p2, p3, p4, p5, p6⟩ := chooseLink_ok w2 h.ifc hn c' (by
    intro l hl'
    rw [hcl] at hl'
    obtain ⟨e, _, _, la, hla', e2⟩ := hp.link l hl'
    rw [← hs.laddrs] at hla'
    obtain ⟨lnk, hlnk, hi⟩ := w.laddrLink _ _ hla'
    rw [e2] at hlnk
    refine ⟨lnk, ?_, hi⟩
    rw [hl]
    exact hlnk)
  refine ⟨db, l, _, by unfold allocate; rw [e1]; dsimp only; rw [e3], ⟨w3, by rw [p1]; exact hn, lnk, p3, p4, ?_⟩, ?_⟩
  · cases h1 : c.link with
    | none => exact .inl (p5 (by rw [hcl]; exact h1))
    | some j =>
      obtain ⟨hj, hlj⟩ := p6 j (by rw [hcl]; exact h1)
      rw [hl] at hlj
      have hlj : d.links.get l = some lnk := hlj
      -- the link was found by some address
      obtain ⟨e, he, he1, la, hla', hla2⟩ := hp.link j h1
      obtain ⟨lnk0, hl0, en, _⟩ := hs.links _ _ hlj
      have hmix : ∀ f ∈ h.entries, f.localIf ≠ none → ∀ na, d0.naddrs.get f.addr = some na → lnk.neigh = na.neigh := by
        intro f hf hf1 na hna
        rw [en]
        refine hm e he f hf he1 hf1 la lnk0 na hla' ?_ hna
        rw [hla2, ← hj]
        exact hl0
      have hback : ∀ f : Entry, ∀ na, db.naddrs.get f.addr = some na → ∃ na', d0.naddrs.get f.addr = some na' ∧ na.neigh = na'.neigh := by
        intro f na h2
        rw [p2] at h2
        obtain ⟨na', h3, h4⟩ := hna _ _ h2
        exact ⟨na', by rw [← hs.naddrs]; exact h3, h4⟩
      by_cases hex : ∃ f ∈ h.entries, f.localIf ≠ none ∧ ∃ na, d0.naddrs.get f.addr = some na
      · left
        obtain ⟨f, hf, hf1, na, hna'⟩ := hex
        have hnc : c.naddrConflict = false := by
          cases hcc : c.naddrConflict with
          | false => rfl
          | true =>
            obtain ⟨f1, q1, f2, q2, q3, q4, na1, na2, q5, q6, q7⟩ := hp.conflict hcc
            exact absurd ((hmix f1 q1 q3 na1 q5).symm.trans (hmix f2 q2 q4 na2 q6)) q7
        have hcur := hp.same hnc f hf hf1 na hna'
        rw [hmix f hf hf1 na hna']
        symm
        exact hcn2 _ (by rw [hcn (by rw [hcur]; simp)]; exact hcur)
      · right
        intro f hf hf1 na hna'
        obtain ⟨na', h3, _⟩ := hback f na hna'
        exact absurd ⟨f, hf, hf1, na', h3⟩ hex
  · intro ht lnk' hlnk'
    rw [p3] at hlnk'
    injection hlnk' with hlnk'
    rw [← hlnk']
    refine p5 ?_
    rw [hcl]
    cases h1 : c.link with
    | none => rfl
    | some j =>
      obtain ⟨e, he, he1, _⟩ := hp.link j h1
      have := hp.thisif.2 ⟨e, he, he1⟩
      rw [ht] at this
      cases this

/-! ### Second pass -/

theorem localifLink_ok {db : Db} {h : Hello} {l n : Nat} (hi : Inv db h l n) (a : Addr) :
    ∃ db', localifLink db h.ifc l a = some db' ∧ Inv db' h l n ∧ db'.naddrs = db.naddrs ∧
      ∀ lnk', db'.links.get l = some lnk' → ∃ lnk, db.links.get l = some lnk ∧ lnk'.neigh = lnk.neigh := by
  obtain ⟨w, hn, lnk, hl, hif, hd⟩ := hi
  unfold localifLink
  cases h1 : db.laddrs.get (h.ifc, a) with
  | none =>
    obtain ⟨x, hx⟩ := Option.ne_none_iff_exists'.1 (w.linkNeigh l lnk hl)
    dsimp only
    rw [hl]
    dsimp only
    rw [hx]
    refine ⟨_, rfl, ⟨?_, hn, lnk, hl, hif, hd⟩, rfl, ?_⟩
    · rw [hif]
      refine wf_laddrs w _ (nodup_add _ _ _ w.nodupB h1) ?_
      intro k y hy
      rw [get_add _ _ _ _ h1] at hy
      by_cases hk : k = (h.ifc, a)
      · rw [if_pos hk] at hy
        injection hy with hy
        refine ⟨lnk, by rw [← hy]; exact hl, by rw [hk]; exact hif⟩
      · rw [if_neg hk] at hy
        exact w.laddrLink k y hy
    · intro lnk' h'
      have h' : db.links.get l = some lnk' := h'
      exact ⟨lnk, rfl, by rw [hl] at h'; injection h' with h'; rw [h']⟩
  | some la =>
    obtain ⟨old, hold, holdif⟩ := w.laddrLink _ _ h1
    dsimp only
    rw [hold]
    dsimp only
    have w1 := wf_links_upd w la.link (fun x => { x with count := x.count - 1 }) fun x => ⟨rfl, rfl⟩
    have hl1 : ∃ lnk1, (db.links.upd la.link fun x => { x with count := x.count - 1 }).get l = some lnk1 ∧ lnk1.ifc = lnk.ifc ∧ lnk1.neigh = lnk.neigh := by
      rw [get_upd, hl]
      split
      · exact ⟨_, rfl, rfl, rfl⟩
      · exact ⟨_, rfl, rfl, rfl⟩
    obtain ⟨lnk1, hlnk1, hif1, hng1⟩ := hl1
    have unmark : ∀ {db' : Db}, WF db' → WF { db' with laddrs := db'.laddrs.upd (h.ifc, a) fun x => { x with mark := false } } := by
      intro db' w'
      refine wf_laddrs w' _ (by rw [keys_upd]; exact w'.nodupB) ?_
      intro k x hx
      obtain ⟨y, hy, e⟩ := get_upd_some hx
      have : x.link = y.link := by
        rcases e with e | ⟨_, e⟩ <;> rw [e]
      rw [this]
      exact w'.laddrLink k y hy
    by_cases h2 : la.link = l
    · rw [if_pos h2]
      refine ⟨_, rfl, ⟨unmark w1, hn, lnk1, hlnk1, by rw [hif1]; exact hif, ?_⟩, rfl, ?_⟩
      · rcases hd with hd | hd
        · exact .inl (by rw [hng1]; exact hd)
        · exact .inr hd
      · intro lnk' h'
        have h' : (db.links.upd la.link fun x => { x with count := x.count - 1 }).get l = some lnk' := h'
        rw [hlnk1] at h'
        injection h' with h'
        exact ⟨lnk, hl, by rw [← h', hng1]⟩
    · rw [if_neg h2, hlnk1]
      dsimp only
      obtain ⟨x1, hx1⟩ := Option.ne_none_iff_exists'.1 (w.linkNeigh _ old hold)
      obtain ⟨x2, hx2⟩ := Option.ne_none_iff_exists'.1 (w.linkNeigh _ lnk hl)
      rw [hx1, hng1, hx2]
      dsimp only
      have w2 : WF { db with links := db.links.upd la.link fun x => { x with count := x.count - 1 },
                             laddrs := db.laddrs.upd (h.ifc, a) fun x => { x with link := l } } := by
        refine wf_laddrs w1 _ (by rw [keys_upd]; exact w.nodupB) ?_
        intro k x hx
        obtain ⟨y, hy, e⟩ := get_upd_some hx
        rcases e with e | ⟨ek, e⟩
        · rw [e]
          exact w1.laddrLink k y hy
        · refine ⟨lnk1, by rw [e]; exact hlnk1, ?_⟩
          rw [ek, hif1]
          exact hif
      by_cases h3 : old.count - 1 = 0
      · rw [if_pos h3]
        obtain ⟨lp, e, w3⟩ := linkRemove_ok w2 (l := la.link) (by
          show (db.links.upd la.link fun x => { x with count := x.count - 1 }).get la.link ≠ none
          rw [get_upd, if_pos rfl, hold]
          simp)
        rw [e]
        have hl3 : ((db.links.upd la.link fun x => { x with count := x.count - 1 }).del la.link).get l = some lnk1 := by
          rw [get_del, if_neg fun e => h2 e.symm]
          exact hlnk1
        refine ⟨_, rfl, ⟨unmark w3, hn, lnk1, hl3, by rw [hif1]; exact hif, ?_⟩, rfl, ?_⟩
        · rcases hd with hd | hd
          · exact .inl (by rw [hng1]; exact hd)
          · exact .inr hd
        · intro lnk' h'
          have h' : ((db.links.upd la.link fun x => { x with count := x.count - 1 }).del la.link).get l = some lnk' := h'
          rw [hl3] at h'
          injection h' with h'
          exact ⟨lnk, hl, by rw [← h', hng1]⟩
      · rw [if_neg h3]
        refine ⟨_, rfl, ⟨unmark w2, hn, lnk1, hlnk1, by rw [hif1]; exact hif, ?_⟩, rfl, ?_⟩
        · rcases hd with hd | hd
          · exact .inl (by rw [hng1]; exact hd)
          · exact .inr hd
        · intro lnk' h'
          have h' : (db.links.upd la.link fun x => { x with count := x.count - 1 }).get l = some lnk' := h'
          rw [hlnk1] at h'
          injection h' with h'
          exact ⟨lnk, hl, by rw [← h', hng1]⟩

theorem localifNeigh_ok {db : Db} {h : Hello} {l n : Nat} (hi : Inv db h l n) (a : Addr)
    (ha : (∃ lnk, db.links.get l = some lnk ∧ lnk.neigh = n) ∨ ∀ na, db.naddrs.get a = some na → na.neigh = n) :
    ∃ db', localifNeigh db n a = some db' ∧ Inv db' h l n := by
  obtain ⟨w, hn, lnk, hl, hif, hd⟩ := hi
  unfold localifNeigh
  cases h1 : db.naddrs.get a with
  | none =>
    obtain ⟨x, hx⟩ := Option.ne_none_iff_exists'.1 hn
    dsimp only
    rw [hx]
    refine ⟨_, rfl, ⟨?_, hn, lnk, hl, hif, ?_⟩⟩
    · refine wf_naddrs w _ (nodup_add _ _ _ w.nodupA h1) ?_
      intro k y hy
      rw [get_add _ _ _ _ h1] at hy
      by_cases hk : k = a
      · rw [if_pos hk] at hy
        injection hy with hy
        rw [← hy]
        exact hn
      · rw [if_neg hk] at hy
        exact w.naddrNeigh k y hy
    · rcases hd with hd | hd
      · exact .inl hd
      · right
        intro e he he1 na hna
        have hna : (db.naddrs.add a ⟨n, false, false⟩).get e.addr = some na := hna
        rw [get_add _ _ _ _ h1] at hna
        by_cases hk : e.addr = a
        · rw [if_pos hk] at hna
          injection hna with hna
          rw [← hna]
        · rw [if_neg hk] at hna
          exact hd e he he1 na hna
  | some na =>
    obtain ⟨old, hold⟩ := Option.ne_none_iff_exists'.1 (w.naddrNeigh _ _ h1)
    dsimp only
    rw [hold]
    dsimp only
    have w1 := wf_neighs_upd w na.neigh fun x => { x with count := x.count - 1 }
    have hn1 : (db.neighs.upd na.neigh fun x => { x with count := x.count - 1 }).get n ≠ none := by
      rw [← mem_keys, keys_upd, mem_keys]
      exact hn
    have unmark : ∀ {db' : Db}, WF db' → WF { db' with naddrs := db'.naddrs.upd a fun x => { x with mark := false, lost := false } } := by
      intro db' w'
      refine wf_naddrs w' _ (by rw [keys_upd]; exact w'.nodupA) ?_
      intro k x hx
      obtain ⟨y, hy, e⟩ := get_upd_some hx
      have : x.neigh = y.neigh := by
        rcases e with e | ⟨_, e⟩ <;> rw [e]
      rw [this]
      exact w'.naddrNeigh k y hy
    by_cases h2 : na.neigh = n
    · rw [if_pos h2]
      refine ⟨_, rfl, ⟨unmark w1, hn1, lnk, hl, hif, ?_⟩⟩
      rcases hd with hd | hd
      · exact .inl hd
      · right
        intro e he he1 x hx
        have hx : (db.naddrs.upd a fun x => { x with mark := false, lost := false }).get e.addr = some x := hx
        obtain ⟨y, hy, e2⟩ := get_upd_some hx
        have : x.neigh = y.neigh := by
          rcases e2 with e2 | ⟨_, e2⟩ <;> rw [e2]
        rw [this]
        exact hd e he he1 y hy
    · have hlk : lnk.neigh = n := by
        rcases ha with ⟨lnk', hl', e⟩ | ha
        · rw [hl] at hl'
          injection hl' with hl'
          rw [hl']
          exact e
        · exact absurd (ha na h1) h2
      rw [if_neg h2]
      obtain ⟨x, hx⟩ := Option.ne_none_iff_exists'.1 hn1
      rw [hx]
      dsimp only
      have w2 : WF { db with neighs := db.neighs.upd na.neigh fun x => { x with count := x.count - 1 },
                             naddrs := db.naddrs.upd a fun x => { x with neigh := n } } := by
        refine wf_naddrs w1 _ (by rw [keys_upd]; exact w.nodupA) ?_
        intro k y hy
        obtain ⟨z, hz, e⟩ := get_upd_some hy
        rcases e with e | ⟨_, e⟩
        · rw [e]
          exact w1.naddrNeigh k z hz
        · rw [e]
          exact hn1
      by_cases h3 : old.count - 1 = 0
      · rw [if_pos h3]
        obtain ⟨db', e, w3, q1, q2, q3, _, q4⟩ := neighRemove_ok w2 (n := na.neigh) (by
          show (db.neighs.upd na.neigh fun x => { x with count := x.count - 1 }).get na.neigh ≠ none
          rw [get_upd, if_pos rfl, hold]
          simp)
        rw [e]
        refine ⟨_, rfl, ⟨unmark w3, ?_, lnk, ?_, hif, .inl hlk⟩⟩
        · show db'.neighs.get n ≠ none
          rw [q1]
          show ((db.neighs.upd na.neigh fun x => { x with count := x.count - 1 }).del na.neigh).get n ≠ none
          rw [get_del, if_neg fun e => h2 e.symm]
          exact hn1
        · show db'.links.get l = some lnk
          rw [q4, if_neg]
          · exact hl
          · rw [mem_linksOf]
            rintro ⟨y, hy, ey⟩
            have hy : db.links.get l = some y := hy
            rw [hl] at hy
            injection hy with hy
            rw [← hy, hlk] at ey
            exact h2 ey.symm
      · rw [if_neg h3]
        exact ⟨_, rfl, ⟨unmark w2, hn1, lnk, hl, hif, .inl hlk⟩⟩

theorem processLocalif_ok {db : Db} {h : Hello} {l n : Nat} (hi : Inv db h l n) (a : Addr) (t : Bool)
    (ha : (∃ lnk, db.links.get l = some lnk ∧ lnk.neigh = n) ∨ ∀ na, db.naddrs.get a = some na → na.neigh = n) :
    ∃ db', processLocalif db h.ifc l n a t = some db' ∧ Inv db' h l n := by
  unfold processLocalif
  cases t with
  | false =>
    rw [if_neg (by simp)]
    exact localifNeigh_ok hi a ha
  | true =>
    rw [if_pos rfl]
    obtain ⟨db1, e1, i1, hna, hlk⟩ := localifLink_ok hi a
    rw [e1]
    refine localifNeigh_ok i1 a ?_
    rcases ha with ⟨lnk, hl, e⟩ | ha
    · left
      obtain ⟨_, _, lnk1, hl1, _⟩ := i1
      obtain ⟨lnk', hl', e'⟩ := hlk lnk1 hl1
      rw [hl] at hl'
      injection hl' with hl'
      exact ⟨lnk1, hl1, by rw [e', ← hl']; exact e⟩
    · right
      rw [hna]
      exact ha

theorem touchLink_ok {db : Db} {h : Hello} {l n : Nat} (hi : Inv db h l n) : touchLink db l = some db := by
  obtain ⟨w, hn, lnk, hl, _⟩ := hi
  obtain ⟨x, hx⟩ := Option.ne_none_iff_exists'.1 (w.linkNeigh _ _ hl)
  unfold touchLink
  rw [hl]
  dsimp only
  rw [hx]
  rfl

theorem touchNeigh_ok {db : Db} {n : Nat} (hn : db.neighs.get n ≠ none) : touchNeigh db n = some db := by
  obtain ⟨x, hx⟩ := Option.ne_none_iff_exists'.1 hn
  unfold touchNeigh
  rw [hx]
  rfl

theorem dualstack_ok {db : Db} {h : Hello} {l n : Nat} (hi : Inv db h l n) : ∃ db', dualstack db h l n = some db' ∧ Inv db' h l n := by
  have hi0 := hi
  obtain ⟨w, hn, lnk, hl, hif, hd⟩ := hi
  have hlk : l ∈ db.links.keys := mem_keys.2 (by rw [hl]; simp)
  unfold dualstack
  cases h1 : h.orig with
  | none => exact ⟨db, rfl, hi0⟩
  | some o =>
    dsimp only
    cases h2 : h.origV4 with
    | some v4 =>
      dsimp only
      have step1 : ∃ p, dualNeigh db n v4 = some { db with npart := p } ∧
          Dual db.neighs.keys p := by
        unfold dualNeigh
        cases h3 : byOriginator db v4 with
        | none => exact ⟨db.npart, rfl, w.npart⟩
        | some n2 =>
          obtain ⟨x, hx, _⟩ := findKey_some h3 w.nodupN
          obtain ⟨p, e, d, _⟩ := connect_ok w.npart (mem_keys.2 hn) (mem_keys.2 (by rw [hx]; simp) : n2 ∈ db.neighs.keys)
          exact ⟨p, by dsimp only; rw [e]; rfl, d⟩
      obtain ⟨p, e1, d1⟩ := step1
      rw [e1]
      simp only [Option.bind_some]
      have w1 := wf_npart w p d1
      unfold dualLink
      cases h4 : linkByOriginator { db with npart := p } h.ifc v4 with
      | none => exact ⟨_, rfl, ⟨w1, hn, lnk, hl, hif, hd⟩⟩
      | some l2 =>
        obtain ⟨x, hx, _⟩ := findKey_some h4 w.nodupL
        obtain ⟨q, e, d, _⟩ := connect_ok w.lpart hlk (mem_keys.2 (by rw [hx]; simp) : l2 ∈ db.links.keys)
        refine ⟨_, by dsimp only; rw [e]; rfl, ⟨wf_lpart w1 q d, hn, lnk, hl, hif, hd⟩⟩
    | none =>
      dsimp only
      by_cases h3 : h.orig6 = true
      · rw [if_pos h3]
        obtain ⟨p, e1, d1, _⟩ := disconnect_ok w.npart (mem_keys.2 hn)
        rw [e1]
        simp only [Option.map_some, Option.bind_some]
        obtain ⟨q, e2, d2, _⟩ := disconnect_ok w.lpart hlk
        rw [e2]
        exact ⟨_, rfl, ⟨wf_lpart (wf_npart w p d1) q d2, hn, lnk, hl, hif, hd⟩⟩
      · rw [if_neg h3]
        exact ⟨_, rfl, hi0⟩

theorem pass1End_ok {db : Db} {h : Hello} {l n : Nat} (hi : Inv db h l n) (t : Bool)
    (ht : t = false → ∀ lnk, db.links.get l = some lnk → lnk.neigh = n) : ∃ db', pass1End db h t l n = some db' ∧ Inv db' h l n := by
  unfold pass1End
  rw [touchLink_ok hi]
  simp only [Option.bind_some]
  cases t with
  | true =>
    rw [if_pos rfl]
    simp only [Option.bind_some]
    rw [touchLink_ok hi]
    exact dualstack_ok hi
  | false =>
    rw [if_neg (by simp)]
    obtain ⟨_, _, lnk, hl, _⟩ := id hi
    obtain ⟨db1, e1, i1⟩ := processLocalif_ok hi h.src true (.inl ⟨lnk, hl, ht rfl lnk hl⟩)
    rw [e1]
    simp only [Option.bind_some]
    rw [touchLink_ok i1]
    exact dualstack_ok i1

theorem pass2_ok {db : Db} {h : Hello} {l n : Nat} (hi : Inv db h l n) (e : Entry) (he : e ∈ h.entries) :
    ∃ db', pass2 db h.ifc l n e = some db' ∧ Inv db' h l n := by
  have h1 : ∃ db', localifStep db h.ifc l n e = some db' ∧ Inv db' h l n := by
    unfold localifStep
    cases h2 : e.localIf with
    | none => exact ⟨db, rfl, hi⟩
    | some t =>
      refine processLocalif_ok hi e.addr t ?_
      obtain ⟨_, _, lnk, hl, _, hd⟩ := hi
      rcases hd with hd | hd
      · exact .inl ⟨lnk, hl, hd⟩
      · exact .inr (hd e he (by rw [h2]; simp))
  obtain ⟨db1, e1, i1⟩ := h1
  unfold pass2
  rw [e1]
  simp only [Option.bind_some]
  split
  · rw [touchLink_ok i1]
    simp only [Option.bind_some]
    rw [touchNeigh_ok i1.neigh]
    exact ⟨db1, rfl, i1⟩
  · exact ⟨db1, rfl, i1⟩

theorem pass2All_ok {h : Hello} {l n : Nat} (es : List Entry) : ∀ {db : Db}, Inv db h l n → (∀ e ∈ es, e ∈ h.entries) →
    ∃ db', pass2All db h.ifc l n es = some db' ∧ Inv db' h l n := by
  induction es with
  | nil =>
    intro db hi _
    exact ⟨db, rfl, hi⟩
  | cons e es ih =>
    intro db hi he
    obtain ⟨db1, e1, i1⟩ := pass2_ok hi e (he e (List.mem_cons_self ..))
    obtain ⟨db2, e2, i2⟩ := ih i1 fun f hf => he f (List.mem_cons_of_mem _ hf)
    refine ⟨db2, ?_, i2⟩
    unfold pass2All
    rw [e1]
    exact e2

/-- a status update keeps what the end of the second pass needs -/
theorem updateStatus_inv {db : Db} (w : WF db) {l n ifc : Nat} (hn : db.neighs.get n ≠ none) (hl : ∃ lnk, db.links.get l = some lnk ∧ lnk.ifc = ifc) (st : Status) :
    ∃ db', updateStatus db l st = some db' ∧ WF db' ∧ db'.neighs.get n ≠ none ∧ ∃ lnk, db'.links.get l = some lnk ∧ lnk.ifc = ifc := by
  obtain ⟨lnk, hl, hif⟩ := hl
  obtain ⟨na, d, e, w', _⟩ := updateStatus_ok w hl st
  refine ⟨_, e, w', ?_, { lnk with status := st }, ?_, hif⟩
  · show (db.neighs.upd lnk.neigh fun x => { x with sym := x.sym + d }).get n ≠ none
    rw [← mem_keys, keys_upd, mem_keys]
    exact hn
  · show (db.links.upd l fun x => { x with status := st }).get l = _
    rw [get_upd, if_pos rfl, hl]
    rfl

theorem pass2End_ok {db : Db} {h : Hello} {l n : Nat} (hi : Inv db h l n) (heard : Option Status) (st : Status) :
    ∃ db', pass2End db h heard st l n = some db' ∧ WF db' ∧ (∃ lnk, db'.links.get l = some lnk ∧ lnk.ifc = h.ifc) ∧ db'.neighs.get n ≠ none := by
  unfold pass2End
  rw [touchLink_ok hi]
  simp only [Option.bind_some]
  rw [touchNeigh_ok hi.neigh]
  simp only [Option.bind_some]
  obtain ⟨w, hn, lnk, hl, hif, _⟩ := hi
  have w1 : WF { db with laddrs := db.laddrs.delWhere fun _ a => decide (a.link = l) && a.mark } := by
    refine wf_laddrs w _ (nodup_delWhere _ _ w.nodupB) ?_
    intro k x hx
    rw [get_delWhere _ w.nodupB] at hx
    cases hg : db.laddrs.get k with
    | none =>
      rw [hg] at hx
      cases hx
    | some y =>
      rw [hg] at hx
      dsimp only at hx
      split at hx
      · cases hx
      · injection hx with hx
        rw [← hx]
        exact w.laddrLink k y hg
  have w2 := wf_naddrs_mark w1 (fun _ a => decide (a.neigh = n) && a.mark) (fun a => { a with lost := true }) fun _ => rfl
  generalize hdb : ({ db with
    laddrs := db.laddrs.delWhere fun _ a => decide (a.link = l) && a.mark
    naddrs := db.naddrs.updWhere (fun _ a => decide (a.neigh = n) && a.mark) fun a => { a with lost := true } } : Db) = db2 at w2 ⊢
  have hn2 : db2.neighs.get n ≠ none := by rw [← hdb]; exact hn
  have hl2 : ∃ lnk, db2.links.get l = some lnk ∧ lnk.ifc = h.ifc := ⟨lnk, by rw [← hdb]; exact hl, hif⟩
  have step : ∃ db3, heardStep db2 l heard = some db3 ∧ WF db3 ∧ db3.neighs.get n ≠ none ∧ ∃ lnk, db3.links.get l = some lnk ∧ lnk.ifc = h.ifc := by
    unfold heardStep
    cases heard with
    | none => exact ⟨db2, rfl, w2, hn2, hl2⟩
    | some s => exact updateStatus_inv w2 hn2 hl2 s
  obtain ⟨db3, e3, w3, hn3, hl3⟩ := step
  rw [e3]
  simp only [Option.bind_some]
  obtain ⟨m, e4, hk, _⟩ := setOriginator_ok hn3 h.orig
  rw [e4]
  simp only [Option.bind_some]
  have w4 := wf_neighs w3 m hk
  have hn4 : m.get n ≠ none := by
    rw [← mem_keys, hk, mem_keys]
    exact hn3
  obtain ⟨db5, e5, w5, hn5, hl5⟩ := updateStatus_inv w4 hn4 hl3 st
  rw [e5]
  simp only [Option.bind_some]
  rw [touchNeigh_ok hn5]
  exact ⟨db5, rfl, w5, hl5, hn5⟩

/-- a HELLO whose addresses do not mix is processed without access to freed memory -/
theorem hello_ok {db : Db} (w : WF db) (h : Hello) (hm : NoMix db h) (heard : Option Status) (st : Status) :
    ∃ db', hello db h heard st = some db' ∧ WF db' := by
  obtain ⟨d1, c, e1, s1, p1⟩ := pass1All_ok w h h.entries (same_resetCounts db h.ifc) (p1_init db h.ifc)
  obtain ⟨d2, l, n, e2, i2, ht⟩ := allocate_ok w s1 h hm p1
  obtain ⟨d3, e3, i3⟩ := pass1End_ok i2 c.hasThisif ht
  obtain ⟨d4, e4, i4⟩ := pass2All_ok h.entries i3 fun _ h => h
  obtain ⟨d5, e5, w5, _⟩ := pass2End_ok i4 heard st
  refine ⟨d5, ?_, w5⟩
  unfold hello
  rw [e1]
  simp only [Option.bind_some]
  rw [e2]
  simp only [Option.bind_some]
  rw [e3]
  simp only [Option.bind_some]
  rw [e4]
  exact e5

end Verif.Nhdp
