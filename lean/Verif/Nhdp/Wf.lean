import Verif.Nhdp.Spec

namespace Verif.Nhdp
open Map (get_upd get_del get_add mem_keys keys_upd keys_updWhere get_updWhere get_delWhere nodup_del nodup_delWhere nodup_add findKey_some)

/-! ### Partners -/

/-- partnership is mutual and between existing objects -/
def Dual (live : List Nat) (m : Map Nat Nat) : Prop := ∀ a b, m.get a = some b → m.get b = some a ∧ a ∈ live ∧ b ∈ live

theorem disconnect_ok {live : List Nat} {m : Map Nat Nat} (hd : Dual live m) {n : Nat} (hn : n ∈ live) :
    ∃ m', disconnect live m n = some m' ∧ Dual live m' ∧ m'.get n = none ∧
      ∀ j, m'.get j = if j = n ∨ m.get n = some j then none else m.get j := by
  unfold disconnect
  rw [if_neg fun h => h hn]
  cases hg : m.get n with
  | none =>
    refine ⟨m, rfl, hd, hg, fun j => ?_⟩
    by_cases hj : j = n
    · rw [if_pos (.inl hj), hj, hg]
    · rw [if_neg]
      rintro (h | h)
      · exact hj h
      · cases h
  | some p =>
    obtain ⟨h1, h2, h3⟩ := hd n p hg
    have hget : ∀ j, ((m.del p).del n).get j = if j = n ∨ some p = some j then none else m.get j := by
      intro j
      rw [get_del, get_del]
      by_cases hj : j = n
      · rw [if_pos hj, if_pos (.inl hj)]
      · rw [if_neg hj]
        by_cases hp : j = p
        · rw [if_pos hp, if_pos (.inr (by rw [hp]))]
        · rw [if_neg hp, if_neg]
          rintro (h | h)
          · exact hj h
          · injection h with h
            exact hp h.symm
    refine ⟨(m.del p).del n, by dsimp only; rw [if_neg fun h => h h3], ?_, by rw [hget, if_pos (.inl rfl)], hget⟩
    intro a b hab
    rw [hget] at hab
    by_cases hc : a = n ∨ some p = some a
    · rw [if_pos hc] at hab
      cases hab
    · rw [if_neg hc] at hab
      obtain ⟨q1, q2, q3⟩ := hd a b hab
      refine ⟨?_, q2, q3⟩
      rw [hget, if_neg]
      · exact q1
      · rintro (h | h)
        · rw [h, hg] at q1
          injection q1 with q1
          exact hc (.inr (by rw [q1]))
        · injection h with h
          rw [← h, h1] at q1
          injection q1 with q1
          exact hc (.inl q1.symm)

theorem get_setPartner (m : Map Nat Nat) (n p j : Nat) : (setPartner m n p).get j = if j = n then some p else m.get j := by
  unfold setPartner
  rw [get_add _ _ _ _ (by rw [get_del, if_pos rfl])]
  by_cases h : j = n
  · rw [if_pos h, if_pos h]
  · rw [if_neg h, if_neg h, get_del, if_neg h]

/-- between the two halves of a connection -/
theorem connect_ok {live : List Nat} {m : Map Nat Nat} (hd : Dual live m) {a b : Nat} (ha : a ∈ live) (hb : b ∈ live) :
    ∃ m', connect live m a b = some m' ∧ Dual live m' ∧ m'.get a = some b ∧ m'.get b = some a ∧
      ∀ j, j ≠ a → j ≠ b → m'.get j = if m.get j = some a ∨ m.get j = some b then none else m.get j := by
  unfold connect connectHalf
  rw [if_neg fun h => h ha]
  by_cases h1 : m.get a = some b
  · obtain ⟨h2, _, _⟩ := hd a b h1
    rw [if_pos h1]
    simp only [Option.bind_some]
    rw [if_neg fun h => h hb, if_pos h2]
    refine ⟨m, rfl, hd, h1, h2, fun j hja hjb => ?_⟩
    rw [if_neg]
    rintro (h | h)
    · have := (hd j a h).1
      rw [h1] at this
      injection this with this
      exact hjb this.symm
    · have := (hd j b h).1
      rw [h2] at this
      injection this with this
      exact hja this.symm
  · rw [if_neg h1]
    obtain ⟨m1, e1, d1, g1, f1⟩ := disconnect_ok hd ha
    rw [e1]
    simp only [Option.map_some, Option.bind_some]
    rw [if_neg fun h => h hb]
    have g2 : ∀ j, (setPartner m1 a b).get j = if j = a then some b else m1.get j := get_setPartner m1 a b
    by_cases hab : a = b
    · subst hab
      rw [if_pos (by rw [g2, if_pos rfl])]
      refine ⟨_, rfl, ?_, by rw [g2, if_pos rfl], by rw [g2, if_pos rfl], ?_⟩
      · intro x y hxy
        rw [g2] at hxy
        by_cases hx : x = a
        · rw [if_pos hx] at hxy
          injection hxy with hxy
          rw [← hxy, g2, if_pos rfl, hx]
          exact ⟨rfl, ha, ha⟩
        · rw [if_neg hx] at hxy
          obtain ⟨q1, q2, q3⟩ := d1 x y hxy
          refine ⟨?_, q2, q3⟩
          rw [g2, if_neg]
          · exact q1
          · intro hy
            rw [hy, g1] at q1
            cases q1
      · intro j hj _
        rw [g2, if_neg hj, f1]
        by_cases hc : m.get j = some a
        · have hc2 : j = a ∨ m.get a = some j := .inr (hd j a hc).1
          have hc3 : m.get j = some a ∨ m.get j = some a := .inl hc
          rw [if_pos hc2, if_pos hc3]
        · rw [if_neg, if_neg]
          · rintro (h | h) <;> exact hc h
          · rintro (h | h)
            · exact hj h
            · exact hc (hd a j h).1
    · -- the second half: the old partner of `b` loses `b`
      have hba : b ≠ a := fun e => hab e.symm
      have hgb : (setPartner m1 a b).get b = m1.get b := by rw [g2, if_neg hba]
      have hne : (setPartner m1 a b).get b ≠ some a := by
        rw [hgb]
        intro h
        have := (d1 b a h).1
        rw [g1] at this
        cases this
      rw [if_neg hne]
      unfold disconnect
      rw [if_neg fun h => h hb, hgb]
      cases hq : m1.get b with
      | none =>
        simp only [Option.map_some]
        have g3 : ∀ j, (setPartner (setPartner m1 a b) b a).get j = if j = b then some a else if j = a then some b else m1.get j := by
          intro j
          rw [get_setPartner, g2]
        refine ⟨_, rfl, ?_, by rw [g3, if_neg hab, if_pos rfl], by rw [g3, if_pos rfl], ?_⟩
        · intro x y hxy
          rw [g3] at hxy
          by_cases hxb : x = b
          · rw [if_pos hxb] at hxy
            injection hxy with hxy
            rw [← hxy, g3, if_neg hab, if_pos rfl, hxb]
            exact ⟨rfl, hb, ha⟩
          · rw [if_neg hxb] at hxy
            by_cases hxa : x = a
            · rw [if_pos hxa] at hxy
              injection hxy with hxy
              rw [← hxy, g3, if_pos rfl, hxa]
              exact ⟨rfl, ha, hb⟩
            · rw [if_neg hxa] at hxy
              obtain ⟨q1, q2, q3⟩ := d1 x y hxy
              refine ⟨?_, q2, q3⟩
              rw [g3, if_neg, if_neg]
              · exact q1
              · intro hy
                rw [hy, g1] at q1
                cases q1
              · intro hy
                rw [hy, hq] at q1
                cases q1
        · intro j hja hjb
          rw [g3, if_neg hjb, if_neg hja, f1]
          by_cases hc : m.get j = some a
          · rw [if_pos (.inr (hd j a hc).1), if_pos (.inl hc)]
          · have hjb' : m.get j ≠ some b := by
              intro h
              have hbj := (hd j b h).1
              have := f1 b
              rw [hq] at this
              by_cases hcc : b = a ∨ m.get a = some b
              · rcases hcc with hcc | hcc
                · exact hba hcc
                · exact h1 hcc
              · rw [if_neg hcc, hbj] at this
                cases this
            rw [if_neg, if_neg]
            · rintro (h | h)
              · exact hc h
              · exact hjb' h
            · rintro (h | h)
              · exact hja h
              · exact hc (hd a j h).1
      | some q =>
        obtain ⟨q1, _, q3⟩ := d1 b q hq
        have hqa : q ≠ a := by
          intro e
          rw [e, g1] at q1
          cases q1
        dsimp only
        rw [if_neg fun h => h q3]
        simp only [Option.map_some]
        have g3 : ∀ j, (setPartner (((setPartner m1 a b).del q).del b) b a).get j =
            if j = b then some a else if j = q then none else if j = a then some b else m1.get j := by
          intro j
          rw [get_setPartner, get_del, get_del, g2]
          by_cases hjb : j = b
          · rw [if_pos hjb, if_pos hjb]
          · rw [if_neg hjb, if_neg hjb, if_neg hjb]
        refine ⟨_, rfl, ?_, by rw [g3, if_neg hab, if_neg fun e => hqa e.symm, if_pos rfl], by rw [g3, if_pos rfl], ?_⟩
        · intro x y hxy
          rw [g3] at hxy
          by_cases hxb : x = b
          · rw [if_pos hxb] at hxy
            injection hxy with hxy
            rw [← hxy, g3, if_neg hab, if_neg fun e => hqa e.symm, if_pos rfl, hxb]
            exact ⟨rfl, hb, ha⟩
          · rw [if_neg hxb] at hxy
            by_cases hxq : x = q
            · rw [if_pos hxq] at hxy
              cases hxy
            · rw [if_neg hxq] at hxy
              by_cases hxa : x = a
              · rw [if_pos hxa] at hxy
                injection hxy with hxy
                rw [← hxy, g3, if_pos rfl, hxa]
                exact ⟨rfl, ha, hb⟩
              · rw [if_neg hxa] at hxy
                obtain ⟨r1, r2, r3⟩ := d1 x y hxy
                refine ⟨?_, r2, r3⟩
                rw [g3, if_neg, if_neg, if_neg]
                · exact r1
                · intro hy
                  rw [hy, g1] at r1
                  cases r1
                · intro hy
                  rw [hy, q1] at r1
                  injection r1 with r1
                  exact hxb r1.symm
                · intro hy
                  rw [hy, hq] at r1
                  injection r1 with r1
                  exact hxq r1.symm
        · intro j hja hjb
          rw [g3, if_neg hjb, if_neg hja, f1]
          have hmb : m.get b = some q := by
            have := f1 b
            rw [hq] at this
            by_cases hcc : b = a ∨ m.get a = some b
            · rcases hcc with hcc | hcc
              · exact absurd hcc hba
              · exact absurd hcc h1
            · rw [if_neg hcc] at this
              exact this.symm
          by_cases hjq : j = q
          · rw [if_pos hjq, hjq, (hd b q hmb).1, if_pos (.inr rfl)]
          · rw [if_neg hjq]
            by_cases hc : m.get j = some a
            · rw [if_pos (.inr (hd j a hc).1), if_pos (.inl hc)]
            · have hjb' : m.get j ≠ some b := by
                intro h
                have := (hd j b h).1
                rw [hmb] at this
                injection this with this
                exact hjq this.symm
              rw [if_neg, if_neg]
              · rintro (h | h)
                · exact hc h
                · exact hjb' h
              · rintro (h | h)
                · exact hja h
                · exact hc (hd a j h).1

/-! ### Well-formed databases -/

/-- all pointers point to existing objects, partnership is mutual -/
structure WF (db : Db) : Prop where
  nodupN : db.neighs.keys.Nodup
  nodupL : db.links.keys.Nodup
  nodupA : db.naddrs.keys.Nodup
  nodupB : db.laddrs.keys.Nodup
  freshN : ∀ k : Nat, db.neighs.get k ≠ none → k < db.next
  freshL : ∀ k : Nat, db.links.get k ≠ none → k < db.next
  linkNeigh : ∀ (l : Nat) (x : Link), db.links.get l = some x → db.neighs.get x.neigh ≠ none
  naddrNeigh : ∀ (a : Addr) (x : NAddr), db.naddrs.get a = some x → db.neighs.get x.neigh ≠ none
  laddrLink : ∀ (k : Nat × Addr) (x : LAddr), db.laddrs.get k = some x → ∃ l, db.links.get x.link = some l ∧ l.ifc = k.1
  npart : Dual db.neighs.keys db.npart
  lpart : Dual db.links.keys db.lpart

theorem wf_empty : WF Db.empty where
  nodupN := List.nodup_nil
  nodupL := List.nodup_nil
  nodupA := List.nodup_nil
  nodupB := List.nodup_nil
  freshN _ h := absurd rfl h
  freshL _ h := absurd rfl h
  linkNeigh _ _ h := by cases h
  naddrNeigh _ _ h := by cases h
  laddrLink _ _ h := by cases h
  npart _ _ h := by cases h
  lpart _ _ h := by cases h

theorem wf_neighs {db : Db} (h : WF db) (m : Map Nat Neigh) (hk : m.keys = db.neighs.keys) : WF { db with neighs := m } := by
  have hp : ∀ k : Nat, m.get k ≠ none ↔ db.neighs.get k ≠ none := fun k => by rw [← mem_keys, ← mem_keys, hk]
  exact
    { nodupN := by rw [hk]; exact h.nodupN
      nodupL := h.nodupL
      nodupA := h.nodupA
      nodupB := h.nodupB
      freshN := fun k hh => h.freshN k ((hp k).1 hh)
      freshL := h.freshL
      linkNeigh := fun l x hx => (hp _).2 (h.linkNeigh l x hx)
      naddrNeigh := fun a x hx => (hp _).2 (h.naddrNeigh a x hx)
      laddrLink := h.laddrLink
      npart := by
        show Dual m.keys db.npart
        rw [hk]
        exact h.npart
      lpart := h.lpart }

theorem wf_links {db : Db} (h : WF db) (m : Map Nat Link) (hk : m.keys = db.links.keys)
    (hs : ∀ l x', m.get l = some x' → ∃ x, db.links.get l = some x ∧ x'.neigh = x.neigh ∧ x'.ifc = x.ifc) : WF { db with links := m } := by
  have hp : ∀ k : Nat, m.get k ≠ none ↔ db.links.get k ≠ none := fun k => by rw [← mem_keys, ← mem_keys, hk]
  exact
    { nodupN := h.nodupN
      nodupL := by rw [hk]; exact h.nodupL
      nodupA := h.nodupA
      nodupB := h.nodupB
      freshN := h.freshN
      freshL := fun k hh => h.freshL k ((hp k).1 hh)
      linkNeigh := fun l x' hx' => by
        obtain ⟨x, hx, e, _⟩ := hs l x' hx'
        rw [e]
        exact h.linkNeigh l x hx
      naddrNeigh := h.naddrNeigh
      laddrLink := fun k x hx => by
        obtain ⟨l, hl, e⟩ := h.laddrLink k x hx
        obtain ⟨l', hl'⟩ := Option.ne_none_iff_exists'.1 ((hp x.link).2 (by rw [hl]; simp))
        obtain ⟨l'', hl'', _, e2⟩ := hs _ _ hl'
        refine ⟨l', hl', ?_⟩
        rw [hl] at hl''
        injection hl'' with hl''
        rw [e2, ← hl'', e]
      npart := h.npart
      lpart := by
        show Dual m.keys db.lpart
        rw [hk]
        exact h.lpart }

theorem wf_naddrs {db : Db} (h : WF db) (m : Map Addr NAddr) (hk : m.keys.Nodup) (hs : ∀ a x, m.get a = some x → db.neighs.get x.neigh ≠ none) :
    WF { db with naddrs := m } :=
  { h with nodupA := hk, naddrNeigh := hs }

theorem wf_laddrs {db : Db} (h : WF db) (m : Map (Nat × Addr) LAddr) (hk : m.keys.Nodup)
    (hs : ∀ k x, m.get k = some x → ∃ l, db.links.get x.link = some l ∧ l.ifc = k.1) : WF { db with laddrs := m } :=
  { h with nodupB := hk, laddrLink := hs }

theorem wf_npart {db : Db} (h : WF db) (m : Map Nat Nat) (hd : Dual db.neighs.keys m) : WF { db with npart := m } :=
  { h with npart := hd }

theorem wf_lpart {db : Db} (h : WF db) (m : Map Nat Nat) (hd : Dual db.links.keys m) : WF { db with lpart := m } :=
  { h with lpart := hd }

/-- addresses of a well-formed database can be marked -/
theorem wf_naddrs_mark {db : Db} (h : WF db) (p : Addr → NAddr → Bool) (f : NAddr → NAddr) (hf : ∀ x, (f x).neigh = x.neigh) :
    WF { db with naddrs := db.naddrs.updWhere p f } := by
  refine wf_naddrs h _ (by rw [keys_updWhere]; exact h.nodupA) ?_
  intro a x hx
  rw [get_updWhere] at hx
  obtain ⟨y, hy, e⟩ := Option.map_eq_some_iff.1 hx
  have hn : x.neigh = y.neigh := by
    rw [← e]
    split
    · exact hf y
    · rfl
  rw [hn]
  exact h.naddrNeigh a y hy

theorem wf_laddrs_mark {db : Db} (h : WF db) (p : Nat × Addr → LAddr → Bool) (f : LAddr → LAddr) (hf : ∀ x, (f x).link = x.link) :
    WF { db with laddrs := db.laddrs.updWhere p f } := by
  refine wf_laddrs h _ (by rw [keys_updWhere]; exact h.nodupB) ?_
  intro a x hx
  rw [get_updWhere] at hx
  obtain ⟨y, hy, e⟩ := Option.map_eq_some_iff.1 hx
  have hn : x.link = y.link := by
    rw [← e]
    split
    · exact hf y
    · rfl
  rw [hn]
  exact h.laddrLink a y hy

theorem wf_neighs_upd {db : Db} (h : WF db) (n : Nat) (f : Neigh → Neigh) : WF { db with neighs := db.neighs.upd n f } :=
  wf_neighs h _ (keys_upd _ _ _)

theorem get_upd_some {κ α : Type} [DecidableEq κ] {m : Map κ α} {k j : κ} {f : α → α} {x' : α} (h : (m.upd k f).get j = some x') :
    ∃ x, m.get j = some x ∧ (x' = x ∨ (j = k ∧ x' = f x)) := by
  rw [get_upd] at h
  by_cases hj : j = k
  · rw [if_pos hj] at h
    obtain ⟨x, hx, e⟩ := Option.map_eq_some_iff.1 h
    exact ⟨x, hx, .inr ⟨hj, e.symm⟩⟩
  · rw [if_neg hj] at h
    exact ⟨x', h, .inl rfl⟩

theorem wf_links_upd {db : Db} (h : WF db) (l : Nat) (f : Link → Link) (hf : ∀ x, (f x).neigh = x.neigh ∧ (f x).ifc = x.ifc) :
    WF { db with links := db.links.upd l f } := by
  refine wf_links h _ (keys_upd _ _ _) ?_
  intro j x' hx'
  obtain ⟨x, hx, e⟩ := get_upd_some hx'
  refine ⟨x, hx, ?_⟩
  rcases e with e | ⟨_, e⟩
  · rw [e]
    exact ⟨rfl, rfl⟩
  · rw [e]
    exact hf x

/-! ### Operations -/

theorem neighAdd_ok {db : Db} (h : WF db) :
    WF (neighAdd db).1 ∧ (∀ j, (neighAdd db).1.neighs.get j = if j = db.next then some ⟨none, 0, 0⟩ else db.neighs.get j) := by
  have hn : db.neighs.get db.next = none := by
    cases hg : db.neighs.get db.next with
    | none => rfl
    | some x => exact absurd (h.freshN _ (by rw [hg]; simp)) (Nat.lt_irrefl _)
  have hget : ∀ j, (neighAdd db).1.neighs.get j = if j = db.next then some ⟨none, 0, 0⟩ else db.neighs.get j :=
    fun j => get_add _ _ _ _ hn
  have hp : ∀ j, db.neighs.get j ≠ none → (neighAdd db).1.neighs.get j ≠ none := by
    intro j hj
    rw [hget]
    split
    · simp
    · exact hj
  refine ⟨?_, hget⟩
  exact
    { nodupN := nodup_add _ _ _ h.nodupN hn
      nodupL := h.nodupL
      nodupA := h.nodupA
      nodupB := h.nodupB
      freshN := fun k hk => by
        rw [hget] at hk
        show k < db.next + 1
        by_cases e : k = db.next
        · omega
        · rw [if_neg e] at hk
          have := h.freshN k hk
          omega
      freshL := fun k hk => Nat.lt_succ_of_lt (h.freshL k hk)
      linkNeigh := fun l x hx => hp _ (h.linkNeigh l x hx)
      naddrNeigh := fun a x hx => hp _ (h.naddrNeigh a x hx)
      laddrLink := h.laddrLink
      npart := fun a b hab => by
        obtain ⟨q1, q2, q3⟩ := h.npart a b hab
        exact ⟨q1, mem_keys.2 (hp _ (mem_keys.1 q2)), mem_keys.2 (hp _ (mem_keys.1 q3))⟩
      lpart := h.lpart }

theorem linkAdd_ok {db : Db} (h : WF db) {n : Nat} (hn : db.neighs.get n ≠ none) (ifc : Nat) :
    ∃ db', linkAdd db n ifc = some (db', db.next) ∧ WF db' ∧
      db' = { db with links := db.links.add db.next ⟨n, ifc, .lost, 0⟩, next := db.next + 1 } ∧
      ∀ j, db'.links.get j = if j = db.next then some ⟨n, ifc, .lost, 0⟩ else db.links.get j := by
  have hl : db.links.get db.next = none := by
    cases hg : db.links.get db.next with
    | none => rfl
    | some x => exact absurd (h.freshL _ (by rw [hg]; simp)) (Nat.lt_irrefl _)
  have hget : ∀ j, (db.links.add db.next ⟨n, ifc, .lost, 0⟩).get j = if j = db.next then some ⟨n, ifc, .lost, 0⟩ else db.links.get j :=
    fun j => get_add _ _ _ _ hl
  have hp : ∀ j, db.links.get j ≠ none → (db.links.add db.next ⟨n, ifc, .lost, 0⟩).get j ≠ none := by
    intro j hj
    rw [hget]
    split
    · simp
    · exact hj
  obtain ⟨x, hx⟩ := Option.ne_none_iff_exists'.1 hn
  refine ⟨{ db with links := db.links.add db.next ⟨n, ifc, .lost, 0⟩, next := db.next + 1 }, by unfold linkAdd; rw [hx], ?_, rfl, hget⟩
  exact
    { nodupN := h.nodupN
      nodupL := nodup_add _ _ _ h.nodupL hl
      nodupA := h.nodupA
      nodupB := h.nodupB
      freshN := fun k hk => Nat.lt_succ_of_lt (h.freshN k hk)
      freshL := fun k hk => by
        show k < db.next + 1
        have hk : (db.links.add db.next ⟨n, ifc, .lost, 0⟩).get k ≠ none := hk
        rw [hget] at hk
        by_cases e : k = db.next
        · omega
        · rw [if_neg e] at hk
          have := h.freshL k hk
          omega
      linkNeigh := fun l x hx => by
        have hx : (db.links.add db.next ⟨n, ifc, .lost, 0⟩).get l = some x := hx
        rw [hget] at hx
        by_cases e : l = db.next
        · rw [if_pos e] at hx
          injection hx with hx
          rw [← hx]
          exact hn
        · rw [if_neg e] at hx
          exact h.linkNeigh l x hx
      naddrNeigh := h.naddrNeigh
      laddrLink := fun k x hx => by
        obtain ⟨l, hl1, hl2⟩ := h.laddrLink k x hx
        refine ⟨l, ?_, hl2⟩
        show (db.links.add db.next ⟨n, ifc, .lost, 0⟩).get x.link = some l
        rw [hget, if_neg]
        · exact hl1
        · intro e
          rw [e, hl] at hl1
          cases hl1
      npart := h.npart
      lpart := fun a b hab => by
        obtain ⟨q1, q2, q3⟩ := h.lpart a b hab
        exact ⟨q1, mem_keys.2 (hp _ (mem_keys.1 q2)), mem_keys.2 (hp _ (mem_keys.1 q3))⟩ }

theorem linkRemove_ok {db : Db} (h : WF db) {l : Nat} (hl : db.links.get l ≠ none) :
    ∃ lp, linkRemove db l = some { db with lpart := lp, laddrs := db.laddrs.delWhere fun _ a => decide (a.link = l), links := db.links.del l } ∧
      WF { db with lpart := lp, laddrs := db.laddrs.delWhere fun _ a => decide (a.link = l), links := db.links.del l } := by
  obtain ⟨lnk, hlnk⟩ := Option.ne_none_iff_exists'.1 hl
  obtain ⟨lp, e, d, g, f⟩ := disconnect_ok h.lpart (mem_keys.2 hl)
  obtain ⟨n, hn⟩ := Option.ne_none_iff_exists'.1 (h.linkNeigh l lnk hlnk)
  refine ⟨lp, by unfold linkRemove; rw [hlnk]; dsimp only; rw [e]; dsimp only; rw [hn], ?_⟩
  have hget : ∀ j, (db.links.del l).get j = if j = l then none else db.links.get j := fun j => get_del _ _ _
  exact
    { nodupN := h.nodupN
      nodupL := nodup_del _ _ h.nodupL
      nodupA := h.nodupA
      nodupB := nodup_delWhere db.laddrs (fun _ a => decide (a.link = l)) h.nodupB
      freshN := h.freshN
      freshL := fun k hk => by
        refine h.freshL k ?_
        intro e
        refine hk ?_
        show (db.links.del l).get k = none
        rw [hget, e]
        split <;> rfl
      linkNeigh := fun j x hx => by
        have hx : (db.links.del l).get j = some x := hx
        rw [hget] at hx
        by_cases e : j = l
        · rw [if_pos e] at hx
          cases hx
        · rw [if_neg e] at hx
          exact h.linkNeigh j x hx
      naddrNeigh := h.naddrNeigh
      laddrLink := fun k x hx => by
        have hx : (db.laddrs.delWhere fun _ a => decide (a.link = l)).get k = some x := hx
        rw [get_delWhere _ h.nodupB] at hx
        cases hg : db.laddrs.get k with
        | none =>
          rw [hg] at hx
          cases hx
        | some y =>
          rw [hg] at hx
          dsimp only at hx
          by_cases e : y.link = l
          · rw [if_pos (by simpa using e)] at hx
            cases hx
          · rw [if_neg (by simpa using e)] at hx
            injection hx with hx
            subst hx
            obtain ⟨z, hz, hz2⟩ := h.laddrLink k y hg
            refine ⟨z, ?_, hz2⟩
            show (db.links.del l).get y.link = some z
            rw [hget, if_neg e]
            exact hz
      npart := h.npart
      lpart := fun a b hab => by
        obtain ⟨q1, q2, q3⟩ := d a b hab
        have hal : a ≠ l := fun e => by rw [e, g] at hab; cases hab
        have hbl : b ≠ l := fun e => by rw [e, g] at q1; cases q1
        refine ⟨q1, mem_keys.2 ?_, mem_keys.2 ?_⟩
        · show (db.links.del l).get a ≠ none
          rw [hget, if_neg hal]
          exact mem_keys.1 q2
        · show (db.links.del l).get b ≠ none
          rw [hget, if_neg hbl]
          exact mem_keys.1 q3 }

theorem linksRemove_ok (ls : List Nat) : ∀ {db : Db}, WF db → ls.Nodup → (∀ l ∈ ls, db.links.get l ≠ none) →
    ∃ db', linksRemove db ls = some db' ∧ WF db' ∧ db'.neighs = db.neighs ∧ db'.naddrs = db.naddrs ∧ db'.npart = db.npart ∧
      db'.next = db.next ∧ (∀ k la, db'.laddrs.get k = some la → db.laddrs.get k = some la) ∧
      ∀ j, db'.links.get j = if j ∈ ls then none else db.links.get j := by
  induction ls with
  | nil =>
    intro db h _ _
    exact ⟨db, rfl, h, rfl, rfl, rfl, rfl, fun _ _ h => h, fun j => by rw [if_neg (by simp)]⟩
  | cons l ls ih =>
    intro db h hnd hall
    rw [List.nodup_cons] at hnd
    obtain ⟨lp, e, hwf⟩ := linkRemove_ok h (hall l (List.mem_cons_self ..))
    have hget : ∀ j, (db.links.del l).get j = if j = l then none else db.links.get j := fun j => get_del _ _ _
    obtain ⟨db', e', hwf', p1, p2, p3, p4, p6, p5⟩ := ih hwf hnd.2 (by
      intro j hj
      show (db.links.del l).get j ≠ none
      rw [hget, if_neg]
      · exact hall j (List.mem_cons_of_mem _ hj)
      · intro ej
        rw [ej] at hj
        exact hnd.1 hj)
    refine ⟨db', by unfold linksRemove; rw [e]; exact e', hwf', p1, p2, p3, p4, ?_, fun j => ?_⟩
    · intro k la hla
      have hla : (db.laddrs.delWhere fun _ a => decide (a.link = l)).get k = some la := p6 k la hla
      rw [get_delWhere _ h.nodupB] at hla
      cases hg : db.laddrs.get k with
      | none =>
        rw [hg] at hla
        cases hla
      | some y =>
        rw [hg] at hla
        dsimp only at hla
        split at hla
        · cases hla
        · exact hla
    rw [p5]
    show (if j ∈ ls then none else (db.links.del l).get j) = _
    rw [hget]
    by_cases hj : j ∈ ls
    · rw [if_pos hj, if_pos (List.mem_cons_of_mem _ hj)]
    · rw [if_neg hj]
      by_cases hjl : j = l
      · rw [if_pos hjl, if_pos (by rw [hjl]; exact List.mem_cons_self ..)]
      · rw [if_neg hjl, if_neg]
        rw [List.mem_cons]
        rintro (h | h)
        · exact hjl h
        · exact hj h

theorem mem_linksOf {db : Db} {n l : Nat} : l ∈ linksOf db n ↔ ∃ x, db.links.get l = some x ∧ x.neigh = n := by
  unfold linksOf
  rw [List.mem_filter, mem_keys]
  cases hg : db.links.get l with
  | none => simp
  | some x => simp

theorem neighRemove_ok {db : Db} (h : WF db) {n : Nat} (hn : db.neighs.get n ≠ none) :
    ∃ db', neighRemove db n = some db' ∧ WF db' ∧ db'.neighs = db.neighs.del n ∧
      db'.naddrs = (db.naddrs.delWhere fun _ a => decide (a.neigh = n)) ∧ db'.next = db.next ∧
      (∀ k la, db'.laddrs.get k = some la → db.laddrs.get k = some la) ∧
      ∀ j, db'.links.get j = if j ∈ linksOf db n then none else db.links.get j := by
  obtain ⟨x, hx⟩ := Option.ne_none_iff_exists'.1 hn
  obtain ⟨np, e, d, g, f⟩ := disconnect_ok h.npart (mem_keys.2 hn)
  obtain ⟨db1, e1, w1, p1, p2, p3, p4, p6, p5⟩ := linksRemove_ok (linksOf db n) (wf_npart h np d)
    (h.nodupL.sublist List.filter_sublist) (by
      intro l hl
      obtain ⟨x, hx, _⟩ := mem_linksOf.1 hl
      show db.links.get l ≠ none
      rw [hx]
      simp)
  have p1 : db1.neighs = db.neighs := p1
  have p2 : db1.naddrs = db.naddrs := p2
  have p3 : db1.npart = np := p3
  have p4 : db1.next = db.next := p4
  have p5 : ∀ j, db1.links.get j = if j ∈ linksOf db n then none else db.links.get j := p5
  have hget : ∀ j, (db1.neighs.del n).get j = if j = n then none else db1.neighs.get j := fun j => get_del _ _ _
  refine ⟨{ db1 with naddrs := db1.naddrs.delWhere fun _ a => decide (a.neigh = n), neighs := db1.neighs.del n }, ?_, ?_, by rw [p1], by rw [p2], p4, p6, p5⟩
  · unfold neighRemove
    rw [hx]
    dsimp only
    rw [e]
    dsimp only
    rw [e1]
  · exact
      { nodupN := nodup_del _ _ w1.nodupN
        nodupL := w1.nodupL
        nodupA := nodup_delWhere db1.naddrs (fun _ a => decide (a.neigh = n)) w1.nodupA
        nodupB := w1.nodupB
        freshN := fun k hk => by
          refine w1.freshN k ?_
          intro e
          refine hk ?_
          show (db1.neighs.del n).get k = none
          rw [hget, e]
          split <;> rfl
        freshL := w1.freshL
        linkNeigh := fun l y hy => by
          have hy : db1.links.get l = some y := hy
          show (db1.neighs.del n).get y.neigh ≠ none
          rw [hget, if_neg]
          · exact w1.linkNeigh l y hy
          · intro ey
            rw [p5] at hy
            by_cases hm : l ∈ linksOf db n
            · rw [if_pos hm] at hy
              cases hy
            · rw [if_neg hm] at hy
              exact hm (mem_linksOf.2 ⟨y, hy, ey⟩)
        naddrNeigh := fun a y hy => by
          have hy : (db1.naddrs.delWhere fun _ a => decide (a.neigh = n)).get a = some y := hy
          rw [get_delWhere _ w1.nodupA] at hy
          show (db1.neighs.del n).get y.neigh ≠ none
          cases hg : db1.naddrs.get a with
          | none =>
            rw [hg] at hy
            cases hy
          | some z =>
            rw [hg] at hy
            dsimp only at hy
            by_cases ez : z.neigh = n
            · rw [if_pos (by simpa using ez)] at hy
              cases hy
            · rw [if_neg (by simpa using ez)] at hy
              injection hy with hy
              subst hy
              rw [hget, if_neg ez]
              exact w1.naddrNeigh a z hg
        laddrLink := w1.laddrLink
        npart := fun a b hab => by
          have hab : db1.npart.get a = some b := hab
          rw [p3] at hab
          show db1.npart.get b = some a ∧ a ∈ (db1.neighs.del n).keys ∧ b ∈ (db1.neighs.del n).keys
          rw [p3]
          obtain ⟨q1, q2, q3⟩ := d a b hab
          have han : a ≠ n := fun e => by rw [e, g] at hab; cases hab
          have hbn : b ≠ n := fun e => by rw [e, g] at q1; cases q1
          refine ⟨q1, mem_keys.2 ?_, mem_keys.2 ?_⟩
          · rw [hget, if_neg han, p1]
            exact mem_keys.1 q2
          · rw [hget, if_neg hbn, p1]
            exact mem_keys.1 q3
        lpart := w1.lpart }

theorem symStep_ok {db : Db} (h : WF db) (n : Nat) (f : Neigh → Neigh) (c : Prop) [Decidable c] (p : Addr → NAddr → Bool) (g : NAddr → NAddr)
    (hg : ∀ x, (g x).neigh = x.neigh) :
    WF { db with neighs := db.neighs.upd n f, naddrs := if c then db.naddrs.updWhere p g else db.naddrs } := by
  by_cases hc : c
  · rw [if_pos hc]
    exact wf_naddrs_mark (wf_neighs_upd h n f) p g hg
  · rw [if_neg hc]
    exact wf_neighs_upd h n f

theorem notSymmetric_ok {db : Db} (h : WF db) {l : Nat} {lnk : Link} (hl : db.links.get l = some lnk) :
    ∃ na, notSymmetric db l = some { db with neighs := db.neighs.upd lnk.neigh fun x => { x with sym := x.sym - 1 }, naddrs := na } ∧
      WF { db with neighs := db.neighs.upd lnk.neigh fun x => { x with sym := x.sym - 1 }, naddrs := na } := by
  obtain ⟨n, hn⟩ := Option.ne_none_iff_exists'.1 (h.linkNeigh l lnk hl)
  refine ⟨if n.sym - 1 = 0 then db.naddrs.updWhere (fun _ a => decide (a.neigh = lnk.neigh)) fun a => { a with lost := true } else db.naddrs,
    by unfold notSymmetric; rw [hl]; dsimp only; rw [hn], symStep_ok h _ _ _ _ _ fun _ => rfl⟩

theorem nowSymmetric_ok {db : Db} (h : WF db) {l : Nat} {lnk : Link} (hl : db.links.get l = some lnk) :
    ∃ na, nowSymmetric db l = some { db with neighs := db.neighs.upd lnk.neigh fun x => { x with sym := x.sym + 1 }, naddrs := na } ∧
      WF { db with neighs := db.neighs.upd lnk.neigh fun x => { x with sym := x.sym + 1 }, naddrs := na } := by
  obtain ⟨n, hn⟩ := Option.ne_none_iff_exists'.1 (h.linkNeigh l lnk hl)
  refine ⟨if n.sym + 1 = 1 then db.naddrs.updWhere (fun _ a => decide (a.neigh = lnk.neigh)) fun a => { a with lost := false } else db.naddrs,
    by unfold nowSymmetric; rw [hl]; dsimp only; rw [hn], symStep_ok h _ _ _ _ _ fun _ => rfl⟩

/-- what a status update changes -/
theorem updateStatus_ok {db : Db} (h : WF db) {l : Nat} {lnk : Link} (hl : db.links.get l = some lnk) (st : Status) :
    ∃ na d, updateStatus db l st = some { db with
        links := db.links.upd l fun x => { x with status := st }
        neighs := db.neighs.upd lnk.neigh fun x => { x with sym := x.sym + d }
        naddrs := na } ∧
      WF { db with
        links := db.links.upd l fun x => { x with status := st }
        neighs := db.neighs.upd lnk.neigh fun x => { x with sym := x.sym + d }
        naddrs := na } ∧
      d = (if st = .symmetric then 1 else 0) - (if lnk.status = .symmetric then 1 else 0) := by
  obtain ⟨n, hn⟩ := Option.ne_none_iff_exists'.1 (h.linkNeigh l lnk hl)
  have w := wf_links_upd h l (fun x => { x with status := st }) fun x => ⟨rfl, rfl⟩
  have hl' : (db.links.upd l fun x => { x with status := st }).get l = some { lnk with status := st } := by
    rw [get_upd, if_pos rfl, hl]
    rfl
  have hzero : ∀ m : Map Nat Neigh, (m.upd lnk.neigh fun x => { x with sym := x.sym + 0 }) = m := by
    intro m
    unfold Map.upd
    conv => rhs; rw [← List.map_id m]
    apply List.map_congr_left
    intro x _
    split
    · simp
    · rfl
  unfold updateStatus
  rw [hl]
  dsimp only
  rw [hn]
  dsimp only
  by_cases h1 : lnk.status = .symmetric
  · by_cases h2 : st = .symmetric
    · refine ⟨db.naddrs, 0, ?_, ?_, by rw [if_pos h2, if_pos h1]; rfl⟩
      · rw [if_neg (fun h => h.2 h2), if_neg (fun h => h.1 h1), hzero]
      · rw [hzero]
        exact w
    · obtain ⟨na, e, hw⟩ := notSymmetric_ok w hl'
      refine ⟨na, -1, ?_, ?_, by rw [if_neg h2, if_pos h1]; rfl⟩
      · rw [if_pos ⟨h1, h2⟩]
        exact e
      · exact hw
  · by_cases h2 : st = .symmetric
    · obtain ⟨na, e, hw⟩ := nowSymmetric_ok w hl'
      refine ⟨na, 1, ?_, ?_, by rw [if_pos h2, if_neg h1]; rfl⟩
      · rw [if_neg (fun h => h1 h.1), if_pos ⟨h1, h2⟩]
        exact e
      · exact hw
    · refine ⟨db.naddrs, 0, ?_, ?_, by rw [if_neg h2, if_neg h1]; rfl⟩
      · rw [if_neg (fun h => h1 h.1), if_neg (fun h => h2 h.2), hzero]
      · rw [hzero]
        exact w

theorem setOriginator_ok {db : Db} {n : Nat} (hn : db.neighs.get n ≠ none) (o : Option Addr) :
    ∃ m, setOriginator db n o = some { db with neighs := m } ∧ m.keys = db.neighs.keys ∧
      ∀ j x', m.get j = some x' → ∃ x, db.neighs.get j = some x ∧ x'.sym = x.sym ∧ x'.count = x.count := by
  obtain ⟨x, hx⟩ := Option.ne_none_iff_exists'.1 hn
  unfold setOriginator
  rw [hx]
  dsimp only
  by_cases ho : x.orig = o
  · rw [if_pos ho]
    exact ⟨db.neighs, rfl, rfl, fun j x' h => ⟨x', h, rfl, rfl⟩⟩
  · rw [if_neg ho]
    have key : ∀ (m : Map Nat Neigh) (k : Nat) (v : Option Addr), (∀ j x', m.get j = some x' → ∃ x, db.neighs.get j = some x ∧ x'.sym = x.sym ∧ x'.count = x.count) →
        ∀ j x', (m.upd k fun x => { x with orig := v }).get j = some x' → ∃ x, db.neighs.get j = some x ∧ x'.sym = x.sym ∧ x'.count = x.count := by
      intro m k v hm j x' hx'
      obtain ⟨y, hy, e⟩ := get_upd_some hx'
      obtain ⟨z, hz, e2⟩ := hm j y hy
      refine ⟨z, hz, ?_⟩
      rcases e with e | ⟨_, e⟩
      · rw [e]; exact e2
      · rw [e]; exact e2
    generalize holder _ o = other
    cases other with
    | none =>
      refine ⟨_, rfl, by rw [keys_upd]; unfold clearHolder; rw [keys_upd], ?_⟩
      exact key _ _ _ (key _ _ _ fun j x' h => ⟨x', h, rfl, rfl⟩)
    | some n2 =>
      refine ⟨_, rfl, by rw [keys_upd]; unfold clearHolder; rw [keys_upd, keys_upd], ?_⟩
      exact key _ _ _ (key _ _ _ (key _ _ _ fun j x' h => ⟨x', h, rfl, rfl⟩))

end Verif.Nhdp
