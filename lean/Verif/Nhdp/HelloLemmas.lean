import Verif.Nhdp.Wf

namespace Verif.Nhdp
open Map (get_upd get_del get_add mem_keys keys_upd keys_updWhere get_updWhere get_delWhere nodup_del nodup_delWhere nodup_add findKey_some)

/-! ### First pass -/

/-- the first pass only changes counters: `d'` has the addresses, partners and objects of `d` -/
structure SameDb (d d' : Db) : Prop where
  naddrs : d'.naddrs = d.naddrs
  laddrs : d'.laddrs = d.laddrs
  npart : d'.npart = d.npart
  lpart : d'.lpart = d.lpart
  next : d'.next = d.next
  keysN : d'.neighs.keys = d.neighs.keys
  keysL : d'.links.keys = d.links.keys
  neighs : ∀ n x', d'.neighs.get n = some x' → ∃ x, d.neighs.get n = some x ∧ x'.sym = x.sym
  links : ∀ l x', d'.links.get l = some x' → ∃ x, d.links.get l = some x ∧ x'.neigh = x.neigh ∧ x'.ifc = x.ifc ∧ x'.status = x.status

theorem SameDb.refl (d : Db) : SameDb d d := ⟨rfl, rfl, rfl, rfl, rfl, rfl, rfl, fun _ x' h => ⟨x', h, rfl⟩, fun _ x' h => ⟨x', h, rfl, rfl, rfl⟩⟩

theorem SameDb.trans {a b c : Db} (h : SameDb a b) (h' : SameDb b c) : SameDb a c where
  naddrs := h'.naddrs.trans h.naddrs
  laddrs := h'.laddrs.trans h.laddrs
  npart := h'.npart.trans h.npart
  lpart := h'.lpart.trans h.lpart
  next := h'.next.trans h.next
  keysN := h'.keysN.trans h.keysN
  keysL := h'.keysL.trans h.keysL
  neighs := fun l x' hx' => by
    obtain ⟨y, hy, e1⟩ := h'.neighs l x' hx'
    obtain ⟨x, hx, e4⟩ := h.neighs l y hy
    exact ⟨x, hx, e1.trans e4⟩
  links := fun l x' hx' => by
    obtain ⟨y, hy, e1, e2, e3⟩ := h'.links l x' hx'
    obtain ⟨x, hx, e4, e5, e6⟩ := h.links l y hy
    exact ⟨x, hx, e1.trans e4, e2.trans e5, e3.trans e6⟩

theorem SameDb.wf {d d' : Db} (h : SameDb d d') (w : WF d) : WF d' := by
  have w1 := wf_links (wf_neighs w d'.neighs h.keysN) d'.links h.keysL fun l x' hx' => by
    obtain ⟨x, hx, e1, e2, _⟩ := h.links l x' hx'
    exact ⟨x, hx, e1, e2⟩
  have e : d' = { { d with neighs := d'.neighs } with links := d'.links } := by
    obtain ⟨h1, h2, h3, h4, h5, _, _, _, _⟩ := h
    cases d
    cases d'
    dsimp only at h1 h2 h3 h4 h5
    subst h1 h2 h3 h4 h5
    rfl
  rw [e]
  exact w1

theorem same_neighs (d : Db) (m : Map Nat Neigh) (hk : m.keys = d.neighs.keys)
    (hm : ∀ n x', m.get n = some x' → ∃ x, d.neighs.get n = some x ∧ x'.sym = x.sym) : SameDb d { d with neighs := m } :=
  ⟨rfl, rfl, rfl, rfl, rfl, hk, rfl, hm, fun _ x' h => ⟨x', h, rfl, rfl, rfl⟩⟩

theorem same_links_upd (d : Db) (l : Nat) (f : Link → Link) (hf : ∀ x, (f x).neigh = x.neigh ∧ (f x).ifc = x.ifc ∧ (f x).status = x.status) :
    SameDb d { d with links := d.links.upd l f } := by
  refine ⟨rfl, rfl, rfl, rfl, rfl, rfl, keys_upd _ _ _, fun _ x' h => ⟨x', h, rfl⟩, fun j x' h => ?_⟩
  obtain ⟨x, hx, e⟩ := get_upd_some h
  refine ⟨x, hx, ?_⟩
  rcases e with e | ⟨_, e⟩
  · rw [e]; exact ⟨rfl, rfl, rfl⟩
  · rw [e]; exact hf x

theorem same_resetCounts (d : Db) (ifc : Nat) : SameDb d (resetCounts d ifc) := by
  refine ⟨rfl, rfl, rfl, rfl, rfl, by unfold resetCounts; dsimp only; rw [keys_updWhere], by unfold resetCounts; dsimp only; rw [keys_updWhere], ?_, fun j x' h => ?_⟩
  · intro n x' h
    have h : (d.neighs.updWhere (fun _ _ => true) fun n => { n with count := 0 }).get n = some x' := h
    rw [get_updWhere] at h
    obtain ⟨y, hy, e⟩ := Option.map_eq_some_iff.1 h
    refine ⟨y, hy, ?_⟩
    rw [← e]
    rfl
  have h : (d.links.updWhere (fun _ l => decide (l.ifc = ifc)) fun l => { l with count := 0 }).get j = some x' := h
  rw [get_updWhere] at h
  obtain ⟨y, hy, e⟩ := Option.map_eq_some_iff.1 h
  refine ⟨y, hy, ?_⟩
  rw [← e]
  split <;> exact ⟨rfl, rfl, rfl⟩

/-- what is known about `_current` after some addresses -/
structure P1 (d : Db) (ifc : Nat) (es : List Entry) (c : Current) : Prop where
  /-- without conflict all listed known addresses belong to the current neighbor -/
  same : c.naddrConflict = false → ∀ e ∈ es, e.localIf ≠ none → ∀ na, d.naddrs.get e.addr = some na → c.neigh = some na.neigh
  found : ∀ n, c.neigh = some n → ∃ e ∈ es, e.localIf ≠ none ∧ ∃ na, d.naddrs.get e.addr = some na ∧ na.neigh = n
  conflict : c.naddrConflict = true → ∃ e ∈ es, ∃ f ∈ es, e.localIf ≠ none ∧ f.localIf ≠ none ∧
    ∃ na nb, d.naddrs.get e.addr = some na ∧ d.naddrs.get f.addr = some nb ∧ na.neigh ≠ nb.neigh
  link : ∀ l, c.link = some l → ∃ e ∈ es, e.localIf = some true ∧ ∃ la, d.laddrs.get (ifc, e.addr) = some la ∧ la.link = l
  thisif : c.hasThisif = true ↔ ∃ e ∈ es, e.localIf = some true
  lsame : c.laddrConflict = false → ∀ e ∈ es, e.localIf = some true → ∀ la, d.laddrs.get (ifc, e.addr) = some la → c.link = some la.link
  lconflict : c.laddrConflict = true → ∃ e ∈ es, ∃ f ∈ es, e.localIf = some true ∧ f.localIf = some true ∧
    ∃ la lb, d.laddrs.get (ifc, e.addr) = some la ∧ d.laddrs.get (ifc, f.addr) = some lb ∧ la.link ≠ lb.link

theorem p1_init (d : Db) (ifc : Nat) : P1 d ifc [] ⟨none, none, false, false, false, false⟩ where
  same _ e he := absurd he List.not_mem_nil
  found _ h := by cases h
  conflict h := by cases h
  link _ h := by cases h
  thisif := by simp
  lsame _ e he := absurd he List.not_mem_nil
  lconflict h := by cases h

/-- the neighbor part of `_current` -/
def nstep (d : Db) (c : Current) (e : Entry) : Current :=
  if e.localIf = none then c
  else
    match d.naddrs.get e.addr with
    | none => c
    | some na =>
      if c.naddrConflict then c
      else if c.neigh = none then { c with neigh := some na.neigh }
      else if c.neigh ≠ some na.neigh then { c with neigh := none, naddrConflict := true }
      else c

def lstep (d : Db) (ifc : Nat) (c : Current) (e : Entry) : Current :=
  if e.localIf ≠ some true then c
  else
    match d.laddrs.get (ifc, e.addr) with
    | none => { c with hasThisif := true }
    | some la =>
      if c.laddrConflict then { c with hasThisif := true }
      else if c.link = none then { c with hasThisif := true, link := some la.link }
      else if c.link ≠ some la.link then { c with hasThisif := true, link := none, laddrConflict := true }
      else { c with hasThisif := true }

theorem nstep_frame (d : Db) (c : Current) (e : Entry) : (nstep d c e).link = c.link ∧ (nstep d c e).laddrConflict = c.laddrConflict ∧
    (nstep d c e).hasThisif = c.hasThisif := by
  unfold nstep
  split
  · exact ⟨rfl, rfl, rfl⟩
  · split
    · exact ⟨rfl, rfl, rfl⟩
    · split
      · exact ⟨rfl, rfl, rfl⟩
      · split
        · exact ⟨rfl, rfl, rfl⟩
        · split <;> exact ⟨rfl, rfl, rfl⟩

theorem lstep_frame (d : Db) (ifc : Nat) (c : Current) (e : Entry) : (lstep d ifc c e).neigh = c.neigh ∧ (lstep d ifc c e).naddrConflict = c.naddrConflict := by
  unfold lstep
  split
  · exact ⟨rfl, rfl⟩
  · split
    · exact ⟨rfl, rfl⟩
    · split
      · exact ⟨rfl, rfl⟩
      · split
        · exact ⟨rfl, rfl⟩
        · split <;> exact ⟨rfl, rfl⟩

/-- the two parts of the first pass never fail and compute these steps -/
theorem pass1Neigh_ok {d0 d : Db} (hs : SameDb d0 d) (w : WF d) (c : Current) (e : Entry) :
    ∃ d', pass1Neigh d c e = some (d', nstep d0 c e) ∧ SameDb d0 d' := by
  unfold pass1Neigh nstep
  by_cases h1 : e.localIf = none
  · rw [if_pos h1, if_pos h1]
    exact ⟨d, rfl, hs⟩
  · rw [if_neg h1, if_neg h1, ← hs.naddrs]
    cases h2 : d.naddrs.get e.addr with
    | none => exact ⟨d, rfl, hs⟩
    | some na =>
      obtain ⟨x, hx⟩ := Option.ne_none_iff_exists'.1 (w.naddrNeigh _ _ h2)
      dsimp only
      rw [hx]
      refine ⟨_, rfl, hs.trans (same_neighs d _ (keys_upd _ _ _) ?_)⟩
      intro n x' hx'
      obtain ⟨y, hy, e⟩ := get_upd_some hx'
      refine ⟨y, hy, ?_⟩
      rcases e with e | ⟨_, e⟩ <;> rw [e]

theorem pass1Link_ok {d0 d : Db} (hs : SameDb d0 d) (w : WF d) (ifc : Nat) (c : Current) (e : Entry) :
    ∃ d', pass1Link d ifc c e = some (d', lstep d0 ifc c e) ∧ SameDb d0 d' := by
  unfold pass1Link lstep
  by_cases h1 : e.localIf ≠ some true
  · rw [if_pos h1, if_pos h1]
    exact ⟨d, rfl, hs⟩
  · rw [if_neg h1, if_neg h1, ← hs.laddrs]
    cases h2 : d.laddrs.get (ifc, e.addr) with
    | none => exact ⟨d, rfl, hs⟩
    | some la =>
      obtain ⟨x, hx, _⟩ := w.laddrLink _ _ h2
      dsimp only
      rw [hx]
      exact ⟨_, rfl, hs.trans (same_links_upd d _ _ fun _ => ⟨rfl, rfl, rfl⟩)⟩

theorem p1_orig {d : Db} {ifc : Nat} {es : List Entry} {c : Current} (h : P1 d ifc es c) (b : Bool) : P1 d ifc es { c with origInBlock := b } :=
  ⟨h.same, h.found, h.conflict, h.link, h.thisif, h.lsame, h.lconflict⟩

theorem nstep_p1 {d : Db} {ifc : Nat} {es : List Entry} {c : Current} (h : P1 d ifc es c) (e : Entry) :
    ((nstep d c e).naddrConflict = false → ∀ f ∈ es ++ [e], f.localIf ≠ none → ∀ na, d.naddrs.get f.addr = some na → (nstep d c e).neigh = some na.neigh) ∧
    (∀ n, (nstep d c e).neigh = some n → ∃ f ∈ es ++ [e], f.localIf ≠ none ∧ ∃ na, d.naddrs.get f.addr = some na ∧ na.neigh = n) ∧
    ((nstep d c e).naddrConflict = true → ∃ f ∈ es ++ [e], ∃ g ∈ es ++ [e], f.localIf ≠ none ∧ g.localIf ≠ none ∧
      ∃ na nb, d.naddrs.get f.addr = some na ∧ d.naddrs.get g.addr = some nb ∧ na.neigh ≠ nb.neigh) := by
  have hold : (∀ n, c.neigh = some n → ∃ f ∈ es ++ [e], f.localIf ≠ none ∧ ∃ na, d.naddrs.get f.addr = some na ∧ na.neigh = n) := by
    intro n hn
    obtain ⟨f, hf, h1⟩ := h.found n hn
    exact ⟨f, List.mem_append_left _ hf, h1⟩
  have holdc : c.naddrConflict = true → ∃ f ∈ es ++ [e], ∃ g ∈ es ++ [e], f.localIf ≠ none ∧ g.localIf ≠ none ∧
      ∃ na nb, d.naddrs.get f.addr = some na ∧ d.naddrs.get g.addr = some nb ∧ na.neigh ≠ nb.neigh := by
    intro hc
    obtain ⟨f, hf, g, hg, h1⟩ := h.conflict hc
    exact ⟨f, List.mem_append_left _ hf, g, List.mem_append_left _ hg, h1⟩
  have hmem : ∀ {P : Entry → Prop}, (∀ f ∈ es, P f) → P e → ∀ f ∈ es ++ [e], P f := by
    intro P h1 h2 f hf
    rcases List.mem_append.1 hf with hf | hf
    · exact h1 f hf
    · rw [List.mem_singleton] at hf
      rw [hf]
      exact h2
  unfold nstep
  by_cases h1 : e.localIf = none
  · rw [if_pos h1]
    exact ⟨fun hc => hmem (h.same hc) fun h2 => absurd h1 h2, hold, holdc⟩
  · rw [if_neg h1]
    cases h2 : d.naddrs.get e.addr with
    | none =>
      dsimp only
      exact ⟨fun hc => hmem (h.same hc) fun _ na hna => (by rw [h2] at hna; cases hna), hold, holdc⟩
    | some na =>
      dsimp only
      have hme : e ∈ es ++ [e] := List.mem_append_right _ (List.mem_singleton.2 rfl)
      by_cases h3 : c.naddrConflict = true
      · rw [if_pos h3]
        exact ⟨fun hc => (by rw [h3] at hc; cases hc), hold, holdc⟩
      · rw [if_neg h3]
        have h3' : c.naddrConflict = false := by simpa using h3
        by_cases h4 : c.neigh = none
        · rw [if_pos h4]
          refine ⟨fun _ => hmem ?_ ?_, ?_, holdc⟩
          · intro f hf hl na' hna'
            have := h.same h3' f hf hl na' hna'
            rw [h4] at this
            cases this
          · intro _ na' hna'
            rw [h2] at hna'
            injection hna' with hna'
            rw [hna']
          · intro n hn
            injection hn with hn
            exact ⟨e, hme, h1, na, h2, hn⟩
        · rw [if_neg h4]
          by_cases h5 : c.neigh ≠ some na.neigh
          · rw [if_pos h5]
            refine ⟨fun hc => (by cases hc), fun n hn => (by cases hn), fun _ => ?_⟩
            obtain ⟨m, hm⟩ := Option.ne_none_iff_exists'.1 h4
            obtain ⟨f, hf, hl, na', hna', e'⟩ := hold m hm
            refine ⟨f, hf, e, hme, hl, h1, na', na, hna', h2, ?_⟩
            rw [e']
            intro em
            rw [hm, em] at h5
            exact h5 rfl
          · rw [if_neg h5]
            have h5 : c.neigh = some na.neigh := by
              by_cases h6 : c.neigh = some na.neigh
              · exact h6
              · exact absurd h6 h5
            refine ⟨fun hc => hmem (h.same hc) ?_, hold, holdc⟩
            intro _ na' hna'
            rw [h2] at hna'
            injection hna' with hna'
            rw [← hna']
            exact h5

theorem lstep_p1 {d : Db} {ifc : Nat} {es : List Entry} {c : Current} (h : P1 d ifc es c) (e : Entry) :
    (∀ l, (lstep d ifc c e).link = some l → ∃ f ∈ es ++ [e], f.localIf = some true ∧ ∃ la, d.laddrs.get (ifc, f.addr) = some la ∧ la.link = l) ∧
    ((lstep d ifc c e).hasThisif = true ↔ ∃ f ∈ es ++ [e], f.localIf = some true) ∧
    ((lstep d ifc c e).laddrConflict = false → ∀ f ∈ es ++ [e], f.localIf = some true → ∀ la, d.laddrs.get (ifc, f.addr) = some la →
      (lstep d ifc c e).link = some la.link) ∧
    ((lstep d ifc c e).laddrConflict = true → ∃ f ∈ es ++ [e], ∃ g ∈ es ++ [e], f.localIf = some true ∧ g.localIf = some true ∧
      ∃ la lb, d.laddrs.get (ifc, f.addr) = some la ∧ d.laddrs.get (ifc, g.addr) = some lb ∧ la.link ≠ lb.link) := by
  have hold : (∀ l, c.link = some l → ∃ f ∈ es ++ [e], f.localIf = some true ∧ ∃ la, d.laddrs.get (ifc, f.addr) = some la ∧ la.link = l) := by
    intro n hn
    obtain ⟨f, hf, h1⟩ := h.link n hn
    exact ⟨f, List.mem_append_left _ hf, h1⟩
  have holdc : c.laddrConflict = true → ∃ f ∈ es ++ [e], ∃ g ∈ es ++ [e], f.localIf = some true ∧ g.localIf = some true ∧
      ∃ la lb, d.laddrs.get (ifc, f.addr) = some la ∧ d.laddrs.get (ifc, g.addr) = some lb ∧ la.link ≠ lb.link := by
    intro hc
    obtain ⟨f, hf, g, hg, h1⟩ := h.lconflict hc
    exact ⟨f, List.mem_append_left _ hf, g, List.mem_append_left _ hg, h1⟩
  have hmem : ∀ {P : Entry → Prop}, (∀ f ∈ es, P f) → P e → ∀ f ∈ es ++ [e], P f := by
    intro P h1 h2 f hf
    rcases List.mem_append.1 hf with hf | hf
    · exact h1 f hf
    · rw [List.mem_singleton] at hf
      rw [hf]
      exact h2
  have hme : e ∈ es ++ [e] := List.mem_append_right _ (List.mem_singleton.2 rfl)
  unfold lstep
  by_cases h1 : e.localIf ≠ some true
  · rw [if_pos h1]
    refine ⟨hold, ?_, fun hc => hmem (h.lsame hc) fun h2 => absurd h2 h1, holdc⟩
    rw [h.thisif]
    constructor
    · rintro ⟨f, hf, hl⟩
      exact ⟨f, List.mem_append_left _ hf, hl⟩
    · rintro ⟨f, hf, hl⟩
      rcases List.mem_append.1 hf with hf | hf
      · exact ⟨f, hf, hl⟩
      · rw [List.mem_singleton] at hf
        rw [hf] at hl
        exact absurd hl h1
  · rw [if_neg h1]
    have h1' : e.localIf = some true := by
      by_cases h6 : e.localIf = some true
      · exact h6
      · exact absurd h6 h1
    have ht : ∃ f ∈ es ++ [e], f.localIf = some true := ⟨e, hme, h1'⟩
    cases h2 : d.laddrs.get (ifc, e.addr) with
    | none =>
      dsimp only
      exact ⟨hold, ⟨fun _ => ht, fun _ => rfl⟩, fun hc => hmem (h.lsame hc) fun _ la hla => (by rw [h2] at hla; cases hla), holdc⟩
    | some la =>
      dsimp only
      by_cases h3 : c.laddrConflict = true
      · rw [if_pos h3]
        refine ⟨hold, ⟨fun _ => ht, fun _ => rfl⟩, fun hc => ?_, holdc⟩
        have hc : c.laddrConflict = false := hc
        rw [h3] at hc
        cases hc
      · rw [if_neg h3]
        have h3' : c.laddrConflict = false := by simpa using h3
        by_cases h4 : c.link = none
        · rw [if_pos h4]
          refine ⟨?_, ⟨fun _ => ht, fun _ => rfl⟩, fun _ => hmem ?_ ?_, holdc⟩
          · intro n hn
            injection hn with hn
            exact ⟨e, hme, h1', la, h2, hn⟩
          · intro f hf hl la' hla'
            have := h.lsame h3' f hf hl la' hla'
            rw [h4] at this
            cases this
          · intro _ la' hla'
            rw [h2] at hla'
            injection hla' with hla'
            rw [hla']
        · rw [if_neg h4]
          by_cases h5 : c.link ≠ some la.link
          · rw [if_pos h5]
            refine ⟨fun n hn => (by cases hn), ⟨fun _ => ht, fun _ => rfl⟩, fun hc => (by cases hc), fun _ => ?_⟩
            obtain ⟨m, hm⟩ := Option.ne_none_iff_exists'.1 h4
            obtain ⟨f, hf, hl, la', hla', e'⟩ := hold m hm
            refine ⟨f, hf, e, hme, hl, h1', la', la, hla', h2, ?_⟩
            rw [e']
            intro em
            rw [hm, em] at h5
            exact h5 rfl
          · rw [if_neg h5]
            have h5 : c.link = some la.link := by
              by_cases h6 : c.link = some la.link
              · exact h6
              · exact absurd h6 h5
            refine ⟨hold, ⟨fun _ => ht, fun _ => rfl⟩, fun hc => hmem (h.lsame hc) ?_, holdc⟩
            intro _ la' hla'
            rw [h2] at hla'
            injection hla' with hla'
            rw [← hla']
            exact h5

theorem pass1_ok {d0 d : Db} (hs : SameDb d0 d) (w : WF d0) (h : Hello) {es : List Entry} {c : Current} (hp : P1 d0 h.ifc es c) (e : Entry) :
    ∃ d' c', pass1 d h c e = some (d', c') ∧ SameDb d0 d' ∧ P1 d0 h.ifc (es ++ [e]) c' := by
  unfold pass1
  dsimp only
  have hp : P1 d0 h.ifc es (if h.orig = some e.addr then { c with origInBlock := true } else c) := by
    split
    · exact p1_orig hp _
    · exact hp
  generalize (if h.orig = some e.addr then { c with origInBlock := true } else c) = c at hp ⊢
  obtain ⟨d1, e1, s1⟩ := pass1Neigh_ok hs (hs.wf w) c e
  obtain ⟨d2, e2, s2⟩ := pass1Link_ok s1 (s1.wf w) h.ifc (nstep d0 c e) e
  rw [e1]
  simp only [Option.bind_some]
  rw [e2]
  refine ⟨_, _, rfl, s2, ?_⟩
  obtain ⟨n1, n2, n3⟩ := nstep_p1 hp e
  obtain ⟨f1, f2, f3⟩ := nstep_frame d0 c e
  obtain ⟨g1, g2⟩ := lstep_frame d0 h.ifc (nstep d0 c e) e
  have hl : lstep d0 h.ifc (nstep d0 c e) e = { lstep d0 h.ifc c e with
      neigh := (nstep d0 c e).neigh, naddrConflict := (nstep d0 c e).naddrConflict, origInBlock := (nstep d0 c e).origInBlock } := by
    clear n1 n2 n3 g1 g2 e2
    generalize nstep d0 c e = c2 at f1 f2 f3 ⊢
    clear hp e1
    cases c
    cases c2
    dsimp only at f1 f2 f3
    subst f1 f2 f3
    unfold lstep
    dsimp only
    split
    · rfl
    · split
      · rfl
      · split
        · rfl
        · split
          · rfl
          · split <;> rfl
  obtain ⟨l1, l2, l3, l4⟩ := lstep_p1 hp e
  rw [hl]
  exact ⟨n1, n2, n3, l1, l2, l3, l4⟩

theorem pass1All_ok {d0 : Db} (w : WF d0) (h : Hello) (es : List Entry) : ∀ {es0 : List Entry} {d : Db} {c : Current}, SameDb d0 d → P1 d0 h.ifc es0 c →
    ∃ d' c', pass1All d h c es = some (d', c') ∧ SameDb d0 d' ∧ P1 d0 h.ifc (es0 ++ es) c' := by
  induction es with
  | nil =>
    intro es0 d c hs hp
    refine ⟨d, c, rfl, hs, ?_⟩
    rw [List.append_nil]
    exact hp
  | cons e es ih =>
    intro es0 d c hs hp
    obtain ⟨d1, c1, e1, s1, p1⟩ := pass1_ok hs w h hp e
    obtain ⟨d2, c2, e2, s2, p2⟩ := ih s1 p1
    unfold pass1All
    rw [e1]
    refine ⟨d2, c2, e2, s2, ?_⟩
    rw [List.append_assoc] at p2
    exact p2

end Verif.Nhdp
