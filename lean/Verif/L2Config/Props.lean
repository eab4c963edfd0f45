import Verif.L2Config.Model

/-! # Properties of configured layer2 data -/

namespace Verif.L2Config

/-! ## Specification -/

/-- the last value with (or without) the flag `overwrite` for a place -/
def lastVal (es : List Entry) (l : Loc) (ov : Bool) : Option Int := ((es.filter fun e => e.loc = l ∧ e.overwrite = ov).getLast?).map (·.val)

/-- values, which are arbitrated; the other places are addresses and destinations -/
def Loc.isData : Loc → Bool
  | .net _ | .dflt _ | .neigh _ _ => true
  | _ => false

/-- belongs to the plugin -/
def Org.own : Org → Bool
  | .other _ => false
  | _ => true

/-- the value a place should have: what `base` (data of someone else) says, unless a configured value has a higher priority -/
def wanted (base : Option Item) (es : List Entry) (l : Loc) : Option Item :=
  let limit := match base with | some i => i.org.prio | none => 0
  match lastVal es l true, lastVal es l false with
  | some v, _ => if base = none ∨ limit < 50 then some ⟨v, .over⟩ else base
  | none, some v => if base = none ∨ limit < 30 then some ⟨v, .conf⟩ else base
  | none, none => base

/-! ## Lemmas -/

theorem put_other (db : Db) (l l' : Loc) (x : Option Item) (h : l ≠ l') : db.put l x l' = db l' := if_neg (fun h' => h h'.symm)

theorem setOne_other (db : Db) (e : Entry) (l : Loc) (h : e.loc ≠ l) : setOne db e l = db l := by
  obtain ⟨loc, v, ov⟩ := e
  cases loc with
  | net i => exact put_other _ _ _ _ h
  | peer i => exact put_other _ _ _ _ h
  | dflt i => exact put_other _ _ _ _ h
  | neigh k i => exact put_other _ _ _ _ h
  | ip k i => exact put_other _ _ _ _ h
  | dest k i =>
    simp only [setOne]
    cases db (.dest k i) with
    | some _ => rfl
    | none => exact put_other _ _ _ _ h

/-- the effect on the place of the entry depends on its old content only -/
theorem setOne_congr (a b : Db) (e : Entry) (h : a e.loc = b e.loc) : setOne a e e.loc = setOne b e e.loc := by
  obtain ⟨loc, v, ov⟩ := e
  cases loc with
  | net i => simp only [setOne, Db.put, if_true]; rw [h]
  | peer i => simp only [setOne, Db.put, if_true]
  | dflt i => simp only [setOne, Db.put, if_true]; rw [h]
  | neigh k i => simp only [setOne, Db.put, if_true]; rw [h]
  | ip k i => simp only [setOne, Db.put, if_true]
  | dest k i =>
    simp only at h
    simp only [setOne, h]
    cases hb : b (.dest k i) with
    | some _ => simp only [h, hb]
    | none => simp only [Db.put, if_true]

theorem setOne_data (db : Db) (e : Entry) (h : e.loc.isData = true) : setOne db e e.loc = arb (db e.loc) e.val e.org := by
  have hp : ∀ x, db.put e.loc x e.loc = x := fun x => if_pos rfl
  unfold setOne
  cases he : e.loc with
  | net i => simp [Db.put]
  | dflt i => simp [Db.put]
  | neigh k i => simp [Db.put]
  | peer a => rw [he] at h; cases h
  | ip k a => rw [he] at h; cases h
  | dest k a => rw [he] at h; cases h

/-- the effect of the entries on one place -/
theorem foldl_loc (es : List Entry) (l : Loc) : ∀ db : Db, es.foldl setOne db l = (es.filter fun e => e.loc = l).foldl setOne db l := by
  have key : ∀ (es : List Entry) (a b : Db), a l = b l → es.foldl setOne a l = (es.filter fun e => e.loc = l).foldl setOne b l := by
    intro es
    induction es with
    | nil => intro a b h; exact h
    | cons e es ih =>
      intro a b h
      by_cases he : e.loc = l
      · simp only [List.foldl_cons, he, decide_true, List.filter_cons_of_pos]
        apply ih
        subst he
        exact setOne_congr a b e h
      · simp only [List.foldl_cons, he, decide_false, Bool.false_eq_true, not_false_eq_true, List.filter_cons_of_neg]
        apply ih
        rw [setOne_other a e l he, h]
  exact fun db => key es db db rfl

theorem foldl_data (l : Loc) (h : l.isData = true) : ∀ (es : List Entry) (_ : ∀ e ∈ es, e.loc = l) (db : Db),
    es.foldl setOne db l = es.foldl (fun x e => arb x e.val e.org) (db l) := by
  intro es
  induction es with
  | nil => intro _ _; rfl
  | cons e es ih =>
    intro he db
    simp only [List.foldl_cons]
    rw [ih (fun x hx => he x (List.mem_cons_of_mem _ hx))]
    have hl := he e (List.mem_cons_self ..)
    subst hl
    rw [setOne_data db e h]

def lastOf (es : List Entry) (ov : Bool) : Option Int := ((es.filter fun e => e.overwrite = ov).getLast?).map (·.val)

theorem lastVal_eq (es : List Entry) (l : Loc) (ov : Bool) : lastVal es l ov = lastOf (es.filter fun e => e.loc = l) ov := by
  unfold lastVal lastOf
  rw [List.filter_filter]
  congr 3
  funext e
  by_cases h : e.loc = l <;> simp [h]

/-- state of a place after some entries, from a start that is empty or old -/
theorem arb_fold (es : List Entry) : ∀ (x : Option Item), es.foldl (fun x e => arb x e.val e.org) x =
    match lastOf es true, lastOf es false with
    | some v, c => (match x with
      | none => some ⟨v, .over⟩
      | some i => if i.org.prio < 50 ∨ i.org = .over then some ⟨v, .over⟩ else
          (match c with
          | some w => if i.org = .conf ∨ i.org.prio < 30 then some ⟨w, .conf⟩ else some i
          | none => some i))
    | none, some w => (match x with
      | none => some ⟨w, .conf⟩
      | some i => if i.org = .conf ∨ i.org.prio < 30 then some ⟨w, .conf⟩ else some i)
    | none, none => x := by
  induction es with
  | nil => intro x; rfl
  | cons e es ih =>
    intro x
    simp only [List.foldl_cons]
    rw [ih]
    have hT : lastOf (e :: es) true = (lastOf es true).or (if e.overwrite then some e.val else none) := by
      unfold lastOf
      cases ho : e.overwrite
      · simp [List.filter_cons, ho]
      · cases hes : es.filter (fun e => e.overwrite = true) with
        | nil => simp only [List.filter_cons, ho, decide_true, if_true, hes]; rfl
        | cons y ys =>
          simp only [List.filter_cons, ho, decide_true, if_true, hes, List.getLast?_cons_cons]
          simp [List.getLast?_cons]
    have hF : lastOf (e :: es) false = (lastOf es false).or (if e.overwrite then none else some e.val) := by
      unfold lastOf
      cases ho : e.overwrite
      · cases hes : es.filter (fun e => e.overwrite = false) with
        | nil => simp only [List.filter_cons, ho, decide_true, if_true, hes]; rfl
        | cons y ys =>
          simp only [List.filter_cons, ho, decide_true, if_true, hes, List.getLast?_cons_cons]
          simp [List.getLast?_cons]
      · simp [List.filter_cons, ho]
    rw [hT, hF]
    have pc : Org.conf.prio = 30 := rfl
    have po : Org.over.prio = 50 := rfl
    cases ho : e.overwrite
    · -- an ordinary entry
      simp only [Entry.org, ho, Bool.false_eq_true, if_false, Option.or_none]
      cases x with
      | none =>
        cases hl : lastOf es true <;> cases hf : lastOf es false <;> simp [arb, pc, po]
      | some i =>
        simp only [arb]
        by_cases hc : i.org = .conf ∨ i.org.prio < Org.conf.prio
        · rw [if_pos hc]
          have hc' : i.org = .conf ∨ i.org.prio < 30 := hc
          have h50 : i.org.prio < 50 ∨ i.org = .over := by
            rcases hc' with h | h
            · rw [h]; exact .inl (by decide)
            · exact .inl (by omega)
          cases hl : lastOf es true <;> cases hf : lastOf es false <;> simp [hc', h50, pc, po]
        · rw [if_neg hc]
          have hc' : ¬ (i.org = .conf ∨ i.org.prio < 30) := hc
          cases hl : lastOf es true <;> cases hf : lastOf es false <;> simp [hc']
    · -- an overwriting entry
      simp only [Entry.org, ho, if_true, Option.or_none]
      cases x with
      | none =>
        cases hl : lastOf es true <;> cases hf : lastOf es false <;> simp [arb, pc, po]
      | some i =>
        simp only [arb]
        by_cases hc : i.org = .over ∨ i.org.prio < Org.over.prio
        · rw [if_pos hc]
          have hc' : i.org.prio < 50 ∨ i.org = .over := hc.symm
          cases hl : lastOf es true <;> cases hf : lastOf es false <;> simp [hc', pc, po]
        · rw [if_neg hc]
          have hc' : ¬ (i.org.prio < 50 ∨ i.org = .over) := fun h => hc h.symm
          have hno : ¬ (i.org = .conf ∨ i.org.prio < 30) := by
            rintro (h | h)
            · rw [h] at hc'; exact hc' (.inl (by decide))
            · exact hc' (.inl (by omega))
          cases hl : lastOf es true <;> cases hf : lastOf es false <;> simp [hc', hno]

theorem configure_data (db : Db) (es : List Entry) (l : Loc) (h : l.isData = true) :
    configure db es l = (match (es.filter fun e => e.loc = l).foldl (fun x e => arb x e.val e.org) (relabel db l) with
      | none => none
      | some i => if i.org = .old then none else some i) := by
  unfold configure removeOld
  rw [foldl_loc, foldl_data l h _ (by intro e he; simpa using (List.mem_filter.1 he).2)]
  cases l with
  | net i => rfl
  | dflt i => rfl
  | neigh k i => rfl
  | peer a => cases h
  | ip k a => cases h
  | dest k a => cases h

/-! ## C217 -/

/-- all values are as configured: data of the plugin that is not configured any more is gone, data of others stays unless the configured value has a
higher priority -/
theorem C217_data (db : Db) (es : List Entry) (l : Loc) (h : l.isData = true) :
    configure db es l = wanted (match db l with | some i => if i.org.own then none else some i | none => none) es l := by
  rw [configure_data db es l h, arb_fold, ← lastVal_eq, ← lastVal_eq]
  unfold wanted relabel
  cases hd : db l with
  | none => cases lastVal es l true <;> cases lastVal es l false <;> simp
  | some i =>
    obtain ⟨v, o⟩ := i
    cases o with
    | old => cases lastVal es l true <;> cases lastVal es l false <;> simp [Org.own, Org.prio]
    | conf => cases lastVal es l true <;> cases lastVal es l false <;> simp [Org.own, Org.prio]
    | over => cases lastVal es l true <;> cases lastVal es l false <;> simp [Org.own, Org.prio]
    | other p =>
      cases lastVal es l true with
      | none =>
        cases lastVal es l false with
        | none => simp [Org.own]
        | some w => by_cases h30 : p < 30 <;> simp [Org.own, Org.prio, h30]
      | some w =>
        by_cases h50 : p < 50
        · cases lastVal es l false <;> simp [Org.own, Org.prio, h50]
        · have h30 : ¬ p < 30 := by omega
          cases lastVal es l false <;> simp [Org.own, Org.prio, h50, h30]

/-- addresses of neighbors: those configured are there, others of the plugin are not; those of others stay -/
theorem C217_ip_partial (db : Db) (es : List Entry) (k a : Nat) :
    ((∃ e ∈ es, e.loc = .ip k a) → ∃ o, configure db es (.ip k a) = some ⟨0, o⟩ ∧ (o = .conf ∨ o = .over)) ∧
    ((∀ e ∈ es, e.loc ≠ .ip k a) → configure db es (.ip k a) = match db (.ip k a) with | some i => if i.org.own then none else some i | none => none) := by
  constructor
  · intro h
    have key : ∀ (es : List Entry) (db : Db), (∃ e ∈ es, e.loc = .ip k a) ∨ (∃ o, db (.ip k a) = some ⟨0, o⟩ ∧ (o = .conf ∨ o = .over)) →
        ∃ o, es.foldl setOne db (.ip k a) = some ⟨0, o⟩ ∧ (o = .conf ∨ o = .over) := by
      intro es
      induction es with
      | nil =>
        intro db h
        rcases h with ⟨e, he, _⟩ | h
        · cases he
        · exact h
      | cons e es ih =>
        intro db h
        apply ih
        by_cases he : e.loc = .ip k a
        · right
          refine ⟨e.org, ?_, ?_⟩
          · simp [setOne, he, Db.put]
          · unfold Entry.org; cases e.overwrite <;> simp
        · rcases h with ⟨x, hx, hx'⟩ | ⟨o, ho⟩
          · rcases List.mem_cons.1 hx with rfl | hx
            · exact absurd hx' he
            · exact .inl ⟨x, hx, hx'⟩
          · exact .inr ⟨o, by rw [setOne_other _ _ _ he]; exact ho⟩
    obtain ⟨o, ho, hoo⟩ := key es (relabel db) (.inl h)
    refine ⟨o, ?_, hoo⟩
    unfold configure removeOld
    rw [ho]
    rcases hoo with rfl | rfl <;> rfl
  · intro h
    unfold configure removeOld
    rw [foldl_loc, List.filter_eq_nil_iff.2 (by intro e he; simpa using h e he), List.foldl_nil]
    unfold relabel
    cases db (.ip k a) with
    | none => rfl
    | some i =>
      obtain ⟨v, o⟩ := i
      cases o <;> simp [Org.own]

/-- a configuration that is applied again changes no value (so the delayed update is harmless) -/
theorem C217_again_partial (db : Db) (es : List Entry) (l : Loc) (h : l.isData = true) : configure (configure db es) es l = configure db es l := by
  rw [C217_data _ _ _ h, C217_data db es l h]
  have hw : ∀ base : Option Item, (∀ i, base = some i → i.org.own = false) →
      wanted (match wanted base es l with | some i => if i.org.own then none else some i | none => none) es l = wanted base es l := by
    intro base hb
    unfold wanted
    cases base with
    | none => cases lastVal es l true <;> cases lastVal es l false <;> simp [Org.own]
    | some i =>
      have hi := hb i rfl
      cases lastVal es l true with
      | none =>
        cases lastVal es l false with
        | none => simp [hi]
        | some w =>
          by_cases h30 : i.org.prio < 30
          · simp [h30, Org.own]
          · simp [h30, hi]
      | some w =>
        by_cases h50 : i.org.prio < 50
        · simp [h50, Org.own]
        · simp [h50, hi]
  apply hw
  intro i hi
  cases hd : db l with
  | none => rw [hd] at hi; cases hi
  | some j =>
    rw [hd] at hi
    simp only at hi
    split at hi
    · cases hi
    · rename_i hn
      cases hi
      simpa using hn

def demoDb : Db := fun l => if l = .net 1 then some ⟨5, .other 40⟩ else if l = .neigh 1 2 then some ⟨7, .conf⟩ else if l = .net 2 then some ⟨8, .other 40⟩ else none
def demoEs : List Entry := [⟨.net 1, 10, false⟩, ⟨.net 2, 11, true⟩, ⟨.net 2, 12, false⟩, ⟨.dflt 3, 13, false⟩, ⟨.dflt 3, 14, false⟩]

example : configure demoDb demoEs (.net 1) = some ⟨5, .other 40⟩ ∧ configure demoDb demoEs (.net 2) = some ⟨11, .over⟩ ∧ configure demoDb demoEs (.dflt 3) = some ⟨14, .conf⟩ ∧
    configure demoDb demoEs (.neigh 1 2) = none := by decide

/-- a removed section leaves all its data in the database -/
theorem C217_removed_counterexample (db : Db) : changed db none = db := rfl

/-- an address of the radio that is not configured any more stays -/
theorem C217_peer_counterexample (db : Db) (es : List Entry) (a : Nat) (i : Item) (hi : db (.peer a) = some i) : configure db es (.peer a) ≠ none := by
  have key : ∀ (es : List Entry) (db : Db), db (.peer a) ≠ none → es.foldl setOne db (.peer a) ≠ none := by
    intro es
    induction es with
    | nil => intro db h; exact h
    | cons e es ih =>
      intro db h
      apply ih
      by_cases he : e.loc = .peer a
      · simp [setOne, he, Db.put]
      · rw [setOne_other _ _ _ he]; exact h
  have h0 : relabel db (.peer a) ≠ none := by
    unfold relabel
    rw [hi]
    simp only
    split <;> simp
  have := key es (relabel db) h0
  unfold configure removeOld
  cases hx : es.foldl setOne (relabel db) (.peer a) with
  | none => exact absurd hx this
  | some j => simp

/-- a configured destination that is there already is removed: it keeps its old origin -/
theorem C217_dest_counterexample (db : Db) (es : List Entry) (k a : Nat) (i : Item) (hi : db (.dest k a) = some i) (ho : i.org = .conf ∨ i.org = .over) :
    configure db es (.dest k a) = none := by
  have key : ∀ (es : List Entry) (db : Db) (j : Item), db (.dest k a) = some j → es.foldl setOne db (.dest k a) = some j := by
    intro es
    induction es with
    | nil => intro db j h; exact h
    | cons e es ih =>
      intro db j h
      apply ih
      by_cases he : e.loc = .dest k a
      · simp [setOne, he, h]
      · rw [setOne_other _ _ _ he]; exact h
  have h0 : relabel db (.dest k a) = some ⟨i.val, .old⟩ := by
    unfold relabel
    rw [hi]
    simp [ho]
  unfold configure removeOld
  rw [key es _ _ h0]
  rfl

/-- an address of a neighbor that someone else has added is removed with the configuration that contained it as well -/
theorem C217_steal_counterexample (db : Db) (k a p : Nat) (_h : db (.ip k a) = some ⟨0, .other p⟩) (ov : Bool) :
    configure (configure db [⟨.ip k a, 0, ov⟩]) [] (.ip k a) = none := by
  have h1 := (C217_ip_partial (configure db [⟨.ip k a, 0, ov⟩]) [] k a).2 (by simp)
  obtain ⟨o, ho, hoo⟩ := (C217_ip_partial db [⟨.ip k a, 0, ov⟩] k a).1 ⟨_, List.mem_singleton.2 rfl, rfl⟩
  rw [h1, ho]
  rcases hoo with rfl | rfl <;> rfl

/-- `l2config remove` deletes values of others, whatever their priority -/
theorem C217_telnet_remove_counterexample (db : Db) (e : Entry) (h : e.loc.isData = true) : telnet db false e e.loc = none := by
  unfold telnet reset
  cases he : e.loc with
  | net i => simp [Db.put]
  | dflt i => simp [Db.put]
  | neigh k i => simp [Db.put]
  | peer a => rw [he] at h; cases h
  | ip k a => rw [he] at h; cases h
  | dest k a => rw [he] at h; cases h

/-- and what was set with `l2config add` is gone with the next delayed update, if it is not configured -/
theorem C217_telnet_add_counterexample (db : Db) (e : Entry) (es : List Entry) (h : e.loc.isData = true) (h0 : db e.loc = none) (hes : ∀ x ∈ es, x.loc ≠ e.loc) :
    telnet db true e e.loc = some ⟨e.val, e.org⟩ ∧ configure (telnet db true e) es e.loc = none := by
  have h1 : telnet db true e e.loc = some ⟨e.val, e.org⟩ := by
    show setOne db e e.loc = _
    rw [setOne_data db e h, h0]
    rfl
  refine ⟨h1, ?_⟩
  rw [C217_data _ _ _ h, h1]
  have hnone : ∀ ov, lastVal es e.loc ov = none := by
    intro ov
    unfold lastVal
    rw [List.filter_eq_nil_iff.2 (by intro x hx; simp [hes x hx])]
    rfl
  have ho : e.org.own = true := by unfold Entry.org; cases e.overwrite <;> rfl
  simp [wanted, hnone, ho]

/-! ## C218 -/

def empty : Tree := ⟨fun _ => ⟨0, none, none, none, 0⟩, none⟩

/-- a single interface is found with its last data, however often it is configured -/
theorem C218_single_partial (key : Nat) (ns : List Nat) (n : Nat) : ∃ t, registerAll empty ((ns ++ [n]).map fun n => (n, key)) = some t ∧ find t key = some n := by
  have ins0 : ∀ (t : Tree) (n : Nat), t.root = none → ∃ t', ((insert t n key).bind fun t => insert t n key) = some t' ∧ t'.root = some n ∧ t'.node n = { key := key } := by
    intro t n h
    refine ⟨({ t.upd n { key := key } with root := some n }).upd n { key := key }, ?_, ?_, ?_⟩
    · simp [insert, Tree.upd, h, findRec]
    · simp [Tree.upd]
    · simp [Tree.upd]
  have fnd : ∀ (t : Tree) (n : Nat), t.root = some n → t.node n = { key := key } → find t key = some n := by
    intro t n h1 h2
    simp [find, h1, findRec, h2]
  have reg : ∀ (t : Tree) (n : Nat), (t.root = none ∨ ∃ m, t.root = some m ∧ t.node m = { key := key }) →
      ∃ t', register t n key = some t' ∧ t'.root = some n ∧ t'.node n = { key := key } := by
    intro t n h
    rcases h with h | ⟨m, h1, h2⟩
    · unfold register
      have : find t key = none := by simp [find, h]
      rw [this]
      exact ins0 t n h
    · unfold register
      rw [fnd t m h1 h2]
      have hr : remove t m = some { t with root := none } := by simp [remove, h2]
      simp only [hr, Option.bind_some]
      exact ins0 _ n rfl
  have all : ∀ (ns : List Nat) (t : Tree), (t.root = none ∨ ∃ m, t.root = some m ∧ t.node m = { key := key }) →
      ∃ t', registerAll t ((ns ++ [n]).map fun n => (n, key)) = some t' ∧ find t' key = some n := by
    intro ns
    induction ns with
    | nil =>
      intro t h
      obtain ⟨t', e, r1, r2⟩ := reg t n h
      exact ⟨t', by simp [registerAll, e], fnd t' n r1 r2⟩
    | cons m ns ih =>
      intro t h
      obtain ⟨t', e, r1, r2⟩ := reg t m h
      obtain ⟨t'', e', f⟩ := ih t' (.inr ⟨m, r1, r2⟩)
      exact ⟨t'', by simpa [registerAll, e] using e', f⟩
  exact all ns empty (.inl rfl)

/-- two interfaces 1 and 2; the second one is configured again: its node was inserted twice and has lost its parent, therefore the whole tree is
dropped with it, and the data of interface 1 is not found any more -/
theorem C218_lost_counterexample : ((registerAll empty [(10, 1), (11, 2)]).map fun t => (find t 1, find t 2)) = some (some 10, some 11) ∧
    ((registerAll empty [(10, 1), (11, 2), (12, 2)]).map fun t => (find t 1, find t 2)) = some (none, some 12) := by decide

end Verif.L2Config
