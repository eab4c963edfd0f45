import Verif.L2Import.Model

/-! # Properties of the import of kernel routes -/

namespace Verif.L2Import

/-! ## Specification -/

/-- the gateways under which an import has stored a destination -/
def gateways (db : Db) (o net dst : Nat) : List Nat := (db.adrs.filter fun a => a.net = net ∧ a.dst = dst ∧ a.origin = o).map (·.gw)

/-- a route passes the filter of an import. The protocol is not known when a route is removed. -/
structure Passes (i : Imp) (set : Bool) (r : Route) : Prop where
  plen : ∀ x, i.plen = some x → r.plen = x
  acl : i.accept r.dst = true
  table : ∀ x, i.table = some x → r.table = x
  protocol : set = true → ∀ x, i.protocol = some x → r.protocol = x
  metric : ∀ x, i.metric = some x → r.metric = x
  iface : ∀ x, i.ifname = some x → r.iface = .name x

/-- the layer2 network for a route on interface `n` -/
def target (i : Imp) (n : Nat) : Nat := i.l2if.getD n

/-- an ordinary event: the route has an interface with a name, and the type all imports want; all needed hardware addresses are known, all networks
exist -/
structure Calm (ready : Nat → Bool) (is : List Imp) (nets : List Nat) (r : Route) (n : Nat) : Prop where
  ordinary : r.special = false
  iface : r.iface = .name n
  type : ∀ i ∈ is, i.type = r.type
  mac : ∀ i ∈ is, ready (i.macIf.getD (target i n)) = true
  nets : ∀ i ∈ is, target i n ∈ nets

open Classical in
/-- what an event means for the destination `dst` of an import in a network -/
noncomputable def effect (i : Imp) (net dst : Nat) (old : List Nat) (e : Bool × Route) : List Nat :=
  if Passes i e.1 e.2 ∧ (∃ n, e.2.iface = .name n ∧ target i n = net) ∧ e.2.dst = dst then (if e.1 then [e.2.gw] else []) else old

/-! ## Lemmas -/

def q (o net dst : Nat) (a : Adr) : Bool := a.net = net ∧ a.dst = dst ∧ a.origin = o

theorem filter_eraseP_other (p f : Adr → Bool) :
    ∀ l : List Adr, (∀ x rest, l.filter p = x :: rest → f x = false) → (l.eraseP p).filter f = l.filter f := by
  intro l
  induction l with
  | nil => intro _; rfl
  | cons a l ih =>
    intro hx
    by_cases hp : p a = true
    · rw [List.eraseP_cons_of_pos hp]
      have := hx a (l.filter p) (by simp [hp])
      simp [this]
    · rw [List.eraseP_cons_of_neg hp]
      have := ih (fun x rest e => hx x rest (by simp [hp, e]))
      simp only [List.filter_cons, this]

theorem filter_eraseP_self (p f : Adr → Bool) (hf : ∀ a, f a = true → p a = true) :
    ∀ l : List Adr, (l.filter f).length ≤ 1 → (∀ x rest, l.filter p = x :: rest → f x = true) → (l.eraseP p).filter f = [] := by
  intro l
  induction l with
  | nil => intro _ _; rfl
  | cons a l ih =>
    intro hl hx
    by_cases hp : p a = true
    · rw [List.eraseP_cons_of_pos hp]
      have := hx a (l.filter p) (by simp [hp])
      rw [List.filter_cons_of_pos this] at hl
      simp only [List.length_cons] at hl
      exact List.length_eq_zero_iff.1 (by omega)
    · rw [List.eraseP_cons_of_neg hp]
      have hfa : ¬ f a = true := fun h => hp (hf a h)
      rw [List.filter_cons_of_neg hfa] at hl ⊢
      exact ih hl (fun x rest e => hx x rest (by simp [hp, e]))

theorem same_iff (net dst : Nat) (a : Adr) : same net dst a = true ↔ a.net = net ∧ a.dst = dst := by simp [same]

theorem q_iff (o net dst : Nat) (a : Adr) : q o net dst a = true ↔ a.net = net ∧ a.dst = dst ∧ a.origin = o := by simp [q]

theorem gateways_eq (db : Db) (o net dst : Nat) : gateways db o net dst = (db.adrs.filter (q o net dst)).map (·.gw) := rfl

/-- `removeOld` leaves what belongs to others -/
theorem removeOld_other (o net dst gw : Nat) (l : List Adr) (f : Adr → Bool) (hf : ∀ a, same net dst a = true → a.origin = o → f a = false) :
    (removeOld o net dst gw l).1.filter f = l.filter f := by
  unfold removeOld
  cases he : l.filter (same net dst) with
  | nil => rfl
  | cons x rest =>
    have hsx : same net dst x = true := (List.mem_filter.1 (he ▸ List.mem_cons_self .. : x ∈ l.filter (same net dst))).2
    by_cases hc : x.origin = o ∧ x.gw ≠ gw
    · show List.filter f (if x.origin = o ∧ x.gw ≠ gw then _ else _ : List Adr × Bool × Nat).1 = _
      rw [if_pos hc]
      apply filter_eraseP_other
      intro y r hy
      rw [he] at hy
      cases hy
      exact hf x hsx hc.1
    · simp only [hc, if_false, List.filter_filter]
      apply List.filter_congr
      intro a _
      by_cases ha : same net dst a = true
      · by_cases ho : a.origin = o
        · simp [hf a ha ho]
        · simp [ho]
      · simp [ha]

/-- what is left of the own address -/
theorem removeOld_self (o net dst gw : Nat) (l : List Adr) (h1 : (l.filter (q o net dst)).length ≤ 1) :
    (removeOld o net dst gw l).1.filter (q o net dst) = (l.filter (q o net dst)).filter (fun a => a.gw = gw) ∧
    ((removeOld o net dst gw l).2.1 = true ↔ ∃ a ∈ l.filter (q o net dst), a.gw = gw) := by
  unfold removeOld
  have hqs : ∀ a, q o net dst a = true → same net dst a = true := fun a h => (same_iff ..).2 ⟨((q_iff ..).1 h).1, ((q_iff ..).1 h).2.1⟩
  have hqo : ∀ a, q o net dst a = true ↔ same net dst a = true ∧ a.origin = o := by
    intro a
    rw [q_iff, same_iff, and_assoc]
  cases he : l.filter (same net dst) with
  | nil =>
    have h0 : l.filter (q o net dst) = [] := by
      rw [List.filter_eq_nil_iff] at he ⊢
      exact fun a ha h => he a ha (hqs a h)
    simp [h0]
  | cons x rest =>
    have hx : x ∈ l ∧ same net dst x = true := List.mem_filter.1 (he ▸ List.mem_cons_self .. : x ∈ l.filter (same net dst))
    by_cases hc : x.origin = o ∧ x.gw ≠ gw
    · simp only [if_pos hc]
      have hqx : q o net dst x = true := (hqo x).2 ⟨hx.2, hc.1⟩
      have hl : l.filter (q o net dst) = [x] := by
        have hm : x ∈ l.filter (q o net dst) := List.mem_filter.2 ⟨hx.1, hqx⟩
        cases hf : l.filter (q o net dst) with
        | nil => rw [hf] at hm; cases hm
        | cons y r =>
          rw [hf] at hm h1
          cases r with
          | nil => rw [List.mem_singleton.1 hm]
          | cons _ _ => simp at h1
      constructor
      · rw [filter_eraseP_self (same net dst) (q o net dst) hqs l h1 (by intro y r hy; rw [he] at hy; cases hy; exact hqx), hl]
        simp [hc.2]
      · rw [hl]
        simp [hc.2]
    · simp only [hc, if_false, List.filter_filter]
      constructor
      · apply List.filter_congr
        intro a _
        by_cases hq : q o net dst a = true
        · have := (hqo a).1 hq
          simp only [hq, this.1, this.2, beq_self_eq_true, Bool.true_and, Bool.and_true]
          by_cases hg : a.gw = gw <;> simp [hg]
        · simp only [hq, Bool.false_and, Bool.and_false]
      · rw [← he, List.any_eq_true]
        constructor
        · rintro ⟨a, ha, hag⟩
          obtain ⟨ha, hs⟩ := List.mem_filter.1 ha
          simp only [Bool.and_eq_true, beq_iff_eq] at hag
          exact ⟨a, List.mem_filter.2 ⟨ha, (hqo a).2 ⟨hs, hag.1⟩⟩, hag.2⟩
        · rintro ⟨a, ha, hag⟩
          obtain ⟨ha, hs⟩ := List.mem_filter.1 ha
          exact ⟨a, List.mem_filter.2 ⟨ha, hqs a hs⟩, by simp [((hqo a).1 hs).2, hag]⟩

theorem filter_removeLast (o net dst gw : Nat) (l : List Adr) (f : Adr → Bool) (hf : ∀ a, same net dst a = true → a.origin = o → f a = false) :
    (removeLast o net dst gw l).filter f = l.filter f := by
  unfold removeLast
  rw [List.filter_reverse, filter_eraseP_other, List.filter_reverse, List.reverse_reverse]
  intro x r h
  have : x ∈ l.reverse.filter (fun a => same net dst a && a.origin == o && a.gw == gw) := h ▸ List.mem_cons_self ..
  have := (List.mem_filter.1 this).2
  simp only [Bool.and_eq_true, beq_iff_eq] at this
  exact hf x this.1.1 this.1.2

theorem removeLast_self (o net dst gw : Nat) (l : List Adr) (h1 : (l.filter (q o net dst)).length ≤ 1) (h2 : ∀ a ∈ l.filter (q o net dst), a.gw = gw) :
    (removeLast o net dst gw l).filter (q o net dst) = [] := by
  unfold removeLast
  have hq : ∀ a ∈ l.reverse, q o net dst a = (same net dst a && a.origin == o && a.gw == gw) := by
    intro a ha
    have ha : a ∈ l := List.mem_reverse.1 ha
    by_cases hqa : q o net dst a = true
    · have := (q_iff ..).1 hqa
      rw [hqa, (same_iff ..).2 ⟨this.1, this.2.1⟩, this.2.2, h2 a (List.mem_filter.2 ⟨ha, hqa⟩)]
      simp
    · have hn : ¬ (same net dst a = true ∧ a.origin = o) := by
        rw [same_iff]
        exact fun h => hqa ((q_iff ..).2 ⟨h.1.1, h.1.2, h.2⟩)
      have : q o net dst a = false := by simpa using hqa
      rw [this]
      by_cases hs : same net dst a = true
      · have : a.origin ≠ o := fun h => hn ⟨hs, h⟩
        simp [this]
      · simp [hs]
  rw [List.filter_reverse]
  have e : ((l.reverse.eraseP (fun a => same net dst a && a.origin == o && a.gw == gw)).filter (q o net dst)) =
      ((l.reverse.eraseP (fun a => same net dst a && a.origin == o && a.gw == gw)).filter (fun a => same net dst a && a.origin == o && a.gw == gw)) := by
    apply List.filter_congr
    intro a ha
    exact hq a (List.mem_of_mem_eraseP ha)
  rw [e, filter_eraseP_self _ _ (fun _ h => h)]
  · rfl
  · rw [← List.filter_congr hq, List.filter_reverse, List.length_reverse]
    exact h1
  · intro x r h
    have : x ∈ l.reverse.filter (fun a => same net dst a && a.origin == o && a.gw == gw) := h ▸ List.mem_cons_self ..
    exact (List.mem_filter.1 this).2

/-- at most one gateway -/
def Single (db : Db) : Prop := ∀ o net dst, (gateways db o net dst).length ≤ 1

theorem store_self (i : Imp) (set : Bool) (r : Route) (net : Nat) (db : Db) (h : Single db) :
    gateways (store i set r net db) i.name net r.dst = if set then [r.gw] else [] := by
  have h1 : (db.adrs.filter (q i.name net r.dst)).length ≤ 1 := by
    have := h i.name net r.dst
    rwa [gateways_eq, List.length_map] at this
  have h2 := removeOld_self i.name net r.dst r.gw db.adrs h1
  have hle : ((removeOld i.name net r.dst r.gw db.adrs).1.filter (q i.name net r.dst)).length ≤ 1 := by
    rw [h2.1]
    exact Nat.le_trans (List.length_filter_le ..) h1
  have hgw : ∀ a ∈ (removeOld i.name net r.dst r.gw db.adrs).1.filter (q i.name net r.dst), a.gw = r.gw := by
    rw [h2.1]
    intro a ha
    simpa using (List.mem_filter.1 ha).2
  simp only [store]
  cases hm : (removeOld i.name net r.dst r.gw db.adrs).2.1 with
  | true =>
    obtain ⟨a, ha, hag⟩ := h2.2.1 hm
    have hfull : ((removeOld i.name net r.dst r.gw db.adrs).1.filter (q i.name net r.dst)).map (·.gw) = [r.gw] := by
      rw [h2.1]
      cases hf : db.adrs.filter (q i.name net r.dst) with
      | nil => rw [hf] at ha; cases ha
      | cons y t =>
        rw [hf] at ha h1
        cases t with
        | nil =>
          simp only [List.mem_singleton] at ha
          subst ha
          simp [hag]
        | cons _ _ => simp at h1
    cases set with
    | true =>
      simp only [Bool.not_true, Bool.and_false, Bool.false_eq_true, if_false, Bool.false_and, if_true]
      exact hfull
    | false =>
      simp only [Bool.false_and, Bool.false_eq_true, if_false, Bool.not_false, Bool.true_and, if_true]
      rw [gateways_eq]
      show ((removeLast ..).filter _).map _ = _
      rw [removeLast_self _ _ _ _ _ hle hgw]
      rfl
  | false =>
    have hempty : (removeOld i.name net r.dst r.gw db.adrs).1.filter (q i.name net r.dst) = [] := by
      rw [h2.1, List.filter_eq_nil_iff]
      intro a ha hag
      have : (removeOld i.name net r.dst r.gw db.adrs).2.1 = true := h2.2.2 ⟨a, ha, by simpa using hag⟩
      rw [hm] at this
      cases this
    cases set with
    | true =>
      simp only [Bool.true_and, Bool.not_false, if_true]
      rw [gateways_eq]
      show (((removeOld ..).1 ++ _).filter _).map _ = _
      rw [List.filter_append, hempty]
      simp [q]
    | false =>
      simp only [Bool.false_and, Bool.false_eq_true, if_false, Bool.and_false]
      rw [gateways_eq]
      show ((removeOld ..).1.filter _).map _ = _
      rw [hempty]
      rfl

theorem store_other (i : Imp) (set : Bool) (r : Route) (net : Nat) (db : Db) (o net' dst : Nat) (h : ¬ (o = i.name ∧ net' = net ∧ dst = r.dst)) :
    gateways (store i set r net db) o net' dst = gateways db o net' dst := by
  have hf : ∀ a, same net r.dst a = true → a.origin = i.name → q o net' dst a = false := by
    intro a hs ho
    rw [same_iff] at hs
    have : ¬ q o net' dst a = true := by
      rw [q_iff]
      rintro ⟨e1, e2, e3⟩
      exact h ⟨by rw [← e3, ho], by rw [← e1, hs.1], by rw [← e2, hs.2]⟩
    simpa using this
  have h1 := removeOld_other i.name net r.dst r.gw db.adrs _ hf
  rw [gateways_eq, gateways_eq]
  simp only [store]
  split
  · simp only [List.filter_append, h1]
    have : ¬ q o net' dst ⟨net, r.dst, i.name, r.gw⟩ = true := by
      rw [q_iff]
      rintro ⟨e1, e2, e3⟩
      exact h ⟨e3.symm, e1.symm, e2.symm⟩
    rw [List.filter_cons_of_neg this]
    simp
  · split
    · simp only [filter_removeLast i.name net r.dst r.gw _ _ hf, h1]
    · simp only [h1]

theorem store_nets (i : Imp) (set : Bool) (r : Route) (net : Nat) (db : Db) : (store i set r net db).nets = db.nets := by
  simp only [store]
  split
  · rfl
  · split <;> rfl

theorem store_single (i : Imp) (set : Bool) (r : Route) (net : Nat) (db : Db) (h : Single db) : Single (store i set r net db) := by
  intro o net' dst
  by_cases hc : o = i.name ∧ net' = net ∧ dst = r.dst
  · obtain ⟨rfl, rfl, rfl⟩ := hc
    rw [store_self i set r _ db h]
    split <;> simp
  · rw [store_other _ _ _ _ _ _ _ _ hc]
    exact h o net' dst

theorem passes_iff (i : Imp) (set : Bool) (r : Route) (n : Nat) (hn : r.iface = .name n) :
    Passes i set r ↔ numbers i set r = true ∧ ifMatch i r = some true := by
  have ho : ∀ (x : Option Nat) (y : Nat), (x = none ∨ x = some y) ↔ ∀ z, x = some z → y = z := by
    intro x y
    cases x with
    | none => simp
    | some z => simp [eq_comm]
  simp only [numbers, ifMatch, hn, ho, decide_eq_true_eq]
  constructor
  · rintro ⟨h1, h2, h3, h4, h5, h6⟩
    refine ⟨⟨h1, h2, h3, ?_, h5⟩, ?_⟩
    · cases set with
      | false => exact .inl rfl
      | true => exact .inr (h4 rfl)
    · cases hi : i.ifname with
      | none => rfl
      | some m =>
        have := h6 m hi
        rw [hn] at this
        cases this
        simp
  · rintro ⟨⟨h1, h2, h3, h4, h5⟩, h6⟩
    refine ⟨h1, h2, h3, ?_, h5, ?_⟩
    · intro hs
      rcases h4 with h4 | h4
      · rw [hs] at h4; cases h4
      · exact h4
    · intro x hx
      rw [hx] at h6
      simp only [Option.some.injEq, beq_iff_eq] at h6
      rw [hn, h6]

/-- the step of one import in an ordinary event -/
theorem one_calm (ready : Nat → Bool) (is : List Imp) (set : Bool) (r : Route) (n : Nat) (db : Db) (hc : Calm ready is db.nets r n) (i : Imp) (hi : i ∈ is) (h : Single db) :
    ∃ db', one ready i set r db = .cont db' ∧ db'.nets = db.nets ∧ Single db' ∧
      (∀ net dst, gateways db' i.name net dst = effect i net dst (gateways db i.name net dst) (set, r)) ∧
      (∀ o, o ≠ i.name → ∀ net dst, gateways db' o net dst = gateways db o net dst) := by
  have hty := hc.type i hi
  have hl : l2name i r = some (target i n) := by
    unfold l2name target
    cases i.l2if with
    | none => simp [hc.iface]
    | some m => rfl
  have hne : ¬ (set = false ∧ target i n ∉ db.nets) := fun x => x.2 (hc.nets i hi)
  have hna : netAdd db (target i n) = db := if_pos (hc.nets i hi)
  by_cases hp : Passes i set r
  · obtain ⟨p1, p2⟩ := (passes_iff i set r n hc.iface).1 hp
    refine ⟨store i set r (target i n) db, ?_, store_nets .., store_single _ _ _ _ _ h, ?_, ?_⟩
    · unfold one
      rw [if_neg (by simp [hty]), if_neg (by simp [p1])]
      simp only [p2, hl]
      rw [if_neg hne, hna, if_pos (hc.mac i hi)]
      simp
    · intro net dst
      unfold effect
      by_cases hx : target i n = net ∧ r.dst = dst
      · obtain ⟨rfl, rfl⟩ := hx
        rw [if_pos ⟨hp, ⟨n, hc.iface, rfl⟩, rfl⟩, store_self _ _ _ _ _ h]
      · rw [if_neg, store_other]
        · rintro ⟨_, e1, e2⟩; exact hx ⟨e1.symm, e2.symm⟩
        · rintro ⟨_, ⟨m, e1, e2⟩, e3⟩
          rw [hc.iface] at e1
          cases e1
          exact hx ⟨e2, e3⟩
    · intro o ho net dst
      exact store_other _ _ _ _ _ _ _ _ (fun x => ho x.1)
  · refine ⟨db, ?_, rfl, h, ?_, fun _ _ _ _ => rfl⟩
    · unfold one
      rw [if_neg (by simp [hty])]
      by_cases p1 : numbers i set r = true
      · have p2 : ifMatch i r = some false := by
          have : ¬ ifMatch i r = some true := fun e => hp ((passes_iff i set r n hc.iface).2 ⟨p1, e⟩)
          unfold ifMatch at this ⊢
          cases hi : i.ifname with
          | none => rw [hi] at this; exact absurd rfl this
          | some m =>
            rw [hi] at this
            simp only [hc.iface] at this ⊢
            simpa using this
        rw [if_neg (by simp [p1])]
        simp only [p2]
      · rw [if_pos (by simpa using p1)]
    · intro net dst
      unfold effect
      rw [if_neg (fun x => hp x.1)]

theorem loop_calm (ready : Nat → Bool) (set : Bool) (r : Route) (n : Nat) : ∀ (is : List Imp) (db : Db), Calm ready is db.nets r n → Single db → (is.map (·.name)).Nodup →
    ∃ db', loop ready set r is db = some db' ∧ db'.nets = db.nets ∧ Single db' ∧
      (∀ i ∈ is, ∀ net dst, gateways db' i.name net dst = effect i net dst (gateways db i.name net dst) (set, r)) ∧
      (∀ o, o ∉ is.map (·.name) → ∀ net dst, gateways db' o net dst = gateways db o net dst) := by
  intro is
  induction is with
  | nil =>
    intro db _ h _
    refine ⟨db, rfl, rfl, h, ?_, fun _ _ _ _ => rfl⟩
    intro i hi; cases hi
  | cons j js ih =>
    intro db hc h hd
    obtain ⟨db1, e1, n1, s1, g1, o1⟩ := one_calm ready (j :: js) set r n db hc j (List.mem_cons_self ..) h
    rw [List.map_cons, List.nodup_cons] at hd
    have hc' : Calm ready js db1.nets r n :=
      ⟨hc.ordinary, hc.iface, fun i hi => hc.type i (List.mem_cons_of_mem _ hi), fun i hi => hc.mac i (List.mem_cons_of_mem _ hi),
        fun i hi => by rw [n1]; exact hc.nets i (List.mem_cons_of_mem _ hi)⟩
    obtain ⟨db2, e2, n2, s2, g2, o2⟩ := ih db1 hc' s1 hd.2
    refine ⟨db2, ?_, n2.trans n1, s2, ?_, ?_⟩
    · simp only [loop, e1, e2]
    · intro i hi net dst
      rcases List.mem_cons.1 hi with rfl | hi
      · rw [o2 _ hd.1, g1]
      · rw [g2 i hi, o1]
        intro e
        exact hd.1 (e ▸ List.mem_map_of_mem hi)
    · intro o ho net dst
      rw [List.map_cons, List.mem_cons, not_or] at ho
      rw [o2 o ho.2, o1 o ho.1]

/-! ## C215 -/

/-- in ordinary histories each import has for each destination the gateway of the last event about it: set, or nothing if that was a removal -/
theorem C215_last_partial (ready : Nat → Bool) (is : List Imp) (hd : (is.map (·.name)).Nodup) (es : List (Bool × Route)) :
    ∀ db : Db, Single db → (∀ e ∈ es, ∃ n, Calm ready is db.nets e.2 n) →
    ∃ db', events ready is db es = some db' ∧ Single db' ∧ ∀ i ∈ is, ∀ net dst, gateways db' i.name net dst = es.foldl (effect i net dst) (gateways db i.name net dst) := by
  induction es with
  | nil => intro db h _; exact ⟨db, rfl, h, fun _ _ _ _ => rfl⟩
  | cons e es ih =>
    intro db h hc
    obtain ⟨n, hn⟩ := hc e (List.mem_cons_self ..)
    obtain ⟨db1, e1, n1, s1, g1, _⟩ := loop_calm ready e.1 e.2 n is db hn h hd
    obtain ⟨db2, e2, s2, g2⟩ := ih db1 s1 (fun x hx => by rw [n1]; exact hc x (List.mem_cons_of_mem _ hx))
    refine ⟨db2, ?_, s2, ?_⟩
    · simp only [events, event, hn.ordinary, Bool.false_eq_true, if_false, e1, e2]
    · intro i hi net dst
      rw [g2 i hi, g1 i hi]
      rfl

/-- after the routes were reloaded, a destination for which exactly one gateway is in use is there with it -/
theorem C215_reload_partial (ready : Nat → Bool) (is : List Imp) (hd : (is.map (·.name)).Nodup) (rs : List Route) (db : Db) (h : Single db)
    (hc : ∀ r ∈ rs, ∃ n, Calm ready is db.nets r n) (i : Imp) (hi : i ∈ is) (r : Route) (hr : r ∈ rs) (hp : Passes i true r) (n : Nat) (hn : r.iface = .name n)
    (hu : ∀ r' ∈ rs, r'.dst = r.dst → r'.gw = r.gw) :
    ∃ db', events ready is db (rs.map fun r => (true, r)) = some db' ∧ gateways db' i.name (target i n) r.dst = [r.gw] := by
  obtain ⟨db', e, _, g⟩ := C215_last_partial ready is hd (rs.map fun r => (true, r)) db h (by
    intro e he
    obtain ⟨r', hr', rfl⟩ := List.mem_map.1 he
    exact hc r' hr')
  refine ⟨db', e, ?_⟩
  rw [g i hi]
  have key : ∀ (l : List Route) (x : List Nat), (∀ r' ∈ l, r'.dst = r.dst → r'.gw = r.gw) → (r ∈ l ∨ x = [r.gw]) →
      (l.map fun r => (true, r)).foldl (effect i (target i n) r.dst) x = [r.gw] := by
    intro l
    induction l with
    | nil => intro x _ hx; rcases hx with hx | hx; cases hx; exact hx
    | cons a l ih =>
      intro x hu hx
      simp only [List.map_cons, List.foldl_cons]
      apply ih _ (fun r' hr' => hu r' (List.mem_cons_of_mem _ hr'))
      by_cases hal : r ∈ l
      · exact .inl hal
      · right
        unfold effect
        by_cases hcond : Passes i true a ∧ (∃ m, a.iface = .name m ∧ target i m = target i n) ∧ a.dst = r.dst
        · rw [if_pos hcond, if_pos rfl, hu a (List.mem_cons_self ..) hcond.2.2]
        · rw [if_neg hcond]
          rcases hx with hx | hx
          · rcases List.mem_cons.1 hx with rfl | hx
            · exact absurd ⟨hp, ⟨n, hn, rfl⟩, rfl⟩ hcond
            · exact absurd hx hal
          · exact hx
  exact key rs _ hu (.inl hr)

/-- routes that never concern anyone: multicast, linklocal and loopback -/
theorem C215_special (ready : Nat → Bool) (is : List Imp) (db : Db) (set : Bool) (r : Route) (h : r.special = true) : event ready is db (set, r) = some db := by
  simp [event, h]

def demo : List Imp := [{ name := 1, table := some 254 }, { name := 2, l2if := some 9, metric := some 5 }]
def demoDb : Db := { nets := [3, 9] }

example : Single demoDb ∧ Calm (fun _ => true) demo demoDb.nets { dst := 7, iface := .name 3, gw := 8 } 3 := by
  refine ⟨fun _ _ _ => Nat.zero_le _, rfl, rfl, by decide, by decide, by decide⟩

example : (events (fun _ => true) demo demoDb [(true, { dst := 7, iface := .name 3, gw := 8 }), (true, { dst := 7, metric := 5, iface := .name 3, gw := 6 })]).map (·.adrs) =
    some [⟨3, 7, 1, 6⟩, ⟨9, 7, 2, 6⟩] := by decide

/-- two routes to a destination: when one of them is removed the destination is lost, although the other route stays -/
theorem C215_alternative_counterexample (ready : Nat → Bool) (i : Imp) (db : Db) (h : Single db) (r1 r2 : Route) (n : Nat) (h1 : Calm ready [i] db.nets r1 n)
    (h2 : Calm ready [i] db.nets r2 n) (hp1 : Passes i false r1) (_hp2 : Passes i true r2) (hdst : r1.dst = r2.dst) :
    ∃ db', events ready [i] db [(true, r1), (true, r2), (false, r1)] = some db' ∧ gateways db' i.name (target i n) r2.dst = [] := by
  obtain ⟨db', e, _, g⟩ := C215_last_partial ready [i] (by simp) [(true, r1), (true, r2), (false, r1)] db h (by
    intro e he
    simp only [List.mem_cons, List.not_mem_nil, or_false] at he
    rcases he with rfl | rfl | rfl
    · exact ⟨n, h1⟩
    · exact ⟨n, h2⟩
    · exact ⟨n, h1⟩)
  refine ⟨db', e, ?_⟩
  rw [g i (List.mem_singleton.2 rfl)]
  simp only [List.foldl_cons, List.foldl_nil]
  unfold effect
  rw [if_pos ⟨hp1, ⟨n, h1.iface, rfl⟩, hdst⟩]
  rfl

example : (events (fun _ => true) [{ name := 1 }] { nets := [3] } [(true, { dst := 7, iface := .name 3, gw := 8 }), (true, { dst := 7, metric := 5, iface := .name 3, gw := 6 }),
    (false, { dst := 7, iface := .name 3, gw := 8 })]).map (·.adrs) = some [] := by decide

/-- an import for another type of routes hides all imports behind it -/
theorem C215_type_counterexample (ready : Nat → Bool) (i : Imp) (is : List Imp) (db : Db) (set : Bool) (r : Route) (h : i.type ≠ r.type) :
    event ready (i :: is) db (set, r) = some db := by
  unfold event
  split
  · rfl
  · simp only [loop, one]
    rw [if_pos h]

/-- so does one that waits for the hardware address of its interface; the routes are then reloaded each second as long as this address is missing,
each time without the imports behind it -/
theorem C215_wait_counterexample (ready : Nat → Bool) (i : Imp) (is : List Imp) (db : Db) (r : Route) (n : Nat) (hr : r.special = false) (ht : i.type = r.type)
    (hn : r.iface = .name n) (hp : Passes i true r) (hm : ready (i.macIf.getD (target i n)) = false) :
    ∃ db', event ready (i :: is) db (true, r) = some db' ∧ db'.adrs = db.adrs ∧ db'.timer = true := by
  obtain ⟨p1, p2⟩ := (passes_iff i true r n hn).1 hp
  have hl : l2name i r = some (target i n) := by
    unfold l2name target
    cases i.l2if with
    | none => simp [hn]
    | some m => rfl
  refine ⟨{ netAdd db (target i n) with timer := true }, ?_, ?_, rfl⟩
  · simp only [event, hr, Bool.false_eq_true, if_false, loop, one]
    rw [if_neg (by simp [ht]), if_neg (by simp [p1])]
    simp only [p2, hl]
    rw [if_neg (by simp), if_neg (by simp [hm])]
    rfl
  · simp only [netAdd]; split <;> rfl

example : (event (fun n => n ≠ 4) [{ name := 1, macIf := some 4 }, { name := 2 }] { nets := [3] } (true, { dst := 7, iface := .name 3, gw := 8 })).map (·.adrs) = some [] ∧
    (event (fun n => n ≠ 4) [{ name := 2 }] { nets := [3] } (true, { dst := 7, iface := .name 3, gw := 8 })).map (·.adrs) = some [⟨3, 7, 2, 8⟩] := by decide

/-- a route without interface (e.g. an unreachable one): its name is used although it was never set -/
theorem C215_name_counterexample (ready : Nat → Bool) (i : Imp) (is : List Imp) (db : Db) (set : Bool) (r : Route) (hr : r.special = false) (ht : i.type = r.type)
    (hn : r.iface = .unset) (hif : i.ifname = none) (hl : i.l2if = none) (hp : Passes i set r) : event ready (i :: is) db (set, r) = none := by
  have p1 : numbers i set r = true := by
    have ho : ∀ (x : Option Nat) (y : Nat), (∀ z, x = some z → y = z) → (x = none ∨ x = some y) := by
      intro x y h
      cases x with
      | none => exact .inl rfl
      | some z => exact .inr (by rw [h z rfl])
    simp only [numbers, decide_eq_true_eq]
    refine ⟨ho _ _ hp.plen, hp.acl, ho _ _ hp.table, ?_, ho _ _ hp.metric⟩
    cases set with
    | false => exact .inl rfl
    | true => exact .inr (ho _ _ (hp.protocol rfl))
  simp only [event, hr, Bool.false_eq_true, if_false, loop, one]
  rw [if_neg (by simp [ht]), if_neg (by simp [p1])]
  simp only [ifMatch, hif, l2name, hl, hn]

example : Passes { name := 1 } true { dst := 7, iface := .unset, gw := 0 } := ⟨by simp, rfl, by simp, by simp, by simp, by simp⟩

/-- a route that does not pass the filter of an import (and is not one of a vanished interface) is left to the others, if its type is right -/
theorem C215_filter (ready : Nat → Bool) (i : Imp) (db : Db) (set : Bool) (r : Route) (ht : i.type = r.type) (hg : r.iface ≠ .gone) (hp : ¬ Passes i set r) :
    one ready i set r db = .cont db := by
  unfold one
  rw [if_neg (by simp [ht])]
  by_cases p1 : numbers i set r = false
  · rw [if_pos p1]
  · rw [if_neg p1]
    simp only [numbers, decide_eq_false_iff_not, Classical.not_not] at p1
    obtain ⟨a, b, c, d, e⟩ := p1
    have ho : ∀ (x : Option Nat) (y : Nat), (x = none ∨ x = some y) → (∀ z, x = some z → y = z) := by
      rintro x y (rfl | rfl) z h
      · cases h
      · exact Option.some.inj h
    cases hi : i.ifname with
    | none =>
      exfalso
      refine hp ⟨ho _ _ a, b, ho _ _ c, fun hs => ?_, ho _ _ e, fun x hx => by rw [hi] at hx; cases hx⟩
      rcases d with d | d
      · rw [hs] at d; cases d
      · exact ho _ _ d
    | some n =>
      cases hr : r.iface with
      | gone => exact absurd hr hg
      | unset => simp [ifMatch, hi, hr]
      | name m =>
        by_cases hm : m = n
        · exfalso
          refine hp ⟨ho _ _ a, b, ho _ _ c, fun hs => ?_, ho _ _ e, fun x hx => ?_⟩
          · rcases d with d | d
            · rw [hs] at d; cases d
            · exact ho _ _ d
          · rw [hi] at hx; cases hx; rw [hr, hm]
        · have hb : (m == n) = false := by simp [hm]
          simp only [ifMatch, hi, hr, hb]

example : ¬ Passes { name := 1, ifname := some 3 } true { dst := 7, iface := .unset, gw := 0 } := fun h => by cases h.iface 3 rfl

/-- a route of an interface that has vanished: a filter for an interface compares with a name that was never set -/
theorem C215_gone_counterexample (ready : Nat → Bool) (is : List Imp) (db : Db) (set : Bool) (r : Route) (hr : r.special = false) (hn : r.iface = .gone) (n name : Nat) :
    event ready ({ name := name, type := r.type, ifname := some n } :: is) db (set, r) = none := by
  have p1 : numbers { name := name, type := r.type, ifname := some n } set r = true := by simp [numbers]
  simp only [event, hr, Bool.false_eq_true, if_false, loop, one]
  rw [if_neg (by simp), if_neg (by simp [p1])]
  simp only [ifMatch, hn]

/-- each change of a gateway leaves a layer2 neighbor without data behind -/
theorem C215_stale_counterexample (o net dst g1 g2 : Nat) (h : g1 ≠ g2) (r : Route) (hd : r.dst = dst) (hg : r.gw = g2) (i : Imp) (hi : i.name = o) (s : Nat) (nets : List Nat) (t : Bool) :
    store i true r net ⟨nets, [⟨net, dst, o, g1⟩], s, t⟩ = ⟨nets, [⟨net, dst, o, g2⟩], s + 1, t⟩ := by
  subst hd hg hi
  simp [store, removeOld, same, h]

/-! ## C216 -/

/-- a removed section takes its addresses with it, and no others; other sections stay as they are -/
theorem C216_removed (w : World) (name : Nat) :
    (∀ a, a ∈ (configure w name none).db.adrs ↔ a ∈ w.db.adrs ∧ a.origin ≠ name) ∧ (∀ i, i ∈ (configure w name none).imps ↔ i ∈ w.imps ∧ i.name ≠ name) := by
  constructor
  · intro a; simp [configure]
  · intro i; simp [configure]

theorem mem_insertImp (i j : Imp) : ∀ l, j ∈ insertImp i l ↔ j = i ∨ j ∈ l := by
  intro l
  induction l with
  | nil => simp [insertImp]
  | cons k l ih =>
    unfold insertImp
    split
    · simp
    · simp only [List.mem_cons, ih]
      constructor
      · rintro (h | h | h)
        · exact .inr (.inl h)
        · exact .inl h
        · exact .inr (.inr h)
      · rintro (h | h | h)
        · exact .inr (.inl h)
        · exact .inl h
        · exact .inr (.inr h)

/-- a changed section replaces the old one, and the routes are loaded again -/
theorem C216_changed (w : World) (name : Nat) (i : Imp) :
    (∀ j, j ∈ (configure w name (some i)).imps ↔ j = { i with name := name } ∨ (j ∈ w.imps ∧ j.name ≠ name)) ∧ (configure w name (some i)).db.timer = true := by
  refine ⟨?_, rfl⟩
  intro j
  simp only [configure, mem_insertImp, List.mem_filter, decide_eq_true_eq, ne_eq]

theorem nodup_insert (i : Imp) : ∀ l : List Imp, (l.map (·.name)).Nodup → i.name ∉ l.map (·.name) → ((insertImp i l).map (·.name)).Nodup := by
  intro l
  induction l with
  | nil => intro _ _; simp [insertImp]
  | cons k l ih =>
    intro h1 h2
    rw [List.map_cons, List.nodup_cons] at h1
    rw [List.map_cons, List.mem_cons, not_or] at h2
    unfold insertImp
    split
    · rw [List.map_cons, List.nodup_cons, List.map_cons, List.mem_cons, not_or, List.nodup_cons]
      exact ⟨h2, h1⟩
    · rw [List.map_cons, List.nodup_cons]
      refine ⟨?_, ih h1.2 h2.2⟩
      intro h
      obtain ⟨x, hx, e⟩ := List.mem_map.1 h
      rcases (mem_insertImp i x l).1 hx with rfl | hx
      · exact h2.1 e
      · exact h1.1 (e ▸ List.mem_map_of_mem hx)

/-- no two imports have the same name (which C215 needs) -/
theorem C216_names (h : List (Nat × Option Imp)) : ((h.foldl (fun w x => configure w x.1 x.2) {}).imps.map (·.name)).Nodup := by
  have key : ∀ (h : List (Nat × Option Imp)) (w : World), (w.imps.map (·.name)).Nodup → ((h.foldl (fun w x => configure w x.1 x.2) w).imps.map (·.name)).Nodup := by
    intro h
    induction h with
    | nil => intro w hw; exact hw
    | cons x h ih =>
      intro w hw
      apply ih
      show ((configure w x.1 x.2).imps.map (·.name)).Nodup
      have hf : ((w.imps.filter fun j => j.name ≠ x.1).map (·.name)).Nodup := List.Sublist.nodup (List.Sublist.map _ List.filter_sublist) hw
      cases x.2 with
      | none => exact hf
      | some i =>
        show ((insertImp { i with name := x.1 } _).map (·.name)).Nodup
        apply nodup_insert _ _ hf
        intro hm
        obtain ⟨j, hj, e⟩ := List.mem_map.1 hm
        have := (List.mem_filter.1 hj).2
        simp only [ne_eq, decide_eq_true_eq] at this
        exact this e
  exact key h {} List.nodup_nil

/-- the listener of a removed import stays registered: the interface code calls it although its memory is free -/
theorem C216_listener_counterexample (w : World) (name : Nat) (i : Imp) (hm : i.macIf ≠ none) :
    name ∈ (configure (configure w name (some i)) name none).listeners ∧ ∀ j ∈ (configure (configure w name (some i)) name none).imps, j.name ≠ name := by
  constructor
  · simp [configure, hm]
  · intro j hj
    simp only [configure, List.mem_filter, decide_eq_true_eq, ne_eq] at hj
    exact hj.2

/-- addresses that were imported with an old filter stay: nothing is removed when the section changes -/
theorem C216_filter_counterexample (w : World) (name : Nat) (i : Imp) : (configure w name (some i)).db.adrs = w.db.adrs := rfl

/-- and if the new filter refuses the destination, the removal of the route does not remove them either -/
theorem C216_stays_counterexample (ready : Nat → Bool) (i : Imp) (db : Db) (r : Route) (hty : i.type = r.type) (ha : i.accept r.dst = false) (hr : r.special = false) (set : Bool) :
    event ready [i] db (set, r) = some db := by
  have : numbers i set r = false := by simp [numbers, ha]
  simp only [event, hr, Bool.false_eq_true, if_false, loop, one]
  rw [if_neg (by simp [hty]), if_pos this]

end Verif.L2Import
