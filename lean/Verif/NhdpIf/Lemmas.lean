import Verif.NhdpIf.Spec
/-
Lemmas for C145-C147.
-/
namespace Verif.NhdpIf
open Verif.Netaddr

/-! ### flooding -/

theorem count_le (c : Counts) (links : List Link) :
    (links.foldl countLink c).v4 ≥ c.v4 ∧ (links.foldl countLink c).v6 ≥ c.v6 ∧ (links.foldl countLink c).dual ≥ c.dual := by
  induction links generalizing c with
  | nil => simp
  | cons l ls ih =>
    have h := ih (countLink c l)
    have : (countLink c l).v4 ≥ c.v4 ∧ (countLink c l).v6 ≥ c.v6 ∧ (countLink c l).dual ≥ c.dual := by
      unfold countLink
      repeat' split
      all_goals simp
    exact ⟨Nat.le_trans this.1 h.1, Nat.le_trans this.2.1 h.2.1, Nat.le_trans this.2.2 h.2.2⟩

theorem counts (c : Counts) (links : List Link) :
    ((links.foldl countLink c).v4 > 0 ↔ c.v4 > 0 ∨ Only links AF_INET) ∧
    ((links.foldl countLink c).v6 > 0 ↔ c.v6 > 0 ∨ Only links AF_INET6) ∧
    ((links.foldl countLink c).dual > 0 ↔ c.dual > 0 ∨ Dual links) := by
  induction links generalizing c with
  | nil => simp [Only, Dual]
  | cons l ls ih =>
    obtain ⟨h1, h2, h3⟩ := ih (countLink c l)
    have e1 : ∀ f, Only (l :: ls) f ↔ (l.sym = true ∧ l.partner = none ∧ l.fam = f) ∨ Only ls f := by
      intro f; simp [Only]
    have e2 : Dual (l :: ls) ↔ (l.sym = true ∧ l.partner ≠ none ∧ l.fam = AF_INET) ∨ Dual ls := by simp [Dual]
    have n46 : AF_INET ≠ AF_INET6 := by decide
    rw [List.foldl_cons, h1, h2, h3, e1, e1, e2]
    unfold countLink
    by_cases a : l.sym = false
    · simp [a]
    · have a' : l.sym = true := by simpa using a
      by_cases b : l.partner = none
      · by_cases c4 : l.fam = AF_INET
        · simp [a', b, c4, n46]
        · by_cases c6 : l.fam = AF_INET6
          · simp [a', b, c6, n46.symm]
          · simp [a', b, c4, c6]
      · by_cases c4 : l.fam = AF_INET
        · simp [a', b, c4]
        · simp [a', b, c4]

theorem sent4_iff (links : List Link) : Sent4 links ↔ Only links AF_INET := by
  obtain ⟨h1, h2, h3⟩ := counts {} links
  have h1' : (links.foldl countLink {}).v4 > 0 ↔ Only links AF_INET := by simpa using h1
  unfold Sent4 forwardingSelector updateStatus
  rw [← h1']
  generalize links.foldl countLink {} = c
  have n1 : AF_INET6 ≠ AF_INET := by decide
  have n2 : AF_UNSPEC ≠ AF_INET := by decide
  by_cases hv : c.v4 = 0
  · by_cases hd : c.dual > 0 <;> simp [hv, hd, n1, n2]
  · have : 0 < c.v4 := Nat.pos_of_ne_zero hv
    simp [this]

theorem sent6_iff (links : List Link) : Sent6 links ↔ Only links AF_INET6 ∨ (Dual links ∧ ¬ Only links AF_INET) := by
  obtain ⟨h1, h2, h3⟩ := counts {} links
  have h1' : (links.foldl countLink {}).v4 > 0 ↔ Only links AF_INET := by simpa using h1
  have h2' : (links.foldl countLink {}).v6 > 0 ↔ Only links AF_INET6 := by simpa using h2
  have h3' : (links.foldl countLink {}).dual > 0 ↔ Dual links := by simpa using h3
  unfold Sent6 forwardingSelector updateStatus
  rw [← h1', ← h2', ← h3']
  generalize links.foldl countLink {} = c
  have n1 : AF_INET ≠ AF_INET6 := by decide
  have n2 : AF_UNSPEC ≠ AF_INET6 := by decide
  by_cases h6 : c.v6 = 0 <;> by_cases hv : c.v4 = 0 <;> by_cases hd : c.dual > 0 <;> simp [h6, hv, hd, n1, n2]
  all_goals omega

/-! ### addresses -/

/-- no two entries of an interface have the same address -/
def Uniq (es : List Entry) : Prop := es.Pairwise fun x y => ¬ (x.ifc = y.ifc ∧ x.addr = y.addr)

theorem is_iff {e : Entry} {i : Nat} {a : Netaddr} : e.is i a = true ↔ e.ifc = i ∧ e.addr = a := by simp [Entry.is]

theorem find_key {es : List Entry} {i : Nat} {a : Netaddr} {e : Entry} (h : find es i a = some e) : e.ifc = i ∧ e.addr = a :=
  is_iff.mp (List.find?_some h)

theorem find_map {f : Entry → Entry} (hf : ∀ e, (f e).ifc = e.ifc ∧ (f e).addr = e.addr) (es : List Entry) (i : Nat) (a : Netaddr) :
    find (es.map f) i a = (find es i a).map f := by
  unfold find
  rw [List.find?_map]
  congr 1
  congr 1
  funext e
  simp [Entry.is, (hf e).1, (hf e).2]

theorem uniq_map {f : Entry → Entry} (hf : ∀ e, (f e).ifc = e.ifc ∧ (f e).addr = e.addr) {es : List Entry} (h : Uniq es) : Uniq (es.map f) := by
  unfold Uniq at *
  rw [List.pairwise_map]
  refine h.imp ?_
  intro x y hxy hk
  rw [(hf x).1, (hf x).2, (hf y).1, (hf y).2] at hk
  exact hxy hk

theorem uniq_addrAdd {es : List Entry} (h : Uniq es) (i : Nat) (a : Netaddr) : Uniq (addrAdd es i a) := by
  unfold addrAdd
  split
  · rename_i hn
    unfold Uniq
    rw [List.pairwise_append]
    refine ⟨h, by simp, ?_⟩
    intro x hx y hy
    simp only [List.mem_singleton] at hy
    subst hy
    intro hk
    have := List.find?_eq_none.mp hn x hx
    exact this (is_iff.mpr hk)
  · refine uniq_map ?_ h
    intro e
    split <;> exact ⟨rfl, rfl⟩

theorem find_addrAdd_same (es : List Entry) (i : Nat) (a : Netaddr) : find (addrAdd es i a) i a = some { ifc := i, addr := a } := by
  unfold addrAdd
  split
  · rename_i hn
    unfold find at *
    rw [List.find?_append, hn]
    simp [Entry.is]
  · rename_i e he
    rw [find_map, he]
    · have hk := find_key he
      simp only [Option.map_some]
      rw [if_pos (is_iff.mpr hk)]
      obtain ⟨h1, h2⟩ := hk
      cases e
      simp_all
    · intro e; split <;> exact ⟨rfl, rfl⟩

theorem find_addrAdd_other (es : List Entry) {i j : Nat} {a b : Netaddr} (h : ¬ (j = i ∧ b = a)) : find (addrAdd es j b) i a = find es i a := by
  unfold addrAdd
  split
  · unfold find
    rw [List.find?_append]
    have : ([{ ifc := j, addr := b }] : List Entry).find? (Entry.is i a) = none := by
      simp only [List.find?_cons, List.find?_nil]
      have : Entry.is i a { ifc := j, addr := b } = false := by simp [Entry.is]; simpa using h
      rw [this]
    rw [this]
    simp
  · rw [find_map]
    · cases he : find es i a with
      | none => rfl
      | some e =>
        have hk := find_key he
        simp only [Option.map_some]
        rw [if_neg]
        intro hj
        have := is_iff.mp hj
        exact h ⟨this.1.symm.trans hk.1, this.2.symm.trans hk.2⟩
    · intro e; split <;> exact ⟨rfl, rfl⟩

/-- an address passes the tests of the loop -/
def Passes (env : Env) (a : Netaddr) : Prop :=
  (a.type = AF_INET → env.loopback = true ∨ env.active4 = true) ∧
    (a.type = AF_INET6 → env.loopback = true ∨ env.active6 = true) ∧ env.accept a = true

theorem addLoop_cons (env : Env) (i : Nat) (es : List Entry) (b : Netaddr) (bs : List Netaddr) :
    (Passes env b → addLoop env i es (b :: bs) = addLoop env i (addrAdd es i b) bs) ∧
    (¬ Passes env b → addLoop env i es (b :: bs) = addLoop env i es bs) := by
  have e : addLoop env i es (b :: bs) = if b.type = AF_INET ∧ ¬ (env.loopback || env.active4) then addLoop env i es bs
    else if b.type = AF_INET6 ∧ ¬ (env.loopback || env.active6) then addLoop env i es bs
    else if env.accept b then addLoop env i (addrAdd es i b) bs else addLoop env i es bs := rfl
  rw [e]
  constructor
  · rintro ⟨h1, h2, h3⟩
    rw [if_neg, if_neg, if_pos h3]
    · rintro ⟨h, hn⟩; exact hn (by simpa using h2 h)
    · rintro ⟨h, hn⟩; exact hn (by simpa using h1 h)
  · intro hn
    by_cases c1 : b.type = AF_INET ∧ ¬ (env.loopback || env.active4)
    · rw [if_pos c1]
    · rw [if_neg c1]
      by_cases c2 : b.type = AF_INET6 ∧ ¬ (env.loopback || env.active6)
      · rw [if_pos c2]
      · rw [if_neg c2, if_neg]
        intro c3
        refine hn ⟨?_, ?_, c3⟩
        · intro h
          have := not_and.mp c1 h
          cases hl : env.loopback <;> simp_all
        · intro h
          have := not_and.mp c2 h
          cases hl : env.loopback <;> simp_all

theorem uniq_addLoop (env : Env) (i : Nat) (as : List Netaddr) : ∀ {es : List Entry}, Uniq es → Uniq (addLoop env i es as) := by
  induction as with
  | nil => exact fun h => h
  | cons b bs ih =>
    intro es h
    by_cases hp : Passes env b
    · rw [(addLoop_cons env i es b bs).1 hp]; exact ih (uniq_addrAdd h i b)
    · rw [(addLoop_cons env i es b bs).2 hp]; exact ih h

theorem find_addLoop_in (env : Env) (i : Nat) {a : Netaddr} (ha : Passes env a) (as : List Netaddr) :
    ∀ es : List Entry, (a ∈ as ∨ find es i a = some { ifc := i, addr := a }) → find (addLoop env i es as) i a = some { ifc := i, addr := a } := by
  induction as with
  | nil => intro es h; exact h.elim (fun h => absurd h (by simp)) id
  | cons b bs ih =>
    intro es h
    by_cases hp : Passes env b
    · rw [(addLoop_cons env i es b bs).1 hp]
      apply ih
      by_cases hb : b = a
      · subst hb; exact .inr (find_addrAdd_same es i b)
      · rcases h with h | h
        · exact .inl ((List.mem_cons.mp h).resolve_left (fun h => hb h.symm))
        · exact .inr (by rw [find_addrAdd_other es (fun h => hb h.2)]; exact h)
    · rw [(addLoop_cons env i es b bs).2 hp]
      apply ih
      rcases h with h | h
      · refine .inl ((List.mem_cons.mp h).resolve_left ?_)
        intro h; subst h; exact hp ha
      · exact .inr h

theorem find_addLoop_out (env : Env) {i j : Nat} {a : Netaddr} (as : List Netaddr) (h : ¬ (j = i ∧ a ∈ as ∧ Passes env a)) :
    ∀ es : List Entry, find (addLoop env j es as) i a = find es i a := by
  induction as with
  | nil => exact fun _ => rfl
  | cons b bs ih =>
    intro es
    have ih := ih (fun hh => h ⟨hh.1, List.mem_cons_of_mem _ hh.2.1, hh.2.2⟩)
    by_cases hp : Passes env b
    · rw [(addLoop_cons env j es b bs).1 hp, ih, find_addrAdd_other]
      rintro ⟨h1, h2⟩
      subst h2
      exact h ⟨h1, by simp, hp⟩
    · rw [(addLoop_cons env j es b bs).2 hp, ih]

theorem mark_key (i : Nat) (e : Entry) : (if e.ifc = i then { e with toBeRemoved := true } else e).ifc = e.ifc ∧
    (if e.ifc = i then { e with toBeRemoved := true } else e).addr = e.addr := by
  split <;> exact ⟨rfl, rfl⟩

theorem old_key (t v i : Nat) (e : Entry) :
    (if e.ifc = i ∧ e.toBeRemoved = true ∧ e.removed = false then hasBeenRemoved t v { e with toBeRemoved := false } else e).ifc = e.ifc ∧
    (if e.ifc = i ∧ e.toBeRemoved = true ∧ e.removed = false then hasBeenRemoved t v { e with toBeRemoved := false } else e).addr = e.addr := by
  split <;> exact ⟨rfl, rfl⟩

theorem uniq_event {s : St} (h : Uniq s.entries) (t i : Nat) (env : Env) : Uniq (interfaceEvent s t i env).entries := by
  unfold interfaceEvent
  have hm : Uniq (markAll i s.entries) := uniq_map (mark_key i) h
  refine uniq_map (old_key t (s.hold i) i) ?_
  split
  · exact uniq_addLoop env i _ hm
  · exact hm

/-- what is known about an address: removed flag and time of the timer -/
def view (s : St) (i : Nat) (a : Netaddr) : Option (Bool × Option Nat) := (find s.entries i a).map fun e => (e.removed, e.due)

theorem passes_usable {env : Env} {a : Netaddr} : Usable env a ↔ env.up = true ∧ a ∈ env.addrs ∧ Passes env a := by
  simp [Usable, Passes]

theorem view_event_usable (s : St) (t : Nat) {i : Nat} {env : Env} {a : Netaddr} (h : Usable env a) :
    view (interfaceEvent s t i env) i a = some (false, none) := by
  obtain ⟨h1, h2, h3⟩ := passes_usable.mp h
  unfold view interfaceEvent removeOld
  simp only
  rw [find_map (old_key t (s.hold i) i), if_pos h1, find_addLoop_in env i h3 env.addrs _ (.inl h2)]
  simp

theorem find_marked (s : St) (t : Nat) {i j : Nat} {env : Env} {a : Netaddr} (h : ¬ (j = i ∧ Usable env a)) :
    find (interfaceEvent s t j env).entries i a =
      ((find s.entries i a).map fun e => if e.ifc = j then { e with toBeRemoved := true } else e).map fun e =>
        if e.ifc = j ∧ e.toBeRemoved = true ∧ e.removed = false then hasBeenRemoved t (s.hold j) { e with toBeRemoved := false } else e := by
  unfold interfaceEvent removeOld
  simp only
  rw [find_map (old_key t (s.hold j) j)]
  congr 1
  have : find (if env.up = true then addLoop env j (markAll j s.entries) env.addrs else markAll j s.entries) i a = find (markAll j s.entries) i a := by
    split
    · rename_i hu
      rw [find_addLoop_out]
      rintro ⟨h1, h2, h3⟩
      exact h ⟨h1, passes_usable.mpr ⟨hu, h2, h3⟩⟩
    · rfl
  rw [this]
  exact find_map (mark_key j) _ _ _

theorem view_event_not (s : St) (t : Nat) {i : Nat} {env : Env} {a : Netaddr} (h : ¬ Usable env a) :
    view (interfaceEvent s t i env) i a =
      (view s i a).map fun p => if p.1 = false then (true, timerSet t (s.hold i)) else p := by
  unfold view
  rw [find_marked s t (fun hh => h hh.2)]
  cases hf : find s.entries i a with
  | none => rfl
  | some e =>
    have hk := find_key hf
    simp only [Option.map_some, hk.1, if_true]
    cases hr : e.removed with
    | false => simp [hasBeenRemoved]
    | true => simp

theorem view_event_other (s : St) (t : Nat) {i j : Nat} (h : j ≠ i) (env : Env) (a : Netaddr) :
    view (interfaceEvent s t j env) i a = view s i a := by
  unfold view
  rw [find_marked s t (fun hh => h hh.1)]
  cases hf : find s.entries i a with
  | none => rfl
  | some e =>
    have hk := find_key hf
    have : ¬ e.ifc = j := fun hh => h (hh.symm.trans hk.1)
    simp [this]

theorem find_filter {es : List Entry} (hu : Uniq es) (p : Entry → Bool) (i : Nat) (a : Netaddr) :
    find (es.filter p) i a = (find es i a).filter p := by
  unfold find
  induction es with
  | nil => rfl
  | cons e es ih =>
    unfold Uniq at hu
    obtain ⟨h1, h2⟩ := List.pairwise_cons.mp hu
    have ih := ih h2
    by_cases hk : e.is i a = true
    · rw [List.find?_cons_of_pos hk]
      by_cases hp : p e = true
      · rw [List.filter_cons_of_pos hp, List.find?_cons_of_pos hk]
        simp [Option.filter, hp]
      · rw [List.filter_cons_of_neg hp]
        have : (es.filter p).find? (Entry.is i a) = none := by
          rw [List.find?_eq_none]
          intro x hx hx'
          have hx := (List.mem_filter.mp hx).1
          have k1 := is_iff.mp hk
          have k2 := is_iff.mp hx'
          exact h1 x hx ⟨k1.1.trans k2.1.symm, k1.2.trans k2.2.symm⟩
        rw [this]
        simp [Option.filter, hp]
    · rw [List.find?_cons_of_neg hk]
      by_cases hp : p e = true
      · rw [List.filter_cons_of_pos hp, List.find?_cons_of_neg hk]; exact ih
      · rw [List.filter_cons_of_neg hp]; exact ih

/-- the timer did not fire until `t` -/
def Waits (t : Nat) (d : Option Nat) : Prop := ∀ x, d = some x → t < x

theorem view_expire {s : St} (hu : Uniq s.entries) (t i : Nat) (a : Netaddr) (r : Bool) (d : Option Nat) :
    view (expire t s) i a = some (r, d) ↔ view s i a = some (r, d) ∧ Waits t d := by
  unfold view expire
  simp only
  rw [find_filter hu]
  cases hf : find s.entries i a with
  | none => simp [Option.filter]
  | some e =>
    cases hd : e.due with
    | none =>
      simp only [Option.filter, hd, Bool.not_false, if_true, Option.map_some, Option.some.injEq, Prod.mk.injEq, iff_self_and]
      rintro ⟨_, rfl⟩ x hx
      exact nomatch hx
    | some x =>
      by_cases hx : x ≤ t
      · simp only [Option.filter, hd, hx, decide_true, Bool.not_true, Bool.false_eq_true, if_false, Option.map_none, Option.map_some,
          Option.some.injEq, Prod.mk.injEq, reduceCtorEq, false_iff, not_and]
        rintro ⟨_, rfl⟩ hw
        exact absurd (hw x rfl) (by omega)
      · simp only [Option.filter, hd, hx, decide_false, Bool.not_false, if_true, Option.map_some, Option.some.injEq, Prod.mk.injEq,
          iff_self_and]
        rintro ⟨_, rfl⟩ y hy
        cases hy
        omega

theorem uniq_filter {es : List Entry} (h : Uniq es) (p : Entry → Bool) : Uniq (es.filter p) := List.Pairwise.filter p h

theorem view_removed {s : St} (hu : Uniq s.entries) (i j : Nat) (a : Netaddr) :
    view (removeInterface s j) i a = if j = i then none else view s i a := by
  unfold view removeInterface
  simp only
  rw [find_filter hu]
  cases hf : find s.entries i a with
  | none => simp [Option.filter]
  | some e =>
    have hk := find_key hf
    by_cases h : j = i
    · simp [Option.filter, hk.1, h]
    · have : i ≠ j := fun hh => h hh.symm
      simp [Option.filter, hk.1, h, this]

theorem hold_event (s : St) (t i : Nat) (env : Env) : (interfaceEvent s t i env).hold = s.hold := rfl

theorem hold_run (i : Nat) (h : List (Nat × Ev)) : (run h).hold i = holdTime i h := by
  induction h with
  | nil => rfl
  | cons p h ih =>
    obtain ⟨t, e⟩ := p
    cases e with
    | change j env => exact ih
    | settings j env o v =>
      show (if i = j then (if o = 0 then v else o) else (run h).hold i) = holdTime i ((t, .settings j env o v) :: h)
      rw [ih]
      show _ = if j = i then (if o = 0 then v else o) else holdTime i h
      by_cases c : i = j
      · rw [if_pos c, if_pos c.symm]
      · rw [if_neg c, if_neg (fun h => c h.symm)]
    | remove j =>
      show (if i = j then 0 else (run h).hold i) = holdTime i ((t, .remove j) :: h)
      rw [ih]
      show _ = if j = i then 0 else holdTime i h
      by_cases c : i = j
      · rw [if_pos c, if_pos c.symm]
      · rw [if_neg c, if_neg (fun h => c h.symm)]
    | wait => exact ih

theorem uniq_run (h : List (Nat × Ev)) : Uniq (run h).entries := by
  induction h with
  | nil => exact List.Pairwise.nil
  | cons p h ih =>
    obtain ⟨t, e⟩ := p
    have hx : Uniq (expire t (run h)).entries := uniq_filter ih _
    cases e with
    | change j env => exact uniq_event hx t j env
    | settings j env o v => exact uniq_event hx t j env
    | remove j => exact uniq_filter hx _
    | wait => exact hx

/-- an event seen from an address -/
theorem view_step (h : List (Nat × Ev)) (t : Nat) (e : Ev) (i : Nat) (a : Netaddr) :
    match e.news i with
    | .seen env => (Usable env a → view (run ((t, e) :: h)) i a = some (false, none)) ∧
        (¬ Usable env a → view (run ((t, e) :: h)) i a =
          (view (expire t (run h)) i a).map fun p => if p.1 = false then (true, timerSet t (holdTime i h)) else p)
    | .gone => view (run ((t, e) :: h)) i a = none
    | .nothing => view (run ((t, e) :: h)) i a = view (expire t (run h)) i a := by
  have hx : Uniq (expire t (run h)).entries := uniq_filter (uniq_run h) _
  have hh : (expire t (run h)).hold i = holdTime i h := hold_run i h
  cases e with
  | change j env =>
    show match (if j = i then News.seen env else .nothing) with | .seen _ => _ | .gone => _ | .nothing => _
    by_cases c : j = i
    · subst c
      rw [if_pos rfl]
      exact ⟨fun hu => view_event_usable _ t hu, fun hu => by rw [← hh]; exact view_event_not _ t hu⟩
    · rw [if_neg c]
      exact view_event_other _ t c env a
  | settings j env o v =>
    show match (if j = i then News.seen env else .nothing) with | .seen _ => _ | .gone => _ | .nothing => _
    have hv : view (run ((t, .settings j env o v) :: h)) i a = view (interfaceEvent (expire t (run h)) t j env) i a := rfl
    by_cases c : j = i
    · subst c
      rw [if_pos rfl]
      exact ⟨fun hu => hv.trans (view_event_usable _ t hu), fun hu => by rw [← hh]; exact hv.trans (view_event_not _ t hu)⟩
    · rw [if_neg c]
      exact hv.trans (view_event_other _ t c env a)
  | remove j =>
    show match (if j = i then News.gone else .nothing) with | .seen _ => _ | .gone => _ | .nothing => _
    have hv : view (run ((t, .remove j) :: h)) i a = view (removeInterface (expire t (run h)) j) i a := rfl
    by_cases c : j = i
    · rw [if_pos c]
      show view (run ((t, .remove j) :: h)) i a = none
      rw [hv, view_removed hx, if_pos c]
    · rw [if_neg c]
      show view (run ((t, .remove j) :: h)) i a = _
      rw [hv, view_removed hx, if_neg c]
  | wait => rfl

theorem lostAt_cons (i : Nat) (a : Netaddr) (p : Nat × Ev) (h : List (Nat × Ev)) (t v : Nat) :
    LostAt i a (p :: h) t v ↔
      (p.1 = t ∧ (∃ env, p.2.news i = .seen env ∧ ¬ Usable env a) ∧ Active i a h ∧ v = holdTime i h) ∨
      ((match p.2.news i with | .seen env => ¬ Usable env a | .gone => False | .nothing => True) ∧ LostAt i a h t v) := by
  constructor
  · rintro ⟨later, e, env, before, h1, h2, h3, h4, h5, h6⟩
    cases later with
    | nil =>
      obtain ⟨rfl, rfl⟩ := List.cons.inj h1
      exact .inl ⟨rfl, ⟨env, h2, h3⟩, h4, h5⟩
    | cons q later =>
      obtain ⟨rfl, rfl⟩ := List.cons.inj h1
      exact .inr ⟨h6 _ (by simp), later, e, env, before, rfl, h2, h3, h4, h5, fun x hx => h6 x (by simp [hx])⟩
  · rintro (⟨h1, ⟨env, h2, h3⟩, h4, h5⟩ | ⟨h1, later, e, env, before, rfl, h2, h3, h4, h5, h6⟩)
    · subst h1
      exact ⟨[], p.2, env, h, rfl, h2, h3, h4, h5, fun x hx => absurd hx (by simp)⟩
    · refine ⟨p :: later, e, env, before, rfl, h2, h3, h4, h5, ?_⟩
      intro x hx
      rcases List.mem_cons.mp hx with rfl | hx'
      · exact h1
      · exact h6 x hx'

theorem waits_timerSet (t v : Nat) : Waits t (timerSet t v) := by
  unfold Waits timerSet
  intro x hx
  split at hx
  · exact nomatch hx
  · cases hx; omega

theorem view_run (i : Nat) (a : Netaddr) (h : List (Nat × Ev)) (ho : Ordered h) :
    (∀ d, view (run h) i a = some (false, d) ↔ (Active i a h ∧ d = none)) ∧
    (∀ d, view (run h) i a = some (true, d) ↔ Waits (now h) d ∧ ∃ t v, LostAt i a h t v ∧ d = timerSet t v) := by
  induction h with
  | nil =>
    refine ⟨fun d => ⟨fun h => (nomatch h), fun h => h.1.elim⟩, fun d => ⟨fun h => (nomatch h), ?_⟩⟩
    rintro ⟨_, t, v, ⟨later, _, _, _, h1, _⟩, _⟩
    cases later <;> exact nomatch h1
  | cons p h ih =>
    obtain ⟨t, e⟩ := p
    obtain ⟨o1, o2⟩ := List.pairwise_cons.mp ho
    obtain ⟨ia, il⟩ := ih o2
    have hle : now h ≤ t := by
      cases h with
      | nil => exact Nat.zero_le _
      | cons q _ => exact o1 q (by simp)
    have wm : ∀ d, Waits t d → Waits (now h) d := fun d hw x hx => Nat.lt_of_le_of_lt hle (hw x hx)
    have va : ∀ d, view (expire t (run h)) i a = some (false, d) ↔ Active i a h ∧ d = none := by
      intro d
      rw [view_expire (uniq_run h), ia]
      exact ⟨fun h => h.1, fun h => ⟨h, by rw [h.2]; exact fun x hx => nomatch hx⟩⟩
    have vl : ∀ d, view (expire t (run h)) i a = some (true, d) ↔ Waits t d ∧ ∃ t v, LostAt i a h t v ∧ d = timerSet t v := by
      intro d
      rw [view_expire (uniq_run h), il]
      exact ⟨fun h => ⟨h.2, h.1.2⟩, fun h => ⟨⟨wm d h.1, h.2⟩, h.1⟩⟩
    have st := view_step h t e i a
    have ea : Active i a ((t, e) :: h) = match e.news i with | .seen env => Usable env a | .gone => False | .nothing => Active i a h := rfl
    have el := fun t' v => lostAt_cons i a (t, e) h t' v
    simp only at el
    cases hn : e.news i with
    | nothing =>
      rw [hn] at st ea
      simp only at st ea
      rw [st, ea]
      refine ⟨va, fun d => ?_⟩
      rw [vl]
      have : ∀ t' v, LostAt i a ((t, e) :: h) t' v ↔ LostAt i a h t' v := by
        intro t' v
        rw [el, hn]
        simp
      simp only [this]
      rfl
    | gone =>
      rw [hn] at st ea
      simp only at st ea
      rw [st, ea]
      refine ⟨fun d => by simp, fun d => ?_⟩
      have : ∀ t' v, ¬ LostAt i a ((t, e) :: h) t' v := by
        intro t' v
        rw [el, hn]
        simp
      simp [this]
    | seen env =>
      rw [hn] at st ea
      simp only at st ea
      obtain ⟨s1, s2⟩ := st
      rw [ea]
      by_cases hu : Usable env a
      · rw [s1 hu]
        refine ⟨fun d => by simp [hu, eq_comm], fun d => ?_⟩
        have : ∀ t' v, ¬ LostAt i a ((t, e) :: h) t' v := by
          intro t' v
          rw [el, hn]
          simp [hu]
        simp [this]
      · rw [s2 hu]
        have hl : ∀ t' v, LostAt i a ((t, e) :: h) t' v ↔ (t = t' ∧ Active i a h ∧ v = holdTime i h) ∨ LostAt i a h t' v := by
          intro t' v
          rw [el, hn]
          simp [hu]
        simp only [hl]
        refine ⟨fun d => ?_, fun d => ?_⟩
        · refine ⟨fun hh => ?_, fun hh => absurd hh.1 hu⟩
          exfalso
          obtain ⟨q, _, hq⟩ := Option.map_eq_some_iff.mp hh
          split at hq
          · exact nomatch hq
          · rename_i hc; rw [hq] at hc; exact hc rfl
        · show _ ↔ Waits t d ∧ _
          constructor
          · intro hh
            obtain ⟨⟨r, d'⟩, hq1, hq2⟩ := Option.map_eq_some_iff.mp hh
            cases r with
            | false =>
              simp only [if_true, Prod.mk.injEq, true_and] at hq2
              subst hq2
              exact ⟨waits_timerSet _ _, t, _, .inl ⟨rfl, ((va d').mp hq1).1, rfl⟩, rfl⟩
            | true =>
              simp only [reduceCtorEq, if_false, Prod.mk.injEq, true_and] at hq2
              subst hq2
              obtain ⟨w, t', v, l1, l2⟩ := (vl d').mp hq1
              exact ⟨w, t', v, .inr l1, l2⟩
          · rintro ⟨w, t', v, (⟨rfl, l1, rfl⟩ | l1), rfl⟩
            · rw [(va none).mpr ⟨l1, rfl⟩]
              simp
            · rw [(vl _).mpr ⟨w, t', v, l1, rfl⟩]
              simp

end Verif.NhdpIf
