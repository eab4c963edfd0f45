import Verif.OsTun.Spec
/-!
C227: link speeds of interfaces become default bit rates.  C228: tunnels exist exactly for added objects.  C229: virtual interfaces.
-/

namespace Verif.OsTun

/-! ## Link speeds -/

theorem queried_some {h : Host} {i : Ifc} {v : Int} : queried h i = some v ↔ Knows h i v := by
  unfold queried queryName Knows
  by_cases hb : i.base = i.index
  · simp only [hb, ne_eq, not_true, if_false, if_true, exists_and_left]
    cases hs : h.speed i.name with
    | none => simp [hs]
    | some s =>
      dsimp only
      by_cases h1 : s = 0 ∨ s = 65535 ∨ s = 4294967295
      · rw [if_pos h1]
        constructor
        · intro e; cases e
        · rintro ⟨dev, e1, mb, e2, e3, e4, e5, e6⟩
          subst e1; rw [hs] at e2; injection e2 with e2; subst e2
          rcases h1 with h1 | h1 | h1 <;> contradiction
      · rw [if_neg h1]
        simp only [not_or] at h1
        constructor
        · intro e; injection e with e
          exact ⟨i.name, rfl, s, hs, h1.1, h1.2.1, h1.2.2, e.symm⟩
        · rintro ⟨dev, e1, mb, e2, e3, e4, e5, e6⟩
          subst e1; rw [hs] at e2; injection e2 with e2; subst e2; rw [e6]
  · simp only [hb, ne_eq, not_false_eq_true, if_true, if_false]
    cases hn : h.nameOf i.base with
    | none => simp
    | some d =>
      dsimp only
      cases hs : h.speed d with
      | none =>
        constructor
        · intro e; cases e
        · rintro ⟨dev, mb, e1, e2, _⟩
          injection e1 with e1; subst e1; rw [hs] at e2; cases e2
      | some s =>
        dsimp only
        by_cases h1 : s = 0 ∨ s = 65535 ∨ s = 4294967295
        · rw [if_pos h1]
          constructor
          · intro e; cases e
          · rintro ⟨dev, mb, e1, e2, e3, e4, e5, e6⟩
            injection e1 with e1; subst e1; rw [hs] at e2; injection e2 with e2; subst e2
            rcases h1 with h1 | h1 | h1 <;> contradiction
        · rw [if_neg h1]
          simp only [not_or] at h1
          constructor
          · intro e; injection e with e
            exact ⟨d, s, rfl, hs, h1.1, h1.2.1, h1.2.2, e.symm⟩
          · rintro ⟨dev, mb, e1, e2, e3, e4, e5, e6⟩
            injection e1 with e1; subst e1; rw [hs] at e2; injection e2 with e2; subst e2; rw [e6]

theorem setInt_learned {e : Entry} (hm : e.md = true) (v : Int) :
    ∃ e', setInt e ethOrigin v = some e' ∧ Learned e e' v ∧ e'.md = true := by
  obtain ⟨m, o, w⟩ := e
  cases hm
  cases o with
  | none =>
    refine ⟨_, rfl, Or.inr ⟨?_, rfl, rfl, rfl⟩, rfl⟩
    rintro ⟨p, e, _⟩; cases e
  | some p =>
    by_cases hp : p = ethOrigin ∨ p.prio < ethOrigin.prio
    · refine ⟨⟨true, some ethOrigin, v⟩, by simp [setInt, hp], Or.inr ⟨?_, rfl, rfl, rfl⟩, rfl⟩
      rintro ⟨q, e, hne, hle⟩
      injection e with e; subst e
      rcases hp with hp | hp
      · exact hne hp
      · simp only [ethOrigin] at hp; omega
    · refine ⟨⟨true, some p, w⟩, by simp [setInt, hp], Or.inl ⟨⟨p, rfl, ?_, ?_⟩, rfl⟩, rfl⟩
      · intro e; exact hp (Or.inl e)
      · have : ¬ p.prio < ethOrigin.prio := fun e => hp (Or.inr e)
        simp only [ethOrigin] at this; omega

theorem ethOne_other {h : Host} {db db' : Db} {i : Ifc} (e : ethOne h db i = some db') {n : Nat} (hn : n ≠ i.name) :
    db' n = db n := by
  unfold ethOne at e
  split at e
  · injection e with e; rw [e]
  · split at e
    · injection e with e; rw [e]
    · split at e
      · cases e
      · split at e
        · cases e
        · injection e with e; rw [← e]; simp [hn]

theorem ethOne_unknown {h : Host} {db : Db} {i : Ifc} (hu : ∀ v, ¬ Knows h i v) : ethOne h db i = some db := by
  unfold ethOne
  cases hq : queried h i with
  | none => rfl
  | some v => exact absurd (queried_some.1 hq) (hu v)

theorem ethOne_known {h : Host} {db : Db} {i : Ifc} {v : Int} (hk : Knows h i v) (ha : db i.name ≠ none ∨ h.alloc i.name = true)
    (hm : (before db i.name).rx.md = true ∧ (before db i.name).tx.md = true) :
    ∃ db' net, ethOne h db i = some db' ∧ db' i.name = some net ∧
      Learned (before db i.name).rx net.rx v ∧ Learned (before db i.name).tx net.tx v ∧
      net.ifType = (if (before db i.name).ifType = typeUndefined then typeEthernet else (before db i.name).ifType) := by
  have hadd : netAdd h db i.name = some (before db i.name) := by
    unfold netAdd before
    cases hd : db i.name with
    | some n => rfl
    | none =>
      rcases ha with ha | ha
      · exact absurd hd ha
      · simp [ha]
  obtain ⟨rx, e1, l1, _⟩ := setInt_learned hm.1 v
  obtain ⟨tx, e2, l2, _⟩ := setInt_learned hm.2 v
  refine ⟨fun n => if n = i.name then
      some ⟨if (before db i.name).ifType = typeUndefined then typeEthernet else (before db i.name).ifType, rx, tx⟩ else db n,
    ⟨if (before db i.name).ifType = typeUndefined then typeEthernet else (before db i.name).ifType, rx, tx⟩, ?_, ?_, l1, l2, rfl⟩
  · unfold ethOne
    rw [queried_some.2 hk]
    dsimp only
    rw [hadd]
    dsimp only
    rw [e1]
    dsimp only
    rw [e2]
  · simp

theorem ethOne_nomem {h : Host} {db : Db} {i : Ifc} (hd : db i.name = none) (ha : h.alloc i.name = false) :
    ethOne h db i = some db := by
  unfold ethOne
  cases hq : queried h i with
  | none => rfl
  | some v => simp [netAdd, hd, ha]

/-- One interface: the three cases together. -/
theorem ethOne_total {h : Host} {db : Db} {i : Ifc} (hm : (before db i.name).rx.md = true ∧ (before db i.name).tx.md = true) :
    ∃ db', ethOne h db i = some db' := by
  by_cases hk : ∃ v, Knows h i v
  · obtain ⟨v, hk⟩ := hk
    by_cases ha : db i.name ≠ none ∨ h.alloc i.name = true
    · obtain ⟨db', _, e, _⟩ := ethOne_known hk ha hm
      exact ⟨db', e⟩
    · simp only [ne_eq, not_or, Decidable.not_not, Bool.not_eq_true] at ha
      exact ⟨db, ethOne_nomem ha.1 ha.2⟩
  · exact ⟨db, ethOne_unknown fun v hv => hk ⟨v, hv⟩⟩

theorem before_meta {db : Db} {ifs : List Ifc} (hm : HasMeta db ifs) {i : Ifc} (hi : i ∈ ifs) :
    (before db i.name).rx.md = true ∧ (before db i.name).tx.md = true := by
  unfold before
  cases hd : db i.name with
  | none => exact ⟨rfl, rfl⟩
  | some n => exact hm i hi n hd

/-- The event is a sequence of independent updates, one for each interface. -/
theorem ethEvent_local {h : Host} {ifs : List Ifc} (hn : (ifs.map (·.name)).Nodup) :
    ∀ {db : Db}, HasMeta db ifs → ∃ db', ethEvent h db ifs = some db' ∧
      (∀ n, (∀ i ∈ ifs, i.name ≠ n) → db' n = db n) ∧
      ∀ i ∈ ifs, ∃ d1, ethOne h db i = some d1 ∧ db' i.name = d1 i.name := by
  induction ifs with
  | nil => intro db _; exact ⟨db, rfl, fun _ _ => rfl, fun i hi => absurd hi List.not_mem_nil⟩
  | cons i l ih =>
    intro db hm
    rw [List.map_cons, List.nodup_cons] at hn
    obtain ⟨d1, e1⟩ := ethOne_total (h := h) (before_meta hm List.mem_cons_self)
    have hne : ∀ j ∈ l, j.name ≠ i.name := fun j hj e => hn.1 (e ▸ List.mem_map.2 ⟨j, hj, rfl⟩)
    have hm1 : HasMeta d1 l := by
      intro j hj net hd
      rw [ethOne_other e1 (hne j hj)] at hd
      exact hm j (List.mem_cons_of_mem _ hj) net hd
    obtain ⟨db', e2, hf, hl⟩ := ih hn.2 hm1
    refine ⟨db', by simp [ethEvent, e1, e2], ?_, ?_⟩
    · intro n hh
      rw [hf n fun j hj => hh j (List.mem_cons_of_mem _ hj), ethOne_other e1 (Ne.symm (hh i List.mem_cons_self))]
    · intro j hj
      rcases List.mem_cons.1 hj with rfl | hj
      · exact ⟨d1, e1, hf _ fun k hk => hne k hk⟩
      · obtain ⟨d2, e3, e4⟩ := hl j hj
        -- the update of `j` does not depend on the one of `i`
        have hsame : d1 j.name = db j.name := ethOne_other e1 (hne j hj)
        have hb : before d1 j.name = before db j.name := by unfold before; rw [hsame]
        have : ∃ d3, ethOne h db j = some d3 ∧ d3 j.name = d2 j.name := by
          unfold ethOne at e3 ⊢
          cases hq : queried h j with
          | none => rw [hq] at e3; injection e3 with e3; exact ⟨db, rfl, by rw [← e3, hsame]⟩
          | some v =>
            rw [hq] at e3
            dsimp only at e3 ⊢
            have hna : netAdd h d1 j.name = netAdd h db j.name := by unfold netAdd; rw [hsame]
            rw [hna] at e3
            cases hna' : netAdd h db j.name with
            | none => rw [hna'] at e3; injection e3 with e3; exact ⟨db, rfl, by rw [← e3, hsame]⟩
            | some net =>
              rw [hna'] at e3
              dsimp only at e3 ⊢
              cases hr : setInt net.rx ethOrigin v with
              | none => rw [hr] at e3; cases e3
              | some rx =>
                rw [hr] at e3
                dsimp only at e3 ⊢
                cases ht : setInt net.tx ethOrigin v with
                | none => rw [ht] at e3; cases e3
                | some tx =>
                  rw [ht] at e3
                  dsimp only at e3 ⊢
                  injection e3 with e3
                  exact ⟨_, rfl, by rw [← e3]; simp⟩
        obtain ⟨d3, e5, e6⟩ := this
        exact ⟨d3, e5, by rw [e4, e6]⟩

/-- C227.  As long as all entries have metadata, a run of the listener never aborts.  Interfaces it does not know about keep their
data; an interface of unknown speed keeps its data; an interface of known speed gets that speed, in bit/s, as default bit rate in both
directions unless somebody with the same or a higher priority wrote the value, and becomes an Ethernet interface if its type was not
known. -/
theorem C227_speeds {h : Host} {ifs : List Ifc} {db : Db} (hn : (ifs.map (·.name)).Nodup) (hm : HasMeta db ifs) :
    ∃ db', ethEvent h db ifs = some db' ∧
      (∀ n, (∀ i ∈ ifs, i.name ≠ n) → db' n = db n) ∧
      (∀ i ∈ ifs, (∀ v, ¬ Knows h i v) → db' i.name = db i.name) ∧
      (∀ i ∈ ifs, db i.name = none → h.alloc i.name = false → db' i.name = none) ∧
      (∀ i ∈ ifs, ∀ v, Knows h i v → db i.name ≠ none ∨ h.alloc i.name = true →
        ∃ net, db' i.name = some net ∧
          Learned (before db i.name).rx net.rx v ∧ Learned (before db i.name).tx net.tx v ∧
          net.ifType = (if (before db i.name).ifType = 0 then 2 else (before db i.name).ifType)) := by
  obtain ⟨db', e, hf, hl⟩ := ethEvent_local (h := h) hn hm
  refine ⟨db', e, hf, ?_, ?_, ?_⟩
  · intro i hi hu
    obtain ⟨d1, e1, e2⟩ := hl i hi
    rw [ethOne_unknown hu] at e1
    injection e1 with e1; rw [e2, ← e1]
  · intro i hi hd ha
    obtain ⟨d1, e1, e2⟩ := hl i hi
    rw [ethOne_nomem hd ha] at e1
    injection e1 with e1; rw [e2, ← e1, hd]
  · intro i hi v hk ha
    obtain ⟨d1, e1, e2⟩ := hl i hi
    obtain ⟨d2, net, e3, e4, l1, l2, l3⟩ := ethOne_known hk ha (before_meta hm hi)
    rw [e3] at e1
    injection e1 with e1; subst e1
    exact ⟨net, by rw [e2, e4], l1, l2, l3⟩

/-- A host: interface 1 at 1000 Mbit/s, interface 2 stacked on it, interface 3 unknown. -/
def exHost : Host :=
  ⟨fun n => if n = 11 then some 1 else none, fun n => if n = 1 then some 1000 else if n = 3 then some 65535 else none, fun _ => true⟩

def exIfs : List Ifc := [⟨1, 11, 11⟩, ⟨2, 12, 11⟩, ⟨3, 13, 13⟩]

example : (exIfs.map (·.name)).Nodup ∧ HasMeta (fun _ => none) exIfs ∧ Knows exHost ⟨2, 12, 11⟩ 1000000000 := by
  refine ⟨by decide, (fun i _ net e => nomatch e), 1, 1000, by decide, by decide, by decide, by decide, by decide, by decide⟩

example : ((ethEvent exHost (fun _ => none) exIfs).map fun d => ((d 2).map fun n => n.rx.value, d 3)) =
    some (some 1000000000, none) := by decide

/-- A value of a better source is left alone. -/
example : ((ethEvent exHost (fun _ => some ⟨1, ⟨true, some ⟨7, 40⟩, 5⟩, {}⟩) exIfs).map fun d =>
    (d 1).map fun n => (n.ifType, n.rx.value, n.tx.value)) = some (some (1, 5, 1000000000)) := by decide

/-- C227, finding.  When another origin withdraws a default bit rate (`oonf_layer2_data_reset`), the entry has no metadata any more and
the next run of the listener aborts the daemon. -/
theorem C227_reset_counterexample {h : Host} {db : Db} {i : Ifc} {l : List Ifc} {v : Int} {net : Net} (hk : Knows h i v)
    (hd : db i.name = some net) (hr : net.rx = reset net.rx ∨ net.tx = reset net.tx) :
    ethEvent h db (i :: l) = none := by
  have : ethOne h db i = none := by
    unfold ethOne
    rw [queried_some.2 hk]
    dsimp only
    have : netAdd h db i.name = some net := by unfold netAdd; rw [hd]
    rw [this]
    dsimp only
    rcases hr with hr | hr
    · have : setInt net.rx ethOrigin v = none := by rw [hr]; rfl
      rw [this]
    · have ht : setInt net.tx ethOrigin v = none := by rw [hr]; rfl
      cases setInt net.rx ethOrigin v with
      | none => rfl
      | some rx => dsimp only; rw [ht]
  simp [ethEvent, this]

example : ethEvent exHost (fun n => if n = 1 then some ⟨2, reset ⟨true, some ⟨7, 40⟩, 5⟩, {}⟩ else none) exIfs = none :=
  C227_reset_counterexample (v := 1000000000)
    ⟨1, 1000, by decide, by decide, by decide, by decide, by decide, by decide⟩ (by rfl) (Or.inl rfl)

/-- C227, finding.  The value stays when the speed is not known any more, for instance because the cable was pulled. -/
theorem C227_stale_counterexample {h : Host} {db : Db} {i : Ifc} {net : Net} (hd : db i.name = some net)
    (hu : ∀ v, ¬ Knows h i v) : ∃ db', ethEvent h db [i] = some db' ∧ db' i.name = some net :=
  ⟨db, by simp [ethEvent, ethOne_unknown hu], hd⟩

example : ∃ db', ethEvent ⟨fun _ => none, fun _ => some 4294967295, fun _ => true⟩
    (fun _ => some ⟨2, ⟨true, some ethOrigin, 1000000000⟩, ⟨true, some ethOrigin, 1000000000⟩⟩) [⟨1, 11, 11⟩] = some db' ∧
    db' 1 = some ⟨2, ⟨true, some ethOrigin, 1000000000⟩, ⟨true, some ethOrigin, 1000000000⟩⟩ := by
  refine C227_stale_counterexample (i := ⟨1, 11, 11⟩) rfl ?_
  rintro v ⟨dev, mb, _, h2, _, _, h5, _⟩
  injection h2 with h2; exact h5 h2.symm

/-! ## Tunnels -/

theorem handle_none {p : Perm} {t : Tun} {s : St} {a : Bool} (h : usedBase t = none) : handle p t a s = (s, false) := by
  obtain ⟨f, sp, inn, lf, la, rf, ra, lk⟩ := t
  cases lf <;> cases rf <;> cases inn <;> first | rfl | cases h

theorem baseUp_kernel (s : St) (b : Base) (i : Inner) : (baseUp s b i).kernel = s.kernel ∧ (baseUp s b i).tree = s.tree := by
  unfold baseUp; split
  · exact ⟨rfl, rfl⟩
  · split <;> exact ⟨rfl, rfl⟩

theorem baseUp_up (s : St) (b : Base) (i : Inner) (h : ∀ k, s.flag k = true → s.up k.1 = true) :
    (baseUp s b i).up b = true ∧ ∀ k, (baseUp s b i).flag k = true → (baseUp s b i).up k.1 = true := by
  unfold baseUp
  by_cases h1 : s.flag (b, i) = true
  · rw [if_pos h1]; exact ⟨h _ h1, h⟩
  · rw [if_neg h1]
    by_cases h2 : s.up b = true
    · rw [if_pos h2]; exact ⟨h2, h⟩
    · rw [if_neg h2]
      refine ⟨by simp, ?_⟩
      intro k hk
      dsimp only at hk ⊢
      by_cases hb : k.1 = b
      · simp [hb]
      · have : k ≠ (b, i) := fun e => hb (by rw [e])
        rw [if_neg this] at hk
        rw [if_neg hb]; exact h k hk

/-- The request of an object for its device. -/
theorem usedBase_cases {t : Tun} {b : Base} (h : usedBase t = some b) :
    t.localFam = t.remoteFam ∧ ((t.localFam = .v4 ∧ base4 t.inner = some b) ∨ (t.localFam = .v6 ∧ base6 t.inner = some b)) := by
  obtain ⟨f, sp, inn, lf, la, rf, ra, lk⟩ := t
  cases lf <;> cases rf <;> cases inn <;>
    first
    | exact ⟨rfl, Or.inl ⟨rfl, h⟩⟩
    | exact ⟨rfl, Or.inr ⟨rfl, h⟩⟩
    | cases h

theorem handle_add_ok {p : Perm} {t : Tun} {s : St} {b : Base} {k : List KTun} (hu : usedBase t = some b)
    (hk : kAdd p s.kernel (req t b) = .ok k) :
    ∃ i, handle p t true s = (baseUp { s with kernel := k } b i, true) := by
  obtain ⟨e, ⟨hf, hb⟩ | ⟨hf, hb⟩⟩ := usedBase_cases hu
  · refine ⟨.ipv4, ?_⟩
    unfold handle
    rw [if_neg (by simpa using e), hf]
    dsimp only
    rw [hb]
    dsimp only
    rw [if_pos rfl]
    unfold add4
    rw [hk]
  · refine ⟨t.inner, ?_⟩
    unfold handle
    rw [if_neg (by simpa using e), hf]
    dsimp only
    rw [hb]
    dsimp only
    rw [if_pos rfl]
    unfold add6
    rw [hk]

theorem handle_add_refused {p : Perm} {t : Tun} {s : St} {b : Base} (hu : usedBase t = some b)
    (hk : kAdd p s.kernel (req t b) = .error .refused) : handle p t true s = (s, false) := by
  obtain ⟨e, ⟨hf, hb⟩ | ⟨hf, hb⟩⟩ := usedBase_cases hu
  · unfold handle
    rw [if_neg (by simpa using e), hf]
    dsimp only
    rw [hb]
    dsimp only
    rw [if_pos rfl]
    unfold add4
    rw [hk]
  · unfold handle
    rw [if_neg (by simpa using e), hf]
    dsimp only
    rw [hb]
    dsimp only
    rw [if_pos rfl]
    unfold add6
    rw [hk]

theorem handle_del {p : Perm} {t : Tun} {s : St} {b : Base} (hu : usedBase t = some b) : handle p t false s = del p t b s := by
  obtain ⟨e, ⟨hf, hb⟩ | ⟨hf, hb⟩⟩ := usedBase_cases hu
  · unfold handle
    rw [if_neg (by simpa using e), hf]
    dsimp only
    rw [hb]
    simp
  · unfold handle
    rw [if_neg (by simpa using e), hf]
    dsimp only
    rw [hb]
    simp

theorem req_isTunnel {t : Tun} {b : Base} (hu : usedBase t = some b) {x : KTun} : isTunnel t x ↔ x = req t b := by
  unfold isTunnel req
  constructor
  · rintro ⟨c, hc, e⟩; rw [hu] at hc; injection hc with hc; subst hc; exact e
  · intro e; exact ⟨b, hu, e⟩

theorem handle_not_creatable {p : Perm} {t : Tun} {s : St} (h : ¬ Creatable p t) : handle p t true s = (s, false) := by
  cases hu : usedBase t with
  | none => exact handle_none hu
  | some b =>
    refine handle_add_refused hu ?_
    have : p.allowed = false ∨ p.accepts b t.inner = false := by
      by_cases h1 : p.allowed = true
      · exact Or.inr (by by_cases h2 : p.accepts b t.inner = true
                         · exact absurd ⟨h1, b, hu, h2⟩ h
                         · simpa using h2)
      · exact Or.inl (by simpa using h1)
    unfold kAdd
    exact if_pos this

theorem kAdd_ok {p : Perm} {k : List KTun} {t : Tun} {b : Base} (hu : usedBase t = some b) (hc : Creatable p t)
    (hn : ∀ x ∈ k, ¬ Clash x (req t b)) : kAdd p k (req t b) = .ok (k ++ [req t b]) := by
  obtain ⟨ha, c, hc, hacc⟩ := hc
  rw [hu] at hc; injection hc with hc; subst hc
  unfold kAdd
  rw [if_neg (by simp [ha, req, hacc]), if_neg]
  rw [List.any_eq_true]
  rintro ⟨x, hx, hh⟩
  exact hn x hx (by simpa [Clash] using hh)

theorem eraseP_filter {k : List KTun} (hk : k.Pairwise fun x y => x.key ≠ y.key) (K : Key) :
    (k.eraseP fun x => x.key = K) = k.filter fun x => x.key ≠ K := by
  induction k with
  | nil => rfl
  | cons x k ih =>
    rw [List.pairwise_cons] at hk
    by_cases e : x.key = K
    · simp only [List.eraseP_cons, e, decide_true, ↓reduceIte, List.filter_cons, ne_eq, not_true_eq_false, decide_false]
      rw [List.filter_eq_self.2]
      · rfl
      · intro y hy
        have := hk.1 y hy
        rw [e] at this
        simpa using Ne.symm this
    · have ih := ih hk.2
      simp only [ne_eq, decide_not] at ih
      simp [e, ih]

/-- Invariant behind the refinement. -/
structure Inv (o : Nat → Tun) (foreign : List KTun) (s : St) : Prop where
  nodup : s.tree.Nodup
  keys : s.kernel.Pairwise fun x y => x.key ≠ y.key
  dev : ∀ i ∈ s.tree, ∃ b, usedBase (o i) = some b
  mem : ∀ x, x ∈ s.kernel ↔ x ∈ foreign ∨ ∃ i, i ∈ s.tree ∧ isTunnel (o i) x

theorem no_clash {o : Nat → Tun} {fr : List KTun} {s : St} (hc : Compatible o) (hf : Foreign o fr) (h : Inv o fr s) {i : Nat} {b : Base}
    (hu : usedBase (o i) = some b) (hi : i ∉ s.tree) : ∀ x ∈ s.kernel, ¬ Clash x (req (o i) b) := by
  intro x hx hcl
  rcases (h.mem x).1 hx with hx | ⟨j, hj, hj'⟩
  · exact hf x hx i _ ((req_isTunnel hu).2 rfl) hcl
  · have hne : j ≠ i := fun e => hi (e ▸ hj)
    obtain ⟨h1, h2⟩ := hc j i hne
    rcases hcl with hcl | hcl
    · obtain ⟨c, hcu, e⟩ := hj'
      subst e
      exact h1 hcl.1
    · exact h2 x _ hj' ((req_isTunnel hu).2 rfl) hcl

theorem addTun_ok {o : Nat → Tun} {fr : List KTun} {s : St} (hc : Compatible o) (hf : Foreign o fr) (h : Inv o fr s) {i : Nat} {p : Perm}
    (hi : i ∉ s.tree) (hcr : Creatable p (o i)) :
    ∃ s', addTun o p i s = (s', true) ∧ Inv o fr s' ∧ s'.tree = s.tree ++ [i] ∧
      ∃ b k, usedBase (o i) = some b ∧ s'.kernel = s.kernel ++ [req (o i) b] ∧
        s'.up = (baseUp { s with kernel := s.kernel ++ [req (o i) b] } b k).up := by
  obtain ⟨b, hu, hacc⟩ := hcr.2
  have hn := no_clash hc hf h hu hi
  have hk := kAdd_ok hu hcr hn
  obtain ⟨kd, hh⟩ := handle_add_ok hu hk
  obtain ⟨e1, e2⟩ := baseUp_kernel { s with kernel := s.kernel ++ [req (o i) b] } b kd
  have hins : insert o s.tree i = s.tree ++ [i] := by
    unfold insert
    rw [if_neg]
    rw [List.any_eq_true]
    rintro ⟨j, hj, e⟩
    exact (hc j i fun e => hi (e ▸ hj)).1 (by simpa using e)
  refine ⟨{ baseUp { s with kernel := s.kernel ++ [req (o i) b] } b kd with tree := s.tree ++ [i] }, ?_, ?_, rfl, b, kd, hu, e1, rfl⟩
  · unfold addTun
    rw [if_neg hi, hh]
    dsimp only
    rw [e2, hins]
  · refine ⟨?_, ?_, ?_, ?_⟩
    · dsimp only
      rw [List.nodup_append]
      exact ⟨h.nodup, by simp, fun a ha b hb e => hi (by simp at hb; rw [← hb, ← e]; exact ha)⟩
    · dsimp only
      rw [e1, List.pairwise_append]
      refine ⟨h.keys, by simp, fun x hx y hy => ?_⟩
      simp at hy; subst hy
      exact fun e => hn x hx (Or.inr e)
    · intro j hj
      dsimp only at hj
      rcases List.mem_append.1 hj with hj | hj
      · exact h.dev j hj
      · simp at hj; exact ⟨b, hj ▸ hu⟩
    · intro x
      dsimp only
      rw [e1]
      simp only [List.mem_append, List.mem_singleton, h.mem x]
      constructor
      · rintro ((hx | ⟨j, hj, hx⟩) | hx)
        · exact Or.inl hx
        · exact Or.inr ⟨j, Or.inl hj, hx⟩
        · exact Or.inr ⟨i, Or.inr rfl, (req_isTunnel hu).2 hx⟩
      · rintro (hx | ⟨j, hj | hj, hx⟩)
        · exact Or.inl (Or.inl hx)
        · exact Or.inl (Or.inr ⟨j, hj, hx⟩)
        · subst hj; exact Or.inr ((req_isTunnel hu).1 hx)

theorem removeTun_ok {o : Nat → Tun} {fr : List KTun} {s : St} (hc : Compatible o) (hf : Foreign o fr) (h : Inv o fr s) {i : Nat}
    {p : Perm} (hi : i ∈ s.tree) (hp : p.allowed = true) :
    ∃ s', removeTun o p i s = (s', true) ∧ Inv o fr s' ∧ s'.tree = s.tree.erase i ∧ s'.up = s.up ∧ s'.flag = s.flag ∧
      ∃ b, usedBase (o i) = some b ∧ s'.kernel = s.kernel.filter fun x => x.key ≠ (req (o i) b).key := by
  obtain ⟨b, hu⟩ := h.dev i hi
  have hmem : req (o i) b ∈ s.kernel := (h.mem _).2 (Or.inr ⟨i, hi, (req_isTunnel hu).2 rfl⟩)
  have hdel : kDel p s.kernel (req (o i) b) = some (s.kernel.filter fun x => x.key ≠ (req (o i) b).key) := by
    unfold kDel
    rw [if_neg (by simp [hp]), if_pos, eraseP_filter h.keys]
    rw [List.any_eq_true]
    exact ⟨_, hmem, by simp⟩
  refine ⟨{ s with kernel := s.kernel.filter fun x => x.key ≠ (req (o i) b).key, tree := s.tree.erase i }, ?_, ?_, rfl, rfl, rfl, b, hu,
    rfl⟩
  · unfold removeTun
    rw [if_pos hi, handle_del hu]
    unfold del
    rw [hdel]
  · refine ⟨h.nodup.erase _, h.keys.filter _, fun j hj => h.dev j (List.mem_of_mem_erase hj), ?_⟩
    intro x
    dsimp only
    rw [List.mem_filter, h.mem x]
    simp only [ne_eq, decide_not, Bool.not_eq_true', decide_eq_false_iff_not]
    constructor
    · rintro ⟨hx | ⟨j, hj, hx⟩, hk⟩
      · exact Or.inl hx
      · refine Or.inr ⟨j, ?_, hx⟩
        have : j ≠ i := by
          intro e; subst e
          exact hk (by rw [(req_isTunnel hu).1 hx])
        exact (List.mem_erase_of_ne this).2 hj
    · rintro (hx | ⟨j, hj, hx⟩)
      · exact ⟨Or.inl hx, fun e => hf x hx i _ ((req_isTunnel hu).2 rfl) (Or.inr e)⟩
      · have hj' := (h.nodup.mem_erase_iff).1 hj
        refine ⟨Or.inr ⟨j, hj'.2, hx⟩, fun e => ?_⟩
        exact (hc j i hj'.1).2 x _ hx ((req_isTunnel hu).2 rfl) e

theorem removeTun_fail {o : Nat → Tun} {s : St} {i : Nat} {p : Perm} (h : i ∉ s.tree ∨ p.allowed = false) :
    removeTun o p i s = (s, false) := by
  unfold removeTun
  by_cases hi : i ∈ s.tree
  · rw [if_pos hi]
    have hp : p.allowed = false := by rcases h with h | h; exact absurd hi h; exact h
    have : handle p (o i) false s = (s, false) := by
      cases hu : usedBase (o i) with
      | none => exact handle_none hu
      | some b =>
        rw [handle_del hu]
        unfold del kDel
        rw [if_pos hp]
    rw [this]
  · rw [if_neg hi]

theorem addTun_fail {o : Nat → Tun} {s : St} {i : Nat} {p : Perm} (h : i ∈ s.tree ∨ ¬ Creatable p (o i)) :
    addTun o p i s = (s, false) := by
  unfold addTun
  by_cases hi : i ∈ s.tree
  · rw [if_pos hi]
  · rw [if_neg hi, handle_not_creatable (by rcases h with h | h; exact absurd h hi; exact h)]

theorem inv_shows {o : Nat → Tun} {fr : List KTun} {s : St} (h : Inv o fr s) : Shows o fr (· ∈ s.tree) s :=
  ⟨fun _ => Iff.rfl, h.mem⟩

theorem step_spec {o : Nat → Tun} {fr : List KTun} {s : St} (hc : Compatible o) (hf : Foreign o fr) (h : Inv o fr s) (op : Op)
    {a : Nat → Prop} (ha : ∀ i, i ∈ s.tree ↔ a i) :
    Inv o fr (step o s op).1 ∧ ∃ a', Spec o a op a' (step o s op).2 ∧ ∀ i, i ∈ (step o s op).1.tree ↔ a' i := by
  cases op with
  | add i p =>
    by_cases hi : i ∈ s.tree
    · have : step o s (.add i p) = (s, false) := addTun_fail (Or.inl hi)
      rw [this]
      exact ⟨h, a, .notAdded a i p (Or.inl ((ha i).1 hi)), ha⟩
    · by_cases hcr : Creatable p (o i)
      · obtain ⟨s', e, hI, et, _⟩ := addTun_ok hc hf h hi hcr
        have : step o s (.add i p) = (s', true) := e
        rw [this]
        refine ⟨hI, _, .added a i p (fun e => hi ((ha i).2 e)) hcr, ?_⟩
        intro j
        dsimp only
        rw [et, List.mem_append, List.mem_singleton, ha j, or_comm]
      · have : step o s (.add i p) = (s, false) := addTun_fail (Or.inr hcr)
        rw [this]
        exact ⟨h, a, .notAdded a i p (Or.inr hcr), ha⟩
  | remove i p =>
    by_cases hi : i ∈ s.tree
    · by_cases hp : p.allowed = true
      · obtain ⟨s', e, hI, et, _⟩ := removeTun_ok hc hf h hi hp
        have : step o s (.remove i p) = (s', true) := e
        rw [this]
        refine ⟨hI, _, .removed a i p ((ha i).1 hi) hp, ?_⟩
        intro j
        dsimp only
        rw [et, h.nodup.mem_erase_iff, ha j]
      · have hp' : p.allowed = false := by simpa using hp
        have : step o s (.remove i p) = (s, false) := removeTun_fail (Or.inr hp')
        rw [this]
        exact ⟨h, a, .notRemoved a i p (Or.inr hp'), ha⟩
    · have : step o s (.remove i p) = (s, false) := removeTun_fail (Or.inl hi)
      rw [this]
      exact ⟨h, a, .notRemoved a i p (Or.inl fun e => hi ((ha i).2 e)), ha⟩

theorem run_spec {o : Nat → Tun} {fr : List KTun} (hc : Compatible o) (hf : Foreign o fr) (ops : List Op) :
    ∀ {s : St} {a : Nat → Prop}, Inv o fr s → (∀ i, i ∈ s.tree ↔ a i) →
      Inv o fr (run o s ops).1 ∧ ∃ a', SpecRun o a ops a' (run o s ops).2 ∧ ∀ i, i ∈ (run o s ops).1.tree ↔ a' i := by
  induction ops with
  | nil => intro s a h ha; exact ⟨h, a, .nil a, ha⟩
  | cons op l ih =>
    intro s a h ha
    obtain ⟨hI, a', hs, ha'⟩ := step_spec hc hf h op ha
    obtain ⟨hI2, a'', hs2, ha''⟩ := ih hI ha'
    exact ⟨hI2, a'', .cons hs hs2, ha''⟩

theorem inv_start {o : Nat → Tun} {s : St} (ht : s.tree = []) (hk : s.kernel.Pairwise fun x y => x.key ≠ y.key) : Inv o s.kernel s :=
  ⟨by rw [ht]; exact List.nodup_nil, hk, fun i hi => by rw [ht] at hi; exact absurd hi List.not_mem_nil, fun x => by simp [ht]⟩

/-- C228, history.  For objects whose names differ without regard to case and whose parameters differ, and tunnels of somebody else that
are not in the way: after every list of calls the kernel has exactly the tunnels of the objects that were added and not removed,
besides those of somebody else; every call returns what the set of added objects says. -/
theorem C228_history_partial {o : Nat → Tun} {s : St} (hc : Compatible o) (ht : s.tree = []) (hf : Foreign o s.kernel)
    (hk : s.kernel.Pairwise fun x y => x.key ≠ y.key) (ops : List Op) :
    ∃ a, SpecRun o (fun _ => False) ops a (run o s ops).2 ∧ Shows o s.kernel a (run o s ops).1 := by
  obtain ⟨hI, a, hs, ha⟩ := run_spec hc hf ops (inv_start ht hk) (a := fun _ => False) (by simp [ht])
  refine ⟨a, hs, ha, fun x => ?_⟩
  rw [hI.mem x]
  simp only [ha]

theorem cleanupList_spec {o : Nat → Tun} {fr : List KTun} (hc : Compatible o) (hf : Foreign o fr) {p : Perm} (hp : p.allowed = true)
    (l : List Nat) : ∀ {s : St}, Inv o fr s → s.tree = l → Inv o fr (cleanupList o p l s) ∧ (cleanupList o p l s).tree = [] := by
  induction l with
  | nil => intro s h e; exact ⟨h, e⟩
  | cons i l ih =>
    intro s h e
    obtain ⟨s', e1, hI, et, _⟩ := removeTun_ok hc hf h (i := i) (by rw [e]; exact List.mem_cons_self) hp
    unfold cleanupList
    rw [e1]
    exact ih hI (by rw [et, e]; simp)

/-- C228, end of the daemon: when it may change tunnels, none of its tunnels is left and those of somebody else are untouched. -/
theorem C228_cleanup_partial {o : Nat → Tun} {s : St} (hc : Compatible o) (ht : s.tree = []) (hf : Foreign o s.kernel)
    (hk : s.kernel.Pairwise fun x y => x.key ≠ y.key) (ops : List Op) {p : Perm} (hp : p.allowed = true) :
    (cleanup o p (run o s ops).1).tree = [] ∧ ∀ x, x ∈ (cleanup o p (run o s ops).1).kernel ↔ x ∈ s.kernel := by
  obtain ⟨hI, _⟩ := run_spec hc hf ops (inv_start ht hk) (a := fun _ => False) (by simp [ht])
  obtain ⟨h1, h2⟩ := cleanupList_spec hc hf hp (run o s ops).1.tree hI rfl
  refine ⟨h2, fun x => ?_⟩
  unfold cleanup
  rw [h1.mem x, h2]
  simp

/-- C228: a call that cannot succeed changes nothing: a second `add`, end points of different or unknown families, an unknown inner
protocol, no permission, a device that does not know the protocol; and `remove` of an object that was not added. -/
theorem C228_refused {o : Nat → Tun} {s : St} {i : Nat} {p : Perm} :
    (i ∈ s.tree ∨ ¬ Creatable p (o i) → addTun o p i s = (s, false)) ∧
      (i ∉ s.tree ∨ p.allowed = false → removeTun o p i s = (s, false)) :=
  ⟨addTun_fail, removeTun_fail⟩

/-- C228: adding a tunnel that is not in the way of another one and removing it again gives the tunnels there were. -/
theorem C228_round_trip {o : Nat → Tun} {s : St} {i : Nat} {p q : Perm} (hi : i ∉ s.tree) (hcr : Creatable p (o i))
    (hn : ∀ x ∈ s.kernel, ∀ y, isTunnel (o i) y → ¬ Clash x y) (hname : ∀ j ∈ s.tree, (o j).fold ≠ (o i).fold)
    (hq : q.allowed = true) :
    ∃ s' s'' y, addTun o p i s = (s', true) ∧ isTunnel (o i) y ∧ s'.kernel = s.kernel ++ [y] ∧ s'.tree = s.tree ++ [i] ∧
      removeTun o q i s' = (s'', true) ∧ s''.kernel = s.kernel ∧ s''.tree = s.tree := by
  obtain ⟨b, hu, hacc⟩ := hcr.2
  have hn' : ∀ x ∈ s.kernel, ¬ Clash x (req (o i) b) := fun x hx => hn x hx _ ((req_isTunnel hu).2 rfl)
  obtain ⟨kd, hh⟩ := handle_add_ok hu (kAdd_ok hu hcr hn')
  obtain ⟨e1, e2⟩ := baseUp_kernel { s with kernel := s.kernel ++ [req (o i) b] } b kd
  have hins : insert o s.tree i = s.tree ++ [i] := by
    unfold insert
    rw [if_neg]
    rw [List.any_eq_true]
    rintro ⟨j, hj, e⟩
    exact hname j hj (by simpa using e)
  have hadd : addTun o p i s =
      ({ baseUp { s with kernel := s.kernel ++ [req (o i) b] } b kd with tree := s.tree ++ [i] }, true) := by
    unfold addTun
    rw [if_neg hi, hh]
    dsimp only
    rw [e2, hins]
  have herase : (s.kernel ++ [req (o i) b]).eraseP (fun x => x.key = (req (o i) b).key) = s.kernel := by
    rw [List.eraseP_append_right]
    · simp
    · intro x hx
      simpa using fun e => hn' x hx (Or.inr e)
  have hdel : kDel q (s.kernel ++ [req (o i) b]) (req (o i) b) = some s.kernel := by
    unfold kDel
    rw [if_neg (by simp [hq]), if_pos (by simp), herase]
  refine ⟨_, { baseUp { s with kernel := s.kernel ++ [req (o i) b] } b kd with tree := s.tree, kernel := s.kernel }, req (o i) b, hadd,
    (req_isTunnel hu).2 rfl, e1, rfl, ?_, rfl, rfl⟩
  unfold removeTun
  rw [if_pos (by simp), handle_del hu]
  unfold del
  dsimp only
  rw [e1, hdel]
  dsimp only
  rw [List.erase_append_right _ hi]
  simp

theorem kDel_mem {p : Perm} {k k' : List KTun} {t : KTun} (h : kDel p k t = some k') {x : KTun} (hx : x.key ≠ t.key) :
    x ∈ k' ↔ x ∈ k := by
  unfold kDel at h
  split at h
  · cases h
  · split at h
    · injection h with h; subst h
      rw [List.mem_eraseP_of_neg]
      simpa using hx
    · cases h

theorem add4_frame {p : Perm} {t : Tun} {b : Base} (f : Nat) : ∀ (s : St) (x : KTun), ¬ Clash x (req t b) →
    (x ∈ (add4 p t b f s).1.kernel ↔ x ∈ s.kernel) := by
  induction f with
  | zero => intro s x _; exact Iff.rfl
  | succ f ih =>
    intro s x hx
    unfold add4
    cases hk : kAdd p s.kernel (req t b) with
    | ok k =>
      dsimp only
      rw [(baseUp_kernel _ _ _).1]
      unfold kAdd at hk
      split at hk
      · cases hk
      · split at hk
        · cases hk
        · injection hk with hk; subst hk
          simp only [List.mem_append, List.mem_singleton, or_iff_left_iff_imp]
          intro e; exact absurd (Or.inr (by rw [e])) hx
    | error e =>
      cases e with
      | refused => exact Iff.rfl
      | «exists» =>
        dsimp only
        cases hd : kDel p s.kernel (req t b) with
        | none => exact Iff.rfl
        | some k =>
          dsimp only
          rw [ih _ x hx]
          exact kDel_mem hd fun e => hx (Or.inr e)

theorem handle_frame {p : Perm} {t : Tun} {a : Bool} {s : St} {x : KTun} (hx : ∀ y, isTunnel t y → ¬ Clash x y) :
    x ∈ (handle p t a s).1.kernel ↔ x ∈ s.kernel := by
  cases hu : usedBase t with
  | none => rw [handle_none hu]
  | some b =>
    have hx := hx _ ((req_isTunnel hu).2 rfl)
    cases a with
    | false =>
      rw [handle_del hu]
      unfold del
      cases hd : kDel p s.kernel (req t b) with
      | none => exact Iff.rfl
      | some k => exact kDel_mem hd fun e => hx (Or.inr e)
    | true =>
      obtain ⟨e, ⟨hf, hb⟩ | ⟨hf, hb⟩⟩ := usedBase_cases hu
      · unfold handle
        rw [if_neg (by simpa using e), hf]
        dsimp only
        rw [hb]
        dsimp only
        rw [if_pos rfl]
        exact add4_frame _ _ _ hx
      · unfold handle
        rw [if_neg (by simpa using e), hf]
        dsimp only
        rw [hb]
        dsimp only
        rw [if_pos rfl]
        unfold add6
        cases hk : kAdd p s.kernel (req t b) with
        | ok k =>
          dsimp only
          rw [(baseUp_kernel _ _ _).1]
          unfold kAdd at hk
          split at hk
          · cases hk
          · split at hk
            · cases hk
            · injection hk with hk; subst hk
              simp only [List.mem_append, List.mem_singleton, or_iff_left_iff_imp]
              intro e; exact absurd (Or.inr (by rw [e])) hx
        | error e => exact Iff.rfl

/-- C228: a call never creates or removes a tunnel of another name with other parameters, whatever the state. -/
theorem C228_frame {o : Nat → Tun} {s : St} {i : Nat} {p : Perm} {x : KTun} (hx : ∀ y, isTunnel (o i) y → ¬ Clash x y) :
    (x ∈ (addTun o p i s).1.kernel ↔ x ∈ s.kernel) ∧ (x ∈ (removeTun o p i s).1.kernel ↔ x ∈ s.kernel) := by
  constructor
  · unfold addTun
    split
    · exact Iff.rfl
    · have h := handle_frame (p := p) (a := true) (s := s) hx
      split <;> (rename_i e; rw [e] at h; exact h)
  · unfold removeTun
    split
    · have h := handle_frame (p := p) (a := false) (s := s) hx
      split <;> (rename_i e; rw [e] at h; exact h)
    · exact Iff.rfl

/-- Devices the daemon remembers to have brought up are up. -/
def FlagUp (s : St) : Prop := ∀ k, s.flag k = true → s.up k.1 = true

theorem add4_up {p : Perm} {t : Tun} {b : Base} (f : Nat) : ∀ (s : St), FlagUp s →
    FlagUp (add4 p t b f s).1 ∧ ((add4 p t b f s).2 = true → (add4 p t b f s).1.up b = true) := by
  induction f with
  | zero => intro s h; exact ⟨h, fun e => nomatch e⟩
  | succ f ih =>
    intro s h
    unfold add4
    cases kAdd p s.kernel (req t b) with
    | ok k =>
      have h2 := baseUp_up { s with kernel := k } b .ipv4 h
      exact ⟨h2.2, fun _ => h2.1⟩
    | error e =>
      cases e with
      | refused => exact ⟨h, fun e => nomatch e⟩
      | «exists» =>
        dsimp only
        cases kDel p s.kernel (req t b) with
        | none => exact ⟨h, fun e => nomatch e⟩
        | some k => exact ih { s with kernel := k } h

theorem handle_up {p : Perm} {t : Tun} {a : Bool} {s : St} (h : FlagUp s) :
    FlagUp (handle p t a s).1 ∧
      (a = true → (handle p t a s).2 = true → ∃ b, usedBase t = some b ∧ (handle p t a s).1.up b = true) := by
  cases hu : usedBase t with
  | none => rw [handle_none hu]; exact ⟨h, fun _ e => nomatch e⟩
  | some b =>
    cases a with
    | false =>
      rw [handle_del hu]
      refine ⟨?_, fun e => nomatch e⟩
      unfold del
      cases kDel p s.kernel (req t b) with
      | none => exact h
      | some k => exact h
    | true =>
      obtain ⟨e, ⟨hf, hb⟩ | ⟨hf, hb⟩⟩ := usedBase_cases hu
      · have hh : handle p t true s = add4 p t b (s.kernel.length + 1) s := by
          unfold handle
          rw [if_neg (by simpa using e), hf]
          dsimp only
          rw [hb]
          simp
        rw [hh]
        have h2 := add4_up (p := p) (t := t) (b := b) (s.kernel.length + 1) s h
        exact ⟨h2.1, fun _ e => ⟨b, rfl, h2.2 e⟩⟩
      · have hh : handle p t true s = add6 p t b s := by
          unfold handle
          rw [if_neg (by simpa using e), hf]
          dsimp only
          rw [hb]
          simp
        rw [hh]
        unfold add6
        cases kAdd p s.kernel (req t b) with
        | ok k =>
          have h2 := baseUp_up { s with kernel := k } b t.inner h
          exact ⟨h2.2, fun _ _ => ⟨b, rfl, h2.1⟩⟩
        | error e => exact ⟨h, fun _ e => nomatch e⟩

theorem step_up {o : Nat → Tun} {s : St} (h : FlagUp s) (op : Op) : FlagUp (step o s op).1 := by
  cases op with
  | add i p =>
    have h2 := (handle_up (p := p) (t := o i) (a := true) h).1
    unfold step addTun
    dsimp only
    split
    · exact h
    · split <;> (rename_i e; rw [e] at h2; exact h2)
  | remove i p =>
    have h2 := (handle_up (p := p) (t := o i) (a := false) h).1
    unfold step removeTun
    dsimp only
    split
    · split <;> (rename_i e; rw [e] at h2; exact h2)
    · exact h

theorem run_up {o : Nat → Tun} (ops : List Op) : ∀ {s : St}, FlagUp s → FlagUp (run o s ops).1 := by
  induction ops with
  | nil => intro s h; exact h
  | cons op l ih => intro s h; exact ih (step_up h op)

/-- C228: as long as nobody else takes a base device down, the device of a tunnel is up whenever `add` succeeded, after any calls and
whatever tunnels there are; packets from the other end are received. -/
theorem C228_device_up_partial {o : Nat → Tun} {s : St} (h0 : ∀ k, s.flag k = false) (ops : List Op) {i : Nat} {p : Perm}
    (hok : (addTun o p i (run o s ops).1).2 = true) :
    ∃ b, usedBase (o i) = some b ∧ (addTun o p i (run o s ops).1).1.up b = true := by
  have hup : FlagUp (run o s ops).1 := run_up ops fun k e => by rw [h0 k] at e; cases e
  have h2 := (handle_up (p := p) (t := o i) (a := true) hup).2 rfl
  unfold addTun at hok ⊢
  split at hok
  · cases hok
  · rename_i hi
    rw [if_neg hi]
    split at hok
    · rename_i e
      rw [e] at h2
      exact h2 rfl
    · cases hok

/-- Two objects: an IPv4-in-IPv4 tunnel and an IPv6-in-IPv6 tunnel; all other numbers stand for objects without end points. -/
def exObj (i : Nat) : Tun :=
  if i = 0 then ⟨100, 0, .ipv4, .v4, 1, .v4, 2, 0⟩
  else if i = 1 then ⟨101, 0, .ipv6, .v6, 3, .v6, 4, 0⟩
  else ⟨i + 200, 0, .other, .other, 0, .other, 0, 0⟩

/-- Linux: the protocols the devices accept. -/
def linux : Perm where
  accepts
    | .tunl0, .ipv4 => true
    | .sit0, .ipv6 => true
    | .gre0, .gre => true
    | .ip6tnl0, .ipv4 => true
    | .ip6tnl0, .ipv6 => true
    | .ip6gre0, .gre => true
    | _, _ => false
  allowed := true

/-- A tunnel of somebody else. -/
def exForeign : List KTun := [⟨300, 0, ⟨.tunl0, .ipv4, 0, 8, 9⟩⟩]

theorem exObj_far (i : Nat) : exObj (i + 2) = ⟨i + 202, 0, .other, .other, 0, .other, 0, 0⟩ := by
  have h0 : i + 2 ≠ 0 := by omega
  have h1 : i + 2 ≠ 1 := by omega
  simp [exObj, h1]

theorem exObj_tunnel {i : Nat} {x : KTun} (h : isTunnel (exObj i) x) :
    (i = 0 ∧ x = ⟨100, 0, ⟨.tunl0, .ipv4, 0, 1, 2⟩⟩) ∨ (i = 1 ∧ x = ⟨101, 0, ⟨.ip6tnl0, .ipv6, 0, 3, 4⟩⟩) := by
  obtain ⟨b, hu, e⟩ := h
  match i, hu, e with
  | 0, hu, e => injection hu with hu; subst hu; exact Or.inl ⟨rfl, e⟩
  | 1, hu, e => injection hu with hu; subst hu; exact Or.inr ⟨rfl, e⟩
  | i + 2, hu, e => rw [exObj_far] at hu; cases hu

theorem exObj_compatible : Compatible exObj := by
  intro i j hij
  refine ⟨?_, ?_⟩
  · have hf : ∀ i, (exObj i).fold = if i = 0 then 100 else if i = 1 then 101 else i + 200 := by
      intro i; unfold exObj; split
      · rfl
      · split <;> rfl
    rw [hf, hf]
    split <;> split <;> (try split) <;> (try split) <;> omega
  · intro x y hx hy
    rcases exObj_tunnel hx with ⟨e1, rfl⟩ | ⟨e1, rfl⟩ <;> rcases exObj_tunnel hy with ⟨e2, rfl⟩ | ⟨e2, rfl⟩
    · omega
    · decide
    · decide
    · omega

theorem exObj_foreign : Foreign exObj exForeign := by
  intro x hx i y hy
  have : x = ⟨300, 0, ⟨.tunl0, .ipv4, 0, 8, 9⟩⟩ := by simpa [exForeign] using hx
  subst this
  rcases exObj_tunnel hy with ⟨_, rfl⟩ | ⟨_, rfl⟩ <;> (unfold Clash; decide)

example : (run exObj { kernel := exForeign } [.add 0 linux, .add 0 linux, .add 1 linux, .remove 0 linux, .remove 0 linux, .add 5 linux]).2 =
    [true, false, true, true, false, false] := by decide

example : ∃ a, SpecRun exObj (fun _ => False) [.add 0 linux, .add 1 linux] a
    (run exObj { kernel := exForeign } [.add 0 linux, .add 1 linux]).2 ∧
    Shows exObj exForeign a (run exObj { kernel := exForeign } [.add 0 linux, .add 1 linux]).1 :=
  C228_history_partial (s := { kernel := exForeign }) exObj_compatible rfl exObj_foreign (by simp [exForeign]) _

example : Creatable linux (exObj 0) ∧ ¬ Creatable linux (exObj 5) ∧
    (addTun exObj linux 0 {}).1.up .tunl0 = true := by
  refine ⟨⟨rfl, .tunl0, rfl, rfl⟩, ?_, rfl⟩
  rintro ⟨_, b, hu, _⟩
  cases hu

/-- C228, finding.  Two objects whose names differ only in case: the second one is created in the kernel and `add` succeeds, but the
object is not in the tree; it can never be removed again, not even at the end of the daemon. -/
theorem C228_case_counterexample :
    let o : Nat → Tun := fun i => ⟨100, i, .ipv4, .v4, 1, .v4, 2 + i, 0⟩
    let s := (run o {} [.add 0 linux, .add 1 linux]).1
    (run o {} [.add 0 linux, .add 1 linux]).2 = [true, true] ∧ s.kernel.length = 2 ∧
      (removeTun o linux 1 s).2 = false ∧ (cleanup o linux s).kernel = [⟨100, 1, ⟨.tunl0, .ipv4, 0, 1, 3⟩⟩] := by decide

/-- C228, finding.  A tunnel of somebody else with the same end points but another name is deleted by `add`: IPv4 treats `EEXIST` by
deleting the existing tunnel.  When another tunnel has the name of the object, `add` fails after having deleted the tunnel of somebody
else. -/
theorem C228_steal_counterexample :
    let o : Nat → Tun := fun _ => ⟨100, 0, .ipv4, .v4, 1, .v4, 2, 0⟩
    let a : KTun := ⟨300, 0, ⟨.tunl0, .ipv4, 0, 1, 2⟩⟩
    let n : KTun := ⟨100, 0, ⟨.tunl0, .ipv4, 0, 8, 9⟩⟩
    (addTun o linux 0 { kernel := [a] }).2 = true ∧ a ∉ (addTun o linux 0 { kernel := [a] }).1.kernel ∧
      (addTun o linux 0 { kernel := [a, n] }).2 = false ∧ (addTun o linux 0 { kernel := [a, n] }).1.kernel = [n] := by decide

/-- C228, finding.  Tunnels for IPv6 or GRE over IPv4 are requested from the device of IPv4-in-IPv4 tunnels: for every such object the
device is the wrong one and, with the protocols Linux accepts, `add` never succeeds. -/
theorem C228_device_counterexample {o : Nat → Tun} {i : Nat} (hl : (o i).localFam = .v4) (hr : (o i).remoteFam = .v4)
    (hin : (o i).inner = .ipv6 ∨ (o i).inner = .gre) :
    usedBase (o i) ≠ properBase .v4 (o i).inner ∧ usedBase (o i) = some .tunl0 ∧
      ∀ s, addTun o linux i s = (s, false) := by
  have hu : usedBase (o i) = some .tunl0 := by
    unfold usedBase
    rw [if_pos (by rw [hl, hr]), hl]
    rcases hin with h | h <;> rw [h]
  refine ⟨?_, hu, fun s => addTun_fail (Or.inr ?_)⟩
  · rw [hu]; rcases hin with h | h <;> rw [h] <;> decide
  · rintro ⟨_, b, hb, hacc⟩
    rw [hu] at hb; injection hb with hb; subst hb
    rcases hin with h | h <;> rw [h] at hacc <;> cases hacc

example : (addTun (fun _ => ⟨100, 0, .gre, .v4, 1, .v4, 2, 0⟩) linux 0 {}).2 = false :=
  congrArg Prod.snd ((C228_device_counterexample (o := fun _ => ⟨100, 0, .gre, .v4, 1, .v4, 2, 0⟩) (i := 0) rfl rfl (Or.inr rfl)).2.2 {})

/-- All other kinds of tunnels use the device Linux provides for them. -/
theorem C228_device_partial {t : Tun} (hf : t.localFam = t.remoteFam) (hin : t.localFam = .v6 ∨ (t.localFam = .v4 ∧ t.inner = .ipv4)) :
    usedBase t = properBase t.localFam t.inner := by
  unfold usedBase
  rw [if_pos hf]
  rcases hin with h | ⟨h, h'⟩
  · rw [h]; cases t.inner <;> rfl
  · rw [h, h']; rfl

example : usedBase (exObj 1) = some .ip6tnl0 := C228_device_partial rfl (Or.inl rfl)

/-- C228, finding.  A base device the daemon brought up once is not brought up again. -/
theorem C228_down_counterexample :
    let s := (run exObj {} [.add 0 linux, .remove 0 linux]).1
    let down : St := { s with up := fun _ => false }
    (addTun exObj linux 0 down).2 = true ∧ (addTun exObj linux 0 down).1.up .tunl0 = false := by decide

/-! ## Virtual interfaces -/

/-- C229, what holds: if the caller points the object to the socket, closing it after a successful open closes the file descriptor and
nothing else; a failed open changes nothing and closing an object that is not open has no effect. -/
theorem C229_vif_partial {st : VSt} {sock : Nat} {v : Vif} :
    (∀ f, v.typeKnown = true → v.added = false → f ∉ st.opened →
      ∃ st' v', vifOpen st sock v (some f) true = some (st', v', true) ∧ v'.added = true ∧ st'.sock sock = some f ∧
        (∀ s, s ≠ sock → st'.sock s = st.sock s) ∧ (∀ g, g ∈ st'.opened ↔ g = f ∨ g ∈ st.opened) ∧
        ∃ st'' v'', vifClose st' { v' with fd := some sock } = some (st'', v'') ∧ v''.added = false ∧ st''.sock sock = none ∧
          (∀ s, s ≠ sock → st''.sock s = st.sock s) ∧ st''.opened = st.opened) ∧
    (∀ f m, v.typeKnown = false ∨ f = none ∨ m = false → vifOpen st sock v f m = some (st, v, false)) ∧
    (v.added = false → vifClose st v = some (st, v)) := by
  refine ⟨?_, ?_, ?_⟩
  · intro f ht ha hf
    refine ⟨⟨fun x => if x = sock then some f else st.sock x, f :: st.opened⟩, { v with added := true },
      by simp [vifOpen, ht, ha], rfl, by simp, fun s hs => by simp [hs], fun g => by simp,
      ⟨fun x => if x = sock then none else if x = sock then some f else st.sock x, st.opened⟩,
      { v with added := false, fd := some sock }, by simp [vifClose], rfl, by simp, fun s hs => by simp [hs], rfl⟩
  · intro f m h
    unfold vifOpen
    by_cases h1 : v.typeKnown = false
    · rw [if_pos h1]
    · rw [if_neg h1]
      cases f with
      | none => rfl
      | some f =>
        dsimp only
        have hm : m = false := by
          rcases h with h | h | h
          · exact absurd h h1
          · cases h
          · exact h
        rw [if_pos hm]
  · intro h
    simp [vifClose, h]

example : ∃ st', (vifOpen ⟨fun _ => none, []⟩ 4 ⟨true, some 4, false⟩ (some 9) true).map (fun r => (r.2.1.added, r.1.sock 4, r.2.2)) =
    some st' := ⟨(true, some 9, true), by decide⟩

/-- C229, finding.  `os_vif_open` does not store the socket: closing a freshly opened object whose pointer was never set by the caller
dereferences NULL. -/
theorem C229_close_counterexample {st st' : VSt} {sock f : Nat} {v v' : Vif} (hv : v.fd = none)
    (ho : vifOpen st sock v (some f) true = some (st', v', true)) : vifClose st' v' = none := by
  unfold vifOpen at ho
  split at ho
  · cases ho
  · dsimp only at ho
    rw [if_neg (by decide)] at ho
    split at ho
    · cases ho
    · injection ho with ho
      injection ho with h1 h2
      injection h2 with h2 h3
      subst h2
      simp [vifClose, hv]

example : ∃ st' v', vifOpen ⟨fun _ => none, []⟩ 4 ⟨true, none, false⟩ (some 9) true = some (st', v', true) ∧ vifClose st' v' = none := by
  refine ⟨⟨fun x => if x = 4 then some 9 else none, [9]⟩, ⟨true, none, true⟩, rfl, rfl⟩

/-- C229, finding.  Opening an object a second time is not refused; it damages the tree of virtual interfaces. -/
theorem C229_reopen_counterexample {st : VSt} {sock f : Nat} {v : Vif} (ht : v.typeKnown = true) (ha : v.added = true) :
    vifOpen st sock v (some f) true = none := by
  simp [vifOpen, ht, ha]

example : vifOpen ⟨fun _ => none, []⟩ 4 ⟨true, some 4, true⟩ (some 9) true = none := C229_reopen_counterexample rfl rfl

end Verif.OsTun
