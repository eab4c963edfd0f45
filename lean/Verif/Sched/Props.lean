import Verif.Sched.Model

/-! # Properties of the event scheduler -/

namespace Verif.Sched

/-! ## C204: events reach their handlers -/

/-- a handler that frees no socket and leaves events, handlers and counters of the sockets alone -/
def Calm (cb : Nat → World → World × Nat) : Prop :=
  ∀ i w j s, w j = some s → ∃ s', (cb i w).1 j = some s' ∧ s'.got = s.got ∧ s'.handler = s.handler ∧ s'.nrecv = s.nrecv ∧ s'.nsend = s.nsend

/-- has the socket a handler -/
def handles (w : World) (i : Nat) : Bool := match w i with | some s => s.handler | none => false

/-- is the handler to be called -/
def wanted (w : World) (p : Nat × Ev) : Bool := (p.2.read || p.2.write) && handles w p.1

theorem report_spec : ∀ (batch : List (Nat × Ev)) (w : World), (batch.map (·.1)).Nodup → (∀ p ∈ batch, (w p.1).isSome) →
    ∃ w', report w batch = some w' ∧ (∀ p ∈ batch, ∃ s, w p.1 = some s ∧ w' p.1 = some { s with got := p.2 }) ∧
      ∀ j, j ∉ batch.map (·.1) → w' j = w j := by
  intro batch
  induction batch with
  | nil => intro w _ _; exact ⟨w, rfl, by simp, by simp⟩
  | cons p l ih =>
    obtain ⟨i, e⟩ := p
    intro w hn hl
    simp only [List.map_cons, List.nodup_cons] at hn
    obtain ⟨s, hs⟩ := Option.isSome_iff_exists.1 (hl (i, e) (List.mem_cons_self ..))
    simp only at hs
    have hl' : ∀ p ∈ l, ((w.set i { s with got := e }) p.1).isSome := by
      intro p hp
      unfold World.set
      split
      · rfl
      · exact hl p (List.mem_cons_of_mem _ hp)
    obtain ⟨w', h1, h2, h3⟩ := ih _ hn.2 hl'
    refine ⟨w', by simp only [report, hs, h1], ?_, ?_⟩
    · intro p hp
      rcases List.mem_cons.1 hp with rfl | hp
      · exact ⟨s, hs, by rw [h3 i hn.1]; simp [World.set]⟩
      · obtain ⟨s', a, b⟩ := h2 p hp
        have : p.1 ≠ i := fun h => hn.1 (h ▸ List.mem_map_of_mem hp)
        rw [World.set, if_neg this] at a
        exact ⟨s', a, b⟩
    · intro j hj
      simp only [List.map_cons, List.mem_cons, not_or] at hj
      rw [h3 j hj.2, World.set, if_neg hj.1]

/-- two sockets that look the same to the loop -/
def Same (s s' : Sock) : Prop := s'.got = s.got ∧ s'.handler = s.handler ∧ s'.nrecv = s.nrecv ∧ s'.nsend = s.nsend

theorem event_calm {cb} (hc : Calm cb) {st : St} {i : Nat} {s : Sock} (hs : st.w i = some s) :
    ∃ st', event cb st i = some st' ∧ st'.log = st.log ++ (if (s.got.read || s.got.write) && s.handler then [(i, s.got)] else []) ∧
      (∀ j t, st.w j = some t → j ≠ i → ∃ t', st'.w j = some t' ∧ Same t t') ∧
      ∃ t', st'.w i = some t' ∧ Same (if (s.got.read || s.got.write) && s.handler then count s else s) t' := by
  unfold event
  rw [hs]
  by_cases hx : ((s.got.read || s.got.write) && s.handler) = true
  · simp only [hx, if_true]
    have hi : (st.w.set i (count s)) i = some (count s) := by simp [World.set]
    obtain ⟨s', a, b⟩ := hc i _ _ _ hi
    have ho : ∀ j t, st.w j = some t → j ≠ i → ∃ t', (cb i (st.w.set i (count s))).1 j = some t' ∧ Same t t' := by
      intro j t hj hne
      exact hc i _ j t (by rw [World.set, if_neg hne]; exact hj)
    by_cases hl : (cb i (st.w.set i (count s))).2 > SLICE
    · rw [if_pos hl, a]
      refine ⟨_, rfl, rfl, ?_, { s' with nlong := s'.nlong + 1 }, by simp [World.set], b⟩
      intro j t hj hne
      simp only [World.set, if_neg hne]
      exact ho j t hj hne
    · rw [if_neg hl]
      exact ⟨_, rfl, rfl, ho, s', a, b⟩
  · simp only [hx]
    exact ⟨st, rfl, by simp, fun j t hj _ => ⟨t, hj, rfl, rfl, rfl, rfl⟩, s, hs, rfl, rfl, rfl, rfl⟩

theorem Same.trans {a b c : Sock} (h : Same a b) (h' : Same b c) : Same a c :=
  ⟨h'.1.trans h.1, h'.2.1.trans h.2.1, h'.2.2.1.trans h.2.2.1, h'.2.2.2.trans h.2.2.2⟩

/-- the socket after its event -/
def served (s : Sock) : Sock := if (s.got.read || s.got.write) && s.handler then count s else s

theorem events_calm {cb} (hc : Calm cb) : ∀ (l : List Nat) (st : St) (g : Nat → Sock), l.Nodup → (∀ i ∈ l, ∃ s, st.w i = some s ∧ Same (g i) s) →
    ∃ st', events cb st l = some st' ∧
      st'.log = st.log ++ (l.filter fun i => ((g i).got.read || (g i).got.write) && (g i).handler).map (fun i => (i, (g i).got)) ∧
      (∀ j t, st.w j = some t → j ∉ l → ∃ t', st'.w j = some t' ∧ Same t t') ∧
      ∀ i ∈ l, ∃ t, st'.w i = some t ∧ Same (served (g i)) t := by
  intro l
  induction l with
  | nil => intro st g _ _; exact ⟨st, rfl, by simp, fun j t h _ => ⟨t, h, rfl, rfl, rfl, rfl⟩, by simp⟩
  | cons i l ih =>
    intro st g hn hg
    rw [List.nodup_cons] at hn
    obtain ⟨s, hs, hsame⟩ := hg i (List.mem_cons_self ..)
    obtain ⟨st1, e1, l1, o1, t1, ht1, hs1⟩ := event_calm hc hs
    have hg1 : ∀ j ∈ l, ∃ s, st1.w j = some s ∧ Same (g j) s := by
      intro j hj
      obtain ⟨s', a, b⟩ := hg j (List.mem_cons_of_mem _ hj)
      obtain ⟨t', c, d⟩ := o1 j s' a (fun h => hn.1 (h ▸ hj))
      exact ⟨t', c, b.trans d⟩
    obtain ⟨st', e2, l2, o2, f2⟩ := ih st1 g hn.2 hg1
    have hgot : s.got = (g i).got := hsame.1
    have hhan : s.handler = (g i).handler := hsame.2.1
    refine ⟨st', by simp only [events, e1, Option.bind_some, e2], ?_, ?_, ?_⟩
    · rw [l2, l1, hgot, hhan, List.append_assoc]
      congr 1
      by_cases hx : (((g i).got.read || (g i).got.write) && (g i).handler) = true
      · rw [if_pos hx, List.filter_cons_of_pos (by simpa using hx), List.map_cons, List.singleton_append]
      · rw [if_neg hx, List.filter_cons_of_neg (by simpa using hx), List.nil_append]
    · intro j t hj hnot
      rw [List.mem_cons, not_or] at hnot
      obtain ⟨t', c, d⟩ := o1 j t hj hnot.1
      obtain ⟨t'', c', d'⟩ := o2 j t' c hnot.2
      exact ⟨t'', c', d.trans d'⟩
    · intro j hj
      rcases List.mem_cons.1 hj with rfl | hj
      · obtain ⟨t'', c', d'⟩ := o2 j t1 ht1 hn.1
        refine ⟨t'', c', Same.trans ?_ d'⟩
        refine Same.trans ?_ hs1
        unfold served
        rw [hgot, hhan]
        split
        · refine ⟨hsame.1, hsame.2.1, ?_, ?_⟩
          · simp only [count, hgot, hsame.2.2.1]
          · simp only [count, hgot, hsame.2.2.2]
        · exact hsame
      · exact f2 j hj

/-- the sockets as the kernel reports them -/
def reported (w : World) (batch : List (Nat × Ev)) (i : Nat) : Sock :=
  { (w i).getD {} with got := ((batch.find? fun p => p.1 = i).map (·.2)).getD ⟨false, false, false⟩ }

theorem find_self {batch : List (Nat × Ev)} (hn : (batch.map (·.1)).Nodup) {p : Nat × Ev} (hp : p ∈ batch) :
    batch.find? (fun q => q.1 = p.1) = some p := by
  induction batch with
  | nil => simp at hp
  | cons q l ih =>
    simp only [List.map_cons, List.nodup_cons] at hn
    rcases List.mem_cons.1 hp with rfl | hp
    · simp
    · have : q.1 ≠ p.1 := fun h => hn.1 (h ▸ List.mem_map_of_mem hp)
      rw [List.find?_cons_of_neg (by simpa using this)]
      exact ih hn.2 hp

/-- if the handlers free no sockets, exactly the sockets with something to read or write (and a handler) are served, each once, in the order of
the kernel, and their handlers see the events the kernel reported; the two counters of every reported socket grow accordingly -/
theorem C204_called {cb} (hc : Calm cb) {w : World} {batch : List (Nat × Ev)} (hn : (batch.map (·.1)).Nodup) (hl : ∀ p ∈ batch, (w p.1).isSome) :
    ∃ st, dispatch cb w batch = some st ∧ st.log = batch.filter (wanted w) ∧
      ∀ p ∈ batch, ∃ s s', w p.1 = some s ∧ st.w p.1 = some s' ∧
        s'.nrecv = s.nrecv + (if s.handler = true ∧ p.2.read = true then 1 else 0) ∧
        s'.nsend = s.nsend + (if s.handler = true ∧ p.2.write = true then 1 else 0) := by
  obtain ⟨w', h1, h2, _⟩ := report_spec batch w hn hl
  have hg : ∀ p ∈ batch, ∃ s, w p.1 = some s ∧ w' p.1 = some (reported w batch p.1) ∧ reported w batch p.1 = { s with got := p.2 } := by
    intro p hp
    obtain ⟨s, a, b⟩ := h2 p hp
    have : reported w batch p.1 = { s with got := p.2 } := by simp [reported, a, find_self hn hp]
    exact ⟨s, a, by rw [b, this], this⟩
  obtain ⟨st, e, l, _, f⟩ := events_calm hc (batch.map (·.1)) ⟨w', []⟩ (reported w batch) hn (by
    intro i hi
    obtain ⟨p, hp, rfl⟩ := List.mem_map.1 hi
    obtain ⟨s, _, b, _⟩ := hg p hp
    exact ⟨_, b, rfl, rfl, rfl, rfl⟩)
  refine ⟨st, by simp only [dispatch, h1, Option.bind_some, e], ?_, ?_⟩
  · rw [l, List.nil_append, List.filter_map, List.map_map]
    have : batch.filter (wanted w) = batch.filter ((fun i => ((reported w batch i).got.read || (reported w batch i).got.write) && (reported w batch i).handler) ∘ (·.1)) := by
      apply List.filter_congr
      intro p hp
      obtain ⟨s, a, _, c⟩ := hg p hp
      simp only [Function.comp, c, wanted, handles, a]
    rw [this]
    conv => rhs; rw [← List.map_id (List.filter _ batch)]
    apply List.map_congr_left
    intro p hp
    obtain ⟨s, _, _, c⟩ := hg p (List.mem_filter.1 hp).1
    simp only [Function.comp, c, id]
  · intro p hp
    obtain ⟨s, a, _, c⟩ := hg p hp
    obtain ⟨t, ht, hs⟩ := f p.1 (List.mem_map_of_mem hp)
    refine ⟨s, t, a, ht, ?_, ?_⟩
    · rw [hs.2.2.1, c]
      unfold served count
      cases hr : p.2.read <;> cases hw : p.2.write <;> cases hh : s.handler <;> rfl
    · rw [hs.2.2.2, c]
      unfold served count
      cases hr : p.2.read <;> cases hw : p.2.write <;> cases hh : s.handler <;> rfl

/-- three sockets, the second hangs up -/
def demoWorld : World := fun i => if i < 3 then some { listed := true, kern := some (true, false) } else none

example : Calm (fun _ w => (w, 7)) ∧ ((dispatch (fun _ w => (w, 7)) demoWorld [(2, ⟨true, false, false⟩), (1, ⟨false, false, true⟩), (0, ⟨true, true, false⟩)]).map (·.log)) =
    some [(2, ⟨true, false, false⟩), (0, ⟨true, true, false⟩)] :=
  ⟨fun _ _ _ s h => ⟨s, h, rfl, rfl, rfl, rfl⟩, by decide +kernel⟩

/-- the handlers of a list of events free no socket whose event is still to come, and their own one only if they are quick -/
def Harmless (cb : Nat → World → World × Nat) : List Nat → Prop
  | [] => True
  | i :: l => (∀ w, (∀ j ∈ l, (w j).isSome → ((cb i w).1 j).isSome) ∧ (((cb i w).1 i).isSome ∨ (cb i w).2 ≤ 100)) ∧ Harmless cb l

/-- no freed memory is used if the handlers free no socket whose event is still to come, and their own one only if they take 100 ms at most.
(Missing: this holds for all handlers.) -/
theorem C204_freed_partial {cb} {w : World} {batch : List (Nat × Ev)} (hn : (batch.map (·.1)).Nodup) (hl : ∀ p ∈ batch, (w p.1).isSome)
    (hh : Harmless cb (batch.map (·.1))) : ∃ st, dispatch cb w batch = some st := by
  have he : ∀ (l : List Nat) (st : St), l.Nodup → (∀ i ∈ l, (st.w i).isSome) → Harmless cb l → ∃ st', events cb st l = some st' := by
    intro l
    induction l with
    | nil => intro st _ _ _; exact ⟨st, rfl⟩
    | cons i l ih =>
      intro st hn hl hh
      rw [List.nodup_cons] at hn
      obtain ⟨h1, h2⟩ := hh
      obtain ⟨s, hs⟩ := Option.isSome_iff_exists.1 (hl i (List.mem_cons_self ..))
      simp only [events, event, hs]
      by_cases hx : ((s.got.read || s.got.write) && s.handler) = true
      · simp only [hx, if_true]
        obtain ⟨ha, hb⟩ := h1 (st.w.set i (count s))
        have hrest : ∀ j ∈ l, ((cb i (st.w.set i (count s))).1 j).isSome := by
          intro j hj
          apply ha j hj
          unfold World.set
          split
          · rfl
          · exact hl j (List.mem_cons_of_mem _ hj)
        by_cases hd : (cb i (st.w.set i (count s))).2 > SLICE
        · rw [if_pos hd]
          rcases hb with hb | hb
          · obtain ⟨s', hs'⟩ := Option.isSome_iff_exists.1 hb
            rw [hs']
            refine ih _ hn.2 ?_ h2
            intro j hj
            simp only [World.set]
            split
            · rfl
            · exact hrest j hj
          · unfold SLICE at hd; omega
        · rw [if_neg hd]
          exact ih _ hn.2 hrest h2
      · simp only [hx]
        exact ih _ hn.2 (fun j hj => hl j (List.mem_cons_of_mem _ hj)) h2
  obtain ⟨w', h1, h2, _⟩ := report_spec batch w hn hl
  obtain ⟨st, h⟩ := he (batch.map (·.1)) ⟨w', []⟩ hn (by
    intro i hi
    obtain ⟨p, hp, rfl⟩ := List.mem_map.1 hi
    obtain ⟨s, _, b⟩ := h2 p hp
    simp only [b, Option.isSome_some]) hh
  exact ⟨st, by simp only [dispatch, h1, Option.bind_some, h]⟩

/-- a handler that frees another socket whose event is still to come: freed memory is used -/
theorem C204_freed_counterexample {w : World} {i j : Nat} {s : Sock} (hij : i ≠ j) (hi : w i = some s) (hs : s.handler = true) (hj : (w j).isSome) :
    dispatch (fun _ w => (fun k => if k = j then none else w k, 0)) w [(i, ⟨true, false, false⟩), (j, ⟨true, false, false⟩)] = none := by
  obtain ⟨t, ht⟩ := Option.isSome_iff_exists.1 hj
  simp [dispatch, report, events, event, World.set, hi, ht, hs, hij, Ne.symm hij, SLICE]

/-- a handler that frees its own socket (as the end of a stream session does) and takes longer than 100 ms: freed memory is used -/
theorem C204_own_counterexample {w : World} {i : Nat} {s : Sock} (hi : w i = some s) (hs : s.handler = true) (ms : Nat) (hms : 100 < ms) :
    dispatch (fun i w => (fun k => if k = i then none else w k, ms)) w [(i, ⟨true, false, false⟩)] = none := by
  have : SLICE < ms := hms
  simp [dispatch, report, events, event, World.set, hi, hs, this]

/-- a socket that a handler takes out of the scheduler is still served if its event was reported together -/
theorem C204_removed_counterexample : ∃ (cb : Nat → World → World × Nat) (st : St),
    (∀ i w s, w 1 = some s → (cb i w).1 1 = some (sockRemove s)) ∧
    dispatch cb demoWorld [(0, ⟨true, false, false⟩), (1, ⟨true, false, false⟩)] = some st ∧ (1, ⟨true, false, false⟩) ∈ st.log := by
  refine ⟨fun _ w => (fun k => if k = 1 then (w k).map sockRemove else w k, 0), _, ?_, rfl, ?_⟩
  · intro i w s h; simp [h]
  · decide +kernel

/-- events that are neither for reading nor for writing are dropped: nobody is told that a connection hung up -/
theorem C204_hangup_counterexample (cb : Nat → World → World × Nat) {w : World} {batch : List (Nat × Ev)} (hn : (batch.map (·.1)).Nodup)
    (hl : ∀ p ∈ batch, (w p.1).isSome) (hh : ∀ p ∈ batch, p.2 = ⟨false, false, true⟩) : ∃ st, dispatch cb w batch = some st ∧ st.log = [] := by
  obtain ⟨w', h1, h2, _⟩ := report_spec batch w hn hl
  have he : ∀ (l : List Nat) (st : St), (∀ i ∈ l, ∃ s, st.w i = some s ∧ s.got = ⟨false, false, true⟩) → events cb st l = some st := by
    intro l
    induction l with
    | nil => intro st _; rfl
    | cons i l ih =>
      intro st h
      obtain ⟨s, a, b⟩ := h i (List.mem_cons_self ..)
      simp only [events, event, a, b, Bool.or_self, Bool.false_and, Bool.false_eq_true, if_false, Option.bind_some]
      exact ih st (fun j hj => h j (List.mem_cons_of_mem _ hj))
  refine ⟨⟨w', []⟩, ?_, rfl⟩
  simp only [dispatch, h1, Option.bind_some]
  apply he
  intro i hi
  obtain ⟨p, hp, rfl⟩ := List.mem_map.1 hi
  obtain ⟨s, _, b⟩ := h2 p hp
  exact ⟨_, b, hh p hp⟩

/-! ## C205: the kernel knows which events are wanted -/

/-- what the users of a socket asked for -/
structure Asked where
  listed : Bool := false
  read : Bool := false
  write : Bool := false
deriving DecidableEq, Repr

/-- a socket begins without wishes when it is added -/
def Asked.step (a : Asked) : Op → Asked
  | .add => ⟨true, false, false⟩
  | .remove => { a with listed := false }
  | .read b => { a with read := b }
  | .write b => { a with write := b }
  | .fresh => if a.listed then a else ⟨false, false, false⟩

/-- the proper use of a socket: added once, with a fresh descriptor or with all wishes given up before; wishes only while it is added -/
def Used (a : Asked) : List Op → Prop
  | [] => True
  | o :: l =>
    (match o with
      | .add => a.listed = false ∧ a.read = false ∧ a.write = false
      | .read _ => a.listed = true
      | .write _ => a.listed = true
      | _ => True) ∧ Used (a.step o) l

/-- a socket that is properly used: the kernel reports exactly the events asked for since it was added, and none if it is not added -/
theorem C205_interest_partial (ops : List Op) (hu : Used {} ops) :
    (ops.foldl Op.run ({} : Sock)).kern = (let a := ops.foldl Asked.step {}; if a.listed then some (a.read, a.write) else none) := by
  have key : ∀ (ops : List Op) (s : Sock) (a : Asked), s.listed = a.listed → s.wantRead = a.read → s.wantWrite = a.write →
      s.kern = (if a.listed then some (a.read, a.write) else none) → Used a ops →
      (ops.foldl Op.run s).kern = (let a := ops.foldl Asked.step a; if a.listed then some (a.read, a.write) else none) := by
    intro ops
    induction ops with
    | nil => intro s a _ _ _ h _; exact h
    | cons o l ih =>
      intro s a h1 h2 h3 h4 hu
      obtain ⟨hu1, hu2⟩ := hu
      simp only [List.foldl_cons]
      cases o with
      | add =>
        obtain ⟨x, y, z⟩ := hu1
        refine ih _ _ rfl ?_ ?_ ?_ hu2
        · simp only [Op.run, sockAdd, Asked.step, h2, y]
        · simp only [Op.run, sockAdd, Asked.step, h3, z]
        · simp [Op.run, sockAdd, Asked.step, h4, x]
      | remove =>
        by_cases hs : s.listed = true
        · refine ih _ _ ?_ ?_ ?_ ?_ hu2 <;> simp [Op.run, sockRemove, Asked.step, hs, h2, h3]
        · have ha : a.listed = false := by rw [← h1]; simpa using hs
          refine ih _ _ ?_ ?_ ?_ ?_ hu2 <;> simp [Op.run, sockRemove, Asked.step, hs, h2, h3, h4, ha]
      | read b =>
        refine ih _ _ ?_ ?_ ?_ ?_ hu2 <;> simp_all [Op.run, setRead, modify, Asked.step]
      | write b =>
        refine ih _ _ ?_ ?_ ?_ ?_ hu2 <;> simp_all [Op.run, setWrite, modify, Asked.step]
      | fresh =>
        by_cases ha : a.listed = true
        · refine ih _ _ ?_ ?_ ?_ ?_ hu2 <;> simp_all [Op.run, Asked.step]
        · have ha' : a.listed = false := by simpa using ha
          refine ih _ _ ?_ ?_ ?_ ?_ hu2 <;> simp_all [Op.run, Asked.step]
  exact key ops {} {} rfl rfl rfl rfl hu

example : Used {} [.add, .read true, .write true, .write false, .remove, .fresh, .add, .write true] ∧
    ([Op.add, .read true, .write true, .write false, .remove, .fresh, .add, .write true].foldl Op.run {}).kern = some (false, true) :=
  ⟨by simp [Used, Asked.step], by decide +kernel⟩

/-- a socket that was waiting to write when it was removed and that is added again (as `oonf_packet_add` does): the kernel reports events for
writing again although nobody asked for them -/
theorem C205_again_counterexample : ([Op.add, .read true, .write true, .remove, .add, .read true].foldl Op.run {}).kern = some (true, true) ∧
    [Op.add, .read true, .write true, .remove, .add, .read true].foldl Asked.step {} = ⟨true, true, false⟩ := by decide +kernel

/-- a wish that comes before the socket is added is lost -/
theorem C205_early_counterexample (b c : Bool) : ([Op.read b, .write c, .add].foldl Op.run {}).kern = some (false, false) := by
  cases b <;> cases c <;> decide +kernel

end Verif.Sched
