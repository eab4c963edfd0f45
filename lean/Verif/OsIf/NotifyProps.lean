import Verif.OsIf.Notify
/-
Property C188: listeners of a network interface are told about changes. Property C190: answers to requests for addresses.
-/
namespace Verif.OsIf

/-! ### specification -/

/-- A listener that has not seen the latest change will be told: its handler is going to be called when the timer fires, or when the data of the
interface are complete. -/
def WillBeTold (s : Ifc) : Prop := ∀ l ∈ s.ls, l.unseen = true → l.dirty = true ∧ (s.timer = true ∨ s.ready = false)

/-! ### lemmas -/

/-- stronger: a timer that runs is there for all listeners -/
def Even (s : Ifc) : Prop := WillBeTold s ∧ (s.timer = true → ∀ l ∈ s.ls, l.dirty = true)

theorem even_change {s : Ifc} (h : Even s) (a b : Bool) : Even (change s a b) := by
  have hd : ∀ l ∈ (change s a b).ls, l.dirty = true := by
    intro l hl
    unfold change at hl
    simp only at hl
    split at hl
    · rename_i ht
      simp only [List.mem_map] at hl
      obtain ⟨k, hk, rfl⟩ := hl
      exact h.2 ht k hk
    · simp only [List.mem_map] at hl
      obtain ⟨k, hk, rfl⟩ := hl
      rfl
  exact ⟨fun l hl _ => ⟨hd l hl, .inl rfl⟩, fun _ => hd⟩

theorem even_remove {s : Ifc} (h : Even s) (id : Nat) : Even (ev s (.remove id)).1 :=
  ⟨fun l hl hu => h.1 l (List.mem_filter.mp hl).1 hu, fun ht l hl => h.2 ht l (List.mem_filter.mp hl).1⟩

/-- handlers that all succeed or all fail -/
theorem even_fire {s : Ifc} (h : Even s) (f : Nat → Bool) (hf : ∀ l ∈ s.ls, ∀ k ∈ s.ls, f l.id = f k.id) : Even (fire s f).1 := by
  unfold fire
  cases ht : s.timer with
  | false => simpa using h
  | true =>
    cases hr : s.ready with
    | false =>
      simp only [Bool.not_true, Bool.false_eq_true, if_false, Bool.not_false, if_true]
      refine ⟨fun l hl hu => ⟨(h.1 l hl hu).1, .inr hr⟩, fun h => by cases h⟩
    | true =>
      simp only [Bool.not_true, Bool.false_eq_true, if_false]
      have hall := h.2 ht
      refine ⟨?_, ?_⟩
      · intro l hl hu
        simp only [List.mem_map] at hl
        obtain ⟨k, hk, rfl⟩ := hl
        rw [hall k hk] at hu
        simp at hu
      · intro hany l hl
        simp only [List.any_eq_true, Bool.and_eq_true] at hany
        obtain ⟨x, hx, _, hfx⟩ := hany
        simp only [List.mem_map] at hl
        obtain ⟨k, hk, rfl⟩ := hl
        simp only [hall k hk, if_true]
        rw [hf k hk x hx]; exact hfx

/-! ### C188 -/

/-- Several listeners, all added in the beginning, whose handlers never fail: each listener that has not seen the latest change will be told. -/
theorem C188_many_partial (any : Bool) (ids : List Nat) (es : List Ev) (hes : ∀ e ∈ es, (∃ l a, e = .change l a) ∨ (∃ id, e = .remove id) ∨ e = .fire (fun _ => false)) :
    WillBeTold (evs (evs ({ any := any }, []) (ids.map .add)) es).1 := by
  have h1 : ∀ (ids : List Nat) (x : Ifc × List Nat), Even x.1 → (∀ l ∈ x.1.ls, l.dirty = true) → Even (evs x (ids.map .add)).1 := by
    intro ids
    induction ids with
    | nil => intro x h _; exact h
    | cons i ids ih =>
      intro x h hd
      have hd' : ∀ l ∈ (addL x.1 i).ls, l.dirty = true := by
        intro l hl
        rcases List.mem_append.mp hl with hl | hl
        · exact hd l hl
        · simp at hl; subst hl; rfl
      exact ih _ ⟨fun l hl _ => ⟨hd' l hl, .inl rfl⟩, fun _ => hd'⟩ hd'
  have h2 : ∀ (es : List Ev) (x : Ifc × List Nat), (∀ e ∈ es, (∃ l a, e = .change l a) ∨ (∃ id, e = .remove id) ∨ e = .fire (fun _ => false)) → Even x.1 → Even (evs x es).1 := by
    intro es
    induction es with
    | nil => intro x _ h; exact h
    | cons e es ih =>
      intro x he h
      refine ih _ (fun y hy => he y (List.mem_cons_of_mem _ hy)) ?_
      rcases he e List.mem_cons_self with ⟨l, a, rfl⟩ | ⟨id, rfl⟩ | rfl
      · exact even_change h l a
      · exact even_remove h id
      · exact even_fire h _ (fun _ _ _ _ => rfl)
  exact (h2 es _ hes (h1 ids _ ⟨fun l hl => by simp at hl, fun _ l hl => by simp at hl⟩ (fun l hl => by simp at hl))).1

/-- One listener: whatever its handler returns and however often it is triggered, it will be told. -/
theorem C188_single_partial (any : Bool) (id : Nat) (es : List Ev) (hes : ∀ e ∈ es, (∃ l a, e = .change l a) ∨ e = .trigger id ∨ ∃ f, e = .fire f) :
    WillBeTold (evs (addL { any := any } id, []) es).1 := by
  have h2 : ∀ (es : List Ev) (x : Ifc × List Nat), (∀ e ∈ es, (∃ l a, e = .change l a) ∨ e = .trigger id ∨ ∃ f, e = .fire f) → (∀ l ∈ x.1.ls, l.id = id) → Even x.1 → Even (evs x es).1 := by
    intro es
    induction es with
    | nil => intro x _ _ h; exact h
    | cons e es ih =>
      intro x he hid h
      refine ih _ (fun y hy => he y (List.mem_cons_of_mem _ hy)) ?_ ?_
      · rcases he e List.mem_cons_self with ⟨l, a, rfl⟩ | rfl | ⟨f, rfl⟩
        · intro k hk
          simp only [ev, change] at hk
          split at hk
          · simp only [List.mem_map] at hk
            obtain ⟨j, hj, rfl⟩ := hk
            exact hid j hj
          · simp only [List.mem_map] at hk
            obtain ⟨j, ⟨i, hi, rfl⟩, rfl⟩ := hk
            exact hid i hi
        · intro k hk
          simp only [ev, triggerL, List.mem_map] at hk
          obtain ⟨j, hj, rfl⟩ := hk
          split <;> exact hid j hj
        · intro k hk
          simp only [ev, fire] at hk
          split at hk
          · exact hid k hk
          · split at hk
            · exact hid k hk
            · simp only [List.mem_map] at hk
              obtain ⟨j, hj, rfl⟩ := hk
              split <;> exact hid j hj
      · rcases he e List.mem_cons_self with ⟨l, a, rfl⟩ | rfl | ⟨f, rfl⟩
        · exact even_change h l a
        · have hd : ∀ l ∈ (triggerL x.1 id).ls, l.dirty = true := by
            intro l hl
            simp only [triggerL, List.mem_map] at hl
            obtain ⟨k, hk, rfl⟩ := hl
            simp [hid k hk]
          exact ⟨fun l hl _ => ⟨hd l hl, .inl rfl⟩, fun _ => hd⟩
        · exact even_fire h f (fun l hl k hk => by rw [hid l hl, hid k hk])
  refine (h2 es _ hes ?_ ?_).1
  · intro l hl
    simp [addL] at hl
    subst hl; rfl
  · have hd : ∀ l ∈ (addL { any := any } id).ls, l.dirty = true := by
      intro l hl
      simp [addL] at hl
      subst hl; rfl
    exact ⟨fun l hl _ => ⟨hd l hl, .inl rfl⟩, fun _ => hd⟩

/-- When the timer fires and the data are complete, exactly the listeners that are marked are called, and those whose handlers fail stay marked. -/
theorem C188_fire (s : Ifc) (f : Nat → Bool) (ht : s.timer = true) (hr : s.any = true ∨ (s.link = true ∧ s.addr = true)) :
    (∀ id, id ∈ (fire s f).2 ↔ ∃ l ∈ s.ls, l.dirty = true ∧ l.id = id) ∧ (∀ l ∈ (fire s f).1.ls, l.dirty = true → f l.id = true ∧ (fire s f).1.timer = true) := by
  have hr' : s.ready = true := by
    unfold Ifc.ready
    rcases hr with h | ⟨h1, h2⟩
    · simp [h]
    · simp [h1, h2]
  unfold fire
  simp only [ht, hr', Bool.not_true, Bool.false_eq_true, if_false]
  constructor
  · intro id
    simp only [List.mem_map, List.mem_filter]
    constructor
    · rintro ⟨l, ⟨h1, h2⟩, h3⟩; exact ⟨l, h1, h2, h3⟩
    · rintro ⟨l, h1, h2, h3⟩; exact ⟨l, ⟨h1, h2⟩, h3⟩
  · intro l hl hd
    simp only [List.mem_map] at hl
    obtain ⟨k, hk, rfl⟩ := hl
    cases hkd : k.dirty with
    | false => simp [hkd] at hd
    | true =>
      simp only [hkd, if_true] at hd ⊢
      exact ⟨hd, List.any_eq_true.mpr ⟨k, hk, by simp [hkd, hd]⟩⟩

/-- A new listener starts the timer for itself only. A change while it runs is not told to the others. -/
theorem C188_new_counterexample : let x := evs ({}, []) [.add 1, .change true true, .fire (fun _ => false), .add 2, .change true false, .fire (fun _ => false)]
    x.2 = [1, 2] ∧ x.1.ls = [⟨1, false, true⟩, ⟨2, false, false⟩] ∧ x.1.timer = false := by decide +kernel

/-- The same after a handler has failed. -/
theorem C188_failed_counterexample : let x := evs ({}, []) [.add 1, .add 2, .change true true, .fire (fun id => id == 2), .change true false, .fire (fun _ => false)]
    x.2 = [1, 2, 2] ∧ x.1.ls = [⟨1, false, true⟩, ⟨2, false, false⟩] ∧ x.1.timer = false := by decide +kernel

/-- The listeners of an interface without addresses are never told anything. -/
theorem C188_noaddress_counterexample (es : List Ev) (h : ∀ e ∈ es, ∀ l a, e = .change l a → a = false) : (evs ({}, []) es).2 = [] := by
  have key : ∀ (es : List Ev) (x : Ifc × List Nat), (∀ e ∈ es, ∀ l a, e = .change l a → a = false) → x.1.any = false → x.1.addr = false → x.2 = [] → (evs x es).2 = [] := by
    intro es
    induction es with
    | nil => intro x _ _ _ h; exact h
    | cons e es ih =>
      intro x he h1 h2 h3
      have hnr : x.1.ready = false := by simp [Ifc.ready, h1, h2]
      have : (ev x.1 e).1.any = false ∧ (ev x.1 e).1.addr = false ∧ (ev x.1 e).2 = [] := by
        cases e with
        | add id => exact ⟨h1, h2, rfl⟩
        | remove id => exact ⟨h1, h2, rfl⟩
        | trigger id => exact ⟨h1, h2, rfl⟩
        | change l a =>
          have ha := he _ List.mem_cons_self l a rfl
          exact ⟨h1, by show (x.1.addr || a) = false; rw [h2, ha]; rfl, rfl⟩
        | fire f =>
          show (fire x.1 f).1.any = false ∧ (fire x.1 f).1.addr = false ∧ (fire x.1 f).2 = []
          unfold fire
          split
          · exact ⟨h1, h2, rfl⟩
          · simp only [hnr, Bool.not_false, if_true]; exact ⟨h1, h2, trivial⟩
      refine ih _ (fun y hy => he y (List.mem_cons_of_mem _ hy)) this.1 this.2.1 ?_
      show x.2 ++ (ev x.1 e).2 = []
      rw [h3, this.2.2]; rfl
  exact key es ({}, []) h rfl rfl rfl

example : let x := evs ({}, []) [.add 1, .add 2, .change true false, .fire (fun _ => false), .change false true, .fire (fun _ => false), .change true true]
    x.2 = [1, 2] ∧ x.1.ls = [⟨1, true, true⟩, ⟨2, true, true⟩] ∧ x.1.timer = true := by decide +kernel
example : WillBeTold (evs (addL {} 7, []) [.change true true, .fire (fun _ => true), .change true true]).1 :=
  C188_single_partial false 7 _ (by
    intro e he
    simp at he
    rcases he with rfl | rfl | rfl
    · exact .inl ⟨_, _, rfl⟩
    · exact .inr (.inr ⟨_, rfl⟩)
    · exact .inl ⟨_, _, rfl⟩)
example : (fire { any := true, timer := true, ls := [⟨1, true, true⟩, ⟨2, false, false⟩, ⟨3, true, false⟩] } (fun id => id == 3)) =
    ({ any := true, timer := true, ls := [⟨1, false, false⟩, ⟨2, false, false⟩, ⟨3, true, false⟩] }, [1, 3]) := by decide +kernel
example : (evs ({}, []) [.add 1, .change true false, .fire (fun _ => false), .trigger 1, .fire (fun _ => false)]).2 = [] := by decide +kernel

/-! ### C190 -/

inductive PEv where
  | request (id seq : Nat)
  | answer (seq : Nat) (error : Int)
  | interrupt (id : Nat)
deriving DecidableEq, Repr

def pev (p : Pend) : PEv → Pend
  | .request id seq => request p id seq
  | .answer seq e => answered p seq e
  | .interrupt id => interrupt p id

/-- the requests made -/
def asked (es : List PEv) : List Nat := es.filterMap fun | .request id _ => some id | _ => none

/-- Each request is either waiting or has been answered, and neither twice. -/
theorem C190_once (es : List PEv) : (((es.foldl pev {}).waiting.map (·.1)) ++ ((es.foldl pev {}).told.map (·.1))).Perm (asked es) := by
  have key : ∀ (es : List PEv) (p : Pend), (((es.foldl pev p).waiting.map (·.1)) ++ ((es.foldl pev p).told.map (·.1))).Perm ((p.waiting.map (·.1) ++ p.told.map (·.1)) ++ asked es) := by
    intro es
    induction es with
    | nil => intro p; simp [asked]
    | cons e es ih =>
      intro p
      have drop : ∀ (x : Nat × Nat) (err : Int), x ∈ p.waiting → ((p.waiting.erase x).map (·.1) ++ (p.told ++ [(x.1, err)]).map (·.1)).Perm (p.waiting.map (·.1) ++ p.told.map (·.1)) := by
        intro x err hx
        have h1 : (p.waiting.map (·.1)).Perm (x.1 :: (p.waiting.erase x).map (·.1)) := by
          simpa using (List.perm_cons_erase hx).map (·.1)
        rw [List.map_append, List.map_cons, List.map_nil, ← List.append_assoc]
        exact (List.perm_append_singleton _ _).trans ((h1.append_right _).symm)
      cases e with
      | request id seq =>
        refine (ih _).trans ?_
        show ((p.waiting ++ [(id, seq)]).map (·.1) ++ p.told.map (·.1) ++ asked es).Perm (p.waiting.map (·.1) ++ p.told.map (·.1) ++ id :: asked es)
        simp only [List.map_append, List.map_cons, List.map_nil, List.append_assoc, List.cons_append, List.nil_append]
        exact List.Perm.append_left _ List.perm_middle.symm
      | answer seq err =>
        refine (ih _).trans ?_
        show (_ ++ asked es).Perm (_ ++ asked es)
        refine List.Perm.append_right _ ?_
        show ((answered p seq err).waiting.map (·.1) ++ (answered p seq err).told.map (·.1)).Perm _
        unfold answered
        cases hf : p.waiting.find? (fun x => x.2 = seq) with
        | none => exact List.Perm.refl _
        | some x => exact drop x err (List.mem_of_find?_eq_some hf)
      | interrupt id =>
        refine (ih _).trans ?_
        show (_ ++ asked es).Perm (_ ++ asked es)
        refine List.Perm.append_right _ ?_
        show ((interrupt p id).waiting.map (·.1) ++ (interrupt p id).told.map (·.1)).Perm _
        unfold interrupt
        cases hf : p.waiting.find? (fun x => x.1 = id) with
        | none => exact List.Perm.refl _
        | some x => exact drop x (-1) (List.mem_of_find?_eq_some hf)
  simpa using key es {}

theorem inj_snd (l : List (Nat × Nat)) (hn : (l.map (·.2)).Nodup) : ∀ a ∈ l, ∀ b ∈ l, a.2 = b.2 → a = b := by
  induction l with
  | nil => intro a ha; cases ha
  | cons c l ih =>
    intro a ha b hb hab
    have hc := List.nodup_cons.mp hn
    have hn1 : ∀ x ∈ l, x.2 ≠ c.2 := fun x hx e => hc.1 (List.mem_map.mpr ⟨x, hx, e⟩)
    rcases List.mem_cons.mp ha with ha | ha
    · rcases List.mem_cons.mp hb with hb | hb
      · rw [ha, hb]
      · exact absurd (by rw [← hab, ha]) (hn1 b hb)
    · rcases List.mem_cons.mp hb with hb | hb
      · exact absurd (by rw [hab, hb]) (hn1 a ha)
      · exact ih hc.2 a ha b hb hab

/-- The answer of the kernel goes to the request with its number: if the numbers of the waiting requests are distinct, exactly that request is told, with the result. -/
theorem C190_answer (p : Pend) (id seq : Nat) (err : Int) (hin : (id, seq) ∈ p.waiting) (hd : (p.waiting.map (·.2)).Nodup) :
    (answered p seq err).told = p.told ++ [(id, err)] ∧ ∀ x, x ∈ (answered p seq err).waiting ↔ x ∈ p.waiting ∧ x.2 ≠ seq := by
  have hf : p.waiting.find? (fun x => x.2 = seq) = some (id, seq) := by
    cases h : p.waiting.find? (fun x => x.2 = seq) with
    | none =>
      have := List.find?_eq_none.mp h (id, seq) hin
      simp at this
    | some y =>
      have h1 := List.mem_of_find?_eq_some h
      have h2 : y.2 = seq := by simpa using List.find?_some h
      rw [inj_snd _ hd y h1 _ hin h2]
  have hnd : p.waiting.Nodup := by
    have aux : ∀ (l : List (Nat × Nat)), (l.map (·.2)).Nodup → l.Nodup := by
      intro l
      induction l with
      | nil => intro _; exact List.nodup_nil
      | cons c l ih =>
        intro hn
        have hc := List.nodup_cons.mp hn
        exact List.nodup_cons.mpr ⟨fun h => hc.1 (List.mem_map.mpr ⟨c, h, rfl⟩), ih hc.2⟩
    exact aux _ hd
  unfold answered
  rw [hf]
  refine ⟨rfl, ?_⟩
  intro x
  simp only [hnd.mem_erase_iff]
  constructor
  · rintro ⟨h1, h2⟩
    refine ⟨h2, fun h3 => h1 ?_⟩
    exact inj_snd _ hd x h2 _ hin h3
  · rintro ⟨h1, h2⟩
    exact ⟨fun h => h2 (by rw [h]), h1⟩

/-- The kernel does not answer in time: with any request waiting the daemon crashes instead of telling the requests. -/
theorem C190_timeout_counterexample (p : Pend) : timedOut p = none ↔ p.waiting ≠ [] := by
  unfold timedOut
  cases p.waiting <;> simp

example : let p := [.request 1 10, .request 2 11, .answer 11 17, .interrupt 1].foldl pev {}
    p = { waiting := [], told := [(2, 17), (1, -1)] } := by decide +kernel
example : (answered { waiting := [(1, 10), (2, 11)] } 11 0).told = [(2, 0)] := by decide +kernel

end Verif.OsIf
