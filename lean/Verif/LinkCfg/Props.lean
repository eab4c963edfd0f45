import Verif.LinkCfg.Model

/-! # Properties of configured link data -/

namespace Verif.LinkCfg

/-! ## Specification -/

/-- what one value assigns: the interface if there are no addresses, else the addresses up to the first word that is none -/
def entryAssigns (net idx : Nat) (e : Entry) : List (Key × Int) :=
  match e.value with
  | none => []
  | some v => if e.words = [] then [(⟨net, none, idx⟩, v)] else (e.words.takeWhile (·.isSome)).filterMap fun w => w.map fun m => (⟨net, some m, idx⟩, v)

/-- what a section assigns -/
def assigns (net : Nat) (s : Section) : List (Key × Int) := s.flatMap fun x => x.2.flatMap (entryAssigns net x.1)

/-- the value configured for an item: the last one -/
def wanted (net : Nat) (s : Section) (k : Key) : Option Int := (((assigns net s).filter fun a => a.1 = k).getLast?).map (·.2)

/-- may the plugin write here -/
def Free (x : Option Item) : Prop := ∀ i, x = some i → i.org = .cur ∨ i.org.prio < 30

/-! ## Lemmas -/

def setKey (db : Db) (a : Key × Int) : Db := db.put a.1 (setData (db a.1) a.2)

theorem macs_eq (net idx : Nat) (v : Int) : ∀ (ws : List (Option Nat)) (db : Db),
    macs net idx v db ws = ((ws.takeWhile (·.isSome)).filterMap fun w => w.map fun m => ((⟨net, some m, idx⟩ : Key), v)).foldl setKey db := by
  intro ws
  induction ws with
  | nil => intro db; rfl
  | cons w ws ih =>
    intro db
    cases w with
    | none => simp [macs]
    | some m => simp [macs, ih, setKey]

theorem entry_eq (net idx : Nat) (db : Db) (e : Entry) : entry net idx db e = (entryAssigns net idx e).foldl setKey db := by
  unfold entry entryAssigns
  cases e.value with
  | none => rfl
  | some v =>
    cases hw : e.words with
    | nil => simp [setKey]
    | cons w ws => simp only [List.isEmpty_cons, Bool.false_eq_true, if_false, macs_eq, reduceCtorEq]

theorem parse_eq (net : Nat) : ∀ (s : Section) (db : Db), parse net db s = (assigns net s).foldl setKey db := by
  have hl : ∀ (idx : Nat) (es : List Entry) (db : Db), es.foldl (entry net idx) db = (es.flatMap (entryAssigns net idx)).foldl setKey db := by
    intro idx es
    induction es with
    | nil => intro db; rfl
    | cons e es ih => intro db; simp [ih, entry_eq]
  intro s
  induction s with
  | nil => intro db; rfl
  | cons x s ih =>
    intro db
    unfold parse assigns at ih ⊢
    simp only [List.foldl_cons, List.flatMap_cons, List.foldl_append]
    rw [ih, hl]

theorem assigns_net (net : Nat) (s : Section) (a : Key × Int) (h : a ∈ assigns net s) : a.1.net = net := by
  simp only [assigns, List.mem_flatMap] at h
  obtain ⟨x, _, e, _, h⟩ := h
  unfold entryAssigns at h
  split at h
  · cases h
  · split at h
    · simp only [List.mem_singleton] at h; rw [h]
    · simp only [List.mem_filterMap, Option.map_eq_some_iff] at h
      obtain ⟨w, _, m, _, rfl⟩ := h
      rfl

theorem setData_free {x : Option Item} (v : Int) (h : Free x) : setData x v = some ⟨v, .cur⟩ := by
  cases x with
  | none => rfl
  | some i => simp only [setData]; rw [if_pos (show i.org = Org.cur ∨ i.org.prio < Org.cur.prio from h i rfl)]

theorem setData_taken {i : Item} (v : Int) (h : ¬ (i.org = .cur ∨ i.org.prio < 30)) : setData (some i) v = some i := by
  simp only [setData]; rw [if_neg (show ¬ (i.org = Org.cur ∨ i.org.prio < Org.cur.prio) from h)]

theorem fold_free (k : Key) : ∀ (l : List (Key × Int)) (db : Db), Free (db k) →
    l.foldl setKey db k = match ((l.filter fun a => a.1 = k).getLast?).map (·.2) with | some v => some ⟨v, .cur⟩ | none => db k := by
  intro l
  induction l with
  | nil => intro db _; rfl
  | cons a l ih =>
    intro db h
    simp only [List.foldl_cons, List.filter_cons]
    by_cases ha : a.1 = k
    · have e : setKey db a k = some ⟨a.2, .cur⟩ := by
        simp only [setKey, Db.put, ha, if_true]
        exact setData_free _ h
      rw [ih _ (by rw [e]; intro i hi; cases hi; exact .inl rfl), e]
      simp only [ha, decide_true, if_true, List.getLast?_cons]
      cases (l.filter fun a => a.1 = k).getLast? <;> rfl
    · have e : setKey db a k = db k := by
        simp only [setKey, Db.put]
        rw [if_neg (fun h => ha h.symm)]
      rw [ih _ (by rw [e]; exact h), e]
      simp [ha]

theorem fold_taken (k : Key) (i : Item) (hi : ¬ (i.org = .cur ∨ i.org.prio < 30)) : ∀ (l : List (Key × Int)) (db : Db), db k = some i → l.foldl setKey db k = some i := by
  intro l
  induction l with
  | nil => intro db h; exact h
  | cons a l ih =>
    intro db h
    simp only [List.foldl_cons]
    apply ih
    simp only [setKey, Db.put]
    by_cases ha : k = a.1
    · rw [if_pos ha, ← ha, h, setData_taken _ hi]
    · rw [if_neg ha]; exact h

theorem fold_other (k : Key) : ∀ (l : List (Key × Int)) (db : Db), (∀ a ∈ l, a.1 ≠ k) → l.foldl setKey db k = db k := by
  intro l
  induction l with
  | nil => intro db _; rfl
  | cons a l ih =>
    intro db h
    simp only [List.foldl_cons]
    rw [ih _ (fun x hx => h x (List.mem_cons_of_mem _ hx))]
    simp only [setKey, Db.put]
    rw [if_neg (fun e => h a (List.mem_cons_self ..) e.symm)]

theorem wanted_none {net : Nat} {s : Section} {k : Key} (h : wanted net s k = none) : ∀ a ∈ assigns net s, a.1 ≠ k := by
  intro a ha hk
  simp only [wanted, Option.map_eq_none_iff, List.getLast?_eq_none_iff, List.filter_eq_nil_iff, decide_eq_true_eq] at h
  exact h a ha hk

/-! ## C212 -/

/-- the first time: a configured value is stored, unless someone with the same or a higher priority was there; the last value counts -/
theorem C212_stored_partial (phy : Nat → Nat) (s : St) (p : Section) (hp : s.post = some p) (hphy : phy s.name = s.name) (k : Key) (hi : k.mac ≠ none ∨ k.idx < 16)
    (v : Int) (hw : wanted s.name p k = some v) :
    (s.db k = none → (changed phy s).db k = some ⟨v, .old⟩) ∧
    (∀ i q, s.db k = some i → i.org = .other q → q < 30 → (changed phy s).db k = some ⟨v, .old⟩) ∧
    (∀ i q, s.db k = some i → i.org = .other q → 30 ≤ q → (changed phy s).db k = some i) := by
  have hn : k.net = s.name := by
    simp only [wanted, Option.map_eq_some_iff] at hw
    obtain ⟨a, ha, _⟩ := hw
    have hm := List.mem_of_getLast? ha
    rw [List.mem_filter, decide_eq_true_eq] at hm
    rw [← hm.2]
    exact assigns_net _ _ _ hm.1
  have free : Free (s.db k) → (changed phy s).db k = some ⟨v, .old⟩ := by
    intro hf
    simp only [changed, parsed, hp, settle, hphy, hn, if_true, parse_eq]
    have := fold_free k (assigns s.name p) s.db hf
    rw [show ((assigns s.name p).filter fun a => a.1 = k).getLast?.map (·.2) = some v from hw] at this
    rw [this]
    simp [hi]
  refine ⟨fun h => free (by rw [h]; intro i hi; cases hi), ?_, ?_⟩
  · intro i q h1 h2 h3
    exact free (by intro j hj; rw [h1] at hj; cases hj; rw [h2]; exact .inr h3)
  · intro i q h1 h2 h3
    simp only [changed, parsed, hp, settle, hphy, hn, if_true, parse_eq]
    rw [fold_taken k i (by rw [h2]; simp [Org.prio]; omega) _ _ h1]
    simp [h2]

/-- what is not configured any more is removed; data of others and of other interfaces is left alone -/
theorem C212_rest (phy : Nat → Nat) (s : St) (hphy : phy s.name = s.name) (k : Key) (hw : ∀ p, s.post = some p → wanted s.name p k = none) :
    (k.net = s.name → ∀ i, s.db k = some i → i.org = .old → (changed phy s).db k = none) ∧
    (∀ i q, s.db k = some i → i.org = .other q → (changed phy s).db k = some i) ∧
    (k.net ≠ s.name → (changed phy s).db k = s.db k) := by
  have h0 : parsed s k = s.db k := by
    unfold parsed
    cases hp : s.post with
    | none => rfl
    | some p =>
      simp only [parse_eq]
      exact fold_other k _ _ (wanted_none (hw p hp))
  simp only [changed, settle, hphy, h0]
  refine ⟨?_, ?_, ?_⟩
  · intro hn i h1 h2; simp [hn, h1, h2]
  · intro i q h1 h2
    by_cases hn : k.net = s.name <;> simp [hn, h1, h2]
  · intro hn; simp [hn]

/-- two interfaces, 0 and 1; item 5 is the receive bitrate -/
def demoSec (v : Int) : Section := [(5, [⟨some v, []⟩, ⟨some (v + 1), [some 77, none, some 78]⟩])]
def demoSt : St := ⟨fun _ => none, none, 0⟩

example : let s := configure id demoSt [(0, some (demoSec 10), true), (1, some (demoSec 20), true)]
    s.db ⟨0, none, 5⟩ = some ⟨10, .old⟩ ∧ s.db ⟨1, some 77, 5⟩ = some ⟨21, .old⟩ ∧ s.db ⟨1, some 78, 5⟩ = none := by decide +kernel

/-- a value that is there and still (or newly) configured is removed: the two origins of the plugin have the same priority, so that the new value is
refused, and then the old one is cleaned up -/
theorem C212_again_counterexample (phy : Nat → Nat) (s : St) (p : Section) (hp : s.post = some p) (hphy : phy s.name = s.name) (k : Key) (hn : k.net = s.name)
    (v : Int) (_ : wanted s.name p k = some v) (i : Item) (hi : s.db k = some i) (ho : i.org = .old) : (changed phy s).db k = none := by
  simp only [changed, parsed, hp, settle, hphy, hn, if_true, parse_eq]
  rw [fold_taken k i (by rw [ho]; simp [Org.prio]) _ _ hi]
  simp [ho]

/-- so the configured values come and go with each delayed update -/
theorem C212_flap_counterexample (phy : Nat → Nat) (s : St) (p : Section) (hp : s.post = some p) (hphy : phy s.name = s.name) (k : Key) (hi : k.mac ≠ none ∨ k.idx < 16)
    (v : Int) (hw : wanted s.name p k = some v) (h0 : s.db k = none) : ∀ n,
    (Nat.repeat (delayed phy) n s).db k = (if n % 2 = 0 then none else some ⟨v, .old⟩) ∧ (Nat.repeat (delayed phy) n s).post = some p ∧ (Nat.repeat (delayed phy) n s).name = s.name := by
  have hn : k.net = s.name := by
    simp only [wanted, Option.map_eq_some_iff] at hw
    obtain ⟨a, ha, _⟩ := hw
    have hm := List.mem_of_getLast? ha
    rw [List.mem_filter, decide_eq_true_eq] at hm
    rw [← hm.2]
    exact assigns_net _ _ _ hm.1
  intro n
  induction n with
  | zero => exact ⟨h0, hp, rfl⟩
  | succ n ih =>
    obtain ⟨a, b, c⟩ := ih
    have e : Nat.repeat (delayed phy) (n + 1) s = changed phy (Nat.repeat (delayed phy) n s) := rfl
    rw [e]
    refine ⟨?_, b, c⟩
    generalize Nat.repeat (delayed phy) n s = t at a b c
    by_cases hm : n % 2 = 0
    · rw [if_pos hm] at a
      rw [if_neg (by omega)]
      exact (C212_stored_partial phy t p b (by rw [c]; exact hphy) k hi v (by rw [c]; exact hw)).1 a
    · rw [if_neg hm] at a
      rw [if_pos (by omega)]
      exact C212_again_counterexample phy t p b (by rw [c]; exact hphy) k (by rw [c]; exact hn) v (by rw [c]; exact hw) _ a rfl

/-- the delayed update takes the section that was looked at last and the name of the one that changed last: interface 0 gets the values of interface 1 -/
theorem C212_section_counterexample :
    let s := configure id (configure id demoSt [(0, none, true), (1, some (demoSec 20), true)]) [(0, some [], true), (1, some (demoSec 20), false)]
    s.db ⟨0, none, 5⟩ = none ∧ (delayed id s).db ⟨0, none, 5⟩ = some ⟨20, .old⟩ := by decide +kernel

/-- the values go to the interface as it is named in the configuration, but are settled on the physical interface: if these differ the values are
never removed -/
theorem C212_name_counterexample (phy : Nat → Nat) (s : St) (hphy : phy s.name ≠ s.name) (hp : s.post = none) (k : Key) (hn : k.net = s.name) (i : Item) (hi : s.db k = some i) :
    (changed phy s).db k = some i := by
  simp only [changed, parsed, hp, settle]
  rw [if_neg (fun h => hphy (by rw [← h, hn])), hi]

example : let phy := fun n => if n = 0 then 9 else n
    let s := configure phy demoSt [(0, some (demoSec 10), true)]
    s.db ⟨0, none, 5⟩ = some ⟨10, .cur⟩ ∧ (configure phy s [(0, none, true)]).db ⟨0, none, 5⟩ = some ⟨10, .cur⟩ := by decide +kernel

end Verif.LinkCfg
