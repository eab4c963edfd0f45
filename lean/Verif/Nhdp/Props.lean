import Verif.Nhdp.History

/-
Properties C49-C52: the database of NHDP.
-/
namespace Verif.Nhdp
open Map (get_upd get_del mem_keys)

/-! ### C49 status of links -/

theorem collides_iff (l : LinkInfo) : (l.localOrig ≠ none ∧ (l.localOrig = l.ifAddr ∨ l.localOrig = l.neighOrig)) ∨ l.ifAddr ∈ l.ownAddrs ∨
    (l.mac ≠ none ∧ l.ownMac = l.mac) ↔ Collides l := by
  unfold Collides
  constructor
  · rintro (⟨h1, h2⟩ | h | ⟨h1, h2⟩)
    · exact .inl ⟨h1, h2.imp Eq.symm Eq.symm⟩
    · exact .inr (.inl ⟨_, h, rfl⟩)
    · exact .inr (.inr ⟨h1, h2.symm⟩)
  · rintro (⟨h1, h2⟩ | ⟨a, h1, h2⟩ | ⟨h1, h2⟩)
    · exact .inl ⟨h1, h2.imp Eq.symm Eq.symm⟩
    · exact .inr (.inl (h2 ▸ h1))
    · exact .inr (.inr ⟨h1, h2.symm⟩)

open Classical in
theorem calculateStatus_eq (l : LinkInfo) : calculateStatus l =
    if Collides l ∨ l.hystPending = true then .pending
    else if l.hystLost then .lost else if l.symTimer then .symmetric else if l.heardTimer then .heard else .lost := by
  have hc := collides_iff l
  unfold calculateStatus
  by_cases h1 : l.localOrig ≠ none ∧ (l.localOrig = l.ifAddr ∨ l.localOrig = l.neighOrig)
  · rw [if_pos h1, if_pos (.inl (hc.1 (.inl h1)))]
  · rw [if_neg h1]
    by_cases h2 : l.ifAddr ∈ l.ownAddrs
    · rw [if_pos h2, if_pos (.inl (hc.1 (.inr (.inl h2))))]
    · rw [if_neg h2]
      by_cases h3 : l.mac ≠ none ∧ l.ownMac = l.mac
      · rw [if_pos h3, if_pos (.inl (hc.1 (.inr (.inr h3))))]
      · rw [if_neg h3]
        by_cases h4 : l.hystPending = true
        · rw [if_pos h4, if_pos (.inr h4)]
        · have hn : ¬ (Collides l ∨ l.hystPending = true) := by
            rintro (h | h)
            · rcases hc.2 h with h | h | h
              · exact h1 h
              · exact h2 h
              · exact h3 h
            · exact h4 h
          rw [if_neg h4, if_neg hn]

/-- a link is symmetric exactly when its symmetric timer runs and there is no collision, no pending and no lost link quality -/
theorem C49_symmetric (l : LinkInfo) :
    calculateStatus l = .symmetric ↔ l.symTimer = true ∧ ¬ Collides l ∧ l.hystPending = false ∧ l.hystLost = false := by
  rw [calculateStatus_eq]
  by_cases h1 : Collides l ∨ l.hystPending = true
  · rw [if_pos h1]
    refine ⟨fun h => (by cases h), fun h => ?_⟩
    rcases h1 with h1 | h1
    · exact absurd h1 h.2.1
    · rw [h.2.2.1] at h1
      cases h1
  · rw [if_neg h1]
    have h2 : ¬ Collides l := fun h => h1 (.inl h)
    have h3 : l.hystPending = false := by
      cases h : l.hystPending
      · rfl
      · exact absurd (.inr h) h1
    cases l.hystLost <;> cases l.symTimer <;> cases l.heardTimer <;> simp [h2, h3]

/-- pending: collision or pending link quality, whatever the timers say -/
theorem C49_pending (l : LinkInfo) : calculateStatus l = .pending ↔ Collides l ∨ l.hystPending = true := by
  rw [calculateStatus_eq]
  by_cases h1 : Collides l ∨ l.hystPending = true
  · rw [if_pos h1]
    exact ⟨fun _ => h1, fun _ => rfl⟩
  · rw [if_neg h1]
    refine ⟨fun h => ?_, fun h => absurd h h1⟩
    revert h
    cases l.hystLost <;> cases l.symTimer <;> cases l.heardTimer <;> simp

/-- heard: only the heard timer runs -/
theorem C49_heard (l : LinkInfo) : calculateStatus l = .heard ↔
    l.heardTimer = true ∧ l.symTimer = false ∧ ¬ Collides l ∧ l.hystPending = false ∧ l.hystLost = false := by
  rw [calculateStatus_eq]
  by_cases h1 : Collides l ∨ l.hystPending = true
  · rw [if_pos h1]
    refine ⟨fun h => (by cases h), fun h => ?_⟩
    rcases h1 with h1 | h1
    · exact absurd h1 h.2.2.1
    · rw [h.2.2.2.1] at h1
      cases h1
  · rw [if_neg h1]
    have h2 : ¬ Collides l := fun h => h1 (.inl h)
    have h3 : l.hystPending = false := by
      cases h : l.hystPending
      · rfl
      · exact absurd (.inr h) h1
    cases l.hystLost <;> cases l.symTimer <;> cases l.heardTimer <;> simp [h2, h3]

/-- lost: lost link quality or no timer runs -/
theorem C49_lost (l : LinkInfo) : calculateStatus l = .lost ↔
    (¬ Collides l ∧ l.hystPending = false) ∧ (l.hystLost = true ∨ (l.symTimer = false ∧ l.heardTimer = false)) := by
  rw [calculateStatus_eq]
  by_cases h1 : Collides l ∨ l.hystPending = true
  · rw [if_pos h1]
    refine ⟨fun h => (by cases h), fun h => ?_⟩
    rcases h1 with h1 | h1
    · exact absurd h1 h.1.1
    · rw [h.1.2] at h1
      cases h1
  · rw [if_neg h1]
    have h2 : ¬ Collides l := fun h => h1 (.inl h)
    have h3 : l.hystPending = false := by
      cases h : l.hystPending
      · rfl
      · exact absurd (.inr h) h1
    cases l.hystLost <;> cases l.symTimer <;> cases l.heardTimer <;> simp [h2, h3]

example : calculateStatus ⟨some 1, some 2, some 3, [some 4, none], some 5, some 6, false, false, true, true⟩ = .symmetric := by decide
example : calculateStatus ⟨some 1, some 2, some 1, [some 4], some 5, some 6, false, false, true, true⟩ = .pending := by decide
example : Collides ⟨some 1, some 2, some 1, [some 4], some 5, some 6, false, false, true, true⟩ := .inl ⟨by decide, .inr rfl⟩
example : calculateStatus ⟨some 1, some 2, none, [some 4], some 5, some 6, false, true, true, true⟩ = .lost := by decide
example : calculateStatus ⟨none, some 2, none, [], none, none, false, false, false, true⟩ = .heard := by decide

/-- an update stores the calculated status in the link and leaves the status of other links; missing: between the end of a timer and the
update, see the counterexample -/
theorem C49_update_partial {db : Db} (hr : Reach Sane db) {l : Nat} (hl : db.links.get l ≠ none) (i : LinkInfo) :
    ∃ db', updateStatus db l (calculateStatus i) = some db' ∧
      (∀ x', db'.links.get l = some x' → x'.status = calculateStatus i) ∧ db'.links.get l ≠ none ∧
      ∀ j, j ≠ l → db'.links.get j = db.links.get j := by
  have w : WF db := reach_wf hr
  obtain ⟨lnk, hl⟩ := Option.ne_none_iff_exists'.1 hl
  obtain ⟨na, d, e, _, _⟩ := updateStatus_ok w hl (calculateStatus i)
  have hget : ∀ j, (db.links.upd l fun x => { x with status := calculateStatus i }).get j = if j = l then (db.links.get j).map fun x => { x with status := calculateStatus i } else db.links.get j :=
    fun j => get_upd _ _ _ _
  refine ⟨_, e, ?_, ?_, ?_⟩
  · intro x' hx'
    have hx' : (db.links.upd l fun x => { x with status := calculateStatus i }).get l = some x' := hx'
    rw [hget, if_pos rfl, hl] at hx'
    injection hx' with hx'
    rw [← hx']
  · show (db.links.upd l fun x => { x with status := calculateStatus i }).get l ≠ none
    rw [hget, if_pos rfl, hl]
    simp
  · intro j hj
    show (db.links.upd l fun x => { x with status := calculateStatus i }).get j = _
    rw [hget, if_neg hj]

/-- two HELLOs of a neighbor with address 1 on interface 0, originator 10; after the second one the link is symmetric -/
def symmetricDb : Option Db :=
  (hello Db.empty ⟨0, 1, some 10, false, none, [⟨1, some true, false⟩]⟩ none .heard).bind fun db =>
    hello db ⟨0, 1, some 10, false, none, [⟨1, some true, false⟩]⟩ none .symmetric

/-- when the interface of a symmetric link goes down its symmetric timer is stopped, but the link keeps the status -/
theorem C49_unsymmetric_counterexample : ∃ db db' l, symmetricDb = some db ∧ setUnsymmetric db l = some db' ∧
    (db.links.get l).map (·.status) = some .symmetric ∧ (db'.links.get l).map (·.status) = some .symmetric ∧
    ∀ i : LinkInfo, i.symTimer = false → calculateStatus i ≠ .symmetric := by
  refine ⟨⟨[(0, ⟨some 10, 1, 0⟩)], [(1, ⟨0, 0, .symmetric, 0⟩)], [(1, ⟨0, false, false⟩)], [((0, 1), ⟨1, false⟩)], [], [], 2⟩, _, 1,
    by decide +kernel, rfl, by decide +kernel, by decide +kernel, ?_⟩
  intro i hi h
  rw [C49_symmetric, hi] at h
  cases h.1

/-! ### C50 the counter of symmetric links -/

/-- the counter of a neighbor is the number of its symmetric links, after all histories of HELLOs which name one link, status updates and
timeouts; missing: interfaces going down, dropped HELLOs, HELLOs with addresses of several links -/
theorem C50_counter_partial {db : Db} (hr : Reach Regular db) {n : Nat} {x : Neigh} (hx : db.neighs.get n = some x) :
    x.sym = (symLinks db n).length :=
  (reach_cnt hr).2 n x hx

/-- the list really is the list of the symmetric links -/
theorem C50_symLinks {db : Db} (hr : Reach Regular db) (n : Nat) : (symLinks db n).Nodup ∧ ∀ l, l ∈ symLinks db n ↔ IsSym db n l :=
  ⟨nodup_symLinks (reach_cnt hr).1 n, fun _ => mem_symLinks⟩

theorem symmetricDb_reach {db : Db} (h : symmetricDb = some db) : Reach Regular db := by
  unfold symmetricDb at h
  obtain ⟨d, hd, h⟩ := Option.bind_eq_some_iff.1 h
  have r1 : Reach Regular d := by
    refine .step (.hello ⟨0, 1, some 10, false, none, [⟨1, some true, false⟩]⟩ none .heard) .empty trivial ⟨?_, ?_⟩ hd
    · intro e _ f _ _ _ la _ _ hla
      cases hla
    · intro e _ f _ _ _ la _ hla
      cases hla
  refine .step (.hello ⟨0, 1, some 10, false, none, [⟨1, some true, false⟩]⟩ none .symmetric) r1 trivial ⟨?_, ?_⟩ h
  · have hd' : d = ⟨[(0, ⟨some 10, 0, 0⟩)], [(1, ⟨0, 0, .heard, 0⟩)], [(1, ⟨0, false, false⟩)], [((0, 1), ⟨1, false⟩)], [], [], 2⟩ := by
      have : hello Db.empty ⟨0, 1, some 10, false, none, [⟨1, some true, false⟩]⟩ none .heard =
        some ⟨[(0, ⟨some 10, 0, 0⟩)], [(1, ⟨0, 0, .heard, 0⟩)], [(1, ⟨0, false, false⟩)], [((0, 1), ⟨1, false⟩)], [], [], 2⟩ := by decide +kernel
      rw [this] at hd
      injection hd with hd
      exact hd.symm
    subst hd'
    intro e he f hf _ _ la lnk na hla hl hna
    rw [List.mem_singleton.1 he] at hla
    rw [List.mem_singleton.1 hf] at hna
    injection hla with hla
    rw [← hla] at hl
    injection hl with hl
    injection hna with hna
    rw [← hl, ← hna]
  · intro e he f hf _ _ la lb hla hlb
    rw [List.mem_singleton.1 he] at hla
    rw [List.mem_singleton.1 hf, hla] at hlb
    injection hlb with hlb
    rw [hlb]

/-- one symmetric link, counter 1 -/
example : ∃ db, symmetricDb = some db ∧ Reach Regular db ∧ (db.neighs.get 0).map (·.sym) = some 1 ∧ symLinks db 0 = [1] :=
  ⟨_, rfl, symmetricDb_reach rfl, by decide +kernel, by decide +kernel⟩

/-- an interface going down twice, then a status update: a link is not symmetric, the counter is -2 -/
theorem C50_unsymmetric_counterexample : ∃ db d1 d2 d3, symmetricDb = some db ∧ setUnsymmetric db 1 = some d1 ∧ setUnsymmetric d1 1 = some d2 ∧
    updateStatus d2 1 .lost = some d3 ∧ (d3.neighs.get 0).map (·.sym) = some (-2) ∧ symLinks d3 0 = [] ∧
    (d1.neighs.get 0).map (·.sym) = some 0 ∧ symLinks d1 0 = [1] :=
  ⟨_, _, _, _, rfl, rfl, rfl, rfl, by decide +kernel, by decide +kernel, by decide +kernel, by decide +kernel⟩

/-- a HELLO with the addresses 1 and 2 of two links of the neighbor: the link of address 1 is symmetric and is removed, the counter stays 1 -/
theorem C50_removed_counterexample : ∃ db d1 d2, symmetricDb = some db ∧
    hello db ⟨0, 2, some 10, false, none, [⟨2, some true, false⟩]⟩ none .heard = some d1 ∧
    hello d1 ⟨0, 2, some 10, false, none, [⟨1, some true, false⟩, ⟨2, some true, false⟩]⟩ none .heard = some d2 ∧
    (d2.neighs.get 0).map (·.sym) = some 1 ∧ symLinks d2 0 = [] :=
  ⟨_, _, _, rfl, rfl, rfl, by decide +kernel, by decide +kernel⟩

/-! ### C51 dualstack partners -/

/-- connecting two existing objects makes them partners of each other, their old partners have none afterwards, nothing else changes;
partnership stays mutual -/
theorem C51_connect {live : List Nat} {m : Map Nat Nat} (hm : ∀ a b, m.get a = some b → m.get b = some a ∧ a ∈ live ∧ b ∈ live)
    {a b : Nat} (ha : a ∈ live) (hb : b ∈ live) :
    ∃ m', connect live m a b = some m' ∧ m'.get a = some b ∧ m'.get b = some a ∧
      (∀ x, x ≠ a → x ≠ b → m'.get x = if m.get x = some a ∨ m.get x = some b then none else m.get x) ∧
      (∀ x y, m'.get x = some y → m'.get y = some x ∧ x ∈ live ∧ y ∈ live) := by
  obtain ⟨m', e, d, h1, h2, h3⟩ := connect_ok hm ha hb
  exact ⟨m', e, h1, h2, h3, d⟩

/-- disconnecting an existing object leaves it and its partner without partner, nothing else changes; partnership stays mutual -/
theorem C51_disconnect {live : List Nat} {m : Map Nat Nat} (hm : ∀ a b, m.get a = some b → m.get b = some a ∧ a ∈ live ∧ b ∈ live)
    {a : Nat} (ha : a ∈ live) :
    ∃ m', disconnect live m a = some m' ∧ (∀ x, m'.get x = if x = a ∨ m.get a = some x then none else m.get x) ∧
      (∀ x y, m'.get x = some y → m'.get y = some x ∧ x ∈ live ∧ y ∈ live) := by
  obtain ⟨m', e, d, _, h3⟩ := disconnect_ok hm ha
  exact ⟨m', e, h3, d⟩

example : connect [1, 2, 3, 4] [(1, 2), (2, 1), (3, 4), (4, 3)] 1 3 = some [(1, 3), (3, 1)] := by decide +kernel

/-- after all histories: the partner of an existing neighbor is an existing neighbor and names it as partner, so nobody has two; the same for
links; missing: different families, not its own partner -/
theorem C51_partners_partial {db : Db} (hr : Reach Sane db) :
    (∀ a b, db.npart.get a = some b → db.npart.get b = some a ∧ db.neighs.get a ≠ none ∧ db.neighs.get b ≠ none) ∧
    (∀ a b, db.lpart.get a = some b → db.lpart.get b = some a ∧ db.links.get a ≠ none ∧ db.links.get b ≠ none) ∧
    (∀ a b c, db.npart.get a = some c → db.npart.get b = some c → a = b) ∧
    (∀ a b c, db.lpart.get a = some c → db.lpart.get b = some c → a = b) := by
  have w := reach_wf hr
  refine ⟨fun a b h => ?_, fun a b h => ?_, fun a b c h1 h2 => ?_, fun a b c h1 h2 => ?_⟩
  · obtain ⟨q1, q2, q3⟩ := w.npart a b h
    exact ⟨q1, mem_keys.1 q2, mem_keys.1 q3⟩
  · obtain ⟨q1, q2, q3⟩ := w.lpart a b h
    exact ⟨q1, mem_keys.1 q2, mem_keys.1 q3⟩
  · have q1 := (w.npart a c h1).1
    rw [(w.npart b c h2).1] at q1
    injection q1 with q1
    exact q1.symm
  · have q1 := (w.lpart a c h1).1
    rw [(w.lpart b c h2).1] at q1
    injection q1 with q1
    exact q1.symm

/-- a HELLO of an IPv6 neighbor with the IPv4 originator of a known neighbor connects them -/
example : ∃ db d1, symmetricDb = some db ∧
    hello db ⟨0, 101, some 110, true, some 10, [⟨101, some true, false⟩]⟩ none .heard = some d1 ∧
    d1.npart = [(2, 0), (0, 2)] ∧ d1.lpart = [(3, 1), (1, 3)] :=
  ⟨_, _, rfl, rfl, by decide +kernel, by decide +kernel⟩

/-- a neighbor which sends its own originator as IPv4 originator becomes its own partner -/
theorem C51_self_counterexample : ∃ db d1, symmetricDb = some db ∧ Reach Regular db ∧
    hello db ⟨0, 1, some 10, false, some 10, [⟨1, some true, false⟩]⟩ none .heard = some d1 ∧ d1.npart = [(0, 0)] ∧ d1.lpart = [(1, 1)] :=
  ⟨_, _, rfl, symmetricDb_reach rfl, rfl, by decide +kernel, by decide +kernel⟩

/-- a HELLO with an IPv4 originator (`orig6 = false`) connects two IPv4 neighbors -/
theorem C51_family_counterexample : ∃ db d1, symmetricDb = some db ∧ Reach Regular db ∧
    hello db ⟨0, 2, some 11, false, some 10, [⟨2, some true, false⟩]⟩ none .heard = some d1 ∧ d1.npart = [(2, 0), (0, 2)] :=
  ⟨_, _, rfl, symmetricDb_reach rfl, rfl, by decide +kernel⟩

/-! ### C52 no access to freed objects -/

/-- no event makes the code use a removed link or neighbor, after all histories in which the addresses of a HELLO do not mix neighbors;
missing: HELLOs with the address of a link of one neighbor and an address of another one -/
theorem C52_no_freed_partial {db : Db} (hr : Reach Sane db) (ev : Ev) (hl : Live db ev) (hs : Sane db ev) : ∃ db', step db ev = some db' :=
  let ⟨db', h, _⟩ := step_wf (reach_wf hr) ev hl hs
  ⟨db', h⟩

/-- afterwards every reference leads to an existing object -/
theorem C52_references_partial {db : Db} (hr : Reach Sane db) :
    (∀ (l : Nat) (x : Link), db.links.get l = some x → db.neighs.get x.neigh ≠ none) ∧
    (∀ (a : Addr) (x : NAddr), db.naddrs.get a = some x → db.neighs.get x.neigh ≠ none) ∧
    (∀ (k : Nat × Addr) (x : LAddr), db.laddrs.get k = some x → ∃ l, db.links.get x.link = some l ∧ l.ifc = k.1) :=
  let w := reach_wf hr
  ⟨w.linkNeigh, w.naddrNeigh, w.laddrLink⟩

/-- neighbors A (address 1) and B (address 2) are known; a HELLO with both addresses -/
def twoNeighbors : Option Db :=
  symmetricDb.bind fun db => hello db ⟨0, 2, some 11, false, none, [⟨2, some true, false⟩]⟩ none .heard

/-- two neighbors on two interfaces are handled -/
example : ∃ db d1, symmetricDb = some db ∧ hello db ⟨0, 2, some 11, false, none, [⟨2, some true, false⟩, ⟨3, some false, true⟩]⟩ none .heard = some d1 ∧
    d1.links.keys = [1, 3] ∧ d1.neighs.keys = [0, 2] ∧ d1.naddrs.keys = [1, 2, 3] :=
  ⟨_, _, rfl, rfl, by decide +kernel, by decide +kernel, by decide +kernel⟩

/-- a HELLO with address 1 (this interface) and 2 (other interface): a new neighbor is allocated, neighbor A is removed with its link, which
still is the current link -/
theorem C52_mixed_counterexample : ∃ db, twoNeighbors = some db ∧
    hello db ⟨0, 1, none, false, none, [⟨1, some true, false⟩, ⟨2, some false, false⟩]⟩ none .heard = none :=
  ⟨_, rfl, by decide +kernel⟩

end Verif.Nhdp
