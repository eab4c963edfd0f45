import Verif.Hello.LinkModel

/-! C92: what the HELLOs of a router say about its neighbors. -/
namespace Verif.Hello
open Verif.Nhdp

/-! ### Specification -/

/-- the link with neighbor address `a` on interface `ifc` has status `s` -/
def LinkIs (db : Db) (ifc : Nat) (a : Addr) (s : Status) : Prop :=
  ∃ la l, db.laddrs.get (ifc, a) = some la ∧ db.links.get la.link = some l ∧ l.status = s

/-! ### Lemmas -/

theorem ownSeen_addrTlvs (lost sym : Bool) (s : Option Status) : ownSeen (addrTlvs lost sym s) =
    if lost then none else match s with
      | none => none
      | some .pending => none
      | some .lost => some false
      | some .symmetric => some true
      | some .heard => some true := by
  cases lost <;> cases sym <;> (try rfl) <;> (rcases s with _ | s <;> (try rfl) <;> cases s <;> rfl)

theorem hopSeen_addrTlvs (lost sym : Bool) (s : Option Status) :
    hopSeen (addrTlvs lost sym s).link (some (addrTlvs lost sym s).other) = some (!lost && (sym || decide (s = some .symmetric))) := by
  cases lost <;> cases sym <;> (try rfl) <;> (rcases s with _ | s <;> (try rfl) <;> cases s <;> rfl)

/-- the database knows everything the writer looks at -/
theorem announce_ok {db : Db} (hr : Reach Regular db) (ifc : Nat) {a : Addr} {na : NAddr} (ha : db.naddrs.get a = some na) :
    ∃ n, db.neighs.get na.neigh = some n ∧
      ((db.laddrs.get (ifc, a) = none ∧ announce db ifc a na = some (addrTlvs na.lost (decide (n.sym > 0)) none)) ∨
       ∃ la l, db.laddrs.get (ifc, a) = some la ∧ db.links.get la.link = some l ∧
         announce db ifc a na = some (addrTlvs na.lost (decide (n.sym > 0)) (some l.status))) := by
  have w := (reach_cnt hr).1
  obtain ⟨n, hn⟩ := Option.ne_none_iff_exists'.1 (w.naddrNeigh a na ha)
  refine ⟨n, hn, ?_⟩
  unfold announce
  rw [hn]
  cases hl : db.laddrs.get (ifc, a) with
  | none => exact Or.inl ⟨rfl, rfl⟩
  | some la =>
    obtain ⟨l, h1, _⟩ := w.laddrLink (ifc, a) la hl
    exact Or.inr ⟨la, l, rfl, h1, by dsimp only; rw [h1]⟩

/-! ### Properties -/

/-- C92: a router which gets a HELLO concludes that it is heard by the sender exactly if the sender has a link with its address which is
heard or symmetric, and has not lost that address. -/
theorem C92_heard {db : Db} (hr : Reach Regular db) (ifc : Nat) {a : Addr} {na : NAddr} (ha : db.naddrs.get a = some na) :
    ∃ t, announce db ifc a na = some t ∧
      (ownSeen t = some true ↔ na.lost = false ∧ (LinkIs db ifc a .heard ∨ LinkIs db ifc a .symmetric)) := by
  obtain ⟨n, hn, h | ⟨la, l, hla, hl, he⟩⟩ := announce_ok hr ifc ha
  · refine ⟨_, h.2, ?_⟩
    rw [ownSeen_addrTlvs]
    constructor
    · intro h'
      split at h' <;> simp at h'
    · rintro ⟨_, ⟨la, l, hla, _⟩ | ⟨la, l, hla, _⟩⟩ <;> rw [h.1] at hla <;> simp at hla
  · refine ⟨_, he, ?_⟩
    have hst : ∀ s, LinkIs db ifc a s ↔ l.status = s := by
      intro s
      constructor
      · rintro ⟨la', l', h1, h2, h3⟩
        rw [hla] at h1
        injection h1 with h1
        rw [← h1, hl] at h2
        injection h2 with h2
        rw [h2]; exact h3
      · intro hs; exact ⟨la, l, hla, hl, hs⟩
    rw [ownSeen_addrTlvs, hst, hst]
    cases na.lost <;> cases l.status <;> simp

/-- C92: it concludes that the sender has lost the link exactly if the link is lost and the address is not lost; missing: a link which
is lost together with its address, see the counterexample. -/
theorem C92_lost_partial {db : Db} (hr : Reach Regular db) (ifc : Nat) {a : Addr} {na : NAddr} (ha : db.naddrs.get a = some na) :
    ∃ t, announce db ifc a na = some t ∧ (ownSeen t = some false ↔ na.lost = false ∧ LinkIs db ifc a .lost) := by
  obtain ⟨n, hn, h | ⟨la, l, hla, hl, he⟩⟩ := announce_ok hr ifc ha
  · refine ⟨_, h.2, ?_⟩
    rw [ownSeen_addrTlvs]
    constructor
    · intro h'
      split at h' <;> simp at h'
    · rintro ⟨_, la, l, hla, _⟩
      rw [h.1] at hla; simp at hla
  · refine ⟨_, he, ?_⟩
    have hst : ∀ s, LinkIs db ifc a s ↔ l.status = s := by
      intro s
      constructor
      · rintro ⟨la', l', h1, h2, h3⟩
        rw [hla] at h1
        injection h1 with h1
        rw [← h1, hl] at h2
        injection h2 with h2
        rw [h2]; exact h3
      · intro hs; exact ⟨la, l, hla, hl, hs⟩
    rw [ownSeen_addrTlvs, hst]
    cases na.lost <;> cases l.status <;> simp

/-- C92: a third router which gets the HELLO takes the address for one of a symmetric two-hop neighbor exactly if the sender has not lost
the address and has a symmetric link to the router it belongs to, or a symmetric link with this address. -/
theorem C92_twohop {db : Db} (hr : Reach Regular db) (ifc : Nat) {a : Addr} {na : NAddr} (ha : db.naddrs.get a = some na) :
    ∃ t b, announce db ifc a na = some t ∧ hopSeen t.link (some t.other) = some b ∧
      (b = true ↔ na.lost = false ∧ ((∃ l, IsSym db na.neigh l) ∨ LinkIs db ifc a .symmetric)) := by
  have hsym : ∀ n, db.neighs.get na.neigh = some n → (n.sym > 0 ↔ ∃ l, IsSym db na.neigh l) := by
    intro n hn
    rw [C50_counter_partial hr hn]
    constructor
    · intro h
      obtain ⟨l, hl⟩ := List.exists_mem_of_length_pos (l := symLinks db na.neigh) (by omega)
      exact ⟨l, ((C50_symLinks hr na.neigh).2 l).1 hl⟩
    · rintro ⟨l, hl⟩
      have := List.length_pos_of_mem (((C50_symLinks hr na.neigh).2 l).2 hl)
      omega
  obtain ⟨n, hn, h | ⟨la, l, hla, hl, he⟩⟩ := announce_ok hr ifc ha
  · refine ⟨_, _, h.2, hopSeen_addrTlvs _ _ _, ?_⟩
    rw [← hsym n hn]
    have : ¬ LinkIs db ifc a .symmetric := by
      rintro ⟨la, l, hla, _⟩
      rw [h.1] at hla; simp at hla
    simp [this]
  · refine ⟨_, _, he, hopSeen_addrTlvs _ _ _, ?_⟩
    rw [← hsym n hn]
    have : LinkIs db ifc a .symmetric ↔ l.status = .symmetric := by
      constructor
      · rintro ⟨la', l', h1, h2, h3⟩
        rw [hla] at h1
        injection h1 with h1
        rw [← h1, hl] at h2
        injection h2 with h2
        rw [h2]; exact h3
      · intro hs; exact ⟨la, l, hla, hl, hs⟩
    rw [this]
    cases na.lost <;> simp

/-- C92: a symmetric link whose timers run out is lost together with the address of the neighbor; the next HELLO does not say so: the
neighbor concludes nothing. -/
theorem C92_lost_counterexample : ∃ db db' na t, symmetricDb = some db ∧ Reach Regular db ∧ updateStatus db 1 .lost = some db' ∧
    Reach Regular db' ∧ db'.naddrs.get 1 = some na ∧ LinkIs db' 0 1 .lost ∧ announce db' 0 1 na = some t ∧ ownSeen t = none := by
  have hr : Reach Regular _ := symmetricDb_reach (db := _) rfl
  refine ⟨_, _, ⟨0, false, true⟩, ⟨none, 0⟩, rfl, hr, rfl, .step (.update 1 .lost) hr (show _ ≠ _ by decide +kernel) trivial rfl, by decide +kernel,
    ⟨⟨1, false⟩, ⟨0, 0, .lost, 0⟩, by decide +kernel, by decide +kernel, rfl⟩, by decide +kernel, by decide +kernel⟩

/-- the HELLO of a router with a symmetric link -/
example : ∃ db na, symmetricDb = some db ∧ Reach Regular db ∧ db.naddrs.get 1 = some na ∧ announce db 0 1 na = some ⟨some 1, 0⟩ ∧
    announce db 1 1 na = some ⟨none, 1⟩ ∧ hopSeen none (some 1) = some true ∧ hopSeen (some 1) (some 0) = some true ∧
    ownSeen ⟨some 1, 0⟩ = some true :=
  ⟨_, ⟨0, false, false⟩, rfl, symmetricDb_reach rfl, by decide +kernel, by decide +kernel, by decide +kernel, by decide, by decide, by decide⟩

end Verif.Hello
