import Verif.Layer2.Facts
import Verif.Layer2.Props
/-
C79: effect of every address operation on the facts of an interface.  C73: reading with default.
-/
namespace Verif.Layer2
open Verif.Netaddr

/-- the fact is stored in the object of neighbor `g` -/
def HoldsN (g : Neigh) (l : Loc) (o : Oid) (c : Option (Meta × Value)) : Prop :=
  match l with
  | .neighMetric _ i => ∃ m v, g.data[i]? = some ⟨v, some m, some o⟩ ∧ c = some (m, v)
  | .neighIp _ ip => (ip, o) ∈ g.ips ∧ c = none
  | .dest _ mac => (mac, o) ∈ g.dests ∧ c = none
  | _ => False

theorem holds_put {n n' : Net} {k : Key} {f : Neigh → Neigh} (h1 : n'.data = n.data) (h2 : n'.neighData = n.neighData)
    (h3 : n'.peers = n.peers) (h4 : n'.neighs = n.neighs.map (fun g => if g.key = k then f g else g))
    (hf : ∀ g, (f g).key = g.key) (l : Loc) (o : Oid) (c : Option (Meta × Value)) :
    Holds n' l o c ↔ (¬ l.about k ∧ Holds n l o c) ∨ (l.about k ∧ ∃ g ∈ n.neighs, g.key = k ∧ HoldsN (f g) l o c) := by
  have core : ∀ (k' : Key) (P : Neigh → Prop),
      (∃ g ∈ n'.neighs, g.key = k' ∧ P g) ↔
        (¬ k' = k ∧ ∃ g ∈ n.neighs, g.key = k' ∧ P g) ∨ (k' = k ∧ ∃ g ∈ n.neighs, g.key = k ∧ P (f g)) := by
    intro k' P
    rw [h4]
    constructor
    · rintro ⟨g', hg', hk, hp⟩
      obtain ⟨g, hg, rfl⟩ := List.mem_map.1 hg'
      by_cases e : g.key = k
      · rw [if_pos e] at hk hp
        rw [hf] at hk
        exact Or.inr ⟨by rw [← hk, e], g, hg, e, hp⟩
      · rw [if_neg e] at hk hp
        exact Or.inl ⟨by rw [← hk]; exact e, g, hg, hk, hp⟩
    · rintro (⟨hne, g, hg, hk, hp⟩ | ⟨rfl, g, hg, hk, hp⟩)
      · exact ⟨g, List.mem_map.2 ⟨g, hg, by rw [if_neg (by rw [hk]; exact hne)]⟩, hk, hp⟩
      · exact ⟨f g, List.mem_map.2 ⟨g, hg, by rw [if_pos hk]⟩, by rw [hf, hk], hp⟩
  have own : ∀ (A B : Prop), (A ↔ B) → (A ↔ (¬ False ∧ B) ∨ (False ∧ ∃ g ∈ n.neighs, g.key = k ∧ False)) := by
    intro A B h
    rw [h]
    simp
  cases l with
  | metric i => apply own; show (∃ m v, n'.data[i]? = _ ∧ _) ↔ _; rw [h1]; exact Iff.rfl
  | default i => apply own; show (∃ m v, n'.neighData[i]? = _ ∧ _) ↔ _; rw [h2]; exact Iff.rfl
  | peer ip => apply own; show ((ip, o) ∈ n'.peers ∧ _) ↔ _; rw [h3]; exact Iff.rfl
  | neighMetric k' i => exact core k' _
  | neighIp k' i => exact core k' _
  | dest k' i => exact core k' _

/-- the same for an unchanged object -/
theorem holds_split (n : Net) (k : Key) (l : Loc) (o : Oid) (c : Option (Meta × Value)) :
    Holds n l o c ↔ (¬ l.about k ∧ Holds n l o c) ∨ (l.about k ∧ ∃ g ∈ n.neighs, g.key = k ∧ HoldsN g l o c) :=
  holds_put (f := id) rfl rfl rfl (by simp) (fun _ => rfl) l o c

theorem owner_unique {l : List (Netaddr × Oid)} {ip : Netaddr} {o o' : Oid} (nd : (l.map (·.1)).Nodup) (h : (ip, o) ∈ l)
    (h' : (ip, o') ∈ l) : o' = o := by
  obtain ⟨a, b, e⟩ := List.append_of_mem h
  rw [e, List.map_append, List.map_cons, List.nodup_append] at nd
  obtain ⟨_, n2, n3⟩ := nd
  rw [List.nodup_cons] at n2
  rw [e] at h'
  rcases List.mem_append.1 h' with h1 | h1
  · exact absurd rfl (n3 ip (List.mem_map.2 ⟨_, h1, rfl⟩) ip (by simp))
  · rcases List.mem_cons.1 h1 with h1 | h1
    · cases h1; rfl
    · exact absurd (List.mem_map.2 ⟨_, h1, rfl⟩) n2.1

theorem mem_replace (l : List (Netaddr × Oid)) (ip : Netaddr) (o : Oid) (a : Netaddr) (o' : Oid) :
    (a, o') ∈ l.map (fun e => if e.1 = ip then (ip, o) else e) ↔
      (a = ip ∧ o' = o ∧ ∃ e ∈ l, e.1 = ip) ∨ (a ≠ ip ∧ (a, o') ∈ l) := by
  rw [List.mem_map]
  constructor
  · rintro ⟨e, he, h⟩
    by_cases h1 : e.1 = ip
    · rw [if_pos h1] at h
      cases h
      exact Or.inl ⟨rfl, rfl, e, he, h1⟩
    · rw [if_neg h1] at h
      subst h
      exact Or.inr ⟨h1, he⟩
  · rintro (⟨rfl, rfl, e, he, h1⟩ | ⟨h1, h2⟩)
    · exact ⟨e, he, by rw [if_pos h1]⟩
    · exact ⟨(a, o'), h2, by rw [if_neg h1]⟩

/-- **C79** (address of a neighbor): adding an address of an existing neighbor makes the originator
its owner, whoever owned it before, and changes no other fact. -/
theorem C79_ip_add {n : Net} (hw : n.WF) (k : Key) (hk : ∃ g ∈ n.neighs, g.key = k) (o : Oid) (ip : Netaddr)
    (l : Loc) (o' : Oid) (c : Option (Meta × Value)) :
    Holds (n.ipAdd k o ip) l o' c ↔
      if l = .neighIp k ip then o' = o ∧ c = none else Holds n l o' c := by
  obtain ⟨g, hg, hgk⟩ := hk
  have hget : n.neighGet k = some g := by
    cases hf : n.neighGet k with
    | none => exact absurd hgk (find_none Neigh.key hf g hg)
    | some g' => rw [key_unique hw (List.mem_of_find?_eq_some hf) hg (by rw [hgk]; simpa using List.find?_some hf)]
  -- the new list of addresses
  have main : ∃ f : Neigh → Neigh, (∀ x, (f x).key = x.key ∧ (f x).data = x.data ∧ (f x).dests = x.dests) ∧
      (∀ a o', (a, o') ∈ (f g).ips ↔ (a = ip ∧ o' = o) ∨ (a ≠ ip ∧ (a, o') ∈ g.ips)) ∧
      (n.ipAdd k o ip).data = n.data ∧ (n.ipAdd k o ip).neighData = n.neighData ∧ (n.ipAdd k o ip).peers = n.peers ∧
      (n.ipAdd k o ip).neighs = n.neighs.map (fun g => if g.key = k then f g else g) := by
    unfold Net.ipAdd
    rw [hget]
    dsimp only
    by_cases hany : g.ips.any (fun e => e.1 == ip) = true
    · rw [if_pos hany]
      refine ⟨fun g => { g with ips := g.ips.map (fun e => if e.1 = ip then (ip, o) else e) }, fun x => ⟨rfl, rfl, rfl⟩, ?_, rfl, rfl, rfl, rfl⟩
      intro a o'
      dsimp only
      rw [mem_replace]
      obtain ⟨e, he, h1⟩ := List.any_eq_true.1 hany
      constructor
      · rintro (⟨h1, h2, _⟩ | h)
        · exact Or.inl ⟨h1, h2⟩
        · exact Or.inr h
      · rintro (⟨h2, h3⟩ | h)
        · exact Or.inl ⟨h2, h3, e, he, by simpa using h1⟩
        · exact Or.inr h
    · rw [if_neg hany]
      refine ⟨fun g => { g with ips := g.ips ++ [(ip, o)] }, fun x => ⟨rfl, rfl, rfl⟩, ?_, rfl, rfl, rfl, rfl⟩
      intro a o'
      dsimp only
      rw [List.mem_append, List.mem_singleton, Prod.mk.injEq]
      constructor
      · rintro (h | h)
        · refine Or.inr ⟨fun e => hany (List.any_eq_true.2 ⟨_, h, by simp [e]⟩), h⟩
        · exact Or.inl h
      · rintro (h | h)
        · exact Or.inr h
        · exact Or.inl h.2
  obtain ⟨f, hf, hips, e1, e2, e3, e4⟩ := main
  rw [holds_put e1 e2 e3 e4 (fun x => (hf x).1)]
  have hun : ∀ (P : Neigh → Prop), (∃ x ∈ n.neighs, x.key = k ∧ P x) ↔ P g := by
    intro P
    constructor
    · rintro ⟨x, hx, hxk, hp⟩
      rw [key_unique hw hx hg (by rw [hxk, hgk])] at hp
      exact hp
    · intro hp; exact ⟨g, hg, hgk, hp⟩
  rw [hun]
  have hs := holds_split n k l o' c
  rw [hun] at hs
  by_cases hab : l.about k
  · simp only [hab, not_true, false_and, true_and, false_or] at hs ⊢
    rw [hs]
    cases l with
    | metric i => cases hab
    | default i => cases hab
    | peer i => cases hab
    | neighMetric k' i =>
      rw [if_neg (by intro h; cases h)]
      unfold HoldsN
      dsimp only
      rw [(hf g).2.1]
    | dest k' i =>
      rw [if_neg (by intro h; cases h)]
      unfold HoldsN
      dsimp only
      rw [(hf g).2.2]
    | neighIp k' a =>
      have hkk : k' = k := hab
      subst hkk
      unfold HoldsN
      dsimp only
      rw [hips]
      by_cases hai : a = ip
      · subst hai
        rw [if_pos rfl]
        simp
      · rw [if_neg (by intro h; cases h; exact hai rfl)]
        simp [hai]
  · have hne : l ≠ .neighIp k ip := by rintro rfl; exact hab rfl
    rw [if_neg hne]
    simp [hab]

/-- **C79** (removal of an address of a neighbor): the address is removed if the originator is its
owner, no other fact is changed. -/
theorem C79_ip_remove {n : Net} (hw : n.WF) (k : Key) (o : Oid) (ip : Netaddr) (l : Loc) (o' : Oid)
    (c : Option (Meta × Value)) :
    Holds (n.ipRemove k o ip) l o' c ↔ Holds n l o' c ∧ ¬ (l = .neighIp k ip ∧ o' = o) := by
  by_cases hex : ∃ g, n.neighGet k = some g ∧ (ip, o) ∈ g.ips
  · obtain ⟨g, hget, hin⟩ := hex
    have hg := List.mem_of_find?_eq_some hget
    have hgk : g.key = k := by simpa using List.find?_some hget
    have e : n.ipRemove k o ip = { n.putNeigh k (fun g => { g with ips := g.ips.filter (fun e => e.1 != ip) }) with remote := n.remote.erase (ip, k) } := by
      unfold Net.ipRemove
      rw [hget]
      dsimp only
      rw [if_pos hin]
    rw [e]
    refine Iff.trans (holds_put (n := n) (k := k) (f := fun g => { g with ips := g.ips.filter (fun e => e.1 != ip) }) ?_ ?_ ?_ ?_ (fun _ => rfl) l o' c) ?_
    · rfl
    · rfl
    · rfl
    · rfl
    have hun : ∀ (P : Neigh → Prop), (∃ x ∈ n.neighs, x.key = k ∧ P x) ↔ P g := by
      intro P
      constructor
      · rintro ⟨x, hx, hxk, hp⟩
        rw [key_unique hw hx hg (by rw [hxk, hgk])] at hp
        exact hp
      · intro hp; exact ⟨g, hg, hgk, hp⟩
    rw [hun]
    have hs := holds_split n k l o' c
    rw [hun] at hs
    by_cases hab : l.about k
    · simp only [hab, not_true, false_and, true_and, false_or] at hs ⊢
      rw [hs]
      cases l with
      | metric i => cases hab
      | default i => cases hab
      | peer i => cases hab
      | neighMetric k' i => simp [HoldsN]
      | dest k' i => simp [HoldsN]
      | neighIp k' a =>
        have hkk : k' = k := hab
        subst hkk
        unfold HoldsN
        dsimp only
        rw [List.mem_filter]
        by_cases hai : a = ip
        · subst hai
          constructor
          · rintro ⟨⟨_, h⟩, _⟩
            simp at h
          · rintro ⟨⟨h, hc⟩, hne⟩
            exact absurd ⟨rfl, owner_unique (hw.ips g hg) hin h⟩ hne
        · simp [hai]
    · have hne : l ≠ .neighIp k ip := by rintro rfl; exact hab rfl
      simp [hab, hne]
  · have e : n.ipRemove k o ip = n := by
      unfold Net.ipRemove
      cases hget : n.neighGet k with
      | none => rfl
      | some g =>
        dsimp only
        rw [if_neg (fun h => hex ⟨g, hget, h⟩)]
    rw [e]
    constructor
    · intro h
      refine ⟨h, ?_⟩
      rintro ⟨rfl, rfl⟩
      obtain ⟨g, hg, hgk, hin, _⟩ := h
      apply hex
      refine ⟨g, ?_, hin⟩
      cases hf : n.neighGet k with
      | none => exact absurd hgk (find_none Neigh.key hf g hg)
      | some g' => rw [key_unique hw (List.mem_of_find?_eq_some hf) hg (by rw [hgk]; simpa using List.find?_some hf)]
    · exact fun h => h.1

/-- **C79** (destination): adding a destination behind an existing neighbor makes it known, an
existing destination keeps its originator; no other fact is changed. -/
theorem C79_dest_add {n : Net} (hw : n.WF) (k : Key) (hk : ∃ g ∈ n.neighs, g.key = k) (o : Oid) (d : Netaddr)
    (l : Loc) (o' : Oid) (c : Option (Meta × Value)) :
    Holds (n.destAdd k o d) l o' c ↔
      Holds n l o' c ∨ (l = .dest k d ∧ o' = o ∧ c = none ∧ ¬ ∃ o'', Holds n l o'' none) := by
  obtain ⟨g, hg, hgk⟩ := hk
  unfold Net.destAdd
  refine Iff.trans (holds_put (n := n) (k := k) (f := fun g => if g.dests.any (fun e => e.1 == d) then g else { g with dests := g.dests ++ [(d, o)] })
    ?_ ?_ ?_ ?_ (fun x => by split <;> rfl) l o' c) ?_
  · rfl
  · rfl
  · rfl
  · rfl
  have hun : ∀ (P : Neigh → Prop), (∃ x ∈ n.neighs, x.key = k ∧ P x) ↔ P g := by
    intro P
    constructor
    · rintro ⟨x, hx, hxk, hp⟩
      rw [key_unique hw hx hg (by rw [hxk, hgk])] at hp
      exact hp
    · intro hp; exact ⟨g, hg, hgk, hp⟩
  rw [hun]
  have hs := fun l o' c => by
    have := holds_split n k l o' c
    rw [hun] at this
    exact this
  by_cases hany : g.dests.any (fun e => e.1 == d) = true
  · rw [if_pos hany, ← hs]
    obtain ⟨e, he, h1⟩ := List.any_eq_true.1 hany
    have h1 : e.1 = d := by simpa using h1
    constructor
    · exact Or.inl
    · rintro (h | ⟨rfl, _, _, hno⟩)
      · exact h
      · exact absurd ⟨e.2, (hs _ _ _).2 (Or.inr ⟨rfl, by rw [← h1]; exact he, rfl⟩)⟩ hno
  · rw [if_neg hany]
    have hno : ∀ x, (d, x) ∉ g.dests := fun x hx => hany (List.any_eq_true.2 ⟨_, hx, by simp⟩)
    by_cases hab : l.about k
    · have hs' := fun o' c => hs l o' c
      simp only [hab, not_true, false_and, true_and, false_or] at hs' ⊢
      rw [hs']
      cases l with
      | metric i => cases hab
      | default i => cases hab
      | peer i => cases hab
      | neighMetric k' i => simp [HoldsN]
      | neighIp k' i => simp [HoldsN]
      | dest k' a =>
        have hkk : k' = k := hab
        subst hkk
        simp only [hs']
        unfold HoldsN
        dsimp only
        rw [List.mem_append, List.mem_singleton, Prod.mk.injEq]
        constructor
        · rintro ⟨h | ⟨rfl, rfl⟩, hc⟩
          · exact Or.inl ⟨h, hc⟩
          · exact Or.inr ⟨rfl, rfl, hc, fun ⟨x, hx, _⟩ => hno x hx⟩
        · rintro (⟨h, hc⟩ | ⟨hl, rfl, hc, _⟩)
          · exact ⟨Or.inl h, hc⟩
          · cases hl
            exact ⟨Or.inr ⟨rfl, rfl⟩, hc⟩
    · have hne : l ≠ .dest k d := by rintro rfl; exact hab rfl
      simp [hab, hne]

/-- **C79** (removal of a destination): the destination is gone, no other fact is changed. -/
theorem C79_dest_remove (n : Net) (k : Key) (d : Netaddr) (l : Loc) (o' : Oid) (c : Option (Meta × Value)) :
    Holds (n.destRemove k d) l o' c ↔ Holds n l o' c ∧ l ≠ .dest k d := by
  unfold Net.destRemove
  refine Iff.trans (holds_put (n := n) (k := k) (f := fun g => { g with dests := g.dests.filter (fun e => e.1 != d) }) ?_ ?_ ?_ ?_ (fun _ => rfl) l o' c) ?_
  · rfl
  · rfl
  · rfl
  · rfl
  have hs := holds_split n k l o' c
  by_cases hab : l.about k
  · simp only [hab, not_true, false_and, true_and, false_or] at hs ⊢
    rw [hs]
    cases l with
    | metric i => cases hab
    | default i => cases hab
    | peer i => cases hab
    | neighMetric k' i => simp [HoldsN]
    | neighIp k' i => simp [HoldsN]
    | dest k' a =>
      have hkk : k' = k := hab
      subst hkk
      unfold HoldsN
      dsimp only
      by_cases hai : a = d
      · subst hai
        simp
      · simp [hai]
  · have hne : l ≠ .dest k d := by rintro rfl; exact hab rfl
    simp [hab, hne]

/-- **C79** (address of the local radio): adding an address makes the originator its owner, removing
it needs the owner; no other fact of any interface is changed. -/
theorem C79_peer {db : Db} (hw : db.WF) (n : Net) (hn : n ∈ db.nets) (o : Oid) (ip : Netaddr) (name : List UInt8)
    (l : Loc) (o' : Oid) (c : Option (Meta × Value)) :
    (HoldsDb (db.peerAdd n.name o ip) name l o' c ↔
      if name = n.name ∧ l = .peer ip then o' = o ∧ c = none else HoldsDb db name l o' c) ∧
    (HoldsDb (db.peerRemove n.name o ip) name l o' c ↔
      HoldsDb db name l o' c ∧ ¬ (name = n.name ∧ l = .peer ip ∧ o' = o)) := by
  have hfind : db.nets.find? (fun x => x.name == n.name) = some n := by
    cases h : db.nets.find? (fun x => x.name == n.name) with
    | none => exact absurd rfl (find_none Net.name h n hn)
    | some m =>
      rw [name_unique hw (List.mem_of_find?_eq_some h) hn (by simpa using List.find?_some h)]
  have hun : ∀ (P : Net → Prop), (∃ x ∈ db.nets, x.name = n.name ∧ P x) ↔ P n := by
    intro P
    constructor
    · rintro ⟨x, hx, hxk, hp⟩
      rw [name_unique hw hx hn hxk] at hp
      exact hp
    · intro hp; exact ⟨n, hn, rfl, hp⟩
  -- change of the addresses of one interface
  have upd : ∀ (f : Net → Net), (∀ x, (f x).name = x.name) → (∀ l o' c, l.notPeer → (Holds (f n) l o' c ↔ Holds n l o' c)) →
      ∀ db' : Db, db'.nets = (db.updNet n.name (fun x => some (f x))).nets →
      (HoldsDb db' name l o' c ↔
        (¬ (name = n.name ∧ ¬ l.notPeer) ∧ HoldsDb db name l o' c) ∨ ((name = n.name ∧ ¬ l.notPeer) ∧ Holds (f n) l o' c)) := by
    intro f hf hh db' hdb
    unfold HoldsDb
    rw [hdb]
    have h1 : (∃ x ∈ db.nets.filterMap (fun x => if x.name = n.name then some (f x) else some x), x.name = name ∧ Holds x l o' c) ↔
        (name ≠ n.name ∧ ∃ x ∈ db.nets, x.name = name ∧ Holds x l o' c) ∨ (name = n.name ∧ Holds (f n) l o' c) := by
      constructor
      · rintro ⟨x', hx', hname, h⟩
        obtain ⟨x, hx, hxx⟩ := List.mem_filterMap.1 hx'
        by_cases hxn : x.name = n.name
        · rw [if_pos hxn] at hxx
          cases hxx
          rw [hf] at hname
          rw [name_unique hw hx hn hxn] at h
          exact Or.inr ⟨by rw [← hname, hxn], h⟩
        · rw [if_neg hxn] at hxx
          obtain rfl := Option.some.inj hxx
          exact Or.inl ⟨by rw [← hname]; exact hxn, x, hx, hname, h⟩
      · rintro (⟨hne, x, hx, hname, h⟩ | ⟨rfl, h⟩)
        · exact ⟨x, List.mem_filterMap.2 ⟨x, hx, by rw [if_neg (by rw [hname]; exact hne)]⟩, hname, h⟩
        · exact ⟨f n, List.mem_filterMap.2 ⟨n, hn, by rw [if_pos rfl]⟩, hf n, h⟩
    refine Iff.trans h1 ?_
    by_cases hname : name = n.name
    · subst hname
      rw [hun]
      by_cases hp : l.notPeer
      · simp [hp, hh l o' c hp]
      · simp [hp]
    · simp [hname]
  constructor
  · unfold Db.peerAdd
    rw [hfind]
    dsimp only
    by_cases hany : n.peers.any (fun e => e.1 == ip) = true
    · rw [if_pos hany]
      refine Iff.trans (upd (fun n => { n with peers := n.peers.map (fun e => if e.1 = ip then (ip, o) else e) }) (fun _ => rfl)
        (fun l o' c hl => by cases l <;> first | exact Iff.rfl | exact absurd hl (fun h => h)) _ ?_) ?_
      · rfl
      obtain ⟨e, he, h1⟩ := List.any_eq_true.1 hany
      have h1 : e.1 = ip := by simpa using h1
      cases l with
      | peer a =>
        have hp : ¬ Loc.notPeer (.peer a) := fun h => h
        by_cases hname : name = n.name
        · subst hname
          show (_ ∧ _ ∨ _ ∧ ((a, o') ∈ _ ∧ _)) ↔ _
          rw [mem_replace]
          by_cases ha : a = ip
          · subst ha
            rw [if_pos ⟨rfl, rfl⟩]
            constructor
            · rintro (⟨h, _⟩ | ⟨_, ⟨_, h, _⟩ | ⟨h, _⟩, hc⟩)
              · exact absurd ⟨rfl, hp⟩ h
              · exact ⟨h, hc⟩
              · exact absurd rfl h
            · rintro ⟨h, hc⟩; exact Or.inr ⟨⟨rfl, hp⟩, Or.inl ⟨rfl, h, e, he, h1⟩, hc⟩
          · rw [if_neg (by rintro ⟨_, h⟩; cases h; exact ha rfl)]
            unfold HoldsDb
            rw [hun]
            show _ ↔ ((a, o') ∈ n.peers ∧ _)
            simp [ha, hp]
        · rw [if_neg (fun h => hname h.1)]
          simp [hname]
      | _ => simp [Loc.notPeer]
    · rw [if_neg hany]
      refine Iff.trans (upd (fun n => { n with peers := n.peers ++ [(ip, o)] }) (fun _ => rfl)
        (fun l o' c hl => by cases l <;> first | exact Iff.rfl | exact absurd hl (fun h => h)) _ ?_) ?_
      · rfl
      cases l with
      | peer a =>
        have hp : ¬ Loc.notPeer (.peer a) := fun h => h
        by_cases hname : name = n.name
        · subst hname
          show (_ ∧ _ ∨ _ ∧ ((a, o') ∈ n.peers ++ [(ip, o)] ∧ _)) ↔ _
          rw [List.mem_append, List.mem_singleton, Prod.mk.injEq]
          by_cases ha : a = ip
          · subst ha
            rw [if_pos ⟨rfl, rfl⟩]
            constructor
            · rintro (⟨h, _⟩ | ⟨_, h | ⟨_, h⟩, hc⟩)
              · exact absurd ⟨rfl, hp⟩ h
              · exact absurd (List.any_eq_true.2 ⟨_, h, by simp⟩) hany
              · exact ⟨h, hc⟩
            · rintro ⟨h, hc⟩; exact Or.inr ⟨⟨rfl, hp⟩, Or.inr ⟨rfl, h⟩, hc⟩
          · rw [if_neg (by rintro ⟨_, h⟩; cases h; exact ha rfl)]
            unfold HoldsDb
            rw [hun]
            show _ ↔ ((a, o') ∈ n.peers ∧ _)
            simp [ha, hp]
        · rw [if_neg (fun h => hname h.1)]
          simp [hname]
      | _ => simp [Loc.notPeer]
  · unfold Db.peerRemove
    rw [hfind]
    dsimp only
    by_cases hin : (ip, o) ∈ n.peers
    · rw [if_pos hin]
      refine Iff.trans (upd (fun n => { n with peers := n.peers.filter (fun e => e.1 != ip) }) (fun _ => rfl)
        (fun l o' c hl => by cases l <;> first | exact Iff.rfl | exact absurd hl (fun h => h)) _ ?_) ?_
      · rfl
      cases l with
      | peer a =>
        have hp : ¬ Loc.notPeer (.peer a) := fun h => h
        by_cases hname : name = n.name
        · subst hname
          unfold HoldsDb
          rw [hun]
          show (_ ∧ _ ∨ _ ∧ ((a, o') ∈ n.peers.filter _ ∧ _)) ↔ ((a, o') ∈ n.peers ∧ _) ∧ _
          rw [List.mem_filter]
          by_cases ha : a = ip
          · subst ha
            constructor
            · rintro (⟨h, _⟩ | ⟨_, ⟨_, h⟩, _⟩)
              · exact absurd ⟨rfl, hp⟩ h
              · simp at h
            · rintro ⟨⟨h, hc⟩, hne⟩
              exact absurd ⟨rfl, rfl, owner_unique (hw.nets n hn).peers hin h⟩ hne
          · simp [ha, hp]
        · simp [hname]
      | _ => simp [Loc.notPeer]
    · rw [if_neg hin]
      constructor
      · intro h
        refine ⟨h, ?_⟩
        rintro ⟨rfl, rfl, rfl⟩
        unfold HoldsDb at h
        rw [hun] at h
        exact hin h.1
      · exact fun h => h.1

example : ∃ n ∈ demoDb.nets, n.WF ∧ ∃ g ∈ n.neighs, g.key = macKey demoMac := by
  obtain ⟨n, hn⟩ : ∃ n, demoDb.nets = [n] := ⟨_, rfl⟩
  have hm : n ∈ demoDb.nets := by rw [hn]; simp
  refine ⟨n, hm, demoDb_WF.nets n hm, ?_⟩
  have : demoDb.nets.map (·.neighs.map (·.key)) = [[macKey demoMac]] := by decide +kernel
  rw [hn] at this
  simp only [List.map_cons, List.map_nil, List.cons.injEq, and_true] at this
  obtain ⟨g, hg, hk⟩ := List.mem_map.1 (show macKey demoMac ∈ n.neighs.map (·.key) from by rw [this]; simp)
  exact ⟨g, hg, hk⟩

/-- **C79** (data of one originator at a neighbor): removing the data of an originator from a
neighbor removes its facts about this neighbor and nothing else; the object stays exactly if facts
remain or nothing was removed. -/
theorem C79_neighbor_remove {n : Net} (hw : n.WF) (k : Key) (o : Oid) (l : Loc) (o' : Oid) (c : Option (Meta × Value)) :
    Holds (n.neighRemove k o).1 l o' c ↔ Holds n l o' c ∧ ¬ (l.about k ∧ o' = o) := by
  have hown := neighRemove_own n k o
  cases hget : n.neighGet k with
  | none =>
    rw [neighRemove_none o hget]
    constructor
    · intro h
      refine ⟨h, fun ha => ?_⟩
      obtain ⟨g, hg, hk, _⟩ := holds_about ha.1 h
      exact find_none Neigh.key hget g hg hk
    · exact fun h => h.1
  | some g =>
    obtain ⟨a, b, e, rfl, ha, hb⟩ := neighGet_split hw.keys hget
    have hstrip : ∀ l : Loc, HoldsN (g.strip o) l o' c ↔ HoldsN g l o' c ∧ o' ≠ o := by
      intro l
      cases l with
      | metric i => simp [HoldsN]
      | default i => simp [HoldsN]
      | peer i => simp [HoldsN]
      | neighMetric k' i =>
        show (∃ m v, (cleanup o g.data)[i]? = _ ∧ _) ↔ _
        constructor
        · rintro ⟨m, v, h, hc⟩
          have := (cleanup_get o g.data i v m o').1 h
          exact ⟨⟨m, v, this.1, hc⟩, this.2⟩
        · rintro ⟨⟨m, v, h, hc⟩, hne⟩
          exact ⟨m, v, (cleanup_get o g.data i v m o').2 ⟨h, hne⟩, hc⟩
      | neighIp k' ip =>
        show ((ip, o') ∈ g.ips.filter _ ∧ _) ↔ _
        rw [mem_strip]
        constructor
        · rintro ⟨⟨h1, h2⟩, hc⟩; exact ⟨⟨h1, hc⟩, h2⟩
        · rintro ⟨⟨h1, hc⟩, h2⟩; exact ⟨⟨h1, h2⟩, hc⟩
      | dest k' ip =>
        show ((ip, o') ∈ g.dests.filter _ ∧ _) ↔ _
        rw [mem_strip]
        constructor
        · rintro ⟨⟨h1, h2⟩, hc⟩; exact ⟨⟨h1, hc⟩, h2⟩
        · rintro ⟨⟨h1, hc⟩, h2⟩; exact ⟨⟨h1, h2⟩, hc⟩
    have hgm : g ∈ n.neighs := by rw [e]; simp
    have hun : ∀ (P : Neigh → Prop), (∃ x ∈ n.neighs, x.key = g.key ∧ P x) ↔ P g := by
      intro P
      constructor
      · rintro ⟨x, hx, hxk, hp⟩
        rw [key_unique hw hx hgm hxk] at hp
        exact hp
      · intro hp; exact ⟨g, hgm, rfl, hp⟩
    -- the intermediate interface
    have hmid : ∀ n1 : Net, n1 = { n.putNeigh g.key (fun g => g.strip o) with remote := dropRemote g.key (g.ips.filter (fun e => e.2 == o)) n.remote } →
        (Holds n1 l o' c ↔ Holds n l o' c ∧ ¬ (l.about g.key ∧ o' = o)) := by
      intro n1 h1
      rw [h1]
      refine Iff.trans (holds_put (n := n) (k := g.key) (f := fun g => g.strip o) ?_ ?_ ?_ ?_ (fun _ => rfl) l o' c) ?_
      · rfl
      · rfl
      · rfl
      · rfl
      rw [hun, hstrip]
      have hs := holds_split n g.key l o' c
      rw [hun] at hs
      by_cases h2 : l.about g.key
      · simp only [h2, not_true, false_and, true_and, false_or] at hs ⊢
        rw [hs]
      · simp [h2]
    have heq : (n.neighRemove g.key o).1 =
        if g.touched o then Net.neighCommit { n.putNeigh g.key (fun g => g.strip o) with remote := dropRemote g.key (g.ips.filter (fun e => e.2 == o)) n.remote } g.key
        else { n.putNeigh g.key (fun g => g.strip o) with remote := dropRemote g.key (g.ips.filter (fun e => e.2 == o)) n.remote } := by
      unfold Net.neighRemove
      rw [hget]
    rw [heq]
    by_cases ht : g.touched o = true
    · rw [if_pos ht]
      rw [← hmid _ rfl]
      generalize hn1 : ({ n.putNeigh g.key (fun g => g.strip o) with remote := dropRemote g.key (g.ips.filter (fun e => e.2 == o)) n.remote } : Net) = n1
      have hput := putNeigh_at (f := fun g => g.strip o) e ha hb
      have e1 : n1.neighs = a ++ g.strip o :: b := by rw [← hn1]; exact congrArg Net.neighs hput
      have hget1 : n1.neighGet g.key = some (g.strip o) := by
        unfold Net.neighGet
        rw [e1]
        exact find_at' Neigh.key rfl ha
      unfold Net.neighCommit
      rw [hget1]
      dsimp only
      by_cases hu : (g.strip o).unused = true
      · rw [if_pos hu]
        have hdrop := dropNeigh_at (g := g.strip o) e1 ha hb
        rw [strip_key] at hdrop
        rw [hdrop]
        have hno : ∀ l : Loc, Loc.about l g.key → ¬ Holds n1 l o' c := by
          intro l hl h
          obtain ⟨x, hx, hxk, hxu⟩ := holds_about hl h
          rw [e1] at hx
          rcases List.mem_append.1 hx with hx | hx
          · exact absurd hxk (ha x hx)
          · rcases List.mem_cons.1 hx with hx | hx
            · subst hx; exact hxu hu
            · exact absurd hxk (hb x hx)
        have hnk : ∀ (k' : Key) (P : Neigh → Prop), (k' = g.key → ¬ ∃ x ∈ n1.neighs, x.key = k' ∧ P x) →
            ((∃ x ∈ a ++ b, x.key = k' ∧ P x) ↔ ∃ x ∈ n1.neighs, x.key = k' ∧ P x) := by
          intro k' P hP
          rw [e1]
          rw [e1] at hP
          constructor
          · rintro ⟨x, hx, h⟩
            refine ⟨x, ?_, h⟩
            rcases List.mem_append.1 hx with hx | hx
            · exact List.mem_append_left _ hx
            · exact List.mem_append_right _ (List.mem_cons_of_mem _ hx)
          · rintro ⟨x, hx, hxk, p⟩
            refine ⟨x, ?_, hxk, p⟩
            rcases List.mem_append.1 hx with hx' | hx'
            · exact List.mem_append_left _ hx'
            · rcases List.mem_cons.1 hx' with hx' | hx'
              · exact absurd ⟨x, hx, hxk, p⟩ (hP (by rw [← hxk, hx', strip_key]))
              · exact List.mem_append_right _ hx'
        cases l with
        | metric i => exact Iff.rfl
        | default i => exact Iff.rfl
        | peer i => exact Iff.rfl
        | neighMetric k' i => exact hnk k' _ (fun h => hno (.neighMetric k' i) h)
        | neighIp k' i => exact hnk k' _ (fun h => hno (.neighIp k' i) h)
        | dest k' i => exact hnk k' _ (fun h => hno (.dest k' i) h)
      · rw [if_neg hu]
    · rw [if_neg ht]
      exact hmid _ rfl

/-- **C73** (reading a neighbor object): the value of the neighbor, otherwise the default of its
interface, otherwise nothing. -/
theorem C73_get_data {n : Net} (hw : n.WF) (g : Neigh) (hg : g ∈ n.neighs) (idx : Nat) (d : Data) :
    neighGetData n g idx = some d ↔
      ∃ m v o, d = ⟨v, some m, some o⟩ ∧
        (Holds n (.neighMetric g.key idx) o (some (m, v)) ∨
          ((¬ ∃ o' c, Holds n (.neighMetric g.key idx) o' c) ∧ Holds n (.default idx) o (some (m, v)))) := by
  have hun : ∀ o c, Holds n (.neighMetric g.key idx) o c ↔ ∃ m v, g.data[idx]? = some ⟨v, some m, some o⟩ ∧ c = some (m, v) := by
    intro o c
    constructor
    · rintro ⟨x, hx, hk, h⟩
      rw [key_unique hw hx hg hk] at h
      exact h
    · intro h; exact ⟨g, hg, rfl, h⟩
  have hval : ∀ (l : List Data) (d : Data), l[idx]?.filter Data.hasValue = some d ↔
      ∃ m v o, d = ⟨v, some m, some o⟩ ∧ l[idx]? = some ⟨v, some m, some o⟩ := by
    intro l d
    rw [Option.filter_eq_some_iff]
    constructor
    · rintro ⟨h, hv⟩
      obtain ⟨v, m, o, rfl⟩ := (hasValue_iff d).1 hv
      exact ⟨m, v, o, rfl, h⟩
    · rintro ⟨m, v, o, rfl, h⟩
      exact ⟨h, (hasValue_iff _).2 ⟨v, m, o, rfl⟩⟩
  unfold neighGetData
  cases hx : g.data[idx]?.filter Data.hasValue with
  | some x =>
    obtain ⟨m, v, o, rfl, h⟩ := (hval _ _).1 hx
    dsimp only
    constructor
    · intro e
      cases e
      exact ⟨m, v, o, rfl, Or.inl ((hun _ _).2 ⟨m, v, h, rfl⟩)⟩
    · rintro ⟨m', v', o', rfl, hh | ⟨hno, _⟩⟩
      · obtain ⟨m2, v2, h2, e2⟩ := (hun _ _).1 hh
        cases e2
        rw [h] at h2
        exact h2
      · exact absurd ⟨o, _, (hun _ _).2 ⟨m, v, h, rfl⟩⟩ hno
  | none =>
    dsimp only
    have hno : ¬ ∃ o' c, Holds n (.neighMetric g.key idx) o' c := by
      rintro ⟨o', c, hh⟩
      obtain ⟨m2, v2, h2, _⟩ := (hun _ _).1 hh
      rw [(hval _ _).2 ⟨m2, v2, o', rfl, h2⟩] at hx
      cases hx
    rw [hval]
    constructor
    · rintro ⟨m, v, o, e, h⟩
      exact ⟨m, v, o, e, Or.inr ⟨hno, m, v, h, rfl⟩⟩
    · rintro ⟨m, v, o, e, hh | ⟨_, m2, v2, h2, e2⟩⟩
      · exact absurd ⟨o, _, hh⟩ hno
      · cases e2
        exact ⟨m, v, o, e, h2⟩

end Verif.Layer2
