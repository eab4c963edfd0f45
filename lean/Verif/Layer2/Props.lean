import Verif.Layer2.Facts
/-
C69: removal of an originator.  C70: relabelling.  C71: removal of empty objects.  C72: indexes.
C73: query with default.  C74: best matching neighbor address.  C78: interface names.
-/
namespace Verif.Layer2
open Verif.Netaddr

/-! ### a small database for the examples -/

/-- MAC address of a neighbor -/
def demoMac : Netaddr := ⟨[2, 0, 0, 0, 0, 1] ++ List.replicate 10 0, AF_MAC48, 48⟩
/-- an IPv4 address or prefix -/
def demoIp (a b c d p : UInt8) : Netaddr := ⟨[a, b, c, d] ++ List.replicate 12 0, AF_INET, p⟩
/-- name `wlan0` -/
def demoName : List UInt8 := [119, 108, 97, 110, 48]

/-- originators 1 and 2 both know neighbor `demoMac`, only 1 knows its address -/
def demoOps : List Op :=
  [.originAdd 1, .originAdd 2, .netAdd demoName, .neighAdd demoName (macKey demoMac),
   .setNeigh demoName (macKey demoMac) 4 1 none (.int 54000000),
   .setNeigh demoName (macKey demoMac) 5 2 none (.int 11000000),
   .ipAdd demoName (macKey demoMac) 1 (demoIp 10 0 0 7 32)]

def demoDb : Db := runOps (fun _ => 40) Db.empty demoOps

theorem demoDb_WF : demoDb.WF := runOps_WF _ _ _ empty_WF

/-! ### C72 -/

/-- **C72** (consistency): after any sequence of operations no interface, neighbor or address exists
twice, and both address indexes contain exactly the addresses of the existing objects, each once. -/
theorem C72_consistent (prio : Oid → Nat) (ops : List Op) : (runOps prio Db.empty ops).WF :=
  runOps_WF prio ops _ empty_WF

/-- **C72** (lookup): a lookup of a neighbor address in the index of an interface finds something
exactly if a neighbor has the address, and then one of these neighbors. -/
theorem C72_lookup (prio : Oid → Nat) (ops : List Op) (n : Net) (hn : n ∈ (runOps prio Db.empty ops).nets)
    (ip : Netaddr) :
    (∀ e, n.remote.find? (fun e => e.1 == ip) = some e → e.1 = ip ∧ ∃ o, Holds n (.neighIp e.2 ip) o none) ∧
    (n.remote.find? (fun e => e.1 == ip) = none → ∀ k o, ¬ Holds n (.neighIp k ip) o none) := by
  have hw := (C72_consistent prio ops).nets n hn
  have mem : ∀ k, (ip, k) ∈ n.remote ↔ ∃ o, Holds n (.neighIp k ip) o none := by
    intro k
    rw [hw.remote.mem_iff]
    unfold neighIps
    rw [List.mem_flatMap]
    constructor
    · rintro ⟨g, hg, h⟩
      obtain ⟨e, he, h⟩ := List.mem_map.1 h
      cases h
      exact ⟨e.2, g, hg, rfl, he, rfl⟩
    · rintro ⟨o, g, hg, hk, h, _⟩
      exact ⟨g, hg, List.mem_map.2 ⟨(ip, o), h, by rw [← hk]⟩⟩
  constructor
  · intro e h
    have h1 : e.1 = ip := by simpa using List.find?_some h
    refine ⟨h1, (mem e.2).1 ?_⟩
    rw [← h1]
    exact List.mem_of_find?_eq_some h
  · intro h k o hh
    have := List.find?_eq_none.1 h _ ((mem k).2 ⟨o, hh⟩)
    simp at this

example : (demoDb.nets.map (fun n => n.remote)) = [[(demoIp 10 0 0 7 32, macKey demoMac)]] := by decide +kernel

/-! ### C69 -/

/-- **C69** (partial): removing an originator removes all facts it contributed and keeps all facts of
other originators, for every place except for the addresses of local radios
(`C69_peer_kept_counterexample`, `C69_peer_lost_counterexample`). -/
theorem C69_origin_removed_partial {db : Db} (hw : db.WF) {o : Oid} (ho : o ∈ db.origins) (name : List UInt8)
    (l : Loc) (hl : l.notPeer) (o' : Oid) (c : Option (Meta × Value)) :
    HoldsDb (db.originRemove o) name l o' c ↔ HoldsDb db name l o' c ∧ o' ≠ o := by
  unfold HoldsDb
  rw [originRemove_nets hw ho]
  constructor
  · rintro ⟨n', hn', hname, h⟩
    obtain ⟨n, hn, hk⟩ := List.mem_filterMap.1 hn'
    have := (keepNet_holds (hw.nets n hn) o l hl o' c).1 ⟨n', hk, h⟩
    exact ⟨⟨n, hn, by rw [← keepNet_name o n n' hk, hname], this.1⟩, this.2⟩
  · rintro ⟨⟨n, hn, hname, h⟩, hne⟩
    obtain ⟨n', hk, h'⟩ := (keepNet_holds (hw.nets n hn) o l hl o' c).2 ⟨h, hne⟩
    exact ⟨n', List.mem_filterMap.2 ⟨n, hn, hk⟩, by rw [keepNet_name o n n' hk, hname], h'⟩

example : 1 ∈ demoDb.origins ∧ HoldsDb demoDb demoName (.neighMetric (macKey demoMac) 5) 2 (some (⟨21, .integer, 1⟩, .int 11000000)) ∧
    (demoDb.originRemove 1).nets.map (fun n => (n.remote, n.neighs.map (fun g => (g.data.filter Data.hasValue, g.ips))))
      = [([], [([⟨.int 11000000, some ⟨21, .integer, 1⟩, some 2⟩], [])])] := by
  refine ⟨by decide +kernel, ?_, by decide +kernel⟩
  obtain ⟨n, hn⟩ : ∃ n, demoDb.nets = [n] := ⟨_, rfl⟩
  refine ⟨n, by rw [hn]; simp, ?_, ?_⟩
  · have : demoDb.nets.map (·.name) = [demoName] := by decide +kernel
    rw [hn] at this; simpa using this
  · obtain ⟨g, hg⟩ : ∃ g, n.neighs = [g] := by
      have : demoDb.nets.map (·.neighs.length) = [1] := by decide +kernel
      rw [hn] at this
      simp at this
      exact List.length_eq_one_iff.1 this
    refine ⟨g, by rw [hg]; simp, ?_, ⟨21, .integer, 1⟩, .int 11000000, ?_, rfl⟩
    · have : demoDb.nets.map (·.neighs.map (·.key)) = [[macKey demoMac]] := by decide +kernel
      rw [hn] at this; simp only [List.map_cons, List.map_nil, hg] at this; simpa using this
    · have : demoDb.nets.map (·.neighs.map (·.data[5]?)) = [[some ⟨.int 11000000, some ⟨21, .integer, 1⟩, some 2⟩]] := by decide +kernel
      rw [hn] at this; simp only [List.map_cons, List.map_nil, hg] at this; simpa using this

/-- **C69** (no empty objects): a neighbor about which only the removed originator had information is
removed. -/
theorem C69_neighbor_gone {db : Db} (hw : db.WF) {o : Oid} (ho : o ∈ db.origins) (name : List UInt8) (k : Key)
    (hsome : ∃ l c, Loc.about l k ∧ HoldsDb db name l o c)
    (hall : ∀ l o' c, Loc.about l k → HoldsDb db name l o' c → o' = o) :
    ¬ HasNeigh (db.originRemove o) name k := by
  rintro ⟨n', hn', hname, g', hg', hk⟩
  rw [originRemove_nets hw ho] at hn'
  obtain ⟨n, hn, hkeep⟩ := List.mem_filterMap.1 hn'
  rw [keepNet_name o n n' hkeep] at hname
  have hnw := hw.nets n hn
  rw [keepNet_some hkeep, strip_neighs hnw o] at hg'
  obtain ⟨g, hg, hks⟩ := List.mem_filterMap.1 hg'
  have hgk : g.key = k := by rw [← hk, keepStrip_key g g' hks]
  obtain ⟨l, c, ha, n2, hn2, hname2, h⟩ := hsome
  obtain rfl : n2 = n := name_unique hw hn2 hn (by rw [hname2, hname])
  obtain ⟨g2, hg2, hg2k, ht⟩ := holds_touched ha h
  obtain rfl : g2 = g := key_unique hnw hg2 hg (by rw [hg2k, hgk])
  unfold keepStrip at hks
  by_cases hu : (g2.strip o).unused = true
  · rw [if_pos (by rw [ht, hu]; rfl)] at hks
    cases hks
  · -- a remaining fact contradicts `hall`
    have hmem : g2.strip o ∈ (n2.strip o).1.neighs := by
      rw [strip_neighs hnw o]
      exact List.mem_filterMap.2 ⟨g2, hg, keepStrip_kept hu⟩
    obtain ⟨l', o', c', ha', h'⟩ := used_holds hmem hu
    have h'' := (strip_holds hnw o l' (about_notPeer ha') o' c').1 h'
    exact h''.2 (hall l' o' c' (by rw [← hgk]; exact ha') ⟨n2, hn, hname, h''.1⟩)

/-- **C69** (nothing appears): objects that exist after the removal existed before. -/
theorem C69_no_new_objects {db : Db} (hw : db.WF) {o : Oid} (ho : o ∈ db.origins) (name : List UInt8) (k : Key) :
    (HasNet (db.originRemove o) name → HasNet db name) ∧
    (HasNeigh (db.originRemove o) name k → HasNeigh db name k) := by
  constructor
  · rintro ⟨n', hn', hname⟩
    rw [originRemove_nets hw ho] at hn'
    obtain ⟨n, hn, hkeep⟩ := List.mem_filterMap.1 hn'
    exact ⟨n, hn, by rw [← hname, keepNet_name o n n' hkeep]⟩
  · rintro ⟨n', hn', hname, g', hg', hk⟩
    rw [originRemove_nets hw ho] at hn'
    obtain ⟨n, hn, hkeep⟩ := List.mem_filterMap.1 hn'
    rw [keepNet_some hkeep, strip_neighs (hw.nets n hn) o] at hg'
    obtain ⟨g, hg, hks⟩ := List.mem_filterMap.1 hg'
    exact ⟨n, hn, by rw [← hname, keepNet_name o n n' hkeep], g, hg, by rw [← hk, keepStrip_key g g' hks]⟩

/-- a database with a radio address of originator 1 -/
def peerOps (o : Oid) : List Op :=
  [.originAdd 1, .originAdd 2, .netAdd demoName, .setMetric demoName 0 1 none (.int 5),
   .setMetric demoName 1 2 none (.int 6), .peerAdd demoName o (demoIp 10 0 0 1 32)]

/-- **C69** (fails for radio addresses): the address of the local radio that originator 1 added is
still there after the removal of originator 1. -/
theorem C69_peer_kept_counterexample :
    ((runOps (fun _ => 40) Db.empty (peerOps 1)).originRemove 1).nets.map (·.peers)
      = [[(demoIp 10 0 0 1 32, 1)]] ∧
    ((runOps (fun _ => 40) Db.empty (peerOps 1)).originRemove 1).origins = [2] := by decide +kernel

/-- **C69** (fails for radio addresses): the address that originator 2 added disappears with the last
metric of originator 1. -/
theorem C69_peer_lost_counterexample :
    let db := runOps (fun _ => 40) Db.empty
      [.originAdd 1, .originAdd 2, .netAdd demoName, .setMetric demoName 0 1 none (.int 5),
       .peerAdd demoName 2 (demoIp 10 0 0 1 32)]
    db.nets.map (·.peers) = [[(demoIp 10 0 0 1 32, 2)]] ∧ db.originRemove 1 = ⟨[], [2], []⟩ := by decide +kernel

/-! ### C70 -/

/-- **C70**: relabelling an interface moves exactly the facts of the old originator to the new one;
the values, the facts of other originators and the set of objects are unchanged. -/
theorem C70_relabel (n : Net) (new old : Oid) :
    (∀ l o c, Holds (n.relabel new old) l o c ↔ (o ≠ old ∧ Holds n l o c) ∨ (o = new ∧ Holds n l old c)) ∧
    (n.relabel new old).neighs.map (·.key) = n.neighs.map (·.key) := by
  have hd : ∀ (ds : List Data) (i : Nat) (v : Value) (m : Meta) (o : Oid),
      (ds.map (relabelData new old))[i]? = some ⟨v, some m, some o⟩ ↔
        (o ≠ old ∧ ds[i]? = some ⟨v, some m, some o⟩) ∨ (o = new ∧ ds[i]? = some ⟨v, some m, some old⟩) := by
    intro ds i v m o
    rw [List.getElem?_map]
    cases h : ds[i]? with
    | none => simp
    | some d =>
      obtain ⟨dv, dm, dorig⟩ := d
      simp only [Option.map_some, Option.some.injEq, relabelData]
      by_cases e : dorig = some old
      · rw [if_pos e]
        simp only [Data.mk.injEq, e, Option.some.injEq]
        constructor
        · rintro ⟨h1, h2, h3⟩; exact Or.inr ⟨h3.symm, h1, h2, trivial⟩
        · rintro (⟨h1, h2, h3, h4⟩ | ⟨h1, h2, h3, _⟩)
          · exact absurd h4.symm h1
          · exact ⟨h2, h3, h1.symm⟩
      · rw [if_neg e]
        simp only [Data.mk.injEq]
        constructor
        · rintro ⟨h1, h2, h3⟩
          exact Or.inl ⟨fun h => e (by rw [h3, h]), h1, h2, h3⟩
        · rintro (⟨_, h2, h3, h4⟩ | ⟨_, _, _, h4⟩)
          · exact ⟨h2, h3, h4⟩
          · exact absurd h4 e
  have ha : ∀ (l : List (Netaddr × Oid)) (a : Netaddr) (o : Oid),
      (a, o) ∈ l.map (relabelAddr new old) ↔ (o ≠ old ∧ (a, o) ∈ l) ∨ (o = new ∧ (a, old) ∈ l) := by
    intro l a o
    rw [List.mem_map]
    constructor
    · rintro ⟨e, he, h⟩
      unfold relabelAddr at h
      split at h
      · next hold =>
        cases h
        exact Or.inr ⟨rfl, by rw [← hold]; exact he⟩
      · next hold => subst h; exact Or.inl ⟨hold, he⟩
    · rintro (⟨h1, h2⟩ | ⟨h1, h2⟩)
      · exact ⟨(a, o), h2, by unfold relabelAddr; rw [if_neg h1]⟩
      · exact ⟨(a, old), h2, by unfold relabelAddr; rw [if_pos rfl, h1]⟩
  have hn : ∀ (P : Neigh → Prop) (Q R : Neigh → Prop) (A B : Prop),
      (∀ g, P (Neigh.relabel new old g) ↔ (A ∧ Q g) ∨ (B ∧ R g)) →
      ((∃ g ∈ n.neighs.map (Neigh.relabel new old), P g) ↔
        (A ∧ ∃ g ∈ n.neighs, Q g) ∨ (B ∧ ∃ g ∈ n.neighs, R g)) := by
    intro P Q R A B h
    constructor
    · rintro ⟨g', hg', hP⟩
      obtain ⟨g, hg, rfl⟩ := List.mem_map.1 hg'
      rcases (h g).1 hP with ⟨a, q⟩ | ⟨b, r⟩
      · exact Or.inl ⟨a, g, hg, q⟩
      · exact Or.inr ⟨b, g, hg, r⟩
    · rintro (⟨a, g, hg, q⟩ | ⟨b, g, hg, r⟩)
      · exact ⟨_, List.mem_map_of_mem hg, (h g).2 (Or.inl ⟨a, q⟩)⟩
      · exact ⟨_, List.mem_map_of_mem hg, (h g).2 (Or.inr ⟨b, r⟩)⟩
  constructor
  · intro l o c
    cases l with
    | metric i =>
      show (∃ m v, (n.data.map (relabelData new old))[i]? = _ ∧ _) ↔ _
      constructor
      · rintro ⟨m, v, h, e⟩
        rcases (hd ..).1 h with ⟨h1, h2⟩ | ⟨h1, h2⟩
        · exact Or.inl ⟨h1, m, v, h2, e⟩
        · exact Or.inr ⟨h1, m, v, h2, e⟩
      · rintro (⟨h1, m, v, h2, e⟩ | ⟨h1, m, v, h2, e⟩)
        · exact ⟨m, v, (hd ..).2 (Or.inl ⟨h1, h2⟩), e⟩
        · exact ⟨m, v, (hd ..).2 (Or.inr ⟨h1, h2⟩), e⟩
    | default i =>
      show (∃ m v, (n.neighData.map (relabelData new old))[i]? = _ ∧ _) ↔ _
      constructor
      · rintro ⟨m, v, h, e⟩
        rcases (hd ..).1 h with ⟨h1, h2⟩ | ⟨h1, h2⟩
        · exact Or.inl ⟨h1, m, v, h2, e⟩
        · exact Or.inr ⟨h1, m, v, h2, e⟩
      · rintro (⟨h1, m, v, h2, e⟩ | ⟨h1, m, v, h2, e⟩)
        · exact ⟨m, v, (hd ..).2 (Or.inl ⟨h1, h2⟩), e⟩
        · exact ⟨m, v, (hd ..).2 (Or.inr ⟨h1, h2⟩), e⟩
    | peer ip =>
      show ((ip, o) ∈ n.peers.map (relabelAddr new old) ∧ _) ↔ _
      rw [ha]
      constructor
      · rintro ⟨h1 | h1, e⟩
        · exact Or.inl ⟨h1.1, h1.2, e⟩
        · exact Or.inr ⟨h1.1, h1.2, e⟩
      · rintro (⟨h1, h2, e⟩ | ⟨h1, h2, e⟩)
        · exact ⟨Or.inl ⟨h1, h2⟩, e⟩
        · exact ⟨Or.inr ⟨h1, h2⟩, e⟩
    | neighMetric k i =>
      apply hn
      intro g
      show (g.key = k ∧ ∃ m v, (g.data.map (relabelData new old))[i]? = _ ∧ _) ↔ _
      constructor
      · rintro ⟨hk, m, v, h, e⟩
        rcases (hd ..).1 h with ⟨h1, h2⟩ | ⟨h1, h2⟩
        · exact Or.inl ⟨h1, hk, m, v, h2, e⟩
        · exact Or.inr ⟨h1, hk, m, v, h2, e⟩
      · rintro (⟨h1, hk, m, v, h2, e⟩ | ⟨h1, hk, m, v, h2, e⟩)
        · exact ⟨hk, m, v, (hd ..).2 (Or.inl ⟨h1, h2⟩), e⟩
        · exact ⟨hk, m, v, (hd ..).2 (Or.inr ⟨h1, h2⟩), e⟩
    | neighIp k ip =>
      apply hn
      intro g
      show (g.key = k ∧ (ip, o) ∈ g.ips.map (relabelAddr new old) ∧ _) ↔ _
      rw [ha]
      constructor
      · rintro ⟨hk, h1 | h1, e⟩
        · exact Or.inl ⟨h1.1, hk, h1.2, e⟩
        · exact Or.inr ⟨h1.1, hk, h1.2, e⟩
      · rintro (⟨h1, hk, h2, e⟩ | ⟨h1, hk, h2, e⟩)
        · exact ⟨hk, Or.inl ⟨h1, h2⟩, e⟩
        · exact ⟨hk, Or.inr ⟨h1, h2⟩, e⟩
    | dest k ip =>
      apply hn
      intro g
      show (g.key = k ∧ (ip, o) ∈ g.dests.map (relabelAddr new old) ∧ _) ↔ _
      rw [ha]
      constructor
      · rintro ⟨hk, h1 | h1, e⟩
        · exact Or.inl ⟨h1.1, hk, h1.2, e⟩
        · exact Or.inr ⟨h1.1, hk, h1.2, e⟩
      · rintro (⟨h1, hk, h2, e⟩ | ⟨h1, hk, h2, e⟩)
        · exact ⟨hk, Or.inl ⟨h1, h2⟩, e⟩
        · exact ⟨hk, Or.inr ⟨h1, h2⟩, e⟩
  · show (n.neighs.map (Neigh.relabel new old)).map (·.key) = _
    rw [List.map_map]
    rfl

example : (demoDb.nets.map (fun n => (n.relabel 3 1).neighs.map (fun g => (g.ips, g.data[4]?, g.data[5]?)))) =
    [[([(demoIp 10 0 0 7 32, 3)], some ⟨.int 54000000, some ⟨20, .integer, 1⟩, some 3⟩,
      some ⟨.int 11000000, some ⟨21, .integer, 1⟩, some 2⟩)]] := by decide +kernel

/-! ### C71 -/

/-- **C71** (neighbor): after a commit the object of the neighbor exists exactly if the interface
holds a fact about it; no fact and no other neighbor is changed. -/
theorem C71_neighbor_commit {n : Net} (hw : n.WF) (k : Key) (hk : ∃ g ∈ n.neighs, g.key = k) :
    ((∃ g ∈ (n.neighCommit k).neighs, g.key = k) ↔ ∃ l o c, Loc.about l k ∧ Holds n l o c) ∧
    (∀ l o c, Holds (n.neighCommit k) l o c ↔ Holds n l o c) ∧
    (∀ g, g.key ≠ k → (g ∈ (n.neighCommit k).neighs ↔ g ∈ n.neighs)) := by
  cases hf : n.neighGet k with
  | none =>
    obtain ⟨g, hg, hgk⟩ := hk
    exact absurd hgk (find_none Neigh.key hf g hg)
  | some g =>
    obtain ⟨a, b, e, rfl, ha, hb⟩ := neighGet_split hw.keys hf
    have hgm : g ∈ n.neighs := by rw [e]; simp
    by_cases hu : g.unused = true
    · -- the object is removed
      have hc : n.neighCommit g.key = { n with neighs := a ++ b, remote := dropRemote g.key g.ips n.remote } := by
        unfold Net.neighCommit
        rw [hf]
        dsimp only
        rw [if_pos hu, dropNeigh_at e ha hb]
      have hno : ∀ l o c, Loc.about l g.key → ¬ Holds n l o c := by
        intro l o c hl h
        obtain ⟨g', hg', hk', hn⟩ := holds_about hl h
        rw [key_unique hw hg' hgm hk'] at hn
        exact hn hu
      have hmem : ∀ x : Neigh, x.key ≠ g.key → (x ∈ a ++ b ↔ x ∈ n.neighs) := by
        intro x hx
        rw [e, List.mem_append, List.mem_append, List.mem_cons]
        constructor
        · rintro (h | h)
          · exact Or.inl h
          · exact Or.inr (Or.inr h)
        · rintro (h | h | h)
          · exact Or.inl h
          · subst h; exact absurd rfl hx
          · exact Or.inr h
      have hab : ∀ x ∈ a ++ b, x.key ≠ g.key := by
        intro x hx
        rcases List.mem_append.1 hx with h | h
        · exact ha x h
        · exact hb x h
      rw [hc]
      refine ⟨⟨?_, ?_⟩, ?_, hmem⟩
      · rintro ⟨x, hx, hxk⟩
        exact absurd hxk (hab x hx)
      · rintro ⟨l, o, c, hl, h⟩
        exact absurd h (hno l o c hl)
      · have hnk : ∀ (k' : Key) (P : Neigh → Prop), (k' = g.key → ¬ ∃ x ∈ n.neighs, x.key = k' ∧ P x) →
            ((∃ x ∈ a ++ b, x.key = k' ∧ P x) ↔ ∃ x ∈ n.neighs, x.key = k' ∧ P x) := by
          intro k' P hP
          constructor
          · rintro ⟨x, hx, hxk, p⟩
            exact ⟨x, (hmem x (hab x hx)).1 hx, hxk, p⟩
          · rintro ⟨x, hx, hxk, p⟩
            have hne : x.key ≠ g.key := fun h => hP (by rw [← hxk, h]) ⟨x, hx, hxk, p⟩
            exact ⟨x, (hmem x hne).2 hx, hxk, p⟩
        intro l o c
        cases l with
        | metric i => exact Iff.rfl
        | default i => exact Iff.rfl
        | peer i => exact Iff.rfl
        | neighMetric k' i => exact hnk k' _ (fun h => hno (.neighMetric k' i) o c h)
        | neighIp k' i => exact hnk k' _ (fun h => hno (.neighIp k' i) o c h)
        | dest k' i => exact hnk k' _ (fun h => hno (.dest k' i) o c h)
    · have hc : n.neighCommit g.key = n := by
        unfold Net.neighCommit
        rw [hf]
        dsimp only
        rw [if_neg hu]
      rw [hc]
      exact ⟨⟨fun _ => used_holds hgm hu, fun _ => ⟨g, hgm, rfl⟩⟩, fun _ _ _ => Iff.rfl, fun _ _ => Iff.rfl⟩

example : (demoDb.nets.map (fun n => ((n.neighAdd (macKey { demoMac with addr := List.replicate 16 7 })).neighs.length,
    ((n.neighAdd (macKey { demoMac with addr := List.replicate 16 7 })).neighCommit (macKey { demoMac with addr := List.replicate 16 7 })).neighs.length,
    (n.neighCommit (macKey demoMac)).neighs.length))) = [(2, 1, 1)] := by decide +kernel

/-- **C71** (interface, partial): after a commit the object of the interface exists exactly if it has
a neighbor or a fact; other interfaces are not touched.  Missing: addresses of the local radio do not
count (`C71_interface_counterexample`). -/
theorem C71_interface_commit_partial {db : Db} (hw : db.WF) (n : Net) (hn : n ∈ db.nets) (hp : n.peers = []) :
    (HasNet (db.netCommit n.name) n.name ↔ n.neighs ≠ [] ∨ ∃ l o c, Holds n l o c) ∧
    (∀ m, m.name ≠ n.name → (m ∈ (db.netCommit n.name).nets ↔ m ∈ db.nets)) := by
  have hfind : db.nets.find? (fun x => x.name == n.name) = some n := by
    cases h : db.nets.find? (fun x => x.name == n.name) with
    | none => exact absurd rfl (find_none Net.name h n hn)
    | some m =>
      have h1 := List.mem_of_find?_eq_some h
      have h2 : m.name = n.name := by simpa using List.find?_some h
      rw [name_unique hw h1 hn h2]
  obtain ⟨a, b, e, _, ha, hb⟩ := net_split hw hfind
  unfold Db.netCommit
  rw [hfind]
  dsimp only
  have hnp : ∀ l o c, Holds n l o c → Loc.notPeer l := by
    intro l o c h
    cases l <;> first | trivial | (obtain ⟨h, _⟩ := h; rw [hp] at h; cases h)
  by_cases hu : n.unused = true
  · rw [if_pos hu, dropNet_at e ha hb]
    have hab : ∀ x ∈ a ++ b, x.name ≠ n.name := by
      intro x hx
      rcases List.mem_append.1 hx with h | h
      · exact ha x h
      · exact hb x h
    obtain ⟨h1, h2⟩ := (net_unused_iff n).1 hu
    constructor
    · constructor
      · rintro ⟨x, hx, hxn⟩
        exact absurd hxn (hab x hx)
      · rintro (h | ⟨l, o, c, h⟩)
        · exact absurd h1 h
        · exact absurd h (h2 l (hnp l o c h) o c)
    · intro m hm
      show m ∈ a ++ b ↔ _
      rw [e, List.mem_append, List.mem_append, List.mem_cons]
      constructor
      · rintro (h | h)
        · exact Or.inl h
        · exact Or.inr (Or.inr h)
      · rintro (h | h | h)
        · exact Or.inl h
        · subst h; exact absurd rfl hm
        · exact Or.inr h
  · rw [if_neg hu]
    refine ⟨⟨fun _ => ?_, fun _ => ⟨n, hn, rfl⟩⟩, fun _ _ => Iff.rfl⟩
    by_cases h1 : n.neighs = []
    · right
      refine Classical.byContradiction (fun h => hu ((net_unused_iff n).2 ⟨h1, fun l _ o c hh => h ⟨l, o, c, hh⟩⟩))
    · exact Or.inl h1

example : ∃ n ∈ demoDb.nets, n.peers = [] := by
  obtain ⟨n, hn⟩ : ∃ n, demoDb.nets = [n] := ⟨_, rfl⟩
  refine ⟨n, by rw [hn]; simp, ?_⟩
  have : demoDb.nets.map (·.peers) = [[]] := by decide +kernel
  rw [hn] at this; simpa using this

/-- **C71** (interface, fails): an interface that only has an address of its radio is removed by a
commit. -/
theorem C71_interface_counterexample :
    let db := runOps (fun _ => 40) Db.empty [.netAdd demoName, .peerAdd demoName 1 (demoIp 10 0 0 1 32)]
    db.nets.map (·.peers) = [[(demoIp 10 0 0 1 32, 1)]] ∧ (db.netCommit demoName).nets = [] := by decide +kernel

/-! ### C73 -/

/-- **C73** (query): the query for a metric of a neighbor returns the value known for the neighbor,
otherwise - only if asked for - the default of the interface, otherwise nothing. -/
theorem C73_query {db : Db} (hw : db.WF) (ifname : List UInt8) (n : Net) (hn : db.netGet ifname = some n)
    (mac : Netaddr) (idx : Nat) (dflt : Bool) (d : Data) :
    db.query ifname mac idx dflt = some d ↔
      ∃ m v o, d = ⟨v, some m, some o⟩ ∧
        (Holds n (.neighMetric (macKey mac) idx) o (some (m, v)) ∨
          (dflt = true ∧ (¬ ∃ o' c, Holds n (.neighMetric (macKey mac) idx) o' c) ∧
            Holds n (.default idx) o (some (m, v)))) := by
  have hnm : n ∈ db.nets := List.mem_of_find?_eq_some hn
  have hnw := hw.nets n hnm
  -- the value of the neighbor
  have h1 : ∀ d, (n.neighGet (macKey mac)).bind (fun g => g.data[idx]?.filter Data.hasValue) = some d ↔
      ∃ m v o, d = ⟨v, some m, some o⟩ ∧ Holds n (.neighMetric (macKey mac) idx) o (some (m, v)) := by
    intro d
    constructor
    · intro h
      cases hg : n.neighGet (macKey mac) with
      | none => rw [hg] at h; cases h
      | some g =>
        rw [hg, Option.bind_some, Option.filter_eq_some_iff] at h
        obtain ⟨v, m, o, rfl⟩ := (hasValue_iff d).1 h.2
        exact ⟨m, v, o, rfl, g, List.mem_of_find?_eq_some hg, by simpa using List.find?_some hg, m, v, h.1, rfl⟩
    · rintro ⟨m, v, o, rfl, g, hg, hk, m', v', h, e⟩
      cases e
      have hget : n.neighGet (macKey mac) = some g := by
        cases hf : n.neighGet (macKey mac) with
        | none => exact absurd hk (find_none Neigh.key hf g hg)
        | some g' =>
          rw [key_unique hnw (List.mem_of_find?_eq_some hf) hg (by rw [hk]; simpa using List.find?_some hf)]
      rw [hget, Option.bind_some, Option.filter_eq_some_iff]
      exact ⟨h, (hasValue_iff _).2 ⟨v, m, o, rfl⟩⟩
  -- the default
  have h2 : ∀ d, n.neighData[idx]?.filter Data.hasValue = some d ↔
      ∃ m v o, d = ⟨v, some m, some o⟩ ∧ Holds n (.default idx) o (some (m, v)) := by
    intro d
    rw [Option.filter_eq_some_iff]
    constructor
    · rintro ⟨h, hv⟩
      obtain ⟨v, m, o, rfl⟩ := (hasValue_iff d).1 hv
      exact ⟨m, v, o, rfl, m, v, h, rfl⟩
    · rintro ⟨m, v, o, rfl, m', v', h, e⟩
      cases e
      exact ⟨h, (hasValue_iff _).2 ⟨v, m, o, rfl⟩⟩
  unfold Db.query
  rw [hn]
  dsimp only
  cases hx : (n.neighGet (macKey mac)).bind (fun g => g.data[idx]?.filter Data.hasValue) with
  | some x =>
    obtain ⟨m, v, o, rfl, hh⟩ := (h1 x).1 hx
    dsimp only
    constructor
    · intro e
      cases e
      exact ⟨m, v, o, rfl, Or.inl hh⟩
    · rintro ⟨m', v', o', rfl, hh' | ⟨_, hno, _⟩⟩
      · rw [← hx]
        exact (h1 _).2 ⟨m', v', o', rfl, hh'⟩
      · exact absurd ⟨o, _, hh⟩ hno
  | none =>
    have hno : ¬ ∃ o' c, Holds n (.neighMetric (macKey mac) idx) o' c := by
      rintro ⟨o', c, hh⟩
      have hh' := hh
      obtain ⟨g, hg, hk, m, v, h, rfl⟩ := hh'
      rw [(h1 ⟨v, some m, some o'⟩).2 ⟨m, v, o', rfl, hh⟩] at hx
      cases hx
    dsimp only
    cases dflt with
    | false =>
      constructor
      · intro h; cases h
      · rintro ⟨m, v, o, _, hh | ⟨h, _⟩⟩
        · exact absurd ⟨o, _, hh⟩ hno
        · cases h
    | true =>
      rw [if_neg (by decide), h2]
      constructor
      · rintro ⟨m, v, o, e, hh⟩; exact ⟨m, v, o, e, Or.inr ⟨rfl, hno, hh⟩⟩
      · rintro ⟨m, v, o, e, hh | ⟨_, _, hh⟩⟩
        · exact absurd ⟨o, _, hh⟩ hno
        · exact ⟨m, v, o, e, hh⟩

/-- **C73** (unknown interface): nothing is returned for an interface that is not in the database. -/
theorem C73_unknown_interface (db : Db) (ifname : List UInt8) (h : db.netGet ifname = none) (mac : Netaddr)
    (idx : Nat) (dflt : Bool) : db.query ifname mac idx dflt = none := by
  unfold Db.query; rw [h]

example : demoDb.query demoName demoMac 4 false = some ⟨.int 54000000, some ⟨20, .integer, 1⟩, some 1⟩ ∧
    demoDb.query demoName demoMac 6 true = none := by decide +kernel

/-! ### C74 -/

/-- `e` is an address or prefix of a neighbor that contains `addr` -/
def Matches (db : Db) (addr : Netaddr) (e : Netaddr × Key) : Prop :=
  (∃ name o, HoldsDb db name (.neighIp e.2 e.1) o none) ∧ isInSubnet e.1 addr = some true

theorem mem_allIps (db : Db) (e : Netaddr × Key) :
    e ∈ db.allIps ↔ ∃ name o, HoldsDb db name (.neighIp e.2 e.1) o none := by
  unfold Db.allIps
  rw [List.mem_flatMap]
  constructor
  · rintro ⟨n, hn, h⟩
    obtain ⟨g, hg, h⟩ := List.mem_flatMap.1 h
    obtain ⟨x, hx, rfl⟩ := List.mem_map.1 h
    exact ⟨n.name, x.2, n, hn, rfl, g, hg, rfl, hx, rfl⟩
  · rintro ⟨name, o, n, hn, _, g, hg, hk, h, _⟩
    refine ⟨n, hn, List.mem_flatMap.2 ⟨g, hg, List.mem_map.2 ⟨(e.1, o), h, ?_⟩⟩⟩
    rw [hk]

theorem matchFold (addr : Netaddr) : ∀ (l : List (Netaddr × Key)) (s : Option (Netaddr × Key) × Nat),
    (∀ x, s.1 = some x → s.2 = x.1.prefixLen.toNat) → (s.1 = none → s.2 = 256) →
    ((l.foldl (matchStep addr) s).1 = none ↔ s.1 = none ∧ ∀ e ∈ l, isInSubnet e.1 addr ≠ some true) ∧
    (∀ x, (l.foldl (matchStep addr) s).1 = some x →
      (s.1 = some x ∨ (x ∈ l ∧ isInSubnet x.1 addr = some true)) ∧
      x.1.prefixLen.toNat ≤ s.2 ∧ ∀ e ∈ l, isInSubnet e.1 addr = some true → x.1.prefixLen.toNat ≤ e.1.prefixLen.toNat)
  | [], s, h1, _ => by
    refine ⟨by simp, fun x hx => ⟨Or.inl hx, ?_, by simp⟩⟩
    exact Nat.le_of_eq (h1 x hx).symm
  | e :: l, s, h1, h2 => by
    rw [List.foldl_cons]
    by_cases hc : isInSubnet e.1 addr = some true ∧ e.1.prefixLen.toNat < s.2
    · have hs : matchStep addr s e = (some e, e.1.prefixLen.toNat) := by unfold matchStep; rw [if_pos hc]
      rw [hs]
      have ih := matchFold addr l (some e, e.1.prefixLen.toNat) (fun x hx => by cases hx; rfl) (fun h => by cases h)
      constructor
      · rw [ih.1]
        constructor
        · rintro ⟨h, _⟩; cases h
        · rintro ⟨_, h⟩; exact absurd hc.1 (h e (List.mem_cons_self ..))
      · intro x hx
        obtain ⟨i1, i2, i3⟩ := ih.2 x hx
        dsimp only at i1 i2
        refine ⟨?_, by omega, ?_⟩
        · rcases i1 with i1 | i1
          · cases i1; exact Or.inr ⟨List.mem_cons_self .., hc.1⟩
          · exact Or.inr ⟨List.mem_cons_of_mem _ i1.1, i1.2⟩
        · intro y hy hm
          rcases List.mem_cons.1 hy with hy | hy
          · subst hy; exact i2
          · exact i3 y hy hm
    · have hs : matchStep addr s e = s := by unfold matchStep; rw [if_neg hc]
      rw [hs]
      have ih := matchFold addr l s h1 h2
      constructor
      · rw [ih.1]
        constructor
        · rintro ⟨h3, h4⟩
          refine ⟨h3, fun y hy => ?_⟩
          rcases List.mem_cons.1 hy with hy | hy
          · subst hy
            intro hm
            apply hc
            refine ⟨hm, ?_⟩
            rw [h2 h3]
            exact UInt8.toNat_lt y.1.prefixLen
          · exact h4 y hy
        · rintro ⟨h3, h4⟩
          exact ⟨h3, fun y hy => h4 y (List.mem_cons_of_mem _ hy)⟩
      · intro x hx
        obtain ⟨i1, i2, i3⟩ := ih.2 x hx
        refine ⟨?_, i2, ?_⟩
        · rcases i1 with i1 | i1
          · exact Or.inl i1
          · exact Or.inr ⟨List.mem_cons_of_mem _ i1.1, i1.2⟩
        · intro y hy hm
          rcases List.mem_cons.1 hy with hy | hy
          · subst hy
            have : ¬ y.1.prefixLen.toNat < s.2 := fun h => hc ⟨hm, h⟩
            omega
          · exact i3 y hy hm

/-- **C74** (partial): the search finds something exactly if a neighbor address or prefix contains
the address, and returns such an address.  Missing: that it is the most specific one; it is the least
specific one (`C74_best_match_counterexample`). -/
theorem C74_best_match_partial (db : Db) (addr : Netaddr) :
    (db.bestMatch addr = none ↔ ¬ ∃ e, Matches db addr e) ∧
    (∀ x, db.bestMatch addr = some x → Matches db addr x ∧
      ∀ e, Matches db addr e → x.1.prefixLen.toNat ≤ e.1.prefixLen.toNat) := by
  have h := matchFold addr db.allIps (none, 256) (fun x hx => by cases hx) (fun _ => rfl)
  unfold Db.bestMatch
  constructor
  · rw [h.1]
    constructor
    · rintro ⟨_, h1⟩ ⟨e, he, hm⟩
      exact h1 e ((mem_allIps db e).2 he) hm
    · intro h1
      exact ⟨rfl, fun e he hm => h1 ⟨e, (mem_allIps db e).1 he, hm⟩⟩
  · intro x hx
    obtain ⟨h1, _, h3⟩ := h.2 x hx
    rcases h1 with h1 | h1
    · cases h1
    · exact ⟨⟨(mem_allIps db x).1 h1.1, h1.2⟩, fun e he => h3 e ((mem_allIps db e).2 he.1) he.2⟩

/-- a neighbor with a default route and a neighbor with the very address -/
def matchOps : List Op :=
  [.netAdd demoName, .neighAdd demoName (macKey demoMac),
   .neighAdd demoName (macKey { demoMac with addr := List.replicate 16 7 }),
   .ipAdd demoName (macKey { demoMac with addr := List.replicate 16 7 }) 1 (demoIp 10 0 0 7 32),
   .ipAdd demoName (macKey demoMac) 1 (demoIp 0 0 0 0 0)]

/-- **C74** (fails): one neighbor owns the address 10.0.0.7, another one the prefix 0.0.0.0/0; the
search for 10.0.0.7 returns the latter. -/
theorem C74_best_match_counterexample :
    (runOps (fun _ => 40) Db.empty matchOps).bestMatch (demoIp 10 0 0 7 32)
      = some (demoIp 0 0 0 0 0, macKey demoMac) ∧
    (demoIp 10 0 0 7 32, macKey { demoMac with addr := List.replicate 16 7 })
      ∈ (runOps (fun _ => 40) Db.empty matchOps).allIps ∧
    isInSubnet (demoIp 10 0 0 7 32) (demoIp 10 0 0 7 32) = some true := by decide +kernel

/-! ### C78 -/

/-- **C78** (partial): an interface is found under the name it was added with, adding it twice
returns the same object, and all other interfaces stay - for names of at most 15 characters.
Missing: longer names (`C78_long_name_counterexample`). -/
theorem C78_net_add_partial (db : Db) (ifname : List UInt8) (hlen : ifname.length ≤ 15) :
    (netAdd db ifname).1.netGet ifname = some (netAdd db ifname).2 ∧
    netAdd (netAdd db ifname).1 ifname = netAdd db ifname ∧
    (∀ n ∈ db.nets, n ∈ (netAdd db ifname).1.nets) := by
  have key : (netAdd db ifname).1.netGet ifname = some (netAdd db ifname).2 := by
    unfold netAdd
    cases h : db.netGet ifname with
    | some n => exact h
    | none =>
      dsimp only
      have ht : ifname.take nameMax = ifname := List.take_of_length_le (by unfold nameMax; omega)
      have hany : ¬ db.nets.any (fun x => sameName x.name (newNet (ifname.take nameMax)).name) = true := by
        rw [List.any_eq_true]
        rintro ⟨x, hx, hs⟩
        have hn : (newNet (ifname.take nameMax)).name = ifname := ht
        rw [hn] at hs
        exact List.find?_eq_none.1 h x hx hs
      rw [if_neg hany]
      show List.find? _ (db.nets ++ [_]) = _
      rw [List.find?_append]
      have h' : List.find? (fun n => sameName n.name ifname) db.nets = none := h
      rw [h', Option.none_or, List.find?_cons_of_pos]
      show sameName (ifname.take nameMax) ifname = true
      rw [ht]
      exact sameName_refl ifname
  refine ⟨key, ?_, ?_⟩
  · have hid : ∀ (d : Db) (n : Net), d.netGet ifname = some n → netAdd d ifname = (d, n) := by
      intro d n h
      unfold netAdd
      rw [h]
    rw [hid _ _ key]
  · intro n hn
    unfold netAdd
    split
    · exact hn
    · dsimp only
      split
      · exact hn
      · exact List.mem_append_left _ hn

example : demoName.length ≤ 15 ∧ (netAdd demoDb [119, 108, 97, 110, 49]).1.nets.length = 2 := by decide +kernel

/-- **C78** (fails for long names): an interface name of 16 characters is not found after it was
added; adding it again returns an object that is not part of the database. -/
theorem C78_long_name_counterexample :
    let name : List UInt8 := List.replicate 16 120
    let db := (netAdd Db.empty name).1
    db.nets.map (·.name) = [List.replicate 15 120] ∧ db.netGet name = none ∧ (netAdd db name).1 = db ∧
    (netAdd db name).2 = newNet (List.replicate 15 120) := by decide +kernel

end Verif.Layer2
