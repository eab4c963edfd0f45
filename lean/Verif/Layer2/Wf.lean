import Verif.Layer2.Lemmas
/-
All operations of the layer-2 database keep it consistent.
-/
namespace Verif.Layer2
open Verif.Netaddr

/-! ### the index of neighbor addresses -/

theorem dropRemote_perm (k : Key) : ∀ (ips : List (Netaddr × Oid)) (l r : List (Netaddr × Key)),
    l.Perm (ips.map (fun e => (e.1, k)) ++ r) → (dropRemote k ips l).Perm r
  | [], _, _, h => h
  | e :: ips, l, r, h => by
    unfold dropRemote
    rw [List.foldl_cons]
    apply dropRemote_perm k ips
    have := h.erase (e.1, k)
    rw [List.map_cons, List.cons_append, List.erase_cons_head] at this
    exact this

theorem neighIps_append (a b : List Neigh) : neighIps (a ++ b) = neighIps a ++ neighIps b := by
  unfold neighIps; rw [List.flatMap_append]

theorem neighIps_cons (g : Neigh) (b : List Neigh) :
    neighIps (g :: b) = g.ips.map (fun e => (e.1, g.key)) ++ neighIps b := by
  unfold neighIps; rw [List.flatMap_cons]

/-- the addresses of one neighbor can be moved to the front -/
theorem neighIps_mid (a b : List Neigh) (g : Neigh) :
    (neighIps (a ++ g :: b)).Perm (g.ips.map (fun e => (e.1, g.key)) ++ neighIps (a ++ b)) := by
  rw [neighIps_append, neighIps_cons, neighIps_append, ← List.append_assoc, ← List.append_assoc]
  exact List.Perm.append_right _ List.perm_append_comm

theorem nodup_mid {a b : List Neigh} {g g' : Neigh} (h : ((a ++ g :: b).map (·.key)).Nodup) (e : g'.key = g.key) :
    ((a ++ g' :: b).map (·.key)).Nodup := by
  rw [List.map_append, List.map_cons] at *
  rw [e]; exact h

theorem nodup_drop {a b : List Neigh} {g : Neigh} (h : ((a ++ g :: b).map (·.key)).Nodup) :
    ((a ++ b).map (·.key)).Nodup := by
  refine List.Sublist.nodup ?_ h
  exact List.Sublist.map _ (List.Sublist.append_left (List.sublist_cons_self _ _) _)

theorem map_fst_filter {l : List (Netaddr × Oid)} (p : Netaddr × Oid → Bool) (h : (l.map (·.1)).Nodup) :
    ((l.filter p).map (·.1)).Nodup := (List.Sublist.map _ List.filter_sublist).nodup h

/-- replacing one neighbor -/
theorem WF_replace {n : Net} (hw : n.WF) {a b : List Neigh} {g g' : Neigh} (e : n.neighs = a ++ g :: b)
    (hk : g'.key = g.key) (hi : (g'.ips.map (·.1)).Nodup) (hd : (g'.dests.map (·.1)).Nodup)
    (remote : List (Netaddr × Key))
    (hr : remote.Perm (g'.ips.map (fun e => (e.1, g.key)) ++ neighIps (a ++ b))) :
    Net.WF { n with neighs := a ++ g' :: b, remote := remote } := by
  have hkeys := hw.keys
  have hips := hw.ips
  have hdests := hw.dests
  rw [e] at hkeys hips hdests
  refine ⟨nodup_mid hkeys hk, ?_, ?_, hw.peers, ?_⟩
  · intro x hx
    have hx : x ∈ a ++ g' :: b := hx
    rcases List.mem_append.1 hx with hx | hx
    · exact hips x (List.mem_append_left _ hx)
    · rcases List.mem_cons.1 hx with hx | hx
      · subst hx; exact hi
      · exact hips x (List.mem_append_right _ (List.mem_cons_of_mem _ hx))
  · intro x hx
    have hx : x ∈ a ++ g' :: b := hx
    rcases List.mem_append.1 hx with hx | hx
    · exact hdests x (List.mem_append_left _ hx)
    · rcases List.mem_cons.1 hx with hx | hx
      · subst hx; exact hd
      · exact hdests x (List.mem_append_right _ (List.mem_cons_of_mem _ hx))
  · have := neighIps_mid a b g'
    rw [hk] at this
    exact hr.trans this.symm

/-- removing one neighbor -/
theorem WF_removed {n : Net} (hw : n.WF) {a b : List Neigh} {g : Neigh} (e : n.neighs = a ++ g :: b)
    (remote : List (Netaddr × Key)) (hr : remote.Perm (neighIps (a ++ b))) :
    Net.WF { n with neighs := a ++ b, remote := remote } := by
  have hkeys := hw.keys
  have hips := hw.ips
  have hdests := hw.dests
  rw [e] at hkeys hips hdests
  refine ⟨nodup_drop hkeys, ?_, ?_, hw.peers, hr⟩
  · intro x hx
    have hx : x ∈ a ++ b := hx
    rcases List.mem_append.1 hx with hx | hx
    · exact hips x (List.mem_append_left _ hx)
    · exact hips x (List.mem_append_right _ (List.mem_cons_of_mem _ hx))
  · intro x hx
    have hx : x ∈ a ++ b := hx
    rcases List.mem_append.1 hx with hx | hx
    · exact hdests x (List.mem_append_left _ hx)
    · exact hdests x (List.mem_append_right _ (List.mem_cons_of_mem _ hx))

theorem remote_mid {n : Net} (hw : n.WF) {a b : List Neigh} {g : Neigh} (e : n.neighs = a ++ g :: b) :
    n.remote.Perm (g.ips.map (fun e => (e.1, g.key)) ++ neighIps (a ++ b)) := by
  have := hw.remote
  rw [e] at this
  exact this.trans (neighIps_mid a b g)

theorem WF_dropNeigh {n : Net} (hw : n.WF) (k : Key) : (n.dropNeigh k).WF := by
  cases h : n.neighGet k with
  | none =>
    unfold Net.neighGet at h
    unfold Net.dropNeigh
    rw [h]; exact hw
  | some g =>
    obtain ⟨a, b, e, rfl, ha, hb⟩ := neighGet_split hw.keys h
    rw [dropNeigh_at e ha hb]
    exact WF_removed hw e _ (dropRemote_perm _ _ _ _ (remote_mid hw e))

theorem WF_neighCommit {n : Net} (hw : n.WF) (k : Key) : (n.neighCommit k).WF := by
  unfold Net.neighCommit
  split
  · exact hw
  · split
    · exact WF_dropNeigh hw k
    · exact hw

theorem WF_neighRemove {n : Net} (hw : n.WF) (k : Key) (o : Oid) : (n.neighRemove k o).1.WF := by
  cases h : n.neighGet k with
  | none => rw [neighRemove_none o h]; exact hw
  | some g =>
    obtain ⟨a, b, e, rfl, ha, hb⟩ := neighGet_split hw.keys h
    rw [neighRemove_at o e ha hb]
    have hg : g ∈ n.neighs := by rw [e]; simp
    have h1 : (dropRemote g.key (g.ips.filter (fun e => e.2 == o)) n.remote).Perm
        ((g.strip o).ips.map (fun e => (e.1, g.key)) ++ neighIps (a ++ b)) := by
      apply dropRemote_perm
      refine (remote_mid hw e).trans ?_
      rw [← List.append_assoc]
      refine List.Perm.append_right _ ?_
      rw [← List.map_append]
      refine List.Perm.map _ ?_
      have hp := List.filter_append_perm (fun e : Netaddr × Oid => e.2 == o) g.ips
      refine hp.symm.trans ?_
      exact List.Perm.refl _
    unfold keepStrip remoteAfter
    split
    · dsimp only [Option.toList_none, List.nil_append]
      exact WF_removed hw e _ (dropRemote_perm _ _ _ _ h1)
    · dsimp only [Option.toList_some, List.cons_append, List.nil_append]
      exact WF_replace (g' := g.strip o) hw e rfl (map_fst_filter _ (hw.ips g hg)) (map_fst_filter _ (hw.dests g hg)) _ h1

theorem WF_removeLoop (o : Oid) : ∀ (ks : List Key) (s : Net × Bool), s.1.WF → (Net.removeLoop o ks s).1.WF
  | [], _, h => h
  | k :: ks, _, h => WF_removeLoop o ks _ (WF_neighRemove h k o)

theorem WF_own {n n' : Net} (hw : n.WF) (h1 : n'.peers = n.peers) (h2 : n'.neighs = n.neighs) (h3 : n'.remote = n.remote) :
    n'.WF := by
  refine ⟨?_, ?_, ?_, ?_, ?_⟩
  · rw [h2]; exact hw.keys
  · rw [h2]; exact hw.ips
  · rw [h2]; exact hw.dests
  · rw [h1]; exact hw.peers
  · rw [h2, h3]; exact hw.remote

theorem WF_strip {n : Net} (hw : n.WF) (o : Oid) : (n.strip o).1.WF :=
  WF_own (WF_removeLoop o _ _ hw) rfl rfl rfl

theorem WF_putNeigh {n : Net} (hw : n.WF) (k : Key) (f : Neigh → Neigh) (hk : ∀ g, (f g).key = g.key)
    (hi : ∀ g, (f g).ips.map (·.1) = g.ips.map (·.1))
    (hd : ∀ g, (g.dests.map (·.1)).Nodup → ((f g).dests.map (·.1)).Nodup) : (n.putNeigh k f).WF := by
  cases h : n.neighGet k with
  | none =>
    unfold Net.putNeigh
    rw [map_other Neigh.key f (find_none Neigh.key h)]
    exact hw
  | some g =>
    obtain ⟨a, b, e, rfl, ha, hb⟩ := neighGet_split hw.keys h
    rw [putNeigh_at e ha hb]
    have hg : g ∈ n.neighs := by rw [e]; simp
    refine WF_replace hw e (hk g) (by rw [hi]; exact hw.ips g hg) (hd g (hw.dests g hg)) _ ?_
    have e2 : (f g).ips.map (fun e => (e.1, g.key)) = g.ips.map (fun e => (e.1, g.key)) := by
      have := congrArg (List.map (fun x => (x, g.key))) (hi g)
      simpa [List.map_map, Function.comp_def] using this
    rw [e2]
    exact remote_mid hw e

theorem WF_mapNeighs {n n' : Net} (hw : n.WF) (f : Neigh → Neigh) (hk : ∀ g, (f g).key = g.key)
    (hi : ∀ g, (f g).ips.map (·.1) = g.ips.map (·.1)) (hd : ∀ g, (f g).dests.map (·.1) = g.dests.map (·.1))
    (h1 : n'.peers.map (·.1) = n.peers.map (·.1)) (h2 : n'.neighs = n.neighs.map f) (h3 : n'.remote = n.remote) : n'.WF := by
  refine ⟨?_, ?_, ?_, ?_, ?_⟩
  · rw [h2, List.map_map]
    have : (Neigh.key ∘ f) = Neigh.key := funext hk
    rw [this]; exact hw.keys
  · rw [h2]; intro g hg
    obtain ⟨x, hx, rfl⟩ := List.mem_map.1 hg
    rw [hi]; exact hw.ips x hx
  · rw [h2]; intro g hg
    obtain ⟨x, hx, rfl⟩ := List.mem_map.1 hg
    rw [hd]; exact hw.dests x hx
  · rw [h1]; exact hw.peers
  · have e : neighIps (n.neighs.map f) = neighIps n.neighs := by
      unfold neighIps
      rw [List.flatMap_map]
      congr 1
      funext g
      have := congrArg (List.map (fun x => (x, g.key))) (hi g)
      rw [hk]
      simpa [List.map_map, Function.comp_def] using this
    rw [h3, h2, e]; exact hw.remote

theorem map_fst_replace (ip : Netaddr) (o : Oid) (l : List (Netaddr × Oid)) :
    (l.map (fun e => if e.1 = ip then (ip, o) else e)).map (·.1) = l.map (·.1) := by
  rw [List.map_map]
  apply List.map_congr_left
  intro e _
  show (if e.1 = ip then (ip, o) else e).1 = e.1
  split
  · next h => exact h.symm
  · rfl

theorem map_fst_relabel (new old : Oid) (l : List (Netaddr × Oid)) :
    (l.map (relabelAddr new old)).map (·.1) = l.map (·.1) := by
  rw [List.map_map]
  apply List.map_congr_left
  intro e _
  show (relabelAddr new old e).1 = e.1
  unfold relabelAddr
  split <;> rfl

theorem nodup_snoc {l : List (Netaddr × Oid)} {ip : Netaddr} {o : Oid} (h : (l.map (·.1)).Nodup)
    (hn : ¬ l.any (fun e => e.1 == ip) = true) : ((l ++ [(ip, o)]).map (·.1)).Nodup := by
  rw [List.map_append]
  rw [List.nodup_append]
  refine ⟨h, by simp, ?_⟩
  intro x hx y hy e
  simp at hy
  subst hy; subst e
  obtain ⟨e, he, hx⟩ := List.mem_map.1 hx
  apply hn
  rw [List.any_eq_true]
  exact ⟨e, he, by simpa using hx⟩

theorem WF_neighAdd {n : Net} (hw : n.WF) (k : Key) : (n.neighAdd k).WF := by
  unfold Net.neighAdd
  split
  · exact hw
  · split
    · exact hw
    · next h =>
      have hk := find_none Neigh.key h
      refine ⟨?_, ?_, ?_, hw.peers, ?_⟩
      · show ((n.neighs ++ [(_ : Neigh)]).map (·.key)).Nodup
        rw [List.map_append, List.nodup_append]
        refine ⟨hw.keys, by simp, ?_⟩
        intro x hx y hy e
        obtain ⟨g, hg, hx⟩ := List.mem_map.1 hx
        simp at hy
        exact hk g hg (by rw [hx, e, hy])
      · intro g hg
        rcases List.mem_append.1 hg with hg | hg
        · exact hw.ips g hg
        · simp at hg; subst hg; simp
      · intro g hg
        rcases List.mem_append.1 hg with hg | hg
        · exact hw.dests g hg
        · simp at hg; subst hg; simp
      · show n.remote.Perm (neighIps (n.neighs ++ [_]))
        rw [neighIps_append, neighIps_cons]
        simpa [neighIps] using hw.remote

theorem WF_ipAdd {n : Net} (hw : n.WF) (k : Key) (o : Oid) (ip : Netaddr) : (n.ipAdd k o ip).WF := by
  unfold Net.ipAdd
  split
  · exact hw
  · next g h =>
    obtain ⟨a, b, e, rfl, ha, hb⟩ := neighGet_split hw.keys h
    have hg : g ∈ n.neighs := by rw [e]; simp
    split
    · exact WF_putNeigh hw _ _ (fun _ => rfl) (fun g => map_fst_replace ip o g.ips) (fun _ h => h)
    · next hn =>
      rw [putNeigh_at e ha hb]
      refine WF_replace (g' := { g with ips := g.ips ++ [(ip, o)] }) hw e rfl (nodup_snoc (hw.ips g hg) hn) (hw.dests g hg) _ ?_
      dsimp only
      rw [List.map_append, List.append_assoc]
      refine ((remote_mid hw e).append_right _).trans ?_
      rw [List.append_assoc]
      exact List.Perm.append_left _ List.perm_append_comm

theorem split_ip {l : List (Netaddr × Oid)} {ip : Netaddr} {o : Oid} (nd : (l.map (·.1)).Nodup) (h : (ip, o) ∈ l) :
    ∃ a b, l = a ++ (ip, o) :: b ∧ l.filter (fun e => e.1 != ip) = a ++ b := by
  obtain ⟨a, b, e⟩ := List.append_of_mem h
  refine ⟨a, b, e, ?_⟩
  rw [e] at nd ⊢
  rw [List.map_append, List.map_cons, List.nodup_append] at nd
  obtain ⟨_, n2, n3⟩ := nd
  rw [List.nodup_cons] at n2
  have ha : ∀ x ∈ a, x.1 ≠ ip := fun x hx hxe =>
    n3 x.1 (List.mem_map_of_mem hx) ip (by simp) hxe
  have hb : ∀ x ∈ b, x.1 ≠ ip := fun x hx hxe => n2.1 (List.mem_map.2 ⟨x, hx, hxe⟩)
  exact filter_at (fun e : Netaddr × Oid => e.1) rfl ha hb

theorem WF_ipRemove {n : Net} (hw : n.WF) (k : Key) (o : Oid) (ip : Netaddr) : (n.ipRemove k o ip).WF := by
  unfold Net.ipRemove
  split
  · exact hw
  · next g h =>
    obtain ⟨a, b, e, rfl, ha, hb⟩ := neighGet_split hw.keys h
    have hg : g ∈ n.neighs := by rw [e]; simp
    split
    · next hm =>
      rw [putNeigh_at e ha hb]
      refine WF_replace (g' := { g with ips := g.ips.filter (fun e => e.1 != ip) }) hw e rfl (map_fst_filter _ (hw.ips g hg)) (hw.dests g hg) _ ?_
      dsimp only
      obtain ⟨x, y, e1, e2⟩ := split_ip (hw.ips g hg) hm
      rw [e2]
      have := (remote_mid hw e).erase (ip, g.key)
      rw [e1] at this
      refine this.trans ?_
      have h2 : (((x ++ (ip, o) :: y).map (fun e => (e.1, g.key))) ++ neighIps (a ++ b)).Perm
          ((ip, g.key) :: ((x ++ y).map (fun e => (e.1, g.key)) ++ neighIps (a ++ b))) := by
        rw [List.map_append, List.map_cons, List.map_append, List.append_assoc, List.append_assoc, List.cons_append]
        exact List.perm_middle
      have h3 := h2.erase (ip, g.key)
      rw [List.erase_cons_head] at h3
      exact h3
    · exact hw

/-! ### the database -/

theorem peerIps_append (a b : List Net) : peerIps (a ++ b) = peerIps a ++ peerIps b := by
  unfold peerIps; rw [List.flatMap_append]

theorem peerIps_cons (n : Net) (b : List Net) :
    peerIps (n :: b) = n.peers.map (fun e => (e.1, n.name)) ++ peerIps b := by
  unfold peerIps; rw [List.flatMap_cons]

theorem peerIps_mid (a b : List Net) (n : Net) :
    (peerIps (a ++ n :: b)).Perm (n.peers.map (fun e => (e.1, n.name)) ++ peerIps (a ++ b)) := by
  rw [peerIps_append, peerIps_cons, peerIps_append, ← List.append_assoc, ← List.append_assoc]
  exact List.Perm.append_right _ List.perm_append_comm

theorem net_split {db : Db} (hw : db.WF) {name : List UInt8} {n : Net}
    (h : db.nets.find? (fun n => n.name == name) = some n) :
    ∃ a b, db.nets = a ++ n :: b ∧ n.name = name ∧ (∀ x ∈ a, x.name ≠ n.name) ∧ (∀ x ∈ b, x.name ≠ n.name) := by
  obtain ⟨a, b, e, hk, ha, hb⟩ := find_split Net.name hw.names h
  exact ⟨a, b, e, hk, by rw [hk]; exact ha, by rw [hk]; exact hb⟩

theorem updNet_at {db : Db} {a b : List Net} {n : Net} (e : db.nets = a ++ n :: b) (ha : ∀ x ∈ a, x.name ≠ n.name)
    (hb : ∀ x ∈ b, x.name ≠ n.name) (f : Net → Option Net) :
    db.updNet n.name f = { db with nets := a ++ ((f n).toList ++ b) } := by
  unfold Db.updNet
  rw [e, filterMap_at Net.name f rfl ha hb]

theorem updNet_none {db : Db} {name : List UInt8} (h : db.nets.find? (fun n => n.name == name) = none)
    (f : Net → Option Net) : db.updNet name f = db := by
  unfold Db.updNet
  rw [filterMap_other Net.name f (find_none Net.name h)]

theorem peer_mid {db : Db} (hw : db.WF) {a b : List Net} {n : Net} (e : db.nets = a ++ n :: b) :
    db.peerIndex.Perm (n.peers.map (fun e => (e.1, n.name)) ++ peerIps (a ++ b)) := by
  have := hw.peerIndex
  rw [e] at this
  exact this.trans (peerIps_mid a b n)

theorem DbWF_replace {db : Db} (hw : db.WF) {a b : List Net} {n n' : Net} (e : db.nets = a ++ n :: b)
    (hn : n'.name = n.name) (hw' : n'.WF) (ix : List (Netaddr × List UInt8))
    (hi : ix.Perm (n'.peers.map (fun e => (e.1, n.name)) ++ peerIps (a ++ b))) :
    Db.WF { db with nets := a ++ n' :: b, peerIndex := ix } := by
  have h1 := hw.names
  have h2 := hw.nets
  rw [e] at h1 h2
  refine ⟨?_, ?_, ?_⟩
  · show ((a ++ n' :: b).map (·.name)).Nodup
    rw [List.map_append, List.map_cons] at *
    rw [hn]; exact h1
  · intro x hx
    have hx : x ∈ a ++ n' :: b := hx
    rcases List.mem_append.1 hx with hx | hx
    · exact h2 x (List.mem_append_left _ hx)
    · rcases List.mem_cons.1 hx with hx | hx
      · subst hx; exact hw'
      · exact h2 x (List.mem_append_right _ (List.mem_cons_of_mem _ hx))
  · have := peerIps_mid a b n'
    rw [hn] at this
    exact hi.trans this.symm

theorem DbWF_mapNet {db : Db} (hw : db.WF) (name : List UInt8) (f : Net → Net) (hn : ∀ n, (f n).name = n.name)
    (hp : ∀ n, (f n).peers.map (·.1) = n.peers.map (·.1)) (hf : ∀ n, n.WF → (f n).WF) : (db.mapNet name f).WF := by
  unfold Db.mapNet
  cases h : db.nets.find? (fun n => n.name == name) with
  | none => rw [updNet_none h]; exact hw
  | some n =>
    obtain ⟨a, b, e, rfl, ha, hb⟩ := net_split hw h
    rw [updNet_at e ha hb]
    have hmem : n ∈ db.nets := by rw [e]; simp
    refine DbWF_replace hw e (hn n) (hf n (hw.nets n hmem)) db.peerIndex ?_
    have e2 : (f n).peers.map (fun e => (e.1, n.name)) = n.peers.map (fun e => (e.1, n.name)) := by
      have := congrArg (List.map (fun x => (x, n.name))) (hp n)
      simpa [List.map_map, Function.comp_def] using this
    rw [e2]
    exact peer_mid hw e

theorem dropPeers_perm (name : List UInt8) : ∀ (ips : List (Netaddr × Oid)) (l r : List (Netaddr × List UInt8)),
    l.Perm (ips.map (fun e => (e.1, name)) ++ r) → (ips.foldl (fun ix e => ix.erase (e.1, name)) l).Perm r
  | [], _, _, h => h
  | e :: ips, l, r, h => by
    rw [List.foldl_cons]
    apply dropPeers_perm name ips
    have := h.erase (e.1, name)
    rw [List.map_cons, List.cons_append, List.erase_cons_head] at this
    exact this

theorem dropNet_at {db : Db} {a b : List Net} {n : Net} (e : db.nets = a ++ n :: b) (ha : ∀ x ∈ a, x.name ≠ n.name)
    (hb : ∀ x ∈ b, x.name ≠ n.name) :
    db.dropNet n.name = { db with nets := a ++ b, peerIndex := n.peers.foldl (fun ix e => ix.erase (e.1, n.name)) db.peerIndex } := by
  unfold Db.dropNet
  rw [e, find_at Net.name rfl ha]
  dsimp only
  rw [filter_at Net.name rfl ha hb]

theorem DbWF_dropNet {db : Db} (hw : db.WF) (name : List UInt8) : (db.dropNet name).WF := by
  cases h : db.nets.find? (fun n => n.name == name) with
  | none => unfold Db.dropNet; rw [h]; exact hw
  | some n =>
    obtain ⟨a, b, e, rfl, ha, hb⟩ := net_split hw h
    rw [dropNet_at e ha hb]
    have h1 := hw.names
    have h2 := hw.nets
    rw [e] at h1 h2
    refine ⟨?_, ?_, dropPeers_perm _ _ _ _ (peer_mid hw e)⟩
    · refine List.Sublist.nodup ?_ h1
      exact List.Sublist.map _ (List.Sublist.append_left (List.sublist_cons_self _ _) _)
    · intro x hx
      have hx : x ∈ a ++ b := hx
      rcases List.mem_append.1 hx with hx | hx
      · exact h2 x (List.mem_append_left _ hx)
      · exact h2 x (List.mem_append_right _ (List.mem_cons_of_mem _ hx))

theorem DbWF_netCommit {db : Db} (hw : db.WF) (name : List UInt8) : (db.netCommit name).WF := by
  unfold Db.netCommit
  split
  · exact hw
  · split
    · exact DbWF_dropNet hw name
    · exact hw

theorem strip_own {n : Net} (hw : n.WF) (o : Oid) : (n.strip o).1.name = n.name ∧ (n.strip o).1.peers = n.peers := by
  have := (removeLoop_spec o (n.neighs.map (·.key)) n false hw.keys).2
  exact ⟨this.1, this.2.2.2⟩

theorem DbWF_netRemove {db : Db} (hw : db.WF) (name : List UInt8) (o : Oid) : (db.netRemove name o).WF := by
  unfold Db.netRemove
  split
  · exact hw
  · next n h =>
    obtain ⟨a, b, e, rfl, ha, hb⟩ := net_split hw h
    have hmem : n ∈ db.nets := by rw [e]; simp
    have hn := hw.nets n hmem
    have key : (db.updNet n.name (fun n => some (n.strip o).1)).WF := by
      rw [updNet_at e ha hb]
      refine DbWF_replace hw e (strip_own hn o).1 (WF_strip hn o) db.peerIndex ?_
      rw [(strip_own hn o).2]
      exact peer_mid hw e
    dsimp only
    split
    · exact DbWF_netCommit key _
    · exact key

theorem DbWF_foldRemove (o : Oid) : ∀ (names : List (List UInt8)) (db : Db), db.WF →
    (names.foldl (fun db name => db.netRemove name o) db).WF
  | [], _, h => h
  | name :: names, _, h => DbWF_foldRemove o names _ (DbWF_netRemove h name o)

theorem DbWF_originRemove {db : Db} (hw : db.WF) (o : Oid) : (db.originRemove o).WF := by
  unfold Db.originRemove
  split
  · exact hw
  · have := DbWF_foldRemove o (db.nets.map (·.name)) db hw
    exact ⟨this.names, this.nets, this.peerIndex⟩

theorem newNet_WF (name : List UInt8) : (newNet name).WF :=
  ⟨by simp [newNet], by simp [newNet], by simp [newNet], by simp [newNet], by simp [newNet, neighIps]⟩

theorem sameName_refl : ∀ (a : List UInt8), sameName a a = true
  | [] => rfl
  | x :: a => by
    have := sameName_refl a
    unfold sameName at this ⊢
    unfold strcasecmp
    rw [if_neg (UInt8.lt_irrefl _), if_neg (UInt8.lt_irrefl _)]
    exact this

theorem DbWF_netAdd {db : Db} (hw : db.WF) (ifname : List UInt8) : (netAdd db ifname).1.WF := by
  unfold netAdd
  split
  · exact hw
  · dsimp only
    split
    · exact hw
    · next hn =>
      refine ⟨?_, ?_, ?_⟩
      · show ((db.nets ++ [(_ : Net)]).map (·.name)).Nodup
        rw [List.map_append, List.nodup_append]
        refine ⟨hw.names, by simp, ?_⟩
        intro x hx y hy e
        obtain ⟨n, hn', hx⟩ := List.mem_map.1 hx
        simp at hy
        apply hn
        rw [List.any_eq_true]
        refine ⟨n, hn', ?_⟩
        rw [hx, e, hy]
        exact sameName_refl _
      · intro n hn'
        rcases List.mem_append.1 hn' with h | h
        · exact hw.nets n h
        · simp at h; subst h; exact newNet_WF _
      · show db.peerIndex.Perm (peerIps (db.nets ++ [_]))
        rw [peerIps_append, peerIps_cons]
        simpa [peerIps, newNet] using hw.peerIndex

theorem DbWF_peerAdd {db : Db} (hw : db.WF) (name : List UInt8) (o : Oid) (ip : Netaddr) : (db.peerAdd name o ip).WF := by
  unfold Db.peerAdd
  split
  · exact hw
  · next n h =>
    obtain ⟨a, b, e, rfl, ha, hb⟩ := net_split hw h
    have hmem : n ∈ db.nets := by rw [e]; simp
    have hn := hw.nets n hmem
    split
    · refine DbWF_mapNet hw n.name (fun n => { n with peers := n.peers.map (fun e => if e.1 = ip then (ip, o) else e) })
        (fun _ => rfl) (fun n => map_fst_replace ip o n.peers) (fun n hn => ?_)
      exact ⟨hn.keys, hn.ips, hn.dests, by dsimp only; rw [map_fst_replace]; exact hn.peers, hn.remote⟩
    · next hnot =>
      rw [updNet_at e ha hb]
      refine DbWF_replace (n' := { n with peers := n.peers ++ [(ip, o)] }) hw e rfl ?_ _ ?_
      · exact ⟨hn.keys, hn.ips, hn.dests, nodup_snoc hn.peers hnot, hn.remote⟩
      · dsimp only
        rw [List.map_append, List.append_assoc]
        refine ((peer_mid hw e).append_right _).trans ?_
        rw [List.append_assoc]
        exact List.Perm.append_left _ List.perm_append_comm

theorem DbWF_peerRemove {db : Db} (hw : db.WF) (name : List UInt8) (o : Oid) (ip : Netaddr) :
    (db.peerRemove name o ip).WF := by
  unfold Db.peerRemove
  split
  · exact hw
  · next n h =>
    obtain ⟨a, b, e, rfl, ha, hb⟩ := net_split hw h
    have hmem : n ∈ db.nets := by rw [e]; simp
    have hn := hw.nets n hmem
    split
    · next hm =>
      rw [updNet_at e ha hb]
      refine DbWF_replace (n' := { n with peers := n.peers.filter (fun e => e.1 != ip) }) hw e rfl ?_ _ ?_
      · exact ⟨hn.keys, hn.ips, hn.dests, map_fst_filter _ hn.peers, hn.remote⟩
      · dsimp only
        obtain ⟨x, y, e1, e2⟩ := split_ip hn.peers hm
        rw [e2]
        have := (peer_mid hw e).erase (ip, n.name)
        rw [e1] at this
        refine this.trans ?_
        have h2 : (((x ++ (ip, o) :: y).map (fun e => (e.1, n.name))) ++ peerIps (a ++ b)).Perm
            ((ip, n.name) :: ((x ++ y).map (fun e => (e.1, n.name)) ++ peerIps (a ++ b))) := by
          rw [List.map_append, List.map_cons, List.map_append, List.append_assoc, List.append_assoc, List.cons_append]
          exact List.perm_middle
        have h3 := h2.erase (ip, n.name)
        rw [List.erase_cons_head] at h3
        exact h3
    · exact hw

theorem neighRemove_own (n : Net) (k : Key) (o : Oid) :
    (n.neighRemove k o).1.name = n.name ∧ (n.neighRemove k o).1.peers = n.peers := by
  unfold Net.neighRemove
  split
  · exact ⟨rfl, rfl⟩
  · dsimp only
    split
    · unfold Net.neighCommit
      split
      · exact ⟨rfl, rfl⟩
      · split
        · unfold Net.dropNeigh
          split <;> exact ⟨rfl, rfl⟩
        · exact ⟨rfl, rfl⟩
    · exact ⟨rfl, rfl⟩

theorem neighCommit_own (n : Net) (k : Key) : (n.neighCommit k).name = n.name ∧ (n.neighCommit k).peers = n.peers := by
  unfold Net.neighCommit
  split
  · exact ⟨rfl, rfl⟩
  · split
    · unfold Net.dropNeigh
      split <;> exact ⟨rfl, rfl⟩
    · exact ⟨rfl, rfl⟩

theorem ipAdd_own (n : Net) (k : Key) (o : Oid) (ip : Netaddr) : (n.ipAdd k o ip).name = n.name ∧ (n.ipAdd k o ip).peers = n.peers := by
  unfold Net.ipAdd
  split
  · exact ⟨rfl, rfl⟩
  · split <;> exact ⟨rfl, rfl⟩

theorem ipRemove_own (n : Net) (k : Key) (o : Oid) (ip : Netaddr) :
    (n.ipRemove k o ip).name = n.name ∧ (n.ipRemove k o ip).peers = n.peers := by
  unfold Net.ipRemove
  split
  · exact ⟨rfl, rfl⟩
  · split <;> exact ⟨rfl, rfl⟩

theorem neighAdd_own (n : Net) (k : Key) : (n.neighAdd k).name = n.name ∧ (n.neighAdd k).peers = n.peers := by
  unfold Net.neighAdd
  split
  · exact ⟨rfl, rfl⟩
  · split <;> exact ⟨rfl, rfl⟩

/-- every operation keeps the database consistent -/
theorem step_WF (prio : Oid → Nat) {db : Db} (hw : db.WF) (op : Op) : (step prio db op).WF := by
  cases op with
  | netAdd ifname => exact DbWF_netAdd hw ifname
  | neighAdd name k =>
    exact DbWF_mapNet hw _ _ (fun n => (neighAdd_own n k).1) (fun n => by rw [(neighAdd_own n k).2]) (fun _ h => WF_neighAdd h k)
  | setMetric name i o m v =>
    exact DbWF_mapNet hw _ _ (fun n => rfl) (fun n => rfl) (fun _ h => WF_own h rfl rfl rfl)
  | setDefault name i o m v =>
    exact DbWF_mapNet hw _ _ (fun n => rfl) (fun n => rfl) (fun _ h => WF_own h rfl rfl rfl)
  | setNeigh name k i o m v =>
    exact DbWF_mapNet hw _ _ (fun n => rfl) (fun n => rfl)
      (fun _ h => WF_putNeigh h k _ (fun _ => rfl) (fun _ => rfl) (fun _ h => h))
  | peerAdd name o ip => exact DbWF_peerAdd hw name o ip
  | peerRemove name o ip => exact DbWF_peerRemove hw name o ip
  | ipAdd name k o ip =>
    exact DbWF_mapNet hw _ _ (fun n => (ipAdd_own n k o ip).1) (fun n => by rw [(ipAdd_own n k o ip).2]) (fun _ h => WF_ipAdd h k o ip)
  | ipRemove name k o ip =>
    exact DbWF_mapNet hw _ _ (fun n => (ipRemove_own n k o ip).1) (fun n => by rw [(ipRemove_own n k o ip).2]) (fun _ h => WF_ipRemove h k o ip)
  | destAdd name k o d =>
    refine DbWF_mapNet hw _ _ (fun n => rfl) (fun n => rfl) (fun _ h => WF_putNeigh h k _ (fun g => ?_) (fun g => ?_) (fun g h => ?_))
    · split <;> rfl
    · split <;> rfl
    · split
      · exact h
      · next hn => exact nodup_snoc h hn
  | destRemove name k d =>
    exact DbWF_mapNet hw _ _ (fun n => rfl) (fun n => rfl)
      (fun _ h => WF_putNeigh h k _ (fun _ => rfl) (fun _ => rfl) (fun _ h => map_fst_filter _ h))
  | neighCommit name k =>
    exact DbWF_mapNet hw _ _ (fun n => (neighCommit_own n k).1) (fun n => by rw [(neighCommit_own n k).2]) (fun _ h => WF_neighCommit h k)
  | neighRemove name k o =>
    exact DbWF_mapNet hw _ _ (fun n => (neighRemove_own n k o).1) (fun n => by rw [(neighRemove_own n k o).2]) (fun _ h => WF_neighRemove h k o)
  | netCleanup name o =>
    exact DbWF_mapNet hw _ _ (fun n => rfl) (fun n => rfl)
      (fun _ h => WF_mapNeighs h (fun g => { g with data := cleanup o g.data }) (fun _ => rfl) (fun _ => rfl) (fun _ => rfl) rfl rfl rfl)
  | netCommit name => exact DbWF_netCommit hw name
  | netRemove name o => exact DbWF_netRemove hw name o
  | relabel name new old =>
    exact DbWF_mapNet hw _ _ (fun n => rfl) (fun n => map_fst_relabel new old n.peers)
      (fun n h => WF_mapNeighs h (Neigh.relabel new old) (fun _ => rfl) (fun g => map_fst_relabel new old g.ips)
        (fun g => map_fst_relabel new old g.dests) (map_fst_relabel new old n.peers) rfl rfl)
  | originAdd o => exact ⟨hw.names, hw.nets, hw.peerIndex⟩
  | originRemove o => exact DbWF_originRemove hw o

theorem runOps_WF (prio : Oid → Nat) : ∀ (ops : List Op) (db : Db), db.WF → (runOps prio db ops).WF
  | [], _, h => h
  | op :: ops, _, h => runOps_WF prio ops _ (step_WF prio h op)

theorem empty_WF : Db.empty.WF := ⟨by simp [Db.empty], by simp [Db.empty], by simp [Db.empty, peerIps]⟩

end Verif.Layer2
