import Verif.DlepDest.RouterLemmas

/-
C201: the router mirrors the destinations of the radio.
-/
namespace Verif.DlepDest

/-- C201, the part that holds: a router that reads the messages of a session of an orderly radio (see `Orderly`: no late acknowledgements, no lost sessions, no shared destinations, nothing happens before the
session is initialized), each of which puts a metric into the neighbor, keeps the session, and its layer2 network contains exactly the destinations the radio reports and those that others put there.
Missing: messages without metrics, shared destinations, early messages; see the counterexamples here and those of C198 and C200. -/
theorem C201_mirror_partial (r : Radio) (hr : Orderly r) (s : Sess) (hs : s ∈ r.sessions) (hready : s.ready = true) (hn : s.cfg.neighbors = true) (hp : s.cfg.proxied = true)
    (q : Router) (hq : q.alive = true) (hq' : q.ready = false) (hdb : ∀ k e, q.db k = some e → e.own = false ∧ e.other = true) :
    (q.readAll (s.out.map fun m => (m, true))).alive = true ∧
      ∀ k, ((q.readAll (s.out.map fun m => (m, true))).db k).isSome = true ↔ (Reported s.cfg r.db k ∨ (q.db k).isSome = true) := by
  have hg := (orderly_good hr).good s hs ⟨hn, hp⟩
  have ht := C198_told_partial r hr.reach s hs hready hn (Or.inl hp)
  obtain ⟨rest, he⟩ := hg.old hready
  have hread : q.read .initAck true = { q with ready := true } := by simp [Router.read, hq, hq']
  rw [he] at ht ⊢
  have hf : Fine ([.initAck] ++ rest) := by
    have := hg.fine
    rw [he] at this
    exact this
  simp only [List.map_cons, Router.readAll, hread]
  have h := readAll_spec rest { q with ready := true } [.initAck] hq rfl hf q.db (fun k => ⟨fun h => (nomatch h), fun _ => ⟨rfl, fun e he => (hdb k e he).2⟩⟩)
  refine ⟨h.1, fun k => ?_⟩
  rw [h.2 k, ← ht k]
  rfl

/-- the radio with a neighbor, its destination, and another neighbor that came and went -/
example : ∃ r s, Orderly r ∧ s ∈ r.sessions ∧ s.ready = true ∧ s.cfg = both ∧ r.db = [(key 1, none), (key 1, some 2)] ∧
    s.out = [.initAck, .up (key 1), .up (key 2), .up (key 3), .down (key 3)] := by
  have lid : ∀ (db : Db), (∀ e ∈ db, e.1.lid = []) → ∀ c, LidOk c db := fun db h c e he => Or.inl (h e he)
  have h1 := Orderly.step (.accept both) .start rfl trivial List.nodup_nil (fun s _ e he => (nomatch he)) (fun h => h.elim)
  have h2 := Orderly.step (.init 0) h1 rfl trivial List.nodup_nil (fun s _ e he => (nomatch he)) (fun h => h.elim)
  have h3 := Orderly.step (.neighAdd (key 1)) h2 rfl trivial (by unfold Unshared; decide +kernel) (fun s _ => lid _ (by decide +kernel) _) (fun _ s hs => by
    have hs' : s ∈ [_] := hs
    rw [List.mem_singleton.1 hs']; rfl)
  have h4 := Orderly.step (.dstAdd (key 1) 2) h3 rfl trivial (by unfold Unshared; decide +kernel) (fun s _ => lid _ (by decide +kernel) _) (fun _ s hs => by
    have hs' : s ∈ [_] := hs
    rw [List.mem_singleton.1 hs']; rfl)
  have h5 := Orderly.step (.neighAdd (key 3)) h4 rfl trivial (by unfold Unshared; decide +kernel) (fun s _ => lid _ (by decide +kernel) _) (fun _ s hs => by
    have hs' : s ∈ [_] := hs
    rw [List.mem_singleton.1 hs']; rfl)
  have h6 := Orderly.step (.neighRemove (key 3)) h5 rfl trivial (by unfold Unshared; decide +kernel) (fun s _ => lid _ (by decide +kernel) _) (fun _ s hs => by
    have hs' : s ∈ [_] := hs
    rw [List.mem_singleton.1 hs']; rfl)
  exact ⟨_, _, h6, List.mem_singleton.2 rfl, rfl, rfl, by decide +kernel, by decide +kernel⟩

/-- what the router makes of it -/
example : let q := Router.readAll {} ([.initAck, .up (key 1), .up (key 2), .up (key 3), .down (key 3)].map fun m => (m, true))
    q.alive = true ∧ [1, 2, 3].map (fun n => (q.db (key n)).isSome) = [true, true, false] := by decide +kernel

/-- C201: while the session runs, every DESTINATION_UP and DESTINATION_DOWN is acknowledged, nothing else is -/
theorem C201_acks (q : Router) (m : Msg) (b : Bool) (h : q.ready = true) (ha : q.alive = true) (h' : (q.read m b).alive = true) :
    (q.read m b).acks = q.acks ++ (match m with | .up k => [.up k] | .down k => [.down k] | _ => []) := by
  have e : q.read m b = q.handle m b := by simp [Router.read, h, ha]
  rw [e] at h' ⊢
  cases m with
  | initAck => simp [Router.handle]
  | sessionUpdate => simp [Router.handle]
  | up k => rfl
  | down k =>
    cases hd : q.db k with
    | none => simp [Router.handle, hd, Router.stop] at h'
    | some e => simp [Router.handle, hd]
  | update k =>
    cases hd : q.db k with
    | none => simp [Router.handle, hd]
    | some e => simp [Router.handle, hd, Router.put]

/-- C201: the first message has to be the acknowledgement of the initialization, every other one ends the session -/
theorem C201_first (q : Router) (m : Msg) (b : Bool) (h : q.ready = false) (ha : q.alive = true) :
    ((q.read m b).alive = true ↔ m = .initAck) ∧ (q.read m b).acks = q.acks ∧ ((q.read .initAck b).ready = true ∧ (q.read .initAck b).db = q.db) := by
  by_cases hm : m = .initAck <;> simp [Router.read, h, ha, hm, Router.stop]

/-- C201: a message concerns no other destination -/
theorem C201_frame (q : Router) (m : Msg) (b : Bool) (k : Key) (h : q.ready = true) (hm : m ≠ .up k ∧ m ≠ .down k ∧ m ≠ .update k) (h' : (q.read m b).alive = true) : (q.read m b).db k = q.db k := by
  unfold Router.read at h' ⊢
  split
  · rfl
  · rename_i ha
    rw [if_neg ha, if_pos h] at h'
    cases m with
    | initAck => rfl
    | sessionUpdate => rfl
    | up j =>
      have : k ≠ j := fun e => hm.1 (by rw [e])
      simp [Router.handle, Router.put, this]
    | down j =>
      have : k ≠ j := fun e => hm.2.1 (by rw [e])
      cases hd : q.db j with
      | none => simp [Router.handle, hd, Router.stop] at h'
      | some e => simp [Router.handle, hd, Router.put, this]
    | update j =>
      have : k ≠ j := fun e => hm.2.2 (by rw [e])
      cases hd : q.db j with
      | none => simp [Router.handle, hd]
      | some e => simp [Router.handle, hd, Router.put, this]

/-- C201: at the end of the session its data is gone and the data of others stays -/
theorem C201_stop (q : Router) (k : Key) :
    (∀ e, q.stop.db k = some e → e.own = false) ∧ ((∃ e, q.stop.db k = some e ∧ e.other = true) ↔ ∃ e, q.db k = some e ∧ e.other = true) := by
  simp only [Router.stop]
  cases hd : q.db k with
  | none => simp
  | some e =>
    obtain ⟨own, other⟩ := e
    cases own <;> cases other <;> simp [strip]

example : (Router.stop { db := fun k => if k = key 1 then some ⟨true, false⟩ else if k = key 2 then some ⟨true, true⟩ else none }).db (key 1) = none := by decide +kernel

/-- C201 fails for messages without metrics: the destination that was taken back, and the destination of a session that ended, stay in the layer2 network although nobody knows anything of them -/
theorem C201_nometrics_counterexample (q : Router) (k : Key) (hk : q.db k = none) (hr : q.ready = true) (ha : q.alive = true) :
    ((q.readAll [(.up k, false), (.down k, false)]).db k = some ⟨false, false⟩ ∧ (q.readAll [(.up k, false), (.down k, false)]).acks = q.acks ++ [.up k, .down k]) ∧
      (q.readAll [(.up k, false)]).stop.db k = some ⟨false, false⟩ := by
  simp [Router.readAll, Router.read, Router.handle, Router.put, Router.stop, strip, hk, hr, ha]

/-- C201 fails for a second DESTINATION_DOWN: it ends the session -/
theorem C201_second_counterexample (q : Router) (k : Key) (hk : q.db k = none) (hr : q.ready = true) (ha : q.alive = true) :
    (q.readAll [(.up k, true), (.down k, true), (.down k, true)]).alive = false := by
  simp [Router.readAll, Router.read, Router.handle, Router.put, Router.stop, strip, hk, hr, ha]

/-- a radio sends it: a destination behind two neighbors is taken back twice, and the router ends the session -/
theorem C201_shared_counterexample : ∃ r s, run {} [.accept both, .init 0, .neighAdd (key 1), .neighAdd (key 2), .dstAdd (key 1) 9, .dstAdd (key 2) 9, .dstRemove (key 1) 9, .dstRemove (key 2) 9] = some r ∧
    r.sessions = [s] ∧ (Router.readAll {} (s.out.map fun m => (m, true))).alive = false :=
  ⟨_, _, rfl, rfl, by decide +kernel⟩

end Verif.DlepDest
