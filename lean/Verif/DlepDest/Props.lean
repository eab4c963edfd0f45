import Verif.DlepDest.Lemmas
import Verif.Dlep.Session

/-
C198 a DLEP radio tells the routers its destinations, C199 acknowledgements, C200 sessions come and go.
-/
namespace Verif.DlepDest

theorem announce_cfg (db l : Db) (t : Sess) : (announce db l t).cfg = t.cfg := by
  induction l generalizing t with
  | nil => rfl
  | cons e l ihl =>
    unfold announce
    rw [ihl]
    split
    · exact addedTo_cfg _ _ _ _
    · rfl

theorem init_cfg (db : Db) (s : Sess) : (sessionInit db s).cfg = s.cfg := by
  unfold sessionInit
  split
  · rfl
  · exact announce_cfg db db _

theorem reach_inv {r : Radio} (h : Reach r) : RInv r := by
  induction h with
  | start => exact ⟨rfl, List.nodup_nil, fun _ _ h => (nomatch h), fun _ h => (nomatch h)⟩
  | @step r r' e _ hs hc hu hl ih =>
    cases e with
    | neighAdd n => cases hs; exact neighAdd_inv ih hu hl
    | neighChange n => cases hs; exact neighChange_inv ih
    | neighRemove n => cases hs; exact neighRemove_inv ih
    | dstAdd n d => cases hs; exact dstAdd_inv ih hu hl
    | dstRemove n d => cases hs; exact dstRemove_inv ih
    | netChange =>
      cases hs
      refine notify_same ih ?_ ?_
      · intro s _ _ hi
        split
        · exact ⟨⟨fun k hk => hi.toldUp k (by rw [told_sessionUpdate] at hk; exact hk), hi.states, hi.present⟩,
            fun hr k hk => ⟨by rw [told_sessionUpdate]; exact (hi.full hr k hk).1, (hi.full hr k hk).2⟩⟩
        · exact hi
      · intro s
        split <;> rfl
    | accept c =>
      cases hs
      refine ⟨ih.listening, ih.nodup, ih.wf, ?_⟩
      intro s hs hcf
      rcases List.mem_append.1 hs with hs | hs
      · exact ih.sess s hs hcf
      · simp only [List.mem_singleton] at hs
        subst hs
        exact start_inv r _ rfl rfl rfl
    | init i =>
      cases hs
      refine on_inv ih fun s hs => ?_
      have hw := ih.wf
      have hcf : ∀ s, (sessionInit r.db s).cfg = s.cfg := init_cfg r.db
      have hlid : LidOk s.cfg r.db := modify_cfgs (p := fun c => LidOk c r.db) hl (fun s _ => hcf s) hs
      exact ⟨hcf s, fun _ hi => init_inv hw hlid hi⟩
    | upAck i k okay =>
      simp only [step] at hs
      split at hs
      · cases hs; exact ih
      · rename_i s hsi
        cases hu' : upAck r.db s k okay with
        | none => rw [hu'] at hs; cases hs
        | some s' =>
          rw [hu'] at hs
          cases hs
          refine ⟨ih.listening, ih.nodup, ih.wf, ?_⟩
          intro t ht hcf
          rcases mem_modify ht with ht | ⟨y, hy, hx⟩
          · exact ih.sess t ht hcf
          · have hx : t = s' := hx
            subst hx
            rw [(upAck_cfg hu').1] at hcf
            exact (upAck_inv (ih.sess s (List.mem_iff_getElem?.2 ⟨i, hsi⟩) hcf) hu').1
    | downAck i k okay =>
      simp only [step] at hs
      split at hs
      · cases hs; exact ih
      · rename_i s hsi
        cases hu' : downAck s k okay with
        | none => rw [hu'] at hs; cases hs
        | some s' =>
          rw [hu'] at hs
          cases hs
          refine ⟨ih.listening, ih.nodup, ih.wf, ?_⟩
          intro t ht hcf
          rcases mem_modify ht with ht | ⟨y, hy, hx⟩
          · exact ih.sess t ht hcf
          · have hx : t = s' := hx
            subst hx
            rw [(downAck_cfg hu').1] at hcf
            exact (downAck_inv (ih.sess s (List.mem_iff_getElem?.2 ⟨i, hsi⟩) hcf) hu').1
    | timeout i k => exact hc.elim
    | lost i ks => exact hc.elim

/-! ### C198 -/

/-- C198: the answer to the initialization is the acknowledgement and one DESTINATION_UP for each neighbor (with `send_neighbors`) and each proxied destination (with `send_proxied`) of the database. -/
theorem C198_init (db : Db) (s : Sess) (hs : s.ready = false) (hw : ∀ n d, (n, some d) ∈ db → (n, none) ∈ db)
    (hl : ∀ e ∈ db, e.1.lid = [] ∨ e.1.lid.length = s.cfg.lidLen) :
    (sessionInit db s).ready = true ∧ (sessionInit db s).out = s.out ++ [.initAck] ++
      (db.filter fun e => if e.2.isNone then s.cfg.neighbors else s.cfg.proxied).map fun e =>
        .up (match e.2 with | none => e.1 | some d => ⟨d, e.1.lid⟩) := by
  unfold sessionInit
  rw [if_neg (by simp [hs])]
  refine ⟨rfl, ?_⟩
  simp only
  rw [(announce_spec hw db (fun _ h => h) { s with out := s.out ++ [.initAck] } hl).2.2.1]
  congr 1
  have h1 : (fun e : Key × Option Nat => if e.2.isNone then s.cfg.neighbors else s.cfg.proxied) = selected s.cfg := by
    funext e
    obtain ⟨n, o⟩ := e
    cases o <;> rfl
  have h2 : (fun e : Key × Option Nat => Msg.up (match e.2 with | none => e.1 | some d => (⟨d, e.1.lid⟩ : Key))) = fun e => .up (ekey e) := by
    funext e
    obtain ⟨n, o⟩ := e
    cases o <;> rfl
  rw [h1, h2]

/-- C198, the part that holds: when no acknowledgement is late, no session was lost, no two entries of the layer2 database have the same key and direct neighbors are reported, the messages of an initialized
session tell exactly the entries of the database (the proxied ones only if `send_proxied` is set or there are none). Missing: the default configuration, timeouts, shared keys, lost sessions. -/
theorem C198_told_partial (r : Radio) (hr : Reach r) (s : Sess) (hs : s ∈ r.sessions) (hready : s.ready = true)
    (hn : s.cfg.neighbors = true) (hp : s.cfg.proxied = true ∨ ∀ e ∈ r.db, e.2 = none) (k : Key) :
    told s.out k = true ↔ Reported s.cfg r.db k := by
  have hi := (reach_inv hr).sess s hs hn
  constructor
  · intro h
    obtain ⟨⟨n, o⟩, he, rfl⟩ := List.mem_map.1 (hi.present k (hi.toldUp k h))
    cases o with
    | none => exact Or.inl ⟨hn, he⟩
    | some d =>
      rcases hp with hp | hp
      · exact Or.inr ⟨hp, n, d, he, rfl⟩
      · cases hp _ he
  · intro h
    exact (hi.full hready k h).1

/-- key of neighbor `n` without link id -/
def key (n : Nat) : Key := ⟨n, []⟩

/-- both kinds of entries are reported -/
def both : Cfg := ⟨true, true, 0⟩

/-- a session that follows two neighbors; a neighbor is removed with its destination -/
example : ∃ r, run {} [.accept both, .init 0, .neighAdd (key 1), .dstAdd (key 1) 2, .upAck 0 (key 1) true, .neighChange (key 1), .neighAdd (key 3), .neighRemove (key 1)] = some r ∧
    r.sessions.map (·.out) = [[.initAck, .up (key 1), .up (key 2), .update (key 1), .up (key 3), .down (key 2), .down (key 1)]] ∧ r.db = [(key 3, none)] := by
  exact ⟨_, rfl, by decide +kernel, by decide +kernel⟩

/-- the hypotheses of C198_told_partial are met by a radio with a neighbor and a proxied destination -/
example : ∃ r s, Reach r ∧ s ∈ r.sessions ∧ s.ready = true ∧ s.cfg = both ∧ r.db = [(key 1, none), (key 1, some 2)] ∧ told s.out (key 2) = true := by
  have h0 : Reach {} := .start
  have h1 := Reach.step (.accept both) h0 rfl trivial List.nodup_nil (fun s _ e he => (nomatch he))
  have h2 := Reach.step (.init 0) h1 rfl trivial List.nodup_nil (fun s _ e he => (nomatch he))
  have h3 := Reach.step (.neighAdd (key 1)) h2 rfl trivial (by unfold Unshared; decide +kernel) (fun s _ e he => Or.inl (by
    have he' : e ∈ [(key 1, none)] := he
    simp only [List.mem_singleton] at he'
    rw [he']; rfl))
  have h4 := Reach.step (.dstAdd (key 1) 2) h3 rfl trivial (by unfold Unshared; decide +kernel) (fun s _ e he => Or.inl (by
    have he' : e ∈ [(key 1, none), (key 1, some 2)] := he
    simp only [List.mem_cons, List.not_mem_nil, or_false] at he'
    rcases he' with rfl | rfl <;> rfl))
  exact ⟨_, _, h4, List.mem_singleton.2 rfl, rfl, rfl, rfl, by decide +kernel⟩

/-- C198: events of entries that are not reported do not concern a session: those of neighbors without `send_neighbors`, those of destinations without `send_proxied` -/
theorem C198_options (db : Db) (s : Sess) (dst : Bool) (h : if dst then s.cfg.proxied = false else s.cfg.neighbors = false) (n k : Key) :
    added db dst n k s = s ∧ changed db dst k s = s ∧ removed db dst k s = s := by
  have : skipped s.cfg dst = true := by cases dst <;> simp_all [skipped]
  simp [added, changed, removed, this]

/-- C198 fails with the default configuration (`proxied` true, `not_proxied` false): new proxied destinations are not announced and removed ones are not taken back, because the callbacks of destinations pass
no `l2dest` and are handled like neighbors. -/
theorem C198_default_counterexample (r : Radio) (h : ∀ s ∈ r.sessions, s.cfg.neighbors = false) (n : Key) (d : Nat) :
    (dstAdd r n d).sessions = r.sessions ∧ (dstRemove r n d).sessions = r.sessions := by
  have hn : ∀ (q : Radio) (f : Sess → Sess), q.sessions = r.sessions → (∀ s ∈ r.sessions, f s = s) → (q.notify f).sessions = r.sessions := by
    intro q f hq hf
    unfold Radio.notify
    split
    · show q.sessions.map f = _
      rw [hq]
      exact (List.map_congr_left hf).trans (List.map_id' _)
    · exact hq
  constructor
  · unfold dstAdd
    split
    · refine hn _ _ rfl fun s hs => ?_
      unfold added
      rw [if_pos]
      simp [skipped, h s hs]
    · rfl
  · unfold dstRemove
    split
    · refine hn _ _ rfl fun s hs => ?_
      unfold removed
      rw [if_pos]
      simp [skipped, h s hs]
    · rfl

/-- the default configuration: the new destination is in the database and should be reported, but nothing was told -/
theorem C198_default_witness_counterexample : ∃ r s, run {} [.accept ⟨false, true, 0⟩, .init 0, .neighAdd (key 1), .dstAdd (key 1) 2, .neighChange (key 1)] = some r ∧ r.sessions = [s] ∧
    s.out = [.initAck] ∧ Reported s.cfg r.db (key 2) := by
  refine ⟨_, _, rfl, rfl, by decide +kernel, Or.inr ⟨rfl, key 1, 2, ?_, rfl⟩⟩
  decide +kernel

/-- C198 fails with `send_proxied` off: proxied destinations are announced as if they were direct neighbors -/
theorem C198_proxied_counterexample : ∃ r s, run {} [.accept ⟨true, false, 0⟩, .init 0, .neighAdd (key 1), .dstAdd (key 1) 2] = some r ∧ r.sessions = [s] ∧
    told s.out (key 2) = true ∧ ¬ Reported s.cfg r.db (key 2) := by
  refine ⟨_, _, rfl, rfl, by decide +kernel, ?_⟩
  rintro (⟨_, h⟩ | ⟨h, _⟩)
  · revert h; decide +kernel
  · revert h; decide +kernel

/-- C198 fails after a late acknowledgement: the radio forgets the destination, and never takes it back -/
theorem C198_timeout_counterexample : ∃ r s, run {} [.accept both, .init 0, .neighAdd (key 1), .timeout 0 (key 1), .neighRemove (key 1)] = some r ∧ r.sessions = [s] ∧
    told s.out (key 1) = true ∧ r.db = [] := by
  exact ⟨_, _, rfl, rfl, by decide +kernel, by decide +kernel⟩

/-- C198 fails for a destination behind two neighbors: it is taken back when the first of them loses it -/
theorem C198_shared_counterexample : ∃ r s, run {} [.accept both, .init 0, .neighAdd (key 1), .neighAdd (key 2), .dstAdd (key 1) 9, .dstAdd (key 2) 9, .dstRemove (key 1) 9] = some r ∧ r.sessions = [s] ∧
    told s.out (key 9) = false ∧ Reported s.cfg r.db (key 9) := by
  refine ⟨_, _, rfl, rfl, by decide +kernel, Or.inr ⟨rfl, key 2, 9, ?_, rfl⟩⟩
  decide +kernel

/-- C198 fails for changes of proxied destinations: the update is looked up under the address of the destination, no such neighbor is found, and the message is dropped -/
theorem C198_update_counterexample (db : Db) (k : Key) (s : Sess) (hk : hasNeigh db k = false) : (changed db true k s).out = s.out := by
  unfold changed
  split
  · rfl
  · split
    · rfl
    · simp only
      split
      · rfl
      · simp [gen, hk]
      · simp [gen, hk]

/-! ### C199 -/

/-- C199: an acknowledgement for an announced destination: the timer is stopped, and the update that waited for it is sent -/
theorem C199_up (db : Db) (s : Sess) (k : Key) (l : Local) (hl : s.locals k = some l) (hs : l.state = .upSent) (hn : hasNeigh db l.neigh = true) :
    ∃ s', upAck db s k true = some s' ∧ s'.locals k = some ⟨.upAcked, false, l.neigh, false⟩ ∧
      (∀ j, j ≠ k → s'.locals j = s.locals j) ∧ s'.out = s.out ++ (if l.changed then [.update k] else []) := by
  unfold upAck
  simp only [if_true, hl, hs]
  cases hc : l.changed with
  | true =>
    refine ⟨_, rfl, by simp, fun j hj => ?_, ?_⟩
    · rw [set_other _ _ _ _ hj, gen_locals, set_other _ _ _ _ hj]
    · simp only [set_out]
      simp [gen, hn]
  | false =>
    refine ⟨_, rfl, ?_, fun j hj => set_other _ _ _ _ hj, by simp⟩
    simp

/-- C199: a change of an announced neighbor that is not acknowledged yet is not lost: the update follows the acknowledgement -/
theorem C199_change (db : Db) (s : Sess) (k : Key) (l : Local) (hl : s.locals k = some l) (hs : l.state = .upSent) (hn : s.cfg.neighbors = true) (hk : hasNeigh db k = true) :
    (changed db false k s).out = s.out ∧ ∃ s', upAck db (changed db false k s) k true = some s' ∧ s'.out = s.out ++ [.update k] := by
  have e : changed db false k s = s.set k (some { l with neigh := k, changed := true }) := by
    simp only [changed, skipped, hn, addLocal, hl, hs]
    rfl
  rw [e]
  refine ⟨rfl, _, by simp [upAck, Sess.set, hs]; rfl, ?_⟩
  simp [gen, hk]

example : ∃ r, run {} [.accept ⟨true, true, 0⟩, .init 0, .neighAdd (key 1), .neighChange (key 1), .upAck 0 (key 1) true] = some r ∧
    r.sessions.map (·.out) = [[.initAck, .up (key 1), .update (key 1)]] := ⟨_, rfl, by decide +kernel⟩

/-- C199: the acknowledgement of DESTINATION_DOWN removes the destination -/
theorem C199_down (s : Sess) (k : Key) (l : Local) (hl : s.locals k = some l) (hs : l.state = .downSent) :
    ∃ s', downAck s k true = some s' ∧ s'.locals k = none ∧ (∀ j, j ≠ k → s'.locals j = s.locals j) ∧ s'.out = s.out := by
  unfold downAck
  simp only [if_true, hl, hs]
  exact ⟨_, rfl, by simp, fun j hj => set_other _ _ _ _ hj, rfl⟩

/-- C199: a refusal, and an acknowledgement of another message than the last one, change nothing -/
theorem C199_other (db : Db) (s : Sess) (k : Key) :
    upAck db s k false = some s ∧ downAck s k false = some s ∧
      ∀ l, s.locals k = some l → (l.state ≠ .upSent → upAck db s k true = some s) ∧ (l.state ≠ .downSent → downAck s k true = some s) := by
  refine ⟨rfl, rfl, fun l hl => ⟨fun h => ?_, fun h => ?_⟩⟩
  · simp [upAck, hl, h]
  · simp [downAck, hl, h]

example : ∃ s', upAck [(key 1, none)] (Sess.set { cfg := both } (key 1) (some ⟨.upSent, true, key 1, true⟩)) (key 1) true = some s' ∧ s'.out = [.update (key 1)] :=
  ⟨_, rfl, by decide +kernel⟩

/-- C199 fails: an acknowledgement for a destination the session does not know ends in an access through a NULL pointer -/
theorem C199_unknown_counterexample (db : Db) (s : Sess) (k : Key) (h : s.locals k = none) : upAck db s k true = none ∧ downAck s k true = none := by
  simp [upAck, downAck, h]

/-- a router that answers every message in its order makes the radio crash: the neighbor goes, comes and goes again before the first answer arrives. The session wrote up, down, up, down; answered were up, down and up. -/
theorem C199_order_counterexample :
    (∃ r, run {} [.accept both, .init 0, .neighAdd (key 1), .upAck 0 (key 1) true, .neighRemove (key 1), .neighAdd (key 1), .neighRemove (key 1), .downAck 0 (key 1) true] = some r ∧
      r.sessions.map (·.out) = [[.initAck, .up (key 1), .down (key 1), .up (key 1), .down (key 1)]]) ∧
    run {} [.accept both, .init 0, .neighAdd (key 1), .upAck 0 (key 1) true, .neighRemove (key 1), .neighAdd (key 1), .neighRemove (key 1), .downAck 0 (key 1) true, .upAck 0 (key 1) true] = none :=
  ⟨⟨_, rfl, by decide +kernel⟩, rfl⟩

/-- a late answer makes the radio crash -/
theorem C199_late_counterexample : run {} [.accept both, .init 0, .neighAdd (key 1), .timeout 0 (key 1), .upAck 0 (key 1) true] = none := rfl

/-! ### C200 -/

/-- C200: when a session ends it leaves the list, the others stay as they are -/
theorem C200_lost (r : Radio) (i : Nat) (ks : List Key) (s : Sess) (h : r.sessions[i]? = some s) :
    (lost r i ks).sessions = r.sessions.eraseIdx i ∧ (lost r i ks).db = r.db := by
  simp [lost, h]

/-- events of the layer2 database -/
def L2 : Ev → Prop
  | .neighAdd _ | .neighChange _ | .neighRemove _ | .dstAdd _ _ | .dstRemove _ _ | .netChange => True
  | _ => False

theorem deaf {r : Radio} (h : r.listening = false) (f : Sess → Sess) : r.notify f = r := by
  simp [Radio.notify, h]

theorem deaf_dst {r : Radio} (h : r.listening = false) (n : Key) (d : Nat) : (dstRemove r n d).sessions = r.sessions ∧ (dstRemove r n d).listening = false := by
  unfold dstRemove
  split
  · rw [deaf h]; exact ⟨rfl, h⟩
  · exact ⟨rfl, h⟩

theorem deaf_step {r r' : Radio} {e : Ev} (h : r.listening = false) (he : L2 e) (hs : step r e = some r') : r'.sessions = r.sessions ∧ r'.listening = false := by
  cases e with
  | neighAdd n =>
    cases hs
    unfold neighAdd
    split
    · exact ⟨rfl, h⟩
    · have : ({ r with db := r.db ++ [(n, none)] } : Radio).listening = false := h
      rw [deaf this]
      exact ⟨rfl, h⟩
  | neighChange n =>
    cases hs
    unfold neighChange
    split
    · rw [deaf h]
      generalize dests r.db n = ds
      have : ds.foldl (fun r d => r.notify (changed r.db true (dstKey n d))) r = r := by
        induction ds with
        | nil => rfl
        | cons d ds ih => rw [List.foldl_cons, deaf h]; exact ih
      rw [this]
      exact ⟨rfl, h⟩
    · exact ⟨rfl, h⟩
  | neighRemove n =>
    cases hs
    unfold neighRemove
    split
    · have : ∀ (ds : List Nat) (q : Radio), q.listening = false → q.sessions = r.sessions →
          (ds.foldl (fun r d => dstRemove r n d) q).listening = false ∧ (ds.foldl (fun r d => dstRemove r n d) q).sessions = r.sessions := by
        intro ds
        induction ds with
        | nil => intro q h1 h2; exact ⟨h1, h2⟩
        | cons d ds ih =>
          intro q h1 h2
          rw [List.foldl_cons]
          exact ih _ (deaf_dst h1 n d).2 ((deaf_dst h1 n d).1.trans h2)
      obtain ⟨h1, h2⟩ := this (dests r.db n) r h rfl
      simp only [deaf h1]
      exact ⟨h2, h1⟩
    · exact ⟨rfl, h⟩
  | dstAdd n d =>
    cases hs
    unfold dstAdd
    split
    · have : ({ r with db := r.db ++ [(n, some d)] } : Radio).listening = false := h
      rw [deaf this]
      exact ⟨rfl, h⟩
    · exact ⟨rfl, h⟩
  | dstRemove n d => cases hs; exact deaf_dst h n d
  | netChange => cases hs; unfold netChange; rw [deaf h]; exact ⟨rfl, h⟩
  | accept c => exact he.elim
  | init i => exact he.elim
  | upAck i k o => exact he.elim
  | downAck i k o => exact he.elim
  | timeout i k => exact he.elim
  | lost i ks => exact he.elim

/-- C200 fails: after the end of any session no other session hears of changes of the layer2 database, whatever happens there; the end of a session removes the listeners of all -/
theorem C200_deaf_counterexample (r : Radio) (i : Nat) (ks : List Key) (s : Sess) (h : r.sessions[i]? = some s) (evs : List Ev) (he : ∀ e ∈ evs, L2 e) (r' : Radio)
    (hr : run (lost r i ks) evs = some r') : r'.sessions = r.sessions.eraseIdx i := by
  have h0 : (lost r i ks).listening = false := by simp [lost, h]
  have h1 : (lost r i ks).sessions = r.sessions.eraseIdx i := (C200_lost r i ks s h).1
  rw [← h1]
  generalize lost r i ks = q at h0 hr
  clear h1
  induction evs generalizing q with
  | nil => cases hr; rfl
  | cons e l ih =>
    simp only [run] at hr
    cases hs : step q e with
    | none => rw [hs] at hr; cases hr
    | some q' =>
      rw [hs] at hr
      obtain ⟨h1, h2⟩ := deaf_step h0 (he e (by simp)) hs
      rw [← h1]
      exact ih (fun x hx => he x (by simp [hx])) q' h2 hr

/-- two sessions, the first ends, then a neighbor appears: the second session does not hear of it -/
example : ∃ r, run {} [.accept both, .accept both, .init 0, .init 1, .lost 0 [], .neighAdd (key 1)] = some r ∧ r.sessions.map (·.out) = [[.initAck]] ∧ r.db = [(key 1, none)] :=
  ⟨_, rfl, by decide +kernel, by decide +kernel⟩

/-- C200 fails: the timers of the destinations of a lost session keep running, with a pointer to the session that was freed -/
theorem C200_timer_counterexample : ∃ r, run {} [.accept both, .init 0, .neighAdd (key 1), .lost 0 [key 1]] = some r ∧ r.sessions.length = 0 ∧ r.orphans = 1 :=
  ⟨_, rfl, by decide +kernel, by decide +kernel⟩

/-- C200, the part that holds for timers: when all destinations of the session were acknowledged, no timer is left behind -/
theorem C200_timer_partial (r : Radio) (i : Nat) (ks : List Key) (s : Sess) (h : r.sessions[i]? = some s)
    (hs : ∀ k l, s.locals k = some l → l.timer = false) : (lost r i ks).orphans = r.orphans := by
  have h0 : timers s ks = 0 := by
    unfold timers
    rw [List.length_eq_zero_iff, List.filter_eq_nil_iff]
    intro k _
    cases hk : s.locals k with
    | none => simp
    | some l => simp [hs k l hk]
  simp [lost, h, h0]

example : (lost { sessions := [{ cfg := both, locals := fun k => if k = key 1 then some ⟨.upAcked, false, key 1, false⟩ else none }] } 0 [key 1]).orphans = 0 := by decide +kernel

/-- C200 fails: a neighbor that appears between the connection and the initialization is announced at once, before the acknowledgement of the initialization. The router, which waits for this
acknowledgement (2), drops the session when it reads DESTINATION_UP (7). -/
theorem C200_early_counterexample :
    (∃ r, run {} [.accept both, .neighAdd (key 1), .init 0] = some r ∧ r.sessions.map (·.out) = [[.up (key 1), .initAck, .up (key 1)]]) ∧
    ∀ (α : Type) (h : Dlep.Handler α) (a : α) (p : Dlep.Bytes), (Dlep.message h ⟨2, a⟩ 7 p).2.2 = false :=
  ⟨⟨_, rfl, by decide +kernel⟩, fun _ _ _ _ => rfl⟩

end Verif.DlepDest
