import Verif.DlepDest.Router
import Verif.DlepDest.Props

namespace Verif.DlepDest

/-- no destination is taken back that was not announced before -/
def Fine (l : List Msg) : Prop := ∀ a k b, l = a ++ Msg.down k :: b → told a k = true

theorem fine_append {l : List Msg} (h : Fine l) (m : Msg) (hm : ∀ k, m = .down k → told l k = true) : Fine (l ++ [m]) := by
  intro a k b hab
  rcases List.eq_nil_or_concat b with rfl | ⟨b', x, rfl⟩
  · have := List.append_inj' hab rfl
    rw [← this.1]
    exact hm k (List.singleton_inj.1 this.2)
  · rw [List.concat_eq_append, ← List.cons_append, ← List.append_assoc] at hab
    have := List.append_inj' hab rfl
    exact h a k b' this.1

theorem fine_up {l : List Msg} (h : Fine l) (ks : List Msg) (hk : ∀ m ∈ ks, ∃ k, m = .up k) : Fine (l ++ ks) := by
  induction ks generalizing l with
  | nil => simpa using h
  | cons m ks ih =>
    have : l ++ m :: ks = (l ++ [m]) ++ ks := by simp
    rw [this]
    refine ih (fine_append h m fun k e => ?_) (fun x hx => hk x (List.mem_cons_of_mem _ hx))
    obtain ⟨j, hj⟩ := hk m (by simp)
    rw [hj] at e
    cases e

/-! ### the router -/

/-- what the router knows after fine messages -/
theorem readAll_spec (l : List Msg) (r : Router) (pre : List Msg) (h1 : r.alive = true) (h2 : r.ready = true) (h3 : Fine (pre ++ l)) (base : Key → Option Entry)
    (h4 : ∀ k, (told pre k = true → ∃ e, r.db k = some e ∧ e.own = true ∧ (e.other = true ↔ (base k).isSome = true)) ∧
      (told pre k = false → (r.db k).isSome = (base k).isSome ∧ ∀ e, r.db k = some e → e.other = true)) :
    (r.readAll (l.map fun m => (m, true))).alive = true ∧
      ∀ k, ((r.readAll (l.map fun m => (m, true))).db k).isSome = true ↔ (told (pre ++ l) k = true ∨ (base k).isSome = true) := by
  induction l generalizing r pre with
  | nil =>
    simp only [List.map_nil, Router.readAll, List.append_nil]
    refine ⟨h1, fun k => ?_⟩
    cases ht : told pre k with
    | true =>
      obtain ⟨e, he, _⟩ := (h4 k).1 ht
      simp [he]
    | false => simp [((h4 k).2 ht).1]
  | cons m l ih =>
    have hpre : pre ++ m :: l = (pre ++ [m]) ++ l := by simp
    simp only [List.map_cons, Router.readAll]
    rw [hpre]
    rw [hpre] at h3
    have keep : ∀ r' : Router, r'.alive = true → r'.ready = true → (∀ k, told (pre ++ [m]) k = told pre k) → (∀ k, r'.db k = r.db k) →
        (r'.readAll (l.map fun m => (m, true))).alive = true ∧
          ∀ k, ((r'.readAll (l.map fun m => (m, true))).db k).isSome = true ↔ (told (pre ++ [m] ++ l) k = true ∨ (base k).isSome = true) := by
      intro r' e1 e2 e3 e4
      refine ih r' (pre ++ [m]) e1 e2 h3 fun k => ?_
      rw [e3, e4]
      exact h4 k
    cases m with
    | initAck =>
      have : r.read .initAck true = r := by simp [Router.read, Router.handle, h1, h2]
      rw [this]
      exact keep r h1 h2 (fun k => by rw [told_append]; rfl) (fun _ => rfl)
    | sessionUpdate =>
      have : r.read .sessionUpdate true = r := by simp [Router.read, Router.handle, h1, h2]
      rw [this]
      exact keep r h1 h2 (fun k => by rw [told_append]; rfl) (fun _ => rfl)
    | up j =>
      have hr : r.read (.up j) true = { r.put j (some { (r.db j).getD ⟨false, false⟩ with own := true }) with acks := r.acks ++ [.up j] } := by
        simp [Router.read, Router.handle, h1, h2]
      rw [hr]
      refine ih _ (pre ++ [.up j]) ?_ ?_ h3 fun k => ?_
      · exact h1
      · exact h2
      rw [told_append]
      by_cases hk : k = j
      · subst hk
        refine ⟨fun _ => ⟨{ (r.db k).getD ⟨false, false⟩ with own := true }, by simp [Router.put], rfl, ?_⟩, fun h => by simp [tell] at h⟩
        cases ht : told pre k with
        | true =>
          obtain ⟨e, he, _, ho⟩ := (h4 k).1 ht
          simp only [he, Option.getD_some]
          exact ho
        | false =>
          obtain ⟨hs, ho⟩ := (h4 k).2 ht
          cases hd : r.db k with
          | none => simp only [Option.getD_none]; rw [← hs, hd]; simp
          | some e =>
            simp only [Option.getD_some]
            rw [← hs, hd]
            simp [ho e hd]
      · have e1 : tell (told pre) (.up j) k = told pre k := by simp [tell, hk]
        have e2 : ({ r.put j (some { (r.db j).getD ⟨false, false⟩ with own := true }) with acks := r.acks ++ [.up j] } : Router).db k = r.db k := by simp [Router.put, hk]
        rw [e1, e2]
        exact h4 k
    | down j =>
      have htold : told pre j = true := h3 pre j l (by simp)
      obtain ⟨e, he, ho, hoo⟩ := (h4 j).1 htold
      have hr : r.read (.down j) true = { r.put j (strip e) with acks := r.acks ++ [.down j] } := by
        simp [Router.read, Router.handle, h1, h2, he]
      rw [hr]
      refine ih _ (pre ++ [.down j]) ?_ ?_ h3 fun k => ?_
      · exact h1
      · exact h2
      rw [told_append]
      by_cases hk : k = j
      · subst hk
        refine ⟨fun h => by simp [tell] at h, fun _ => ?_⟩
        simp only [Router.put, if_true]
        have hst : strip e = if e.other then some { e with own := false } else none := by simp [strip, ho]
        rw [hst]
        cases hx : e.other with
        | true =>
          simp only [if_true, Option.isSome_some]
          refine ⟨(hoo.1 hx).symm, ?_⟩
          intro x hx'
          cases hx'
          rfl
        | false =>
          simp only [Bool.false_eq_true, if_false, Option.isSome_none]
          refine ⟨?_, fun x hx' => (nomatch hx')⟩
          cases hbk : (base k).isSome with
          | true => rw [hoo.2 hbk] at hx; cases hx
          | false => rfl
      · have e1 : tell (told pre) (.down j) k = told pre k := by simp [tell, hk]
        have e2 : ({ r.put j (strip e) with acks := r.acks ++ [.down j] } : Router).db k = r.db k := by simp [Router.put, hk]
        rw [e1, e2]
        exact h4 k
    | update j =>
      cases hd : r.db j with
      | none =>
        have : r.read (.update j) true = r := by simp [Router.read, Router.handle, h1, h2, hd]
        rw [this]
        exact keep r h1 h2 (fun k => by rw [told_append]; rfl) (fun _ => rfl)
      | some e =>
        have hr : r.read (.update j) true = r.put j (some { e with own := true }) := by simp [Router.read, Router.handle, h1, h2, hd]
        rw [hr]
        refine ih _ (pre ++ [.update j]) ?_ ?_ h3 fun k => ?_
        · exact h1
        · exact h2
        have e1 : told (pre ++ [.update j]) k = told pre k := by rw [told_append]; rfl
        rw [e1]
        by_cases hk : k = j
        · subst hk
          simp only [Router.put, if_true, Option.isSome_some]
          refine ⟨fun ht => ?_, fun ht => ?_⟩
          · obtain ⟨e', he', _, ho⟩ := (h4 k).1 ht
            rw [hd] at he'
            cases he'
            exact ⟨_, rfl, rfl, ho⟩
          · obtain ⟨hs, ho⟩ := (h4 k).2 ht
            rw [hd] at hs
            refine ⟨hs, fun x hx => ?_⟩
            cases hx
            exact ho e hd
        · have e2 : (r.put j (some { e with own := true })).db k = r.db k := by simp [Router.put, hk]
          rw [e2]
          exact h4 k

/-! ### the messages of an orderly radio -/

/-- states reached like `Reach`, where in addition nothing happens to the layer2 database while a session is not initialized -/
inductive Orderly : Radio → Prop where
  | start : Orderly {}
  | step {r r' : Radio} (e : Ev) : Orderly r → step r e = some r' → Calm e → Unshared r'.db →
      (∀ s ∈ r'.sessions, LidOk s.cfg r'.db) → (L2 e → ∀ s ∈ r.sessions, s.ready = true) → Orderly r'

theorem Orderly.reach {r : Radio} (h : Orderly r) : Reach r := by
  induction h with
  | start => exact .start
  | step e _ hs hc hu hl _ ih => exact .step e ih hs hc hu hl

structure Good (s : Sess) : Prop where
  new : s.ready = false → s.out = [] ∧ ∀ k, s.locals k = none
  old : s.ready = true → ∃ rest, s.out = .initAck :: rest
  fine : Fine s.out

/-- at most one message more, DESTINATION_DOWN only for an announced destination -/
structure Ext (s s' : Sess) : Prop where
  ready : s'.ready = s.ready
  out : s'.out = s.out ∨ ∃ m, s'.out = s.out ++ [m] ∧ ∀ k, m = .down k → told s.out k = true

theorem Ext.good {s s' : Sess} (x : Ext s s') (hr : s.ready = true) (h : Good s) : Good s' := by
  refine ⟨fun hn => (by rw [x.ready, hr] at hn; cases hn), fun _ => ?_, ?_⟩
  · obtain ⟨rest, he⟩ := h.old hr
    rcases x.out with e | ⟨m, e, _⟩
    · exact ⟨rest, e.trans he⟩
    · exact ⟨rest ++ [m], by rw [e, he]; rfl⟩
  · rcases x.out with e | ⟨m, e, hm⟩
    · rw [e]; exact h.fine
    · rw [e]; exact fine_append h.fine m hm

theorem ext_refl (s : Sess) : Ext s s := ⟨rfl, Or.inl rfl⟩

theorem ext_gen (db : Db) (s : Sess) (k : Key) (l l' : Option Local) (m : Msg) (hm : ∀ k, m = .down k → told s.out k = true) :
    Ext s ((gen db (s.set k l) m).set k l') := by
  refine ⟨by rw [set_ready, gen_ready]; rfl, ?_⟩
  rcases gen_cases db (s.set k l) m with e | e
  · exact Or.inl (by rw [set_out, e]; rfl)
  · exact Or.inr ⟨m, by rw [set_out, e]; rfl, hm⟩

theorem ext_addedTo (db : Db) (n k : Key) (s : Sess) : Ext s (addedTo db s n k) := by
  unfold addedTo
  split
  · exact ext_refl s
  · exact ext_gen _ _ _ _ _ _ fun k h => (nomatch h)

theorem ext_added (db : Db) (dst : Bool) (n k : Key) (s : Sess) : Ext s (added db dst n k s) := by
  unfold added
  split
  · exact ext_refl s
  · exact ext_addedTo db n k s

theorem ext_changed (db : Db) (dst : Bool) (k : Key) (s : Sess) : Ext s (changed db dst k s) := by
  unfold changed
  split
  · exact ext_refl s
  · split
    · exact ext_refl s
    · simp only
      split
      · exact ⟨rfl, Or.inl rfl⟩
      · exact ext_gen _ _ _ _ _ _ fun k h => (nomatch h)
      · exact ext_gen _ _ _ _ _ _ fun k h => (nomatch h)

theorem removed_ready (db : Db) (dst : Bool) (k : Key) (s : Sess) : (removed db dst k s).ready = s.ready := by
  unfold removed
  split
  · rfl
  · split
    · rfl
    · rw [set_ready, gen_ready]

theorem ext_removed (db : Db) (dst : Bool) (k : Key) (s : Sess) (h : told s.out k = true) : Ext s (removed db dst k s) := by
  refine ⟨removed_ready db dst k s, ?_⟩
  unfold removed
  split
  · exact Or.inl rfl
  · split
    · exact Or.inl rfl
    · refine Or.inr ⟨.down k, rfl, fun j e => ?_⟩
      cases e
      exact h

theorem removed_cfg' (db : Db) (dst : Bool) (k : Key) (s : Sess) : (removed db dst k s).cfg = s.cfg := by simp
theorem added_cfg' (db : Db) (dst : Bool) (n k : Key) (s : Sess) : (added db dst n k s).cfg = s.cfg := by simp
theorem changed_cfg' (db : Db) (dst : Bool) (k : Key) (s : Sess) : (changed db dst k s).cfg = s.cfg := by simp

def Both (s : Sess) : Prop := s.cfg.neighbors = true ∧ s.cfg.proxied = true

/-- sessions are good, and ready when `b` -/
structure GInv (r : Radio) (b : Prop) : Prop where
  good : ∀ s ∈ r.sessions, Both s → Good s
  ready : b → ∀ s ∈ r.sessions, s.ready = true

theorem notify_good {r : Radio} {f : Sess → Sess} (h : GInv r True) (hf : ∀ s ∈ r.sessions, Both s → Ext s (f s)) (hc : ∀ s, (f s).cfg = s.cfg) (hr : ∀ s, (f s).ready = s.ready) :
    GInv (r.notify f) True := by
  unfold Radio.notify
  split
  · constructor
    · intro s hs hb
      obtain ⟨t, ht, rfl⟩ := List.mem_map.1 hs
      have hb' : Both t := by unfold Both at hb; rw [hc] at hb; exact hb
      exact (hf t ht hb').good (h.ready trivial t ht) (h.good t ht hb')
    · intro _ s hs
      obtain ⟨t, ht, rfl⟩ := List.mem_map.1 hs
      rw [hr]
      exact h.ready trivial t ht
  · exact h

theorem dstRemove_good {r : Radio} {n : Key} {d : Nat} (hi : RInv r) (h : GInv r True) : GInv (dstRemove r n d) True := by
  unfold dstRemove
  split
  · rename_i hn
    have hm : (n, some d) ∈ r.db := by simpa using hn
    have := notify_good (r := r) (f := removed r.db false (dstKey n d)) h ?_ (removed_cfg' _ _ _) (removed_ready _ _ _)
    · exact ⟨this.good, this.ready⟩
    · intro s hs hb
      exact ext_removed _ _ _ _ ((hi.sess s hs hb.1).full (h.ready trivial s hs) _ (Or.inr ⟨hb.2, n, d, hm, rfl⟩)).1
  · exact h

theorem fold_good {n : Key} (ds : List Nat) (r : Radio) (hi : RInv r) (h : GInv r True) : GInv (ds.foldl (fun r d => dstRemove r n d) r) True := by
  induction ds generalizing r with
  | nil => exact h
  | cons d ds ih => exact ih _ (dstRemove_inv hi) (dstRemove_good hi h)

theorem neighRemove_good {r : Radio} {n : Key} (hi : RInv r) (h : GInv r True) : GInv (neighRemove r n) True := by
  unfold neighRemove
  split
  · rename_i hn
    obtain ⟨h1, h2⟩ := fold_dst (n := n) (dests r.db n) r hi
    have h3 := fold_good (n := n) (dests r.db n) r hi h
    have hm : (n, none) ∈ ((dests r.db n).foldl (fun r d => dstRemove r n d) r).db :=
      (h2 _).2 ⟨(hasNeigh_iff _ _).1 hn, fun d _ => by simp⟩
    have := notify_good (f := removed ((dests r.db n).foldl (fun r d => dstRemove r n d) r).db false n) h3 ?_ (removed_cfg' _ _ _) (removed_ready _ _ _)
    · exact ⟨this.good, this.ready⟩
    · intro s hs hb
      exact ext_removed _ _ _ _ ((h1.sess s hs hb.1).full (h3.ready trivial s hs) _ (Or.inl ⟨hb.1, hm⟩)).1
  · exact h

theorem neighChange_good {r : Radio} {n : Key} (h : GInv r True) : GInv (neighChange r n) True := by
  have one : ∀ (q : Radio) (db : Db) (b : Bool) (k : Key), GInv q True → GInv (q.notify (changed db b k)) True := fun q db b k hq =>
    notify_good hq (fun s _ _ => ext_changed db b k s) (changed_cfg' _ _ _) (fun s => (ext_changed db b k s).ready)
  unfold neighChange
  split
  · have h1 := one r r.db false n h
    generalize r.notify (changed r.db false n) = q at h1
    generalize dests r.db n = ds
    induction ds generalizing q with
    | nil => exact h1
    | cons d ds ih => exact ih _ (one _ _ _ _ h1)
  · exact h

theorem weaken {r : Radio} (h : GInv r True) : GInv r False := ⟨h.good, fun x => x.elim⟩

theorem orderly_good {r : Radio} (h : Orderly r) : GInv r False := by
  induction h with
  | start => exact ⟨fun _ h => (nomatch h), fun x => x.elim⟩
  | @step r r' e ho hs hc hu hl hready ih =>
    have hi := reach_inv ho.reach
    have all : L2 e → GInv r True := fun he => ⟨ih.good, fun _ => hready he⟩
    cases e with
    | neighAdd n =>
      cases hs
      refine weaken ?_
      unfold neighAdd
      split
      · exact all trivial
      · refine notify_good (r := { r with db := r.db ++ [(n, none)] }) ?_ (fun s _ _ => ext_added _ _ _ _ s) (added_cfg' _ _ _ _) (fun s => (ext_added _ _ _ _ s).ready)
        exact ⟨(all trivial).good, (all trivial).ready⟩
    | neighChange n => cases hs; exact weaken (neighChange_good (all trivial))
    | neighRemove n => cases hs; exact weaken (neighRemove_good hi (all trivial))
    | dstAdd n d =>
      cases hs
      refine weaken ?_
      unfold dstAdd
      split
      · refine notify_good (r := { r with db := r.db ++ [(n, some d)] }) ?_ (fun s _ _ => ext_added _ _ _ _ s) (added_cfg' _ _ _ _) (fun s => (ext_added _ _ _ _ s).ready)
        exact ⟨(all trivial).good, (all trivial).ready⟩
      · exact all trivial
    | dstRemove n d => cases hs; exact weaken (dstRemove_good hi (all trivial))
    | netChange =>
      cases hs
      refine weaken (notify_good (all trivial) ?_ ?_ ?_)
      · intro s _ _
        split
        · exact ⟨rfl, Or.inr ⟨.sessionUpdate, rfl, fun k h => (nomatch h)⟩⟩
        · exact ext_refl s
      · intro s; split <;> rfl
      · intro s; split <;> rfl
    | accept c =>
      cases hs
      refine ⟨?_, fun x => x.elim⟩
      intro s hs hb
      rcases List.mem_append.1 hs with hs | hs
      · exact ih.good s hs hb
      · simp only [List.mem_singleton] at hs
        subst hs
        exact ⟨fun _ => ⟨rfl, fun _ => rfl⟩, fun h => (nomatch h), fun a k b h => by simp at h⟩
    | init i =>
      cases hs
      refine ⟨?_, fun x => x.elim⟩
      intro s hs hb
      rcases mem_modify hs with hs' | ⟨t, ht, rfl⟩
      · exact ih.good s hs' hb
      · have hcf : (sessionInit r.db t).cfg = t.cfg := init_cfg r.db t
        have hbt : Both t := by unfold Both at hb; rw [hcf] at hb; exact hb
        have hg := ih.good t (List.mem_iff_getElem?.2 ⟨i, ht⟩) hbt
        cases hr : t.ready with
        | true =>
          have : sessionInit r.db t = t := by simp [sessionInit, hr]
          rw [this]
          exact hg
        | false =>
          have hlid : LidOk t.cfg r.db := by
            have := hl _ hs
            rw [hcf] at this
            exact this
          obtain ⟨h1, h2⟩ := C198_init r.db t hr hi.wf hlid
          refine ⟨fun hn => (by rw [h1] at hn; cases hn), fun _ => ?_, ?_⟩
          · rw [h2, (hg.new hr).1]
            exact ⟨_, rfl⟩
          · rw [h2]
            refine fine_up (fine_append hg.fine .initAck fun k h => (nomatch h)) _ ?_
            intro m hm
            obtain ⟨e, _, rfl⟩ := List.mem_map.1 hm
            exact ⟨_, rfl⟩
    | upAck i k okay =>
      simp only [step] at hs
      split at hs
      · cases hs; exact ih
      · rename_i s hsi
        cases hu' : upAck r.db s k okay with
        | none => rw [hu'] at hs; cases hs
        | some s' =>
          rw [hu'] at hs
          cases hs
          refine ⟨?_, fun x => x.elim⟩
          intro t ht hb
          rcases mem_modify ht with ht | ⟨y, hy, hx⟩
          · exact ih.good t ht hb
          · have hx : t = s' := hx
            subst hx
            have hbs : Both s := by unfold Both at hb; rw [(upAck_cfg hu').1] at hb; exact hb
            have hg := ih.good s (List.mem_iff_getElem?.2 ⟨i, hsi⟩) hbs
            cases hr : s.ready with
            | false =>
              have hn := (hg.new hr).2 k
              unfold upAck at hu'
              split at hu'
              · rw [hn] at hu'; cases hu'
              · cases hu'; exact hg
            | true =>
              refine Ext.good ⟨(upAck_cfg hu').2, ?_⟩ hr hg
              unfold upAck at hu'
              split at hu'
              · split at hu'
                · cases hu'
                · simp only at hu'
                  split at hu'
                  · split at hu'
                    · cases hu'
                      exact (ext_gen _ _ _ _ _ (.update k) fun k h => (nomatch h)).out
                    · cases hu'
                      exact Or.inl rfl
                  · cases hu'
                    exact Or.inl rfl
              · cases hu'
                exact Or.inl rfl
    | downAck i k okay =>
      simp only [step] at hs
      split at hs
      · cases hs; exact ih
      · rename_i s hsi
        cases hu' : downAck s k okay with
        | none => rw [hu'] at hs; cases hs
        | some s' =>
          rw [hu'] at hs
          cases hs
          refine ⟨?_, fun x => x.elim⟩
          intro t ht hb
          rcases mem_modify ht with ht | ⟨y, hy, hx⟩
          · exact ih.good t ht hb
          · have hx : t = s' := hx
            subst hx
            have hbs : Both s := by unfold Both at hb; rw [(downAck_cfg hu').1] at hb; exact hb
            have hg := ih.good s (List.mem_iff_getElem?.2 ⟨i, hsi⟩) hbs
            cases hr : s.ready with
            | false =>
              have hn := (hg.new hr).2 k
              unfold downAck at hu'
              split at hu'
              · rw [hn] at hu'; cases hu'
              · cases hu'; exact hg
            | true =>
              refine Ext.good ⟨(downAck_cfg hu').2, ?_⟩ hr hg
              unfold downAck at hu'
              split at hu'
              · split at hu'
                · cases hu'
                · split at hu' <;> cases hu' <;> exact Or.inl rfl
              · cases hu'
                exact Or.inl rfl
    | timeout i k => exact hc.elim
    | lost i ks => exact hc.elim

end Verif.DlepDest
