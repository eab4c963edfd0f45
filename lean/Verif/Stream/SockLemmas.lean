/-
Helper lemmas for the properties of TCP sockets.
-/
import Verif.Stream.SockSpec
namespace Verif.Stream

/-- The counter, explained by the history. -/
def CountOk (k : Sock) : Prop :=
  k.counter = (admitted k.log : Int) + broken k.log - ended k.log - turnedAway k.log ∧ k.counter ≤ k.allowed

theorem close_count {k : Sock} (x : Ses) (h : CountOk k) : CountOk (closeSes k x) := by
  obtain ⟨h1, h2⟩ := h
  unfold closeSes CountOk admitted broken ended turnedAway at *
  simp only [List.countP_append, List.countP_singleton] at *
  cases x.refused <;> simp <;> omega

theorem closeFold_count {l : List Ses} {k : Sock} (h : CountOk k) : CountOk (l.foldl closeSes k) := by
  induction l generalizing k with
  | nil => exact h
  | cons x l ih => exact ih (close_count x h)

theorem closeAll_count {k : Sock} (h : CountOk k) : CountOk (closeAll k) := by
  unfold closeAll
  split
  · exact closeFold_count h
  · exact h

theorem remove_count {k : Sock} (f : Bool) (h : CountOk k) : CountOk (remove k f) := by
  unfold remove
  split
  · exact h
  · split
    · exact closeAll_count h
    · exact h

theorem open_count {k : Sock} (id : Nat) (a b : Bool) (h : CountOk k) : CountOk (open' k id a b) := by
  obtain ⟨h1, h2⟩ := h
  unfold open'
  split
  · split <;>
    · unfold CountOk admitted broken ended turnedAway at *
      simp only [List.countP_append, List.countP_singleton] at *
      simp
      omega
  · split <;>
    · unfold CountOk admitted broken ended turnedAway at *
      simp only [List.countP_append, List.countP_singleton] at *
      simp
      omega

theorem krun_count (allowed : Nat) (ops : List KOp) : CountOk (krun allowed ops) := by
  induction ops with
  | nil => exact ⟨by simp [krun, fresh, admitted, broken, ended, turnedAway], Int.natCast_nonneg _⟩
  | cons o os ih =>
    rw [krun]
    generalize krun allowed os = k at ih ⊢
    cases o with
    | connect id a b =>
      simp only [kstep]
      split
      · exact open_count id a b ih
      · exact ih
    | enter id =>
      simp only [kstep]
      split <;> exact ih
    | leave id p c =>
      simp only [kstep]
      split
      · exact ih
      · rename_i x _
        have h1 : CountOk (idle k id p) := ih
        have h2 : CountOk (endSes (idle k id p) x c) := by
          unfold endSes
          split
          · exact close_count x h1
          · exact h1
        unfold lazyRemove
        split
        · exact remove_count false h2
        · exact h2
    | write id => exact ih
    | close id =>
      simp only [kstep]
      split
      · exact ih
      · exact close_count _ ih
    | closeAll => exact closeAll_count ih
    | remove f => exact remove_count f ih
    | add =>
      simp only [kstep, add]
      split <;> exact ih

theorem closeFold_keeps (l : List Ses) (k : Sock) :
    (l.foldl closeSes k).allowed = k.allowed ∧ (l.foldl closeSes k).corrupt = k.corrupt ∧
    (l.foldl closeSes k).listed = k.listed ∧ (l.foldl closeSes k).rem = k.rem ∧
    (l.foldl closeSes k).busy = k.busy := by
  induction l generalizing k with
  | nil => exact ⟨rfl, rfl, rfl, rfl, rfl⟩
  | cons x l ih => exact ih (closeSes k x)

theorem closeAll_keeps (k : Sock) :
    (closeAll k).allowed = k.allowed ∧ (closeAll k).corrupt = k.corrupt ∧ (closeAll k).rem = k.rem := by
  unfold closeAll
  split
  · have h := closeFold_keeps (k.sess.filter (fun x => !x.pend && !x.busy)) k
    exact ⟨h.1, h.2.1, h.2.2.2.1⟩
  · exact ⟨rfl, rfl, rfl⟩

theorem remove_keeps (k : Sock) (f : Bool) :
    (remove k f).allowed = k.allowed ∧ (remove k f).corrupt = k.corrupt := by
  unfold remove
  split
  · exact ⟨rfl, rfl⟩
  · split
    · exact ⟨(closeAll_keeps k).1, (closeAll_keeps k).2.1⟩
    · exact ⟨rfl, rfl⟩

theorem krun_allowed (allowed : Nat) (ops : List KOp) : (krun allowed ops).allowed = allowed := by
  induction ops with
  | nil => rfl
  | cons o os ih =>
    rw [krun]
    generalize krun allowed os = k at ih ⊢
    cases o with
    | connect id a b =>
      simp only [kstep]
      split
      · unfold open'
        split <;> split <;> exact ih
      · exact ih
    | enter id =>
      simp only [kstep]
      split <;> exact ih
    | leave id p c =>
      simp only [kstep]
      split
      · exact ih
      · rename_i x _
        have h2 : (endSes (idle k id p) x c).allowed = allowed := by
          unfold endSes
          split <;> exact ih
        unfold lazyRemove
        split
        · rw [(remove_keeps _ _).1]; exact h2
        · exact h2
    | write id => exact ih
    | close id =>
      simp only [kstep]
      split <;> exact ih
    | closeAll => exact (closeAll_keeps k).1.trans ih
    | remove f => exact (remove_keeps k f).1.trans ih
    | add =>
      simp only [kstep, add]
      split <;> exact ih

/-! The list of sessions. -/

/-- Names are unique, and every session is in the list or was closed. -/
def ListOk (k : Sock) : Prop :=
  (k.sess.map Ses.id).Nodup ∧
  (k.corrupt = false → ∀ id, openedN id k.log = closedN id k.log + (if id ∈ k.sess.map Ses.id then 1 else 0))

theorem ids_filter (k : Sock) (x : Ses) :
    (k.sess.filter (fun y => y.id != x.id)).map Ses.id = (k.sess.map Ses.id).filter (fun i => i != x.id) := by
  rw [List.filter_map]; rfl

theorem close_list {k : Sock} {x : Ses} (hx : x.id ∈ k.sess.map Ses.id) (h : ListOk k) :
    ListOk (closeSes k x) := by
  obtain ⟨h1, h2⟩ := h
  constructor
  · show ((k.sess.filter (fun y => y.id != x.id)).map Ses.id).Nodup
    rw [ids_filter]
    exact h1.filter _
  · intro hc id
    have h2' := h2 hc id
    show openedN id (k.log ++ [.closed x.id x.refused]) = closedN id (k.log ++ [.closed x.id x.refused]) +
      (if id ∈ (k.sess.filter (fun y => y.id != x.id)).map Ses.id then 1 else 0)
    rw [ids_filter]
    unfold openedN closedN at *
    simp only [List.countP_append, List.countP_singleton, List.mem_filter] at *
    by_cases hid : x.id = id
    · subst hid
      rw [if_pos hx] at h2'
      simp
      omega
    · have : (x.id == id) = false := by simpa using hid
      have hne : (id != x.id) = true := by simpa using fun h : id = x.id => hid h.symm
      simp [this, hne]
      simpa using h2'

theorem map_ids (l : List Ses) (id : Nat) (f : Ses → Ses) (hf : ∀ x, (f x).id = x.id) :
    (l.map (fun x => if x.id = id then f x else x)).map Ses.id = l.map Ses.id := by
  rw [List.map_map]
  apply List.map_congr_left
  intro x _
  show (if x.id = id then f x else x).id = x.id
  split
  · exact hf x
  · rfl

theorem list_ids {k k' : Sock} (hs : k'.sess.map Ses.id = k.sess.map Ses.id) (hl : k'.log = k.log)
    (hc : k'.corrupt = k.corrupt) (h : ListOk k) : ListOk k' := by
  refine ⟨by rw [hs]; exact h.1, ?_⟩
  rw [hc, hl, hs]
  exact h.2

theorem closeFold_list {l : List Ses} {k : Sock} (hl : ∀ x ∈ l, x.id ∈ k.sess.map Ses.id)
    (hn : (l.map Ses.id).Nodup) (h : ListOk k) : ListOk (l.foldl closeSes k) := by
  induction l generalizing k with
  | nil => exact h
  | cons x l ih =>
    have hn' := List.nodup_cons.mp hn
    refine ih (k := closeSes k x) ?_ hn'.2 (close_list (hl x List.mem_cons_self) h)
    intro y hy
    show y.id ∈ (k.sess.filter (fun y => y.id != x.id)).map Ses.id
    rw [ids_filter]
    refine List.mem_filter.mpr ⟨hl y (List.mem_cons_of_mem _ hy), ?_⟩
    have : y.id ≠ x.id := by
      intro he
      exact hn'.1 (he ▸ List.mem_map_of_mem hy)
    simpa using this

theorem closeAll_list {k : Sock} (h : ListOk k) : ListOk (closeAll k) := by
  unfold closeAll
  split
  · refine closeFold_list ?_ ?_ h
    · intro x hx
      exact List.mem_map_of_mem (List.mem_filter.mp hx).1
    · exact h.1.sublist (List.Sublist.map _ (List.filter_sublist))
  · exact h

theorem remove_list {k : Sock} (f : Bool) (h : ListOk k) : ListOk (remove k f) := by
  unfold remove
  split
  · exact h
  · split
    · exact closeAll_list h
    · exact h

theorem krun_list (allowed : Nat) (ops : List KOp) : ListOk (krun allowed ops) := by
  induction ops with
  | nil => exact ⟨List.nodup_nil, fun _ _ => by simp [krun, fresh, openedN, closedN]⟩
  | cons o os ih =>
    rw [krun]
    generalize krun allowed os = k at ih ⊢
    cases o with
    | connect id a b =>
      simp only [kstep]
      split
      · rename_i hc
        have hid : id ∉ k.sess.map Ses.id := by
          intro hm
          obtain ⟨x, hx, he⟩ := List.mem_map.mp hm
          exact hc.2 x hx he
        have hopen : ∀ (r p : Bool), ListOk { k with sess := k.sess ++ [⟨id, r, p, false⟩], log := k.log ++ [.opened id r] } := by
          intro r p
          constructor
          · show ((k.sess ++ [(⟨id, r, p, false⟩ : Ses)]).map Ses.id).Nodup
            rw [List.map_append]
            refine List.nodup_append.mpr ⟨ih.1, by simp, ?_⟩
            intro a ha c hc he
            rw [List.map_singleton, List.mem_singleton] at hc
            rw [he, hc] at ha
            exact hid ha
          · intro hco i
            have h2 := ih.2 hco i
            show openedN i (k.log ++ [.opened id r]) = closedN i (k.log ++ [.opened id r]) +
              (if i ∈ (k.sess ++ [(⟨id, r, p, false⟩ : Ses)]).map Ses.id then 1 else 0)
            unfold openedN closedN at *
            simp only [List.countP_append, List.countP_singleton, List.map_append, List.map_singleton,
              List.mem_append, List.mem_singleton] at *
            by_cases hi : id = i
            · subst hi
              rw [if_neg hid] at h2
              simp
              omega
            · have h3 : (id == i) = false := by simpa using hi
              have h4 : ¬ i = id := fun h => hi h.symm
              simp only [h3, h4, or_false]
              simpa using h2
        have hfail : ∀ r : Bool, ListOk { k with log := k.log ++ [.failed id r] } := by
          intro r
          refine ⟨ih.1, fun hco i => ?_⟩
          have h2 := ih.2 hco i
          show openedN i (k.log ++ [.failed id r]) = closedN i (k.log ++ [.failed id r]) + _
          unfold openedN closedN at *
          simp only [List.countP_append, List.countP_singleton] at *
          simpa using h2
        unfold open'
        split
        · split
          · exact list_ids (k := { k with sess := k.sess ++ [⟨id, false, false, false⟩], log := k.log ++ [.opened id false] }) rfl rfl rfl (hopen false false)
          · exact list_ids (k := { k with log := k.log ++ [.failed id false] }) rfl rfl rfl (hfail false)
        · split
          · exact hopen true b
          · exact hfail true
      · exact ih
    | enter id =>
      simp only [kstep]
      split
      · exact list_ids (map_ids k.sess id _ (fun _ => rfl)) rfl rfl ih
      · exact ih
    | leave id p c =>
      simp only [kstep]
      split
      · exact ih
      · rename_i x hx
        have hk1 : ListOk (idle k id p) := list_ids (map_ids k.sess id _ (fun _ => rfl)) rfl rfl ih
        have hxm : x.id ∈ (idle k id p).sess.map Ses.id := by
          have he : (idle k id p).sess.map Ses.id = k.sess.map Ses.id :=
            map_ids k.sess id (fun x => { x with busy := false, pend := p }) (fun _ => rfl)
          rw [he]
          exact List.mem_map_of_mem (List.mem_of_find?_eq_some hx)
        have h2 : ListOk (endSes (idle k id p) x c) := by
          unfold endSes
          split
          · exact close_list hxm hk1
          · exact hk1
        unfold lazyRemove
        split
        · exact remove_list false h2
        · exact h2
    | write id => exact list_ids (map_ids k.sess id _ (fun _ => rfl)) rfl rfl ih
    | close id =>
      simp only [kstep]
      split
      · exact ih
      · rename_i x hx
        exact close_list (List.mem_map_of_mem (List.mem_of_find?_eq_some hx)) ih
    | closeAll => exact closeAll_list ih
    | remove f => exact remove_list f ih
    | add =>
      simp only [kstep, add]
      split
      · exact ih
      · refine ⟨List.nodup_nil, fun hco id => ?_⟩
        have hco' : (k.corrupt || !k.sess.isEmpty) = false := hco
        have h1 := (Bool.or_eq_false_iff.mp hco').1
        have h2 := (Bool.or_eq_false_iff.mp hco').2
        have h3 : k.sess = [] := by
          rw [Bool.not_eq_false'] at h2
          exact List.isEmpty_iff.mp h2
        have := ih.2 h1 id
        rw [h3] at this
        exact this

/-- Closing the sessions of a list one after the other. -/
theorem closeFold_eq (l : List Ses) (k : Sock) :
    (l.foldl closeSes k).sess = k.sess.filter (fun y => l.all (fun x => y.id != x.id)) ∧
    (l.foldl closeSes k).log = k.log ++ l.map (fun x => .closed x.id x.refused) := by
  induction l generalizing k with
  | nil => exact ⟨(List.filter_eq_self.mpr (fun _ _ => rfl)).symm, by simp⟩
  | cons x l ih =>
    obtain ⟨h1, h2⟩ := ih (closeSes k x)
    rw [List.foldl_cons, h1, h2]
    constructor
    · show (k.sess.filter (fun y => y.id != x.id)).filter _ = _
      rw [List.filter_filter]
      apply List.filter_congr
      intro y _
      rw [List.all_cons, Bool.and_comm]
    · show (k.log ++ [_]) ++ _ = _
      simp

theorem nodup_id_eq {l : List Ses} (hn : (l.map Ses.id).Nodup) {x y : Ses} (hx : x ∈ l) (hy : y ∈ l)
    (h : x.id = y.id) : x = y := by
  induction l with
  | nil => exact nomatch hx
  | cons z l ih =>
    have hn' := List.nodup_cons.mp hn
    rcases List.mem_cons.mp hx with rfl | hx'
    · rcases List.mem_cons.mp hy with rfl | hy'
      · rfl
      · exact absurd (h ▸ List.mem_map_of_mem hy') hn'.1
    · rcases List.mem_cons.mp hy with rfl | hy'
      · exact absurd (h ▸ List.mem_map_of_mem hx') hn'.1
      · exact ih hn'.2 hx' hy'

end Verif.Stream
