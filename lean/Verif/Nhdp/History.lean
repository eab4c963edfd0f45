import Verif.Nhdp.Count

namespace Verif.Nhdp
open Map (get_upd get_del mem_keys)

/-- events of existing objects succeed and keep the database well-formed -/
theorem step_wf {db : Db} (w : WF db) (ev : Ev) (hl : Live db ev) (hs : Sane db ev) : ∃ db', step db ev = some db' ∧ WF db' := by
  cases ev with
  | hello h heard st => exact hello_ok w h hs heard st
  | update l st =>
    obtain ⟨x, hx⟩ := Option.ne_none_iff_exists'.1 hl
    obtain ⟨na, d, e, w', _⟩ := updateStatus_ok w hx st
    exact ⟨_, e, w'⟩
  | unsym l =>
    obtain ⟨x, hx⟩ := Option.ne_none_iff_exists'.1 hl
    show ∃ db', setUnsymmetric db l = some db' ∧ WF db'
    unfold setUnsymmetric
    rw [hx]
    dsimp only
    split
    · obtain ⟨na, e, w'⟩ := notSymmetric_ok w hx
      exact ⟨_, e, w'⟩
    · exact ⟨_, rfl, w⟩
  | expire l =>
    obtain ⟨d, e, w', _⟩ := linkExpired_ok w hl
    exact ⟨d, e, w'⟩
  | naddrExpire a =>
    refine ⟨_, rfl, wf_naddrs w _ (Map.nodup_del _ _ w.nodupA) ?_⟩
    intro k x hx
    rw [get_del] at hx
    split at hx
    · cases hx
    · exact w.naddrNeigh k x hx
  | dropped l n =>
    show ∃ db', cleanup db l n = some db' ∧ WF db'
    unfold cleanup
    obtain ⟨lp, e, w1⟩ := linkRemove_ok w hl.1
    rw [e]
    obtain ⟨d, e2, w2, _⟩ := neighRemove_ok w1 (n := n) hl.2
    exact ⟨d, e2, w2⟩

theorem reach_wf {db : Db} (hr : Reach Sane db) : WF db := by
  induction hr with
  | empty => exact wf_empty
  | step ev _ hl hs he ih =>
    obtain ⟨d, e, w⟩ := step_wf ih ev hl hs
    rw [he] at e
    injection e with e
    rw [e]
    exact w

theorem regular_sane {db : Db} {ev : Ev} (h : Regular db ev) : Sane db ev := by
  cases ev with
  | hello hh heard st => exact h.1
  | _ => trivial

theorem reach_cnt {db : Db} (hr : Reach Regular db) : WF db ∧ Cnt db := by
  induction hr with
  | empty => exact ⟨wf_empty, cnt_empty⟩
  | step ev _ hl hs he ih =>
    obtain ⟨d, e, w⟩ := step_wf ih.1 ev hl (regular_sane hs)
    rw [he] at e
    injection e with e
    subst e
    refine ⟨w, ?_⟩
    cases ev with
    | hello hh heard st => exact hello_cnt ih.1 hh hs.1 hs.2 heard st ih.2 he
    | update l st => exact updateStatus_cnt ih.1 ih.2 he
    | unsym l => exact hs.elim
    | expire l =>
      obtain ⟨d, e, _, hc⟩ := linkExpired_ok ih.1 hl
      have he : linkExpired _ l = some _ := he
      rw [e] at he
      injection he with he
      rw [← he]
      exact hc ih.2
    | naddrExpire a =>
      injection he with he
      subst he
      exact cnt_of_eq ih.1 w ih.2 rfl rfl
    | dropped l n => exact hs.elim

end Verif.Nhdp
