import Verif.OsIf.Query
import Verif.Netlink.QueueProps
/-
Property C187: queries of all links and addresses.
-/
namespace Verif.OsIf
open Verif.Netlink

/-! ### specification -/

/-- what happens to the queries; an answer comes only while a query is in progress -/
inductive QEv where
  | newIf
  | done
  | bad
deriving DecidableEq, Repr

/-- For one kind of query, since the last new interface: `asked` a query was handed over, `got` one of these ended well. -/
structure Since where
  asked : Bool := false
  got : Bool := false
deriving DecidableEq, Repr

/-- the queries, and what happened to them since the last new interface -/
structure Obs where
  q : Q := {}
  links : Since := {}
  addrs : Since := {}
deriving DecidableEq, Repr

/-- one event, observed from outside: only the requests handed over and the answers count -/
def obs (o : Obs) (e : QEv) : Obs :=
  let r := match e with
    | .newIf => newIf o.q
    | .done => endOf o.q
    | .bad => badEnd o.q
  let o1 : Obs := match e with
    | .newIf => { o with links := {}, addrs := {} }
    | .done => if o.q.link then { o with links := { o.links with got := o.links.got || o.links.asked } } else { o with addrs := { o.addrs with got := o.addrs.got || o.addrs.asked } }
    | .bad => o
  { q := r.1, links := { o1.links with asked := o1.links.asked || r.2.contains LINKS }, addrs := { o1.addrs with asked := o1.addrs.asked || r.2.contains ADDRS } }

/-- no query in progress -/
def Q.idle (q : Q) : Bool := !q.link && !q.addr

/-- answers come only to queries -/
def legal : Obs → List QEv → Prop
  | _, [] => True
  | o, e :: es => (e = .newIf ∨ o.q.idle = false) ∧ legal (obs o e) es

/-! ### lemmas: the machine is finite -/

/-- all states that can occur -/
def Ok (o : Obs) : Bool :=
  !(o.q.link && o.q.addr) && (!o.q.idle || (!o.q.tlink && !o.q.taddr)) && (o.links.got || o.q.tlink || (o.q.link && o.links.asked)) && (o.addrs.got || o.q.taddr || (o.q.addr && o.addrs.asked)) &&
    (!o.links.got || o.links.asked) && (!o.addrs.got || o.addrs.asked)

theorem ok_new : ∀ (a b c d e f g h : Bool), (!(a && b) && (!(!a && !b) || (!c && !d))) = true → Ok (obs ⟨⟨a, b, c, d⟩, ⟨e, f⟩, ⟨g, h⟩⟩ .newIf) = true := by decide +kernel

theorem ok_done : ∀ (a b c d e f g h : Bool), Ok ⟨⟨a, b, c, d⟩, ⟨e, f⟩, ⟨g, h⟩⟩ = true → (a || b) = true → Ok (obs ⟨⟨a, b, c, d⟩, ⟨e, f⟩, ⟨g, h⟩⟩ .done) = true := by decide +kernel

theorem ok_bad : ∀ (a b c d e f g h : Bool), Ok ⟨⟨a, b, c, d⟩, ⟨e, f⟩, ⟨g, h⟩⟩ = true → (a || b) = true → Ok (obs ⟨⟨a, b, c, d⟩, ⟨e, f⟩, ⟨g, h⟩⟩ .bad) = true := by decide +kernel

theorem ok_three : ∀ (a b c d e f g h : Bool), Ok ⟨⟨a, b, c, d⟩, ⟨e, f⟩, ⟨g, h⟩⟩ = true →
    (let o : Obs := ⟨⟨a, b, c, d⟩, ⟨e, f⟩, ⟨g, h⟩⟩
     let o1 := if o.q.idle then o else obs o .done
     let o2 := if o1.q.idle then o1 else obs o1 .done
     let o3 := if o2.q.idle then o2 else obs o2 .done
     o3.q.idle) = true := by decide +kernel

theorem idle_ok : ∀ (a b c d e f g h : Bool), Ok ⟨⟨a, b, c, d⟩, ⟨e, f⟩, ⟨g, h⟩⟩ = true → (!a && !b) = true → e = true ∧ f = true ∧ g = true ∧ h = true := by decide +kernel

theorem obs_ok (o : Obs) (e : QEv) (h : Ok o = true) (hl : e = .newIf ∨ o.q.idle = false) : Ok (obs o e) = true := by
  obtain ⟨⟨a, b, c, d⟩, ⟨e1, f⟩, ⟨g, i⟩⟩ := o
  cases e with
  | newIf =>
    apply ok_new
    unfold Ok at h
    simp only [Bool.and_eq_true] at h
    obtain ⟨⟨⟨⟨⟨h1, h2⟩, _⟩, _⟩, _⟩, _⟩ := h
    simp only [Bool.and_eq_true]
    exact ⟨h1, h2⟩
  | done =>
    have hl' := hl.resolve_left (fun h => by cases h)
    refine ok_done a b c d e1 f g i h ?_
    cases a <;> cases b <;> simp [Q.idle] at hl' ⊢
  | bad =>
    have hl' := hl.resolve_left (fun h => by cases h)
    refine ok_bad a b c d e1 f g i h ?_
    cases a <;> cases b <;> simp [Q.idle] at hl' ⊢

theorem run_ok (es : List QEv) : ∀ o : Obs, Ok o = true → legal o es → Ok (es.foldl obs o) = true := by
  induction es with
  | nil => intro o h _; exact h
  | cons e es ih => intro o h hl; exact ih (obs o e) (obs_ok o e h hl.1) hl.2

/-! ### C187 -/

/-- Queries that fail are repeated: whenever no query is in progress, both a query of the links and one of the addresses have been made after the last
interface was added, and have ended well. -/
theorem C187_both (es : List QEv) (hl : legal {} (.newIf :: es)) (hi : ((QEv.newIf :: es).foldl obs {}).q.idle = true) :
    ((QEv.newIf :: es).foldl obs {}).links = ⟨true, true⟩ ∧ ((QEv.newIf :: es).foldl obs {}).addrs = ⟨true, true⟩ := by
  have h := run_ok es (obs {} .newIf) (by decide) hl.2
  rw [List.foldl_cons] at hi ⊢
  generalize es.foldl obs (obs {} .newIf) = o at h hi
  obtain ⟨⟨a, b, c, d⟩, ⟨e1, f⟩, ⟨g, i⟩⟩ := o
  obtain ⟨rfl, rfl, rfl, rfl⟩ := idle_ok a b c d e1 f g i h hi
  exact ⟨rfl, rfl⟩

/-- At most three queries that end well suffice after any history. -/
theorem C187_three (es : List QEv) (hl : legal {} (.newIf :: es)) :
    ∃ k, k ≤ 3 ∧ legal ((QEv.newIf :: es).foldl obs {}) (List.replicate k .done) ∧ ((List.replicate k QEv.done).foldl obs ((QEv.newIf :: es).foldl obs {})).q.idle = true := by
  have h := run_ok es (obs {} .newIf) (by decide) hl.2
  rw [List.foldl_cons]
  generalize es.foldl obs (obs {} .newIf) = o at h
  have h3 : (let o1 := if o.q.idle then o else obs o .done
     let o2 := if o1.q.idle then o1 else obs o1 .done
     let o3 := if o2.q.idle then o2 else obs o2 .done
     o3.q.idle) = true := by
    obtain ⟨⟨a, b, c, d⟩, ⟨e1, f⟩, ⟨g, i⟩⟩ := o
    exact ok_three a b c d e1 f g i h
  simp only at h3
  cases i0 : o.q.idle with
  | true => exact ⟨0, by omega, trivial, i0⟩
  | false =>
    rw [i0] at h3
    simp only [Bool.false_eq_true, if_false] at h3
    cases i1 : (obs o .done).q.idle with
    | true => exact ⟨1, by omega, ⟨.inr i0, trivial⟩, i1⟩
    | false =>
      rw [i1] at h3
      simp only [Bool.false_eq_true, if_false] at h3
      cases i2 : (obs (obs o .done) .done).q.idle with
      | true => exact ⟨2, by omega, ⟨.inr i0, .inr i1, trivial⟩, i2⟩
      | false =>
        rw [i2] at h3
        simp only [Bool.false_eq_true, if_false] at h3
        exact ⟨3, by omega, ⟨.inr i0, .inr i1, .inr i2, trivial⟩, h3⟩

/-- never two queries at a time -/
theorem C187_single (es : List QEv) (hl : legal {} (.newIf :: es)) :
    ¬ (((QEv.newIf :: es).foldl obs {}).q.link = true ∧ ((QEv.newIf :: es).foldl obs {}).q.addr = true) := by
  have h := run_ok es (obs {} .newIf) (by decide) hl.2
  rw [List.foldl_cons]
  rintro ⟨h1, h2⟩
  unfold Ok at h
  rw [h1, h2] at h
  simp at h

/-! ### on a netlink socket -/

/-- a new interface -/
def ADD : Netlink.Ev Q := .act newIf

/-- The queries are stuck: one is said to be in progress, but nobody waits for the socket, the kernel or the timer. -/
def Stuck (st : State Q) : Prop := st.client.idle = false ∧ st.write = false ∧ st.timer = false

theorem stuck_step (st : State Q) (h : Stuck st) (e : Netlink.Ev Q) (he : e = ADD ∨ e = .timeout ∨ ∃ r, e = .writable r) :
    Stuck (step qcb st e) ∧ (step qcb st e).left = st.left := by
  obtain ⟨h1, h2, h3⟩ := h
  rcases he with rfl | rfl | ⟨r, rfl⟩
  · have e1 : newIf st.client = ({ st.client with tlink := true, taddr := true }, []) := by
      unfold newIf queryLinks
      have : (st.client.link || st.client.addr) = true := by
        unfold Q.idle at h1
        cases hl : st.client.link <;> cases ha : st.client.addr <;> simp [hl, ha] at h1 ⊢
      simp only
      rw [if_pos this]
    simp only [ADD, step, e1, sendAll]
    exact ⟨⟨h1, h2, h3⟩, rfl⟩
  · simp only [step, h3, Bool.false_eq_true, if_false]
    exact ⟨⟨h1, h2, h3⟩, trivial⟩
  · simp only [step, h2, Bool.false_eq_true, if_false]
    exact ⟨⟨h1, h2, h3⟩, trivial⟩

/-- Once stuck, no query is ever sent again, although interfaces are added. -/
theorem C187_stuck_counterexample (st : State Q) (h : Stuck st) (es : List (Netlink.Ev Q)) (hes : ∀ e ∈ es, e = ADD ∨ e = .timeout ∨ ∃ r, e = .writable r) :
    wire (run qcb st es) = wire st := by
  have key : ∀ (es : List (Netlink.Ev Q)) (st : State Q), Stuck st → (∀ e ∈ es, e = ADD ∨ e = .timeout ∨ ∃ r, e = .writable r) → (run qcb st es).left = st.left := by
    intro es
    induction es with
    | nil => intro st _ _; rfl
    | cons e es ih =>
      intro st h hes
      have := stuck_step st h e (hes e List.mem_cons_self)
      exact (ih _ this.1 (fun x hx => hes x (List.mem_cons_of_mem _ hx))).trans this.2
  unfold wire
  rw [key es st h hes]

/-- One query that is not answered in time, or one that cannot be sent, is enough. -/
theorem C187_lost_counterexample : Stuck (run qcb (start {}) [ADD, .writable .ok, .timeout]) ∧ wire (run qcb (start {}) [ADD, .writable .ok, .timeout]) = [⟨1, 32⟩] ∧
    Stuck (run qcb (start {}) [ADD, .writable (.fail 105)]) ∧ wire (run qcb (start {}) [ADD, .writable (.fail 105)]) = [] ∧
    Stuck (run qcb (start {}) [ADD, .writable .again]) := by
  unfold Stuck
  decide +kernel

example : ((([QEv.newIf, .bad, .newIf, .done, .bad, .done, .done, .done, .done] : List QEv)).foldl obs {}).q.idle = true := by decide +kernel
example : legal {} [.newIf, .bad, .done, .done] := by
  refine ⟨.inl rfl, .inr ?_, .inr ?_, .inr ?_, trivial⟩ <;> decide +kernel
example : wire (run qcb (start {}) [ADD, .writable .ok, .datagram [.other 1, .done 1], .writable .ok, .datagram [.done 2]]) = [⟨1, 32⟩, ⟨2, 24⟩] := by decide +kernel

end Verif.OsIf
