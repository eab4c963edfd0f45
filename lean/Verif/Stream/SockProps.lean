/-
C152: the limit on TCP sessions; C154: closing and removing TCP sockets.
-/
import Verif.Stream.SockLemmas
namespace Verif.Stream

/-- **C152, accounting.**  For all histories: the counter of a socket is the
number of open admitted sessions, plus those whose initialisation failed,
minus the refused ones that have gone away. -/
theorem C152_counter (allowed : Nat) (ops : List KOp) :
    (krun allowed ops).counter =
      live (krun allowed ops).log + broken (krun allowed ops).log - turnedAway (krun allowed ops).log := by
  have h := (krun_count allowed ops).1
  unfold live
  omega

/-- **C152, the bound that holds.**  At any time the number of open admitted
sessions exceeds the configured limit by at most the number of clients that
have been turned away so far. -/
theorem C152_limit_partial (allowed : Nat) (ops : List KOp) :
    live (krun allowed ops).log ≤ allowed + turnedAway (krun allowed ops).log := by
  have h1 := C152_counter allowed ops
  have h2 := (krun_count allowed ops).2
  rw [krun_allowed] at h2
  omega

/-- As long as no refused client has gone away, the limit is kept. -/
theorem C152_limit_untouched_partial (allowed : Nat) (ops : List KOp)
    (h : turnedAway (krun allowed ops).log = 0) : live (krun allowed ops).log ≤ allowed := by
  have := C152_limit_partial allowed ops
  omega

/-- **C152, refusing.**  As long as no initialisation has failed, a client is
refused only if the limit is reached, and admitted whenever fewer sessions
are open than the limit allows. -/
theorem C152_refused_partial (allowed : Nat) (ops : List KOp) (id : Nat) (p : Bool)
    (hf : broken (krun allowed ops).log = 0)
    (hr : (krun allowed (.connect id true p :: ops)).log = (krun allowed ops).log ++ [.opened id true]) :
    (allowed : Int) ≤ live (krun allowed ops).log := by
  have h1 := C152_counter allowed ops
  have ha := krun_allowed allowed ops
  rw [krun] at hr
  generalize krun allowed ops = k at *
  simp only [kstep] at hr
  split at hr
  · unfold open' at hr
    by_cases hc : k.counter < (k.allowed : Int)
    · rw [if_pos hc] at hr
      simp at hr
    · rw [ha] at hc
      omega
  · exact absurd hr (by simp)

/-- The history in which a socket with all places taken turns a client away
and then admits another one, over and over. -/
def flood (allowed : Nat) : Nat → List KOp
  | 0 => (List.range allowed).reverse.map (fun i => .connect i true false) ++ [.add]
  | n + 1 =>
    .connect (allowed + 2 * n + 1) true false :: .close (allowed + 2 * n) ::
      .connect (allowed + 2 * n) true false :: flood allowed n

theorem fill_run (allowed m : Nat) (hm : m ≤ allowed) :
    let k := krun allowed ((List.range m).reverse.map (fun i => .connect i true false) ++ [.add])
    k.listed = true ∧ k.counter = m ∧ k.allowed = allowed ∧ admitted k.log = m ∧ ended k.log = 0 ∧
    ∀ x ∈ k.sess, x.id < m := by
  induction m with
  | zero =>
    refine ⟨rfl, rfl, rfl, rfl, rfl, ?_⟩
    intro x hx
    exact nomatch hx
  | succ m ih =>
    obtain ⟨h1, h2, h3, h4, h5, h6⟩ := ih (by omega)
    have hl : (List.range (m + 1)).reverse.map (fun i => KOp.connect i true false) ++ [KOp.add] =
        .connect m true false :: ((List.range m).reverse.map (fun i => .connect i true false) ++ [.add]) := by
      rw [List.range_succ, List.reverse_append]; rfl
    rw [hl]
    simp only [krun]
    generalize krun allowed ((List.range m).reverse.map (fun i => .connect i true false) ++ [.add]) = k at *
    have hc : k.listed = true ∧ (∀ x ∈ k.sess, x.id ≠ m) := ⟨h1, fun x hx => Nat.ne_of_lt (h6 x hx)⟩
    have hlt : k.counter < (k.allowed : Int) := by rw [h2, h3]; omega
    have hs : kstep k (.connect m true false) =
        { k with counter := k.counter + 1, sess := k.sess ++ [⟨m, false, false, false⟩], log := k.log ++ [.opened m false] } := by
      simp only [kstep]
      rw [if_pos hc]
      unfold open'
      rw [if_pos hlt]
      rfl
    rw [hs]
    refine ⟨h1, ?_, h3, ?_, ?_, ?_⟩
    · show k.counter + 1 = _
      omega
    · unfold admitted at *
      simp only [List.countP_append, List.countP_singleton]
      simpa using h4
    · unfold ended at *
      simp only [List.countP_append, List.countP_singleton]
      simpa using h5
    · intro x hx
      rcases List.mem_append.mp hx with h | h
      · exact Nat.lt_succ_of_lt (h6 x h)
      · rw [List.mem_singleton.mp h]
        exact Nat.lt_succ_self m

theorem flood_run (allowed n : Nat) :
    let k := krun allowed (flood allowed n)
    k.listed = true ∧ k.counter = allowed ∧ k.allowed = allowed ∧ live k.log = (allowed : Int) + n ∧
    ∀ x ∈ k.sess, x.id < allowed + 2 * n := by
  induction n with
  | zero =>
    obtain ⟨h1, h2, h3, h4, h5, h6⟩ := fill_run allowed allowed (Nat.le_refl _)
    refine ⟨h1, h2, h3, ?_, h6⟩
    unfold live
    show (admitted (krun allowed ((List.range allowed).reverse.map (fun i => .connect i true false) ++ [.add])).log : Int) -
      (ended (krun allowed ((List.range allowed).reverse.map (fun i => .connect i true false) ++ [.add])).log : Int) = _
    omega
  | succ n ih =>
    obtain ⟨h1, h2, h3, h4, h5⟩ := ih
    simp only [flood, krun]
    generalize krun allowed (flood allowed n) = k at *
    have hs1 : kstep k (.connect (allowed + 2 * n) true false) =
        { k with sess := k.sess ++ [⟨allowed + 2 * n, true, false, false⟩], log := k.log ++ [.opened (allowed + 2 * n) true] } := by
      simp only [kstep]
      rw [if_pos ⟨h1, fun x hx => Nat.ne_of_lt (h5 x hx)⟩]
      unfold open'
      rw [if_neg (by rw [h2, h3]; omega)]
      rfl
    rw [hs1]
    have hfind : (k.sess ++ [(⟨allowed + 2 * n, true, false, false⟩ : Ses)]).find?
        (fun x => x.id == allowed + 2 * n && !x.busy) = some ⟨allowed + 2 * n, true, false, false⟩ := by
      rw [List.find?_append]
      have : k.sess.find? (fun x => x.id == allowed + 2 * n && !x.busy) = none := by
        rw [List.find?_eq_none]
        intro x hx
        have := Nat.ne_of_lt (h5 x hx)
        simp [this]
      rw [this]
      simp
    have hs2 : kstep { k with sess := k.sess ++ [⟨allowed + 2 * n, true, false, false⟩], log := k.log ++ [.opened (allowed + 2 * n) true] } (.close (allowed + 2 * n)) =
        { k with counter := k.counter - 1, sess := k.sess, log := k.log ++ [.opened (allowed + 2 * n) true] ++ [.closed (allowed + 2 * n) true] } := by
      simp only [kstep, hfind, closeSes]
      congr 1
      rw [List.filter_append]
      have : k.sess.filter (fun y => y.id != allowed + 2 * n) = k.sess := by
        rw [List.filter_eq_self]
        intro x hx
        have := Nat.ne_of_lt (h5 x hx)
        simpa using this
      rw [this]
      simp
    rw [hs2]
    have hs3 : kstep { k with counter := k.counter - 1, sess := k.sess, log := k.log ++ [.opened (allowed + 2 * n) true] ++ [.closed (allowed + 2 * n) true] } (.connect (allowed + 2 * n + 1) true false) =
        { k with counter := k.counter - 1 + 1, sess := k.sess ++ [⟨allowed + 2 * n + 1, false, false, false⟩], log := k.log ++ [.opened (allowed + 2 * n) true] ++ [.closed (allowed + 2 * n) true] ++ [.opened (allowed + 2 * n + 1) false] } := by
      simp only [kstep]
      rw [if_pos ⟨h1, fun x hx => Nat.ne_of_lt (Nat.lt_succ_of_lt (h5 x hx))⟩]
      unfold open'
      rw [if_pos (by show k.counter - 1 < (k.allowed : Int); rw [h2, h3]; omega)]
      rfl
    rw [hs3]
    refine ⟨h1, ?_, h3, ?_, ?_⟩
    · show k.counter - 1 + 1 = _
      omega
    · unfold live admitted ended at *
      simp only [List.countP_append, List.countP_singleton]
      simp
      omega
    · intro x hx
      rcases List.mem_append.mp hx with h | h
      · have := h5 x h
        omega
      · rw [List.mem_singleton.mp h]
        show allowed + 2 * n + 1 < _
        omega

/-- **C152 is false.**  For every limit and every number there is a history in
which that many more sessions are open at the same time than the limit
allows: every client that is turned away lowers the counter when its refused
session ends. -/
theorem C152_limit_counterexample (allowed n : Nat) :
    ∃ ops, live (krun allowed ops).log = (allowed : Int) + n :=
  ⟨flood allowed n, (flood_run allowed n).2.2.2.1⟩

/-- **C152 is false for failed initialisations.**  They are never given back:
a socket whose first three sessions failed to initialise refuses every client
although no session is open at all. -/
theorem C152_leak_counterexample :
    ∃ ops, (krun 3 ops).sess = [] ∧ live (krun 3 ops).log = 0 ∧
      ∀ id p, (krun 3 (.connect id true p :: ops)).log = (krun 3 ops).log ++ [.opened id true] := by
  refine ⟨[.connect 2 false false, .connect 1 false false, .connect 0 false false, .add], by decide, by decide, ?_⟩
  intro id p
  rw [krun]
  have h : krun 3 [.connect 2 false false, .connect 1 false false, .connect 0 false false, .add] =
      ({ listed := true, counter := 3, allowed := 3, sess := [], busy := false, rem := false, corrupt := false, log := [.failed 0 false, .failed 1 false, .failed 2 false] } : Sock) := by decide
  rw [h]
  simp [kstep, open']

/-- Instance of the partial theorems: three places, three sessions, a fourth
client refused and still connected. -/
example :
    let ops := [KOp.connect 4 true true, .connect 3 true false, .connect 2 true false, .connect 1 true false, .add]
    turnedAway (krun 3 ops).log = 0 ∧ broken (krun 3 ops).log = 0 ∧ live (krun 3 ops).log = 3 ∧
    (krun 3 ops).log = (krun 3 (ops.drop 1)).log ++ [.opened 4 true] := by decide

/-! ### C154 -/

/-- **C154, every session ends once.**  In all histories, as long as the list
of sessions has not been reinitialised behind the back of its members, each
session that was created is either in the list of its socket or has been
closed, and none is closed twice. -/
theorem C154_once_partial (allowed : Nat) (ops : List KOp) (h : (krun allowed ops).corrupt = false) (id : Nat) :
    openedN id (krun allowed ops).log = closedN id (krun allowed ops).log +
      (if id ∈ (krun allowed ops).sess.map Ses.id then 1 else 0) :=
  (krun_list allowed ops).2 h id

/-- **C154, removal.**  Removing a socket, forced or while no event runs,
closes exactly the sessions without pending output and takes the socket out
of service; the others go on. -/
theorem C154_remove (allowed : Nat) (ops : List KOp) (force : Bool)
    (hl : (krun allowed ops).listed = true) (hb : force = true ∨ (krun allowed ops).busy = false) :
    let k := krun allowed ops
    let k' := krun allowed (.remove force :: ops)
    k'.listed = false ∧ k'.sess = k.sess.filter (fun x => x.pend || x.busy) ∧
    k'.log = k.log ++ (k.sess.filter (fun x => !(x.pend || x.busy))).map (fun x => .closed x.id x.refused) := by
  have hn := (krun_list allowed ops).1
  simp only [krun, kstep]
  generalize krun allowed ops = k at *
  have hr : remove k force = { closeAll k with listed := false } := by
    unfold remove
    rw [if_neg (by rintro ⟨h1, h2⟩; rcases hb with h | h; exact h2 h; rw [h] at h1; exact nomatch h1), if_pos hl]
  rw [hr]
  have hfilt : k.sess.filter (fun x => !x.pend && !x.busy) = k.sess.filter (fun x => !(x.pend || x.busy)) := by
    apply List.filter_congr
    intro x _
    rw [Bool.not_or]
  obtain ⟨h1, h2⟩ := closeFold_eq (k.sess.filter (fun x => !x.pend && !x.busy)) k
  have hca : closeAll k = (k.sess.filter (fun x => !x.pend && !x.busy)).foldl closeSes k := by
    unfold closeAll; rw [if_pos hl]
  refine ⟨rfl, ?_, ?_⟩
  · show (closeAll k).sess = _
    rw [hca, h1]
    apply List.filter_congr
    intro y hy
    rw [Bool.eq_iff_iff, List.all_eq_true]
    constructor
    · intro h
      cases hp : (y.pend || y.busy) with
      | true => rfl
      | false =>
        have hm : y ∈ k.sess.filter (fun x => !x.pend && !x.busy) := by
          rw [hfilt]
          exact List.mem_filter.mpr ⟨hy, by rw [hp]; rfl⟩
        have := h y hm
        simp at this
    · intro hp x hx
      rw [hfilt] at hx
      obtain ⟨hx1, hx2⟩ := List.mem_filter.mp hx
      have hne : y.id ≠ x.id := by
        intro he
        have := nodup_id_eq hn hy hx1 he
        subst this
        rw [hp] at hx2
        exact nomatch hx2
      simpa using hne
  · show (closeAll k).log = _
    rw [hca, h2, hfilt]

/-- **C154, clean removal.**  If no session has pending output and no event
runs, removal leaves no session behind and the socket can be added again. -/
theorem C154_clean_partial (allowed : Nat) (ops : List KOp) (force : Bool)
    (hl : (krun allowed ops).listed = true) (hb : (krun allowed ops).busy = false)
    (hp : ∀ x ∈ (krun allowed ops).sess, x.pend = false ∧ x.busy = false)
    (hc : (krun allowed ops).corrupt = false) :
    (krun allowed (.remove force :: ops)).sess = [] ∧
    (krun allowed (.add :: .remove force :: ops)).corrupt = false := by
  obtain ⟨h1, h2, _⟩ := C154_remove allowed ops force hl (Or.inr hb)
  have h3 : (krun allowed (.remove force :: ops)).sess = [] := by
    rw [h2, List.filter_eq_nil_iff]
    intro x hx
    rw [(hp x hx).1, (hp x hx).2]
    decide
  refine ⟨h3, ?_⟩
  have h4 : (krun allowed (.remove force :: ops)).corrupt = false := by
    simp only [krun, kstep]
    rw [(remove_keeps _ _).2]; exact hc
  rw [krun]
  generalize krun allowed (.remove force :: ops) = k at *
  simp only [kstep, add]
  rw [if_neg (by rw [h1]; decide)]
  show (k.corrupt || !k.sess.isEmpty) = false
  rw [h4, h3]; rfl

/-- **C154, deferred.**  A removal without force during an event closes
nothing at once; the end of the event takes the socket out of service. -/
theorem C154_deferred (allowed : Nat) (ops : List KOp) (id : Nat) (p c : Bool)
    (hb : (krun allowed ops).busy = true)
    (hx : ∃ x ∈ (krun allowed ops).sess, x.id = id ∧ x.busy = true) :
    (krun allowed (.remove false :: ops)).sess = (krun allowed ops).sess ∧
    (krun allowed (.remove false :: ops)).log = (krun allowed ops).log ∧
    (krun allowed (.leave id p c :: .remove false :: ops)).listed = false := by
  have hr : krun allowed (.remove false :: ops) = { krun allowed ops with rem := true } := by
    simp only [krun, kstep, remove]
    rw [if_pos ⟨hb, (fun h => nomatch h)⟩]
  rw [hr]
  refine ⟨rfl, rfl, ?_⟩
  rw [krun, hr]
  generalize krun allowed ops = k at *
  have hfind : ∃ x, k.sess.find? (fun x => x.id == id && x.busy) = some x := by
    cases hf : k.sess.find? (fun x => x.id == id && x.busy) with
    | some x => exact ⟨x, rfl⟩
    | none =>
      obtain ⟨x, hm, h1, h2⟩ := hx
      have := List.find?_eq_none.mp hf x hm
      simp [h1, h2] at this
  obtain ⟨x, hf⟩ := hfind
  have gone : ∀ k2 : Sock, k2.busy = false → (remove k2 false).listed = false := by
    intro k2 hb2
    unfold remove
    rw [if_neg (by rintro ⟨h, _⟩; rw [hb2] at h; exact nomatch h)]
    split
    · rfl
    · rename_i h
      cases hx : k2.listed with
      | false => rfl
      | true => exact absurd hx h
  simp only [kstep, hf]
  have hrem : (endSes (idle { k with rem := true } id p) x c).rem = true := by
    unfold endSes
    split <;> rfl
  have hbusy : (endSes (idle { k with rem := true } id p) x c).busy = false := by
    unfold endSes
    split <;> rfl
  unfold lazyRemove
  rw [if_pos hrem]
  exact gone _ hbusy

/-- **C154 is false for forced removal** ("true if socket will be closed
immediately"): a session with pending output survives it, and adding the
socket again — which happens when its address changes — loses the session
from the list while it is still running. -/
theorem C154_force_counterexample :
    ∃ ops, (krun 3 (.remove true :: ops)).sess = [⟨1, false, true, false⟩] ∧
      (krun 3 (.add :: .remove true :: ops)).corrupt = true ∧
      (krun 3 (.add :: .remove true :: ops)).sess = [] ∧
      closedN 1 (krun 3 (.add :: .remove true :: ops)).log = 0 :=
  ⟨[.write 1, .connect 1 true false, .add], by decide⟩

/-- **C154 is false after a deferred removal**: the mark is never cleared, so
that a socket that was added again is removed by the end of the first event
of a new session, without anybody asking for it. -/
theorem C154_sticky_counterexample :
    ∃ ops, (∀ f, KOp.remove f ∉ ops) ∧
      let before := [KOp.leave 1 false true, .remove false, .enter 1, .connect 1 true false, .add]
      (krun 3 before).listed = false ∧ (krun 3 (ops.drop 1 ++ before)).listed = true ∧
      (krun 3 (ops ++ before)).listed = false := by
  refine ⟨[.leave 2 false false, .enter 2, .connect 2 true false, .add], ?_, by decide⟩
  intro f hf
  simp at hf

/-- Instances of the hypotheses of C154. -/
example :
    let ops := [KOp.enter 2, .connect 2 true false, .write 1, .connect 1 true false, .add]
    (krun 3 ops).listed = true ∧ (krun 3 ops).busy = true ∧ (krun 3 ops).corrupt = false ∧
    (krun 3 (ops.drop 1)).busy = false ∧ (krun 3 (ops.drop 1)).sess.length = 2 ∧
    (∃ x ∈ (krun 3 ops).sess, x.id = 2 ∧ x.busy = true) := by decide

end Verif.Stream
