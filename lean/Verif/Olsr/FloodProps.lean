import Verif.Olsr.Flood
import Verif.Olsr.OrigProps
import Verif.DupSet.SetProps

/-
C47: a TC message is forwarded only for a symmetric neighbor that selected this node as flooding MPR, at most once, and
not if it is an own message.
-/
namespace Verif.Olsr
open Verif.Netaddr (Netaddr AF_INET)
open Verif.DupSet (Key isNew entryAdd SetOp setStep setRun NoReset totalAdvance accesses)

/-! ### specification -/

/-- the neighbor a message came from, on the interface NHDP knows it on: it selected this node as flooding MPR, and is
symmetric; if the originator has the other address family the neighbor of the dualstack partner has to be symmetric -/
def Selector (m : Tc) (i : Input) : Prop :=
  ∃ links src l, i.iface = some (false, some links) ∧ i.src = some src ∧ links src = some l ∧ l.floodingMpr = true ∧
    ((m.orig.type = src.type ∧ 0 < l.symmetric) ∨ (m.orig.type ≠ src.type ∧ ∃ n, l.partner = some n ∧ 0 < n))

/-- complete header of a message of another node for this interface -/
structure Valid (st : Flood) (m : Tc) : Prop where
  orig : m.hasOrig = true
  hopcount : m.hasHopcount = true
  hoplimit : m.hasHoplimit = true
  seqno : m.hasSeqno = true
  foreign : isLocal st.orig m.orig = false
  active : m.active = true
  ext : m.ext = 0 ∨ m.ext = 1

/-- a valid message that came in over multicast from some source: it is checked against the forwarded set -/
def Checked (st : Flood) (m : Tc) (i : Input) : Prop :=
  m.constraints = true ∧ Valid st m ∧ (∃ links, i.iface = some (false, links)) ∧ ∃ src, i.src = some src

/-! ### lemmas -/

theorem fromSelector_iff (m : Tc) (i : Input) (links : Option (Netaddr → Option Link)) (src : Netaddr) (h1 : i.iface = some (false, links)) (h2 : i.src = some src) :
    fromSelector m links src = true ↔ Selector m i := by
  unfold fromSelector Selector
  constructor
  · intro h
    cases links with
    | none => cases h
    | some f =>
      dsimp only at h
      cases hl : f src with
      | none => rw [hl] at h; cases h
      | some l =>
        rw [hl] at h
        dsimp only at h
        by_cases ht : m.orig.type = src.type
        · rw [if_pos ht, Bool.and_eq_true, decide_eq_true_eq] at h
          exact ⟨f, src, l, h1, h2, hl, h.1, .inl ⟨ht, h.2⟩⟩
        · rw [if_neg ht] at h
          cases hp : l.partner with
          | none => rw [hp] at h; cases h
          | some n =>
            rw [hp] at h
            dsimp only at h
            rw [Bool.and_eq_true, decide_eq_true_eq] at h
            exact ⟨f, src, l, h1, h2, hl, h.1, .inr ⟨ht, n, hp, h.2⟩⟩
  · rintro ⟨f, s, l, e1, e2, hl, hm, h⟩
    rw [h1] at e1
    rw [h2] at e2
    injection e1 with e1
    injection e1 with _ e1
    injection e2 with e2
    subst e1
    subst e2
    dsimp only
    rw [hl]
    dsimp only
    rcases h with ⟨ht, h⟩ | ⟨ht, n, hp, h⟩
    · rw [if_pos ht, hm]; simpa using h
    · rw [if_neg ht, hp, hm]; simpa using h

/-- `_cb_messagetlvs` for messages that are not dropped -/
theorem messageTlvs_cases (st : Flood) (m : Tc) (i : Input) (hold : Nat) :
    (¬ Valid st m ∧ messageTlvs st m i hold = (⟨true, false, false⟩, st)) ∨
    (Valid st m ∧ messageTlvs st m i hold = (⟨false, !(shallForward st m i hold).1, (shallProcess (shallForward st m i hold).2 m hold).1⟩, (shallProcess (shallForward st m i hold).2 m hold).2)) := by
  unfold messageTlvs
  by_cases h1 : (!m.hasOrig || !m.hasHopcount || !m.hasHoplimit || !m.hasSeqno) = true
  · left
    rw [if_pos h1]
    refine ⟨?_, rfl⟩
    intro h
    rw [h.orig, h.hopcount, h.hoplimit, h.seqno] at h1
    cases h1
  · rw [if_neg h1]
    by_cases h2 : isLocal st.orig m.orig = true
    · left
      rw [if_pos h2]
      exact ⟨fun h => (by rw [h.foreign] at h2; cases h2), rfl⟩
    · rw [if_neg h2]
      by_cases h3 : (!m.active) = true
      · left
        rw [if_pos h3]
        exact ⟨fun h => (by rw [h.active] at h3; cases h3), rfl⟩
      · rw [if_neg h3]
        by_cases h4 : m.ext ≠ 0 ∧ m.ext ≠ 1
        · left
          rw [if_pos h4]
          exact ⟨fun h => (by have := h.ext; omega), rfl⟩
        · right
          rw [if_neg h4]
          refine ⟨⟨?_, ?_, ?_, ?_, ?_, ?_, ?_⟩, rfl⟩
          · revert h1; cases m.hasOrig <;> simp
          · revert h1; cases m.hasHopcount <;> simp
          · revert h1; cases m.hasHoplimit <;> simp
          · revert h1; cases m.hasSeqno <;> simp
          · simpa using h2
          · simpa using h3
          · omega

theorem shallForward_cases (st : Flood) (m : Tc) (i : Input) (hold : Nat) (h : Valid st m) :
    ((¬ ((∃ links, i.iface = some (false, links)) ∧ ∃ src, i.src = some src)) ∧ shallForward st m i hold = (false, st)) ∨
    (∃ links src, i.iface = some (false, links) ∧ i.src = some src ∧
      shallForward st m i hold = ((isNew (entryAdd .b16 st.forwarded (dupKey m.orig) m.seqno (m.vtime + hold)).1 && fromSelector m links src),
        { st with forwarded := (entryAdd .b16 st.forwarded (dupKey m.orig) m.seqno (m.vtime + hold)).2 })) := by
  unfold shallForward
  rw [h.orig, h.seqno, if_neg (by decide)]
  cases hi : i.iface with
  | none => exact .inl ⟨fun ⟨⟨l, h⟩, _⟩ => (by cases h), rfl⟩
  | some x =>
    obtain ⟨unicast, links⟩ := x
    cases hs : i.src with
    | none => exact .inl ⟨fun ⟨_, s, h⟩ => (by cases h), rfl⟩
    | some src =>
      cases unicast with
      | true => exact .inl ⟨fun ⟨⟨l, h⟩, _⟩ => (by injection h with h; cases h), rfl⟩
      | false =>
        right
        refine ⟨links, src, rfl, rfl, ?_⟩
        dsimp only
        rw [if_neg (by decide)]
        cases hn : isNew (entryAdd .b16 st.forwarded (dupKey m.orig) m.seqno (m.vtime + hold)).1 with
        | true => rw [if_pos rfl, Bool.true_and]
        | false => rw [if_neg (by decide), Bool.false_and]

theorem shallProcess_eq (st : Flood) (m : Tc) (hold : Nat) (ho : m.hasOrig = true) (hs : m.hasSeqno = true) :
    shallProcess st m hold = (isNew (entryAdd .b16 st.processed (dupKey m.orig) m.seqno (m.vtime + hold)).1,
      { st with processed := (entryAdd .b16 st.processed (dupKey m.orig) m.seqno (m.vtime + hold)).2 }) := by
  unfold shallProcess
  rw [ho, hs, if_neg (by decide)]

/-- reception of a message with all mandatory TLVs -/
theorem receive_forwarded (st : Flood) (m : Tc) (i : Input) (hold : Nat) (hc : m.constraints = true) :
    (receive st m i hold).1.forwarded = true ↔
      Valid st m ∧ 1 < m.hoplimit ∧ Selector m i ∧ isNew (entryAdd .b16 st.forwarded (dupKey m.orig) m.seqno (m.vtime + hold)).1 = true := by
  unfold receive
  rw [hc, if_pos rfl]
  rcases messageTlvs_cases st m i hold with ⟨h1, h2⟩ | ⟨h1, h2⟩
  · rw [h2]
    exact ⟨fun h => by simp at h, fun h => absurd h.1 h1⟩
  · rw [h2]
    dsimp only
    rw [h1.hoplimit]
    rcases shallForward_cases st m i hold h1 with ⟨h3, h4⟩ | ⟨links, src, h3, h4, h5⟩
    · rw [h4]
      refine ⟨fun h => by simp at h, fun ⟨_, _, ⟨f, s, l, e1, e2, _⟩, _⟩ => ?_⟩
      exact absurd ⟨⟨_, e1⟩, _, e2⟩ h3
    · rw [h5]
      have := fromSelector_iff m i links src h3 h4
      simp only [Bool.not_false, Bool.true_and, Bool.not_not, Bool.and_true, Bool.and_eq_true, decide_eq_true_eq, this]
      constructor
      · rintro ⟨⟨a, b⟩, c⟩; exact ⟨h1, c, b, a⟩
      · rintro ⟨_, c, b, a⟩; exact ⟨⟨a, b⟩, c⟩

/-- what a message does to the forwarded set -/
theorem receive_set (st : Flood) (m : Tc) (i : Input) (hold : Nat) :
    (Checked st m i → (receive st m i hold).2.forwarded = (entryAdd .b16 st.forwarded (dupKey m.orig) m.seqno (m.vtime + hold)).2) ∧
    (¬ Checked st m i → (receive st m i hold).2.forwarded = st.forwarded) := by
  unfold receive Checked
  cases hc : m.constraints with
  | false => exact ⟨fun h => (by cases h.1), fun _ => rfl⟩
  | true =>
    rw [if_pos rfl]
    rcases messageTlvs_cases st m i hold with ⟨h1, h2⟩ | ⟨h1, h2⟩
    · rw [h2]
      exact ⟨fun h => absurd h.2.1 h1, fun _ => rfl⟩
    · rw [h2]
      dsimp only
      rw [shallProcess_eq _ m hold h1.orig h1.seqno]
      dsimp only
      rcases shallForward_cases st m i hold h1 with ⟨h3, h4⟩ | ⟨links, src, h3, h4, h5⟩
      · rw [h4]
        exact ⟨fun h => absurd h.2.2 h3, fun _ => rfl⟩
      · rw [h5]
        exact ⟨fun _ => rfl, fun h => absurd ⟨rfl, h1, ⟨_, h3⟩, _, h4⟩ h⟩

/-- reception and the processed set -/
theorem receive_processed (st : Flood) (m : Tc) (i : Input) (hold : Nat) :
    (m.constraints = true ∧ Valid st m → (receive st m i hold).1.processed = isNew (entryAdd .b16 st.processed (dupKey m.orig) m.seqno (m.vtime + hold)).1 ∧
      (receive st m i hold).2.processed = (entryAdd .b16 st.processed (dupKey m.orig) m.seqno (m.vtime + hold)).2) ∧
    (¬ (m.constraints = true ∧ Valid st m) → (receive st m i hold).1.processed = false ∧ (receive st m i hold).2.processed = st.processed) := by
  unfold receive
  cases hc : m.constraints with
  | false => exact ⟨fun h => (by cases h.1), fun _ => ⟨rfl, rfl⟩⟩
  | true =>
    rw [if_pos rfl]
    rcases messageTlvs_cases st m i hold with ⟨h1, h2⟩ | ⟨h1, h2⟩
    · rw [h2]
      exact ⟨fun h => absurd h.2 h1, fun _ => ⟨rfl, rfl⟩⟩
    · rw [h2]
      have hp : (shallForward st m i hold).2.processed = st.processed := by
        rcases shallForward_cases st m i hold h1 with ⟨_, h4⟩ | ⟨_, _, _, _, h5⟩
        · rw [h4]
        · rw [h5]
      dsimp only
      rw [shallProcess_eq _ m hold h1.orig h1.seqno]
      dsimp only
      rw [hp]
      exact ⟨fun _ => ⟨rfl, rfl⟩, fun h => absurd ⟨rfl, h1⟩ h⟩

/-- which messages of a history are looked up in the forwarded set, and what expires there -/
inductive ForwardedOps (hold : Nat) : Flood → List FloodEvent → List SetOp → Prop
  | nil (st) : ForwardedOps hold st [] []
  | checked (st m i es ops) : Checked st m i → ForwardedOps hold (floodStep hold st (.receive m i)) es ops →
      ForwardedOps hold st (.receive m i :: es) (.add (dupKey m.orig) m.seqno (m.vtime + hold) :: ops)
  | ignored (st m i es ops) : ¬ Checked st m i → ForwardedOps hold (floodStep hold st (.receive m i)) es ops → ForwardedOps hold st (.receive m i :: es) ops
  | own (st e es ops) : ForwardedOps hold (floodStep hold st (.own e)) es ops → ForwardedOps hold st (.own e :: es) ops
  | expire (st k es ops) : ForwardedOps hold (floodStep hold st (.expireForwarded k)) es ops → ForwardedOps hold st (.expireForwarded k :: es) (.expire k :: ops)
  | other (st k es ops) : ForwardedOps hold (floodStep hold st (.expireProcessed k)) es ops → ForwardedOps hold st (.expireProcessed k :: es) ops

theorem forwardedOps_run {hold : Nat} {st : Flood} {es : List FloodEvent} {ops : List SetOp} (h : ForwardedOps hold st es ops) : (floodRun hold st es).forwarded = setRun .b16 st.forwarded ops := by
  induction h with
  | nil => rfl
  | checked st m i es ops h1 _ ih =>
    rw [show floodRun hold st (.receive m i :: es) = floodRun hold (floodStep hold st (.receive m i)) es from rfl, ih,
      show (floodStep hold st (.receive m i)).forwarded = _ from (receive_set st m i hold).1 h1]
    rfl
  | ignored st m i es ops h1 _ ih =>
    rw [show floodRun hold st (.receive m i :: es) = floodRun hold (floodStep hold st (.receive m i)) es from rfl, ih,
      show (floodStep hold st (.receive m i)).forwarded = _ from (receive_set st m i hold).2 h1]
  | own st e es ops _ ih => exact ih
  | expire st k es ops _ ih => exact ih
  | other st k es ops _ ih => exact ih

theorem forwardedOps_mem {hold : Nat} {st : Flood} {es : List FloodEvent} {ops : List SetOp} (h : ForwardedOps hold st es ops) :
    ∀ op ∈ ops, (∃ m i, .receive m i ∈ es ∧ op = .add (dupKey m.orig) m.seqno (m.vtime + hold)) ∨ ∃ k, .expireForwarded k ∈ es ∧ op = .expire k := by
  have up : ∀ {e : FloodEvent} {es : List FloodEvent} {op : SetOp}, ((∃ m i, .receive m i ∈ es ∧ op = .add (dupKey m.orig) m.seqno (m.vtime + hold)) ∨ ∃ k, .expireForwarded k ∈ es ∧ op = .expire k) →
      (∃ m i, .receive m i ∈ e :: es ∧ op = .add (dupKey m.orig) m.seqno (m.vtime + hold)) ∨ ∃ k, .expireForwarded k ∈ e :: es ∧ op = .expire k :=
    fun h => h.imp (fun ⟨m, i, h1, h2⟩ => ⟨m, i, List.mem_cons_of_mem _ h1, h2⟩) (fun ⟨k, h1, h2⟩ => ⟨k, List.mem_cons_of_mem _ h1, h2⟩)
  induction h with
  | nil => intro op h; cases h
  | checked st m i es ops _ _ ih =>
    intro op h
    rcases List.mem_cons.1 h with h | h
    · exact .inl ⟨m, i, List.mem_cons_self, h⟩
    · exact up (ih op h)
  | ignored st m i es ops _ _ ih => exact fun op h => up (ih op h)
  | own st e es ops _ ih => exact fun op h => up (ih op h)
  | expire st k es ops _ ih =>
    intro op h
    rcases List.mem_cons.1 h with h | h
    · exact .inr ⟨k, List.mem_cons_self, h⟩
    · exact up (ih op h)
  | other st k es ops _ ih => exact fun op h => up (ih op h)

theorem entryAdd_current {s : DupSet.Set} (h : ∀ k e, s k = some e → e.current < DupSet.Kind.b16.size) (key : Key) (seqno v : Nat) (hs : seqno < DupSet.Kind.b16.size) :
    ∀ k e, (entryAdd .b16 s key seqno v).2 k = some e → e.current < DupSet.Kind.b16.size := by
  intro k e he
  by_cases hk : k = key
  · subst hk
    cases hx : s k with
    | none =>
      rw [(DupSet.C06_entry_add .b16 s k seqno v).1 hx] at he
      simp only [DupSet.Set.put, if_true] at he
      injection he with he
      subst he
      exact hs
    | some x =>
      obtain ⟨_, y, h1, h2⟩ := DupSet.add_own .b16 s k seqno v x hx
      rw [h1] at he
      injection he with he
      subst he
      rw [← h2.2.1]
      exact DupSet.step_current_lt .b16 x (seqno, true) hs (h k x hx)
  · rw [(DupSet.C06_keys_independent .b16 s key k seqno v hk).1] at he
    exact h k e he

theorem current_run (hold : Nat) : ∀ (es : List FloodEvent) (st : Flood), (∀ m i, .receive m i ∈ es → m.seqno < 65536) →
    (∀ k e, st.forwarded k = some e → e.current < DupSet.Kind.b16.size) → ∀ k e, (floodRun hold st es).forwarded k = some e → e.current < DupSet.Kind.b16.size
  | [], _, _, h => h
  | ev :: es, st, hs, h => by
    refine current_run hold es _ (fun m i hm => hs m i (List.mem_cons_of_mem _ hm)) ?_
    intro k e he
    cases ev with
    | receive m i =>
      have he : (receive st m i hold).2.forwarded k = some e := he
      by_cases hc : Checked st m i
      · rw [(receive_set st m i hold).1 hc] at he
        exact entryAdd_current h _ _ _ (hs m i List.mem_cons_self) k e he
      · rw [(receive_set st m i hold).2 hc] at he
        exact h k e he
    | own e' => exact h k e he
    | expireForwarded k' =>
      have he : DupSet.expire st.forwarded k' k = some e := he
      simp only [DupSet.expire, DupSet.Set.put] at he
      split at he
      · cases he
      · exact h k e he
    | expireProcessed k' => exact h k e he

/-! ### C47 -/

/-- C47: a message with the mandatory message TLVs is forwarded exactly if its header is complete, it is not an own message,
its hop limit allows it, it came by multicast from a symmetric neighbor that selected this node as flooding MPR, and
its number is new in the forwarded set -/
theorem C47_forward_iff_partial (st : Flood) (m : Tc) (i : Input) (hold : Nat) (hc : m.constraints = true) :
    (receive st m i hold).1.forwarded = true ↔
      Valid st m ∧ 1 < m.hoplimit ∧ Selector m i ∧ isNew (entryAdd .b16 st.forwarded (dupKey m.orig) m.seqno (m.vtime + hold)).1 = true :=
  receive_forwarded st m i hold hc

/-- empty state of a node with the originator 10.0.0.9 -/
def flood0 : Flood := ⟨fun _ => none, fun _ => none, origRun (Orig.init 5) [.set (a4 9) 600 true]⟩
/-- a message of 10.0.0.n -/
def tc (n : UInt8) (seqno : Nat) : Tc := ⟨true, true, true, true, a4 n, 10, seqno, true, 0, 1000, true⟩
/-- input from 10.0.0.n where 10.0.0.1 is symmetric and selected this node, 10.0.0.2 is only symmetric -/
def from4 (n : UInt8) : Input := ⟨some (false, some fun a => if a = a4 1 then some ⟨true, 1, none⟩ else if a = a4 2 then some ⟨false, 1, none⟩ else none), some (a4 n)⟩

example : (receive flood0 (tc 5 7) (from4 1) 300).1.forwarded = true ∧ (receive flood0 (tc 5 7) (from4 2) 300).1.forwarded = false ∧ (receive flood0 (tc 9 7) (from4 1) 300).1.forwarded = false ∧
    (receive (receive flood0 (tc 5 7) (from4 1) 300).2 (tc 5 7) (from4 1) 300).1.forwarded = false := by decide +kernel

/-- C47: over all histories of a node.  After some history a message is forwarded; further events follow; then the same
message (same originator and number, with the mandatory TLVs) arrives again.  It is not forwarded again if the entry of its originator has not expired,
its numbers looked up in between did not look like a restart, and moved on by less than half of the number circle (C06). -/
theorem C47_once_partial (hold : Nat) (st0 : Flood) (pre es : List FloodEvent) (m m' : Tc) (i i' : Input) (ops : List SetOp) (e1 : DupSet.Entry)
    (h0 : st0.forwarded = fun _ => none) (hc : m.constraints = true) (hc' : m'.constraints = true) (horig : m'.orig = m.orig) (hseq : m'.seqno = m.seqno)
    (hnum : ∀ x j, .receive x j ∈ pre ++ .receive m i :: es → x.seqno < 65536)
    (hfwd : (receive (floodRun hold st0 pre) m i hold).1.forwarded = true)
    (hops : ForwardedOps hold (floodRun hold st0 (pre ++ [.receive m i])) es ops)
    (hexp : .expireForwarded (dupKey m.orig) ∉ es)
    (he1 : (floodRun hold st0 (pre ++ [.receive m i])).forwarded (dupKey m.orig) = some e1)
    (hquiet : NoReset .b16 e1 (accesses (dupKey m.orig) ops ++ [(m.seqno, true)])) (hadv : 2 * (31 + totalAdvance .b16 e1 (accesses (dupKey m.orig) ops)) ≤ 65536) :
    (receive (floodRun hold st0 (pre ++ .receive m i :: es)) m' i' hold).1.forwarded = false := by
  cases hf : (receive (floodRun hold st0 (pre ++ .receive m i :: es)) m' i' hold).1.forwarded with
  | false => rfl
  | true =>
    exfalso
    obtain ⟨_, _, _, hn2⟩ := (receive_forwarded _ m' i' hold hc').1 hf
    obtain ⟨hv, _, hsel, hn1⟩ := (receive_forwarded _ m i hold hc).1 hfwd
    have hck : Checked (floodRun hold st0 pre) m i := by
      obtain ⟨f, s, l, a, b, _⟩ := hsel
      exact ⟨hc, hv, ⟨_, a⟩, _, b⟩
    have e2 : floodRun hold st0 (pre ++ [.receive m i]) = (receive (floodRun hold st0 pre) m i hold).2 := by
      unfold floodRun
      rw [List.foldl_append]
      rfl
    have e3 : floodRun hold st0 (pre ++ .receive m i :: es) = floodRun hold (floodRun hold st0 (pre ++ [.receive m i])) es := by
      unfold floodRun
      rw [← List.foldl_append, List.append_assoc]
      rfl
    have hset := (receive_set (floodRun hold st0 pre) m i hold).1 hck
    rw [e2, hset] at he1
    rw [e3, forwardedOps_run hops, e2, hset, horig, hseq] at hn2
    have hlt : m.seqno < DupSet.Kind.b16.size := hnum m i (by simp)
    have := DupSet.C06_set_no_double_accept .b16 (floodRun hold st0 pre).forwarded (dupKey m.orig) m.seqno (m.vtime + hold) (m'.vtime + hold) ops e1
      (current_run hold pre st0 (fun x j hx => hnum x j (List.mem_append_left _ hx)) (fun k e he => by rw [h0] at he; cases he) _) hlt ?_ hn1 he1 ?_ hquiet hadv
    · rw [this] at hn2
      cases hn2
    · intro op hop k s v hkv
      rcases forwardedOps_mem hops op hop with ⟨x, j, hx, he⟩ | ⟨k', _, he⟩
      · have := hnum x j (List.mem_append_right _ (List.mem_cons_of_mem _ hx))
        rw [he] at hkv
        rcases hkv with hkv | hkv
        · injection hkv with _ h2 _
          rw [← h2]
          exact this
        · cases hkv
      · rw [he] at hkv
        rcases hkv with hkv | hkv <;> cases hkv
    · intro hm
      rcases forwardedOps_mem hops _ hm with ⟨x, j, _, he⟩ | ⟨k', hk, he⟩
      · cases he
      · injection he with he
        rw [← he] at hk
        exact hexp hk

/-- the history of `C47_once_partial` in small: the message comes again after a newer one -/
example : (receive (floodRun 300 flood0 [.receive (tc 5 7) (from4 1), .receive (tc 5 8) (from4 2), .receive (tc 6 7) (from4 1)]) (tc 5 7) (from4 1) 300).1.forwarded = false ∧
    (receive (floodRun 300 flood0 [.receive (tc 5 7) (from4 1), .receive (tc 5 8) (from4 2)]) (tc 6 7) (from4 1) 300).1.forwarded = true := by decide +kernel

/-- C47: a message is processed only if it is a valid message of another node whose number is new in the processed set -/
theorem C47_process_iff (st : Flood) (m : Tc) (i : Input) (hold : Nat) :
    (receive st m i hold).1.processed = true ↔ m.constraints = true ∧ Valid st m ∧ isNew (entryAdd .b16 st.processed (dupKey m.orig) m.seqno (m.vtime + hold)).1 = true := by
  by_cases h : m.constraints = true ∧ Valid st m
  · rw [((receive_processed st m i hold).1 h).1]
    exact ⟨fun h' => ⟨h.1, h.2, h'⟩, fun h' => h'.2.2⟩
  · rw [((receive_processed st m i hold).2 h).1]
    exact ⟨fun h' => (by cases h'), fun h' => absurd ⟨h'.1, h'.2.1⟩ h⟩

/-- a message without VALIDITY_TIME or CONT_SEQ_NUM is forwarded without any check: from nodes that are no neighbors,
repeatedly, and own messages too -/
theorem C47_unchecked_counterexample :
    let m : Tc := { tc 9 7 with constraints := false }
    isLocal flood0.orig m.orig = true ∧ (receive flood0 m (from4 3) 300).1.forwarded = true ∧ (receive (receive flood0 m (from4 3) 300).2 m (from4 3) 300).1.forwarded = true := by decide +kernel

/-- a message that was first heard from a neighbor that did not select this node is not forwarded when a selector sends
it: the number is entered in the forwarded set although the message was not forwarded -/
theorem C47_selector_ignored_counterexample :
    (receive flood0 (tc 5 7) (from4 1) 300).1.forwarded = true ∧ (receive flood0 (tc 5 7) (from4 2) 300).1.forwarded = false ∧
    (receive (receive flood0 (tc 5 7) (from4 2) 300).2 (tc 5 7) (from4 1) 300).1.forwarded = false := by decide +kernel

end Verif.Olsr
