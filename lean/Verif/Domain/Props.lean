import Verif.Domain.Lemmas

/-
C64: the neighbor gets the MPR flags and the willingness the router has sent.
C65: metric of a neighbor.
C66: the router knows whether it is an MPR.
-/
namespace Verif.Domain
open Verif.Olsr (Domain Domains getByExt getByExt_self processMprtypes)

/-! ### C64 -/

/-- both routers have the same domain (extension) at every position both of them have -/
def SameOrder (s r : List Domain) : Prop := ∀ (i : Nat) (d e : Domain), s[i]? = some d → r[i]? = some e → d.ext = e.ext

/-- what the receiver has to know about a value by domain of the sender: the value for the domain with the same extension, the
default for a domain the sender does not have -/
def Received {β : Type} (sdoms rdoms : List Domain) (sent got : Nat → β) (default : β) : Prop :=
  ∀ r ∈ rdoms, (∀ s ∈ sdoms, s.ext = r.ext → got r.index = sent s.index) ∧ ((∀ s ∈ sdoms, s.ext ≠ r.ext) → got r.index = default)

theorem received_of {β : Type} {sdoms rdoms : List Domain} (hs : Domains sdoms) (hr : Domains rdoms) (ho : SameOrder sdoms rdoms)
    (sent got : Nat → β) (default : β) (h : ∀ r ∈ rdoms, got r.index = if r.index < sdoms.length then sent r.index else default) :
    Received sdoms rdoms sent got default := by
  intro r hrm
  constructor
  · intro s hsm he
    have hi : s.index = r.index := by
      rcases Nat.lt_trichotomy s.index r.index with hlt | heq | hlt
      · have hl : s.index < rdoms.length := Nat.lt_trans hlt (hr.lt hrm)
        have h1 : rdoms[s.index]? = some rdoms[s.index] := List.getElem?_eq_getElem hl
        have h2 := ho s.index s _ (hs.at hsm) h1
        have h3 := hr.ext _ r (List.getElem_mem hl) hrm (by rw [← h2, he])
        have h4 := hr.index _ _ h1
        rw [h3] at h4
        exact h4.symm
      · exact heq
      · have hl : r.index < sdoms.length := Nat.lt_trans hlt (hs.lt hsm)
        have h1 : sdoms[r.index]? = some sdoms[r.index] := List.getElem?_eq_getElem hl
        have h2 := ho r.index _ r h1 (hr.at hrm)
        have h3 := hs.ext _ s (List.getElem_mem hl) hsm (by rw [h2, he])
        have h4 := hs.index _ _ h1
        rw [h3] at h4
        exact h4
    have hl := hs.lt hsm
    rw [h r hrm, if_pos (by omega), hi]
  · intro hn
    rw [h r hrm, if_neg]
    intro hl
    have h1 : sdoms[r.index]? = some sdoms[r.index] := List.getElem?_eq_getElem hl
    exact hn _ (List.getElem_mem hl) (ho r.index _ r h1 (hr.at hrm))

/-- the sender includes an MPR_TYPES TLV iff it has more than one domain (nhdp_writer.c:268-272) -/
def sendsTypes (sdoms : List Domain) : Bool := decide (1 < sdoms.length)

theorem take_of_types {sdoms rdoms : List Domain} (hs : Domains sdoms) :
    ∃ n, processMprtypes rdoms (sendsTypes sdoms) = (rdoms.take n).map (·.ext) ∧ sdoms.length ≤ n ∧ (n = 1 ∨ n = 4) := by
  unfold processMprtypes sendsTypes
  by_cases h : 1 < sdoms.length
  · exact ⟨4, by rw [decide_eq_true h, if_pos rfl], hs.few, .inr rfl⟩
  · exact ⟨1, by rw [decide_eq_false h]; rfl, by omega, .inl rfl⟩

/-- C64 (partial, both routers must have the common domains in the same order, see `C64_order_counterexample`): the MPR TLV in a
HELLO tells the neighbor whether it is flooding MPR, and for every common domain whether it is routing MPR; for other domains it
is not.  What the neighbor knew before does not matter. -/
theorem C64_mpr_partial {sdoms rdoms : List Domain} (hs : Domains sdoms) (hr : Domains rdoms) (ho : SameOrder sdoms rdoms)
    (flood : Bool) (isMpr old : Nat → Bool) :
    encodeMpr sdoms flood isMpr ≠ [] ∧
      (processMpr rdoms (processMprtypes rdoms (sendsTypes sdoms)) (some (encodeMpr sdoms flood isMpr)) old).1 = flood ∧
      Received sdoms rdoms isMpr (processMpr rdoms (processMprtypes rdoms (sendsTypes sdoms)) (some (encodeMpr sdoms flood isMpr)) old).2 false := by
  obtain ⟨v, hv, hf, hb⟩ := encodeMpr_eq hs flood isMpr
  obtain ⟨n, hn, hln, _⟩ := take_of_types (sdoms := sdoms) (rdoms := rdoms) hs
  rw [hv, hn]
  refine ⟨by simp, hf, received_of hs hr ho _ _ _ ?_⟩
  intro r hrm
  have hlt : r.index < 4 := Nat.lt_of_lt_of_le (hr.lt hrm) hr.few
  show mprLoop rdoms [v] 0 _ _ r.index = _
  rw [mprLoop_eq hr v [] n _ r hrm, hb _ hlt, clear_eq _ _ r hrm]
  by_cases h : r.index < sdoms.length
  · rw [if_pos h, if_pos (by omega), decide_eq_true h]
    rfl
  · rw [if_neg h, decide_eq_false h]
    split <;> rfl

/-- C64: a HELLO without willingness TLV sets the willingness for flooding and for every domain to
`RFC7181_WILLINGNESS_NEVER` (0) -/
theorem C64_willingness_absent (rdoms : List Domain) (mprtypes : List Nat) :
    (processWill rdoms mprtypes none).1 = 0 ∧ ∀ d ∈ rdoms, (processWill rdoms mprtypes none).2 d.index = 0 :=
  ⟨rfl, fun _ _ => rfl⟩

/-- C64 (partial): the same for the willingness; a domain the sender does not have gets `RFC7181_WILLINGNESS_NEVER` -/
theorem C64_willingness_partial {sdoms rdoms : List Domain} (hs : Domains sdoms) (hr : Domains rdoms) (ho : SameOrder sdoms rdoms)
    (flood : Nat) (will : Nat → Nat) (hf : flood < 16) (hw : ∀ s ∈ sdoms, will s.index < 16) :
    ∃ v, encodeWill sdoms flood will = some v ∧ v ≠ [] ∧
      (processWill rdoms (processMprtypes rdoms (sendsTypes sdoms)) (some v)).1 = flood ∧
      Received sdoms rdoms will (processWill rdoms (processMprtypes rdoms (sendsTypes sdoms)) (some v)).2 0 := by
  have hw' : ∀ i, i < sdoms.length → will i < 16 := by
    intro i hi
    have := hs.index i _ (List.getElem?_eq_getElem hi)
    rw [← this]
    exact hw _ (List.getElem_mem hi)
  obtain ⟨v, hv, hl, h0, hb, hz⟩ := encodeWill_eq hs flood will hf hw'
  obtain ⟨n, hn, hln, _⟩ := take_of_types (sdoms := sdoms) (rdoms := rdoms) hs
  refine ⟨v, hv, ?_, h0, received_of hs hr ho _ _ _ ?_⟩
  · intro e
    rw [e] at hl
    simp at hl
  · intro r hrm
    show willLoop rdoms v 0 (processMprtypes rdoms (sendsTypes sdoms)) _ r.index = _
    have := willLoop_at hr v r hrm n 0 fun _ => 0
    rw [List.drop_zero] at this
    rw [hn, this]
    by_cases h : r.index < sdoms.length
    · rw [if_pos h, if_pos (by omega), hb _ h]
    · rw [if_neg h]
      split
      · exact hz _ (by omega)
      · rfl

def doms01 : List Domain := [⟨0, 0⟩, ⟨1, 1⟩]
def doms10 : List Domain := [⟨0, 1⟩, ⟨1, 0⟩]
def doms3 : List Domain := [⟨0, 0⟩, ⟨1, 1⟩, ⟨2, 7⟩]

theorem domains01 : Domains doms01 where
  index i d h := by
    match i with
    | 0 => cases h; rfl
    | 1 => cases h; rfl
  ext := (by decide : ∀ d ∈ doms01, ∀ e ∈ doms01, d.ext = e.ext → d = e) |> fun h d e hd he => h d hd e he
  nonempty := by decide
  few := by decide

theorem domains10 : Domains doms10 where
  index i d h := by
    match i with
    | 0 => cases h; rfl
    | 1 => cases h; rfl
  ext := (by decide : ∀ d ∈ doms10, ∀ e ∈ doms10, d.ext = e.ext → d = e) |> fun h d e hd he => h d hd e he
  nonempty := by decide
  few := by decide

theorem domains3 : Domains doms3 where
  index i d h := by
    match i with
    | 0 => cases h; rfl
    | 1 => cases h; rfl
    | 2 => cases h; rfl
  ext := (by decide : ∀ d ∈ doms3, ∀ e ∈ doms3, d.ext = e.ext → d = e) |> fun h d e hd he => h d hd e he
  nonempty := by decide
  few := by decide

/-- the premises of `C64_mpr_partial` and `C64_willingness_partial` can be met by routers with a different number of domains -/
example : Domains doms01 ∧ Domains doms3 ∧ SameOrder doms01 doms3 := by
  refine ⟨domains01, domains3, ?_⟩
  intro i d e hd he
  match i with
  | 0 => cases hd; cases he; rfl
  | 1 => cases hd; cases he; rfl

example : encodeMpr doms01 true (fun i => i == 1) = [5] := by decide
example : encodeWill doms3 7 (fun i => i + 3) = some [0x37, 0x54] := by decide

/-- C64, counterexample: with the same two domains in a different order the flag of one domain is taken for the other one; the list
in the MPR_TYPES TLV is not read (nhdp_domain.c:600-621) -/
theorem C64_order_counterexample :
    Domains doms01 ∧ Domains doms10 ∧
      ¬ Received doms01 doms10 (fun i => i == 1)
        (processMpr doms10 (processMprtypes doms10 (sendsTypes doms01)) (some (encodeMpr doms01 false fun i => i == 1)) fun _ => false).2 false := by
  refine ⟨domains01, domains10, fun h => ?_⟩
  have := (h ⟨0, 1⟩ (by decide)).1 ⟨1, 1⟩ (by decide) rfl
  revert this
  decide

/-- C64, counterexample: a router with one other domain counts as MPR in the first own domain -/
theorem C64_other_counterexample :
    ¬ Received [⟨0, 9⟩] doms01 (fun _ => true)
      (processMpr doms01 (processMprtypes doms01 (sendsTypes [⟨0, 9⟩])) (some (encodeMpr [⟨0, 9⟩] false fun _ => true)) fun _ => false).2 false := by
  intro h
  have := (h ⟨0, 0⟩ (by decide)).2 (by decide)
  revert this
  decide

/-! ### C65 -/

/-- the minimum of the values, at most `bound` -/
def IsMin (bound : Nat) (vals : List Nat) (m : Nat) : Prop := (∀ v ∈ vals, m ≤ v) ∧ m ≤ bound ∧ (m = bound ∨ m ∈ vals)

/-- outgoing and incoming metrics of the symmetric links -/
def outs (links : List LinkM) : List Nat := (links.filter (·.sym)).map (·.mout)
def ins (links : List LinkM) : List Nat := (links.filter (·.sym)).map (·.min)

/-- invariant of the loop over the links -/
structure LoopInv (bm : Nat) (links : List LinkM) (s : NeighM × Bool) : Prop where
  mout : IsMin INFINITE (outs links) s.1.mout
  min : IsMin INFINITE (ins links) s.1.min
  some : ∀ l : LinkM, s.1.best = some l → l ∈ links ∧ l.sym = true ∧ l.mout = s.1.mout ∧ l.mout < INFINITE
  none : s.1.best = none → s.1.mout = INFINITE
  metric : s.1.bestMetric = bm
  changed : s.2 = true ↔ ∃ l ∈ links, l.sym = true ∧ ∃ t ∈ l.twohop, t.1 ≠ t.2

theorem isMin_snoc {b m v : Nat} {vals : List Nat} (h : IsMin b vals m) : IsMin b (vals ++ [v]) (if v < m then v else m) := by
  obtain ⟨h1, h2, h3⟩ := h
  split
  · refine ⟨fun w hw => ?_, by omega, .inr (by simp)⟩
    rcases List.mem_append.1 hw with hw | hw
    · have := h1 w hw
      omega
    · rw [List.mem_singleton.1 hw]
      exact Nat.le_refl _
  · refine ⟨fun w hw => ?_, h2, ?_⟩
    · rcases List.mem_append.1 hw with hw | hw
      · exact h1 w hw
      · rw [List.mem_singleton.1 hw]
        omega
    · rcases h3 with h3 | h3
      · exact .inl h3
      · exact .inr (List.mem_append.2 (.inl h3))

theorem loop_step {bm : Nat} {pre : List LinkM} {s : NeighM × Bool} (h : LoopInv bm pre s) (l : LinkM) : LoopInv bm (pre ++ [l]) (linkStep s l) := by
  cases hsym : l.sym with
  | false =>
    have e1 : outs (pre ++ [l]) = outs pre := by simp [outs, List.filter_append, hsym]
    have e2 : ins (pre ++ [l]) = ins pre := by simp [ins, List.filter_append, hsym]
    have e3 : linkStep s l = s := by simp [linkStep, hsym]
    rw [e3]
    refine ⟨e1 ▸ h.mout, e2 ▸ h.min, fun x hx => ?_, h.none, h.metric, ?_⟩
    · obtain ⟨a, b⟩ := h.some x hx
      exact ⟨List.mem_append.2 (.inl a), b⟩
    · rw [h.changed]
      constructor
      · rintro ⟨x, hx, hr⟩
        exact ⟨x, List.mem_append.2 (.inl hx), hr⟩
      · rintro ⟨x, hx, hr⟩
        rcases List.mem_append.1 hx with hx | hx
        · exact ⟨x, hx, hr⟩
        · rw [List.mem_singleton.1 hx, hsym] at hr
          cases hr.1
  | true =>
    have e1 : outs (pre ++ [l]) = outs pre ++ [l.mout] := by simp [outs, List.filter_append, hsym]
    have e2 : ins (pre ++ [l]) = ins pre ++ [l.min] := by simp [ins, List.filter_append, hsym]
    have e3 : linkStep s l = (⟨if l.min < s.1.min then l.min else s.1.min, if l.mout < s.1.mout then l.mout else s.1.mout,
        if l.mout < s.1.mout then some l else s.1.best, s.1.bestMetric⟩, s.2 || l.twohop.any fun t => t.1 != t.2) := by
      unfold linkStep
      rw [hsym]
      by_cases a : l.mout < s.1.mout <;> by_cases b : l.min < s.1.min <;> simp [a, b]
    rw [e3]
    refine ⟨e1 ▸ isMin_snoc h.mout, e2 ▸ isMin_snoc h.min, ?_, ?_, h.metric, ?_⟩
    · intro x hx
      dsimp only at hx ⊢
      by_cases a : l.mout < s.1.mout
      · rw [if_pos a] at hx ⊢
        injection hx with hx
        subst hx
        exact ⟨by simp, hsym, rfl, Nat.lt_of_lt_of_le a h.mout.2.1⟩
      · rw [if_neg a] at hx ⊢
        obtain ⟨p, q⟩ := h.some x hx
        exact ⟨List.mem_append.2 (.inl p), q⟩
    · intro hx
      dsimp only at hx ⊢
      by_cases a : l.mout < s.1.mout
      · rw [if_pos a] at hx
        cases hx
      · rw [if_neg a] at hx ⊢
        exact h.none hx
    · dsimp only
      rw [Bool.or_eq_true, h.changed, List.any_eq_true]
      constructor
      · rintro (⟨x, hx, hr⟩ | ⟨t, ht, hne⟩)
        · exact ⟨x, List.mem_append.2 (.inl hx), hr⟩
        · exact ⟨l, by simp, hsym, t, ht, by simpa using hne⟩
      · rintro ⟨x, hx, hr⟩
        rcases List.mem_append.1 hx with hx | hx
        · exact .inl ⟨x, hx, hr⟩
        · rw [List.mem_singleton.1 hx] at hr
          obtain ⟨_, t, ht, hne⟩ := hr
          exact .inr ⟨t, ht, by simpa using hne⟩

theorem loop_inv (bm : Nat) (post : List LinkM) : ∀ (pre : List LinkM) (s : NeighM × Bool), LoopInv bm pre s → LoopInv bm (pre ++ post) (post.foldl linkStep s) := by
  induction post with
  | nil => intro pre s h; simpa using h
  | cons l post ih =>
    intro pre s h
    rw [List.foldl_cons, List.append_cons]
    exact ih _ _ (loop_step h l)

theorem loop_start (n : NeighM) : LoopInv n.bestMetric [] ({ n with min := INFINITE, mout := INFINITE, best := none }, false) where
  mout := ⟨fun _ h => (by cases h), Nat.le_refl _, .inl rfl⟩
  min := ⟨fun _ h => (by cases h), Nat.le_refl _, .inl rfl⟩
  some _ h := by cases h
  none _ := rfl
  metric := rfl
  changed := by
    constructor
    · intro h; cases h
    · rintro ⟨_, h, _⟩; cases h

/-- `recalculate` by the state after the loop -/
theorem recalculate_eq (n : NeighM) (links : List LinkM) :
    ∃ s, LoopInv n.bestMetric links s ∧ (recalculate n links).1.mout = s.1.mout ∧ (recalculate n links).1.min = s.1.min ∧
      (recalculate n links).1.best = s.1.best ∧
      (recalculate n links).1.bestMetric = (if s.1.best = none then n.bestMetric else s.1.mout) ∧
      ((recalculate n links).2.2 = true ↔ s.2 = true ∨ (s.1.best ≠ none ∧ s.1.mout ≠ n.bestMetric)) := by
  have h := loop_inv n.bestMetric links [] _ (loop_start n)
  rw [List.nil_append] at h
  refine ⟨_, h, ?_⟩
  unfold recalculate
  dsimp only
  generalize List.foldl linkStep ({ n with min := INFINITE, mout := INFINITE, best := none }, false) links = s at h ⊢
  cases hb : s.1.best with
  | none =>
    dsimp only
    refine ⟨rfl, rfl, hb, by rw [if_pos rfl]; exact h.metric, ?_⟩
    constructor
    · exact .inl
    · rintro (h | ⟨h, _⟩)
      · exact h
      · exact absurd rfl h
  | some l =>
    dsimp only
    obtain ⟨_, _, hm, _⟩ := h.some l hb
    refine ⟨rfl, rfl, rfl, by rw [if_neg (by simp)]; exact hm, ?_⟩
    rw [h.metric, hm, Bool.or_eq_true, bne_iff_ne]
    constructor
    · rintro (h | h)
      · exact .inl h
      · exact .inr ⟨by simp, h.symm⟩
    · rintro (h | h)
      · exact .inl h
      · exact .inr h.2.symm

/-- C65: the metrics of a neighbor are the smallest metrics of its symmetric links (`RFC7181_METRIC_INFINITE` without such a
link); the best link is a symmetric link of the neighbor with the outgoing metric of the neighbor, and exists iff that is not
infinite.  The old values do not matter. -/
theorem C65_metric (n : NeighM) (links : List LinkM) :
    IsMin INFINITE (outs links) (recalculate n links).1.mout ∧ IsMin INFINITE (ins links) (recalculate n links).1.min ∧
      (∀ l, (recalculate n links).1.best = some l → l ∈ links ∧ l.sym = true ∧ l.mout = (recalculate n links).1.mout) ∧
      ((recalculate n links).1.best = none ↔ (recalculate n links).1.mout = INFINITE) := by
  obtain ⟨s, h, h1, h2, h3, _⟩ := recalculate_eq n links
  rw [h1, h2, h3]
  refine ⟨h.mout, h.min, fun l hl => ?_, h.none, ?_⟩
  · obtain ⟨a, b, c, _⟩ := h.some l hl
    exact ⟨a, b, c⟩
  · intro hi
    cases hb : s.1.best with
    | none => rfl
    | some l =>
      obtain ⟨_, _, c, d⟩ := h.some l hb
      rw [c, hi] at d
      exact absurd d (Nat.lt_irrefl _)

/-- C65 (partial): for a neighbor which was and still is reachable the result says exactly whether its outgoing metric or an outgoing
metric of a two-hop neighbor over one of the symmetric links has changed.  Missing: loss of the last link
(`C65_lost_counterexample`) and the incoming metric (`C65_incoming_counterexample`). -/
theorem C65_reported_partial (n₀ : NeighM) (links₀ links : List LinkM) (h₀ : (recalculate n₀ links₀).1.best ≠ none)
    (h : (recalculate (recalculate n₀ links₀).1 links).1.best ≠ none) :
    (recalculate (recalculate n₀ links₀).1 links).2.2 = true ↔
      (recalculate (recalculate n₀ links₀).1 links).1.mout ≠ (recalculate n₀ links₀).1.mout ∨
      ∃ l ∈ links, l.sym = true ∧ ∃ t ∈ l.twohop, t.1 ≠ t.2 := by
  obtain ⟨s, hs, h1, _, h3, h4, _⟩ := recalculate_eq n₀ links₀
  obtain ⟨s', hs', h1', _, h3', _, h5'⟩ := recalculate_eq (recalculate n₀ links₀).1 links
  rw [h5', h1', hs'.changed]
  rw [h3'] at h
  rw [h3] at h₀
  rw [if_neg h₀, ← h1] at h4
  rw [h4]
  constructor
  · rintro (h | ⟨_, h⟩)
    · exact .inr h
    · exact .inl h
  · rintro (h' | h')
    · exact .inr ⟨h, h'⟩
    · exact .inl h'

theorem used_same (p : LinkM → Nat) (hp : ∀ l : LinkM, ∀ t, p { l with twohop := t } = p l) (links : List LinkM) :
    ((links.map fun l => if l.sym then { l with twohop := l.twohop.map fun t => (t.1, t.1) } else l).filter (·.sym)).map p =
      (links.filter (·.sym)).map p := by
  induction links with
  | nil => rfl
  | cons l links ih =>
    rw [List.map_cons, List.filter_cons, List.filter_cons]
    cases hsym : l.sym with
    | false => simpa [hsym] using ih
    | true =>
      have e := hp l (l.twohop.map fun t => (t.1, t.1))
      rw [hsym] at e
      simp [e, ih]

/-- C65: after the calculation the two-hop metrics of the symmetric links count as used, so that the same links are not reported
again -/
theorem C65_settled (n : NeighM) (links : List LinkM) :
    (recalculate (recalculate n links).1 (recalculate n links).2.1).2.2 = false ∧
      (recalculate (recalculate n links).1 (recalculate n links).2.1).1.mout = (recalculate n links).1.mout ∧
      (recalculate (recalculate n links).1 (recalculate n links).2.1).1.min = (recalculate n links).1.min := by
  obtain ⟨s, hs, h1, h2, h3, h4, _⟩ := recalculate_eq n links
  obtain ⟨s', hs', h1', h2', h3', _, h5'⟩ := recalculate_eq (recalculate n links).1 (recalculate n links).2.1
  have hl : (recalculate n links).2.1 = links.map fun l => if l.sym then { l with twohop := l.twohop.map fun t => (t.1, t.1) } else l := by
    unfold recalculate
    dsimp only
    split <;> rfl
  have hcongr : ∀ (p : LinkM → Nat), (∀ l : LinkM, ∀ t, p { l with twohop := t } = p l) →
      (((recalculate n links).2.1).filter (·.sym)).map p = (links.filter (·.sym)).map p := by
    intro p hp
    rw [hl]
    exact used_same p hp links
  have hmin : ∀ {b : Nat} {vals : List Nat} {x y : Nat}, IsMin b vals x → IsMin b vals y → x = y := by
    intro b vals x y hx hy
    have a1 : x ≤ y := by
      rcases hy.2.2 with e | e
      · rw [e]; exact hx.2.1
      · exact hx.1 _ e
    have a2 : y ≤ x := by
      rcases hx.2.2 with e | e
      · rw [e]; exact hy.2.1
      · exact hy.1 _ e
    omega
  have ho : s'.1.mout = s.1.mout := by
    refine hmin hs'.mout ?_
    have := hcongr (·.mout) fun _ _ => rfl
    show IsMin INFINITE (List.map _ _) _
    rw [this]
    exact hs.mout
  have hi : s'.1.min = s.1.min := by
    refine hmin hs'.min ?_
    have := hcongr (·.min) fun _ _ => rfl
    show IsMin INFINITE (List.map _ _) _
    rw [this]
    exact hs.min
  refine ⟨?_, by rw [h1', h1, ho], by rw [h2', h2, hi]⟩
  cases hr : (recalculate (recalculate n links).1 (recalculate n links).2.1).2.2 with
  | false => rfl
  | true =>
    exfalso
    rcases h5'.1 hr with h | ⟨hb, hne⟩
    · obtain ⟨l, hlm, hsym, t, ht, hne⟩ := hs'.changed.1 h
      rw [hl] at hlm
      obtain ⟨l₀, _, e⟩ := List.mem_map.1 hlm
      by_cases h0 : l₀.sym = true
      · rw [if_pos h0] at e
        rw [← e] at ht
        obtain ⟨t₀, _, e'⟩ := List.mem_map.1 ht
        rw [← e'] at hne
        exact hne rfl
      · rw [if_neg h0] at e
        rw [e] at h0
        exact h0 hsym
    · obtain ⟨l, hl⟩ := Option.ne_none_iff_exists'.1 hb
      obtain ⟨_, _, c, d⟩ := hs'.some l hl
      have hb0 : s.1.best ≠ none := by
        intro e
        have := hs.none e
        omega
      rw [h4, if_neg hb0] at hne
      exact hne ho

def nobody : NeighM := ⟨0, 0, none, INFINITE⟩

/-- a neighbor with three links, the one with the best metric is not symmetric -/
def links3 : List LinkM := [⟨1, true, 10, 30, [(5, 5)]⟩, ⟨2, false, 1, 1, []⟩, ⟨3, true, 20, 20, []⟩]

example : (recalculate nobody links3).1.mout = 20 ∧ (recalculate nobody links3).1.min = 10 ∧ (recalculate nobody links3).1.best ≠ none ∧
    (recalculate (recalculate nobody links3).1 [⟨1, true, 10, 40, []⟩]).1.best ≠ none := by decide

/-- C65, counterexample: when the last link of a neighbor is lost, no change is reported although the outgoing metric becomes
infinite (`best_out_link_metric` is only compared if there is a best link, nhdp_domain.c:1064-1075) -/
theorem C65_lost_counterexample :
    (recalculate nobody links3).1.mout = 20 ∧ (recalculate (recalculate nobody links3).1 []).1.mout = INFINITE ∧
      (recalculate (recalculate nobody links3).1 []).2.2 = false := by decide

/-- C65, counterexample: a new incoming metric, which is what the TCs of this router contain, is not reported -/
theorem C65_incoming_counterexample :
    (recalculate nobody [⟨1, true, 10, 20, []⟩]).1.min = 10 ∧
      (recalculate (recalculate nobody [⟨1, true, 10, 20, []⟩]).1 [⟨1, true, 99, 20, []⟩]).1.min = 99 ∧
      (recalculate (recalculate nobody [⟨1, true, 10, 20, []⟩]).1 [⟨1, true, 99, 20, []⟩]).2.2 = false := by decide

/-! ### C66 -/

/-- the MPR TLV of a HELLO selects this router as routing MPR in one of its domains: bit 1 for the first domain etc., only the first
domain without MPR_TYPES TLV -/
def Claims (doms : List Domain) (types : Bool) (tlv : Option (List Nat)) : Prop :=
  ∃ v, tlv = some v ∧ ∃ i, i < (if types then doms.length else 1) ∧ v.getD 0 0 / 2 ^ (i + 1) % 2 = 1

/-- neighbor `n` is there after the events (latest first) -/
def Present : List SelEvent → Nat → Prop
  | [], _ => False
  | .hello _ _ _ :: h, n => Present h n
  | .add m :: h, n => m = n ∨ Present h n
  | .remove m :: h, n => m ≠ n ∧ Present h n

/-- neighbor `n` is there, and selected this router with its latest HELLO -/
def Selects (doms : List Domain) : List SelEvent → Nat → Prop
  | [], _ => False
  | .hello m types tlv :: h, n => if m = n then Present h n ∧ Claims doms types tlv else Selects doms h n
  | .add _ :: h, n => Selects doms h n
  | .remove m :: h, n => m ≠ n ∧ Selects doms h n

theorem processMpr_claims {doms : List Domain} (h : Domains doms) (types : Bool) (tlv : Option (List Nat)) (f : Nat → Bool) :
    (∃ d ∈ doms, (processMpr doms (processMprtypes doms types) tlv f).2 d.index = true) ↔ Claims doms types tlv := by
  unfold Claims
  cases tlv with
  | none =>
    constructor
    · rintro ⟨d, hd, e⟩
      rw [show (processMpr doms (processMprtypes doms types) none f).2 = clear doms f from rfl, clear_eq doms f d hd] at e
      cases e
    · rintro ⟨_, e, _⟩
      cases e
  | some v =>
    have hn : ∃ n, processMprtypes doms types = (doms.take n).map (·.ext) ∧ ∀ i, i < doms.length → (i < n ↔ i < if types then doms.length else 1) := by
      cases types with
      | true => exact ⟨4, rfl, fun i hi => ⟨fun _ => hi, fun _ => Nat.lt_of_lt_of_le hi h.few⟩⟩
      | false => exact ⟨1, rfl, fun i hi => Iff.rfl⟩
    obtain ⟨n, hn, hlt⟩ := hn
    rw [show (processMpr doms (processMprtypes doms types) (some v) f).2 = mprLoop doms v 0 (processMprtypes doms types) (clear doms f) from rfl, hn]
    have hpos : 0 < doms.length := List.length_pos_iff.2 h.nonempty
    cases v with
    | nil =>
      rw [mprLoop_nil]
      constructor
      · rintro ⟨d, hd, e⟩
        rw [clear_eq doms f d hd] at e
        cases e
      · rintro ⟨v, e, i, _, hb⟩
        injection e with e
        rw [← e] at hb
        simp at hb
    | cons x xs =>
      constructor
      · rintro ⟨d, hd, e⟩
        rw [mprLoop_eq h x xs n _ d hd] at e
        by_cases hi : d.index < n
        · rw [if_pos hi, bit_eq] at e
          exact ⟨_, rfl, d.index, (hlt _ (h.lt hd)).1 hi, by simpa using e⟩
        · rw [if_neg hi, clear_eq doms f d hd] at e
          cases e
      · rintro ⟨v, e, i, hi, hb⟩
        injection e with e
        rw [← e] at hb
        have hil : i < doms.length := by
          cases types with
          | true => exact hi
          | false =>
            have : i < 1 := hi
            omega
        refine ⟨doms[i], List.getElem_mem hil, ?_⟩
        have hix := h.index i _ (List.getElem?_eq_getElem hil)
        rw [mprLoop_eq h x xs n _ _ (List.getElem_mem hil), hix, if_pos ((hlt i hil).2 hi), bit_eq]
        simpa using hb

/-- the state against the history: the neighbors which are there, and for each whether it selected this router -/
def Agrees (doms : List Domain) (hist : List SelEvent) (s : Sel) : Prop :=
  (∀ n, (∃ x ∈ s.neighs, x.1 = n) ↔ Present hist n) ∧
    ∀ n, (∃ x ∈ s.neighs, x.1 = n ∧ ∃ d ∈ doms, x.2 d.index = true) ↔ Selects doms hist n

theorem agrees_step {doms : List Domain} (h : Domains doms) {hist : List SelEvent} {s : Sel} (ha : Agrees doms hist s) (e : SelEvent) :
    Agrees doms (e :: hist) (selStep doms s e) := by
  obtain ⟨hp, hsel⟩ := ha
  cases e with
  | hello m types tlv =>
    refine ⟨fun n => ?_, fun n => ?_⟩
    · show _ ↔ Present hist n
      rw [← hp n]
      constructor
      · rintro ⟨x, hx, rfl⟩
        obtain ⟨y, hy, e⟩ := List.mem_map.1 hx
        refine ⟨y, hy, ?_⟩
        rw [← e]
        split <;> rfl
      · rintro ⟨y, hy, rfl⟩
        refine ⟨_, List.mem_map.2 ⟨y, hy, rfl⟩, ?_⟩
        split <;> rfl
    · show _ ↔ (if m = n then Present hist n ∧ Claims doms types tlv else Selects doms hist n)
      by_cases hm : m = n
      · rw [if_pos hm, ← hp n]
        constructor
        · rintro ⟨x, hx, hxn, d, hd, hb⟩
          obtain ⟨y, hy, e⟩ := List.mem_map.1 hx
          have hy1 : y.1 = n := by
            rw [← hxn, ← e]
            split <;> rfl
          rw [if_pos (by rw [hy1, hm])] at e
          rw [← e] at hb
          exact ⟨⟨y, hy, hy1⟩, (processMpr_claims h types tlv y.2).1 ⟨d, hd, hb⟩⟩
        · rintro ⟨⟨y, hy, hy1⟩, hc⟩
          obtain ⟨d, hd, hb⟩ := (processMpr_claims h types tlv y.2).2 hc
          refine ⟨_, List.mem_map.2 ⟨y, hy, rfl⟩, ?_⟩
          rw [if_pos (by rw [hy1, hm])]
          exact ⟨hy1, d, hd, hb⟩
      · rw [if_neg hm, ← hsel n]
        constructor
        · rintro ⟨x, hx, hxn, d, hd, hb⟩
          obtain ⟨y, hy, e⟩ := List.mem_map.1 hx
          have hy1 : y.1 = n := by
            rw [← hxn, ← e]
            split <;> rfl
          rw [if_neg (by rw [hy1]; exact fun e => hm e.symm)] at e
          rw [← e] at hb
          exact ⟨y, hy, hy1, d, hd, hb⟩
        · rintro ⟨y, hy, hy1, d, hd, hb⟩
          refine ⟨_, List.mem_map.2 ⟨y, hy, rfl⟩, ?_⟩
          rw [if_neg (by rw [hy1]; exact fun e => hm e.symm)]
          exact ⟨hy1, d, hd, hb⟩
  | add m =>
    refine ⟨fun n => ?_, fun n => ?_⟩
    · show _ ↔ m = n ∨ Present hist n
      rw [← hp n]
      constructor
      · rintro ⟨x, hx, e⟩
        rcases List.mem_append.1 hx with hx | hx
        · exact .inr ⟨x, hx, e⟩
        · rw [List.mem_singleton.1 hx] at e
          exact .inl e
      · rintro (e | ⟨x, hx, e⟩)
        · exact ⟨(m, fun _ => false), List.mem_append.2 (.inr (List.mem_singleton.2 rfl)), e⟩
        · exact ⟨x, List.mem_append.2 (.inl hx), e⟩
    · show _ ↔ Selects doms hist n
      rw [← hsel n]
      constructor
      · rintro ⟨x, hx, e, d, hd, hb⟩
        rcases List.mem_append.1 hx with hx | hx
        · exact ⟨x, hx, e, d, hd, hb⟩
        · rw [List.mem_singleton.1 hx] at hb
          cases hb
      · rintro ⟨x, hx, r⟩
        exact ⟨x, List.mem_append.2 (.inl hx), r⟩
  | remove m =>
    have hmem : ∀ x : Nat × (Nat → Bool), x ∈ (selStep doms s (.remove m)).neighs ↔ x ∈ s.neighs ∧ x.1 ≠ m := by
      intro x
      show x ∈ List.filter _ _ ↔ _
      rw [List.mem_filter, decide_eq_true_iff]
    refine ⟨fun n => ?_, fun n => ?_⟩
    · show _ ↔ m ≠ n ∧ Present hist n
      rw [← hp n]
      constructor
      · rintro ⟨x, hx, e⟩
        obtain ⟨h1, h2⟩ := (hmem x).1 hx
        exact ⟨fun e' => h2 (by rw [e, e']), x, h1, e⟩
      · rintro ⟨h1, x, hx, e⟩
        exact ⟨x, (hmem x).2 ⟨hx, fun e' => h1 (by rw [← e, e'])⟩, e⟩
    · show _ ↔ m ≠ n ∧ Selects doms hist n
      rw [← hsel n]
      constructor
      · rintro ⟨x, hx, e, r⟩
        obtain ⟨h1, h2⟩ := (hmem x).1 hx
        exact ⟨fun e' => h2 (by rw [e, e']), x, h1, e, r⟩
      · rintro ⟨h1, x, hx, e, r⟩
        exact ⟨x, (hmem x).2 ⟨hx, fun e' => h1 (by rw [← e, e'])⟩, e, r⟩

theorem agrees_run {doms : List Domain} (h : Domains doms) (hist : List SelEvent) :
    Agrees doms hist (selRun doms ⟨[], false⟩ hist.reverse) := by
  induction hist with
  | nil =>
    refine ⟨fun n => ?_, fun n => ?_⟩
    · constructor
      · rintro ⟨_, hx, _⟩; cases hx
      · intro h; cases h
    · constructor
      · rintro ⟨_, hx, _⟩; cases hx
      · intro h; cases h
  | cons e hist ih =>
    have : selRun doms ⟨[], false⟩ (e :: hist).reverse = selStep doms (selRun doms ⟨[], false⟩ hist.reverse) e := by
      unfold selRun
      rw [List.reverse_cons, List.foldl_append]
      rfl
    rw [this]
    exact agrees_step h ih e

/-- C66 (partial, only when the latest event is a HELLO with an MPR TLV): after any sequence of HELLOs, new and removed neighbors
`nhdp_domain_node_is_mpr` tells whether there is a neighbor whose latest HELLO selected this router -/
theorem C66_selected_partial {doms : List Domain} (h : Domains doms) (hist : List SelEvent) (n : Nat) (types : Bool) (v : List Nat) :
    (selRun doms ⟨[], false⟩ (.hello n types (some v) :: hist).reverse).selected = true ↔ ∃ m, Selects doms (.hello n types (some v) :: hist) m := by
  obtain ⟨_, hsel⟩ := agrees_run h (.hello n types (some v) :: hist)
  have hs : (selRun doms ⟨[], false⟩ (SelEvent.hello n types (some v) :: hist).reverse).selected =
      anySelected doms (selRun doms ⟨[], false⟩ (SelEvent.hello n types (some v) :: hist).reverse).neighs := by
    unfold selRun
    rw [List.reverse_cons, List.foldl_append]
    rfl
  rw [hs]
  generalize (selRun doms ⟨[], false⟩ (SelEvent.hello n types (some v) :: hist).reverse) = s at hsel
  unfold anySelected
  rw [List.any_eq_true]
  constructor
  · rintro ⟨d, hd, e⟩
    obtain ⟨x, hx, hb⟩ := List.any_eq_true.1 e
    exact ⟨x.1, (hsel x.1).1 ⟨x, hx, rfl, d, hd, hb⟩⟩
  · rintro ⟨m, hm⟩
    obtain ⟨x, hx, _, d, hd, hb⟩ := (hsel m).2 hm
    exact ⟨d, hd, List.any_eq_true.2 ⟨x, hx, hb⟩⟩

example : ∃ m, Selects doms01 [.hello 2 true (some [1]), .hello 1 true (some [4]), .add 2, .add 1] m :=
  ⟨1, by
    show (if 2 = 1 then _ else _)
    rw [if_neg (by decide)]
    show (if 1 = 1 then _ else _)
    rw [if_pos rfl]
    exact ⟨.inr (.inl rfl), [4], rfl, 1, by decide, by decide⟩⟩

/-- C66, counterexample: after the only neighbor which selected this router is gone, the router still regards itself as MPR -/
theorem C66_removed_counterexample :
    (selRun doms01 ⟨[], false⟩ [.add 1, .hello 1 true (some [2]), .remove 1]).selected = true ∧
      ¬ ∃ m, Selects doms01 [.remove 1, .hello 1 true (some [2]), .add 1] m := by
  refine ⟨by decide, ?_⟩
  rintro ⟨m, h1, h2⟩
  change (if 1 = m then _ else _) at h2
  rw [if_neg h1] at h2
  exact h2

/-- C66, counterexample: a HELLO without MPR TLV resets the flag of the neighbor but not the answer (nhdp_domain.c:644-646) -/
theorem C66_absent_counterexample :
    (selRun doms01 ⟨[], false⟩ [.add 1, .hello 1 true (some [2]), .hello 1 true none]).selected = true ∧
      ¬ ∃ m, Selects doms01 [.hello 1 true none, .hello 1 true (some [2]), .add 1] m := by
  refine ⟨by decide, ?_⟩
  rintro ⟨m, h⟩
  change (if 1 = m then _ else (if 1 = m then _ else _)) at h
  by_cases hm : 1 = m
  · rw [if_pos hm] at h
    obtain ⟨_, e, _⟩ := h.2
    cases e
  · rw [if_neg hm, if_neg hm] at h
    exact h

end Verif.Domain
