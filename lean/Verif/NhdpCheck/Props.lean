import Verif.NhdpCheck.Model
import Verif.Codec.Lemmas

/-! # Properties of the checks of HELLO messages -/

namespace Verif.NhdpCheck

open Verif.Codec (timeDecode)

/-! ## Specification, after RFC 6130, section 12.1 -/

/-- the header: IPv4 or IPv6; if there, the hop limit is one and the hop count zero -/
def HeaderOk (h : Hello) : Prop := (h.addrLen = 4 ∨ h.addrLen = 16) ∧ (∀ x, h.hopLimit = some x → x = 1) ∧ (∀ x, h.hopCount = some x → x = 0)

/-- exactly one validity time and at most one interval time, each of one byte; the interval is not longer than the validity -/
def TimesOk (ts : List Tlv) : Prop :=
  ∃ v, ts.filter (fun x => x.type = 1) = [v] ∧ v.len = 1 ∧
    (ts.filter (fun x => x.type = 0) = [] ∨ ∃ i, ts.filter (fun x => x.type = 0) = [i] ∧ i.len = 1 ∧ timeDecode i.val ≤ timeDecode v.val)

/-- no type twice, values of one byte, and a local address is nothing else -/
def AddressOk (ts : List Tlv) : Prop :=
  (∀ t ∈ [2, 3, 4], (ts.filter fun x => x.type = t).length ≤ 1 ∧ ∀ x ∈ ts, x.type = t → x.len = 1) ∧
  ((∃ x ∈ ts, x.type = 2) → ∀ x ∈ ts, x.type ≠ 3 ∧ x.type ≠ 4)

/-! ## Lemmas -/

theorem start_iff (h : Hello) : start h = true ↔ HeaderOk h := by
  obtain ⟨al, hl, hc, ts, as⟩ := h
  unfold start HeaderOk
  by_cases ha : al ≠ 4 ∧ al ≠ 16
  · rw [if_pos ha]
    constructor
    · intro h; cases h
    · rintro ⟨h, _⟩; simp only at h; omega
  · rw [if_neg ha]
    have ha' : al = 4 ∨ al = 16 := by omega
    constructor
    · intro h
      refine ⟨ha', ?_, ?_⟩
      · intro x hx
        subst hx
        split at h
        · rename_i he; simpa using he
        · rename_i he; cases he
        · cases h
      · intro x hx
        subst hx
        split at h
        · split at h
          · rename_i he; simpa using he
          · rename_i he; cases he
          · cases h
        · split at h
          · rename_i he; simpa using he
          · rename_i he; cases he
          · cases h
        · cases h
    · rintro ⟨_, h1, h2⟩
      cases hl with
      | none =>
        cases hc with
        | none => rfl
        | some c => have := h2 c rfl; subst this; rfl
      | some l =>
        have := h1 l rfl
        subst this
        cases hc with
        | none => rfl
        | some c => have := h2 c rfl; subst this; rfl

/-- codes are compared instead of times; that is the same, since larger codes mean longer times -/
theorem decode_strict : ∀ c, c < 255 → 24 ≤ c → timeDecode c < timeDecode (c + 1) := by decide +kernel

theorem messageTlvs_iff (ts : List Tlv) : messageTlvs ts = true ↔
    ∃ v, ofType ts 1 = [v] ∧ v.len = 1 ∧ (ofType ts 0 = [] ∨ ∃ i, ofType ts 0 = [i] ∧ i.len = 1 ∧ i.val ≤ v.val) := by
  unfold messageTlvs
  cases h1 : ofType ts 1 with
  | nil => simp
  | cons v l =>
    cases l with
    | cons _ _ => simp
    | nil =>
      simp only [List.cons.injEq, and_true, exists_eq_left']
      by_cases hv : v.len = 1
      · simp only [hv, ne_eq, not_true_eq_false, if_false, true_and]
        cases h0 : ofType ts 0 with
        | nil => simp
        | cons i l =>
          cases l with
          | cons _ _ => simp
          | nil =>
            simp only [List.cons.injEq, and_true, exists_eq_left', reduceCtorEq, false_or]
            by_cases hi : i.len = 1
            · by_cases hc : i.val > v.val
              · simp [hi, hc]
              · simp [hi, hc]; omega
            · simp [hi]
      · simp [hv]

theorem single_iff (ts : List Tlv) : single ts = true ↔ ts.length ≤ 1 ∧ ∀ x ∈ ts, x.len = 1 := by
  unfold single
  cases ts with
  | nil => simp
  | cons a l =>
    cases l with
    | nil => simp
    | cons b l => simp

theorem single_ofType (ts : List Tlv) (t : Nat) : single (ofType ts t) = true ↔ (ts.filter fun x => x.type = t).length ≤ 1 ∧ ∀ x ∈ ts, x.type = t → x.len = 1 := by
  rw [single_iff]
  unfold ofType
  simp only [List.mem_filter, decide_eq_true_eq, and_imp]

theorem addressTlvs_iff (ts : List Tlv) : addressTlvs ts = true ↔ AddressOk ts := by
  unfold addressTlvs AddressOk
  simp only [List.mem_cons, List.not_mem_nil, or_false, forall_eq_or_imp, forall_eq]
  rw [← single_ofType, ← single_ofType, ← single_ofType]
  have hn : ∀ t, ofType ts t ≠ [] ↔ ∃ x ∈ ts, x.type = t := by
    intro t
    unfold ofType
    rw [ne_eq, List.filter_eq_nil_iff]
    simp
  have hn' : ∀ t, ¬ ofType ts t ≠ [] ↔ ∀ x ∈ ts, x.type ≠ t := by
    intro t
    rw [hn]
    simp
  by_cases h2 : ∃ x ∈ ts, x.type = 2
  · have h2' := (hn 2).2 h2
    by_cases hs2 : single (ofType ts 2) = true
    · by_cases h3 : ofType ts 3 ≠ []
      · have : ¬ ∀ x ∈ ts, x.type ≠ 3 ∧ x.type ≠ 4 := by
          obtain ⟨x, hx, hx3⟩ := (hn 3).1 h3
          exact fun h => (h x hx).1 hx3
        rw [if_pos ⟨h2', .inr (.inl h3)⟩]; simp [h2, this]
      · by_cases h4 : ofType ts 4 ≠ []
        · have : ¬ ∀ x ∈ ts, x.type ≠ 3 ∧ x.type ≠ 4 := by
            obtain ⟨x, hx, hx4⟩ := (hn 4).1 h4
            exact fun h => (h x hx).2 hx4
          rw [if_pos ⟨h2', .inr (.inr h4)⟩]; simp [h2, this]
        · have h5 : ∀ x ∈ ts, x.type ≠ 3 ∧ x.type ≠ 4 := fun x hx => ⟨(hn' 3).1 h3 x hx, (hn' 4).1 h4 x hx⟩
          have e3 : ofType ts 3 = [] := Classical.not_not.1 h3
          have e4 : ofType ts 4 = [] := Classical.not_not.1 h4
          rw [if_neg (by rintro ⟨_, h | h | h⟩; rw [hs2] at h; cases h; exact h3 h; exact h4 h)]
          rw [e3, e4, hs2]
          rw [show single [] = true from rfl]
          simp only [Bool.true_eq_false, if_false, and_self, true_and, true_iff]
          exact fun _ => h5
    · have : single (ofType ts 2) = false := by simpa using hs2
      rw [if_pos ⟨h2', .inl this⟩]; simp [this]
  · have e2 : ofType ts 2 = [] := Classical.not_not.1 (fun h => h2 ((hn 2).1 h))
    rw [if_neg (fun h => h2 ((hn 2).1 h.1))]
    simp only [h2, false_implies, and_true, e2]
    rw [show single [] = true from rfl]
    cases single (ofType ts 3) <;> simp

/-! ## C214 -/

/-- the callbacks by themselves test what they should -/
theorem C214_callbacks (h : Hello) (ts : List Tlv) : (start h = true ↔ HeaderOk h) ∧ (addressTlvs ts = true ↔ AddressOk ts) := ⟨start_iff h, addressTlvs_iff ts⟩

/-- a HELLO that passes has a correct header and correct times -/
theorem C214_passes_partial (h : Hello) (hb : ∀ x ∈ h.tlvs, x.val ≤ 255) (hp : passes h = true) : HeaderOk h ∧ TimesOk h.tlvs := by
  simp only [passes, Bool.and_eq_true, Consumer.accepts, messageConsumer, Bool.false_eq_true, if_false] at hp
  refine ⟨(start_iff h).1 hp.1.1, ?_⟩
  obtain ⟨v, h1, h2, h3⟩ := (messageTlvs_iff _).1 hp.1.2
  refine ⟨v, h1, h2, ?_⟩
  have hv : v ∈ h.tlvs := by
    have : v ∈ ofType h.tlvs 1 := by rw [h1]; exact List.mem_singleton.2 rfl
    exact (List.mem_filter.1 this).1
  rcases h3 with h3 | ⟨i, h3, h4, h5⟩
  · exact .inl h3
  · exact .inr ⟨i, h3, h4, Verif.Codec.timeDecode_mono h5 (hb v hv)⟩

/-- a HELLO that is correct passes, if no TLV of the message has one of the types that are for addresses, and the validity time is at least
eight milliseconds (below, different codes may mean the same time) -/
theorem C214_complete_partial (h : Hello) (h1 : HeaderOk h) (h2 : TimesOk h.tlvs) (hb : ∀ x ∈ h.tlvs, x.val ≤ 255) (h24 : ∀ x ∈ h.tlvs, x.type = 1 → 24 ≤ x.val)
    (h3 : ∀ x ∈ h.tlvs, x.type ≠ 2 ∧ x.type ≠ 3 ∧ x.type ≠ 4) : passes h = true := by
  have hstrict : ∀ (n c : Nat), 24 ≤ c → c + n + 1 ≤ 255 → timeDecode c < timeDecode (c + n + 1) := by
    intro n
    induction n with
    | zero => intro c hc hn; exact decode_strict c (by omega) hc
    | succ n ih => intro c hc hn; exact Nat.lt_trans (ih c hc (by omega)) (decode_strict (c + n + 1) (by omega) (by omega))
  simp only [passes, Bool.and_eq_true, Consumer.accepts, messageConsumer, addressConsumer, Bool.false_eq_true, if_false]
  refine ⟨⟨(start_iff h).2 h1, ?_⟩, ?_⟩
  · obtain ⟨v, a, b, c⟩ := h2
    refine (messageTlvs_iff _).2 ⟨v, a, b, ?_⟩
    have hv : v ∈ h.tlvs ∧ v.type = 1 := by
      have : v ∈ h.tlvs.filter (fun x => x.type = 1) := by rw [a]; exact List.mem_singleton.2 rfl
      simpa using this
    rcases c with c | ⟨i, c, d, e⟩
    · exact .inl c
    · refine .inr ⟨i, c, d, ?_⟩
      have hi : i ∈ h.tlvs := by
        have : i ∈ h.tlvs.filter (fun x => x.type = 0) := by rw [c]; exact List.mem_singleton.2 rfl
        exact (List.mem_filter.1 this).1
      apply Nat.le_of_not_lt
      intro hlt
      have hb' := hb i hi
      have := hstrict (i.val - v.val - 1) v.val (h24 v hv.1 hv.2) (by omega)
      rw [show v.val + (i.val - v.val - 1) + 1 = i.val by omega] at this
      omega
  · rw [addressTlvs_iff]
    refine ⟨?_, ?_⟩
    · intro t ht
      have hno : ∀ x ∈ h.tlvs, x.type ≠ t := by
        intro x hx e
        have := h3 x hx
        simp only [List.mem_cons, List.not_mem_nil, or_false] at ht
        omega
      have : (h.tlvs.filter fun x => x.type = t) = [] := by
        rw [List.filter_eq_nil_iff]
        intro x hx
        simpa using hno x hx
      rw [this]
      exact ⟨Nat.zero_le _, fun x hx e => absurd e (hno x hx)⟩
    · rintro ⟨x, hx, e⟩
      exact absurd e (h3 x hx).1

def demo : Hello := ⟨4, some 1, some 0, [⟨1, 1, 100⟩, ⟨0, 1, 90⟩], [[⟨2, 1, 0⟩], [⟨3, 1, 1⟩, ⟨4, 1, 1⟩]]⟩

example : passes demo = true ∧ passes { demo with hopLimit := some 2 } = false ∧ passes { demo with tlvs := [⟨1, 1, 80⟩, ⟨0, 1, 90⟩] } = false := by decide

/-- the addresses are not looked at: the consumer for them is registered as a consumer for messages -/
theorem C214_addresses_counterexample (h : Hello) (as : List (List Tlv)) : passes { h with addrs := as } = passes h := rfl

example : ¬ AddressOk [⟨2, 1, 0⟩, ⟨2, 1, 0⟩, ⟨3, 9, 0⟩] ∧ passes { demo with addrs := [[⟨2, 1, 0⟩, ⟨2, 1, 0⟩, ⟨3, 9, 0⟩]] } = true := by
  refine ⟨?_, by decide⟩
  intro h
  have := (h.1 2 (by decide)).1
  revert this
  decide

/-- instead TLVs of messages are dropped that have nothing to do with this: types 2, 3 and 4 mean something else in messages -/
theorem C214_message_counterexample (h : Hello) (h2 : (h.tlvs.filter fun x => x.type = 3).length ≥ 2) : passes h = false := by
  have : addressTlvs h.tlvs ≠ true := by
    intro ha
    have := ((addressTlvs_iff _).1 ha).1 3 (by decide)
    omega
  have e : addressConsumer.accepts h = false := by
    simp only [Consumer.accepts, addressConsumer, Bool.false_eq_true, if_false]
    simpa using this
  unfold passes
  rw [e, Bool.and_false]

example : passes { demo with tlvs := demo.tlvs ++ [⟨3, 1, 0⟩, ⟨3, 1, 0⟩] } = false := by decide

end Verif.NhdpCheck
