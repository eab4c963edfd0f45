import Verif.Dlep.Ext
import Verif.Dlep.Props

/-! # C141, C142: rules of extensions and their negotiation -/

namespace Verif.Dlep

open Spec

variable {α : Type}

namespace Spec

/-- the message keeps the rules of the extension: if the extension knows the type of message, every mandatory TLV is
present, and no supported TLV is there twice unless this is allowed -/
def Complies (items : List Item) (sig : Int) (e : Ext α) : Prop :=
  ∀ s ∈ e.signals, s.id = sig → (∀ t ∈ s.mandatory, Spec.valuesOf items t ≠ []) ∧
    ∀ t ∈ s.supported, t ∉ s.duplicate → (Spec.valuesOf items t).length ≤ 1

/-- the callbacks of the active extensions for a type of message, one after the other until one fails -/
def callbacks (active : List Int) (sig : Int) : List (Ext α) → α → α × Bool
  | [], a => (a, true)
  | e :: l, a =>
    match (if e.id ∈ active then (e.signals.find? fun s => s.id == sig).bind Signal.process else none) with
    | none => callbacks active sig l a
    | some f => if (f a).2 then callbacks active sig l (f a).1 else ((f a).1, false)

/-- the result of a message after the callbacks: a failed one terminates the session -/
def finish (r : α × Bool) : α × Option PErr := (r.1, cond r.2 none (some .terminated))

/-- the tables of an extension make sense: types of messages differ, mandatory TLVs can be parsed -/
def TablesOk (table : List (Nat × Nat × Nat)) (e : Ext α) : Prop :=
  (e.signals.map Signal.id).Nodup ∧ ∀ s ∈ e.signals, ∀ t ∈ s.mandatory, ∃ x ∈ table, x.1 = t

end Spec

/-! ### lemmas -/

theorem idxs_length (items : List Item) (t : Nat) : (idxs items t).length = (Spec.valuesOf items t).length := by
  have := congrArg List.length (idxs_map t items)
  simpa using this

theorem get_first {buffer : Bytes} {table : List (Nat × Nat × Nat)} {items : List Item} {q : Parser}
    (h : Inv buffer table items q) {t : Nat} {tlv : Tlv} (ht : getTlv q.tlvs t = some tlv) :
    (tlv.first = none ↔ Spec.valuesOf items t = []) ∧ (tlv.first = tlv.last ↔ (Spec.valuesOf items t).length ≤ 1) ∧
      tlv.id = t := by
  obtain ⟨hm, rfl⟩ := getTlv_some ht
  have hl := h.link tlv hm
  have hn := idxs_length items tlv.id
  have hnd := idxs_nodup items tlv.id
  rw [hl.1, hl.2.1, ← hn, ← List.length_eq_zero_iff, ← hn]
  generalize idxs items tlv.id = l at *
  match l with
  | [] => simp
  | [a] => simp
  | a :: b :: r =>
    refine ⟨by simp, ?_, rfl⟩
    simp only [List.head?_cons, List.length_cons]
    rw [List.getLast?_cons_cons, List.getLast?_eq_some_getLast (by simp)]
    constructor
    · intro c
      have c := Option.some.inj c
      have : a ∈ b :: r := by rw [c]; exact List.getLast_mem (by simp)
      exact absurd this (List.nodup_cons.mp hnd).1
    · intro c; omega

theorem values_unknown {table : List (Nat × Nat × Nat)} {items : List Item} (ha : ∀ i ∈ items, Allowed table i) {t : Nat}
    (h : ∀ e ∈ table, e.1 ≠ t) : Spec.valuesOf items t = [] := by
  simp only [Spec.valuesOf, List.map_eq_nil_iff, List.filter_eq_nil_iff, decide_eq_true_eq]
  intro i hi c
  obtain ⟨_, _, e, he, hid, _⟩ := ha i hi
  exact h e he (hid.trans c)

theorem mandatory_iff {buffer : Bytes} {table : List (Nat × Nat × Nat)} {items : List Item} {q : Parser}
    (h : Inv buffer table items q) (l : List Nat) (hk : ∀ t ∈ l, ∃ x ∈ table, x.1 = t) :
    (mandatoryLoop q l = none ∧ ∀ t ∈ l, Spec.valuesOf items t ≠ []) ∨
    (mandatoryLoop q l = some .missingMandatory ∧ ∃ t ∈ l, Spec.valuesOf items t = []) := by
  induction l with
  | nil => exact .inl ⟨rfl, by simp⟩
  | cons t l ih =>
    obtain ⟨tlv, ht⟩ := get_known (p := q) (by rw [h.tab]; exact hk t (by simp))
    obtain ⟨h1, _, _⟩ := get_first h ht
    simp only [mandatoryLoop, ht]
    by_cases hv : Spec.valuesOf items t = []
    · rw [if_pos (h1.mpr hv)]
      exact .inr ⟨rfl, t, by simp, hv⟩
    · rw [if_neg (fun c => hv (h1.mp c))]
      rcases ih fun x hx => hk x (by simp [hx]) with ⟨a, b⟩ | ⟨a, x, hx, b⟩
      · refine .inl ⟨a, ?_⟩
        intro x hx
        rcases List.mem_cons.mp hx with rfl | hx
        · exact hv
        · exact b x hx
      · exact .inr ⟨a, x, by simp [hx], b⟩

theorem duplicate_iff {buffer : Bytes} {table : List (Nat × Nat × Nat)} {items : List Item} {q : Parser}
    (h : Inv buffer table items q) (ha : ∀ i ∈ items, Allowed table i) (dup l : List Nat) :
    (duplicateLoop q dup l = none ∧ ∀ t ∈ l, t ∉ dup → (Spec.valuesOf items t).length ≤ 1) ∨
    (duplicateLoop q dup l = some .duplicate ∧ ∃ t ∈ l, t ∉ dup ∧ 1 < (Spec.valuesOf items t).length) := by
  induction l with
  | nil => exact .inl ⟨rfl, by simp⟩
  | cons t l ih =>
    have next : ((∀ t' ∈ [t], t' ∉ dup → (Spec.valuesOf items t').length ≤ 1) → 
        duplicateLoop q dup (t :: l) = duplicateLoop q dup l) → 
        (∀ t' ∈ [t], t' ∉ dup → (Spec.valuesOf items t').length ≤ 1) →
        (duplicateLoop q dup (t :: l) = none ∧ ∀ t' ∈ t :: l, t' ∉ dup → (Spec.valuesOf items t').length ≤ 1) ∨
        (duplicateLoop q dup (t :: l) = some .duplicate ∧
          ∃ t' ∈ t :: l, t' ∉ dup ∧ 1 < (Spec.valuesOf items t').length) := by
      intro he hc
      rw [he hc]
      rcases ih with ⟨a, b⟩ | ⟨a, x, hx, b⟩
      · refine .inl ⟨a, ?_⟩
        intro x hx
        rcases List.mem_cons.mp hx with rfl | hx
        · exact hc x (by simp)
        · exact b x hx
      · exact .inr ⟨a, x, by simp [hx], b⟩
    cases ht : getTlv q.tlvs t with
    | none =>
      apply next
      · intro _; simp only [duplicateLoop, ht]
      · intro x hx _
        rw [List.mem_singleton.mp hx, values_unknown ha]
        · simp
        · intro e he hid
          obtain ⟨tlv, h'⟩ := get_known (p := q) (by rw [h.tab]; exact ⟨e, he, hid⟩)
          rw [ht] at h'
          exact nomatch h'
    | some tlv =>
      obtain ⟨_, h2, h3⟩ := get_first h ht
      by_cases hl : (Spec.valuesOf items t).length ≤ 1
      · apply next
        · intro _
          simp only [duplicateLoop, ht]
          rw [if_pos (h2.mpr hl)]
        · intro x hx _
          rw [List.mem_singleton.mp hx]
          exact hl
      · by_cases hd : t ∈ dup
        · apply next
          · intro _
            simp only [duplicateLoop, ht]
            rw [if_neg (fun c => hl (h2.mp c)), if_pos (by rw [h3]; simpa using hd)]
          · intro x hx hn
            rw [List.mem_singleton.mp hx] at hn
            exact absurd hd hn
        · refine .inr ⟨?_, t, by simp, hd, by omega⟩
          simp only [duplicateLoop, ht]
          rw [if_neg (fun c => hl (h2.mp c)), if_neg (by rw [h3]; simpa using hd)]

theorem find_signal {e : Ext α} (nd : (e.signals.map Signal.id).Nodup) {s : Signal α} (hs : s ∈ e.signals) :
    e.signals.find? (fun x => x.id == s.id) = some s := by
  induction h : e.signals generalizing e with
  | nil => rw [h] at hs; exact nomatch hs
  | cons x l ih =>
    rw [h] at hs nd
    rcases List.mem_cons.mp hs with rfl | hs
    · simp
    · have hne : x.id ≠ s.id := by
        intro c
        simp only [List.map_cons, List.nodup_cons] at nd
        exact nd.1 (c ▸ List.mem_map_of_mem hs)
      rw [List.find?_cons_of_neg (by simpa using hne)]
      exact ih (e := ⟨e.id, l, e.tlvs, e.deactivate⟩) (List.nodup_cons.mp nd).2 hs rfl

theorem complies_iff {e : Ext α} (nd : (e.signals.map Signal.id).Nodup) {items : List Item} {sig : Int} {s : Signal α}
    (hf : e.signals.find? (fun x => x.id == sig) = some s) : Complies items sig e ↔
      (∀ t ∈ s.mandatory, Spec.valuesOf items t ≠ []) ∧
        ∀ t ∈ s.supported, t ∉ s.duplicate → (Spec.valuesOf items t).length ≤ 1 := by
  have hs : s ∈ e.signals := List.mem_of_find?_eq_some hf
  have hid : s.id = sig := by simpa using List.find?_some hf
  constructor
  · intro h; exact h s hs hid
  · intro h s' hs' hid'
    have := find_signal nd hs'
    rw [hid', hf] at this
    cases Option.some.inj this
    exact h

/-- what happens for one active extension -/
theorem handle_one {buffer : Bytes} {table : List (Nat × Nat × Nat)} {items : List Item} {q : Parser}
    (h : Inv buffer table items q) (ha : ∀ i ∈ items, Allowed table i) {e : Ext α} (hok : TablesOk table e)
    {active : List Int} (hact : e.id ∈ active) (sig : Int) (a : α) :
    (∀ s, e.signals.find? (fun x => x.id == sig) = some s → 
      (Complies items sig e ∧ handleExtension q active e sig a = callProcessing e sig a) ∨
      (handleExtension q active e sig a = (a, some .missingMandatory) ∧ ∃ t ∈ s.mandatory, Spec.valuesOf items t = []) ∨
      (handleExtension q active e sig a = (a, some .duplicate) ∧
        ∃ t ∈ s.supported, t ∉ s.duplicate ∧ 1 < (Spec.valuesOf items t).length)) ∧
    (e.signals.find? (fun x => x.id == sig) = none → Complies items sig e ∧
      ((handleExtension q active e sig a = (a, none)) ∨
        (handleExtension q active e sig a = (a, some .duplicate) ∧ ∃ s, e.signals.getLast? = some s ∧
          ∃ t ∈ s.supported, t ∉ s.duplicate ∧ 1 < (Spec.valuesOf items t).length))) := by
  have hac : ¬ (active.contains e.id = false) := by simpa using hact
  constructor
  · intro s hf
    have hs : s ∈ e.signals := List.mem_of_find?_eq_some hf
    simp only [handleExtension, checkMandatory, checkDuplicate, duplicateSignal, hf]
    rw [if_neg hac]
    rcases mandatory_iff h s.mandatory (hok.2 s hs) with ⟨m1, m2⟩ | ⟨m1, m2⟩
    · rcases duplicate_iff h ha s.duplicate s.supported with ⟨d1, d2⟩ | ⟨d1, d2⟩
      · left
        simp only [m1, d1]
        exact ⟨(complies_iff hok.1 hf).mpr ⟨m2, d2⟩, trivial⟩
      · right; right
        simp only [m1, d1]
        exact ⟨trivial, d2⟩
    · right; left
      simp only [m1]
      exact ⟨trivial, m2⟩
  · intro hf
    refine ⟨?_, ?_⟩
    · intro s hs hid
      have := List.find?_eq_none.mp hf s hs
      simp [hid] at this
    · simp only [handleExtension, checkMandatory, checkDuplicate, duplicateSignal, hf]
      rw [if_neg hac]
      cases hl : e.signals.getLast? with
      | none => left; simp only [callProcessing, hf]
      | some s =>
        simp only
        rcases duplicate_iff h ha s.duplicate s.supported with ⟨d1, d2⟩ | ⟨d1, d2⟩
        · left; simp only [d1, callProcessing, hf]
        · right
          simp only [d1]
          exact ⟨trivial, s, rfl, d2⟩

/-! ### C141 -/

theorem parsed {buffer : Bytes} {length : Nat} {p : Parser} (hw : p.maxCount ≤ p.alloc)
    (nd : ((tableOf p).map Prod.fst).Nodup) (hlb : length ≤ buffer.length) (hs : length < 65536) {items : List Item}
    (h : buffer.take length = encode items) (a : ∀ i ∈ items, Allowed (tableOf p) i) :
    ∃ q, parseStream (fun _ => true) buffer length p = .ok q ∧ Inv buffer (tableOf p) items q := by
  rcases parse_verdict (mem := fun _ => true) hw nd hlb hs (.good h a) with ⟨n, _, hm, _⟩ | ⟨q, hq, he⟩
  · exact nomatch hm
  · exact ⟨q, he, hq⟩

theorem handle_all {buffer : Bytes} {table : List (Nat × Nat × Nat)} {items : List Item} {q : Parser}
    (h : Inv buffer table items q) (ha : ∀ i ∈ items, Allowed table i) (active : List Int) (sig : Int)
    (exts : List (Ext α)) (hok : ∀ e ∈ exts, TablesOk table e)
    (hc : ∀ e ∈ exts, e.id ∈ active → Complies items sig e)
    (h7 : ∀ e ∈ exts, e.id ∈ active → (∀ s ∈ e.signals, s.id ≠ sig) → ∀ s, e.signals.getLast? = some s →
      ∀ t ∈ s.supported, t ∉ s.duplicate → (Spec.valuesOf items t).length ≤ 1) : ∀ a : α,
    handleExtensions q active sig exts a = finish (callbacks active sig exts a) := by
  induction exts with
  | nil => intro a; rfl
  | cons e l ih =>
    intro a
    have ih := ih (fun x hx => hok x (by simp [hx])) (fun x hx => hc x (by simp [hx])) (fun x hx => h7 x (by simp [hx]))
    have hoke := hok e (by simp)
    simp only [handleExtensions, callbacks]
    by_cases hact : e.id ∈ active
    · rw [if_pos hact]
      have key := handle_one h ha hoke hact sig a
      cases hf : e.signals.find? (fun x => x.id == sig) with
      | none =>
        simp only [Option.bind_none]
        rcases (key.2 hf).2 with k | ⟨_, s, hl, t, ht, hd, h1⟩
        · rw [k]; exact ih a
        · have := h7 e (by simp) hact (fun x hx => by simpa using List.find?_eq_none.mp hf x hx) s hl t ht hd
          omega
      | some s =>
        have hcs := (complies_iff hoke.1 hf).mp (hc e (by simp) hact)
        rcases key.1 s hf with ⟨_, k⟩ | ⟨_, t, ht, hv⟩ | ⟨_, t, ht, hd, h1⟩
        · rw [k]
          simp only [callProcessing, hf, Option.bind_some]
          cases s.process with
          | none => exact ih a
          | some f =>
            simp only
            by_cases hr : (f a).2 = true
            · rw [if_pos hr, if_pos hr]; exact ih (f a).1
            · rw [if_neg hr, if_neg hr]; rfl
        · exact absurd hv (hcs.1 t ht)
        · have := hcs.2 t ht hd
          omega
    · rw [if_neg hact]
      have : handleExtension q active e sig a = (a, none) := by
        simp only [handleExtension]
        rw [if_pos (by simpa using hact)]
      rw [this]
      exact ih a

/-- A message with allowed TLVs which keeps the rules of all active extensions is handled by their callbacks, and by
nothing else.  (Missing: an extension which does not know the type of message applies the rule against double TLVs of
the last type it knows; the hypothesis `h7` says that this finds nothing.) -/
theorem C141_complies_partial (active : List Int) (sig : Int) (exts : List (Ext α)) (buffer : Bytes) (length : Nat)
    (p : Parser) (a : α) (hw : p.maxCount ≤ p.alloc) (nd : ((tableOf p).map Prod.fst).Nodup)
    (hlb : length ≤ buffer.length) (hs : length < 65536) (items : List Item) (h : buffer.take length = encode items)
    (ha : ∀ i ∈ items, Allowed (tableOf p) i) (hok : ∀ e ∈ exts, TablesOk (tableOf p) e)
    (hc : ∀ e ∈ exts, e.id ∈ active → Complies items sig e)
    (h7 : ∀ e ∈ exts, e.id ∈ active → (∀ s ∈ e.signals, s.id ≠ sig) → ∀ s, e.signals.getLast? = some s →
      ∀ t ∈ s.supported, t ∉ s.duplicate → (Spec.valuesOf items t).length ≤ 1) :
    ∃ q, processTlvs (fun _ => true) active sig exts buffer length p a =
      some (q, finish (callbacks active sig exts a)) := by
  obtain ⟨q, hq, hi⟩ := parsed hw nd hlb hs h ha
  refine ⟨q, ?_⟩
  simp only [processTlvs, hq]
  rw [handle_all hi ha active sig exts hok hc h7 a]

/-- A message which breaks a rule of an active extension is refused. -/
theorem C141_refused (active : List Int) (sig : Int) (exts : List (Ext α)) (buffer : Bytes) (length : Nat)
    (p : Parser) (a : α) (hw : p.maxCount ≤ p.alloc) (nd : ((tableOf p).map Prod.fst).Nodup)
    (hlb : length ≤ buffer.length) (hs : length < 65536) (items : List Item) (h : buffer.take length = encode items)
    (ha : ∀ i ∈ items, Allowed (tableOf p) i) (hok : ∀ e ∈ exts, TablesOk (tableOf p) e) (e : Ext α) (he : e ∈ exts)
    (hact : e.id ∈ active) (hc : ¬ Complies items sig e) :
    ∃ q b r, processTlvs (fun _ => true) active sig exts buffer length p a = some (q, b, some r) := by
  obtain ⟨q, hq, hi⟩ := parsed hw nd hlb hs h ha
  simp only [processTlvs, hq]
  have key : ∀ (exts : List (Ext α)) (a : α), (∀ e ∈ exts, TablesOk (tableOf p) e) → e ∈ exts →
      ∃ b r, handleExtensions q active sig exts a = (b, some r) := by
    intro exts
    induction exts with
    | nil => intro a _ h; exact nomatch h
    | cons x l ih =>
      intro a hok he
      simp only [handleExtensions]
      rcases hx : handleExtension q active x sig a with ⟨b, _ | r⟩
      · simp only
        rcases List.mem_cons.mp he with rfl | he
        · exfalso
          have k := handle_one hi ha (hok e (by simp)) hact sig a
          cases hf : e.signals.find? (fun x => x.id == sig) with
          | none => exact hc (k.2 hf).1
          | some s =>
            rcases k.1 s hf with ⟨k, _⟩ | ⟨k, _⟩ | ⟨k, _⟩
            · exact hc k
            · rw [hx] at k; exact nomatch k
            · rw [hx] at k; exact nomatch k
        · exact ih b (fun y hy => hok y (by simp [hy])) he
      · exact ⟨b, r, rfl⟩
  obtain ⟨b, r, hbr⟩ := key exts a hok he
  exact ⟨q, b, r, by rw [hbr]⟩

/-- an extension which knows message 7 with the mandatory TLV 1 and the optional TLV 7; it counts the messages -/
def countExt : Ext Nat := ⟨-1, [⟨7, [1, 7], [1], [7], some fun n => (n + 1, true)⟩], [(1, 1, 4), (7, 0, 65535)], true⟩

example : (processTlvs (fun _ => true) [-1] 7 [countExt] [0, 1, 0, 1, 9, 0, 7, 0, 0, 0, 7, 0, 0] 13 sampleParser 5).map
    (fun r => r.2) = some (6, none) ∧
    (processTlvs (fun _ => true) [-1] 7 [countExt] [0, 1, 0, 1, 9, 0, 1, 0, 1, 9] 10 sampleParser 5).map
    (fun r => r.2) = some (5, some .duplicate) ∧
    (processTlvs (fun _ => true) [-1] 7 [countExt] [0, 7, 0, 0] 4 sampleParser 5).map
    (fun r => r.2) = some (5, some .missingMandatory) := by
  decide +kernel

example : TablesOk (tableOf sampleParser) countExt := by
  refine ⟨by decide, ?_⟩
  intro s hs t ht
  simp only [countExt, List.mem_singleton] at hs
  subst hs
  simp only [List.mem_singleton] at ht
  subst ht
  exact ⟨(1, 1, 4), by decide +kernel, rfl⟩

/-- A message which is refused because of the second extension has already been handled by the first one. -/
theorem C141_effects_counterexample :
    (processTlvs (fun _ => true) [-1, 5] 7 [countExt, ⟨5, [⟨7, [7], [7], [], none⟩], [], true⟩] [0, 1, 0, 1, 9] 5
      sampleParser 5).map (fun r => r.2) = some (6, some .missingMandatory) := by
  decide +kernel

/-- A message of a type which no extension knows is ignored, although RFC 8175 demands to end the session. -/
theorem C141_unknown_counterexample (active : List Int) (sig : Int) (exts : List (Ext α)) (p : Parser) (a : α)
    (hu : ∀ e ∈ exts, ∀ s ∈ e.signals, s.id ≠ sig) (hw : p.maxCount ≤ p.alloc)
    (nd : ((tableOf p).map Prod.fst).Nodup) (hok : ∀ e ∈ exts, TablesOk (tableOf p) e) :
    ∃ q, processTlvs (fun _ => true) active sig exts [] 0 p a = some (q, a, none) := by
  obtain ⟨q, hq⟩ := C141_complies_partial active sig exts [] 0 p a hw nd (by simp) (by decide) [] rfl (by simp) hok
    (fun e he _ s hs hid => absurd hid (hu e he s hs)) (fun e he _ _ s _ t _ _ => by simp [Spec.valuesOf])
  have hcb : ∀ (exts : List (Ext α)) (a : α), (∀ e ∈ exts, ∀ s ∈ e.signals, s.id ≠ sig) →
      callbacks active sig exts a = (a, true) := by
    intro exts
    induction exts with
    | nil => intro a _; rfl
    | cons e l ih =>
      intro a hu
      have hf : e.signals.find? (fun s => s.id == sig) = none :=
        List.find?_eq_none.mpr fun s hs => by simpa using hu e (by simp) s hs
      simp only [callbacks, hf, Option.bind_none]
      have : (if e.id ∈ active then (none : Option (α → α × Bool)) else none) = none := by split <;> rfl
      rw [this]
      exact ih a fun x hx => hu x (by simp [hx])
  rw [hcb exts a hu] at hq
  exact ⟨q, hq⟩

/-- A message of an unknown type with two equal TLVs is refused by the rules for another type. -/
theorem C141_other_rules_counterexample :
    (processTlvs (fun _ => true) [-1] 9 [countExt] [0, 1, 0, 1, 9, 0, 1, 0, 1, 9] 10 sampleParser 5).map
    (fun r => r.2) = some (5, some .duplicate) ∧
    Complies [(1, [9]), (1, [9])] 9 countExt := by
  refine ⟨by decide +kernel, ?_⟩
  intro s hs hid
  simp only [countExt, List.mem_singleton] at hs
  subst hs
  exact absurd hid (by decide)

/-! ### lemmas about the allowed TLVs -/

/-- what an entry says -/
def entry (t : Tlv) : Nat × Nat × Nat := (t.id, t.min, t.max)

theorem allow_one {l : List (Tlv × Bool)} (nd : (l.map fun t => t.1.id).Nodup) (e : Nat × Nat × Nat) :
    (allowTlv l e = none ∧ ∃ x ∈ l, x.1.id = e.1 ∧ entry x.1 ≠ e) ∨
    ∃ l', allowTlv l e = some l' ∧ (l'.map fun t => t.1.id).Nodup ∧ (∀ x ∈ l, x.1.id = e.1 → entry x.1 = e) ∧
      (∀ y, (∃ x ∈ l', entry x.1 = y) ↔ (∃ x ∈ l, entry x.1 = y) ∨ y = e) ∧
      ∀ y, (∃ x ∈ l', x.2 = false ∧ entry x.1 = y) ↔ (∃ x ∈ l, x.2 = false ∧ entry x.1 = y) ∨ y = e := by
  have uniq : ∀ x ∈ l, ∀ y ∈ l, x.1.id = y.1.id → x = y := by
    clear e
    induction l with
    | nil => intro x hx; exact nomatch hx
    | cons a l ih =>
      simp only [List.map_cons, List.nodup_cons] at nd
      intro x hx y hy hxy
      rcases List.mem_cons.mp hx with rfl | hx' <;> rcases List.mem_cons.mp hy with rfl | hy'
      · rfl
      · exact absurd (List.mem_map.mpr ⟨y, hy', hxy.symm⟩) nd.1
      · exact absurd (List.mem_map.mpr ⟨x, hx', hxy⟩) nd.1
      · exact ih nd.2 x hx' y hy' hxy
  obtain ⟨i, mn, mx⟩ := e
  simp only [allowTlv]
  cases hf : l.find? (fun t => t.1.id == i) with
  | none =>
    right
    have hno : ∀ x ∈ l, x.1.id ≠ i := fun x hx => by simpa using List.find?_eq_none.mp hf x hx
    refine ⟨_, rfl, ?_, fun x hx h => absurd h (hno x hx), ?_, ?_⟩
    · rw [List.map_append, List.nodup_append]
      refine ⟨nd, by simp, ?_⟩
      intro a ha b hb
      obtain ⟨x, hx, rfl⟩ := List.mem_map.mp ha
      simp only [List.map_cons, List.map_nil, List.mem_singleton] at hb
      rw [hb]
      exact hno x hx
    · intro y
      simp only [List.mem_append, List.mem_singleton]
      constructor
      · rintro ⟨x, hx | rfl, rfl⟩
        · exact .inl ⟨x, hx, rfl⟩
        · exact .inr rfl
      · rintro (⟨x, hx, rfl⟩ | rfl)
        · exact ⟨x, .inl hx, rfl⟩
        · exact ⟨_, .inr rfl, rfl⟩
    · intro y
      simp only [List.mem_append, List.mem_singleton]
      constructor
      · rintro ⟨x, hx | rfl, hb, rfl⟩
        · exact .inl ⟨x, hx, hb, rfl⟩
        · exact .inr rfl
      · rintro (⟨x, hx, hb, rfl⟩ | rfl)
        · exact ⟨x, .inl hx, hb, rfl⟩
        · exact ⟨_, .inr rfl, rfl, rfl⟩
  | some t =>
    have ht : t ∈ l := List.mem_of_find?_eq_some hf
    have hid : t.1.id = i := by simpa using List.find?_some hf
    simp only
    by_cases hc : t.1.min ≠ mn ∨ t.1.max ≠ mx
    · left
      rw [if_pos hc]
      refine ⟨rfl, t, ht, hid, ?_⟩
      intro c
      simp only [entry, Prod.mk.injEq] at c
      rcases hc with hc | hc
      · exact hc c.2.1
      · exact hc c.2.2
    · right
      rw [if_neg hc]
      have hent : entry t.1 = (i, mn, mx) := by
        simp only [not_or, Classical.not_not] at hc
        simp [entry, hid, hc.1, hc.2]
      have hall : ∀ x ∈ l, x.1.id = i → entry x.1 = (i, mn, mx) := by
        intro x hx h
        rw [uniq x hx t ht (h.trans hid.symm)]
        exact hent
      refine ⟨_, rfl, ?_, hall, ?_, ?_⟩
      · rw [List.map_map]
        have : ((fun t : Tlv × Bool => t.1.id) ∘ fun t => if t.1.id = i then (t.1, false) else t) = fun t => t.1.id := by
          funext x
          simp only [Function.comp]
          split <;> rfl
        rw [this]
        exact nd
      · intro y
        simp only [List.mem_map]
        constructor
        · rintro ⟨x, ⟨z, hz, rfl⟩, rfl⟩
          left
          refine ⟨z, hz, ?_⟩
          split <;> rfl
        · have : ∀ z ∈ l, ∃ x, (∃ a ∈ l, (if a.1.id = i then (a.1, false) else a) = x) ∧ entry x.1 = entry z.1 := by
            intro z hz
            refine ⟨_, ⟨z, hz, rfl⟩, ?_⟩
            split <;> rfl
          rintro (⟨z, hz, rfl⟩ | rfl)
          · exact this z hz
          · obtain ⟨x, h1, h2⟩ := this t ht
            exact ⟨x, h1, h2.trans hent⟩
      · intro y
        simp only [List.mem_map]
        constructor
        · rintro ⟨x, ⟨z, hz, rfl⟩, hb, rfl⟩
          by_cases hi : z.1.id = i
          · right
            rw [if_pos hi]
            exact hall z hz hi
          · left
            rw [if_neg hi] at hb ⊢
            exact ⟨z, hz, hb, rfl⟩
        · rintro (⟨z, hz, hb, rfl⟩ | rfl)
          · refine ⟨_, ⟨z, hz, rfl⟩, ?_, ?_⟩
            · split
              · rfl
              · exact hb
            · split <;> rfl
          · refine ⟨_, ⟨t, ht, rfl⟩, ?_, ?_⟩
            · rw [if_pos hid]
            · rw [if_pos hid]; exact hent

theorem allow_all (es : List (Nat × Nat × Nat)) : ∀ {l : List (Tlv × Bool)}, (l.map fun t => t.1.id).Nodup →
    ((∀ e ∈ es, ∀ x ∈ l, x.1.id = e.1 → entry x.1 = e) ∧ (∀ e ∈ es, ∀ f ∈ es, e.1 = f.1 → e = f) →
      ∃ l', allowTlvs es l = some l' ∧ (l'.map fun t => t.1.id).Nodup ∧
        ∀ y, (∃ x ∈ l', x.2 = false ∧ entry x.1 = y) ↔ (∃ x ∈ l, x.2 = false ∧ entry x.1 = y) ∨ y ∈ es) ∧
    (¬ ((∀ e ∈ es, ∀ x ∈ l, x.1.id = e.1 → entry x.1 = e) ∧ (∀ e ∈ es, ∀ f ∈ es, e.1 = f.1 → e = f)) →
      allowTlvs es l = none) := by
  induction es with
  | nil =>
    intro l nd
    refine ⟨fun _ => ⟨l, rfl, nd, by simp⟩, ?_⟩
    intro h
    exact absurd ⟨by simp, by simp⟩ h
  | cons e es ih =>
    intro l nd
    simp only [allowTlvs]
    rcases allow_one nd e with ⟨h1, x, hx, hid, hne⟩ | ⟨l', h1, nd', h2, h3, h4⟩
    · rw [h1]
      refine ⟨fun h => ?_, fun _ => rfl⟩
      exact absurd (h.1 e (by simp) x hx hid) hne
    · rw [h1]
      simp only [Option.bind_some]
      have hmem : ∀ f : Nat × Nat × Nat, (∀ x ∈ l', x.1.id = f.1 → entry x.1 = f) ↔
          (∀ x ∈ l, x.1.id = f.1 → entry x.1 = f) ∧ (e.1 = f.1 → e = f) := by
        intro f
        constructor
        · intro h
          refine ⟨?_, ?_⟩
          · intro x hx hxf
            obtain ⟨z, hz, he⟩ := (h3 (entry x.1)).mpr (.inl ⟨x, hx, rfl⟩)
            have hzi : z.1.id = x.1.id := congrArg Prod.fst he
            rw [← he]
            exact h z hz (hzi.trans hxf)
          · intro hef
            obtain ⟨z, hz, he⟩ := (h3 e).mpr (.inr rfl)
            have hzi : z.1.id = e.1 := congrArg Prod.fst he
            rw [← he]
            exact h z hz (hzi.trans hef)
        · rintro ⟨ha, hb⟩ x hx hxf
          rcases (h3 (entry x.1)).mp ⟨x, hx, rfl⟩ with ⟨z, hz, he⟩ | he
          · have hzi : z.1.id = x.1.id := congrArg Prod.fst he
            rw [← he]
            exact ha z hz (hzi.trans hxf)
          · rw [he]
            apply hb
            rw [← he]
            exact hxf
      obtain ⟨i1, i2⟩ := ih nd'
      have iff : ((∀ f ∈ es, ∀ x ∈ l', x.1.id = f.1 → entry x.1 = f) ∧ (∀ f ∈ es, ∀ g ∈ es, f.1 = g.1 → f = g)) ↔
          ((∀ f ∈ e :: es, ∀ x ∈ l, x.1.id = f.1 → entry x.1 = f) ∧
            (∀ f ∈ e :: es, ∀ g ∈ e :: es, f.1 = g.1 → f = g)) := by
        constructor
        · rintro ⟨a, b⟩
          refine ⟨?_, ?_⟩
          · intro f hf
            rcases List.mem_cons.mp hf with rfl | hf
            · exact h2
            · exact ((hmem f).mp (a f hf)).1
          · intro f hf g hg hfg
            rcases List.mem_cons.mp hf with rfl | hf' <;> rcases List.mem_cons.mp hg with rfl | hg'
            · rfl
            · exact ((hmem g).mp (a g hg')).2 hfg
            · exact (((hmem f).mp (a f hf')).2 hfg.symm).symm
            · exact b f hf' g hg' hfg
        · rintro ⟨a, b⟩
          refine ⟨?_, fun f hf g hg => b f (by simp [hf]) g (by simp [hg])⟩
          intro f hf
          exact (hmem f).mpr ⟨a f (by simp [hf]), b e (by simp) f (by simp [hf])⟩
      refine ⟨fun h => ?_, fun h => i2 fun c => h (iff.mp c)⟩
      obtain ⟨r, r1, r2, r3⟩ := i1 (iff.mpr h)
      refine ⟨r, r1, r2, ?_⟩
      intro y
      rw [r3, h4, List.mem_cons, or_assoc]

/-! ### C142 -/

/-- the tables contradict each other nowhere -/
def Spec.Consistent (es : List (Nat × Nat × Nat)) : Prop := ∀ e ∈ es, ∀ f ∈ es, e.1 = f.1 → e = f

theorem consistent_append {tlvs : List Tlv} (nd : (tlvs.map Tlv.id).Nodup) (es : List (Nat × Nat × Nat)) :
    Consistent (tlvs.map entry ++ es) ↔
      (∀ e ∈ es, ∀ x ∈ tlvs, x.id = e.1 → entry x = e) ∧ (∀ e ∈ es, ∀ f ∈ es, e.1 = f.1 → e = f) := by
  have uniq : ∀ x ∈ tlvs, ∀ y ∈ tlvs, x.id = y.id → x = y := by
    clear es
    induction tlvs with
    | nil => intro x hx; exact nomatch hx
    | cons a l ih =>
      simp only [List.map_cons, List.nodup_cons] at nd
      intro x hx y hy hxy
      rcases List.mem_cons.mp hx with rfl | hx' <;> rcases List.mem_cons.mp hy with rfl | hy'
      · rfl
      · exact absurd (List.mem_map.mpr ⟨y, hy', hxy.symm⟩) nd.1
      · exact absurd (List.mem_map.mpr ⟨x, hx', hxy⟩) nd.1
      · exact ih nd.2 x hx' y hy' hxy
  constructor
  · intro h
    refine ⟨?_, fun e he f hf => h e (by simp [he]) f (by simp [hf])⟩
    intro e he x hx hxe
    exact h (entry x) (List.mem_append_left _ (List.mem_map_of_mem hx)) e (by simp [he]) hxe
  · rintro ⟨a, b⟩ e he f hf hef
    rcases List.mem_append.mp he with he | he <;> rcases List.mem_append.mp hf with hf | hf
    · obtain ⟨x, hx, rfl⟩ := List.mem_map.mp he
      obtain ⟨y, hy, rfl⟩ := List.mem_map.mp hf
      rw [uniq x hx y hy hef]
    · obtain ⟨x, hx, rfl⟩ := List.mem_map.mp he
      exact a f hf x hx hef
    · obtain ⟨y, hy, rfl⟩ := List.mem_map.mp hf
      exact (a e he y hy hef.symm).symm
    · exact b e he f hf hef

/-- The allowed TLVs of a session become exactly those of its extensions, one entry per type; if the tables
contradict each other (or what was allowed before), nothing is accepted. -/
theorem C142_allowed (tlvs : List Tlv) (nd : (tlvs.map Tlv.id).Nodup) (exts : List (Ext α)) :
    (Consistent (tlvs.map entry ++ exts.flatMap fun e => e.tlvs) → ∃ t, updateAllowed tlvs exts = some t ∧
      (t.map Tlv.id).Nodup ∧ ∀ y, y ∈ t.map entry ↔ ∃ e ∈ exts, y ∈ e.tlvs) ∧
    (¬ Consistent (tlvs.map entry ++ exts.flatMap fun e => e.tlvs) → updateAllowed tlvs exts = none) := by
  have nd' : (((tlvs.map fun t => (t, true)).map fun t : Tlv × Bool => t.1.id)).Nodup := by
    rw [List.map_map]
    exact nd
  obtain ⟨i1, i2⟩ := allow_all (exts.flatMap fun e => e.tlvs) nd'
  have conv : (∀ e ∈ exts.flatMap fun e => e.tlvs, ∀ x ∈ tlvs.map fun t => (t, true), x.1.id = e.1 → entry x.1 = e) ↔
      (∀ e ∈ exts.flatMap fun e => e.tlvs, ∀ x ∈ tlvs, x.id = e.1 → entry x = e) := by
    constructor
    · intro h e he x hx
      exact h e he (x, true) (List.mem_map.mpr ⟨x, hx, rfl⟩)
    · intro h e he x hx
      obtain ⟨y, hy, rfl⟩ := List.mem_map.mp hx
      exact h e he y hy
  rw [conv, ← consistent_append nd] at i1 i2
  refine ⟨fun h => ?_, fun h => ?_⟩
  · obtain ⟨l, h1, h2, h3⟩ := i1 h
    simp only [updateAllowed, h1, Option.map_some]
    refine ⟨_, rfl, ?_, ?_⟩
    · rw [List.map_map]
      exact List.Nodup.sublist (List.Sublist.map _ List.filter_sublist) h2
    · intro y
      have h3 := h3 y
      have e1 : (∃ x ∈ tlvs.map fun t => (t, true), x.2 = false ∧ entry x.1 = y) ↔ False := by
        simp only [List.mem_map, iff_false]
        rintro ⟨x, ⟨z, _, rfl⟩, hb, _⟩
        exact nomatch hb
      rw [e1, false_or, List.mem_flatMap] at h3
      rw [← h3]
      simp only [List.mem_map, List.mem_filter, decide_eq_true_eq]
      constructor
      · rintro ⟨t, ⟨x, ⟨hx, hb⟩, rfl⟩, rfl⟩
        exact ⟨x, hx, hb, rfl⟩
      · rintro ⟨x, hx, hb, rfl⟩
        exact ⟨x.1, ⟨x, ⟨hx, hb⟩, rfl⟩, rfl⟩
  · simp only [updateAllowed, i2 h, Option.map_none]

example : (updateAllowed [⟨9, 0, 1, none, none⟩, ⟨7, 0, 65535, none, none⟩] [countExt]).map (fun t => t.map entry) =
    some [(7, 0, 65535), (1, 1, 4)] ∧
    updateAllowed [⟨7, 0, 9, none, none⟩] [countExt] = none := by
  decide +kernel

/-- the known extensions among the ids of the peer -/
def Spec.known (exts : List (Ext α)) (ids : List Nat) : List (Ext α) :=
  ids.filterMap fun i : Nat => exts.find? fun e => e.id == (i : Int)

theorem known_none {exts : List (Ext α)} {i : Nat} (l : List Nat) (h : exts.find? (fun e => e.id == (i : Int)) = none) :
    known exts (i :: l) = known exts l := by
  simp only [known, List.filterMap_cons, h]

theorem known_some {exts : List (Ext α)} {i : Nat} {e : Ext α} (l : List Nat)
    (h : exts.find? (fun e => e.id == (i : Int)) = some e) : known exts (i :: l) = e :: known exts l := by
  simp only [known, List.filterMap_cons, h]

theorem add_exts (exts : List (Ext α)) (ids : List Nat) : ∀ act : List (Ext α),
    (act.length + (known exts ids).length ≤ EXT_SLOTS ∨ known exts ids = [] →
      addExtensions exts ids act = some (act ++ known exts ids)) ∧
    (¬ (act.length + (known exts ids).length ≤ EXT_SLOTS ∨ known exts ids = []) → addExtensions exts ids act = none) := by
  induction ids with
  | nil => intro act; simp [addExtensions, known]
  | cons i l ih =>
    intro act
    cases hf : exts.find? (fun e => e.id == (i : Int)) with
    | none =>
      rw [known_none l hf]
      simp only [addExtensions, hf]
      exact ih act
    | some e =>
      rw [known_some l hf]
      simp only [addExtensions, hf, List.length_cons, reduceCtorEq, or_false]
      obtain ⟨i1, i2⟩ := ih (act ++ [e])
      simp only [List.length_append, List.length_cons, List.length_nil] at i1 i2
      constructor
      · intro h
        rw [if_neg (by omega), i1 (.inl (by omega))]
        simp
      · intro h
        by_cases hc : EXT_SLOTS ≤ act.length
        · rw [if_pos hc]
        · rw [if_neg hc]
          apply i2
          rintro (c | c)
          · omega
          · rw [c] at h
            simp only [List.length_nil] at h
            omega

/-- If no active extension without callback is left out by the peer and the known ids of the peer's list fit into the
array, the session uses the base extensions and exactly the extensions which both sides know, and the TLVs of these
are allowed.  (Missing: the crashes below.) -/
theorem C142_negotiated_partial (exts active : List (Ext α)) (tlvs : List Tlv) (value : Bytes)
    (nd : (tlvs.map Tlv.id).Nodup) (hb : BASE_COUNT ≤ active.length)
    (h1 : ∀ e ∈ active.drop BASE_COUNT, (∀ i ∈ idsOf value, (i : Int) ≠ e.id) → e.deactivate = true)
    (h2 : (known exts (idsOf value)).length ≤ 4)
    (hc : Consistent (tlvs.map entry ++ (active.take BASE_COUNT ++ known exts (idsOf value)).flatMap fun e => e.tlvs)) :
    ∃ t, updateExtensions exts active tlvs value = .ok (active.take BASE_COUNT ++ known exts (idsOf value)) t ∧
      (t.map Tlv.id).Nodup ∧
      ∀ y, y ∈ t.map entry ↔ ∃ e ∈ active.take BASE_COUNT ++ known exts (idsOf value), y ∈ e.tlvs := by
  obtain ⟨t, h3, h4, h5⟩ := (C142_allowed tlvs nd _).1 hc
  refine ⟨t, ?_, h4, h5⟩
  simp only [updateExtensions]
  rw [if_neg, (add_exts _ _ _).1]
  · simp only [h3]
  · left
    simp only [List.length_take, EXT_SLOTS, BASE_COUNT] at *
    omega
  · intro c
    obtain ⟨e, he, hd⟩ := List.any_eq_true.mp c
    obtain ⟨hm, hn⟩ := List.mem_filter.mp he
    have : e.deactivate = true := by
      apply h1 e hm
      intro i hi hid
      have : (idsOf value).any (fun i => (i : Int) == e.id) = true := List.any_eq_true.mpr ⟨i, hi, by simpa using hid⟩
      rw [this] at hn
      exact nomatch hn
    rw [this] at hd
    exact nomatch hd

/-- all extensions of the daemon -/
theorem C142_tables : ∃ tlvs, sessionExtensions (allExts : List (Ext Unit)) = .ok allExts tlvs ∧
    (tlvs.map Tlv.id).Nodup ∧ (∀ e ∈ (allExts : List (Ext Unit)), TablesOk (tlvs.map entry) e) ∧
    ((allExts : List (Ext Unit)).map Ext.id).Nodup ∧
    Consistent ((allExts : List (Ext Unit)).flatMap fun e => e.tlvs) := by
  refine ⟨(updateAllowed [] (allExts : List (Ext Unit))).getD [], ?_, by decide +kernel, ?_, by decide +kernel, ?_⟩
  · have : ∃ t, updateAllowed [] (allExts : List (Ext Unit)) = some t :=
      Option.isSome_iff_exists.mp (by decide +kernel)
    obtain ⟨t, ht⟩ := this
    rw [ht]
    simp only [sessionExtensions, ht]
    rw [if_neg (by decide)]
    rfl
  · unfold TablesOk
    decide +kernel
  · unfold Consistent
    decide +kernel

theorem session_start {tlvs : List Tlv} (h : sessionExtensions (allExts : List (Ext Unit)) = .ok allExts tlvs) :
    (tlvs.map Tlv.id).Nodup ∧ ∀ y, y ∈ tlvs.map entry ↔ ∃ e ∈ (allExts : List (Ext Unit)), y ∈ e.tlvs := by
  obtain ⟨t, h1, h2, h3⟩ := (C142_allowed [] (by simp) (allExts : List (Ext Unit))).1 (by
    obtain ⟨_, _, _, _, _, h⟩ := C142_tables
    simpa using h)
  simp only [sessionExtensions, h1] at h
  rw [if_neg (by decide)] at h
  have := (Nego.ok.inj h).2
  exact this ▸ ⟨h2, h3⟩

/-- The daemon's own extensions: a peer which names 65520, 65521 and 65522 and at most four known ids gets the base
extensions, the named ones and their TLVs.  (Missing: the crashes below.) -/
theorem C142_daemon_partial (tlvs : List Tlv) (hs : sessionExtensions (allExts : List (Ext Unit)) = .ok allExts tlvs)
    (value : Bytes) (h1 : 65520 ∈ idsOf value) (h2 : 65521 ∈ idsOf value) (h3 : 65522 ∈ idsOf value)
    (h4 : (known allExts (idsOf value) : List (Ext Unit)).length ≤ 4) :
    ∃ t, updateExtensions (allExts : List (Ext Unit)) allExts tlvs value =
        .ok (allExts.take BASE_COUNT ++ known allExts (idsOf value)) t ∧
      (t.map Tlv.id).Nodup ∧
      ∀ y, y ∈ t.map entry ↔ ∃ e ∈ (allExts.take BASE_COUNT ++ known allExts (idsOf value) : List (Ext Unit)), y ∈ e.tlvs := by
  obtain ⟨nd, ht⟩ := session_start hs
  obtain ⟨_, _, _, _, _, hcons⟩ := C142_tables
  refine C142_negotiated_partial allExts allExts tlvs value nd (by decide) ?_ h4 ?_
  · intro e he hno
    simp only [allExts, BASE_COUNT, List.drop_succ_cons, List.drop_zero, List.mem_cons, List.not_mem_nil, or_false] at he
    rcases he with rfl | rfl | rfl | rfl
    · exact absurd rfl (hno _ h1)
    · exact absurd rfl (hno _ h2)
    · exact absurd rfl (hno _ h3)
    · rfl
  · have hk : ∀ e ∈ allExts.take BASE_COUNT ++ known allExts (idsOf value), e ∈ (allExts : List (Ext Unit)) := by
      intro e he
      rcases List.mem_append.mp he with he | he
      · exact List.mem_of_mem_take he
      · obtain ⟨i, _, hf⟩ := List.mem_filterMap.mp he
        exact List.mem_of_find?_eq_some hf
    have hall : ∀ y ∈ tlvs.map entry ++ (allExts.take BASE_COUNT ++ known allExts (idsOf value)).flatMap (fun e : Ext Unit => e.tlvs),
        y ∈ (allExts : List (Ext Unit)).flatMap fun e => e.tlvs := by
      intro y hy
      apply List.mem_flatMap.mpr
      rcases List.mem_append.mp hy with hy | hy
      · exact (ht y).mp hy
      · obtain ⟨e, he, hy⟩ := List.mem_flatMap.mp hy
        exact ⟨e, hk e he, hy⟩
    intro e he f hf
    exact hcons e (hall e he) f (hall f hf)

example : 65520 ∈ idsOf [255, 240, 255, 241, 255, 242, 0, 1] ∧ 65521 ∈ idsOf [255, 240, 255, 241, 255, 242, 0, 1] ∧
    65522 ∈ idsOf [255, 240, 255, 241, 255, 242, 0, 1] ∧
    (known allExts (idsOf [255, 240, 255, 241, 255, 242, 0, 1]) : List (Ext Unit)).map Ext.id = [65520, 65521, 65522] ∧
    (match sessionExtensions (allExts : List (Ext Unit)) with
      | .ok a t => a.map Ext.id == [-3, -2, -1, 65520, 65521, 65522, 65523] && t.length == 41
      | _ => false) = true := by
  decide +kernel

/-- The daemon's own list: a peer must name the extensions 65520, 65521 and 65522, and at most four known ids in
total, otherwise the daemon calls a null pointer or writes behind the array. -/
theorem C142_crash_counterexample (tlvs : List Tlv) (value : Bytes)
    (h : 65520 ∉ idsOf value ∨ 65521 ∉ idsOf value ∨ 65522 ∉ idsOf value ∨
      4 < ((idsOf value).filter fun i => 65520 ≤ i && i ≤ 65523).length) :
    ∃ x, updateExtensions (allExts : List (Ext Unit)) allExts tlvs value = x ∧ x matches .fault := by
  refine ⟨.fault, ?_, rfl⟩
  simp only [updateExtensions]
  by_cases hg : ((List.drop BASE_COUNT allExts).filter fun e : Ext Unit =>
      !(idsOf value).any fun i => (i : Int) == e.id).any (fun e => !e.deactivate) = true
  · rw [if_pos hg]
  · rw [if_neg hg, (add_exts _ _ _).2]
    have hno : ∀ e ∈ List.drop BASE_COUNT (allExts : List (Ext Unit)), e.deactivate = false →
        ∃ i ∈ idsOf value, (i : Int) = e.id := by
      intro e he hd
      rcases hany : (idsOf value).any (fun i => (i : Int) == e.id) with _ | _
      · exact absurd (List.any_eq_true.mpr ⟨e, List.mem_filter.mpr ⟨he, by rw [hany]; rfl⟩, by rw [hd]; rfl⟩) hg
      · obtain ⟨i, hi, hid⟩ := List.any_eq_true.mp hany
        exact ⟨i, hi, by simpa using hid⟩
    have hx : ∀ (n : Nat) (e : Ext Unit), e ∈ List.drop BASE_COUNT (allExts : List (Ext Unit)) → e.deactivate = false →
        e.id = n → n ∈ idsOf value := by
      intro n e he hd hn
      obtain ⟨i, hi, hid⟩ := hno e he hd
      have : i = n := by rw [hn] at hid; omega
      exact this ▸ hi
    have e1 := hx 65520 extL1 (by simp [allExts, BASE_COUNT]) rfl rfl
    have e2 := hx 65521 extL2 (by simp [allExts, BASE_COUNT]) rfl rfl
    have e3 := hx 65522 extAttributes (by simp [allExts, BASE_COUNT]) rfl rfl
    rcases h with h | h | h | h
    · exact absurd e1 h
    · exact absurd e2 h
    · exact absurd e3 h
    · have hlen : ((idsOf value).filter fun i => 65520 ≤ i && i ≤ 65523).length ≤ (known allExts (idsOf value) : List (Ext Unit)).length := by
        clear h e1 e2 e3 hx hno hg
        induction idsOf value with
        | nil => simp
        | cons i l ih =>
          by_cases hi : (65520 ≤ i && i ≤ 65523) = true
          · rw [List.filter_cons_of_pos (by exact hi)]
            have : ∃ e : Ext Unit, allExts.find? (fun e => e.id == (i : Int)) = some e := by
              simp only [Bool.and_eq_true, decide_eq_true_eq] at hi
              have hi : i = 65520 ∨ i = 65521 ∨ i = 65522 ∨ i = 65523 := by omega
              rcases hi with rfl | rfl | rfl | rfl <;> exact ⟨_, rfl⟩
            obtain ⟨e, he⟩ := this
            rw [known_some l he]
            simp only [List.length_cons]
            omega
          · rw [List.filter_cons_of_neg (by exact hi)]
            cases he : allExts.find? (fun e : Ext Unit => e.id == (i : Int)) with
            | none => rw [known_none l he]; exact ih
            | some e =>
              rw [known_some l he]
              simp only [List.length_cons]
              omega
      have hb : (List.take BASE_COUNT (allExts : List (Ext Unit))).length = 3 := rfl
      rw [hb]
      intro c
      simp only [EXT_SLOTS] at c
      rcases c with c | c
      · omega
      · rw [c] at hlen
        simp only [List.length_nil] at hlen
        omega

example : (updateExtensions (allExts : List (Ext Unit)) allExts [] [] matches .fault) ∧
    (updateExtensions (allExts : List (Ext Unit)) allExts [] [255, 240, 255, 241, 255, 242] matches .ok _ _) ∧
    (updateExtensions (allExts : List (Ext Unit)) allExts []
      [255, 240, 255, 241, 255, 242, 255, 242, 255, 242] matches .fault) := by
  decide +kernel

/-- RFC 8175 allows the MTU TLV (20) in Session Initialization Response, and the metric extension lists it as supported,
but no extension has it in its table: the message is refused. -/
theorem C142_mtu_counterexample : (∃ e ∈ (allExts : List (Ext Unit)), ∃ s ∈ e.signals, s.id = 2 ∧ 20 ∈ s.supported) ∧
    ∀ tlvs, sessionExtensions (allExts : List (Ext Unit)) = .ok allExts tlvs → ∀ v, ¬ Allowed (tlvs.map entry) (20, v) := by
  refine ⟨⟨extMetric, by simp [allExts], by decide +kernel⟩, ?_⟩
  intro tlvs h v ⟨_, _, e, he, hid, _⟩
  obtain ⟨x, hx, hy⟩ := ((session_start h).2 e).mp he
  have : ∀ x ∈ (allExts : List (Ext Unit)), ∀ y ∈ x.tlvs, y.1 ≠ 20 := by decide +kernel
  exact this x hx e hy hid

end Verif.Dlep
