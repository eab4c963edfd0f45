import Verif.Dlep.Spec

/-! Lemmas about the parser of TLVs. -/

namespace Verif.Dlep

open Spec

theorem num16_be16 {n : Nat} (h : n < 65536) : num16 (n / 256).toUInt8 (n % 256).toUInt8 = n := by
  simp only [num16, Nat.toUInt8, UInt8.toNat_ofNat']
  omega

theorem be16_num16 (a b : UInt8) : be16 (num16 a b) = [a, b] := by
  have ha := a.toNat_lt
  have hb := b.toNat_lt
  simp only [be16, num16, List.cons.injEq, and_true]
  constructor
  · apply UInt8.toNat_inj.mp
    simp only [Nat.toUInt8, UInt8.toNat_ofNat']
    omega
  · apply UInt8.toNat_inj.mp
    simp only [Nat.toUInt8, UInt8.toNat_ofNat']
    omega

theorem num16_lt (a b : UInt8) : num16 a b < 65536 := by
  have ha := a.toNat_lt
  have hb := b.toNat_lt
  simp only [num16]
  omega

theorem be16_length (n : Nat) : (be16 n).length = 2 := rfl

theorem one_length (i : Item) : (one i).length = 4 + i.2.length := by
  simp only [one, List.length_append, be16_length]

theorem encode_nil : encode [] = [] := rfl

theorem encode_append (a b : List Item) : encode (a ++ b) = encode a ++ encode b := by
  simp [encode]

theorem encode_cons (i : Item) (l : List Item) : encode (i :: l) = one i ++ encode l := by
  simp [encode]

theorem encode_snoc (a : List Item) (i : Item) : encode (a ++ [i]) = encode a ++ one i := by
  simp [encode]

/-! ### every stream has a verdict -/

theorem allowed_dec (table : List (Nat × Nat × Nat)) (i : Item) : Allowed table i ∨ ¬ Allowed table i :=
  Classical.em _

theorem exists_verdict_aux (table : List (Nat × Nat × Nat)) (n : Nat) : ∀ (done : List Item) (tail : Bytes),
    tail.length ≤ n → (∀ i ∈ done, Allowed table i) → ∃ items v, Verdict table (encode done ++ tail) items v := by
  induction n with
  | zero =>
    intro done tail hl ha
    have : tail = [] := List.length_eq_zero_iff.mp (by omega)
    subst this
    exact ⟨done, none, .good (by simp) ha⟩
  | succ n ih =>
    intro done tail hl ha
    match tail, hl with
    | [], _ => exact ⟨done, none, .good (by simp) ha⟩
    | [_], _ => exact ⟨done, _, .header rfl ha (by simp)⟩
    | [_, _], _ => exact ⟨done, _, .header rfl ha (by simp)⟩
    | [_, _, _], _ => exact ⟨done, _, .header rfl ha (by simp)⟩
    | t1 :: t0 :: l1 :: l0 :: rest, hl =>
      have e : t1 :: t0 :: l1 :: l0 :: rest = be16 (num16 t1 t0) ++ be16 (num16 l1 l0) ++ rest := by
        rw [be16_num16, be16_num16]; rfl
      rw [e]
      by_cases hc : rest.length < num16 l1 l0
      · exact ⟨done, _, .cut rfl ha ⟨num16_lt _ _, num16_lt _ _⟩ hc⟩
      · have el : (rest.take (num16 l1 l0)).length = num16 l1 l0 := by rw [List.length_take]; omega
        have e2 : be16 (num16 t1 t0) ++ be16 (num16 l1 l0) ++ rest
            = one (num16 t1 t0, rest.take (num16 l1 l0)) ++ rest.drop (num16 l1 l0) := by
          simp only [one, el, List.append_assoc, List.take_append_drop]
        rw [e2]
        have hb : num16 t1 t0 < 65536 ∧ (rest.take (num16 l1 l0)).length < 65536 :=
          ⟨num16_lt _ _, by rw [el]; exact num16_lt _ _⟩
        rcases allowed_dec table (num16 t1 t0, rest.take (num16 l1 l0)) with hA | hA
        · have := ih (done ++ [(num16 t1 t0, rest.take (num16 l1 l0))]) (rest.drop (num16 l1 l0))
            (by simp only [List.length_cons, List.length_drop] at hl ⊢; omega)
            (by
              intro i hi
              rcases List.mem_append.mp hi with h | h
              · exact ha i h
              · rw [List.mem_singleton.mp h]; exact hA)
          rwa [encode_snoc, List.append_assoc] at this
        · rcases Classical.em (∃ e ∈ table, e.1 = num16 t1 t0) with hu | hu
          · exact ⟨done, _, .length rfl ha hb hu hA⟩
          · exact ⟨done, _, .unknown rfl ha hb fun e he h => hu ⟨e, he, h⟩⟩

theorem exists_verdict (table : List (Nat × Nat × Nat)) (stream : Bytes) :
    ∃ items v, Verdict table stream items v := by
  simpa [encode_nil] using exists_verdict_aux table stream.length [] stream (Nat.le_refl _) (by simp)

/-! ### the chains -/

/-- the positions of the items of a type -/
def idxs (done : List Item) (type : Nat) : List Nat :=
  (List.range done.length).filter fun i => (done[i]?).any fun d => d.1 = type

theorem mem_idxs {done : List Item} {type i : Nat} :
    i ∈ idxs done type ↔ ∃ d, done[i]? = some d ∧ d.1 = type := by
  simp only [idxs, List.mem_filter, List.mem_range]
  constructor
  · rintro ⟨_, h⟩
    cases hd : done[i]? with
    | none => rw [hd] at h; simp at h
    | some d => rw [hd] at h; simp at h; exact ⟨d, rfl, h⟩
  · rintro ⟨d, h, rfl⟩
    refine ⟨?_, by simp [h]⟩
    rcases Nat.lt_or_ge i done.length with hl | hl
    · exact hl
    · rw [List.getElem?_eq_none hl] at h; exact nomatch h

theorem idxs_nil (type : Nat) : idxs [] type = [] := rfl

theorem idxs_snoc (done : List Item) (d : Item) (type : Nat) :
    idxs (done ++ [d]) type = idxs done type ++ (if d.1 = type then [done.length] else []) := by
  simp only [idxs, List.length_append, List.length_singleton, List.range_succ, List.filter_append]
  congr 1
  · apply List.filter_congr
    intro i hi
    rw [List.getElem?_append_left (List.mem_range.mp hi)]
  · by_cases h : d.1 = type <;> simp [h]

theorem snoc_induction {α : Type} {P : List α → Prop} (nil : P []) (snoc : ∀ l a, P l → P (l ++ [a])) :
    ∀ l, P l := by
  intro l
  have : ∀ r : List α, P r.reverse := by
    intro r
    induction r with
    | nil => exact nil
    | cons a r ih => rw [List.reverse_cons]; exact snoc _ _ ih
  simpa using this l.reverse

theorem idxs_map (type : Nat) : ∀ done : List Item,
    (idxs done type).map (fun i => (done[i]?).map Prod.snd) = (Spec.valuesOf done type).map some := by
  apply snoc_induction
  · rfl
  · intro l d ih
    rw [idxs_snoc, List.map_append]
    have e1 : (idxs l type).map (fun i => ((l ++ [d])[i]?).map Prod.snd)
        = (idxs l type).map (fun i => (l[i]?).map Prod.snd) := by
      apply List.map_congr_left
      intro i hi
      obtain ⟨x, hx, _⟩ := mem_idxs.mp hi
      have hl : i < l.length := by
        rcases Nat.lt_or_ge i l.length with h | h
        · exact h
        · rw [List.getElem?_eq_none h] at hx; exact nomatch hx
      rw [List.getElem?_append_left hl]
    rw [e1, ih]
    by_cases h : d.1 = type <;> simp [Spec.valuesOf, List.filter_append, h]

/-- the chain of a type runs through the given positions -/
def Linked (values : List Value) (first last : Option Nat) (l : List Nat) : Prop :=
  first = l.head? ∧ last = l.getLast? ∧ ∀ (k i : Nat), l[k]? = some i → ∃ v, values[i]? = some v ∧ v.next = l[k + 1]?

theorem chain_linked {values : List Value} {l : List Nat}
    (h : ∀ (k i : Nat), l[k]? = some i → ∃ v, values[i]? = some v ∧ v.next = l[k + 1]?) (n : Nat) :
    ∀ k, l.length ≤ k + n → (chain values n l[k]?).map some = (l.drop k).map fun i => values[i]? := by
  induction n with
  | zero =>
    intro k hk
    rw [List.drop_eq_nil_of_le (by omega)]
    simp [chain]
  | succ n ih =>
    intro k hk
    cases hi : l[k]? with
    | none =>
      rw [List.drop_eq_nil_of_le (List.getElem?_eq_none_iff.mp hi)]
      simp [chain]
    | some i =>
      obtain ⟨v, hv, hn⟩ := h k i hi
      have hlt : k < l.length := by
        rcases Nat.lt_or_ge k l.length with h | h
        · exact h
        · rw [List.getElem?_eq_none h] at hi; exact nomatch hi
      have hg : l[k] = i := by
        rw [List.getElem?_eq_getElem hlt] at hi
        exact Option.some.inj hi
      rw [List.drop_eq_getElem_cons hlt, hg]
      simp only [chain, hv, List.map_cons, List.cons.injEq, true_and]
      rw [hn]
      exact ih (k + 1) (by omega)

/-- a new value of another type does not change the chain -/
theorem Linked.other {values : List Value} {first last : Option Nat} {l : List Nat} {x : Value} {j n : Nat}
    (h : Linked values first last l) (hj : j ∉ l) {values' : List Value}
    (e : setNext (values ++ [x]) j n = some values') : Linked values' first last l := by
  refine ⟨h.1, h.2.1, ?_⟩
  intro k i hk
  obtain ⟨v, hv, hn⟩ := h.2.2 k i hk
  refine ⟨v, ?_, hn⟩
  have hi : i < values.length := by
    rcases Nat.lt_or_ge i values.length with h | h
    · exact h
    · rw [List.getElem?_eq_none h] at hv; exact nomatch hv
  have hne : j ≠ i := fun c => hj (c ▸ List.mem_of_getElem? hk)
  simp only [setNext] at e
  split at e
  · exact nomatch e
  · cases Option.some.inj e
    rw [List.getElem?_set_ne hne, List.getElem?_append_left hi]
    exact hv

theorem Linked.mono {values : List Value} {first last : Option Nat} {l : List Nat} (h : Linked values first last l)
    (x : Value) : Linked (values ++ [x]) first last l := by
  refine ⟨h.1, h.2.1, ?_⟩
  intro k i hk
  obtain ⟨v, hv, hn⟩ := h.2.2 k i hk
  refine ⟨v, ?_, hn⟩
  have hi : i < values.length := by
    rcases Nat.lt_or_ge i values.length with h | h
    · exact h
    · rw [List.getElem?_eq_none h] at hv; exact nomatch hv
  rw [List.getElem?_append_left hi]
  exact hv

/-- a chain is started -/
theorem Linked.start {values : List Value} {x : Value} (hx : x.next = none) :
    Linked (values ++ [x]) (some values.length) (some values.length) [values.length] := by
  refine ⟨rfl, rfl, ?_⟩
  intro k i hk
  match k, hk with
  | 0, hk =>
    cases Option.some.inj hk
    exact ⟨x, by simp, by simp [hx]⟩
  | k + 1, hk => simp at hk

/-- a chain is continued -/
theorem Linked.extend {values : List Value} {first : Option Nat} {l : List Nat} {j : Nat} {x : Value}
    (h : Linked values first (some j) l) (hx : x.next = none) (nd : l.Nodup) {values' : List Value}
    (e : setNext (values ++ [x]) j values.length = some values') :
    Linked values' first (some values.length) (l ++ [values.length]) := by
  have hne : l ≠ [] := by
    intro c
    rw [c] at h
    exact nomatch h.2.1
  have hjl : j = l.getLast hne := by
    have := h.2.1
    rw [List.getLast?_eq_some_getLast hne] at this
    exact Option.some.inj this
  have hpos : 0 < l.length := List.length_pos_iff.mpr hne
  have hlastk : l[l.length - 1]? = some j := by
    rw [hjl, List.getLast_eq_getElem, List.getElem?_eq_getElem]
  refine ⟨?_, by simp, ?_⟩
  · rw [h.1]
    cases l with
    | nil => exact absurd rfl hne
    | cons a l => rfl
  · intro k i hk
    simp only [setNext] at e
    split at e
    · exact nomatch e
    · rename_i w hw
      cases Option.some.inj e
      rcases Nat.lt_trichotomy k l.length with hlt | heq | hgt
      · rw [List.getElem?_append_left hlt] at hk
        obtain ⟨v, hv, hn⟩ := h.2.2 k i hk
        have hi : i < values.length := by
          rcases Nat.lt_or_ge i values.length with h | h
          · exact h
          · rw [List.getElem?_eq_none h] at hv; exact nomatch hv
        by_cases hkl : k = l.length - 1
        · subst hkl
          rw [hlastk] at hk
          cases Option.some.inj hk
          refine ⟨{ w with next := some values.length }, ?_, ?_⟩
          · rw [List.getElem?_set_self (by simp; omega)]
          · rw [Nat.sub_add_cancel hpos, List.getElem?_append_right (Nat.le_refl _)]
            simp
        · refine ⟨v, ?_, ?_⟩
          · have : j ≠ i := by
              intro c
              subst c
              have := (List.getElem?_inj (by omega) nd).mp (hlastk.trans hk.symm)
              omega
            rw [List.getElem?_set_ne this, List.getElem?_append_left hi]
            exact hv
          · rw [List.getElem?_append_left (by omega)]
            exact hn
      · subst heq
        rw [List.getElem?_append_right (Nat.le_refl _)] at hk
        simp at hk
        subst hk
        refine ⟨x, ?_, ?_⟩
        · have hj : j < values.length := by
            obtain ⟨v, hv, _⟩ := h.2.2 _ _ hlastk
            rcases Nat.lt_or_ge j values.length with h | h
            · exact h
            · rw [List.getElem?_eq_none h] at hv; exact nomatch hv
          rw [List.getElem?_set_ne (by omega)]
          simp
        · rw [hx, List.getElem?_eq_none]
          simp
      · rw [List.getElem?_eq_none (by simp; omega)] at hk
        exact nomatch hk

theorem idxs_nodup (done : List Item) (type : Nat) : (idxs done type).Nodup :=
  List.Nodup.sublist List.filter_sublist List.nodup_range

theorem idxs_lt {done : List Item} {type i : Nat} (h : i ∈ idxs done type) : i < done.length := by
  obtain ⟨d, hd, _⟩ := mem_idxs.mp h
  rcases Nat.lt_or_ge i done.length with h | h
  · exact h
  · rw [List.getElem?_eq_none h] at hd; exact nomatch hd

/-! ### the invariant of the loop -/

/-- the table of a parser -/
def tableOf (p : Parser) : List (Nat × Nat × Nat) := p.tlvs.map fun t => (t.id, t.min, t.max)

/-- the parser has stored the items -/
structure Inv (buffer : Bytes) (table : List (Nat × Nat × Nat)) (done : List Item) (p : Parser) : Prop where
  tab : tableOf p = table
  len : p.values.length = done.length
  val : ∀ (i : Nat) (v : Value), p.values[i]? = some v → bytesOf buffer v = (done[i]?).map Prod.snd
  link : ∀ t ∈ p.tlvs, Linked p.values t.first t.last (idxs done t.id)
  cap : p.values.length ≤ p.maxCount ∧ p.maxCount ≤ p.alloc

theorem Inv.start {buffer : Bytes} {p : Parser} (h : p.maxCount ≤ p.alloc) :
    Inv buffer (tableOf p) [] { p with values := [], tlvs := p.tlvs.map fun t => { t with first := none, last := none } } where
  tab := by simp [tableOf, List.map_map, Function.comp_def]
  len := rfl
  val := by simp
  link := by
    intro t ht
    simp only [List.mem_map] at ht
    obtain ⟨u, _, rfl⟩ := ht
    exact ⟨rfl, rfl, by simp [idxs_nil]⟩
  cap := ⟨Nat.zero_le _, h⟩

theorem setTlv_table (tlvs : List Tlv) (id : Nat) (f : Tlv → Tlv)
    (hf : ∀ t, (f t).id = t.id ∧ (f t).min = t.min ∧ (f t).max = t.max) :
    (setTlv tlvs id f).map (fun t => (t.id, t.min, t.max)) = tlvs.map fun t => (t.id, t.min, t.max) := by
  simp only [setTlv, List.map_map]
  apply List.map_congr_left
  intro t _
  simp only [Function.comp_def]
  split
  · rw [(hf t).1, (hf t).2.1, (hf t).2.2]
  · rfl

theorem grow_inv {mem : Nat → Bool} {buffer : Bytes} {table : List (Nat × Nat × Nat)} {done : List Item} {p q : Parser}
    (h : Inv buffer table done p) (e : grow mem p = some q) :
    Inv buffer table done q ∧ q.values = p.values ∧ q.tlvs = p.tlvs ∧ q.values.length < q.maxCount := by
  simp only [grow] at e
  split at e
  · split at e
    · cases Option.some.inj e
      rename_i hm _
      refine ⟨⟨h.tab, h.len, h.val, h.link, ?_⟩, rfl, rfl, ?_⟩
      · have := h.cap
        simp only [STEP]
        omega
      · simp only [STEP]
        omega
    · exact nomatch e
  · cases Option.some.inj e
    exact ⟨h, rfl, rfl, by have := h.cap; omega⟩

theorem getTlv_some {tlvs : List Tlv} {id : Nat} {t : Tlv} (h : getTlv tlvs id = some t) : t ∈ tlvs ∧ t.id = id := by
  refine ⟨List.mem_of_find?_eq_some h, ?_⟩
  simpa using List.find?_some h

theorem bytesOf_next (buffer : Bytes) (v : Value) (n : Option Nat) : bytesOf buffer { v with next := n } = bytesOf buffer v := rfl

theorem remember_inv {buffer : Bytes} {table : List (Nat × Nat × Nat)} {done : List Item} {p : Parser} {t : Tlv}
    {i : Item} {idx len : Nat} (h : Inv buffer table done p) (hc : p.values.length < p.maxCount) (ht : t ∈ p.tlvs)
    (hid : t.id = i.1) (hx : bytesOf buffer ⟨none, idx % 65536, len⟩ = some i.2) :
    ∃ q, remember p t idx len = some q ∧ Inv buffer table (done ++ [i]) q := by
  have hcap := h.cap
  have hl := h.len
  simp only [remember]
  rw [if_neg (by omega)]
  have hval : ∀ (k : Nat) (v : Value), (p.values ++ [⟨none, idx % 65536, len⟩])[k]? = some v →
      bytesOf buffer v = ((done ++ [i])[k]?).map Prod.snd := by
    intro k v hv
    rcases Nat.lt_trichotomy k p.values.length with hlt | heq | hgt
    · rw [List.getElem?_append_left hlt] at hv
      rw [List.getElem?_append_left (by omega)]
      exact h.val k v hv
    · subst heq
      simp at hv
      subst hv
      rw [hl]
      simpa using hx
    · rw [List.getElem?_eq_none (by simp; omega)] at hv
      exact nomatch hv
  have hlt := h.link t ht
  cases hlast : t.last with
  | none =>
    refine ⟨_, rfl, ⟨?_, ?_, hval, ?_, ?_⟩⟩
    · rw [← h.tab]
      exact setTlv_table _ _ _ fun _ => ⟨rfl, rfl, rfl⟩
    · simp [hl]
    · intro u hu
      simp only [setTlv, List.mem_map] at hu
      obtain ⟨w, hw, rfl⟩ := hu
      split
      · rename_i hwid
        have hnil : idxs done t.id = [] := by
          have := hlt.2.1
          rw [hlast] at this
          exact List.getLast?_eq_none_iff.mp this.symm
        simp only
        rw [idxs_snoc, hwid, hnil, if_pos hid.symm, ← hl]
        exact Linked.start rfl
      · rename_i hwid
        rw [idxs_snoc, if_neg (by rw [← hid]; exact fun c => hwid c.symm), List.append_nil]
        exact (h.link w hw).mono _
    · simp only [List.length_append, List.length_singleton]
      omega
  | some l =>
    have hlmem : l ∈ idxs done t.id := by
      have := hlt.2.1
      rw [hlast] at this
      exact List.mem_of_getLast? this.symm
    have hll : l < done.length := idxs_lt hlmem
    have hset : ∃ values', setNext (p.values ++ [⟨none, idx % 65536, len⟩]) l p.values.length = some values' := by
      simp only [setNext]
      rw [List.getElem?_eq_getElem (by simp; omega)]
      exact ⟨_, rfl⟩
    obtain ⟨values', hv'⟩ := hset
    have hlen' : values'.length = p.values.length + 1 := by
      simp only [setNext] at hv'
      split at hv'
      · exact nomatch hv'
      · cases Option.some.inj hv'
        simp
    simp only [hv']
    refine ⟨_, rfl, ⟨?_, ?_, ?_, ?_, ?_⟩⟩
    · rw [← h.tab]
      exact setTlv_table _ _ _ fun _ => ⟨rfl, rfl, rfl⟩
    · simp [hlen', hl]
    · intro k v hv
      simp only at hv
      simp only [setNext] at hv'
      split at hv'
      · exact nomatch hv'
      · rename_i w hw
        cases Option.some.inj hv'
        by_cases hkl : l = k
        · subst hkl
          rw [List.getElem?_set_self (by simp; omega)] at hv
          cases Option.some.inj hv
          rw [bytesOf_next]
          exact hval l w hw
        · rw [List.getElem?_set_ne hkl] at hv
          exact hval k v hv
    · intro u hu
      simp only [setTlv, List.mem_map] at hu
      obtain ⟨w, hw, rfl⟩ := hu
      split
      · rename_i hwid
        simp only
        have hwl := h.link w hw
        rw [hwid] at hwl
        have hlastw : w.last = some l := by
          rw [hwl.2.1, ← hlt.2.1, hlast]
        rw [hlastw] at hwl
        rw [idxs_snoc, hwid, if_pos hid.symm, ← hl]
        exact hwl.extend rfl (idxs_nodup _ _) hv'
      · rename_i hwid
        rw [idxs_snoc, if_neg (by rw [← hid]; exact fun c => hwid c.symm), List.append_nil]
        refine (h.link w hw).other ?_ hv'
        intro c
        obtain ⟨d1, h1, e1⟩ := mem_idxs.mp c
        obtain ⟨d2, h2, e2⟩ := mem_idxs.mp hlmem
        rw [h1] at h2
        cases Option.some.inj h2
        exact hwid (e1.symm.trans e2)
    · simp only [hlen']
      omega

/-! ### the loop -/

theorem nodup_fst {table : List (Nat × Nat × Nat)} (nd : (table.map Prod.fst).Nodup) {a b : Nat × Nat × Nat}
    (ha : a ∈ table) (hb : b ∈ table) (e : a.1 = b.1) : a = b := by
  induction table with
  | nil => exact absurd ha (by simp)
  | cons c l ih =>
    rw [List.map_cons, List.nodup_cons] at nd
    rcases List.mem_cons.mp ha with h1 | h1 <;> rcases List.mem_cons.mp hb with h2 | h2
    · rw [h1, h2]
    · exact absurd (List.mem_map.mpr ⟨b, h2, by rw [← e, h1]⟩) nd.1
    · exact absurd (List.mem_map.mpr ⟨a, h1, by rw [e, h2]⟩) nd.1
    · exact ih nd.2 h1 h2

theorem mem_table {p : Parser} {t : Tlv} (h : t ∈ p.tlvs) : (t.id, t.min, t.max) ∈ tableOf p :=
  List.mem_map.mpr ⟨t, h, rfl⟩

theorem get_known {p : Parser} {id : Nat} (h : ∃ e ∈ tableOf p, e.1 = id) : ∃ t, getTlv p.tlvs id = some t := by
  obtain ⟨e, he, hid⟩ := h
  obtain ⟨u, hu, rfl⟩ := List.mem_map.mp he
  cases hg : getTlv p.tlvs id with
  | some t => exact ⟨t, rfl⟩
  | none =>
    have := List.find?_eq_none.mp hg u hu
    simp only at hid
    simp [hid] at this

theorem get_allowed {p : Parser} {i : Item} (nd : ((tableOf p).map Prod.fst).Nodup) (h : Allowed (tableOf p) i) :
    ∃ t, getTlv p.tlvs i.1 = some t ∧ ¬ (t.max < i.2.length ∨ i.2.length < t.min) := by
  obtain ⟨_, _, e, he, hid, hmin, hmax⟩ := h
  obtain ⟨t, ht⟩ := get_known ⟨e, he, hid⟩
  obtain ⟨hm, hi⟩ := getTlv_some ht
  refine ⟨t, ht, ?_⟩
  have := nodup_fst nd (mem_table hm) he (by rw [hid]; exact hi)
  subst this
  simp only at hmin hmax
  omega

theorem get_bad {p : Parser} {i : Item} (b : i.1 < 65536 ∧ i.2.length < 65536) (u : ∃ e ∈ tableOf p, e.1 = i.1)
    (l : ¬ Allowed (tableOf p) i) : ∃ t, getTlv p.tlvs i.1 = some t ∧ (t.max < i.2.length ∨ i.2.length < t.min) := by
  obtain ⟨t, ht⟩ := get_known u
  obtain ⟨hm, hi⟩ := getTlv_some ht
  refine ⟨t, ht, ?_⟩
  rcases Classical.em (t.max < i.2.length ∨ i.2.length < t.min) with h | h
  · exact h
  · exact absurd ⟨b.1, b.2, _, mem_table hm, hi, by simp only; omega, by simp only; omega⟩ l

theorem get_unknown {p : Parser} {id : Nat} (u : ∀ e ∈ tableOf p, e.1 ≠ id) : getTlv p.tlvs id = none := by
  apply List.find?_eq_none.mpr
  intro t ht
  have := u _ (mem_table ht)
  simpa using this

/-- the four bytes of a header -/
theorem read_header {A R : Bytes} {t n : Nat} {buffer : Bytes} (h : buffer = A ++ (be16 t ++ be16 n ++ R)) :
    buffer[A.length]? = some (t / 256).toUInt8 ∧ buffer[A.length + 1]? = some (t % 256).toUInt8 ∧
    buffer[A.length + 2]? = some (n / 256).toUInt8 ∧ buffer[A.length + 3]? = some (n % 256).toUInt8 := by
  subst h
  refine ⟨?_, ?_, ?_, ?_⟩ <;> rw [List.getElem?_append_right (by omega)] <;> simp [be16]

/-- the loop behind a complete header -/
theorem loop_header {mem : Nat → Bool} {buffer A R : Bytes} {length t n f : Nat} {p : Parser}
    (hb : buffer = A ++ (be16 t ++ be16 n ++ R)) (ht : t < 65536) (hn : n < 65536) (hl : A.length + 4 ≤ length) :
    parseLoop mem buffer length (f + 1) A.length p =
      if length < A.length + 4 + n then .err .incompleteTlv p
      else
        match getTlv p.tlvs t with
        | none => .err .unsupported p
        | some e =>
          if e.max < n ∨ n < e.min then .err .illegalLength p
          else
            match grow mem p with
            | none => .err .outOfMemory p
            | some p =>
              match remember p e (A.length + 4) n with
              | none => .fault
              | some p => parseLoop mem buffer length f (A.length + 4 + n) p := by
  obtain ⟨h0, h1, h2, h3⟩ := read_header hb
  rw [parseLoop]
  rw [if_neg (by omega), if_neg (by omega), h0, h1, h2, h3]
  simp only [num16_be16 ht, num16_be16 hn]
  split
  · rfl
  · cases getTlv p.tlvs t with
    | none => rfl
    | some e =>
      simp only
      split
      · rfl
      · cases grow mem p with
        | none => rfl
        | some q =>
          simp only
          cases remember q e (A.length + 4) n <;> rfl

theorem grow_none {mem : Nat → Bool} {p : Parser} (h : grow mem p = none) : ∃ n, mem n = false := by
  simp only [grow] at h
  split at h
  · split at h
    · exact nomatch h
    · rename_i hm
      exact ⟨_, by simpa using hm⟩
  · exact nomatch h

theorem loop_step {mem : Nat → Bool} {buffer tail extra : Bytes} {table : List (Nat × Nat × Nat)} {done : List Item}
    {i : Item} {p : Parser} {length f : Nat} (h : Inv buffer table done p) (nd : (table.map Prod.fst).Nodup)
    (hA : Allowed table i) (hb : buffer = encode done ++ (one i ++ tail ++ extra))
    (hl : length = (encode done).length + (one i ++ tail).length) (hs : length < 65536) :
    (∃ n, mem n = false ∧ parseLoop mem buffer length (f + 1) (encode done).length p = .err .outOfMemory p) ∨
    ∃ q, Inv buffer table (done ++ [i]) q ∧ parseLoop mem buffer length (f + 1) (encode done).length p
      = parseLoop mem buffer length f (encode (done ++ [i])).length q := by
  have hol := one_length i
  rw [List.length_append] at hl
  have hb' : buffer = encode done ++ (be16 i.1 ++ be16 i.2.length ++ (i.2 ++ tail ++ extra)) := by
    rw [hb]; simp [one]
  rw [loop_header hb' hA.1 hA.2.1 (by omega), if_neg (by omega)]
  have nd' := nd
  have hA' := hA
  rw [← h.tab] at nd' hA'
  obtain ⟨t, ht, hr⟩ := get_allowed nd' hA'
  obtain ⟨hm, hid⟩ := getTlv_some ht
  simp only [ht]
  rw [if_neg hr]
  cases hg : grow mem p with
  | none =>
    obtain ⟨n, hn⟩ := grow_none hg
    exact .inl ⟨n, hn, rfl⟩
  | some q =>
    obtain ⟨hq, hv, htl, hlt⟩ := grow_inv h hg
    have hx : bytesOf buffer ⟨none, ((encode done).length + 4) % 65536, i.2.length⟩ = some i.2 := by
      have e : ((encode done).length + 4) % 65536 = (encode done).length + 4 := Nat.mod_eq_of_lt (by omega)
      rw [e]
      have hbl : buffer.length = (encode done).length + (4 + i.2.length + tail.length + extra.length) := by
        rw [hb]; simp only [List.length_append, hol]
      simp only [bytesOf]
      rw [if_pos (by omega)]
      have : buffer = (encode done ++ be16 i.1 ++ be16 i.2.length) ++ (i.2 ++ (tail ++ extra)) := by
        rw [hb']; simp
      rw [this, List.drop_left' (by simp [be16_length]), List.take_left' rfl]
    obtain ⟨r, hr', hinv⟩ := remember_inv hq hlt (htl ▸ hm) hid hx
    right
    refine ⟨r, hinv, ?_⟩
    simp only [hr']
    rw [encode_snoc, List.length_append, hol, Nat.add_assoc]

/-- the loop runs through allowed items -/
theorem loop_items {mem : Nat → Bool} {buffer tail extra : Bytes} {table : List (Nat × Nat × Nat)} {length : Nat}
    (nd : (table.map Prod.fst).Nodup) (hs : length < 65536) (items : List Item) :
    ∀ (done : List Item) (p : Parser) (f : Nat), Inv buffer table done p → (∀ i ∈ items, Allowed table i) →
    buffer = encode done ++ (encode items ++ tail ++ extra) →
    length = (encode done).length + (encode items ++ tail).length → (encode items ++ tail).length < f →
    (∃ n q, mem n = false ∧ q.maxCount ≤ q.alloc ∧ tableOf q = table ∧
      parseLoop mem buffer length f (encode done).length p = .err .outOfMemory q) ∨
    ∃ q g, Inv buffer table (done ++ items) q ∧ tail.length < g ∧ parseLoop mem buffer length f (encode done).length p
      = parseLoop mem buffer length g (encode (done ++ items)).length q := by
  induction items with
  | nil =>
    intro done p f h _ _ _ hf
    right
    refine ⟨p, f, by simpa using h, ?_, by simp⟩
    simpa [encode_nil] using hf
  | cons i items ih =>
    intro done p f h ha hb hl hf
    have hol := one_length i
    match f, hf with
    | f + 1, hf =>
      have := loop_step (mem := mem) (tail := encode items ++ tail) (extra := extra) (f := f) h nd
        (ha i (by simp)) (by rw [hb, encode_cons]; simp) (by rw [hl, encode_cons]; simp) hs
      rcases this with ⟨n, hn, he⟩ | ⟨q, hq, he⟩
      · exact .inl ⟨n, p, hn, h.cap.2, h.tab, he⟩
      · rw [he]
        have := ih (done ++ [i]) q f hq (fun j hj => ha j (by simp [hj]))
          (by rw [hb, encode_cons, encode_snoc]; simp)
          (by rw [hl, encode_cons, encode_snoc]; simp only [List.length_append]; omega)
          (by rw [encode_cons] at hf; simp only [List.length_append] at hf ⊢; omega)
        simpa using this

/-- what the parser says is the verdict -/
theorem parse_verdict {mem : Nat → Bool} {buffer : Bytes} {length : Nat} {p : Parser} {items : List Item}
    {v : Option PErr} (hw : p.maxCount ≤ p.alloc) (nd : ((tableOf p).map Prod.fst).Nodup) (hlb : length ≤ buffer.length)
    (hs : length < 65536) (hv : Verdict (tableOf p) (buffer.take length) items v) :
    (∃ n q, mem n = false ∧ q.maxCount ≤ q.alloc ∧ tableOf q = tableOf p ∧
      parseStream mem buffer length p = .err .outOfMemory q) ∨
    ∃ q, Inv buffer (tableOf p) items q ∧ parseStream mem buffer length p = Outcome.of v q := by
  have hi := Inv.start (buffer := buffer) hw
  have key : ∀ tail, buffer.take length = encode items ++ tail → (∀ i ∈ items, Allowed (tableOf p) i) →
      (∃ n q, mem n = false ∧ q.maxCount ≤ q.alloc ∧ tableOf q = tableOf p ∧
        parseStream mem buffer length p = .err .outOfMemory q) ∨
      ∃ q g, Inv buffer (tableOf p) items q ∧ tail.length < g ∧ length = (encode items).length + tail.length ∧
        buffer = encode items ++ (tail ++ buffer.drop length) ∧
        parseStream mem buffer length p = parseLoop mem buffer length g (encode items).length q := by
    intro tail ht ha
    have hl : length = (encode items ++ tail).length := by rw [← ht, List.length_take]; omega
    have hb : buffer = encode items ++ tail ++ buffer.drop length := by rw [← ht, List.take_append_drop]
    have := loop_items (mem := mem) (tail := tail) (extra := buffer.drop length) nd hs items [] _ (length + 1) hi ha
      (by simpa [encode_nil] using hb) (by simpa [encode_nil] using hl) (by omega)
    rcases this with ⟨n, q, h1, h2, h3, h4⟩ | ⟨q, g, h1, h2, h3⟩
    · exact .inl ⟨n, q, h1, h2, h3, h4⟩
    · exact .inr ⟨q, g, h1, h2, by simpa using hl, by simpa using hb, h3⟩
  cases hv with
  | good h a =>
    rcases key [] (by simpa using h) a with k | ⟨q, g, hq, hg, hl, hb, he⟩
    · exact .inl k
    · right
      refine ⟨q, hq, ?_⟩
      rw [he]
      simp only [Outcome.of]
      match g, hg with
      | g + 1, _ => rw [parseLoop, if_pos (by simp only [List.length_nil] at hl; omega)]
  | @header rest h a r =>
    rcases key rest h a with k | ⟨q, g, hq, hg, hl, hb, he⟩
    · exact .inl k
    · right
      refine ⟨q, hq, ?_⟩
      rw [he]
      simp only [Outcome.of]
      match g, hg with
      | g + 1, _ => rw [parseLoop, if_neg (by omega), if_pos (by omega)]
  | @cut t n rest h a b r =>
    rcases key _ h a with k | ⟨q, g, hq, hg, hl, hb, he⟩
    · exact .inl k
    · right
      refine ⟨q, hq, ?_⟩
      rw [he]
      simp only [Outcome.of]
      simp only [List.length_append, be16_length] at hl
      match g, hg with
      | g + 1, _ =>
        rw [loop_header (R := rest ++ buffer.drop length) (hb.trans (by simp)) b.1 b.2 (by omega), if_pos (by omega)]
  | @unknown i rest h a b u =>
    rcases key _ h a with k | ⟨q, g, hq, hg, hl, hb, he⟩
    · exact .inl k
    · right
      refine ⟨q, hq, ?_⟩
      rw [he]
      simp only [Outcome.of]
      simp only [List.length_append, one_length] at hl
      match g, hg with
      | g + 1, _ =>
        rw [loop_header (R := i.2 ++ rest ++ buffer.drop length) (hb.trans (by simp [one])) b.1 b.2 (by omega),
          if_neg (by omega), get_unknown (by rw [hq.tab]; exact u)]
  | @length i rest h a b u l =>
    rcases key _ h a with k | ⟨q, g, hq, hg, hl, hb, he⟩
    · exact .inl k
    · right
      refine ⟨q, hq, ?_⟩
      rw [he]
      simp only [Outcome.of]
      simp only [List.length_append, one_length] at hl
      match g, hg with
      | g + 1, _ =>
        obtain ⟨t, ht, hr⟩ := get_bad (p := q) b (by rw [hq.tab]; exact u) (by rw [hq.tab]; exact l)
        rw [loop_header (R := i.2 ++ rest ++ buffer.drop length) (hb.trans (by simp [one])) b.1 b.2 (by omega),
          if_neg (by omega), ht]
        simp only
        rw [if_pos hr]

/-- the chains deliver the values -/
theorem values_inv {buffer : Bytes} {table : List (Nat × Nat × Nat)} {items : List Item} {q : Parser} (type : Nat)
    (h : Inv buffer table items q) (ha : ∀ i ∈ items, Allowed table i) :
    (valuesOf q type).map (bytesOf buffer) = (Spec.valuesOf items type).map some := by
  rw [← idxs_map]
  cases hg : getTlv q.tlvs type with
  | none =>
    have hn : idxs items type = [] := by
      apply List.eq_nil_iff_forall_not_mem.mpr
      intro i hi
      obtain ⟨d, hd, hdt⟩ := mem_idxs.mp hi
      obtain ⟨_, _, e, he, hid, _⟩ := ha d (List.mem_of_getElem? hd)
      rw [← h.tab] at he
      obtain ⟨t, ht⟩ := get_known ⟨e, he, hid⟩
      rw [← hdt, ht] at hg
      exact nomatch hg
    have : firstValue q type = none := by simp [firstValue, hg]
    rw [hn]
    simp only [valuesOf, this]
    cases q.values.length <;> rfl
  | some t =>
    obtain ⟨hm, hid⟩ := getTlv_some hg
    have hlk := h.link t hm
    rw [hid] at hlk
    have hf : firstValue q type = (idxs items type)[0]? := by
      simp only [firstValue, hg, Option.bind_some]
      rw [hlk.1, List.head?_eq_getElem?]
    have hlen : (idxs items type).length ≤ 0 + q.values.length := by
      have : (idxs items type).length ≤ (List.range items.length).length := List.length_filter_le _ _
      rw [List.length_range] at this
      rw [h.len]
      omega
    have hc := chain_linked hlk.2.2 _ 0 hlen
    rw [List.drop_zero] at hc
    simp only [valuesOf, hf]
    have e1 : (chain q.values q.values.length (idxs items type)[0]?).map (bytesOf buffer)
        = ((chain q.values q.values.length (idxs items type)[0]?).map some).map (fun o => o.bind (bytesOf buffer)) := by
      rw [List.map_map]
      rfl
    rw [e1, hc, List.map_map]
    apply List.map_congr_left
    intro i hi
    have hlt := idxs_lt hi
    have : q.values[i]? = some (q.values[i]'(by rw [h.len]; exact hlt)) := List.getElem?_eq_getElem _
    simp only [Function.comp_def, this, Option.bind_some]
    exact h.val i _ this

/-- items are read back from their bytes -/
theorem encode_inj : ∀ (a b : List Item), (∀ i ∈ a, i.1 < 65536 ∧ i.2.length < 65536) →
    (∀ i ∈ b, i.1 < 65536 ∧ i.2.length < 65536) → encode a = encode b → a = b
  | [], [], _, _, _ => rfl
  | [], j :: b, _, _, h => by simp [encode_cons, encode_nil, one, be16] at h
  | i :: a, [], _, _, h => by simp [encode_cons, encode_nil, one, be16] at h
  | i :: a, j :: b, ha, hb, h => by
    have hi := ha i (by simp)
    have hj := hb j (by simp)
    rw [encode_cons, encode_cons] at h
    simp only [one, be16, List.cons_append, List.nil_append, List.cons.injEq] at h
    obtain ⟨h1, h2, h3, h4, h5⟩ := h
    have e1 : i.1 = j.1 := by rw [← num16_be16 hi.1, ← num16_be16 hj.1, h1, h2]
    have e2 : i.2.length = j.2.length := by rw [← num16_be16 hi.2, ← num16_be16 hj.2, h3, h4]
    obtain ⟨e3, e4⟩ := List.append_inj h5 e2
    have := encode_inj a b (fun k hk => ha k (by simp [hk])) (fun k hk => hb k (by simp [hk])) e4
    rw [this, Prod.ext e1 e3]

end Verif.Dlep
