import Verif.WReg.BuildSpec
/-!
C224: addresses and address TLVs of a message as its content providers asked for them.
-/

namespace Verif.WReg

/-- The value of a TLV in a buffer. -/
def valueAt (buf : Nat → Nat) (x : Nat × Nat × Nat) : Nat × List Nat := (x.1, (List.range x.2.2).map fun i => buf (x.2.1 + i))

theorem tlvsOf_some {b : Bld} {a : Nat} {e : Addr} (h : b.ent a = some e) : tlvsOf b a = e.tlvs.map (valueAt b.buf) := by
  unfold tlvsOf
  rw [h]
  rfl

structure Good (b : Bld) (k : Ask) : Prop where
  known : ∀ a, (∃ e, b.ent a = some e) ↔ a ∈ k.order.map (·.1)
  nodup : (k.order.map (·.1)).Nodup
  flag : ∀ a e, b.ent a = some e → e.mand = k.must a
  mand : b.mand = (k.order.filter (·.2)).map (·.1)
  opt : b.opt = (k.order.filter (!·.2)).map (·.1)
  used : b.used = k.bytes
  inside : ∀ a e, b.ent a = some e → ∀ x ∈ e.tlvs, x.2.2 = 0 ∨ x.2.1 + x.2.2 ≤ b.used
  tlvs : ∀ a e, b.ent a = some e → ByType (k.tlvs a) (e.tlvs.map (valueAt b.buf))
  unknown : ∀ a, b.ent a = none → k.tlvs a = [] ∧ k.must a = false

theorem good_init : Good Bld.init Ask.init := by
  constructor <;> simp [Bld.init, Ask.init]

theorem good_addr {size : Nat} {b : Bld} {k : Ask} (h : Good b k) (a : Nat) (m : Bool) :
    Good (addAddress b a m) (k.after size (.addr a m)) := by
  unfold addAddress
  cases hb : b.ent a with
  | some e =>
    have hm : a ∈ k.order.map (·.1) := (h.known a).1 ⟨e, hb⟩
    simp only [Ask.after, if_pos hm]
    refine ⟨?_, h.nodup, ?_, h.mand, h.opt, h.used, ?_, ?_, ?_⟩
    · intro x
      refine Iff.trans ?_ (h.known x)
      dsimp only
      by_cases e' : x = a
      · subst e'; rw [if_pos rfl]; exact ⟨fun _ => ⟨e, hb⟩, fun _ => ⟨_, rfl⟩⟩
      · rw [if_neg e']
    · intro x y hy
      dsimp only at hy ⊢
      by_cases e' : x = a
      · subst e'
        rw [if_pos rfl] at hy
        cases hy
        rw [← h.flag x e hb]
        simp
      · rw [if_neg e'] at hy
        rw [h.flag x y hy]
        simp [e']
    · intro x y hy
      dsimp only at hy ⊢
      by_cases e' : x = a
      · subst e'
        rw [if_pos rfl] at hy
        cases hy
        exact h.inside x e hb
      · rw [if_neg e'] at hy
        exact h.inside x y hy
    · intro x y hy
      dsimp only at hy ⊢
      by_cases e' : x = a
      · subst e'
        rw [if_pos rfl] at hy
        cases hy
        exact h.tlvs x e hb
      · rw [if_neg e'] at hy
        exact h.tlvs x y hy
    · intro x hx
      dsimp only at hx ⊢
      by_cases e' : x = a
      · subst e'; rw [if_pos rfl] at hx; cases hx
      · rw [if_neg e'] at hx
        have := h.unknown x hx
        simp [this, e']
  | none =>
    have hm : a ∉ k.order.map (·.1) := fun hc => by
      obtain ⟨e, he⟩ := (h.known a).2 hc
      rw [hb] at he
      cases he
    simp only [Ask.after, if_neg hm]
    refine ⟨?_, ?_, ?_, ?_, ?_, h.used, ?_, ?_, ?_⟩
    · intro x
      dsimp only
      rw [List.map_append, List.mem_append]
      by_cases e' : x = a
      · subst e'; simp
      · rw [if_neg e']
        refine (h.known x).trans ?_
        simp [e']
    · rw [List.map_append]
      refine List.nodup_append.2 ⟨h.nodup, by simp, ?_⟩
      intro x hx y hy e'
      simp at hy
      subst hy
      exact hm (e' ▸ hx)
    · intro x y hy
      dsimp only at hy ⊢
      by_cases e' : x = a
      · subst e'
        rw [if_pos rfl] at hy
        cases hy
        simp [(h.unknown x hb).2]
      · rw [if_neg e'] at hy
        rw [h.flag x y hy]
        simp [e']
    · dsimp only
      rw [List.filter_append, List.map_append, ← h.mand]
      cases m <;> simp
    · dsimp only
      rw [List.filter_append, List.map_append, ← h.opt]
      cases m <;> simp
    · intro x y hy
      dsimp only at hy ⊢
      by_cases e' : x = a
      · subst e'
        rw [if_pos rfl] at hy
        cases hy
        simp
      · rw [if_neg e'] at hy
        exact h.inside x y hy
    · intro x y hy
      dsimp only at hy ⊢
      by_cases e' : x = a
      · subst e'
        rw [if_pos rfl] at hy
        cases hy
        rw [(h.unknown x hb).1]
        exact ⟨List.Pairwise.nil, fun _ => rfl⟩
      · rw [if_neg e'] at hy
        exact h.tlvs x y hy
    · intro x hx
      dsimp only at hx ⊢
      by_cases e' : x = a
      · subst e'; rw [if_pos rfl] at hx; cases hx
      · rw [if_neg e'] at hx
        have := h.unknown x hx
        simp [this, e']

theorem mem_insertTlv (x : Nat × Nat × Nat) (l : List (Nat × Nat × Nat)) (y : Nat × Nat × Nat) : y ∈ insertTlv x l ↔ y = x ∨ y ∈ l := by
  induction l with
  | nil => simp [insertTlv]
  | cons a l ih =>
    simp only [insertTlv]
    split
    · simp
    · simp only [List.mem_cons, ih]
      constructor
      · rintro (h | h | h)
        · exact .inr (.inl h)
        · exact .inl h
        · exact .inr (.inr h)
      · rintro (h | h | h)
        · exact .inr (.inl h)
        · exact .inl h
        · exact .inr (.inr h)

theorem insertTlv_byType {buf : Nat → Nat} {asked : List (Nat × List Nat)} {l : List (Nat × Nat × Nat)}
    (h : ByType asked (l.map (valueAt buf))) (x : Nat × Nat × Nat) {v : List Nat} (hv : valueAt buf x = (x.1, v)) :
    ByType (asked ++ [(x.1, v)]) ((insertTlv x l).map (valueAt buf)) := by
  have hs : ∀ l : List (Nat × Nat × Nat), (l.map (valueAt buf)).Pairwise (fun a b => a.1 ≤ b.1) →
      ((insertTlv x l).map (valueAt buf)).Pairwise (fun a b => a.1 ≤ b.1) ∧
      ∀ ty, ((insertTlv x l).map (valueAt buf)).filter (·.1 = ty) =
        (l.map (valueAt buf)).filter (·.1 = ty) ++ if x.1 = ty then [(x.1, v)] else [] := by
    intro l
    induction l with
    | nil =>
      intro _
      refine ⟨by simp [insertTlv], fun ty => ?_⟩
      simp only [insertTlv, List.map_cons, List.map_nil, hv]
      by_cases e : x.1 = ty <;> simp [e]
    | cons a l ih =>
      intro hp
      simp only [List.map_cons] at hp
      obtain ⟨hp1, hp2⟩ := List.pairwise_cons.1 hp
      obtain ⟨i1, i2⟩ := ih hp2
      simp only [insertTlv]
      by_cases hlt : x.1 < a.1
      · rw [if_pos hlt]
        simp only [List.map_cons]
        refine ⟨?_, fun ty => ?_⟩
        · refine List.pairwise_cons.2 ⟨?_, hp⟩
          intro y hy
          rw [hv]
          rcases List.mem_cons.1 hy with rfl | hy
          · exact Nat.le_of_lt hlt
          · exact Nat.le_trans (Nat.le_of_lt hlt) (hp1 y hy)
        · rw [List.filter_cons, hv]
          by_cases e : x.1 = ty
          · simp only [e, decide_true, if_true]
            have hnil : (valueAt buf a :: l.map (valueAt buf)).filter (·.1 = ty) = [] := by
              rw [List.filter_eq_nil_iff]
              intro y hy
              have : a.1 ≤ y.1 := by
                rcases List.mem_cons.1 hy with rfl | hy
                · exact Nat.le_refl _
                · exact hp1 y hy
              simp
              omega
            rw [hnil]
            rfl
          · simp [e]
      · rw [if_neg hlt]
        simp only [List.map_cons]
        refine ⟨?_, fun ty => ?_⟩
        · refine List.pairwise_cons.2 ⟨?_, i1⟩
          intro y hy
          obtain ⟨z, hz, rfl⟩ := List.mem_map.1 hy
          rcases (mem_insertTlv x l z).1 hz with rfl | hz
          · show a.1 ≤ z.1
            omega
          · exact hp1 _ (List.mem_map.2 ⟨z, hz, rfl⟩)
        · rw [List.filter_cons, List.filter_cons, i2 ty]
          split <;> simp
  obtain ⟨h1, h2⟩ := hs l h.sorted
  refine ⟨h1, fun ty => ?_⟩
  rw [h2, h.stable, List.filter_append]
  congr 1
  by_cases e : x.1 = ty <;> simp [e]

theorem any_type {b : Bld} {k : Ask} (h : Good b k) {a : Nat} {e : Addr} (he : b.ent a = some e) (ty : Nat) :
    e.tlvs.any (·.1 = ty) = false ↔ ∀ x ∈ k.tlvs a, x.1 ≠ ty := by
  have hs := (h.tlvs a e he).stable ty
  rw [List.any_eq_false]
  constructor
  · intro hn x hx ex
    have hmem : x ∈ (k.tlvs a).filter (·.1 = ty) := List.mem_filter.2 ⟨hx, by simpa using ex⟩
    rw [← hs] at hmem
    obtain ⟨hm, -⟩ := List.mem_filter.1 hmem
    obtain ⟨y, hy, rfl⟩ := List.mem_map.1 hm
    have := hn y hy
    simp at this
    exact this ex
  · intro hn y hy
    simp
    intro ey
    have hmem : valueAt b.buf y ∈ (e.tlvs.map (valueAt b.buf)).filter (·.1 = ty) :=
      List.mem_filter.2 ⟨List.mem_map.2 ⟨y, hy, rfl⟩, decide_eq_true ey⟩
    rw [hs] at hmem
    exact hn _ (List.mem_filter.1 hmem).1 ey

/-- **C224**: one request for a TLV is granted exactly when doubles are allowed or the address has none of this type, and the value
fits into what is left of the buffer; a request that is not granted changes nothing. -/
theorem tlv_answer {size : Nat} {b : Bld} {k : Ask} (h : Good b k) {a : Nat} (ha : a ∈ k.order.map (·.1)) (ty : Nat) (v : List Nat)
    (dup : Bool) :
    ∃ b' r, addTlv size b a ty v dup = some (b', r) ∧ (r = .okay ↔ k.accepts size a ty v dup) ∧ (r ≠ .okay → b' = b) := by
  obtain ⟨e, he⟩ := (h.known a).2 ha
  have hany := any_type h he ty
  unfold addTlv
  rw [he]
  dsimp only
  by_cases hd : (!dup && e.tlvs.any (·.1 = ty)) = true
  · rw [if_pos hd]
    refine ⟨b, .duplicate, rfl, ?_, fun _ => rfl⟩
    simp only [Bool.and_eq_true] at hd
    constructor
    · intro hc; cases hc
    · rintro ⟨hx | hx, -⟩
      · subst hx; simp at hd
      · rw [hany.2 hx] at hd; simp at hd
  · rw [if_neg hd]
    have hfree : dup = true ∨ ∀ x ∈ k.tlvs a, x.1 ≠ ty := by
      cases dup with
      | true => exact .inl rfl
      | false => exact .inr (hany.1 (by cases h' : e.tlvs.any (·.1 = ty) <;> simp [h'] at hd ⊢))
    by_cases hl : v.length > 0
    · rw [if_pos hl]
      have hne : v ≠ [] := by intro e'; subst e'; simp at hl
      by_cases hf : b.used + v.length > size
      · rw [if_pos hf]
        refine ⟨b, .outOfMem, rfl, ?_, fun _ => rfl⟩
        constructor
        · intro hc; cases hc
        · rintro ⟨-, hx | hx⟩
          · exact absurd hx hne
          · rw [h.used] at hf; omega
      · rw [if_neg hf]
        refine ⟨_, .okay, rfl, ?_, fun hn => absurd rfl hn⟩
        exact ⟨fun _ => ⟨hfree, .inr (by rw [h.used] at hf; omega)⟩, fun _ => rfl⟩
    · rw [if_neg hl]
      refine ⟨_, .okay, rfl, ?_, fun hn => absurd rfl hn⟩
      refine ⟨fun _ => ⟨hfree, .inl ?_⟩, fun _ => rfl⟩
      cases v with
      | nil => rfl
      | cons x l => simp at hl

/-- The value which has just been copied, and those that were there. -/
theorem valueAt_new (buf : Nat → Nat) (used : Nat) (ty : Nat) (v : List Nat) :
    valueAt (fun i => if used ≤ i ∧ i < used + v.length then v.getD (i - used) 0 else buf i) (ty, used, v.length) = (ty, v) := by
  unfold valueAt
  congr 1
  apply List.ext_getElem
  · simp
  · intro i h1 h2
    simp at h1
    simp [h1]

theorem valueAt_old (buf : Nat → Nat) (used : Nat) (v : List Nat) {x : Nat × Nat × Nat} (h : x.2.2 = 0 ∨ x.2.1 + x.2.2 ≤ used) :
    valueAt (fun i => if used ≤ i ∧ i < used + v.length then v.getD (i - used) 0 else buf i) x = valueAt buf x := by
  unfold valueAt
  congr 1
  apply List.map_congr_left
  intro i hi
  rw [List.mem_range] at hi
  dsimp only
  rw [if_neg (by omega)]

theorem good_store {b : Bld} {k : Ask} (h : Good b k) {a : Nat} {e : Addr} (he : b.ent a = some e) (ty : Nat) (v : List Nat)
    (x : Nat × Nat × Nat) (buf : Nat → Nat) (hx : x.1 = ty) (hnew : valueAt buf x = (ty, v))
    (hin : x.2.2 = 0 ∨ x.2.1 + x.2.2 ≤ b.used + v.length)
    (hold : ∀ y : Nat × Nat × Nat, (y.2.2 = 0 ∨ y.2.1 + y.2.2 ≤ b.used) → valueAt buf y = valueAt b.buf y) :
    Good { b with
            ent := fun z => if z = a then some { e with tlvs := insertTlv x e.tlvs } else b.ent z
            buf := buf
            used := b.used + v.length }
      { k with tlvs := fun z => if z = a then k.tlvs a ++ [(ty, v)] else k.tlvs z, bytes := k.bytes + v.length } := by
  have hmap : ∀ z y, b.ent z = some y → y.tlvs.map (valueAt buf) = y.tlvs.map (valueAt b.buf) := by
    intro z y hy
    apply List.map_congr_left
    intro t ht
    exact hold t (h.inside z y hy t ht)
  refine ⟨?_, h.nodup, ?_, h.mand, h.opt, by dsimp only; rw [h.used], ?_, ?_, ?_⟩
  · intro z
    refine Iff.trans ?_ (h.known z)
    dsimp only
    by_cases e' : z = a
    · subst e'; rw [if_pos rfl]; exact ⟨fun _ => ⟨e, he⟩, fun _ => ⟨_, rfl⟩⟩
    · rw [if_neg e']
  · intro z y hy
    dsimp only at hy ⊢
    by_cases e' : z = a
    · subst e'; rw [if_pos rfl] at hy; cases hy; exact h.flag z e he
    · rw [if_neg e'] at hy; exact h.flag z y hy
  · intro z y hy t ht
    dsimp only at hy ⊢
    by_cases e' : z = a
    · subst e'
      rw [if_pos rfl] at hy
      cases hy
      rcases (mem_insertTlv x e.tlvs t).1 ht with rfl | ht
      · exact hin
      · have := h.inside z e he t ht; omega
    · rw [if_neg e'] at hy
      have := h.inside z y hy t ht
      omega
  · intro z y hy
    dsimp only at hy ⊢
    by_cases e' : z = a
    · subst e'
      rw [if_pos rfl] at hy
      cases hy
      rw [if_pos rfl, ← hx]
      refine insertTlv_byType ?_ x (by rw [hnew, hx])
      rw [hmap z e he]
      exact h.tlvs z e he
    · rw [if_neg e'] at hy
      rw [if_neg e', hmap z y hy]
      exact h.tlvs z y hy
  · intro z hz
    dsimp only at hz ⊢
    by_cases e' : z = a
    · subst e'; rw [if_pos rfl] at hz; cases hz
    · rw [if_neg e'] at hz
      rw [if_neg e']
      exact h.unknown z hz

theorem good_tlv {size : Nat} {b : Bld} {k : Ask} (h : Good b k) {a : Nat} (ha : a ∈ k.order.map (·.1)) (ty : Nat) (v : List Nat)
    (dup : Bool) : ∃ b', call size b (.tlv a ty v dup) = some b' ∧ Good b' (k.after size (.tlv a ty v dup)) := by
  obtain ⟨b', r, h1, h2, h3⟩ := tlv_answer (size := size) h ha ty v dup
  refine ⟨b', by simp [call, h1], ?_⟩
  by_cases hr : r = .okay
  · have hacc := h2.1 hr
    simp only [Ask.after, if_pos hacc]
    obtain ⟨e, he⟩ := (h.known a).2 ha
    subst hr
    unfold addTlv at h1
    rw [he] at h1
    dsimp only at h1
    split at h1
    · simp at h1
    · split at h1
      · split at h1
        · simp at h1
        · simp only [Option.some.injEq, Prod.mk.injEq, and_true] at h1
          subst h1
          exact good_store h he ty v (ty, b.used, v.length) _ rfl (valueAt_new _ _ _ _) (.inr (Nat.le_refl _))
            (fun y hy => valueAt_old _ _ _ hy)
      · next hl =>
        simp only [Option.some.injEq, Prod.mk.injEq, and_true] at h1
        subst h1
        have hv : v = [] := by
          cases v with
          | nil => rfl
          | cons x l => simp at hl
        subst hv
        exact good_store h he ty [] (ty, 0, 0) b.buf rfl rfl (.inl rfl) (fun _ _ => rfl)
  · rw [h3 hr]
    have hacc : ¬ k.accepts size a ty v dup := fun hc => hr (h2.2 hc)
    simp only [Ask.after, if_neg hacc]
    exact h

theorem good_calls {size : Nat} (cs : List Call) {b : Bld} {k : Ask} (h : Good b k) {seen : List Nat}
    (hs : ∀ a ∈ seen, a ∈ k.order.map (·.1)) (hp : Proper seen cs) :
    ∃ b', calls size b cs = some b' ∧ Good b' (k.all size cs) := by
  induction cs generalizing b k seen with
  | nil => exact ⟨b, rfl, h⟩
  | cons c cs ih =>
    cases c with
    | addr a m =>
      have hg := good_addr (size := size) h a m
      obtain ⟨b', h1, h2⟩ := ih hg (seen := a :: seen) (by
        intro x hx
        simp only [Ask.after]
        rcases List.mem_cons.1 hx with rfl | hx
        · split
          · assumption
          · simp
        · have := hs x hx
          split
          · exact this
          · rw [List.map_append]; exact List.mem_append_left _ this) hp
      exact ⟨b', by simp [calls, call, h1], h2⟩
    | tlv a ty v dup =>
      obtain ⟨b1, h1, hg⟩ := good_tlv (size := size) h (hs a hp.1) ty v dup
      obtain ⟨b2, h2, h3⟩ := ih hg (seen := seen) (by
        intro x hx
        simp only [Ask.after]
        split
        · exact hs x hx
        · exact hs x hx) hp.2
      exact ⟨b2, by simp [calls, h1, h2], h3⟩

theorem order_mem (size : Nat) (cs : List Call) (k : Ask) (a : Nat) :
    a ∈ (k.all size cs).order.map (·.1) ↔ a ∈ k.order.map (·.1) ∨ ∃ m, Call.addr a m ∈ cs := by
  induction cs generalizing k with
  | nil => simp [Ask.all]
  | cons c cs ih =>
    refine (ih (k.after size c)).trans ?_
    cases c with
    | addr x m =>
      have e : a ∈ (k.after size (.addr x m)).order.map (·.1) ↔ a ∈ k.order.map (·.1) ∨ a = x := by
        simp only [Ask.after]
        split
        · next hm =>
          constructor
          · exact .inl
          · rintro (h | rfl)
            · exact h
            · exact hm
        · rw [List.map_append, List.mem_append]; simp
      rw [e]
      constructor
      · rintro ((h | rfl) | ⟨m', h⟩)
        · exact .inl h
        · exact .inr ⟨m, List.mem_cons_self⟩
        · exact .inr ⟨m', List.mem_cons_of_mem _ h⟩
      · rintro (h | ⟨m', h⟩)
        · exact .inl (.inl h)
        · rcases List.mem_cons.1 h with h | h
          · cases h; exact .inl (.inr rfl)
          · exact .inr ⟨m', h⟩
    | tlv x ty v dup =>
      have e : (k.after size (.tlv x ty v dup)).order = k.order := by simp only [Ask.after]; split <;> rfl
      rw [e]
      simp

theorem must_iff (size : Nat) (cs : List Call) (k : Ask) (a : Nat) :
    (k.all size cs).must a = true ↔ k.must a = true ∨ Call.addr a true ∈ cs := by
  induction cs generalizing k with
  | nil => simp [Ask.all]
  | cons c cs ih =>
    refine (ih (k.after size c)).trans ?_
    cases c with
    | addr x m =>
      simp only [Ask.after, Bool.or_eq_true, Bool.and_eq_true, beq_iff_eq, List.mem_cons, Call.addr.injEq]
      constructor
      · rintro ((h | ⟨h1, h2⟩) | h)
        · exact .inl h
        · exact .inr (.inl ⟨h1, h2.symm⟩)
        · exact .inr (.inr h)
      · rintro (h | ⟨h1, h2⟩ | h)
        · exact .inl (.inl h)
        · exact .inl (.inr ⟨h1, h2.symm⟩)
        · exact .inr h
    | tlv x ty v dup =>
      have e : (k.after size (.tlv x ty v dup)).must = k.must := by simp only [Ask.after]; split <;> rfl
      rw [e]
      simp

/-- **C224**: whatever the content providers of a message do, the generator gets every address they asked for exactly once: first those
that were asked for as mandatory the first time, then the others, both in the order of the first requests; an address is marked mandatory
exactly if somebody asked for it as mandatory. -/
theorem C224_addresses (size : Nat) (cs : List Call) (hp : Proper [] cs) :
    ∃ b, calls size Bld.init cs = some b ∧
      merged b = (((Ask.init.all size cs).order.filter (·.2)) ++ ((Ask.init.all size cs).order.filter (!·.2))).map (·.1) ∧
      (merged b).Nodup ∧ (∀ a, a ∈ merged b ↔ ∃ m, Call.addr a m ∈ cs) ∧
      ∀ a e, b.ent a = some e → (e.mand = true ↔ Call.addr a true ∈ cs) := by
  obtain ⟨b, hb, hg⟩ := good_calls (size := size) cs good_init (seen := []) (by simp) hp
  have hm : merged b = (((Ask.init.all size cs).order.filter (·.2)) ++ ((Ask.init.all size cs).order.filter (!·.2))).map (·.1) := by
    unfold merged
    rw [hg.mand, hg.opt, List.map_append]
  have hperm : (merged b).Perm ((Ask.init.all size cs).order.map (·.1)) := by
    rw [hm]
    exact (List.filter_append_perm _ _).map _
  refine ⟨b, hb, hm, hperm.nodup_iff.2 hg.nodup, ?_, ?_⟩
  · intro a
    rw [hperm.mem_iff, order_mem]
    simp [Ask.init]
  · intro a e he
    rw [hg.flag a e he, must_iff]
    simp [Ask.init]

/-- **C224**: and with every address exactly the TLVs that were accepted, with their values, by type and in the order of the calls for
each type. -/
theorem C224_tlvs (size : Nat) (cs : List Call) (hp : Proper [] cs) :
    ∃ b, calls size Bld.init cs = some b ∧ ∀ a, ByType ((Ask.init.all size cs).tlvs a) (tlvsOf b a) := by
  obtain ⟨b, hb, hg⟩ := good_calls (size := size) cs good_init (seen := []) (by simp) hp
  refine ⟨b, hb, fun a => ?_⟩
  cases he : b.ent a with
  | none =>
    rw [(hg.unknown a he).1]
    unfold tlvsOf
    rw [he]
    exact ⟨List.Pairwise.nil, fun _ => rfl⟩
  | some e =>
    rw [tlvsOf_some he]
    exact hg.tlvs a e he

/-- **C224**: a TLV is accepted exactly when doubles are allowed or the address has none of its type yet, and its value fits into the
rest of the buffer; otherwise nothing changes. -/
theorem C224_accepted (size : Nat) (cs : List Call) (hp : Proper [] cs) (a ty : Nat) (v : List Nat) (dup : Bool)
    (ha : ∃ m, Call.addr a m ∈ cs) :
    ∃ b b' r, calls size Bld.init cs = some b ∧ addTlv size b a ty v dup = some (b', r) ∧
      (r = .okay ↔ (Ask.init.all size cs).accepts size a ty v dup) ∧ (r ≠ .okay → b' = b) := by
  obtain ⟨b, hb, hg⟩ := good_calls (size := size) cs good_init (seen := []) (by simp) hp
  obtain ⟨b', r, h⟩ := tlv_answer (size := size) hg ((order_mem _ _ _ _).2 (.inr ha)) ty v dup
  exact ⟨b, b', r, hb, h⟩

/-- **C224**: after a message nothing is left of it: the next one starts as the first one did, whatever is in the buffer of values. -/
theorem C224_next (size : Nat) (b₀ : Bld) (cs : List Call) (hp : Proper [] cs) :
    ∃ b b', calls size Bld.init cs = some b ∧ calls size (freeAddresses b₀) cs = some b' ∧ merged b' = merged b ∧
      ∀ a, ByType ((Ask.init.all size cs).tlvs a) (tlvsOf b' a) := by
  obtain ⟨b, hb, hg⟩ := good_calls (size := size) cs good_init (seen := []) (by simp) hp
  have h0 : Good (freeAddresses b₀) Ask.init := by constructor <;> simp [freeAddresses, Ask.init]
  obtain ⟨b', hb', hg'⟩ := good_calls (size := size) cs h0 (seen := []) (by simp) hp
  refine ⟨b, b', hb, hb', by unfold merged; rw [hg.mand, hg.opt, hg'.mand, hg'.opt], fun a => ?_⟩
  cases he : b'.ent a with
  | none =>
    rw [(hg'.unknown a he).1]
    unfold tlvsOf
    rw [he]
    exact ⟨List.Pairwise.nil, fun _ => rfl⟩
  | some e =>
    rw [tlvsOf_some he]
    exact hg'.tlvs a e he

/-- Two addresses, one of them asked for again as mandatory, TLVs of which one is refused as double and one has no room. -/
def sampleCalls : List Call :=
  [.addr 5 false, .addr 6 false, .tlv 6 9 [1, 2] false, .tlv 6 3 [7] false, .tlv 6 9 [4] false, .addr 6 true, .addr 4 true, .tlv 5 9 [1, 2, 3] false,
   .tlv 5 8 [] false, .tlv 6 3 [8] true]

example : Proper [] sampleCalls := by simp [sampleCalls, Proper]
example : (calls 5 Bld.init sampleCalls).map (fun b => (merged b, tlvsOf b 6, tlvsOf b 5)) =
    some ([4, 5, 6], [(3, [7]), (3, [8]), (9, [1, 2])], [(8, [])]) := by decide +kernel

/-- What one would expect: the mandatory addresses are first in the list, so that every fragment has them. Not if an address is asked
for as optional first, and as mandatory later: it stays behind the optional ones before it, so that a fragment which is full before the
generator gets there does not contain it. For any addresses before it. -/
theorem C224_mandatory_counterexample (size : Nat) (before : List Nat) (a : Nat) (hn : before.Nodup) (ha : a ∉ before) :
    ∃ b, calls size Bld.init (before.map (Call.addr · false) ++ [.addr a false, .addr a true]) = some b ∧
      merged b = before ++ [a] ∧ (b.ent a).map (·.mand) = some true ∧ ∀ x ∈ before, (b.ent x).map (·.mand) = some false := by
  have hpre : ∀ (l : List Nat) (b : Bld), l.Nodup → (∀ x ∈ l, b.ent x = none) → ∀ rest,
      ∃ b', calls size b (l.map (Call.addr · false) ++ rest) = calls size b' rest ∧ b'.mand = b.mand ∧ b'.opt = b.opt ++ l ∧
        (∀ x ∈ l, b'.ent x = some ⟨false, []⟩) ∧ (∀ x, x ∉ l → b'.ent x = b.ent x) := by
    intro l
    induction l with
    | nil => intro b _ _ rest; exact ⟨b, rfl, rfl, by simp, by simp, fun _ _ => rfl⟩
    | cons y l ih =>
      intro b hnd hno rest
      obtain ⟨hy, hnd'⟩ := List.nodup_cons.1 hnd
      have hby := hno y List.mem_cons_self
      obtain ⟨b', h1, h2, h3, h4, h5⟩ := ih (addAddress b y false) hnd' (by
        intro x hx
        have hxy : x ≠ y := fun e => hy (e ▸ hx)
        simp only [addAddress, hby]
        rw [if_neg hxy]
        exact hno x (List.mem_cons_of_mem _ hx)) rest
      refine ⟨b', ?_, ?_, ?_, ?_, ?_⟩
      · simp only [List.map_cons, List.cons_append, calls, call, Option.bind_some]
        exact h1
      · rw [h2]; simp [addAddress, hby]
      · rw [h3]; simp [addAddress, hby]
      · intro x hx
        by_cases e : x ∈ l
        · exact h4 x e
        · rcases List.mem_cons.1 hx with rfl | hx
          · rw [h5 x e]; simp [addAddress, hby]
          · exact absurd hx e
      · intro x hx
        rw [h5 x (fun hc => hx (List.mem_cons_of_mem _ hc))]
        simp only [addAddress, hby]
        rw [if_neg (fun (e : x = y) => hx (e ▸ List.mem_cons_self))]
  obtain ⟨b, h1, h2, h3, h4, h5⟩ := hpre before Bld.init hn (fun _ _ => rfl) [.addr a false, .addr a true]
  have hba : b.ent a = none := by rw [h5 a ha]; rfl
  refine ⟨addAddress (addAddress b a false) a true, ?_, ?_, ?_, ?_⟩
  · rw [h1]; rfl
  · simp [merged, addAddress, hba, h2, h3, Bld.init]
  · simp [addAddress, hba]
  · intro x hx
    have hxa : x ≠ a := fun e => ha (e ▸ hx)
    simp [addAddress, hba, hxa, h4 x hx]

example : [1, 2, 3].Nodup ∧ 7 ∉ [1, 2, 3] := by decide

end Verif.WReg
