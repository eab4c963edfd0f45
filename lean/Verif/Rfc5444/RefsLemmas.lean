import Verif.Rfc5444.RefsSpec
/-
Invariant for C148.
-/
namespace Verif.Rfc5444

/-- number of targets of an interface -/
def cnt (ts : List Tgt) (i : Nat) : Nat := (ts.filter fun t => decide (t.ifc = i)).length

structure Inv (h : Heap) (b : Book) : Prop where
  inodup : h.ifs.Pairwise fun x y => x.id ≠ y.id
  refs : ∀ x ∈ h.ifs, x.refs = b.owners x.id + cnt h.tgts x.id ∧ 0 < b.owners x.id ∧ x.id < h.next
  own : ∀ i, 0 < b.owners i → ∃ x ∈ h.ifs, x.id = i
  tnodup : h.tgts.Pairwise fun x y => x.id ≠ y.id
  tgt : ∀ t ∈ h.tgts, t.refs = 1 ∧ b.holds t.id = 1 ∧ 0 < b.owners t.ifc ∧ t.id < h.next
  hold : ∀ i, 0 < b.holds i → ∃ t ∈ h.tgts, t.id = i
  listen : ∀ x ∈ h.ifs, ∀ k ∈ x.listeners, k ∉ h.gone
  proto : h.proto = if b.users + h.ifs.length = 0 then none else some (b.users + h.ifs.length)

theorem set_same (f : Nat → Nat) (i v : Nat) : set f i v i = v := by simp [set]
theorem set_other (f : Nat → Nat) {i j : Nat} (h : j ≠ i) (v : Nat) : set f i v j = f j := by simp [set, h]

theorem cnt_cons (t : Tgt) (ts : List Tgt) (i : Nat) : cnt (t :: ts) i = (if t.ifc = i then 1 else 0) + cnt ts i := by
  unfold cnt
  by_cases h : t.ifc = i
  · rw [List.filter_cons_of_pos (by simp [h]), if_pos h]; simp; omega
  · rw [List.filter_cons_of_neg (by simp [h]), if_neg h]; simp

theorem cnt_zero {ts : List Tgt} {i : Nat} (h : ∀ t ∈ ts, t.ifc ≠ i) : cnt ts i = 0 := by
  unfold cnt
  rw [List.length_eq_zero_iff, List.filter_eq_nil_iff]
  intro t ht
  simpa using h t ht

theorem cnt_pos {ts : List Tgt} {t : Tgt} (h : t ∈ ts) : 0 < cnt ts t.ifc := by
  unfold cnt
  exact List.length_pos_of_mem (List.mem_filter.mpr ⟨h, by simp⟩)

theorem filter_self {α : Type} (p : α → Bool) {l : List α} (h : ∀ x ∈ l, p x = true) : l.filter p = l := List.filter_eq_self.mpr h

theorem cnt_remove {ts : List Tgt} (hn : ts.Pairwise fun x y => x.id ≠ y.id) {t : Tgt} (ht : t ∈ ts) (i : Nat) :
    cnt ts i = (if t.ifc = i then 1 else 0) + cnt (ts.filter fun y => decide (y.id ≠ t.id)) i := by
  induction ts with
  | nil => exact nomatch ht
  | cons x ts ih =>
    obtain ⟨h1, h2⟩ := List.pairwise_cons.mp hn
    rcases List.mem_cons.mp ht with rfl | ht'
    · have : (t :: ts).filter (fun y => decide (y.id ≠ t.id)) = ts := by
        rw [List.filter_cons_of_neg (by simp)]
        exact filter_self _ fun y hy => by simpa using (h1 y hy).symm
      rw [this, cnt_cons]
    · have hne : x.id ≠ t.id := h1 t ht'
      rw [List.filter_cons_of_pos (by simpa using hne), cnt_cons, cnt_cons, ih h2 ht']
      omega

theorem length_remove {xs : List Ifc} (hn : xs.Pairwise fun x y => x.id ≠ y.id) {x : Ifc} (hx : x ∈ xs) :
    xs.length = (xs.filter fun y => decide (y.id ≠ x.id)).length + 1 := by
  induction xs with
  | nil => exact nomatch hx
  | cons y xs ih =>
    obtain ⟨h1, h2⟩ := List.pairwise_cons.mp hn
    rcases List.mem_cons.mp hx with rfl | hx'
    · rw [List.filter_cons_of_neg (by simp)]
      rw [filter_self _ fun y hy => by simpa using (h1 y hy).symm]
      rfl
    · rw [List.filter_cons_of_pos (by simpa using h1 x hx'), List.length_cons, List.length_cons, ih h2 hx']

theorem find_id {xs : List Ifc} {i : Nat} (h : ∃ x ∈ xs, x.id = i) : ∃ x ∈ xs, x.id = i ∧ xs.find? (fun x => x.id = i) = some x := by
  cases hf : xs.find? (fun x => x.id = i) with
  | none =>
    obtain ⟨x, hx, hi⟩ := h
    exact absurd hi (by simpa using List.find?_eq_none.mp hf x hx)
  | some x => exact ⟨x, List.mem_of_find?_eq_some hf, by simpa using List.find?_some hf, rfl⟩

theorem find_tid {xs : List Tgt} {i : Nat} (h : ∃ x ∈ xs, x.id = i) : ∃ x ∈ xs, x.id = i ∧ xs.find? (fun x => x.id = i) = some x := by
  cases hf : xs.find? (fun x => x.id = i) with
  | none =>
    obtain ⟨x, hx, hi⟩ := h
    exact absurd hi (by simpa using List.find?_eq_none.mp hf x hx)
  | some x => exact ⟨x, List.mem_of_find?_eq_some hf, by simpa using List.find?_some hf, rfl⟩

/-- changing an interface but not its identity -/
theorem inodup_map {xs : List Ifc} (hn : xs.Pairwise fun x y => x.id ≠ y.id) {f : Ifc → Ifc} (hf : ∀ x, (f x).id = x.id) :
    (xs.map f).Pairwise fun x y => x.id ≠ y.id := by
  rw [List.pairwise_map]
  exact hn.imp fun h => by rw [hf, hf]; exact h

theorem inv_empty : Inv {} {} where
  inodup := List.Pairwise.nil
  refs := fun x hx => nomatch hx
  own := fun i hi => absurd hi (by simp)
  tnodup := List.Pairwise.nil
  tgt := fun x hx => nomatch hx
  hold := fun i hi => absurd hi (by simp)
  listen := fun x hx => nomatch hx
  proto := rfl

theorem proto_some {h : Heap} {b : Book} (I : Inv h b) (hp : 0 < b.users + h.ifs.length) : h.proto = some (b.users + h.ifs.length) := by
  rw [I.proto, if_neg (by omega)]

theorem removeProtocol_ok (h : Heap) {n : Nat} (hp : h.proto = some (n + 1)) (hn : h.ifs.length ≤ n) :
    removeProtocol h = some { h with proto := if n = 0 then none else some n } := by
  unfold removeProtocol
  rw [hp]
  simp only
  by_cases h0 : n = 0
  · subst h0
    rw [if_neg (by omega), if_pos (List.length_eq_zero_iff.mp (Nat.le_zero.mp hn)), if_pos rfl]
  · rw [if_pos (by omega), if_neg h0]
    rfl

theorem step_inv {h : Heap} {b : Book} (I : Inv h b) (o : Op) (hl : Legal b o) (hc : Careful h b o) :
    ∃ h' r, exec h o = some (h', r) ∧ Inv h' (b.note r o) := by
  cases o with
  | addProtocol =>
    refine ⟨_, _, rfl, { I with proto := ?_ }⟩
    show some (h.proto.getD 0 + 1) = if b.users + 1 + h.ifs.length = 0 then none else some (b.users + 1 + h.ifs.length)
    rw [if_neg (by omega), I.proto]
    by_cases h0 : b.users + h.ifs.length = 0
    · rw [if_pos h0]; simp; omega
    · rw [if_neg h0]; simp; omega
  | removeProtocol =>
    have hu : 0 < b.users := hl
    have hp := proto_some I (by omega)
    obtain ⟨n, hn⟩ : ∃ n, b.users + h.ifs.length = n + 1 := ⟨b.users + h.ifs.length - 1, by omega⟩
    rw [hn] at hp
    refine ⟨{ h with proto := if n = 0 then none else some n }, 0, ?_, ?_⟩
    · show (removeProtocol h).map _ = _
      rw [removeProtocol_ok h hp (by omega)]
      rfl
    · refine { I with proto := ?_ }
      show (if n = 0 then none else some n) = if b.users - 1 + h.ifs.length = 0 then none else some (b.users - 1 + h.ifs.length)
      have : b.users - 1 + h.ifs.length = n := by omega
      rw [this]
  | addIf name l =>
    have hu : 0 < b.users := hl
    have hp := proto_some I (by omega)
    show ∃ h' r, addIf h name l = some (h', r) ∧ _
    unfold addIf
    rw [hp]
    simp only
    cases hf : h.ifs.find? (fun x => x.name = name) with
    | none =>
      have hnew : b.owners h.next = 0 := by
        rcases Nat.eq_zero_or_pos (b.owners h.next) with h0 | h0
        · exact h0
        · obtain ⟨x, hx, he⟩ := I.own _ h0
          have := (I.refs x hx).2.2
          omega
      have hcnt : cnt h.tgts h.next = 0 := by
        refine cnt_zero fun t ht he => ?_
        have := (I.tgt t ht).2.2.1
        rw [he, hnew] at this
        omega
      refine ⟨_, _, rfl, ?_⟩
      refine { inodup := ?_, refs := ?_, own := ?_, tnodup := I.tnodup, tgt := ?_, hold := I.hold, listen := ?_, proto := ?_ }
      · refine List.pairwise_cons.mpr ⟨fun y hy => ?_, I.inodup⟩
        have := (I.refs y hy).2.2
        show h.next ≠ y.id
        omega
      · intro x hx
        rcases List.mem_cons.mp hx with rfl | hx'
        · refine ⟨?_, ?_, Nat.lt_succ_self _⟩
          · show 1 = set b.owners h.next (b.owners h.next + 1) h.next + cnt h.tgts h.next
            rw [set_same, hnew, hcnt]
          · show 0 < set b.owners h.next (b.owners h.next + 1) h.next
            rw [set_same]; omega
        · obtain ⟨r1, r2, r3⟩ := I.refs x hx'
          have hne : x.id ≠ h.next := by omega
          refine ⟨?_, ?_, Nat.lt_succ_of_lt r3⟩
          · show x.refs = set b.owners h.next _ x.id + _
            rw [set_other _ hne]; exact r1
          · show 0 < set b.owners h.next _ x.id
            rw [set_other _ hne]; exact r2
      · intro i hi
        by_cases he : i = h.next
        · exact ⟨_, List.mem_cons_self, he.symm⟩
        · have hi : 0 < set b.owners h.next _ i := hi
          rw [set_other _ he] at hi
          obtain ⟨x, hx, hx'⟩ := I.own i hi
          exact ⟨x, List.mem_cons_of_mem _ hx, hx'⟩
      · intro t ht
        obtain ⟨r1, r2, r3, r4⟩ := I.tgt t ht
        refine ⟨r1, r2, ?_, Nat.lt_succ_of_lt r4⟩
        show 0 < set b.owners h.next _ t.ifc
        by_cases he : t.ifc = h.next
        · rw [he, set_same]; omega
        · rw [set_other _ he]; exact r3
      · intro x hx k hk
        rcases List.mem_cons.mp hx with rfl | hx'
        · cases l with
          | none => exact nomatch hk
          | some m =>
            have : k = m := by simpa using hk
            subst this
            exact hc k rfl
        · exact I.listen x hx' k hk
      · show some (b.users + h.ifs.length + 1) = if b.users + (h.ifs.length + 1) = 0 then none else some (b.users + (h.ifs.length + 1))
        rw [if_neg (by omega)]
        rfl
    | some x =>
      have hx := List.mem_of_find?_eq_some hf
      refine ⟨_, _, rfl, ?_⟩
      have fid : ∀ y : Ifc, (if y.id = x.id then { y with refs := y.refs + 1, listeners := y.listeners ++ l.toList } else y).id = y.id := by
        intro y; split <;> rfl
      refine { inodup := inodup_map I.inodup fid, refs := ?_, own := ?_, tnodup := I.tnodup, tgt := ?_, hold := I.hold, listen := ?_, proto := ?_ }
      · intro y hy
        obtain ⟨z, hz, rfl⟩ := List.mem_map.mp hy
        obtain ⟨r1, r2, r3⟩ := I.refs z hz
        show Ifc.refs (if z.id = x.id then _ else z) = set b.owners x.id _ (Ifc.id (if z.id = x.id then _ else z)) +
          cnt h.tgts (Ifc.id (if z.id = x.id then _ else z)) ∧ 0 < set b.owners x.id _ (Ifc.id (if z.id = x.id then _ else z)) ∧
          Ifc.id (if z.id = x.id then _ else z) < h.next
        rw [fid]
        by_cases he : z.id = x.id
        · rw [if_pos he]
          rw [he] at r1 r2 r3 ⊢
          rw [set_same]
          refine ⟨?_, by omega, r3⟩
          show z.refs + 1 = _
          omega
        · rw [if_neg he, set_other _ he]
          exact ⟨r1, r2, r3⟩
      · intro i hi
        have hi : 0 < set b.owners x.id _ i := hi
        have : ∃ y ∈ h.ifs, y.id = i := by
          by_cases he : i = x.id
          · exact ⟨x, hx, he.symm⟩
          · rw [set_other _ he] at hi
            exact I.own i hi
        obtain ⟨y, hy, hi'⟩ := this
        exact ⟨_, List.mem_map_of_mem hy, by rw [fid]; exact hi'⟩
      · intro t ht
        obtain ⟨r1, r2, r3, r4⟩ := I.tgt t ht
        refine ⟨r1, r2, ?_, r4⟩
        show 0 < set b.owners x.id _ t.ifc
        by_cases he : t.ifc = x.id
        · rw [he, set_same]; omega
        · rw [set_other _ he]; exact r3
      · intro y hy k hk
        obtain ⟨z, hz, rfl⟩ := List.mem_map.mp hy
        by_cases he : z.id = x.id
        · rw [if_pos he] at hk
          rcases List.mem_append.mp hk with hk | hk
          · exact I.listen z hz k hk
          · cases l with
            | none => exact nomatch hk
            | some m =>
              have : k = m := by simpa using hk
              subst this
              exact hc k rfl
        · rw [if_neg he] at hk
          exact I.listen z hz k hk
      · show some _ = if b.users + (h.ifs.map _).length = 0 then none else some (b.users + (h.ifs.map _).length)
        rw [List.length_map, if_neg (by omega)]
  | removeIf i l =>
    have ho : 0 < b.owners i := hl
    obtain ⟨c1, c2⟩ := hc
    obtain ⟨x, hx, hi, hf⟩ := find_id (I.own i ho)
    obtain ⟨r1, r2, r3⟩ := I.refs x hx
    rw [hi] at r1 r2 r3
    show ∃ h' r, (leaveIf h i l).map _ = some (h', r) ∧ _
    unfold leaveIf removeIf
    rw [hf]
    simp only
    by_cases hr : x.refs > 1
    · rw [if_pos hr]
      have h1 : b.owners i ≠ 1 := by
        intro h1
        have := cnt_zero (c1 h1)
        omega
      have hln : l = none := by
        cases l with
        | none => rfl
        | some k => exact absurd (c2 (by simp)).1 h1
      subst hln
      refine ⟨_, _, rfl, ?_⟩
      have fid : ∀ y : Ifc, (if y.id = i then { y with refs := y.refs - 1 } else y).id = y.id := by
        intro y; split <;> rfl
      refine { inodup := inodup_map I.inodup fid, refs := ?_, own := ?_, tnodup := I.tnodup, tgt := ?_, hold := I.hold, listen := ?_, proto := ?_ }
      · intro y hy
        obtain ⟨z, hz, rfl⟩ := List.mem_map.mp hy
        obtain ⟨q1, q2, q3⟩ := I.refs z hz
        show Ifc.refs (if z.id = i then _ else z) = set b.owners i _ (Ifc.id (if z.id = i then _ else z)) +
          cnt h.tgts (Ifc.id (if z.id = i then _ else z)) ∧ 0 < set b.owners i _ (Ifc.id (if z.id = i then _ else z)) ∧
          Ifc.id (if z.id = i then _ else z) < h.next
        rw [fid]
        by_cases he : z.id = i
        · rw [if_pos he]
          rw [he] at q1 q2 q3 ⊢
          rw [set_same]
          refine ⟨?_, by omega, q3⟩
          show z.refs - 1 = _
          omega
        · rw [if_neg he, set_other _ he]
          exact ⟨q1, q2, q3⟩
      · intro j hj
        have hj : 0 < set b.owners i _ j := hj
        have : ∃ y ∈ h.ifs, y.id = j := by
          by_cases he : j = i
          · exact ⟨x, hx, hi.trans he.symm⟩
          · rw [set_other _ he] at hj
            exact I.own j hj
        obtain ⟨y, hy, hi'⟩ := this
        exact ⟨_, List.mem_map_of_mem hy, by rw [fid]; exact hi'⟩
      · intro t ht
        obtain ⟨q1, q2, q3, q4⟩ := I.tgt t ht
        refine ⟨q1, q2, ?_, q4⟩
        show 0 < set b.owners i _ t.ifc
        by_cases he : t.ifc = i
        · rw [he, set_same]; omega
        · rw [set_other _ he]; exact q3
      · intro y hy k hk
        obtain ⟨z, hz, rfl⟩ := List.mem_map.mp hy
        have hk : k ∈ z.listeners := by
          by_cases he : z.id = i
          · rw [if_pos he] at hk; exact hk
          · rw [if_neg he] at hk; exact hk
        exact I.listen z hz k hk
      · show h.proto = if b.users + (h.ifs.map _).length = 0 then none else some (b.users + (h.ifs.map _).length)
        rw [List.length_map]
        exact I.proto
    · rw [if_neg hr]
      have ho1 : b.owners i = 1 := by omega
      have hno := c1 ho1
      rw [if_neg]
      · have htg : h.tgts.filter (fun t => decide (t.ifc ≠ i)) = h.tgts := filter_self _ fun t ht => by simpa using hno t ht
        rw [htg]
        have hlen := length_remove I.inodup hx
        rw [hi] at hlen
        have hp := proto_some I (by omega)
        rw [removeProtocol_ok (n := b.users + (h.ifs.filter fun y => decide (y.id ≠ i)).length) _
          (by show h.proto = _; rw [hp]; congr 1; omega) (by show (h.ifs.filter fun y => decide (y.id ≠ i)).length ≤ _; omega)]
        refine ⟨_, _, rfl, ?_⟩
        refine { inodup := List.Pairwise.filter _ I.inodup, refs := ?_, own := ?_, tnodup := I.tnodup, tgt := ?_, hold := I.hold, listen := ?_, proto := rfl }
        · intro y hy
          obtain ⟨hy, hne⟩ := List.mem_filter.mp hy
          have hne : y.id ≠ i := by simpa using hne
          show y.refs = set b.owners i _ y.id + _ ∧ 0 < set b.owners i _ y.id ∧ _
          rw [set_other _ hne]
          exact I.refs y hy
        · intro j hj
          have hj : 0 < set b.owners i _ j := hj
          by_cases he : j = i
          · rw [he, set_same] at hj; omega
          · rw [set_other _ he] at hj
            obtain ⟨y, hy, hj'⟩ := I.own j hj
            exact ⟨y, List.mem_filter.mpr ⟨hy, by simpa [hj'] using he⟩, hj'⟩
        · intro t ht
          obtain ⟨q1, q2, q3, q4⟩ := I.tgt t ht
          refine ⟨q1, q2, ?_, q4⟩
          show 0 < set b.owners i _ t.ifc
          rw [set_other _ (hno t ht)]; exact q3
        · intro y hy' k hk hg
          obtain ⟨hy, hne⟩ := List.mem_filter.mp hy'
          clear hy'
          have hne : y.id ≠ i := by simpa using hne
          have hg : k ∈ l.toList ++ h.gone := hg
          rcases List.mem_append.mp hg with hg | hg
          · cases l with
            | none => exact nomatch hg
            | some m =>
              have : k = m := by simpa using hg
              subst this
              exact (c2 (by simp)).2 k rfl y hy hne hk
          · exact I.listen y hy k hk hg
      · rintro ⟨_, ha⟩
        obtain ⟨k, hk, hg⟩ := List.any_eq_true.mp ha
        exact I.listen x hx k hk (by simpa using hg)
  | addTarget i dst =>
    have ho : 0 < b.owners i := hl
    obtain ⟨x, hx, hi, hf⟩ := find_id (I.own i ho)
    show ∃ h' r, addTarget h i dst = some (h', r) ∧ _
    unfold addTarget
    rw [hf]
    simp only
    have hn : h.tgts.find? (fun t => t.ifc = i ∧ t.dst = dst) = none := by
      rw [List.find?_eq_none]
      intro t ht
      simpa using hc t ht
    rw [hn]
    have hnew : b.holds h.next = 0 := by
      rcases Nat.eq_zero_or_pos (b.holds h.next) with h0 | h0
      · exact h0
      · obtain ⟨t, ht, he⟩ := I.hold _ h0
        have := (I.tgt t ht).2.2.2
        omega
    refine ⟨_, _, rfl, ?_⟩
    have fid : ∀ y : Ifc, (if y.id = i then { y with refs := y.refs + 1 } else y).id = y.id := by
      intro y; split <;> rfl
    refine { inodup := inodup_map I.inodup fid, refs := ?_, own := ?_, tnodup := ?_, tgt := ?_, hold := ?_, listen := ?_, proto := ?_ }
    · intro y hy
      obtain ⟨z, hz, rfl⟩ := List.mem_map.mp hy
      obtain ⟨q1, q2, q3⟩ := I.refs z hz
      show Ifc.refs (if z.id = i then _ else z) = b.owners (Ifc.id (if z.id = i then _ else z)) +
        cnt (⟨h.next, i, dst, 1⟩ :: h.tgts) (Ifc.id (if z.id = i then _ else z)) ∧ 0 < b.owners (Ifc.id (if z.id = i then _ else z)) ∧
        Ifc.id (if z.id = i then _ else z) < h.next + 1
      rw [fid, cnt_cons]
      by_cases he : z.id = i
      · rw [if_pos he, if_pos he.symm]
        refine ⟨?_, q2, by omega⟩
        show z.refs + 1 = _
        omega
      · rw [if_neg he, if_neg (fun hh => he hh.symm)]
        exact ⟨by omega, q2, by omega⟩
    · intro j hj
      obtain ⟨y, hy, hj'⟩ := I.own j hj
      exact ⟨_, List.mem_map_of_mem hy, by rw [fid]; exact hj'⟩
    · refine List.pairwise_cons.mpr ⟨fun t ht => ?_, I.tnodup⟩
      have := (I.tgt t ht).2.2.2
      show h.next ≠ t.id
      omega
    · intro t ht
      rcases List.mem_cons.mp ht with rfl | ht'
      · refine ⟨rfl, ?_, ho, Nat.lt_succ_self _⟩
        show set b.holds h.next _ h.next = 1
        rw [set_same, hnew]
      · obtain ⟨q1, q2, q3, q4⟩ := I.tgt t ht'
        refine ⟨q1, ?_, q3, Nat.lt_succ_of_lt q4⟩
        show set b.holds h.next _ t.id = 1
        rw [set_other _ (by omega)]
        exact q2
    · intro j hj
      have hj : 0 < set b.holds h.next _ j := hj
      by_cases he : j = h.next
      · exact ⟨_, List.mem_cons_self, he.symm⟩
      · rw [set_other _ he] at hj
        obtain ⟨t, ht, hj'⟩ := I.hold j hj
        exact ⟨t, List.mem_cons_of_mem _ ht, hj'⟩
    · intro y hy k hk
      obtain ⟨z, hz, rfl⟩ := List.mem_map.mp hy
      have hk : k ∈ z.listeners := by
        by_cases he : z.id = i
        · rw [if_pos he] at hk; exact hk
        · rw [if_neg he] at hk; exact hk
      exact I.listen z hz k hk
    · show h.proto = if b.users + (h.ifs.map _).length = 0 then none else some (b.users + (h.ifs.map _).length)
      rw [List.length_map]
      exact I.proto
  | removeTarget t =>
    have ht : 0 < b.holds t := hl
    obtain ⟨x, hx, hi, hf⟩ := find_tid (I.hold t ht)
    obtain ⟨q1, q2, q3, q4⟩ := I.tgt x hx
    show ∃ h' r, (removeTarget h t).map _ = some (h', r) ∧ _
    unfold removeTarget
    rw [hf]
    simp only
    rw [if_neg (by omega)]
    obtain ⟨y, hy, yi, yf⟩ := find_id (I.own x.ifc q3)
    have yr := (I.refs y hy).1
    rw [yi] at yr
    have yc := cnt_pos hx
    have e : removeIf { h with tgts := h.tgts.filter fun y => decide (y.id ≠ t) } x.ifc none =
        some { h with tgts := h.tgts.filter fun y => decide (y.id ≠ t),
                      ifs := h.ifs.map fun y => if y.id = x.ifc then { y with refs := y.refs - 1 } else y } := by
      unfold removeIf
      show (match h.ifs.find? (fun z => z.id = x.ifc) with | none => none | some x => _) = _
      rw [yf]
      simp only
      rw [if_pos (by omega)]
    rw [e]
    have fid : ∀ z : Ifc, (if z.id = x.ifc then { z with refs := z.refs - 1 } else z).id = z.id := by
      intro z; split <;> rfl
    have hp := proto_some I (by have := List.length_pos_of_mem hy; omega)
    simp only
    rw [if_neg]
    · refine ⟨_, _, rfl, ?_⟩
      refine { inodup := inodup_map I.inodup fid, refs := ?_, own := ?_, tnodup := List.Pairwise.filter _ I.tnodup, tgt := ?_, hold := ?_, listen := ?_, proto := ?_ }
      · intro w hw
        obtain ⟨z, hz, rfl⟩ := List.mem_map.mp hw
        obtain ⟨p1, p2, p3⟩ := I.refs z hz
        have cr := cnt_remove I.tnodup hx z.id
        rw [hi] at cr
        show Ifc.refs (if z.id = x.ifc then _ else z) = b.owners (Ifc.id (if z.id = x.ifc then _ else z)) +
          cnt (h.tgts.filter fun y => decide (y.id ≠ t)) (Ifc.id (if z.id = x.ifc then _ else z)) ∧
          0 < b.owners (Ifc.id (if z.id = x.ifc then _ else z)) ∧ Ifc.id (if z.id = x.ifc then _ else z) < h.next
        rw [fid]
        by_cases he : z.id = x.ifc
        · rw [if_pos he]
          rw [if_pos he.symm] at cr
          refine ⟨?_, p2, p3⟩
          show z.refs - 1 = _
          omega
        · rw [if_neg he]
          rw [if_neg (fun hh => he hh.symm)] at cr
          exact ⟨by omega, p2, p3⟩
      · intro j hj
        obtain ⟨z, hz, hj'⟩ := I.own j hj
        exact ⟨_, List.mem_map_of_mem hz, by rw [fid]; exact hj'⟩
      · intro s hs
        obtain ⟨hs, hne⟩ := List.mem_filter.mp hs
        have hne : s.id ≠ t := by simpa using hne
        obtain ⟨p1, p2, p3, p4⟩ := I.tgt s hs
        refine ⟨p1, ?_, p3, p4⟩
        show set b.holds t _ s.id = 1
        rw [set_other _ hne]; exact p2
      · intro j hj
        have hj : 0 < set b.holds t _ j := hj
        by_cases he : j = t
        · rw [he, set_same] at hj
          rw [hi] at q2
          omega
        · rw [set_other _ he] at hj
          obtain ⟨s, hs, hj'⟩ := I.hold j hj
          exact ⟨s, List.mem_filter.mpr ⟨hs, by simpa [hj'] using he⟩, hj'⟩
      · intro w hw k hk
        obtain ⟨z, hz, rfl⟩ := List.mem_map.mp hw
        have hk : k ∈ z.listeners := by
          by_cases he : z.id = x.ifc
          · rw [if_pos he] at hk; exact hk
          · rw [if_neg he] at hk; exact hk
        exact I.listen z hz k hk
      · show h.proto = if b.users + (h.ifs.map _).length = 0 then none else some (b.users + (h.ifs.map _).length)
        rw [List.length_map]
        exact I.proto
    · rintro (h0 | h0)
      · have h0 : h.proto = none := h0
        rw [hp] at h0
        exact nomatch h0
      · have := List.all_eq_true.mp h0 _ (List.mem_map_of_mem hy)
        rw [fid] at this
        simp [yi] at this
  | useTarget t =>
    have ht : 0 < b.holds t := hl
    obtain ⟨x, hx, hi⟩ := I.hold t ht
    refine ⟨h, 0, ?_, I⟩
    show (if h.tgts.any (fun x => x.id = t) then some (h, 0) else none) = _
    rw [if_pos (List.any_eq_true.mpr ⟨x, hx, by simpa using hi⟩)]
  | changed i =>
    show ∃ h' r, (match h.ifs.find? (fun x => x.id = i) with
      | none => some (h, 0)
      | some x => if x.listeners.any (fun k => h.gone.contains k) then none else some (h, 0)) = some (h', r) ∧ _
    cases hf : h.ifs.find? (fun x => x.id = i) with
    | none => exact ⟨h, 0, rfl, I⟩
    | some x =>
      have hx := List.mem_of_find?_eq_some hf
      refine ⟨h, 0, ?_, I⟩
      simp only
      rw [if_neg]
      intro ha
      obtain ⟨k, hk, hg⟩ := List.any_eq_true.mp ha
      exact I.listen x hx k hk (by simpa using hg)

theorem runs_inv {os : List Op} {h : Heap} {b : Book} (hr : Runs (fun h b o => Legal b o ∧ Careful h b o) os h b) : Inv h b := by
  induction hr with
  | nil => exact inv_empty
  | cons _ hok he ih =>
    obtain ⟨h', r, he', hi⟩ := step_inv ih _ hok.1 hok.2
    rw [he] at he'
    cases he'
    exact hi

end Verif.Rfc5444
