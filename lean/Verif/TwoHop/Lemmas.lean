import Verif.TwoHop.Spec

/-
Two-hop addresses of a link.
-/
namespace Verif.TwoHop
open Verif.Codec (MetricField metricInfinite)
open Verif.Hello (Pair hopTlv receiveHop hopSeen setT)
open Verif.Nhdp (Map Status)
open Verif.Netaddr (Netaddr)

/-! ### Metrics -/

theorem length_clearMet (doms : List Dom) (met : List Pair) (h : met.length = doms.length) : (clearMet doms met).length = doms.length := by
  unfold clearMet
  rw [List.length_zipWith, h, Nat.min_self]

theorem length_tlvMet (doms : List Dom) (met : List Pair) (t : Nat × MetricField) : (tlvMet doms met t).length = met.length := by
  unfold tlvMet
  split
  · rfl
  · split
    · rfl
    · rw [List.length_modify]

theorem length_setMet (doms : List Dom) (met : List Pair) (tlvs : List (Nat × MetricField)) (h : met.length = doms.length) :
    (setMet doms met tlvs).length = doms.length := by
  unfold setMet
  have : ∀ (tlvs : List (Nat × MetricField)) (met : List Pair), met.length = doms.length → (tlvs.foldl (tlvMet doms) met).length = doms.length := by
    intro tlvs
    induction tlvs with
    | nil => exact fun _ h => h
    | cons t tlvs ih => exact fun met h => ih _ (by rw [length_tlvMet, h])
  exact this _ _ (length_clearMet doms met h)

theorem findIdx_ext {doms : List Dom} (hu : (doms.map (·.ext)).Nodup) {i : Nat} {d : Dom} (hd : doms[i]? = some d) (x : Nat) :
    doms.findIdx? (fun d => d.ext == x) = some i ↔ d.ext = x := by
  rw [List.findIdx?_eq_some_iff_getElem]
  obtain ⟨hi, rfl⟩ := List.getElem?_eq_some_iff.1 hd
  constructor
  · rintro ⟨_, h, _⟩
    simpa using h
  · intro h
    refine ⟨hi, by simpa using h, ?_⟩
    intro j hj hc
    have hc : doms[j].ext = x := by simpa using hc
    have hlt := List.pairwise_iff_getElem.1 hu j i (by rw [List.length_map]; omega) (by rw [List.length_map]; omega) hj
    rw [List.getElem_map, List.getElem_map] at hlt
    exact hlt (hc.trans h.symm)

theorem tlvMet_get {doms : List Dom} (hu : (doms.map (·.ext)).Nodup) {i : Nat} {d : Dom} (hd : doms[i]? = some d) (hs : d.special = false)
    (met : List Pair) (t : Nat × MetricField) : (tlvMet doms met t)[i]? = if t.1 == d.ext then (met[i]?).map fun p => hopTlv p t.2 else met[i]? := by
  unfold tlvMet
  have hx := findIdx_ext hu hd t.1
  cases hf : doms.findIdx? fun d => d.ext == t.1 with
  | none =>
    have : ¬d.ext = t.1 := fun h => by rw [hx.2 h] at hf; cases hf
    rw [if_neg (by simpa using fun h => this h.symm)]
  | some j =>
    by_cases hij : j = i
    · subst hij
      have : d.ext = t.1 := hx.1 hf
      rw [if_pos (by simp [this])]
      dsimp only
      rw [hd]
      simp only [Option.any_some, hs, Bool.false_eq_true, if_false]
      rw [List.getElem?_modify]
      simp
    · have : ¬d.ext = t.1 := fun h => by rw [hx.2 h] at hf; exact hij (Option.some.inj hf).symm
      rw [if_neg (by simpa using fun h => this h.symm)]
      dsimp only
      split
      · rfl
      · rw [List.getElem?_modify]
        simp only [if_neg hij]
        cases met[i]? <;> rfl

theorem setMet_get {doms : List Dom} (hu : (doms.map (·.ext)).Nodup) {i : Nat} {d : Dom} (hd : doms[i]? = some d) (hs : d.special = false)
    {met : List Pair} (hl : met.length = doms.length) (tlvs : List (Nat × MetricField)) :
    (setMet doms met tlvs)[i]? = some (receiveHop ((tlvs.filter fun t => t.1 == d.ext).map (·.2))) := by
  have : ∀ (tlvs : List (Nat × MetricField)) (met : List Pair) (p : Pair), met[i]? = some p →
      (tlvs.foldl (tlvMet doms) met)[i]? = some (((tlvs.filter fun t => t.1 == d.ext).map (·.2)).foldl hopTlv p) := by
    intro tlvs
    induction tlvs with
    | nil => exact fun _ _ h => h
    | cons t tlvs ih =>
      intro met p hp
      rw [List.foldl_cons]
      have hg := tlvMet_get hu hd hs met t
      by_cases ht : (t.1 == d.ext) = true
      · rw [if_pos ht, hp] at hg
        rw [ih _ _ hg, List.filter_cons, if_pos ht]
        rfl
      · rw [if_neg ht, hp] at hg
        rw [ih _ _ hg, List.filter_cons, if_neg ht]
  unfold setMet receiveHop
  refine this _ _ _ ?_
  unfold clearMet
  obtain ⟨hi, rfl⟩ := List.getElem?_eq_some_iff.1 hd
  rw [List.getElem?_zipWith, hd, List.getElem?_eq_getElem (by omega)]
  simp [hs, infinite]

/-! ### One HELLO -/

theorem get_put (m : Hops) (a b : Netaddr) (h : Hop) : (put m a h).get b = if b = a then some h else m.get b := by
  unfold put
  cases hm : m.get a with
  | none => rw [Map.get_add _ _ _ _ hm]
  | some x =>
    dsimp only
    rw [Map.get_upd]
    by_cases hb : b = a
    · subst hb; rw [if_pos rfl, if_pos rfl, hm]; rfl
    · rw [if_neg hb, if_neg hb]

theorem nodup_put (m : Hops) (a : Netaddr) (h : Hop) (hn : m.keys.Nodup) : (put m a h).keys.Nodup := by
  unfold put
  cases hm : m.get a with
  | none => exact Map.nodup_add _ _ _ hn hm
  | some x => dsimp only; rw [Map.keys_upd]; exact hn

/-- every address occurs once, and there are metrics for every domain -/
structure Ok (doms : List Dom) (m : Hops) : Prop where
  keys : m.keys.Nodup
  mets : ∀ a h, m.get a = some h → h.met.length = doms.length

theorem hopSeen_none {link other : Option Nat} : hopSeen link other = none ↔ link = none ∧ other = none := by
  unfold hopSeen
  cases link with
  | none =>
    cases other with
    | none => simp
    | some y =>
      have : y &&& 1 ≤ 1 := Nat.and_le_right
      simp; omega
  | some x =>
    have : x &&& 3 ≤ 3 := Nat.and_le_right
    cases other with
    | none => simp; omega
    | some y => simp; omega

theorem and3 (x : Nat) : x &&& 3 = x % 4 := Nat.and_two_pow_sub_one_eq_mod x 2


theorem hopSeen_sym {s : Said} {b : Bool} (h : hopSeen s.link s.other = some b) : b = true ↔ SaysSym s := by
  unfold hopSeen at h
  unfold SaysSym LinkSym
  revert h
  cases s.link with
  | none =>
    cases s.other with
    | none => exact fun h => (nomatch h)
    | some y =>
      dsimp only
      by_cases hc : (255 != 255 || y &&& 1 != 255) = true
      · rw [if_pos hc]
        intro h
        rw [← Option.some.inj h]
        simp
      · rw [if_neg hc]
        exact fun h => (nomatch h)
  | some x =>
    cases s.other with
    | none =>
      dsimp only
      by_cases hc : (x &&& 3 != 255 || 255 != 255) = true
      · rw [if_pos hc]
        intro h
        rw [← Option.some.inj h]
        simp [and3]
      · rw [if_neg hc]
        exact fun h => (nomatch h)
    | some y =>
      dsimp only
      by_cases hc : (x &&& 3 != 255 || y &&& 1 != 255) = true
      · rw [if_pos hc]
        intro h
        rw [← Option.some.inj h]
        simp [and3]
      · rw [if_neg hc]
        exact fun h => (nomatch h)

theorem linkSym {s : Said} : (s.link.any fun x => x &&& 3 == 1) = true ↔ LinkSym s := by
  unfold LinkSym
  cases s.link <;> simp [and3]

/-- what an entry does to the address `b` -/
theorem block_get (doms : List Dom) (m : Msg) (h : Hops) (s : Said) (b : Netaddr) :
    (¬Mentions m s b → (block doms m.ifOwn m.own m.now m.vtime h s).get b = h.get b) ∧
    (Mentions m s b → SaysSym s → ∃ met : List Pair, (met = newMet doms ∨ ∃ x, h.get b = some x ∧ met = x.met) ∧
      (block doms m.ifOwn m.own m.now m.vtime h s).get b =
        some ⟨s.link.any fun x => x &&& 3 == 1, setT m.now m.vtime, setMet doms met s.tlvs⟩) ∧
    (Mentions m s b → ¬SaysSym s → (block doms m.ifOwn m.own m.now m.vtime h s).get b = none) := by
  unfold block
  cases hs : hopSeen s.link s.other with
  | none =>
    have hn : ¬Mentions m s b := fun hm => by
      obtain ⟨h1, h2⟩ := hopSeen_none.1 hs
      rcases hm.2.1 with h | h
      · exact h h1
      · exact h h2
    exact ⟨fun _ => rfl, fun hm => absurd hm hn, fun hm => absurd hm hn⟩
  | some sym =>
    have hsome : s.link ≠ none ∨ s.other ≠ none := by
      by_cases h1 : s.link = none
      · by_cases h2 : s.other = none
        · rw [hopSeen_none.2 ⟨h1, h2⟩] at hs; cases hs
        · exact .inr h2
      · exact .inl h1
    have hsym := hopSeen_sym hs
    dsimp only
    by_cases hi : m.ifOwn s.addr = true
    · rw [if_pos hi]
      have hn : ¬Mentions m s b := fun hm => by obtain ⟨rfl, _, h3, _⟩ := hm; rw [hi] at h3; cases h3
      exact ⟨fun _ => rfl, fun hm => absurd hm hn, fun hm => absurd hm hn⟩
    rw [if_neg hi]
    by_cases ho : m.own s.addr = true
    · rw [if_pos ho]
      have hn : ¬Mentions m s b := fun hm => by obtain ⟨rfl, _, _, h3⟩ := hm; rw [ho] at h3; cases h3
      exact ⟨fun _ => rfl, fun hm => absurd hm hn, fun hm => absurd hm hn⟩
    rw [if_neg ho]
    have hall : s.addr = b → Mentions m s b := fun h => ⟨h, hsome, by subst h; simpa using hi, by subst h; simpa using ho⟩
    by_cases hb : sym = true
    · rw [if_pos hb]
      refine ⟨?_, ?_, fun _ h => absurd (hsym.1 hb) h⟩
      · intro hn
        rw [get_put, if_neg (fun h => hn (hall h.symm))]
      · intro hm _
        obtain ⟨rfl, _⟩ := hm
        rw [get_put, if_pos rfl]
        refine ⟨_, ?_, rfl⟩
        cases h.get s.addr with
        | none => exact .inl rfl
        | some x => exact .inr ⟨x, rfl, rfl⟩
    · rw [if_neg hb]
      refine ⟨?_, fun _ h => absurd (hsym.2 h) hb, ?_⟩
      · intro hn
        rw [Map.get_del, if_neg (fun h => hn (hall h.symm))]
      · intro hm _
        rw [Map.get_del, if_pos hm.1.symm]

theorem ok_block {doms : List Dom} {h : Hops} (ok : Ok doms h) (m : Msg) (s : Said) : Ok doms (block doms m.ifOwn m.own m.now m.vtime h s) := by
  constructor
  · unfold block
    split
    · exact ok.keys
    · split
      · exact ok.keys
      · split
        · exact ok.keys
        · split
          · exact nodup_put _ _ _ ok.keys
          · exact Map.nodup_del _ _ ok.keys
  · intro a x hx
    obtain ⟨h1, h2, h3⟩ := block_get doms m h s a
    by_cases hm : Mentions m s a
    · by_cases hs : SaysSym s
      · obtain ⟨met, hmet, he⟩ := h2 hm hs
        rw [he] at hx
        cases hx
        refine length_setMet _ _ _ ?_
        rcases hmet with rfl | ⟨y, hy, rfl⟩
        · simp [newMet]
        · exact ok.mets _ _ hy
      · rw [h3 hm hs] at hx; cases hx
    · rw [h1 hm] at hx
      exact ok.mets _ _ hx

theorem ok_blocks {doms : List Dom} (m : Msg) (l : List Said) {h : Hops} (ok : Ok doms h) : Ok doms (l.foldl (block doms m.ifOwn m.own m.now m.vtime) h) := by
  induction l generalizing h with
  | nil => exact ok
  | cons s l ih => exact ih (ok_block ok m s)

theorem blocks_quiet (doms : List Dom) (m : Msg) (l : List Said) (h : Hops) (a : Netaddr) (hq : ∀ s ∈ l, ¬Mentions m s a) :
    (l.foldl (block doms m.ifOwn m.own m.now m.vtime) h).get a = h.get a := by
  induction l generalizing h with
  | nil => rfl
  | cons s l ih =>
    rw [List.foldl_cons, ih _ fun x hx => hq x (List.mem_cons_of_mem _ hx)]
    exact (block_get doms m h s a).1 (hq s List.mem_cons_self)

theorem last_or_quiet (m : Msg) (a : Netaddr) (l : List Said) :
    (∀ s ∈ l, ¬Mentions m s a) ∨ ∃ xs s ys, l = xs ++ s :: ys ∧ Mentions m s a ∧ ∀ y ∈ ys, ¬Mentions m y a := by
  induction l with
  | nil => exact .inl fun _ h => (nomatch h)
  | cons s l ih =>
    rcases ih with h | ⟨xs, t, ys, rfl, h1, h2⟩
    · by_cases hs : Mentions m s a
      · exact .inr ⟨[], s, l, rfl, hs, h⟩
      · refine .inl fun x hx => ?_
        rcases List.mem_cons.1 hx with rfl | hx
        · exact hs
        · exact h x hx
    · exact .inr ⟨s :: xs, t, ys, rfl, h1, h2⟩

theorem lost_get (l : List Netaddr) (h : Hops) (a : Netaddr) : (l.foldl Map.del h).get a = if a ∈ l then none else h.get a := by
  induction l generalizing h with
  | nil => simp
  | cons b l ih =>
    rw [List.foldl_cons, ih, Map.get_del]
    by_cases hl : a ∈ l
    · rw [if_pos hl, if_pos (List.mem_cons_of_mem _ hl)]
    · rw [if_neg hl]
      by_cases hab : a = b
      · rw [if_pos hab, if_pos (by simp [hab])]
      · rw [if_neg hab, if_neg (by simp [hab, hl])]

theorem ok_lost {doms : List Dom} (l : List Netaddr) {h : Hops} (ok : Ok doms h) : Ok doms (l.foldl Map.del h) := by
  induction l generalizing h with
  | nil => exact ok
  | cons a l ih =>
    refine ih ⟨Map.nodup_del _ _ ok.keys, ?_⟩
    intro b x hx
    rw [Map.get_del] at hx
    split at hx
    · cases hx
    · exact ok.mets _ _ hx

theorem ok_received {doms : List Dom} {h : Hops} (ok : Ok doms h) (m : Msg) : Ok doms (received doms m h) := ok_lost _ (ok_blocks m _ ok)

/-- the two-hop addresses after a HELLO -/
theorem received_get {doms : List Dom} (hu : (doms.map (·.ext)).Nodup) {h : Hops} (ok : Ok doms h) (m : Msg) (a : Netaddr) :
    (a ∈ m.lost → (received doms m h).get a = none) ∧
    (a ∉ m.lost → (∀ s ∈ m.said, ¬Mentions m s a) → (received doms m h).get a = h.get a) ∧
    (∀ s, a ∉ m.lost → Last m s a → SaysSym s → ∃ x, (received doms m h).get a = some x ∧ Reports doms m s x) ∧
    (∀ s, a ∉ m.lost → Last m s a → ¬SaysSym s → (received doms m h).get a = none) := by
  unfold received
  refine ⟨fun hl => by rw [lost_get, if_pos hl], ?_, ?_, ?_⟩
  · intro hl hq
    rw [lost_get, if_neg hl, blocks_quiet _ _ _ _ _ hq]
  · rintro s hl ⟨xs, ys, he, hm, hq⟩ hs
    rw [lost_get, if_neg hl, he, List.foldl_append, List.foldl_cons, blocks_quiet _ _ _ _ _ hq]
    have okx := ok_blocks m xs ok
    obtain ⟨_, h2, _⟩ := block_get doms m (xs.foldl (block doms m.ifOwn m.own m.now m.vtime) h) s a
    obtain ⟨met, hmet, hg⟩ := h2 hm hs
    refine ⟨_, hg, linkSym, rfl, ?_⟩
    intro i d hd hsp
    refine setMet_get hu hd hsp ?_ _
    rcases hmet with rfl | ⟨y, hy, rfl⟩
    · simp [newMet]
    · exact okx.mets _ _ hy
  · rintro s hl ⟨xs, ys, he, hm, hq⟩ hs
    rw [lost_get, if_neg hl, he, List.foldl_append, List.foldl_cons, blocks_quiet _ _ _ _ _ hq]
    exact (block_get doms m (xs.foldl (block doms m.ifOwn m.own m.now m.vtime) h) s a).2.2 hm hs

/-! ### Histories -/

theorem status_run (doms : List Dom) (evs : List Ev) : (run doms evs).status = statusAfter evs := by
  induction evs with
  | nil => rfl
  | cons ev evs ih => cases ev <;> first | rfl | exact ih

theorem ok_nil (doms : List Dom) : Ok doms ([] : Hops) := ⟨List.nodup_nil, fun _ _ h => (nomatch h)⟩

theorem ok_setStatus {doms : List Dom} {s : St} (ok : Ok doms s.hops) (st : Status) : Ok doms (setStatus s st).hops := by
  unfold setStatus
  dsimp only
  split
  · exact ok_nil doms
  · exact ok

theorem ok_run (doms : List Dom) (evs : List Ev) : Ok doms (run doms evs).hops := by
  induction evs with
  | nil => exact ok_nil doms
  | cons ev evs ih =>
    cases ev with
    | hello m => exact ok_setStatus (s := { run doms evs with hops := received doms m (run doms evs).hops }) (ok_received ih m) _
    | status st => exact ok_setStatus ih _
    | unsymmetric => exact ok_nil doms
    | time now =>
      refine ⟨Map.nodup_delWhere (run doms evs).hops (fun _ h => h.clock != 0 && decide (h.clock ≤ now)) ih.keys, ?_⟩
      intro a x hx
      have hx : Map.get (Map.delWhere (run doms evs).hops fun _ h => h.clock != 0 && decide (h.clock ≤ now)) a = some x := hx
      rw [Map.get_delWhere _ ih.keys] at hx
      cases hg : (run doms evs).hops.get a with
      | none => rw [hg] at hx; cases hx
      | some y =>
        rw [hg] at hx
        dsimp only at hx
        split at hx
        · cases hx
        · cases hx; exact ih.mets _ _ hg

end Verif.TwoHop
