import Verif.Reader.Parse

/-! Lemmas about `_schedule_tlvblock`. -/
namespace Verif.Reader

/-! ### drop marks -/

/-- `l'` is `l` with the index `idx` added to the drop marks of the TLVs whose number satisfies `P` -/
inductive Upd (idx : Nat) (P : Nat → Prop) : List Tlv → List Tlv → Prop
  | nil : Upd idx P [] []
  | cons {t : Tlv} {d : List Nat} {l l' : List Tlv} : (∀ j, j ∈ d ↔ j ∈ t.drop ∨ (j = idx ∧ P t.id)) → Upd idx P l l' →
      Upd idx P (t :: l) ({ t with drop := d } :: l')

theorem Upd.refl {idx : Nat} {P : Nat → Prop} {l : List Tlv} (h : ∀ t ∈ l, ¬ P t.id) : Upd idx P l l := by
  induction l with
  | nil => exact .nil
  | cons t l ih =>
    have : t = { t with drop := t.drop } := rfl
    rw [this]
    refine .cons (fun j => ?_) (ih fun t ht => h t (List.mem_cons_of_mem _ ht))
    simp [h t (List.mem_cons_self)]

theorem Upd.trans {idx : Nat} {P Q : Nat → Prop} {l l' l'' : List Tlv} (h : Upd idx P l l') (h' : Upd idx Q l' l'') :
    Upd idx (fun i => P i ∨ Q i) l l'' := by
  induction h generalizing l'' with
  | nil =>
    cases h'
    exact .nil
  | cons hd hu0 ih =>
    rename_i t d l l'
    cases h' with
    | cons hd' h' =>
      rename_i d' l3
      refine Upd.cons (t := t) (d := d') (fun j => ?_) (ih h')
      rw [hd' j]
      simp only
      rw [hd j]
      constructor
      · rintro ((h | ⟨h, hp⟩) | ⟨h, hq⟩)
        · exact .inl h
        · exact .inr ⟨h, .inl hp⟩
        · exact .inr ⟨h, .inr hq⟩
      · rintro (h | ⟨h, hp | hq⟩)
        · exact .inl (.inl h)
        · exact .inl (.inr ⟨h, hp⟩)
        · exact .inr ⟨h, hq⟩

theorem Upd.congr {idx : Nat} {P Q : Nat → Prop} {l l' : List Tlv} (h : Upd idx P l l') (hpq : ∀ t ∈ l, P t.id ↔ Q t.id) :
    Upd idx Q l l' := by
  induction h with
  | nil => exact .nil
  | cons hd _ ih =>
    refine .cons (fun j => ?_) (ih fun t ht => hpq t (List.mem_cons_of_mem _ ht))
    rw [hd j, hpq _ List.mem_cons_self]

theorem Upd.append {idx : Nat} {P : Nat → Prop} {a a' b b' : List Tlv} (h : Upd idx P a a') (h' : Upd idx P b b') :
    Upd idx P (a ++ b) (a' ++ b') := by
  induction h with
  | nil => exact h'
  | cons hd _ ih => exact .cons hd ih

theorem Upd.ids {idx : Nat} {P : Nat → Prop} {l l' : List Tlv} (h : Upd idx P l l') : l'.map Tlv.id = l.map Tlv.id := by
  induction h with
  | nil => rfl
  | cons _ _ ih => simp [ih]

theorem Upd.mem {idx : Nat} {P : Nat → Prop} {l l' : List Tlv} (h : Upd idx P l l') {t' : Tlv} (ht : t' ∈ l') :
    ∃ t ∈ l, t' = { t with drop := t'.drop } ∧ ∀ j, j ∈ t'.drop ↔ j ∈ t.drop ∨ (j = idx ∧ P t.id) := by
  induction h with
  | nil => simp at ht
  | cons hd hu0 ih =>
    rename_i t d l l'
    rcases List.mem_cons.1 ht with rfl | ht
    · exact ⟨t, List.mem_cons_self, rfl, hd⟩
    · obtain ⟨u, hu, h⟩ := ih ht
      exact ⟨u, List.mem_cons_of_mem _ hu, h⟩

theorem Upd.mem' {idx : Nat} {P : Nat → Prop} {l l' : List Tlv} (h : Upd idx P l l') {t : Tlv} (ht : t ∈ l) :
    ∃ t' ∈ l', t' = { t with drop := t'.drop } ∧ ∀ j, j ∈ t'.drop ↔ j ∈ t.drop ∨ (j = idx ∧ P t.id) := by
  induction h with
  | nil => simp at ht
  | cons hd hu0 ih =>
    rename_i u d l l'
    rcases List.mem_cons.1 ht with rfl | ht
    · exact ⟨_, List.mem_cons_self, rfl, hd⟩
    · obtain ⟨u, hu, h⟩ := ih ht
      exact ⟨u, List.mem_cons_of_mem _ hu, h⟩

theorem TlvsOk.upd {n : UInt8} {buf : Bytes} {idx : Nat} {P : Nat → Prop} {l l' : List Tlv} (h : TlvsOk n buf l) (hu : Upd idx P l l') :
    TlvsOk n buf l' := by
  constructor
  · intro t' ht'
    obtain ⟨t, ht, he, _⟩ := hu.mem ht'
    rw [he]
    exact ⟨⟨(h.all t ht).1.len, (h.all t ht).1.single, (h.all t ht).1.multi, (h.all t ht).1.idx⟩, (h.all t ht).2⟩
  · rw [hu.ids]
    exact h.ids

theorem dropTlv_upd (tid idx : Nat) (l : List Tlv) : Upd idx (fun i => i = tid) l (dropTlv tid idx l) := by
  induction l with
  | nil => exact .nil
  | cons t l ih =>
    have : dropTlv tid idx (t :: l) = { t with drop := if t.id = tid then idx :: t.drop else t.drop } :: dropTlv tid idx l := by
      unfold dropTlv
      rw [List.map_cons]
      by_cases h : t.id = tid <;> simp [h]
    rw [this]
    refine .cons (fun j => ?_) ih
    by_cases h : t.id = tid
    · simp [h, or_comm]
    · simp [h]

theorem blockDrops_upd (drops : List Nat) (idx : Nat) (m : List (List Tlv)) (i : Nat) (l : List Tlv) :
    Upd idx (fun tid => ∃ j t ts, m[j]? = some (t :: ts) ∧ i + j ∈ drops ∧ t.id = tid) l (blockDrops drops idx i m l) := by
  induction m generalizing i l with
  | nil => exact Upd.refl (by simp)
  | cons x m ih =>
    unfold blockDrops
    have h1 : Upd idx (fun tid => ∃ t ts, x = t :: ts ∧ i ∈ drops ∧ t.id = tid) l
        (match x with
         | t :: _ => if drops.contains i then dropTlv t.id idx l else l
         | [] => l) := by
      cases x with
      | nil => exact Upd.refl (by simp)
      | cons t ts =>
        simp only
        split
        · rename_i h
          refine (dropTlv_upd t.id idx l).congr fun u _ => ?_
          constructor
          · rintro h'
            exact ⟨t, ts, rfl, by simpa using h, h'.symm⟩
          · rintro ⟨t', ts', he, _, hid⟩
            rw [← hid, (List.cons.inj he).1]
        · rename_i h
          refine Upd.refl ?_
          rintro u _ ⟨t', ts', _, hi, _⟩
          simp at h
          exact h hi
    refine (h1.trans (ih (i + 1) _)).congr fun u _ => ?_
    constructor
    · rintro (⟨t, ts, rfl, h⟩ | ⟨j, t, ts, hj, h⟩)
      · exact ⟨0, t, ts, rfl, h⟩
      · exact ⟨j + 1, t, ts, by simpa using hj, by rw [Nat.add_comm j 1, ← Nat.add_assoc]; exact h.1, h.2⟩
    · rintro ⟨j, t, ts, hj, h⟩
      cases j with
      | zero => exact .inl ⟨t, ts, by simpa using hj, h⟩
      | succ j =>
        refine .inr ⟨j, t, ts, by simpa using hj, ?_, h.2⟩
        rw [Nat.add_assoc, Nat.add_comm 1 j]
        exact h.1

/-! ### values -/

theorem valueAt_ok {n : UInt8} {t : Tlv} {idx : Nat} (h : TlvOk n t) (hi : indexMatch t idx = true) :
    (valueAt t idx).length = t.length ∧ valueAt t idx <:+: t.value := by
  unfold indexMatch at hi
  simp only [Bool.and_eq_true, decide_eq_true_eq] at hi
  unfold valueAt
  cases hm : t.multi with
  | false =>
    simp only [Bool.false_eq_true, if_false]
    refine ⟨?_, (List.take_prefix _ _).isInfix⟩
    rw [List.length_take, h.single hm]
    omega
  | true =>
    simp only [if_true]
    refine ⟨?_, (List.take_prefix _ _).isInfix.trans (List.drop_suffix _ _).isInfix⟩
    have hle : t.index1 ≤ t.index2 := by
      rw [UInt8.le_iff_toNat_le]
      omega
    have hv := h.multi hm hle
    rw [List.length_take, List.length_drop, hv]
    have h1 : idx - t.index1.toNat + 1 ≤ t.index2.toNat - t.index1.toNat + 1 := by omega
    have h2 := Nat.mul_le_mul_left t.length h1
    rw [Nat.mul_add, Nat.mul_one] at h2
    rw [Nat.mul_comm (idx - t.index1.toNat)]
    omega

/-! ### the loop -/

theorem takeMatch_lists (m : Bool) (l : Loop) : (takeMatch m l).before = l.before ∧ (takeMatch m l).tlvs = l.tlvs ∧
    (takeMatch m l).entries = l.entries ∧ (takeMatch m l).done = l.done := by
  unfold takeMatch
  split <;> simp

theorem nextEntry_lists (m : Bool) (l : Loop) : (nextEntry m l).before = l.before ∧ (nextEntry m l).tlvs = l.tlvs ∧
    (nextEntry m l).done.flatten ++ (nextEntry m l).cur = l.done.flatten ++ l.cur := by
  unfold nextEntry
  split <;> simp

theorem nextTlv_same (idx : Nat) (d : Bool) (l : Loop) : (nextTlv idx d l).done = l.done ∧ (nextTlv idx d l).cur = l.cur ∧
    (nextTlv idx d l).entries = l.entries := by
  unfold nextTlv
  split
  · simp
  · simp only
    split <;> simp

/-- the TLV with its drop mark -/
def mark (idx : Nat) (d : Bool) (t : Tlv) : Tlv := if d then { t with drop := idx :: t.drop } else t

/-- effect of an iteration on the lists of TLVs -/
theorem advance_tlvs (idx : Nat) (m d : Bool) (l : Loop) :
    (l.tlvs = [] → (advance idx m d l).before = l.before ∧ (advance idx m d l).tlvs = []) ∧
    (∀ t ts, l.tlvs = t :: ts →
      (compareTypes l.tlvs.head? l.entries.head? ≤ 0 ∧ (advance idx m d l).before = l.before ++ [mark idx d t] ∧ (advance idx m d l).tlvs = ts) ∨
      (compareTypes l.tlvs.head? l.entries.head? > 0 ∧ (advance idx m d l).before = l.before ∧ (advance idx m d l).tlvs = mark idx d t :: ts)) := by
  unfold advance
  have h1 := takeMatch_lists m l
  generalize takeMatch m l = l1 at h1 ⊢
  obtain ⟨hb1, ht1, he1, _⟩ := h1
  have h3 := nextEntry_lists m (nextTlv idx d l1)
  rw [h3.1, h3.2.1]
  rw [← hb1, ← ht1, ← he1]
  constructor
  · intro h
    unfold nextTlv
    rw [h]
    simp [h]
  · intro t ts h
    unfold nextTlv
    rw [h]
    simp only [mark]
    split
    · rename_i hc
      exact .inl ⟨hc, rfl, rfl⟩
    · rename_i hc
      exact .inr ⟨by omega, rfl, rfl⟩

/-- effect of an iteration on the matches -/
theorem advance_matched (idx : Nat) (m d : Bool) (l : Loop) :
    (advance idx m d l).done.flatten ++ (advance idx m d l).cur = l.done.flatten ++ l.cur ∨
    (m = true ∧ compareTypes l.tlvs.head? l.entries.head? ≥ 0 ∧
      (advance idx m d l).done.flatten ++ (advance idx m d l).cur = l.done.flatten ++ l.cur ++ l.tlvs.head?.toList) := by
  unfold advance
  rw [(nextEntry_lists m _).2.2, (nextTlv_same idx d _).1, (nextTlv_same idx d _).2.1, (takeMatch_lists m l).2.2.2]
  unfold takeMatch
  split
  · rename_i hc
    cases m with
    | false => left; simp
    | true => right; exact ⟨rfl, hc, by simp⟩
  · left; rfl

theorem compare_none (e : Option Entry) : compareTypes none e ≤ 0 → e = none := by
  cases e with
  | none => simp
  | some e =>
    simp [compareTypes]

/-- every iteration makes progress -/
theorem advance_progress (idx : Nat) (m d : Bool) (l : Loop) (h : ¬ (l.tlvs = [] ∧ l.entries = [])) :
    (advance idx m d l).tlvs.length + (advance idx m d l).entries.length < l.tlvs.length + l.entries.length := by
  have he : (advance idx m d l).entries.length ≤ l.entries.length := by
    unfold advance nextEntry
    split
    · simp only [(nextTlv_same idx d _).2.2, (takeMatch_lists m l).2.2.1, List.length_tail]
      omega
    · rw [(nextTlv_same idx d _).2.2, (takeMatch_lists m l).2.2.1]
      exact Nat.le_refl _
  have hgt : compareTypes l.tlvs.head? l.entries.head? > 0 → (advance idx m d l).tlvs.length = l.tlvs.length →
      (advance idx m d l).entries.length < l.entries.length := by
    intro hc _
    have hne : l.entries ≠ [] := by
      intro h0
      rw [h0] at hc
      cases ht : l.tlvs with
      | nil =>
        rw [ht] at hc
        simp [compareTypes] at hc
      | cons t ts =>
        rw [ht] at hc
        simp [compareTypes] at hc
    unfold advance nextEntry
    have h1 := takeMatch_lists m l
    generalize takeMatch m l = l1 at h1 ⊢
    obtain ⟨hb1, ht1, he1, _⟩ := h1
    have hcmp : compareTypes (nextTlv idx d l1).tlvs.head? (nextTlv idx d l1).entries.head? > 0 := by
      rw [(nextTlv_same idx d l1).2.2, he1]
      unfold nextTlv
      rw [ht1]
      cases ht : l.tlvs with
      | nil =>
        simp only
        rw [ht1]
        exact hc
      | cons t ts =>
        simp only
        rw [he1]
        rw [ht] at hc
        rw [if_neg (by omega)]
        simp only [List.head?_cons] at hc ⊢
        cases hes : l.entries with
        | nil => exact absurd hes hne
        | cons e es =>
          rw [hes] at hc
          simp only [List.head?_cons, compareTypes] at hc ⊢
          split
          · rename_i hm
            rw [if_pos hm] at hc
            cases d <;> exact hc
          · rename_i hm
            rw [if_neg hm] at hc
            cases d <;> exact hc
    rw [if_pos hcmp]
    simp only [(nextTlv_same idx d _).2.2, he1, List.length_tail]
    cases hes : l.entries with
    | nil => exact absurd hes hne
    | cons e es => simp
  have ht := advance_tlvs idx m d l
  cases hl : l.tlvs with
  | nil =>
    have h1 := ht.1 hl
    have hc : compareTypes l.tlvs.head? l.entries.head? > 0 := by
      rw [hl]
      cases hes : l.entries with
      | nil => exact absurd ⟨hl, hes⟩ h
      | cons e es => simp [compareTypes]
    have := hgt hc (by rw [h1.2, hl])
    rw [h1.2]
    simpa using this
  | cons t ts =>
    rcases ht.2 t ts hl with ⟨_, _, h2⟩ | ⟨hc, _, h2⟩
    · rw [h2]
      simp only [List.length_cons]
      omega
    · have := hgt hc (by rw [h2, hl]; simp)
      rw [h2]
      simp only [List.length_cons]
      omega

/-- a callback that drops at most TLVs -/
def Event.Quiet (e : Event) : Prop := e.r.res = OKAY ∨ e.r.res = DROP_TLV

/-- the TLVs seen and dropped by the callbacks `ev` (newest first) for one TLV block -/
structure Calls (c : Consumer) (ctx : Ctx) (idx : Nat) (tlvs tlvs' : List Tlv) (res : Int) (ev : List Event) : Prop where
  each : ∀ e ∈ ev, e.ctx = ctx ∧ e.cid = c.id ∧ e.kind.IsTlvs ∧
    (e.r.res = OKAY ∨ e.r.res = DROP_TLV ∨ (e.r.res = res ∧ res ≠ OKAY))
  upd : Upd idx (fun tid => ∃ e ∈ ev, e.Drops tid) tlvs tlvs'
  sees : ∀ e ∈ ev, ∀ t ∈ e.kind.tlvs, indexMatch t idx = true ∧ ∃ t0 ∈ tlvs, t = { t0 with drop := t.drop } ∧ idx ∉ t0.drop
  source : res = OKAY ∨ (res ≠ DROP_TLV ∧ ∃ e ∈ ev, e.r.res = res)
  vals : ∀ e ∈ ev, ∀ t v, e.kind = .tlv t v → v = valueAt t idx
  scope : ev.Pairwise (fun e' e => e.Quiet ∧ ∀ tid, e.Drops tid → ¬ e'.Sees tid)
  deliver : res = OKAY → c.hasTlv = true → ∀ t ∈ tlvs, indexMatch t idx = true → ∃ e ∈ ev, ∃ t' v, e.kind = .tlv t' v ∧ t'.id = t.id

/-- the history and the forwarding flag after the callbacks `ev` -/
def Ext (st st' : St) (ev : List Event) : Prop :=
  st'.log = ev ++ st.log ∧ st'.noFwd = (ev.any (fun e => e.r.noFwd) || st.noFwd)

theorem Ext.nil (st : St) : Ext st st [] := by simp [Ext]

theorem Ext.trans {a b c : St} {ev ev' : List Event} (h : Ext a b ev) (h' : Ext b c ev') : Ext a c (ev' ++ ev) := by
  refine ⟨by rw [h'.1, h.1, List.append_assoc], ?_⟩
  rw [h'.2, h.2, List.any_append, Bool.or_assoc]

theorem call_ext (env : Env) (st : St) (cid : Nat) (ctx : Ctx) (kind : Kind) :
    Ext st (call env st cid ctx kind).2 [⟨cid, ctx, kind, (call env st cid ctx kind).1⟩] := by
  simp [Ext, call]

/-- invariant of the loop: matches are TLVs already passed which apply to the index -/
structure LoopInv (idx : Nat) (l : Loop) : Prop where
  matched : ∀ t ∈ l.done.flatten ++ l.cur, t ∈ l.before ∧ indexMatch t idx = true
  ids : ((l.before ++ l.tlvs).map Tlv.id).Nodup

theorem indexMatch_drop {t : Tlv} {idx : Nat} (h : indexMatch t idx = true) : idx ∉ t.drop := by
  unfold indexMatch at h
  simp at h
  exact h.1.1

theorem tlvCall_spec (env : Env) (c : Consumer) (ctx : Ctx) (idx : Nat) (t : Option Tlv) (m m' d : Bool) (res : Int) (st st' : St)
    (h : tlvCall env c ctx idx t m st = (m', d, res, st')) :
    (m' = true → m = true ∧ d = false) ∧ (d = true → res = OKAY) ∧
    ((d = false ∧ m' = m ∧ res = OKAY ∧ st' = st ∧ (∀ t', t = some t' → ¬ (indexMatch t' idx = true ∧ c.hasTlv = true))) ∨
     (∃ t' r, t = some t' ∧ indexMatch t' idx = true ∧ Ext st st' [⟨c.id, ctx, .tlv t' (valueAt t' idx), r⟩] ∧
       ((d = true ∧ r.res = DROP_TLV) ∨ (d = false ∧ r.res = res ∧ res ≠ DROP_TLV)))) := by
  unfold tlvCall at h
  cases t with
  | none =>
    simp only [Prod.mk.injEq] at h
    obtain ⟨rfl, rfl, rfl, rfl⟩ := h
    simp
  | some t =>
    simp only at h
    split at h
    · rename_i hc
      simp only [Bool.and_eq_true] at hc
      have he := call_ext env st c.id ctx (.tlv t (valueAt t idx))
      generalize hcall : call env st c.id ctx (.tlv t (valueAt t idx)) = r at h he
      obtain ⟨r, st1⟩ := r
      simp only at h he
      by_cases hr : r.res = DROP_TLV
      · rw [if_pos hr] at h
        simp only [Prod.mk.injEq] at h
        obtain ⟨rfl, rfl, rfl, rfl⟩ := h
        exact ⟨by simp, by simp, .inr ⟨t, r, rfl, hc.1, he, .inl ⟨rfl, hr⟩⟩⟩
      · rw [if_neg hr] at h
        simp only [Prod.mk.injEq] at h
        obtain ⟨rfl, rfl, rfl, rfl⟩ := h
        exact ⟨by simp, by simp, .inr ⟨t, r, rfl, hc.1, he, .inr ⟨rfl, rfl, hr⟩⟩⟩
    · rename_i hc
      simp only [Prod.mk.injEq] at h
      obtain ⟨rfl, rfl, rfl, rfl⟩ := h
      refine ⟨by simp, by simp, .inl ⟨rfl, rfl, rfl, rfl, ?_⟩⟩
      rintro t' ht
      obtain rfl := Option.some.inj ht
      simpa using hc

theorem isMatch_head {idx : Nat} {l : Loop} (h : isMatch idx l = true) :
    ∃ t ts, l.tlvs = t :: ts ∧ indexMatch t idx = true ∧ compareTypes l.tlvs.head? l.entries.head? = 0 := by
  unfold isMatch at h
  split at h
  · rename_i t ts e es ht he
    simp only [Bool.and_eq_true, decide_eq_true_eq] at h
    refine ⟨t, ts, ht, h.1, ?_⟩
    rw [ht, he]
    exact h.2
  · simp at h

/-- an iteration keeps the invariant -/
theorem LoopInv.advance {idx : Nat} {m d : Bool} {l : Loop} (h : LoopInv idx l) (hm : m = true → isMatch idx l = true ∧ d = false) :
    LoopInv idx (advance idx m d l) := by
  have ht := advance_tlvs idx m d l
  constructor
  · intro t hmem
    have hsub : ∀ u ∈ l.before, u ∈ (Reader.advance idx m d l).before := by
      intro u hu
      cases hl : l.tlvs with
      | nil => rw [(ht.1 hl).1]; exact hu
      | cons t ts =>
        rcases ht.2 t ts hl with ⟨_, h2, _⟩ | ⟨_, h2, _⟩
        · rw [h2]; exact List.mem_append_left _ hu
        · rw [h2]; exact hu
    rcases advance_matched idx m d l with he | ⟨hm1, hc, he⟩
    · rw [he] at hmem
      exact ⟨hsub t (h.matched t hmem).1, (h.matched t hmem).2⟩
    · rw [he] at hmem
      rcases List.mem_append.1 hmem with hmem | hmem
      · exact ⟨hsub t (h.matched t hmem).1, (h.matched t hmem).2⟩
      · obtain ⟨hmatch, hd⟩ := hm hm1
        obtain ⟨u, us, hu, hui, hcmp⟩ := isMatch_head hmatch
        rw [hu] at hmem
        simp only [List.head?_cons, Option.toList_some, List.mem_singleton] at hmem
        subst hmem
        refine ⟨?_, hui⟩
        rcases ht.2 t us hu with ⟨_, h2, _⟩ | ⟨hgt, _⟩
        · rw [h2, hd]
          simp [mark]
        · omega
  · have : ((Reader.advance idx m d l).before ++ (Reader.advance idx m d l).tlvs).map Tlv.id = (l.before ++ l.tlvs).map Tlv.id := by
      cases hl : l.tlvs with
      | nil => rw [(ht.1 hl).1, (ht.1 hl).2]
      | cons t ts =>
        have hid : (mark idx d t).id = t.id := by
          unfold mark
          split <;> rfl
        rcases ht.2 t ts hl with ⟨_, h2, h3⟩ | ⟨_, h2, h3⟩
        · rw [h2, h3]; simp [hid]
        · rw [h2, h3]; simp [hid]
    rw [this]
    exact h.ids

/-- the callbacks of the loop -/
structure LoopCalls (c : Consumer) (ctx : Ctx) (idx : Nat) (l l' : Loop) (res : Int) (ev : List Event) : Prop where
  each : ∀ e ∈ ev, e.ctx = ctx ∧ e.cid = c.id ∧ (∃ t v, e.kind = .tlv t v) ∧
    (e.r.res = OKAY ∨ e.r.res = DROP_TLV ∨ (e.r.res = res ∧ res ≠ OKAY))
  upd : Upd idx (fun tid => ∃ e ∈ ev, e.Drops tid) (l.before ++ l.tlvs) (l'.before ++ l'.tlvs)
  sees : ∀ e ∈ ev, ∀ t ∈ e.kind.tlvs, indexMatch t idx = true ∧ ∃ t0 ∈ l.tlvs, t = { t0 with drop := t.drop } ∧ idx ∉ t0.drop
  source : res = OKAY ∨ (res ≠ DROP_TLV ∧ ∃ e ∈ ev, e.r.res = res)
  vals : ∀ e ∈ ev, ∀ t v, e.kind = .tlv t v → v = valueAt t idx
  scope : ev.Pairwise (fun e' e => e.Quiet ∧ ∀ tid, e.Drops tid → ¬ e'.Sees tid)
  deliver : res = OKAY → c.hasTlv = true → ∀ t ∈ l.tlvs, indexMatch t idx = true → ∃ e ∈ ev, ∃ t' v, e.kind = .tlv t' v ∧ t'.id = t.id

theorem advance_mem {idx : Nat} {m d : Bool} {l : Loop} {u : Tlv} (h : u ∈ (advance idx m d l).tlvs) :
    (∃ t ts, l.tlvs = t :: ts ∧ u = mark idx d t) ∨ (∃ t ts, l.tlvs = t :: ts ∧ u ∈ ts) := by
  have ht := advance_tlvs idx m d l
  cases hl : l.tlvs with
  | nil =>
    rw [(ht.1 hl).2] at h
    simp at h
  | cons t ts =>
    rcases ht.2 t ts hl with ⟨_, _, h3⟩ | ⟨_, _, h3⟩
    · rw [h3] at h
      exact .inr ⟨t, ts, rfl, h⟩
    · rw [h3] at h
      rcases List.mem_cons.1 h with h | h
      · exact .inl ⟨t, ts, rfl, h⟩
      · exact .inr ⟨t, ts, rfl, h⟩

theorem advance_upd {idx : Nat} {m d : Bool} {l : Loop} {P : Nat → Prop} (hids : ((l.before ++ l.tlvs).map Tlv.id).Nodup)
    (hP : ∀ t ts, l.tlvs = t :: ts → ∀ tid, P tid ↔ d = true ∧ tid = t.id) (hP0 : l.tlvs = [] → ∀ tid, ¬ P tid) :
    Upd idx P (l.before ++ l.tlvs) ((advance idx m d l).before ++ (advance idx m d l).tlvs) := by
  have ht := advance_tlvs idx m d l
  cases hl : l.tlvs with
  | nil =>
    rw [(ht.1 hl).1, (ht.1 hl).2]
    exact Upd.refl fun t _ => hP0 hl t.id
  | cons t ts =>
    rw [hl] at hids
    have he : (advance idx m d l).before ++ (advance idx m d l).tlvs = l.before ++ mark idx d t :: ts := by
      rcases ht.2 t ts hl with ⟨_, h2, h3⟩ | ⟨_, h2, h3⟩
      · rw [h2, h3]; simp
      · rw [h2, h3]
    rw [he]
    rw [List.map_append, List.map_cons, List.nodup_append] at hids
    obtain ⟨_, hn, hdis⟩ := hids
    rw [List.nodup_cons] at hn
    refine Upd.append (Upd.refl fun u hu hp => ?_) ?_
    · exact hdis _ (List.mem_map_of_mem hu) _ List.mem_cons_self ((hP t ts hl _).1 hp).2
    · have hmk : mark idx d t = { t with drop := if d then idx :: t.drop else t.drop } := by
        unfold mark
        cases d <;> rfl
      rw [hmk]
      refine .cons (fun j => ?_) (Upd.refl fun u hu hp => ?_)
      · rw [hP t ts hl]
        cases d <;> simp [or_comm]
      · have := ((hP t ts hl _).1 hp).2
        rw [← this] at hn
        exact hn.1 (List.mem_map_of_mem hu)

theorem schedLoop_spec (env : Env) (c : Consumer) (ctx : Ctx) (idx : Nat) :
    ∀ n l st, l.tlvs.length + l.entries.length < n → LoopInv idx l →
      ∃ res l' st' ev, schedLoop env c ctx idx n l st = .ok (res, l', st') ∧ Ext st st' ev ∧ LoopInv idx l' ∧
        LoopCalls c ctx idx l l' res ev := by
  intro n
  induction n with
  | zero => intro l st h; omega
  | succ n ih =>
    intro l st hn hinv
    unfold schedLoop
    by_cases hend : l.tlvs = [] ∧ l.entries = []
    · rw [if_pos hend]
      refine ⟨OKAY, l, st, [], rfl, Ext.nil st, hinv, ⟨by simp, Upd.refl (by simp), by simp, .inl rfl, by simp, by simp, ?_⟩⟩
      intro _ _ t ht
      rw [hend.1] at ht
      simp at ht
    · rw [if_neg hend]
      generalize hcall : tlvCall env c ctx idx l.tlvs.head? (isMatch idx l) st = r
      obtain ⟨m, d, res, st1⟩ := r
      simp only
      obtain ⟨hm, hd, hcases⟩ := tlvCall_spec env c ctx idx _ _ _ _ _ _ _ hcall
      by_cases hres : res = OKAY
      · rw [if_neg (by simp [hres])]
        have hinv' : LoopInv idx (advance idx m d l) := hinv.advance hm
        have hprog := advance_progress idx m d l hend
        obtain ⟨res', l', st', ev, hs, hext, hinv2, hc⟩ := ih (advance idx m d l) st1 (by omega) hinv'
        -- sightings after this iteration
        have hlift : ∀ e ∈ ev, ∀ t ∈ e.kind.tlvs, indexMatch t idx = true ∧ ∃ t0 ∈ l.tlvs, t = { t0 with drop := t.drop } ∧ idx ∉ t0.drop := by
          intro e he t ht
          obtain ⟨h1, t0, ht0, heq, hdr⟩ := hc.sees e he t ht
          refine ⟨h1, ?_⟩
          rcases advance_mem ht0 with ⟨u, us, hu, rfl⟩ | ⟨u, us, hu, hin⟩
          · refine ⟨u, by rw [hu]; exact List.mem_cons_self, ?_, ?_⟩
            · rw [heq]
              unfold mark
              split <;> rfl
            · unfold mark at hdr
              split at hdr
              · simp at hdr
              · exact hdr
          · exact ⟨t0, by rw [hu]; exact List.mem_cons_of_mem _ hin, heq, hdr⟩
        rcases hcases with ⟨hd0, hm0, _, hst, hno⟩ | ⟨t, r, ht, hti, hext1, hr⟩
        · subst hst
          refine ⟨res', l', st', ev, hs, hext, hinv2, ⟨hc.each, ?_, hlift, hc.source, hc.vals, hc.scope, ?_⟩⟩
          · have h1 : Upd idx (fun _ => False) (l.before ++ l.tlvs) ((advance idx m d l).before ++ (advance idx m d l).tlvs) := by
              refine advance_upd hinv.ids (fun t ts _ tid => by simp [hd0]) (by simp)
            exact (h1.trans hc.upd).congr (by simp)
          · intro hr hct u hu hui
            refine hc.deliver hr hct u ?_ hui
            have ht := advance_tlvs idx m d l
            cases hl : l.tlvs with
            | nil => rw [hl] at hu; simp at hu
            | cons t ts =>
              have hne : ¬ (indexMatch t idx = true ∧ c.hasTlv = true) := hno t (by rw [hl]; rfl)
              rw [hl] at hu
              rcases List.mem_cons.1 hu with rfl | hu
              · exact absurd ⟨hui, hct⟩ hne
              · rcases ht.2 t ts hl with ⟨_, _, h3⟩ | ⟨_, _, h3⟩
                · rw [h3]; exact hu
                · rw [h3]; exact List.mem_cons_of_mem _ hu
        · -- the TLV callback was called
          obtain ⟨ts, hl⟩ : ∃ ts, l.tlvs = t :: ts := by
            cases hl : l.tlvs with
            | nil => rw [hl] at ht; simp at ht
            | cons u us =>
              rw [hl] at ht
              simp only [List.head?_cons, Option.some.injEq] at ht
              exact ⟨us, by rw [ht]⟩
          have hdrops : ∀ tid, (⟨c.id, ctx, .tlv t (valueAt t idx), r⟩ : Event).Drops tid ↔ d = true ∧ tid = t.id := by
            intro tid
            unfold Event.Drops
            simp only
            rcases hr with ⟨hd1, hr1⟩ | ⟨hd1, hr1, hr2⟩
            · simp [hd1, hr1, eq_comm]
            · rw [hr1]
              simp [hd1, hr2]
          refine ⟨res', l', st', ev ++ [⟨c.id, ctx, .tlv t (valueAt t idx), r⟩], hs, hext1.trans hext, hinv2, ⟨?_, ?_, ?_, ?_, ?_, ?_, ?_⟩⟩
          · intro e he
            rcases List.mem_append.1 he with he | he
            · exact hc.each e he
            · rw [List.mem_singleton.1 he]
              refine ⟨rfl, rfl, ⟨_, _, rfl⟩, ?_⟩
              rcases hr with ⟨_, hr1⟩ | ⟨_, hr1, _⟩
              · exact .inr (.inl hr1)
              · left
                simp only
                rw [hr1, hres]
          · have h1 : Upd idx (fun tid => (⟨c.id, ctx, .tlv t (valueAt t idx), r⟩ : Event).Drops tid) (l.before ++ l.tlvs)
                ((advance idx m d l).before ++ (advance idx m d l).tlvs) := by
              refine advance_upd hinv.ids (fun u us hu tid => ?_) ?_
              · rw [hl] at hu
                rw [hdrops, (List.cons.inj hu).1]
              · intro h0
                rw [hl] at h0
                simp at h0
            refine (h1.trans hc.upd).congr fun u _ => ?_
            constructor
            · rintro (h | ⟨e, he, h⟩)
              · exact ⟨_, List.mem_append_right _ (List.mem_singleton.2 rfl), h⟩
              · exact ⟨e, List.mem_append_left _ he, h⟩
            · rintro ⟨e, he, h⟩
              rcases List.mem_append.1 he with he | he
              · exact .inr ⟨e, he, h⟩
              · rw [List.mem_singleton.1 he] at h
                exact .inl h
          · intro e he u hu
            rcases List.mem_append.1 he with he | he
            · exact hlift e he u hu
            · rw [List.mem_singleton.1 he] at hu
              simp only [Kind.tlvs, List.mem_singleton] at hu
              subst hu
              exact ⟨hti, u, by rw [hl]; exact List.mem_cons_self, rfl, indexMatch_drop hti⟩
          · rcases hc.source with h | ⟨h0, e, he, h⟩
            · exact .inl h
            · exact .inr ⟨h0, e, List.mem_append_left _ he, h⟩
          · intro e he u v hk
            rcases List.mem_append.1 he with he | he
            · exact hc.vals e he u v hk
            · rw [List.mem_singleton.1 he] at hk
              simp only [Kind.tlv.injEq] at hk
              rw [← hk.2, ← hk.1]
          · rw [List.pairwise_append]
            refine ⟨hc.scope, List.pairwise_singleton _ _, ?_⟩
            intro e' he' e he
            refine ⟨?_, fun tid hdr hsee => ?_⟩
            · rw [List.mem_singleton.1 he]
              rcases hr with ⟨_, hr1⟩ | ⟨_, hr1, _⟩
              · exact .inr hr1
              · left
                simp only
                rw [hr1, hres]
            rw [List.mem_singleton.1 he, hdrops] at hdr
            obtain ⟨hd1, rfl⟩ := hdr
            obtain ⟨u, hu, hid⟩ := hsee
            obtain ⟨_, t0, ht0, heq, hndr⟩ := hc.sees e' he' u hu
            rcases advance_mem ht0 with ⟨w, ws, hw, rfl⟩ | ⟨w, ws, hw, hin⟩
            · unfold mark at hndr
              rw [if_pos hd1] at hndr
              simp at hndr
            · rw [hl] at hw
              obtain ⟨rfl, rfl⟩ := List.cons.inj hw
              have hids := hinv.ids
              rw [hl, List.map_append, List.map_cons, List.nodup_append] at hids
              have := (List.nodup_cons.1 hids.2.1).1
              apply this
              have hu0 : u.id = t0.id := by rw [heq]
              rw [← hid, hu0]
              exact List.mem_map_of_mem (f := Tlv.id) hin
          · intro hr' hct u hu hui
            rw [hl] at hu
            rcases List.mem_cons.1 hu with rfl | hu
            · exact ⟨_, List.mem_append_right _ (List.mem_singleton.2 rfl), _, _, rfl, rfl⟩
            · have hadv := advance_tlvs idx m d l
              have : u ∈ (advance idx m d l).tlvs := by
                rcases hadv.2 t ts hl with ⟨_, _, h3⟩ | ⟨_, _, h3⟩
                · rw [h3]; exact hu
                · rw [h3]; exact List.mem_cons_of_mem _ hu
              obtain ⟨e, he, h⟩ := hc.deliver hr' hct u this hui
              exact ⟨e, List.mem_append_left _ he, h⟩
      · rw [if_pos hres]
        have hd0 : d = false := by
          cases d with
          | false => rfl
          | true => exact absurd (hd rfl) hres
        rcases hcases with ⟨_, _, h0, _⟩ | ⟨t, r, ht, hti, hext1, hr⟩
        · exact absurd h0 hres
        · obtain ⟨ts, hl⟩ : ∃ ts, l.tlvs = t :: ts := by
            cases hl : l.tlvs with
            | nil => rw [hl] at ht; simp at ht
            | cons u us =>
              rw [hl] at ht
              simp only [List.head?_cons, Option.some.injEq] at ht
              exact ⟨us, by rw [ht]⟩
          rcases hr with ⟨h1, _⟩ | ⟨_, hr1, hr2⟩
          · rw [hd0] at h1
            simp at h1
          · refine ⟨res, l, st1, _, rfl, hext1, hinv, ⟨?_, ?_, ?_, .inr ⟨hr2, _, List.mem_singleton.2 rfl, hr1⟩, ?_, ?_, ?_⟩⟩
            · intro e he
              rw [List.mem_singleton.1 he]
              exact ⟨rfl, rfl, ⟨_, _, rfl⟩, .inr (.inr ⟨hr1, hres⟩)⟩
            · refine Upd.refl ?_
              rintro u _ ⟨e, he, hdr⟩
              rw [List.mem_singleton.1 he] at hdr
              unfold Event.Drops at hdr
              simp only at hdr
              exact hr2 (hr1.symm.trans hdr.1)
            · intro e he u hu
              rw [List.mem_singleton.1 he] at hu
              simp only [Kind.tlvs, List.mem_singleton] at hu
              subst hu
              exact ⟨hti, u, by rw [hl]; exact List.mem_cons_self, rfl, indexMatch_drop hti⟩
            · intro e he u v hk
              rw [List.mem_singleton.1 he] at hk
              simp only [Kind.tlv.injEq] at hk
              rw [← hk.2, ← hk.1]
            · exact List.pairwise_singleton _ _
            · intro h
              exact absurd h hres

/-- `_schedule_tlvblock` -/
theorem schedule_spec (env : Env) (c : Consumer) (ctx : Ctx) (idx : Nat) (tlvs : List Tlv) (st : St) (hids : (tlvs.map Tlv.id).Nodup) :
    ∃ res tlvs' st' ev, scheduleTlvblock env c ctx tlvs idx st = .ok (res, tlvs', st') ∧ Ext st st' ev ∧
      Calls c ctx idx tlvs tlvs' res ev := by
  unfold scheduleTlvblock
  obtain ⟨res, l, st1, ev, hs, hext, hinv, hc⟩ := schedLoop_spec env c ctx idx (tlvs.length + c.entries.length + 1)
    ⟨[], tlvs, [], c.entries, [], false⟩ st (by simp) ⟨by simp, by simpa using hids⟩
  rw [hs]
  simp only
  have hT : ∀ k : Kind, (∃ t v, k = .tlv t v) → k.IsTlvs := by
    rintro k ⟨t, v, rfl⟩
    trivial
  have base : Calls c ctx idx tlvs (l.before ++ l.tlvs) res ev :=
    ⟨fun e he => ⟨(hc.each e he).1, (hc.each e he).2.1, hT _ (hc.each e he).2.2.1, (hc.each e he).2.2.2⟩,
      hc.upd, hc.sees, hc.source, hc.vals, hc.scope, hc.deliver⟩
  by_cases hres : res = OKAY
  · rw [if_neg (by simp [hres])]
    subst hres
    split
    · exact ⟨_, _, _, ev, rfl, hext, base⟩
    · rename_i kind hkind
      have hk : kind.IsTlvs ∧ kind.tlvs = l.done.flatten ∧ (kind = .block l.done ∨ kind = .failed l.done) := by
        split at hkind
        · obtain rfl := Option.some.inj hkind
          exact ⟨trivial, rfl, .inl rfl⟩
        · split at hkind
          · obtain rfl := Option.some.inj hkind
            exact ⟨trivial, rfl, .inr rfl⟩
          · simp at hkind
      have he := call_ext env st1 c.id ctx kind
      generalize hcall : call env st1 c.id ctx kind = r at he
      obtain ⟨r, st2⟩ := r
      simp only at he
      simp only
      -- facts for the new event
      have hsees : ∀ t ∈ kind.tlvs, indexMatch t idx = true ∧ ∃ t0 ∈ tlvs, t = { t0 with drop := t.drop } ∧ idx ∉ t0.drop := by
        intro t ht
        rw [hk.2.1] at ht
        obtain ⟨h1, h2⟩ := hinv.matched t (List.mem_append_left _ ht)
        refine ⟨h2, ?_⟩
        obtain ⟨t0, ht0, heq, hdr⟩ := hc.upd.mem (List.mem_append_left _ h1)
        refine ⟨t0, by simpa using ht0, heq, fun h => ?_⟩
        exact indexMatch_drop h2 ((hdr idx).2 (.inl h))
      have hscope : ∀ e ∈ ev, ∀ tid, e.Drops tid → ¬ (⟨c.id, ctx, kind, r⟩ : Event).Sees tid := by
        rintro e he' tid hdr ⟨t, ht, rfl⟩
        simp only at ht
        rw [hk.2.1] at ht
        obtain ⟨h1, h2⟩ := hinv.matched t (List.mem_append_left _ ht)
        obtain ⟨t0, ht0, heq, hdr'⟩ := hc.upd.mem (List.mem_append_left _ h1)
        refine indexMatch_drop h2 ((hdr' idx).2 (.inr ⟨rfl, e, he', ?_⟩))
        rw [heq] at hdr
        exact hdr
      have hdrops : ∀ tid, (⟨c.id, ctx, kind, r⟩ : Event).Drops tid ↔ r.res = DROP_TLV ∧ Picked l.done r.drops tid := by
        intro tid
        unfold Event.Drops
        rcases hk.2.2 with rfl | rfl <;> exact Iff.rfl
      have hkt : ∀ t v, kind ≠ .tlv t v := by
        intro t v h
        rcases hk.2.2 with h' | h' <;> rw [h'] at h <;> exact Kind.noConfusion h
      have build : ∀ (res : Int) (tlvs' : List Tlv), (res = OKAY ∨ (res ≠ DROP_TLV ∧ r.res = res)) → (r.res = OKAY ∨ r.res = DROP_TLV ∨ (r.res = res ∧ res ≠ OKAY)) →
          Upd idx (fun tid => (⟨c.id, ctx, kind, r⟩ : Event).Drops tid) (l.before ++ l.tlvs) tlvs' →
          Calls c ctx idx tlvs tlvs' res (⟨c.id, ctx, kind, r⟩ :: ev) := by
        intro res tlvs' hsrc hr hu
        refine ⟨?_, ?_, ?_, ?_, ?_, ?_, ?_⟩
        · intro e he
          rcases List.mem_cons.1 he with rfl | he
          · exact ⟨rfl, rfl, hk.1, hr⟩
          · refine ⟨(base.each e he).1, (base.each e he).2.1, (base.each e he).2.2.1, ?_⟩
            rcases (base.each e he).2.2.2 with h | h | h
            · exact .inl h
            · exact .inr (.inl h)
            · exact absurd rfl h.2
        · refine (base.upd.trans hu).congr fun t _ => ?_
          simp only [List.mem_cons, exists_eq_or_imp]
          exact or_comm
        · intro e he t ht
          rcases List.mem_cons.1 he with rfl | he
          · exact hsees t ht
          · exact base.sees e he t ht
        · rcases hsrc with h | h
          · exact .inl h
          · exact .inr ⟨h.1, _, List.mem_cons_self, h.2⟩
        · intro e he t v hkk
          rcases List.mem_cons.1 he with rfl | he
          · exact absurd hkk (hkt t v)
          · exact base.vals e he t v hkk
        · refine List.pairwise_cons.2 ⟨fun e he => ⟨?_, hscope e he⟩, base.scope⟩
          rcases (base.each e he).2.2.2 with h | h | h
          · exact .inl h
          · exact .inr h
          · exact absurd rfl h.2
        · intro _ hct t ht hti
          obtain ⟨e, he, h⟩ := base.deliver rfl hct t ht hti
          exact ⟨e, List.mem_cons_of_mem _ he, h⟩
      by_cases hr : r.res = DROP_TLV
      · rw [if_pos hr]
        refine ⟨_, _, _, ⟨c.id, ctx, kind, r⟩ :: ev, rfl, hext.trans he, build _ _ (.inl rfl) (.inr (.inl hr)) ?_⟩
        refine (blockDrops_upd r.drops idx l.done 0 _).congr fun t _ => ?_
        rw [hdrops]
        simp only [hr, true_and, Picked, Nat.zero_add]
      · rw [if_neg hr]
        refine ⟨_, _, _, ⟨c.id, ctx, kind, r⟩ :: ev, rfl, hext.trans he, build _ _ (.inr ⟨hr, rfl⟩) ?_ ?_⟩
        · by_cases h0 : r.res = OKAY
          · exact .inl h0
          · exact .inr (.inr ⟨rfl, h0⟩)
        · refine Upd.refl fun t _ => ?_
          rw [hdrops]
          exact fun h => hr h.1
  · rw [if_pos hres]
    exact ⟨_, _, _, ev, rfl, hext, base⟩

end Verif.Reader
