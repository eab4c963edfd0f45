import Verif.Ll4.Spec
/-
Lemmas about addresses, the hash and the scan of the addresses of an interface.
-/
namespace Verif.Ll4
open Verif.Netaddr Spec

theorem linkLocal_eq (n : Nat) : linkLocal n = ⟨[169, 254, UInt8.ofNat (n / 256), UInt8.ofNat n] ++ List.replicate 12 0, AF_INET, 32⟩ := by
  unfold linkLocal be16
  rfl

theorem cmp_zero {a b : Netaddr} (ha : a.WF) (hb : b.WF) : cmp a b = 0 ↔ a = b := by
  unfold Netaddr.WF at ha hb
  unfold cmp
  rw [memcmp_zero _ _ (by simp [ha, hb])]
  constructor
  · intro h
    have := List.append_inj h (by rw [ha, hb])
    cases a; cases b
    simp at this ⊢
    exact this
  · intro h; rw [h]

theorem isLL_iff {a : Netaddr} (ha : a.WF) : isLL a = true ↔ LinkLocal a := by
  unfold Netaddr.WF at ha
  obtain ⟨l, t, p⟩ := a
  simp only at ha
  match l, ha with
  | b0 :: b1 :: b2 :: b3 :: rest, ha =>
    unfold isLL LINKLOCAL isInSubnet LinkLocal Octets
    by_cases ht : t = AF_INET
    · subst ht
      have h16 : ((16 : UInt8).toNat / 8) = 2 := by decide
      simp only [binaryIsInSubnet, List.length_cons]
      have hl : ¬ (((16 : UInt8).toNat / 8 > 16) ∨ ((16 : UInt8).toNat / 8 > rest.length + 1 + 1 + 1 + 1)) := by
        rw [h16]; omega
      simp only [ne_eq, not_true, if_false, hl]
      simp only [h16, show ((16 : UInt8).toNat % 8) = 0 by decide]
      simp
      constructor
      · intro h
        by_cases h' : b0 = 169 ∧ b1 = 254
        · exact h'
        · have : ¬ (169 = b0 ∧ 254 = b1) := fun h'' => h' ⟨h''.1.symm, h''.2.symm⟩
          simp [this] at h
      · rintro ⟨rfl, rfl⟩
        simp
    · have : ¬ AF_INET = t := fun h => ht h.symm
      simp [this, ht]

theorem unspec_type : unspec.type = AF_UNSPEC := rfl

theorem isLL_type {a : Netaddr} (h : isLL a = true) : a.type = AF_INET := by
  unfold isLL isInSubnet at h
  by_cases ht : LINKLOCAL.type = a.type
  · exact ht.symm
  · simp [ht] at h

/-- what the scan finds -/
theorem scan_spec (mine : Netaddr) (hm : mine.WF) (as : List Netaddr) (hw : ∀ a ∈ as, a.WF) : ∀ c ll f,
    (scan mine as (c, ll, f)).1 = c + (as.filter (·.type = AF_INET)).length ∧
    (((scan mine as (c, ll, f)).2.1 = ll ∧ (f = true ∨ ∀ a ∈ as, isLL a = false)) ∨
      (f = false ∧ (scan mine as (c, ll, f)).2.1 ∈ as ∧ isLL (scan mine as (c, ll, f)).2.1 = true)) ∧
    (f = true → (scan mine as (c, ll, f)).2.1 = ll) ∧
    (f = false → mine ∈ as → isLL mine = true → (scan mine as (c, ll, f)).2.1 = mine) := by
  induction as with
  | nil => intro c ll f; simp [scan]
  | cons a as ih =>
    intro c ll f
    have ih := ih (fun x hx => hw x (List.mem_cons_of_mem _ hx))
    have hwa := hw a List.mem_cons_self
    unfold scan
    by_cases ht : a.type = AF_INET
    · rw [if_pos ht]
      have hcount : ((a :: as).filter (·.type = AF_INET)).length = (as.filter (·.type = AF_INET)).length + 1 := by simp [ht]
      by_cases hl : (!f && isLL a) = true
      · rw [if_pos hl]
        simp at hl
        obtain ⟨i1, i2, i3, i4⟩ := ih (c + 1) a (cmp a mine == 0)
        refine ⟨by rw [i1, hcount]; omega, ?_, by simp [hl.1], ?_⟩
        · right
          refine ⟨hl.1, ?_⟩
          rcases i2 with ⟨h1, _⟩ | ⟨_, h2, h3⟩
          · rw [h1]; exact ⟨List.mem_cons_self, hl.2⟩
          · exact ⟨List.mem_cons_of_mem _ h2, h3⟩
        · intro _ hmem hml
          by_cases hc : cmp a mine = 0
          · rw [i3 (by simp [hc])]
            exact (cmp_zero hwa hm).1 hc
          · rcases List.mem_cons.mp hmem with rfl | hmem
            · exact absurd ((cmp_zero hwa hwa).2 rfl) hc
            · exact i4 (by simp [hc]) hmem hml
      · rw [if_neg hl]
        obtain ⟨i1, i2, i3, i4⟩ := ih (c + 1) ll f
        refine ⟨by rw [i1, hcount]; omega, ?_, i3, ?_⟩
        · rcases i2 with ⟨h1, h2⟩ | ⟨h1, h2, h3⟩
          · left
            refine ⟨h1, ?_⟩
            rcases h2 with h2 | h2
            · exact .inl h2
            · cases hf : f
              · right
                intro x hx
                rcases List.mem_cons.mp hx with rfl | hx
                · simpa [hf] using hl
                · exact h2 x hx
              · exact .inl rfl
          · exact .inr ⟨h1, List.mem_cons_of_mem _ h2, h3⟩
        · intro hf hmem hml
          rcases List.mem_cons.mp hmem with h | hmem
          · subst h; simp [hf, hml] at hl
          · exact i4 hf hmem hml
    · rw [if_neg ht]
      have hcount : ((a :: as).filter (·.type = AF_INET)).length = (as.filter (·.type = AF_INET)).length := by simp [ht]
      have hla : isLL a = false := by
        cases h : isLL a
        · rfl
        · exact absurd (isLL_type h) ht
      obtain ⟨i1, i2, i3, i4⟩ := ih c ll f
      refine ⟨by rw [i1, hcount], ?_, i3, ?_⟩
      · rcases i2 with ⟨h1, h2⟩ | ⟨h1, h2, h3⟩
        · left
          refine ⟨h1, ?_⟩
          rcases h2 with h2 | h2
          · exact .inl h2
          · right
            intro x hx
            rcases List.mem_cons.mp hx with rfl | hx
            · exact hla
            · exact h2 x hx
        · exact .inr ⟨h1, List.mem_cons_of_mem _ h2, h3⟩
      · intro hf hmem hml
        rcases List.mem_cons.mp hmem with h | hmem
        · subst h; rw [hla] at hml; cases hml
        · exact i4 hf hmem hml

theorem current_count (w : World) (mine : Netaddr) (hm : mine.WF) (hw : ∀ a ∈ w.addrs, a.WF) : (current mine w.addrs).1 = (v4 w).length := by
  have := (scan_spec mine hm w.addrs hw 0 unspec false).1
  simpa [current, v4] using this

theorem current_addr (w : World) (mine : Netaddr) (hm : mine.WF) (hw : ∀ a ∈ w.addrs, a.WF) :
    ((current mine w.addrs).2 = unspec ∧ ∀ a ∈ w.addrs, ¬ LinkLocal a) ∨
    ((current mine w.addrs).2 ∈ w.addrs ∧ LinkLocal (current mine w.addrs).2) := by
  rcases (scan_spec mine hm w.addrs hw 0 unspec false).2.1 with ⟨h1, h2⟩ | ⟨_, h2, h3⟩
  · left
    refine ⟨h1, fun a ha hl => ?_⟩
    rcases h2 with h2 | h2
    · cases h2
    · have := h2 a ha
      rw [(isLL_iff (hw a ha)).2 hl] at this
      cases this
  · right
    exact ⟨h2, (isLL_iff (hw _ h2)).1 h3⟩

theorem current_mine (w : World) (mine : Netaddr) (hm : mine.WF) (hw : ∀ a ∈ w.addrs, a.WF) (hmem : mine ∈ w.addrs) (hl : LinkLocal mine) :
    (current mine w.addrs).2 = mine :=
  (scan_spec mine hm w.addrs hw 0 unspec false).2.2.2 rfl hmem ((isLL_iff hm).2 hl)

theorem current_WF (w : World) (mine : Netaddr) (hm : mine.WF) (hw : ∀ a ∈ w.addrs, a.WF) : (current mine w.addrs).2.WF := by
  rcases current_addr w mine hm hw with h | h
  · rw [h.1]; rfl
  · exact hw _ h.1

/-! ### hash -/

theorem hostPart_range (s : Bool) (a : Netaddr) : 256 ≤ hostPart s a ∧ hostPart s a < 65280 := by
  unfold hostPart
  omega

theorem linkLocal_WF (n : Nat) : (linkLocal n).WF := by rw [linkLocal_eq]; rfl

theorem linkLocal_usable (n : Nat) (h1 : 256 ≤ n) (h2 : n < 65280) : Usable (linkLocal n) := by
  rw [linkLocal_eq]
  refine ⟨UInt8.ofNat (n / 256), UInt8.ofNat n, ⟨rfl, rfl⟩, ?_, ?_⟩
  · rw [UInt8.le_iff_toNat_le, UInt8.toNat_ofNat']
    show 1 ≤ _
    omega
  · rw [UInt8.le_iff_toNat_le, UInt8.toNat_ofNat']
    show _ ≤ 254
    omega

theorem usable_ll {a : Netaddr} (h : Usable a) : LinkLocal a := by
  obtain ⟨r, s, h, _⟩ := h; exact ⟨r, s, h⟩

/-! ### collisions -/

theorem octets_take {a : Netaddr} {p q r s} (h : Octets a p q r s) : a.addr.take 4 = [p, q, r, s] := h.2

/-- a complete IPv4 host address is given by its octets -/
theorem v4_ext {a b : Netaddr} (ha : a.WF) (hb : b.WF) (hca : a.Clean) (hcb : b.Clean) (hpa : a.prefixLen = 32) (hpb : b.prefixLen = 32) (h : SameV4 a b) : a = b := by
  obtain ⟨h1, h2, h3⟩ := h
  obtain ⟨la, ta, pa⟩ := a
  obtain ⟨lb, tb, pb⟩ := b
  simp only at h1 h2 h3 hpa hpb
  subst h1; subst h2; subst hpa; subst hpb
  have e : maxPrefix ⟨la, AF_INET, 32⟩ / 8 = 4 := by show afMaxPrefix AF_INET / 8 = 4; decide
  have e' : maxPrefix ⟨lb, AF_INET, 32⟩ / 8 = 4 := by show afMaxPrefix AF_INET / 8 = 4; decide
  unfold Netaddr.Clean at hca hcb
  rw [e] at hca; rw [e'] at hcb
  simp only at hca hcb
  have : la = lb := by
    rw [← List.take_append_drop 4 la, ← List.take_append_drop 4 lb, h3, hca, hcb]
  rw [this]

theorem collides_iff (s : Bool) (x n : Netaddr) (hx : x.WF) (hn : n.WF) (hcx : x.Clean) (hcn : n.Clean) (hpx : x.prefixLen = 32)
    (hpn : n.type = AF_INET → n.prefixLen = 32) (hl : LinkLocal x) : collides s x n = true ↔ Claims s n x := by
  unfold collides Claims
  obtain ⟨r, t, hxt, hxo⟩ := hl
  by_cases ht : n.type = AF_INET
  · rw [if_pos ht, beq_iff_eq, cmp_zero hx hn]
    constructor
    · rintro rfl; exact .inl ⟨ht, ht, rfl⟩
    · rintro (h | h)
      · exact (v4_ext hn hx hcn hcx (hpn ht) hpx h).symm
      · exact absurd ht h.1
  · rw [if_neg ht, beq_iff_eq]
    have hd : (x.addr.drop 2).take 2 = [r, t] := by
      have : (x.addr.drop 2).take 2 = (x.addr.take 4).drop 2 := (List.drop_take (i := 2) (j := 4) (l := x.addr)).symm
      rw [this, hxo]; rfl
    rw [hd]
    constructor
    · intro h
      right
      refine ⟨ht, rfl, hxt, ?_⟩
      rw [hxo, linkLocal_eq]
      unfold be16 at h
      simp at h
      simp [h.1, h.2]
    · rintro (h | ⟨_, _, _, h⟩)
      · exact absurd h.1 ht
      · rw [hxo, linkLocal_eq] at h
        simp at h
        simp [be16, h.1, h.2]

theorem hasCollision_iff (w : World) (x : Netaddr) (hh : Hosts w) (hx : x.WF) (hcx : x.Clean) (hpx : x.prefixLen = 32) (hl : LinkLocal x) :
    hasCollision w.signed w.links x = false ↔ Free w x := by
  obtain ⟨r, t, hxt, _⟩ := hl
  have hne : ¬ x.type = AF_UNSPEC := by rw [hxt]; decide
  unfold hasCollision
  rw [if_neg hne]
  have key : ∀ l ∈ w.links, ∀ n ∈ l.addrs ++ l.twohop, (collides w.signed x n = true ↔ Claims w.signed n x) := by
    intro l hl n hn
    obtain ⟨h1, h2, h3⟩ := hh.2 l hl n hn
    exact collides_iff w.signed x n hx h1 hcx h2 hpx h3 ⟨r, t, hxt, by assumption⟩
  rw [List.any_eq_false]
  unfold Free
  constructor
  · intro h l hl n hn hc
    have h1 := h l hl
    simp only [Bool.or_eq_true, not_or, List.any_eq_true] at h1
    rcases List.mem_append.mp hn with hn' | hn'
    · exact h1.1 ⟨n, hn', (key l hl n hn).2 hc⟩
    · exact h1.2 ⟨n, hn', (key l hl n hn).2 hc⟩
  · intro h l hl
    simp only [Bool.or_eq_true, not_or, List.any_eq_true]
    constructor
    · rintro ⟨n, hn, hc⟩
      exact h l hl n (List.mem_append_left _ hn) ((key l hl n (List.mem_append_left _ hn)).1 hc)
    · rintro ⟨n, hn, hc⟩
      exact h l hl n (List.mem_append_right _ hn) ((key l hl n (List.mem_append_right _ hn)).1 hc)

/-! ### the loop -/

/-- a complete IPv4 link-local host address, of some kind `K` -/
def Proper (K : Netaddr → Prop) (a : Netaddr) : Prop := a.WF ∧ a.Clean ∧ a.prefixLen = 32 ∧ LinkLocal a ∧ K a

theorem linkLocal_proper {K : Netaddr → Prop} (hK : ∀ a, Usable a → K a) (n : Nat) (h1 : 256 ≤ n) (h2 : n < 65280) : Proper K (linkLocal n) := by
  have hu := linkLocal_usable n h1 h2
  refine ⟨linkLocal_WF n, ?_, by rw [linkLocal_eq], usable_ll hu, hK _ hu⟩
  rw [linkLocal_eq]
  have : maxPrefix ⟨[169, 254, UInt8.ofNat (n / 256), UInt8.ofNat n] ++ List.replicate 12 0, AF_INET, 32⟩ / 8 = 4 := by
    show afMaxPrefix AF_INET / 8 = 4; decide
  unfold Netaddr.Clean
  rw [this]
  rfl

theorem proper_type {K} {a : Netaddr} (h : Proper K a) : a.type = AF_INET := by
  obtain ⟨r, t, h, _⟩ := h.2.2.2.1; exact h

theorem proper_ne {K} {a : Netaddr} (h : Proper K a) : ¬ a.type = AF_UNSPEC := by rw [proper_type h]; decide

theorem pick_found {K : Netaddr → Prop} (hK : ∀ a, Usable a → K a) (w : World) : ∀ fuel i a x, (a = unspec ∨ Proper K a) → pick w fuel i a = .found x →
    Proper K x ∧ hasCollision w.signed w.links x = false ∧ (x = a ∨ (hasCollision w.signed w.links a = true ∧ Usable x)) := by
  intro fuel
  induction fuel with
  | zero =>
    intro i a x ha h
    unfold pick at h
    by_cases hc : hasCollision w.signed w.links a = true
    · rw [if_pos hc] at h; cases h
    · rw [if_neg hc] at h
      cases h
      rcases ha with rfl | ha
      · exact absurd (by simp [hasCollision, unspec_type]) hc
      · exact ⟨ha, by simpa using hc, .inl rfl⟩
  | succ n ih =>
    intro i a x ha h
    unfold pick at h
    by_cases hc : hasCollision w.signed w.links a = true
    · rw [if_pos hc] at h
      cases hr : w.rnd i with
      | none => simp [hr] at h
      | some r =>
        simp only [hr] at h
        have hp : Proper K (linkLocal (r % (256 * 254) + 256)) := linkLocal_proper hK _ (by omega) (by omega)
        obtain ⟨h1, h2, h3⟩ := ih _ _ _ (.inr hp) h
        refine ⟨h1, h2, .inr ⟨hc, ?_⟩⟩
        rcases h3 with h3 | h3
        · rw [h3]; exact linkLocal_usable _ (by omega) (by omega)
        · exact h3.2
    · rw [if_neg hc] at h
      cases h
      rcases ha with rfl | ha
      · exact absurd (by simp [hasCollision, unspec_type]) hc
      · exact ⟨ha, by simpa using hc, .inl rfl⟩

theorem pick_noRandom {K : Netaddr → Prop} (hK : ∀ a, Usable a → K a) (w : World) : ∀ fuel i a x, pick w fuel i a = .noRandom x → x = a ∨ Proper K x := by
  intro fuel
  induction fuel with
  | zero =>
    intro i a x h
    unfold pick at h
    by_cases hc : hasCollision w.signed w.links a = true
    · rw [if_pos hc] at h; cases h
    · rw [if_neg hc] at h; cases h
  | succ n ih =>
    intro i a x h
    unfold pick at h
    by_cases hc : hasCollision w.signed w.links a = true
    · rw [if_pos hc] at h
      cases hr : w.rnd i with
      | none => simp [hr] at h; exact .inl h.symm
      | some r =>
        simp only [hr] at h
        rcases ih _ _ _ h with h1 | h1
        · rw [h1]; exact .inr (linkLocal_proper hK _ (by omega) (by omega))
        · exact .inr h1
    · rw [if_neg hc] at h; cases h

/-- the loop ends if a free address is drawn or the random generator fails -/
theorem pick_ends (w : World) : ∀ fuel i a,
    (∃ j, i ≤ j ∧ j < i + fuel ∧ (w.rnd j = none ∨ ∃ r, w.rnd j = some r ∧ hasCollision w.signed w.links (linkLocal (r % (256 * 254) + 256)) = false)) →
    pick w fuel i a ≠ .hang := by
  intro fuel
  induction fuel with
  | zero => rintro i a ⟨j, h1, h2, _⟩; omega
  | succ n ih =>
    rintro i a ⟨j, h1, h2, h3⟩ h
    unfold pick at h
    by_cases hc : hasCollision w.signed w.links a = true
    · rw [if_pos hc] at h
      cases hr : w.rnd i with
      | none => simp [hr] at h
      | some r =>
        simp only [hr] at h
        by_cases hj : j = i
        · subst hj
          rw [hr] at h3
          rcases h3 with h3 | ⟨r', h3, h4⟩
          · cases h3
          · cases h3
            cases n with
            | zero => unfold pick at h; rw [h4] at h; simp at h
            | succ m => unfold pick at h; rw [h4] at h; simp at h
        · exact ih _ _ ⟨j, by omega, by omega, h3⟩ h
    · rw [if_neg hc] at h; cases h

theorem pick_hang (w : World) (hc : ∀ r, hasCollision w.signed w.links (linkLocal (r % (256 * 254) + 256)) = true) (hr : ∀ i, (w.rnd i).isSome) :
    ∀ fuel i a, hasCollision w.signed w.links a = true → pick w fuel i a = .hang := by
  intro fuel
  induction fuel with
  | zero => intro i a h; unfold pick; rw [if_pos h]
  | succ n ih =>
    intro i a h
    unfold pick
    rw [if_pos h]
    have := hr i
    cases hri : w.rnd i with
    | none => rw [hri] at this; cases this
    | some r => exact ih _ _ (hc r)

theorem pick_no_fail (w : World) (hr : ∀ i, (w.rnd i).isSome) : ∀ fuel i a x, pick w fuel i a ≠ .noRandom x := by
  intro fuel
  induction fuel with
  | zero =>
    intro i a x h
    unfold pick at h
    split at h <;> cases h
  | succ n ih =>
    intro i a x h
    unfold pick at h
    split at h
    · have := hr i
      cases hri : w.rnd i with
      | none => rw [hri] at this; cases this
      | some r => simp only [hri] at h; exact ih _ _ _ h
    · cases h

/-! ### one update -/

/-- the address of the plugin: none, or a proper one -/
def Mine (K : Netaddr → Prop) (st : State) : Prop := (st.mine = unspec ∧ st.generated = false) ∨ Proper K st.mine

theorem mine_WF {K} {st : State} (h : Mine K st) : st.mine.WF := by
  rcases h with h | h
  · rw [h.1]; rfl
  · exact h.1

/-- the addresses of the interface that are link-local are of the kind `K` -/
def Kind (K : Netaddr → Prop) (w : World) : Prop := ∀ a ∈ w.addrs, LinkLocal a → K a

theorem host_proper {K} {w : World} (hh : Hosts w) (hk : Kind K w) {a : Netaddr} (ha : a ∈ w.addrs) (hl : LinkLocal a) : Proper K a := by
  obtain ⟨h1, h2, h3⟩ := hh.1 a ha
  obtain ⟨r, t, ht, ho⟩ := hl
  exact ⟨h1, h2, h3 ht, ⟨r, t, ht, ho⟩, hk a ha ⟨r, t, ht, ho⟩⟩

theorem begin_proper {K : Netaddr → Prop} (hK : ∀ a, Usable a → K a) {w : World} (hh : Hosts w) (hk : Kind K w) {st : State} (hm : Mine K st)
    (h1 : ¬ ((current st.mine w.addrs).1 = 1 ∧ (current st.mine w.addrs).2.type = AF_UNSPEC)) :
    (begin w st (current st.mine w.addrs) = unspec ∧ st.generated = false) ∨ Proper K (begin w st (current st.mine w.addrs)) := by
  have hd : defaultAddr w.signed w.v6 = unspec ∨ Proper K (defaultAddr w.signed w.v6) := by
    unfold defaultAddr
    split
    · exact .inl rfl
    · exact .inr (linkLocal_proper hK _ (hostPart_range _ _).1 (hostPart_range _ _).2)
  unfold begin
  simp only
  by_cases hc : (current st.mine w.addrs).1 = 1
  · rw [if_pos hc]
    have hne : ¬ (current st.mine w.addrs).2.type = AF_UNSPEC := fun h => h1 ⟨hc, h⟩
    rw [if_neg hne]
    rcases current_addr w st.mine (mine_WF hm) (fun a ha => (hh.1 a ha).1) with h | h
    · exact absurd (by rw [h.1]; rfl) hne
    · exact .inr (host_proper hh hk h.1 h.2)
  · rw [if_neg hc]
    rcases hm with hm | hm
    · rw [if_pos (by rw [hm.1]; rfl)]
      rcases hd with hd | hd
      · exact .inl ⟨hd, hm.2⟩
      · exact .inr hd
    · rw [if_neg (proper_ne hm)]
      exact .inr hm

/-- everything an update can do -/
inductive Upd (K : Netaddr → Prop) (w : World) (st : State) : State → Option Cmd → Prop
  /-- nothing -/
  | quiet : (w.up = false ∨ w.loopback = true ∨ st.active = false ∨ 2 ≤ (v4 w).length ∨ ∃ a, v4 w = [a] ∧ ¬ LinkLocal a) → Upd K w st st none
  /-- the random generator fails -/
  | lost (a : Netaddr) : (∃ i, w.rnd i = none) → (a = unspec ∧ st.generated = false) ∨ Proper K a → Upd K w st { st with mine := a } none
  /-- the address of the interface is fine -/
  | keep (a : Netaddr) : Proper K a → v4 w = [a] → Free w a → Upd K w st { st with mine := a } none
  /-- the own address is withdrawn -/
  | withdraw : st.generated = true → st.mine ∈ w.addrs → Proper K st.mine → (st.active = false ∨ 2 ≤ (v4 w).length) →
      Upd K w st (commit st st.mine false).1 (commit st st.mine false).2
  /-- the address of the interface collides -/
  | replace (a b : Netaddr) : Proper K a → v4 w = [a] → ¬ Free w a → Proper K b → Free w b → st.active = true →
      Upd K w st (commit { st with mine := b } a false).1 (commit { st with mine := b } a false).2
  /-- a new address is set -/
  | assign (b : Netaddr) : v4 w = [] → Proper K b → Free w b → st.active = true → Upd K w st (commit { st with mine := b } b true).1 (commit { st with mine := b } b true).2

theorem v4_one {w : World} {a : Netaddr} (ha : a ∈ w.addrs) (ht : a.type = AF_INET) (h1 : (v4 w).length = 1) : v4 w = [a] := by
  have hm : a ∈ v4 w := by unfold v4; simp [ha, ht]
  match hv : v4 w, h1 with
  | [b], _ => rw [hv] at hm; simp at hm; rw [hm]

theorem update_cases {K : Netaddr → Prop} (hK : ∀ a, Usable a → K a) {w : World} (hh : Hosts w) (hk : Kind K w) {st st' : State} {c : Option Cmd} {fuel : Nat}
    (hm : Mine K st) (h : update w fuel st = some (st', c)) :
    Upd K w st st' c ∧ (c ≠ none → w.up = true ∧ w.loopback = false) := by
  have hw : ∀ a ∈ w.addrs, a.WF := fun a ha => (hh.1 a ha).1
  have hcount := current_count w st.mine (mine_WF hm) hw
  have haddr := current_addr w st.mine (mine_WF hm) hw
  have hcwf := current_WF w st.mine (mine_WF hm) hw
  unfold update at h
  by_cases hup : (w.loopback || !w.up) = true
  · rw [if_pos hup] at h
    cases h
    refine ⟨.quiet ?_, fun h => absurd rfl h⟩
    cases hl : w.loopback <;> cases hu : w.up <;> simp [hl, hu] at hup ⊢
  rw [if_neg hup] at h
  simp only at h
  have hup' : w.up = true ∧ w.loopback = false := by simpa [and_comm] using hup
  refine ⟨?_, fun _ => hup'⟩
  -- withdrawing
  have hwd : ∀ g : Bool, (st.generated && g && cmp (current st.mine w.addrs).2 st.mine == 0) = true → (current st.mine w.addrs).2 = st.mine ∧ st.generated = true ∧ g = true := by
    intro g hg
    simp only [Bool.and_eq_true, beq_iff_eq] at hg
    exact ⟨(cmp_zero hcwf (mine_WF hm)).1 hg.2, hg.1.1, hg.1.2⟩
  have hmem : (current st.mine w.addrs).2 = st.mine → st.generated = true → st.mine ∈ w.addrs ∧ Proper K st.mine := by
    intro he hg
    rcases hm with hm | hm
    · rw [hm.2] at hg; cases hg
    · rcases haddr with h' | h'
      · exfalso
        rw [← he, h'.1] at hm
        exact proper_ne hm rfl
      · rw [he] at h'; exact ⟨h'.1, hm⟩
  by_cases hact : (!st.active) = true
  · rw [if_pos hact] at h
    by_cases hg : (st.generated && (current st.mine w.addrs).1 == 1 && cmp (current st.mine w.addrs).2 st.mine == 0) = true
    · rw [if_pos hg] at h
      obtain ⟨he, hgen, _⟩ := hwd _ hg
      rw [he] at h
      obtain ⟨h1, h2⟩ := hmem he hgen
      cases h
      exact .withdraw hgen h1 h2 (.inl (by simpa using hact))
    · rw [if_neg hg] at h
      cases h
      exact .quiet (.inr (.inr (.inl (by simpa using hact))))
  rw [if_neg hact] at h
  have hact' : st.active = true := by simpa using hact
  by_cases hgt : (current st.mine w.addrs).1 > 1
  · rw [if_pos hgt] at h
    by_cases hg : (st.generated && cmp (current st.mine w.addrs).2 st.mine == 0) = true
    · rw [if_pos hg] at h
      obtain ⟨he, hgen, _⟩ := hwd true (by simpa using hg)
      rw [he] at h
      obtain ⟨h1, h2⟩ := hmem he hgen
      cases h
      exact .withdraw hgen h1 h2 (.inr (by omega))
    · rw [if_neg hg] at h
      cases h
      exact .quiet (.inr (.inr (.inr (.inl (by omega)))))
  rw [if_neg hgt] at h
  by_cases h1 : (current st.mine w.addrs).1 = 1 ∧ (current st.mine w.addrs).2.type = AF_UNSPEC
  · rw [if_pos h1] at h
    cases h
    refine .quiet (.inr (.inr (.inr (.inr ?_))))
    rcases haddr with h' | h'
    · have hlen : (v4 w).length = 1 := by omega
      match hv : v4 w, hlen with
      | [b], _ =>
        refine ⟨b, rfl, h'.2 b ?_⟩
        have : b ∈ v4 w := by rw [hv]; exact List.mem_cons_self
        unfold v4 at this
        exact (List.mem_filter.mp this).1
    · obtain ⟨r, t, ht, _⟩ := h'.2
      rw [ht] at h1
      exact absurd h1.2 (by decide)
  rw [if_neg h1] at h
  have hb := begin_proper hK hh hk hm h1
  cases hp : pick w fuel 0 (begin w st (current st.mine w.addrs)) with
  | hang => simp [hp] at h
  | noRandom a =>
    simp only [hp] at h
    cases h
    have hr : ∃ i, w.rnd i = none := by
      apply Classical.byContradiction
      intro hn
      refine pick_no_fail w (fun i => ?_) _ _ _ _ hp
      cases hi : w.rnd i with
      | none => exact absurd ⟨i, hi⟩ hn
      | some _ => rfl
    rcases pick_noRandom hK w _ _ _ _ hp with h' | h'
    · rw [h']; exact .lost _ hr hb
    · exact .lost _ hr (.inr h')
  | found x =>
    simp only [hp] at h
    obtain ⟨hx, hxc, hxa⟩ := pick_found hK w _ _ _ _ (hb.imp And.left id) hp
    have hfree : Free w x := (hasCollision_iff w x hh hx.1 hx.2.1 hx.2.2.1 hx.2.2.2.1).1 hxc
    unfold conclude at h
    simp only at h
    by_cases hz : cmp x (current st.mine w.addrs).2 = 0
    · rw [if_pos hz] at h
      have he := (cmp_zero hx.1 hcwf).1 hz
      cases h
      rcases haddr with h' | h'
      · exfalso; rw [he, h'.1] at hx; exact proper_ne hx rfl
      · have hx1 : x ∈ w.addrs := by rw [he]; exact h'.1
        refine .keep x hx (v4_one hx1 (proper_type hx) ?_) hfree
        have : 0 < (v4 w).length := List.length_pos_of_mem (a := x) (by unfold v4; simp [hx1, proper_type hx])
        omega
    · rw [if_neg hz] at h
      by_cases hu : (current st.mine w.addrs).2.type ≠ AF_UNSPEC
      · rw [if_pos hu] at h
        cases h
        rcases haddr with h' | h'
        · exact absurd (by rw [h'.1]; rfl) hu
        · have hpa := host_proper hh hk h'.1 h'.2
          have hlen : (v4 w).length = 1 := by
            have : 0 < (v4 w).length := List.length_pos_of_mem (a := (current st.mine w.addrs).2) (by unfold v4; simp [h'.1, proper_type hpa])
            omega
          have hbeg : begin w st (current st.mine w.addrs) = (current st.mine w.addrs).2 := by
            unfold begin
            simp only
            have hc1 : (current st.mine w.addrs).1 = 1 := by omega
            rw [if_pos hc1, if_neg hu]
          refine .replace _ x hpa (v4_one h'.1 (proper_type hpa) hlen) ?_ hx hfree hact'
          intro hf
          rw [hbeg] at hxa
          rcases hxa with hxa | hxa
          · exact hz ((cmp_zero hx.1 hcwf).2 hxa)
          · have := (hasCollision_iff w _ hh hpa.1 hpa.2.1 hpa.2.2.1 hpa.2.2.2.1).2 hf
            rw [this] at hxa
            cases hxa.1
      · rw [if_neg hu] at h
        cases h
        have hu' : (current st.mine w.addrs).2.type = AF_UNSPEC := by simpa using hu
        have hl0 : (v4 w).length = 0 := by
          have : ¬ (current st.mine w.addrs).1 = 1 := fun hc => h1 ⟨hc, hu'⟩
          omega
        exact .assign x (List.length_eq_zero_iff.mp hl0) hx hfree hact'

/-! ### histories -/

/-- all addresses the plugin sees in a history -/
def Fine (K : Netaddr → Prop) (es : List Ev) : Prop := ∀ w fuel, Ev.fire w fuel ∈ es → Hosts w ∧ Kind K w

theorem upd_mine {K : Netaddr → Prop} {w : World} {st st' : State} {c : Option Cmd} (hm : Mine K st) (h : Upd K w st st' c) : Mine K st' := by
  cases h with
  | quiet _ => exact hm
  | lost a _ ha => exact ha
  | keep a ha _ _ => exact .inr ha
  | withdraw _ _ hp _ => exact .inr hp
  | replace a b _ _ _ hb _ _ => exact .inr hb
  | assign b _ hb _ _ => exact .inr hb

/-- a step is an update at the end of the timer, or leaves address and mark alone -/
theorem step_fire {st st' : State} {c : Option Cmd} {w : World} {fuel : Nat} (h : step st (.fire w fuel) = some (st', c)) :
    (c = none ∧ st'.mine = st.mine ∧ st'.generated = st.generated ∧ st'.cmd = st.cmd ∧ st'.alive = st.alive ∧ (st.timer = none ∨ st.alive = false)) ∨
    (st.alive = true ∧ ∃ st1, update w fuel { st with timer := none } = some (st1, c) ∧ st'.mine = st1.mine ∧ st'.generated = st1.generated ∧ st'.cmd = st1.cmd ∧ st'.alive = st1.alive) := by
  unfold step at h
  simp only at h
  by_cases ht : st.timer = none
  · rw [if_pos ht] at h; cases h; exact .inl ⟨rfl, rfl, rfl, rfl, rfl, .inl ht⟩
  rw [if_neg ht] at h
  by_cases ha : st.alive = true
  · simp only [ha, Bool.not_true, Bool.false_eq_true, if_false] at h
    right
    refine ⟨ha, ?_⟩
    have e : ({ st with timer := none, alive := st.alive } : State) = { st with timer := none } := rfl
    cases hu : update w fuel { st with timer := none } with
    | none => rw [← ha] at h; rw [e] at h; rw [hu] at h; cases h
    | some r =>
      rw [← ha] at h; rw [e] at h
      rw [hu] at h
      simp only [Option.bind_some] at h
      unfold request at h
      obtain ⟨s1, c1⟩ := r
      cases c1 with
      | none => simp at h; obtain ⟨rfl, rfl⟩ := h; exact ⟨s1, rfl, rfl, rfl, rfl, rfl⟩
      | some c1 =>
        simp only at h
        by_cases hp : s1.pending = true
        · rw [if_pos hp] at h; cases h
        · rw [if_neg hp] at h
          cases h
          exact ⟨s1, rfl, rfl, rfl, rfl, rfl⟩
  · have ha' : st.alive = false := by simpa using ha
    simp only [ha', Bool.not_false, if_true] at h
    cases h
    exact .inl ⟨rfl, rfl, rfl, rfl, by simp [ha'], .inr ha'⟩

/-- every other step -/
theorem step_other {st st' : State} {c : Option Cmd} {e : Ev} (h : step st e = some (st', c)) (hf : ∀ w fuel, e ≠ .fire w fuel) :
    st'.mine = st.mine ∧ st'.generated = st.generated ∧
    ((c = none ∧ st'.cmd = st.cmd ∧ (st'.alive = st.alive ∨ st'.alive = false)) ∨
      (e = .remove ∧ st'.alive = false ∧ st.alive = true ∧ st.active = true ∧ st.generated = true ∧ c = some { st.cmd with set := false })) := by
  cases e with
  | fire w fuel => exact absurd rfl (hf w fuel)
  | conf a d =>
    unfold step at h
    simp only [setTimer] at h
    split at h
    · cases h; exact ⟨rfl, rfl, .inl ⟨rfl, rfl, .inl rfl⟩⟩
    · split at h <;> (cases h; exact ⟨rfl, rfl, .inl ⟨rfl, rfl, .inl rfl⟩⟩)
  | change =>
    unfold step at h
    simp only [setTimer] at h
    split at h <;> (cases h; exact ⟨rfl, rfl, .inl ⟨rfl, rfl, .inl rfl⟩⟩)
  | answer a =>
    unfold step at h
    simp only [setTimer] at h
    split at h
    · cases h; exact ⟨rfl, rfl, .inl ⟨rfl, rfl, .inl rfl⟩⟩
    · split at h
      · cases h; exact ⟨rfl, rfl, .inl ⟨rfl, rfl, .inl rfl⟩⟩
      · split at h <;> (cases h; exact ⟨rfl, rfl, .inl ⟨rfl, rfl, .inl rfl⟩⟩)
  | remove =>
    unfold step at h
    simp only at h
    by_cases ha : st.alive = true
    · simp only [ha, Bool.not_true, Bool.false_eq_true, if_false] at h
      by_cases hg : (st.active && st.generated) = true
      · simp only [hg, if_true] at h
        cases h
        simp at hg
        exact ⟨rfl, rfl, .inr ⟨rfl, rfl, ha, hg.1, hg.2, rfl⟩⟩
      · simp only [hg] at h
        cases h
        exact ⟨rfl, rfl, .inl ⟨rfl, rfl, .inr rfl⟩⟩
    · have ha' : st.alive = false := by simpa using ha
      simp only [ha', Bool.not_false, if_true] at h
      cases h
      exact ⟨rfl, rfl, .inl ⟨rfl, rfl, .inl rfl⟩⟩

theorem step_mine {K : Netaddr → Prop} (hK : ∀ a, Usable a → K a) {st st' : State} {c : Option Cmd} {e : Ev} (hm : Mine K st)
    (he : ∀ w fuel, e = .fire w fuel → Hosts w ∧ Kind K w) (h : step st e = some (st', c)) : Mine K st' := by
  cases e with
  | fire w fuel =>
    obtain ⟨hh, hk⟩ := he w fuel rfl
    rcases step_fire h with ⟨_, h1, h2, _⟩ | ⟨_, st1, hu, h1, h2, _⟩
    · unfold Mine; rw [h1, h2]; exact hm
    · have := upd_mine (st := { st with timer := none }) hm (update_cases hK hh hk (st := { st with timer := none }) hm hu).1
      unfold Mine at this ⊢
      rw [h1, h2]; exact this
  | _ =>
    have := step_other h (by intro _ _ h'; cases h')
    unfold Mine
    rw [this.1, this.2.1]; exact hm

theorem run_cons {e : Ev} {es : List Ev} {st' : State} {cmds' : List Cmd} (h : run (e :: es) = some (st', cmds')) :
    ∃ st cmds c, run es = some (st, cmds) ∧ step st e = some (st', c) ∧ cmds' = c.toList ++ cmds := by
  unfold run at h
  cases hr : run es with
  | none => simp [hr] at h
  | some r =>
    obtain ⟨st, cmds⟩ := r
    simp only [hr] at h
    cases hs : step st e with
    | none => simp [hs] at h
    | some r =>
      obtain ⟨s1, c⟩ := r
      simp only [hs] at h
      cases h
      exact ⟨st, cmds, c, rfl, hs, rfl⟩

theorem run_mine {K : Netaddr → Prop} (hK : ∀ a, Usable a → K a) : ∀ es st cmds, Fine K es → run es = some (st, cmds) → Mine K st := by
  intro es
  induction es with
  | nil => intro st cmds _ h; cases h; exact .inl ⟨rfl, rfl⟩
  | cons e es ih =>
    intro st' cmds' hf h
    obtain ⟨st, cmds, c, h1, h2, _⟩ := run_cons h
    exact step_mine hK (ih st cmds (fun w fuel hm => hf w fuel (List.mem_cons_of_mem _ hm)) h1) (fun w fuel he => hf w fuel (he ▸ List.mem_cons_self)) h2

/-! ### a quiet network -/

theorem update_stays (w : World) (fuel : Nat) (st : State) (hh : Hosts w) (hup : w.up = true ∧ w.loopback = false) (hact : st.active = true) {K}
    (hx : Proper K st.mine) (hv : v4 w = [st.mine]) (hf : Free w st.mine) : update w fuel st = some (st, none) := by
  have hw : ∀ a ∈ w.addrs, a.WF := fun a ha => (hh.1 a ha).1
  have hmem : st.mine ∈ w.addrs := by
    have : st.mine ∈ v4 w := by rw [hv]; exact List.mem_cons_self
    unfold v4 at this
    exact (List.mem_filter.mp this).1
  have h1 : (current st.mine w.addrs).1 = 1 := by rw [current_count w st.mine hx.1 hw, hv]; rfl
  have h2 := current_mine w st.mine hx.1 hw hmem hx.2.2.2.1
  have hc := (hasCollision_iff w st.mine hh hx.1 hx.2.1 hx.2.2.1 hx.2.2.2.1).2 hf
  have hb : begin w st (current st.mine w.addrs) = st.mine := by
    unfold begin
    simp only
    rw [if_pos h1, h2, if_neg (proper_ne hx)]
  have hp : pick w fuel 0 st.mine = .found st.mine := by
    cases fuel <;> (unfold pick; rw [hc]; rfl)
  unfold update
  simp only [hup.1, hup.2, hact, h1, h2, hb, hp, proper_ne hx, conclude, (cmp_zero hx.1 hx.1).2 rfl]
  simp
  rw [← hact]

theorem update_sets (w : World) (fuel : Nat) (st : State) (hh : Hosts w) (hup : w.up = true ∧ w.loopback = false) (hact : st.active = true) {K}
    (hx : Proper K st.mine) (hv : v4 w = []) (hf : Free w st.mine) : update w fuel st = some (commit st st.mine true) := by
  have hw : ∀ a ∈ w.addrs, a.WF := fun a ha => (hh.1 a ha).1
  have h1 : (current st.mine w.addrs).1 = 0 := by rw [current_count w st.mine hx.1 hw, hv]; rfl
  have h2 : (current st.mine w.addrs).2 = unspec := by
    rcases current_addr w st.mine hx.1 hw with h | h
    · exact h.1
    · exfalso
      obtain ⟨r, t, ht, _⟩ := h.2
      have : (current st.mine w.addrs).2 ∈ v4 w := by unfold v4; simp [h.1, ht]
      rw [hv] at this; cases this
  have hc := (hasCollision_iff w st.mine hh hx.1 hx.2.1 hx.2.2.1 hx.2.2.2.1).2 hf
  have hb : begin w st (current st.mine w.addrs) = st.mine := by
    unfold begin
    simp only
    have hn1 : ¬ (current st.mine w.addrs).1 = 1 := by omega
    rw [if_neg hn1, if_neg (proper_ne hx)]
  have hp : pick w fuel 0 st.mine = .found st.mine := by
    cases fuel <;> (unfold pick; rw [hc]; rfl)
  have huw : unspec.WF := rfl
  have hz : ¬ cmp st.mine unspec = 0 := fun h => proper_ne hx (by rw [(cmp_zero hx.1 huw).1 h]; rfl)
  unfold update
  simp only [hup.1, hup.2, hact, h1, h2, hb, hp, conclude, hz, unspec_type]
  simp
  rw [← hact]

theorem proper32 {K} {a : Netaddr} (h : Proper K a) : ({ a with prefixLen := 32 } : Netaddr) = a := by
  obtain ⟨l, t, p⟩ := a
  have : p = 32 := h.2.2.1
  rw [this]

/-- the interface after an address has been set -/
theorem kernel_set {K} (w : World) (b : Netaddr) (hb : Proper K b) (hh : Hosts w) (hv : v4 w = []) :
    kernel w.addrs (some ⟨true, { b with prefixLen := 16 }⟩) = w.addrs ++ [b] ∧ Hosts { w with addrs := w.addrs ++ [b] } ∧ v4 { w with addrs := w.addrs ++ [b] } = [b] := by
  refine ⟨?_, ⟨?_, hh.2⟩, ?_⟩
  · show w.addrs ++ [({ b with prefixLen := 32 } : Netaddr)] = _
    rw [proper32 hb]
  · intro a ha
    rcases List.mem_append.mp ha with ha | ha
    · exact hh.1 a ha
    · simp at ha; subst ha; exact ⟨hb.1, hb.2.1, fun _ => hb.2.2.1⟩
  · unfold v4 at hv ⊢
    simp only [List.filter_append, hv]
    simp [proper_type hb]

/-- the interface after an address has been removed -/
theorem kernel_remove (w : World) (a : Netaddr) (hh : Hosts w) (hv : v4 w = [a]) :
    Hosts { w with addrs := kernel w.addrs (some ⟨false, { a with prefixLen := 16 }⟩) } ∧ v4 { w with addrs := kernel w.addrs (some ⟨false, { a with prefixLen := 16 }⟩) } = [] := by
  refine ⟨⟨fun x hx => hh.1 x (List.mem_filter.mp hx).1, hh.2⟩, ?_⟩
  unfold v4 kernel
  simp only
  apply List.eq_nil_iff_forall_not_mem.mpr
  intro x hx
  obtain ⟨hx, ht⟩ := List.mem_filter.mp hx
  obtain ⟨hx, hn⟩ := List.mem_filter.mp hx
  have : x ∈ v4 w := List.mem_filter.mpr ⟨hx, ht⟩
  rw [hv] at this
  simp at this
  subst this
  simp at ht
  simp [ht] at hn

end Verif.Ll4
