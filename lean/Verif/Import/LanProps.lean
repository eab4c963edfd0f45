import Verif.Import.Lan
/-
C173 (which routes are imported), C174 (the attached networks follow the routes), C175 (metrics grow with age).
-/
namespace Verif.Import
open Verif.Netaddr (Netaddr isInSubnet binaryIsInSubnet AF_INET AF_INET6)
open Verif.Acl (Acl checkAccept Accepted Entries C22_decision)
open Verif.Olsr (LanSet lanAdd lanRemove lanUpdate lanNew)

/-! ### Specification -/

/-- multicast, link-local and loopback destinations of IPv4 and IPv6 -/
def Reserved (a : Netaddr) : Prop :=
  (a.type = AF_INET ∧ ∃ b0 b1 rest, a.addr = b0 :: b1 :: rest ∧ ((224 ≤ b0.toNat ∧ b0.toNat < 240) ∨ (b0 = 169 ∧ b1 = 254) ∨ b0 = 127)) ∨
  (a.type = AF_INET6 ∧ ∃ b0 b1 rest, a.addr = b0 :: b1 :: rest ∧
    (b0 = 255 ∨ (b0 = 254 ∧ 128 ≤ b1.toNat ∧ b1.toNat < 192) ∨ a.addr = List.replicate 15 0 ++ [1]))

/-- a route that may become an attached network: unicast, not reserved, not installed by this router and not over a mesh interface -/
def Importable (w : World) (r : Route) : Prop :=
  r.unicast = true ∧ ¬ Reserved r.key.dst ∧ (∀ d ∈ w.doms, ¬ (d.protocol = r.protocol ∧ d.table = r.table)) ∧ w.mesh r.ifIndex = false

/-- the interface of the route has this name -/
def Over (w : World) (r : Route) (name : Txt) : Prop := r.ifIndex ≠ 0 ∧ w.ifname r.ifIndex = some name

/-- all criteria of the configuration are fulfilled (-1 and the empty name are always fulfilled) -/
def Selected (w : World) (r : Route) (c : Cfg) : Prop :=
  (c.prefixLen = -1 ∨ c.prefixLen = r.key.dst.prefixLen.toNat) ∧ Accepted c.filter r.key.dst ∧ (c.table = -1 ∨ c.table = r.table) ∧
  (c.protocol = -1 ∨ c.protocol = r.protocol) ∧ (c.distance = -1 ∨ c.distance = r.metric) ∧ (c.ifname = [] ∨ Over w r c.ifname)

/-- the section takes notice of the route -/
def Takes (w : World) (r : Route) (c : Cfg) : Prop := Importable w r ∧ Selected w r c

/-- the name of the interface of the route can be found -/
def Named (w : World) (r : Route) : Prop := r.ifIndex ≠ 0 → w.ifname r.ifIndex ≠ none

/-- the section remembers the network -/
def Has (i : Imp) (k : Key) : Prop := ∃ l ∈ i.lans, l.key = k

/-- metric and distance announced for a network in a domain -/
def announced (s : LanSet Key) (k : Key) (d : Fin 4) : Option (Nat × Nat) :=
  match s k with
  | some e => if (e.data d).active then some ((e.data d).metric, (e.data d).dist) else none
  | none => none

/-- the configuration concerns the domain with this index -/
def Concerns (w : World) (c : Cfg) (d : Fin 4) : Prop := ∃ x ∈ w.doms, x.index = d ∧ (c.domain = -1 ∨ c.domain = (x.ext : Int))

instance (w : World) (c : Cfg) (d : Fin 4) : Decidable (Concerns w c d) :=
  inferInstanceAs (Decidable (∃ x ∈ w.doms, x.index = d ∧ (c.domain = -1 ∨ c.domain = (x.ext : Int))))

/-- a distance from 1 to 255, as near as possible to the metric of the route -/
def Distance (metric : Int) (n : Nat) : Prop :=
  (metric < 1 ∧ n = 1) ∨ (1 ≤ metric ∧ metric ≤ 255 ∧ (n : Int) = metric) ∨ (255 < metric ∧ n = 255)

/-! ### Reserved destinations -/

theorem cons_append_inj16 (a : List UInt8) (h : a.length = 16) : ∃ b0 b1 b2 b3 rest, a = b0 :: b1 :: b2 :: b3 :: rest ∧ rest.length = 12 := by
  match a, h with
  | b0 :: b1 :: b2 :: b3 :: rest, h => exact ⟨b0, b1, b2, b3, rest, rfl, by simpa using h⟩

theorem u8_eq (a : UInt8) (n : Nat) (hn : n < 256) : a = UInt8.ofNat n ↔ a.toNat = n := by
  constructor
  · rintro rfl
    simp
    omega
  · intro h
    rw [← h]
    simp

theorem sub_spec (s : Netaddr) (bin : List UInt8) (n b : Nat) (hn : s.prefixLen.toNat / 8 = n) (hb : s.prefixLen.toNat % 8 = b)
    (h1 : n ≤ 16) (h2 : n ≤ bin.length) :
    binaryIsInSubnet s bin = if s.addr.take n ≠ bin.take n then some false
      else if b ≠ 0 then
        match s.addr[n]?, bin[n]? with
        | some x, some y => some (x.toNat >>> (8 - b) == y.toNat >>> (8 - b))
        | _, _ => none
      else some true := by
  unfold binaryIsInSubnet
  simp only [hn, hb]
  rw [if_neg (by omega)]
  rfl

theorem never_split (a : Netaddr) : never a = true ↔
    (isInSubnet ⟨[224, 0, 0, 0] ++ List.replicate 12 0, AF_INET, 4⟩ a = some true ∨ isInSubnet ⟨[169, 254, 0, 0] ++ List.replicate 12 0, AF_INET, 16⟩ a = some true ∨
     isInSubnet ⟨[127, 0, 0, 1] ++ List.replicate 12 0, AF_INET, 8⟩ a = some true ∨ isInSubnet ⟨[0xff] ++ List.replicate 15 0, AF_INET6, 8⟩ a = some true ∨
     isInSubnet ⟨[0xfe, 0x80] ++ List.replicate 14 0, AF_INET6, 10⟩ a = some true ∨ isInSubnet ⟨List.replicate 15 0 ++ [1], AF_INET6, 128⟩ a = some true) := by
  unfold never NEVER
  simp only [List.any_cons, List.any_nil, Bool.or_false, Bool.or_eq_true, beq_iff_eq]

theorem other_family (s a : Netaddr) (h : s.type ≠ a.type) : ¬ isInSubnet s a = some true := by
  unfold isInSubnet
  rw [if_pos h]
  simp

theorem same_family (s a : Netaddr) (h : s.type = a.type) : isInSubnet s a = binaryIsInSubnet s a.addr := by
  unfold isInSubnet
  rw [if_neg (by simp [h])]

theorem ifelse {p : Prop} [Decidable p] : ((if ¬ p then some false else some true) = some true) ↔ p := by
  by_cases h : p <;> simp [h]

theorem never_iff (a : Netaddr) (hw : a.WF) : never a = true ↔ Reserved a := by
  obtain ⟨b0, b1, b2, b3, rest, ha, hr⟩ := cons_append_inj16 a.addr hw
  have h224 : (14 = b0.toNat >>> 4) ↔ (224 ≤ b0.toNat ∧ b0.toNat < 240) := by
    rw [Nat.shiftRight_eq_div_pow]
    omega
  have h128 : (2 = b1.toNat >>> 6) ↔ (128 ≤ b1.toNat ∧ b1.toNat < 192) := by
    rw [Nat.shiftRight_eq_div_pow]
    omega
  rw [never_split]
  by_cases h4 : a.type = AF_INET
  · have ne : AF_INET6 ≠ a.type := by rw [h4]; decide
    rw [same_family _ a h4.symm, same_family _ a h4.symm, same_family _ a h4.symm, ha,
      sub_spec _ _ 0 4 rfl rfl (by omega) (by omega), sub_spec _ _ 2 0 rfl rfl (by omega) (by simp), sub_spec _ _ 1 0 rfl rfl (by omega) (by simp)]
    have e1 := other_family ⟨[0xff] ++ List.replicate 15 0, AF_INET6, 8⟩ a ne
    have e2 := other_family ⟨[0xfe, 0x80] ++ List.replicate 14 0, AF_INET6, 10⟩ a ne
    have e3 := other_family ⟨List.replicate 15 0 ++ [1], AF_INET6, 128⟩ a ne
    have c1 : (if List.take 0 ([224, 0, 0, 0] ++ List.replicate 12 (0 : UInt8)) ≠ List.take 0 (b0 :: b1 :: b2 :: b3 :: rest) then some false
        else if (4 : Nat) ≠ 0 then
          match ([224, 0, 0, 0] ++ List.replicate 12 (0 : UInt8))[0]?, (b0 :: b1 :: b2 :: b3 :: rest)[0]? with
          | some x, some y => some (x.toNat >>> (8 - 4) == y.toNat >>> (8 - 4))
          | _, _ => none
        else some true) = some (14 == b0.toNat >>> 4) := rfl
    rw [c1]
    simp only [ne_eq, not_true_eq_false, if_false, ifelse, Option.some.injEq, beq_iff_eq, h224]
    unfold Reserved
    constructor
    · rintro (h | h | h | h | h | h)
      · exact .inl ⟨h4, b0, b1, b2 :: b3 :: rest, ha, .inl h⟩
      · simp at h
        exact .inl ⟨h4, b0, b1, b2 :: b3 :: rest, ha, .inr (.inl ⟨h.1.symm, h.2.symm⟩)⟩
      · simp at h
        exact .inl ⟨h4, b0, b1, b2 :: b3 :: rest, ha, .inr (.inr h.symm)⟩
      · exact absurd h e1
      · exact absurd h e2
      · exact absurd h e3
    · rintro (⟨_, c0, c1, r, hc, h⟩ | ⟨h6, _⟩)
      · rw [ha] at hc
        injection hc with q1 hc
        injection hc with q2 _
        subst q1 q2
        rcases h with h | h | h
        · exact .inl h
        · right; left; simp [h.1, h.2]
        · right; right; left; simp [h]
      · exact absurd h6.symm ne
  · have e1 := other_family ⟨[224, 0, 0, 0] ++ List.replicate 12 0, AF_INET, 4⟩ a (fun h => h4 h.symm)
    have e2 := other_family ⟨[169, 254, 0, 0] ++ List.replicate 12 0, AF_INET, 16⟩ a (fun h => h4 h.symm)
    have e3 := other_family ⟨[127, 0, 0, 1] ++ List.replicate 12 0, AF_INET, 8⟩ a (fun h => h4 h.symm)
    by_cases h6 : a.type = AF_INET6
    · rw [same_family ⟨[0xff] ++ List.replicate 15 0, AF_INET6, 8⟩ a h6.symm, same_family ⟨[0xfe, 0x80] ++ List.replicate 14 0, AF_INET6, 10⟩ a h6.symm, same_family ⟨List.replicate 15 0 ++ [1], AF_INET6, 128⟩ a h6.symm,
        sub_spec ⟨List.replicate 15 0 ++ [1], AF_INET6, 128⟩ _ 16 0 rfl rfl (by omega) (by unfold Netaddr.WF at hw; omega), ha,
        sub_spec ⟨[0xff] ++ List.replicate 15 0, AF_INET6, 8⟩ _ 1 0 rfl rfl (by omega) (by simp), sub_spec ⟨[0xfe, 0x80] ++ List.replicate 14 0, AF_INET6, 10⟩ _ 1 2 rfl rfl (by omega) (by simp)]
      have c1 : (if List.take 1 ([0xfe, 0x80] ++ List.replicate 14 (0 : UInt8)) ≠ List.take 1 (b0 :: b1 :: b2 :: b3 :: rest) then some false
          else if (2 : Nat) ≠ 0 then
            match ([0xfe, 0x80] ++ List.replicate 14 (0 : UInt8))[1]?, (b0 :: b1 :: b2 :: b3 :: rest)[1]? with
            | some x, some y => some (x.toNat >>> (8 - 2) == y.toNat >>> (8 - 2))
            | _, _ => none
          else some true) = if ¬ ((254 : UInt8) = b0) then some false else some (2 == b1.toNat >>> 6) := by
        by_cases hb : (254 : UInt8) = b0
        · subst hb; rfl
        · rw [if_pos hb, if_pos]
          intro h
          simp at h
          exact hb h
      rw [c1]
      have c2 : ((if ¬ ((254 : UInt8) = b0) then some false else some (2 == b1.toNat >>> 6)) = some true) ↔ b0 = 254 ∧ 128 ≤ b1.toNat ∧ b1.toNat < 192 := by
        rw [← h128]
        by_cases hb : (254 : UInt8) = b0
        · rw [if_neg (by simp [hb])]
          simp [hb]
        · rw [if_pos hb]
          simp
          intro h
          exact absurd h.symm hb
      rw [c2]
      simp only [ne_eq, not_true_eq_false, if_false, ifelse]
      have t16 : List.take 16 (List.replicate 15 (0 : UInt8) ++ [1]) = List.replicate 15 0 ++ [1] := rfl
      have ta : List.take 16 (b0 :: b1 :: b2 :: b3 :: rest) = b0 :: b1 :: b2 :: b3 :: rest := List.take_of_length_le (by simp [hr])
      rw [t16, ta]
      unfold Reserved
      constructor
      · rintro (h | h | h | h | h | h)
        · exact absurd h e1
        · exact absurd h e2
        · exact absurd h e3
        · simp at h
          exact .inr ⟨h6, b0, b1, b2 :: b3 :: rest, ha, .inl h.symm⟩
        · exact .inr ⟨h6, b0, b1, b2 :: b3 :: rest, ha, .inr (.inl h)⟩
        · exact .inr ⟨h6, b0, b1, b2 :: b3 :: rest, ha, .inr (.inr (by rw [ha, h]))⟩
      · rintro (⟨h, _⟩ | ⟨_, c0, c1, r, hc, h⟩)
        · exact absurd h h4
        · have hc' := hc
          rw [ha] at hc
          injection hc with q1 hc
          injection hc with q2 _
          subst q1 q2
          rcases h with h | h | h
          · right; right; right; left; simp [h]
          · exact .inr (.inr (.inr (.inr (.inl h))))
          · exact .inr (.inr (.inr (.inr (.inr (by rw [← ha, h])))))
    · have f1 := other_family ⟨[0xff] ++ List.replicate 15 0, AF_INET6, 8⟩ a (fun h => h6 h.symm)
      have f2 := other_family ⟨[0xfe, 0x80] ++ List.replicate 14 0, AF_INET6, 10⟩ a (fun h => h6 h.symm)
      have f3 := other_family ⟨List.replicate 15 0 ++ [1], AF_INET6, 128⟩ a (fun h => h6 h.symm)
      unfold Reserved
      constructor
      · rintro (h | h | h | h | h | h) <;> contradiction
      · rintro (⟨h, _⟩ | ⟨h, _⟩) <;> contradiction

/-! ### Selection -/

theorem allowed_iff (w : World) (r : Route) :
    allowed w r = true ↔ (∀ d ∈ w.doms, ¬ (d.protocol = r.protocol ∧ d.table = r.table)) ∧ w.mesh r.ifIndex = false := by
  unfold allowed
  by_cases h : (w.doms.any (fun d => d.protocol == r.protocol && d.table == r.table)) = true
  · rw [if_pos h]
    simp only [Bool.false_eq_true, false_iff]
    intro hn
    obtain ⟨d, hd, he⟩ := List.any_eq_true.1 h
    simp at he
    exact hn.1 d hd he
  · rw [if_neg h]
    have h' : ∀ d ∈ w.doms, ¬ (d.protocol = r.protocol ∧ d.table = r.table) := by
      intro d hd he
      exact h (List.any_eq_true.2 ⟨d, hd, by simp [he.1, he.2]⟩)
    cases hm : w.mesh r.ifIndex
    · simp
      intro d hd h1 h2
      exact h' d hd ⟨h1, h2⟩
    · simp

theorem selects_iff (w : World) (r : Route) (c : Cfg) (he : Entries c.filter) (hw : r.key.dst.WF) (hn : Named w r) :
    selects w r c = true ↔ Selected w r c := by
  obtain ⟨b, hb, hb'⟩ := C22_decision c.filter r.key.dst he hw
  have hacl : checkAccept c.filter r.key.dst ≠ some true ↔ ¬ Accepted c.filter r.key.dst := by
    rw [hb, ← hb']
    simp
  have hif : (c.ifname ≠ [] ∧ (r.ifIndex = 0 ∨ c.ifname ≠ nameOf w r)) ↔ ¬ (c.ifname = [] ∨ Over w r c.ifname) := by
    unfold Over nameOf
    by_cases hi : r.ifIndex = 0
    · simp [hi]
    · have := hn hi
      cases hx : w.ifname r.ifIndex with
      | none => exact absurd hx this
      | some nm =>
        simp [hi]
        intro _
        constructor
        · intro h h'; exact h h'.symm
        · intro h h'; exact h h'.symm
  unfold selects Selected
  by_cases h1 : c.prefixLen = -1 ∨ c.prefixLen = r.key.dst.prefixLen.toNat
  · rw [if_neg (by omega)]
    by_cases h2 : Accepted c.filter r.key.dst
    · rw [if_neg (by rw [hacl]; simpa using h2)]
      by_cases h3 : c.table = -1 ∨ c.table = r.table
      · rw [if_neg (by omega)]
        by_cases h4 : c.protocol = -1 ∨ c.protocol = r.protocol
        · rw [if_neg (by omega)]
          by_cases h5 : c.distance = -1 ∨ c.distance = r.metric
          · rw [if_neg (by omega)]
            by_cases h6 : c.ifname = [] ∨ Over w r c.ifname
            · rw [if_neg (fun h => (hif.1 h) h6)]
              simp only [true_iff]
              exact ⟨h1, h2, h3, h4, h5, h6⟩
            · rw [if_pos (hif.2 h6)]
              simp only [Bool.false_eq_true, false_iff]
              exact fun h => h6 h.2.2.2.2.2
          · rw [if_pos (by omega)]
            simp only [Bool.false_eq_true, false_iff]
            exact fun h => h5 h.2.2.2.2.1
        · rw [if_pos (by omega)]
          simp only [Bool.false_eq_true, false_iff]
          exact fun h => h4 h.2.2.2.1
      · rw [if_pos (by omega)]
        simp only [Bool.false_eq_true, false_iff]
        exact fun h => h3 h.2.2.1
    · rw [if_pos (hacl.2 h2)]
      simp only [Bool.false_eq_true, false_iff]
      exact fun h => h2 h.2.1
  · rw [if_pos (by omega)]
    simp only [Bool.false_eq_true, false_iff]
    exact fun h => h1 h.1

theorem clamp_spec (m : Int) : Distance m (clamp m) := by
  unfold Distance clamp
  split
  · exact .inl ⟨by assumption, rfl⟩
  · split
    · exact .inr (.inr ⟨by omega, rfl⟩)
    · exact .inr (.inl ⟨by omega, by omega, by omega⟩)

/-! ### The set of attached networks -/

theorem put_self (e : Olsr.Lan) (d : Fin 4) (x : Olsr.LanData) (i : Fin 4) : e.put d x i = if i = d then x else e.data i := rfl

theorem set_put (s : LanSet Key) (k j : Key) (e : Option Olsr.Lan) : (s.put k e) j = if j = k then e else s j := rfl

theorem ann_add (s : LanSet Key) (dom : Fin 4) (k : Key) (m n : Nat) (j : Key) (d : Fin 4) :
    announced (lanAdd s dom k m n true) j d = if j = k ∧ d = dom then some (m, n) else announced s j d := by
  unfold announced lanAdd
  cases hk : s k with
  | some e =>
    simp only [set_put]
    by_cases hj : j = k
    · subst hj
      simp only [if_true, true_and, hk]
      unfold lanUpdate
      simp only [put_self]
      by_cases hd : d = dom
      · simp [hd]
      · simp [hd]
    · simp only [hj, false_and, if_false]
  | none =>
    simp only [if_true, set_put]
    by_cases hj : j = k
    · subst hj
      simp only [if_true, true_and, hk]
      unfold lanUpdate
      simp only [put_self]
      by_cases hd : d = dom
      · simp [hd]
      · simp [hd, lanNew]
    · simp only [hj, false_and, if_false]

theorem any_data (f : Fin 4 → Olsr.LanData) : (Olsr.dataList f).any (·.active) = false → ∀ i, (f i).active = false := by
  intro h i
  unfold Olsr.dataList at h
  simp at h
  match i with
  | 0 => exact h.1
  | 1 => exact h.2.1
  | 2 => exact h.2.2.1
  | 3 => exact h.2.2.2

theorem ann_remove (s : LanSet Key) (dom : Fin 4) (k : Key) (j : Key) (d : Fin 4) :
    announced (lanRemove s dom k) j d = if j = k ∧ d = dom then none else announced s j d := by
  unfold announced lanRemove
  cases hk : s k with
  | none =>
    by_cases hj : j = k
    · subst hj
      simp [hk]
    · simp [hj]
  | some e =>
    simp only
    cases ha : (Olsr.dataList (e.put dom { e.data dom with active := false })).any (·.active) with
    | true =>
      simp only [if_true, set_put]
      by_cases hj : j = k
      · subst hj
        simp only [if_true, true_and, hk, put_self]
        by_cases hd : d = dom
        · simp [hd]
        · simp [hd]
      · simp [hj]
    | false =>
      simp only [Bool.false_eq_true, if_false, set_put]
      by_cases hj : j = k
      · subst hj
        simp only [if_true, true_and, hk]
        have := any_data _ ha d
        rw [put_self] at this
        by_cases hd : d = dom
        · simp [hd]
        · rw [if_neg hd] at this
          simp [hd, this]
      · simp [hj]

theorem ann_addAll (ds : List Dom) (k : Key) (m n : Nat) : ∀ (s : LanSet Key) (j : Key) (d : Fin 4),
    announced (ds.foldl (fun s x => lanAdd s x.index k m n true) s) j d =
      if j = k ∧ (∃ x ∈ ds, x.index = d) then some (m, n) else announced s j d := by
  induction ds with
  | nil => intro s j d; simp
  | cons x xs ih =>
    intro s j d
    rw [List.foldl_cons, ih, ann_add]
    by_cases hj : j = k
    · by_cases hx : ∃ y ∈ xs, y.index = d
      · simp [hj, hx]
      · by_cases hd : d = x.index
        · have : ∃ y ∈ x :: xs, y.index = d := ⟨x, by simp, hd.symm⟩
          rw [if_neg (fun h => hx h.2), if_pos ⟨hj, hd⟩, if_pos ⟨hj, this⟩]
        · have : ¬ ∃ y ∈ x :: xs, y.index = d := by
            rintro ⟨y, h1, h2⟩
            rcases List.mem_cons.1 h1 with rfl | h1
            · exact hd h2.symm
            · exact hx ⟨y, h1, h2⟩
          rw [if_neg (fun h => hx h.2), if_neg (fun h => hd h.2), if_neg (fun h => this h.2)]
    · simp [hj]

theorem ann_removeAll (ds : List Dom) (k : Key) : ∀ (s : LanSet Key) (j : Key) (d : Fin 4),
    announced (ds.foldl (fun s x => lanRemove s x.index k) s) j d =
      if j = k ∧ (∃ x ∈ ds, x.index = d) then none else announced s j d := by
  induction ds with
  | nil => intro s j d; simp
  | cons x xs ih =>
    intro s j d
    rw [List.foldl_cons, ih, ann_remove]
    by_cases hj : j = k
    · by_cases hx : ∃ y ∈ xs, y.index = d
      · simp [hj, hx]
      · by_cases hd : d = x.index
        · have : ∃ y ∈ x :: xs, y.index = d := ⟨x, by simp, hd.symm⟩
          rw [if_neg (fun h => hx h.2), if_pos ⟨hj, hd⟩, if_pos ⟨hj, this⟩]
        · have : ¬ ∃ y ∈ x :: xs, y.index = d := by
            rintro ⟨y, h1, h2⟩
            rcases List.mem_cons.1 h1 with rfl | h1
            · exact hd h2.symm
            · exact hx ⟨y, h1, h2⟩
          rw [if_neg (fun h => hx h.2), if_neg (fun h => hd h.2), if_neg (fun h => this h.2)]
    · simp [hj]

theorem concerns_iff (w : World) (c : Cfg) (d : Fin 4) : (∃ x ∈ domsOf w c, x.index = d) ↔ Concerns w c d := by
  unfold Concerns domsOf
  constructor
  · rintro ⟨x, hx, hd⟩
    rw [List.mem_filter] at hx
    refine ⟨x, hx.1, hd, ?_⟩
    have := hx.2
    unfold inDomain at this
    simpa using this
  · rintro ⟨x, hx, hd, hc⟩
    refine ⟨x, List.mem_filter.2 ⟨hx, ?_⟩, hd⟩
    unfold inDomain
    simpa using hc

/-! ### One section -/

theorem hasLan_iff (i : Imp) (k : Key) : hasLan i k = true ↔ Has i k := by
  unfold hasLan Has
  rw [List.any_eq_true]
  simp

theorem has_start (i : Imp) (k j : Key) : Has (startTimer i k) j ↔ Has i j := by
  unfold startTimer
  split
  · unfold Has
    constructor
    · rintro ⟨l, hl, hk⟩
      obtain ⟨x, hx, rfl⟩ := List.mem_map.1 hl
      refine ⟨x, hx, ?_⟩
      rw [← hk]
      split <;> rfl
    · rintro ⟨l, hl, hk⟩
      refine ⟨_, List.mem_map.2 ⟨l, hl, rfl⟩, ?_⟩
      rw [← hk]
      split <;> rfl
  · exact Iff.rfl

theorem start_cfg (i : Imp) (k : Key) : (startTimer i k).cfg = i.cfg := by
  unfold startTimer
  split <;> rfl

theorem add_has (w : World) (r : Route) (i : Imp) (s : LanSet Key) (k : Key) :
    Has (addLan w r i s).1 k ↔ Has i k ∨ (k = r.key ∧ w.mem = true) := by
  unfold addLan
  by_cases h : hasLan i r.key = true
  · rw [if_pos h]
    simp only [has_start]
    constructor
    · exact .inl
    · rintro (h' | ⟨rfl, _⟩)
      · exact h'
      · exact (hasLan_iff _ _).1 h
  · rw [if_neg h]
    by_cases hm : w.mem = true
    · rw [if_pos hm]
      simp only [has_start, hm, and_true]
      unfold Has
      simp only [List.mem_append, List.mem_singleton]
      constructor
      · rintro ⟨l, hl | rfl, hk⟩
        · exact .inl ⟨l, hl, hk⟩
        · exact .inr hk.symm
      · rintro (⟨l, hl, hk⟩ | rfl)
        · exact ⟨l, .inl hl, hk⟩
        · exact ⟨_, .inr rfl, rfl⟩
    · rw [if_neg hm]
      simp [hm]

theorem add_cfg (w : World) (r : Route) (i : Imp) (s : LanSet Key) : (addLan w r i s).1.cfg = i.cfg := by
  unfold addLan
  split
  · exact start_cfg _ _
  · split
    · exact start_cfg _ _
    · rfl

theorem add_ann (w : World) (r : Route) (i : Imp) (s : LanSet Key) (j : Key) (d : Fin 4) :
    announced (addLan w r i s).2 j d =
      if j = r.key ∧ Concerns w i.cfg d ∧ hasLan i r.key = false ∧ w.mem = true then some (i.cfg.metric, clamp r.metric) else announced s j d := by
  unfold addLan
  by_cases h : hasLan i r.key = true
  · rw [if_pos h, if_neg (by simp [h])]
  · rw [if_neg h]
    by_cases hm : w.mem = true
    · rw [if_pos hm]
      simp only [hm, ann_addAll, concerns_iff]
      simp [Bool.not_eq_true _ ▸ h]
    · rw [if_neg hm, if_neg (by simp [hm])]

theorem destroy_has (w : World) (r : Route) (i : Imp) (s : LanSet Key) (k : Key) :
    Has (destroyLan w r i s).1 k ↔ Has i k ∧ k ≠ r.key := by
  unfold destroyLan
  by_cases h : hasLan i r.key = true
  · rw [if_pos h]
    unfold Has
    simp only [List.mem_filter]
    constructor
    · rintro ⟨l, ⟨h1, h2⟩, rfl⟩
      exact ⟨⟨l, h1, rfl⟩, by simpa using h2⟩
    · rintro ⟨⟨l, h1, rfl⟩, h2⟩
      exact ⟨l, ⟨h1, by simpa using h2⟩, rfl⟩
  · rw [if_neg h]
    simp only
    constructor
    · intro hk
      refine ⟨hk, ?_⟩
      rintro rfl
      exact h ((hasLan_iff _ _).2 hk)
    · exact And.left

theorem destroy_cfg (w : World) (r : Route) (i : Imp) (s : LanSet Key) : (destroyLan w r i s).1.cfg = i.cfg := by
  unfold destroyLan
  split <;> rfl

theorem destroy_ann (w : World) (r : Route) (i : Imp) (s : LanSet Key) (j : Key) (d : Fin 4) :
    announced (destroyLan w r i s).2.1 j d =
      if j = r.key ∧ Concerns w i.cfg d ∧ hasLan i r.key = true then none else announced s j d := by
  unfold destroyLan
  by_cases h : hasLan i r.key = true
  · rw [if_pos h]
    simp only [ann_removeAll, concerns_iff, h, and_true]
  · rw [if_neg h, if_neg (by simp [h])]

theorem one_keeps (w : World) (r : Route) (set : Bool) (e : Sec Imp) (s : LanSet Key) :
    (oneImport w r set e s).1.name = e.name ∧ (oneImport w r set e s).1.val.cfg = e.val.cfg := by
  unfold oneImport
  split
  · split
    · exact ⟨rfl, add_cfg _ _ _ _⟩
    · exact ⟨rfl, destroy_cfg _ _ _ _⟩
  · exact ⟨rfl, rfl⟩

/-- what the section remembers does not depend on the attached networks -/
theorem one_has (w : World) (r : Route) (set : Bool) (e : Sec Imp) (s : LanSet Key) (k : Key) :
    Has (oneImport w r set e s).1.val k ↔
      if selects w r e.val.cfg = true ∧ k = r.key then (if set then Has e.val k ∨ w.mem = true else False) else Has e.val k := by
  unfold oneImport
  by_cases h : selects w r e.val.cfg = true
  · by_cases hk : k = r.key
    · cases set with
      | true => simp [h, hk, add_has]
      | false => simp [h, hk, destroy_has]
    · cases set with
      | true => simp [h, hk, add_has]
      | false => simp [h, hk, destroy_has]
  · simp [h]

theorem all_get (w : World) (r : Route) (set : Bool) : ∀ (l : List (Sec Imp)) (s : LanSet Key) (n : Nat) (e : Sec Imp), l[n]? = some e →
    ∃ s', (allImports w r set l s).1[n]? = some (oneImport w r set e s').1 := by
  intro l
  induction l with
  | nil => intro s n e h; simp at h
  | cons x xs ih =>
    intro s n e h
    cases n with
    | zero =>
      simp at h
      subst h
      exact ⟨s, rfl⟩
    | succ n =>
      simp at h
      obtain ⟨s', h'⟩ := ih (oneImport w r set x s).2.1 n e h
      exact ⟨s', by simpa [allImports] using h'⟩

theorem all_length (w : World) (r : Route) (set : Bool) : ∀ (l : List (Sec Imp)) (s : LanSet Key), (allImports w r set l s).1.length = l.length := by
  intro l
  induction l with
  | nil => intro s; rfl
  | cons x xs ih => intro s; simp [allImports, ih]

theorem importable_cases (w : World) (r : Route) (set : Bool) (st : State) (hw : r.key.dst.WF) :
    (¬ Importable w r ∧ routeEvent w r set st = st) ∨
    (Importable w r ∧ routeEvent w r set st = ⟨(allImports w r set st.imports st.lan).1, (allImports w r set st.imports st.lan).2.1,
      st.orphans + (allImports w r set st.imports st.lan).2.2⟩) := by
  unfold routeEvent Importable
  by_cases h1 : never r.key.dst = true
  · rw [if_pos h1]
    exact .inl ⟨fun h => h.2.1 ((never_iff _ hw).1 h1), rfl⟩
  · rw [if_neg h1]
    cases h2 : r.unicast with
    | false => exact .inl ⟨fun h => by simp at h, rfl⟩
    | true =>
      by_cases h3 : allowed w r = true
      · have := (allowed_iff w r).1 h3
        refine .inr ⟨⟨rfl, fun h => h1 ((never_iff _ hw).2 h), this⟩, ?_⟩
        simp [h3]
      · refine .inl ⟨fun h => h3 ((allowed_iff w r).2 h.2.2), ?_⟩
        simp [h3]

/-! ### C173 -/

/-- the configuration of a section is usable: prefixes of at most 128 bits -/
def Usable (c : Cfg) : Prop := Entries c.filter

/-- **C173** (if the name of the interface is known): a new route is remembered by a section exactly if it is importable and
fulfils all criteria of the section, a removed route is forgotten under the same conditions, and nothing else changes. -/
theorem C173_selection_partial (w : World) (r : Route) (set : Bool) (st : State) (hw : r.key.dst.WF) (hn : Named w r) :
    ∃ st', step st (.route w r set) = some st' ∧ st'.imports.length = st.imports.length ∧
      ∀ (n : Nat) (e : Sec Imp), st.imports[n]? = some e → Usable e.val.cfg →
        ∃ e', st'.imports[n]? = some e' ∧ e'.name = e.name ∧ e'.val.cfg = e.val.cfg ∧
          (∀ k, k ≠ r.key → (Has e'.val k ↔ Has e.val k)) ∧
          (set = true → w.mem = true → (Has e'.val r.key ↔ Has e.val r.key ∨ Takes w r e.val.cfg)) ∧
          (set = false → (Has e'.val r.key ↔ Has e.val r.key ∧ ¬ Takes w r e.val.cfg)) := by
  refine ⟨_, rfl, ?_, ?_⟩
  · rcases importable_cases w r set st hw with ⟨_, h⟩ | ⟨_, h⟩
    · rw [h]
    · rw [h]
      exact all_length _ _ _ _ _
  · intro n e he hu
    rcases importable_cases w r set st hw with ⟨hi, h⟩ | ⟨hi, h⟩
    · rw [h]
      refine ⟨e, he, rfl, rfl, fun _ _ => Iff.rfl, fun _ _ => ?_, fun _ => ?_⟩
      · exact ⟨.inl, fun hh => hh.elim id (fun ht => absurd ht.1 hi)⟩
      · exact ⟨fun hh => ⟨hh, fun ht => hi ht.1⟩, And.left⟩
    · rw [h]
      obtain ⟨s', hs⟩ := all_get w r set st.imports st.lan n e he
      have hsel := selects_iff w r e.val.cfg hu hw hn
      refine ⟨_, hs, (one_keeps _ _ _ _ _).1, (one_keeps _ _ _ _ _).2, fun k hk => ?_, fun hset hm => ?_, fun hset => ?_⟩
      · rw [one_has, if_neg (fun hh => hk hh.2)]
      · rw [one_has]
        unfold Takes
        by_cases hx : selects w r e.val.cfg = true
        · rw [if_pos ⟨hx, rfl⟩]
          simp [hset, hm, hi, hsel.1 hx]
        · rw [if_neg (fun hh => hx hh.1)]
          exact ⟨.inl, fun hh => hh.elim id (fun ht => absurd (hsel.2 ht.2) hx)⟩
      · rw [one_has]
        unfold Takes
        by_cases hx : selects w r e.val.cfg = true
        · rw [if_pos ⟨hx, rfl⟩]
          simp [hset, hi, hsel.1 hx]
        · rw [if_neg (fun hh => hx hh.1)]
          exact ⟨fun hh => ⟨hh, fun ht => hx (hsel.2 ht.2)⟩, And.left⟩

/-! Examples: a section for routes over `eth0` in table 254. -/

/-- 10.1.0.0/16 -/
def exNet : Netaddr := ⟨[10, 1, 0, 0] ++ List.replicate 12 0, AF_INET, 16⟩
def exKey : Key := ⟨exNet, ⟨List.replicate 16 0, AF_INET, 0⟩⟩
def exWorld : World := { doms := [⟨0, 0, 100, 254⟩], ifname := fun n => if n = 3 then some [101, 116, 104, 48] else none }
def exCfg : Cfg := { ifname := [101, 116, 104, 48], table := 254, metric := 7 }
def exRoute : Route := { key := exKey, ifIndex := 3, metric := 10 }
def exState : State := ⟨[⟨[97], { cfg := exCfg }⟩], fun _ => none, 0⟩

example : exNet.WF ∧ Named exWorld exRoute ∧ Usable exCfg ∧ Takes exWorld exRoute exCfg := by
  have hw : exRoute.key.dst.WF := by decide
  have hn : Named exWorld exRoute := by intro _; decide
  have hu : Usable exCfg := by
    intro e he
    rcases he with he | he <;> cases he
  refine ⟨hw, hn, hu, ?_, (selects_iff exWorld exRoute exCfg hu hw hn).1 (by decide +kernel)⟩
  refine ⟨rfl, fun h => ?_, by decide, rfl⟩
  exact absurd ((never_iff _ hw).2 h) (by decide +kernel)

example : ((step exState (.route exWorld exRoute true)).map fun st => (st.imports.map (·.val.lans), announced st.lan exKey 0)) =
    some ([[⟨exKey, false⟩]], some (7, 10)) := by decide +kernel

/-- **C173** does not hold for an interface without a name (it vanished before the event is processed): the result depends
on the content of an uninitialised array.  Here the removal of a route is not noticed, the network stays. -/
theorem C173_vanished_counterexample :
    let gone : World := { exWorld with ifname := fun _ => none }
    let lucky : World := { exWorld with ifname := fun _ => none, junk := [101, 116, 104, 48] }
    ((run exState [.route exWorld exRoute true, .route gone exRoute false]).map fun st => announced st.lan exKey 0) = some (some (7, 10)) ∧
    ((run exState [.route exWorld exRoute true, .route lucky exRoute false]).map fun st => announced st.lan exKey 0) = some none := by
  decide +kernel

/-- **C173** and the help texts ("0 for matching all tables", "0 for all protocols", "0 for all metrics", lan_import.c:156-161):
zero is compared like any other number. -/
theorem C173_zero_counterexample (w : World) (r : Route) (c : Cfg) (h : (c.table = 0 ∧ r.table ≠ 0) ∨ (c.protocol = 0 ∧ r.protocol ≠ 0) ∨ (c.distance = 0 ∧ r.metric ≠ 0)) :
    selects w r c = false ∧ ¬ Takes w r c := by
  constructor
  · unfold selects
    repeat' split
    all_goals first
      | rfl
      | omega
  · rintro ⟨_, _, _, h1, h2, h3, _⟩
    omega

example : Takes exWorld exRoute { exCfg with table := -1 } ∧ ¬ Takes exWorld exRoute { exCfg with table := 0 } := by
  have hw : exRoute.key.dst.WF := by decide
  have hn : Named exWorld exRoute := by intro _; decide
  have hu : Usable { exCfg with table := -1 } := by
    intro e he
    rcases he with he | he <;> cases he
  refine ⟨⟨⟨rfl, fun h => ?_, by decide, rfl⟩, (selects_iff exWorld exRoute _ hu hw hn).1 (by decide +kernel)⟩, ?_⟩
  · exact absurd ((never_iff _ hw).2 h) (by decide +kernel)
  · exact (C173_zero_counterexample exWorld exRoute { exCfg with table := 0 } (.inl ⟨rfl, by decide⟩)).2

/-! ### C174 -/

/-- the section starts to import the route for the domain -/
def Starts (w : World) (r : Route) (d : Fin 4) (e : Sec Imp) : Prop := Takes w r e.val.cfg ∧ ¬ Has e.val r.key ∧ Concerns w e.val.cfg d

/-- the section stops to import the route for the domain -/
def Stops (w : World) (r : Route) (d : Fin 4) (e : Sec Imp) : Prop := Takes w r e.val.cfg ∧ Has e.val r.key ∧ Concerns w e.val.cfg d

theorem one_set_ann (w : World) (r : Route) (e : Sec Imp) (s : LanSet Key) (hm : w.mem = true) (j : Key) (d : Fin 4) :
    announced (oneImport w r true e s).2.1 j d =
      if j = r.key ∧ selects w r e.val.cfg = true ∧ hasLan e.val r.key = false ∧ Concerns w e.val.cfg d then some (e.val.cfg.metric, clamp r.metric)
      else announced s j d := by
  unfold oneImport
  by_cases h : selects w r e.val.cfg = true
  · simp only [h, if_true, add_ann, hm, and_true, true_and]
    by_cases h1 : j = r.key <;> by_cases h2 : hasLan e.val r.key = false <;> by_cases h3 : Concerns w e.val.cfg d <;> simp [h1, h2, h3]
  · simp [h]

theorem one_del_ann (w : World) (r : Route) (e : Sec Imp) (s : LanSet Key) (j : Key) (d : Fin 4) :
    announced (oneImport w r false e s).2.1 j d =
      if j = r.key ∧ selects w r e.val.cfg = true ∧ hasLan e.val r.key = true ∧ Concerns w e.val.cfg d then none else announced s j d := by
  unfold oneImport
  by_cases h : selects w r e.val.cfg = true
  · simp only [h, if_true, Bool.false_eq_true, if_false, destroy_ann, true_and]
    by_cases h1 : j = r.key <;> by_cases h2 : hasLan e.val r.key = true <;> by_cases h3 : Concerns w e.val.cfg d <;> simp [h1, h2, h3]
  · simp [h]

theorem all_set_ann (w : World) (r : Route) (hm : w.mem = true) (hi : Importable w r) (hw : r.key.dst.WF) (hn : Named w r) (d : Fin 4) :
    ∀ (l : List (Sec Imp)) (s : LanSet Key), (∀ e ∈ l, Usable e.val.cfg) →
      (∀ j, j ≠ r.key → announced (allImports w r true l s).2.1 j d = announced s j d) ∧
      (((∀ e ∈ l, ¬ Starts w r d e) ∧ announced (allImports w r true l s).2.1 r.key d = announced s r.key d) ∨
       ∃ e ∈ l, Starts w r d e ∧ announced (allImports w r true l s).2.1 r.key d = some (e.val.cfg.metric, clamp r.metric)) := by
  intro l
  induction l with
  | nil => intro s _; exact ⟨fun _ _ => rfl, .inl ⟨by simp, rfl⟩⟩
  | cons x xs ih =>
    intro s hu
    obtain ⟨h1, h2⟩ := ih (oneImport w r true x s).2.1 (fun e he => hu e (by simp [he]))
    have hsel := selects_iff w r x.val.cfg (hu x (by simp)) hw hn
    refine ⟨fun j hj => ?_, ?_⟩
    · show announced (allImports w r true xs (oneImport w r true x s).2.1).2.1 j d = _
      rw [h1 j hj, one_set_ann w r x s hm, if_neg (fun h => hj h.1)]
    · show ((∀ e ∈ x :: xs, ¬ Starts w r d e) ∧ announced (allImports w r true xs (oneImport w r true x s).2.1).2.1 r.key d = _) ∨
        ∃ e ∈ x :: xs, Starts w r d e ∧ announced (allImports w r true xs (oneImport w r true x s).2.1).2.1 r.key d = _
      rcases h2 with ⟨h2, h3⟩ | ⟨e, h2, h3, h4⟩
      · rw [h3, one_set_ann w r x s hm]
        by_cases hs : selects w r x.val.cfg = true ∧ hasLan x.val r.key = false ∧ Concerns w x.val.cfg d
        · right
          refine ⟨x, by simp, ⟨⟨hi, hsel.1 hs.1⟩, ?_, hs.2.2⟩, by rw [if_pos ⟨rfl, hs⟩]⟩
          rw [← hasLan_iff]
          simp [hs.2.1]
        · left
          refine ⟨?_, by rw [if_neg (fun h => hs h.2)]⟩
          intro e he
          rcases List.mem_cons.1 he with rfl | he
          · rintro ⟨⟨_, q1⟩, q2, q3⟩
            refine hs ⟨hsel.2 q1, ?_, q3⟩
            rw [← hasLan_iff] at q2
            simpa using q2
          · exact h2 e he
      · exact .inr ⟨e, by simp [h2], h3, h4⟩

theorem all_del_ann (w : World) (r : Route) (hi : Importable w r) (hw : r.key.dst.WF) (hn : Named w r) (d : Fin 4) :
    ∀ (l : List (Sec Imp)) (s : LanSet Key), (∀ e ∈ l, Usable e.val.cfg) →
      (∀ j, j ≠ r.key → announced (allImports w r false l s).2.1 j d = announced s j d) ∧
      (announced s r.key d = none → announced (allImports w r false l s).2.1 r.key d = none) ∧
      (((∀ e ∈ l, ¬ Stops w r d e) ∧ announced (allImports w r false l s).2.1 r.key d = announced s r.key d) ∨
       ((∃ e ∈ l, Stops w r d e) ∧ announced (allImports w r false l s).2.1 r.key d = none)) := by
  intro l
  induction l with
  | nil => intro s _; exact ⟨fun _ _ => rfl, id, .inl ⟨by simp, rfl⟩⟩
  | cons x xs ih =>
    intro s hu
    obtain ⟨h1, h0, h2⟩ := ih (oneImport w r false x s).2.1 (fun e he => hu e (by simp [he]))
    have hsel := selects_iff w r x.val.cfg (hu x (by simp)) hw hn
    show (∀ j, j ≠ r.key → announced (allImports w r false xs (oneImport w r false x s).2.1).2.1 j d = announced s j d) ∧
      (announced s r.key d = none → announced (allImports w r false xs (oneImport w r false x s).2.1).2.1 r.key d = none) ∧
      (((∀ e ∈ x :: xs, ¬ Stops w r d e) ∧ announced (allImports w r false xs (oneImport w r false x s).2.1).2.1 r.key d = announced s r.key d) ∨
       ((∃ e ∈ x :: xs, Stops w r d e) ∧ announced (allImports w r false xs (oneImport w r false x s).2.1).2.1 r.key d = none))
    refine ⟨fun j hj => ?_, fun h => ?_, ?_⟩
    · rw [h1 j hj, one_del_ann w r x s, if_neg (fun h => hj h.1)]
    · apply h0
      rw [one_del_ann, h]
      simp
    · by_cases hs : selects w r x.val.cfg = true ∧ hasLan x.val r.key = true ∧ Concerns w x.val.cfg d
      · right
        refine ⟨⟨x, by simp, ⟨hi, hsel.1 hs.1⟩, (hasLan_iff _ _).1 hs.2.1, hs.2.2⟩, ?_⟩
        apply h0
        rw [one_del_ann, if_pos ⟨rfl, hs⟩]
      · have hx : announced (oneImport w r false x s).2.1 r.key d = announced s r.key d := by
          rw [one_del_ann, if_neg (fun h => hs h.2)]
        rcases h2 with ⟨h2, h3⟩ | ⟨⟨e, h2, h3⟩, h4⟩
        · left
          refine ⟨?_, by rw [h3, hx]⟩
          intro e he
          rcases List.mem_cons.1 he with rfl | he
          · rintro ⟨⟨_, q1⟩, q2, q3⟩
            exact hs ⟨hsel.2 q1, (hasLan_iff _ _).2 q2, q3⟩
          · exact h2 e he
        · exact .inr ⟨⟨e, by simp [h2], h3⟩, h4⟩

/-- **C174** (a new route): for every number of sections, a network is announced with the configured metric and the limited
metric of the route as distance in exactly the domains for which a section starts to import it, everything else is as
before. -/
theorem C174_new_partial (w : World) (r : Route) (st : State) (d : Fin 4) (hm : w.mem = true) (hw : r.key.dst.WF) (hn : Named w r)
    (hu : ∀ e ∈ st.imports, Usable e.val.cfg) :
    ∃ st', step st (.route w r true) = some st' ∧ (∀ k, k ≠ r.key → announced st'.lan k d = announced st.lan k d) ∧
      ((∀ e ∈ st.imports, ¬ Starts w r d e) → announced st'.lan r.key d = announced st.lan r.key d) ∧
      ((∃ e ∈ st.imports, Starts w r d e) →
        ∃ e ∈ st.imports, Starts w r d e ∧ ∃ n, Distance r.metric n ∧ announced st'.lan r.key d = some (e.val.cfg.metric, n)) := by
  refine ⟨_, rfl, ?_⟩
  rcases importable_cases w r true st hw with ⟨hi, h⟩ | ⟨hi, h⟩
  · rw [h]
    exact ⟨fun _ _ => rfl, fun _ => rfl, fun ⟨e, _, hs⟩ => absurd hs.1.1 hi⟩
  · rw [h]
    obtain ⟨h1, h2⟩ := all_set_ann w r hm hi hw hn d st.imports st.lan hu
    refine ⟨h1, fun hno => ?_, fun hex => ?_⟩
    · rcases h2 with ⟨_, h2⟩ | ⟨e, he, hs, _⟩
      · exact h2
      · exact absurd hs (hno e he)
    · rcases h2 with ⟨hno, _⟩ | ⟨e, he, hs, h3⟩
      · obtain ⟨e, he, hs⟩ := hex
        exact absurd hs (hno e he)
      · exact ⟨e, he, hs, _, clamp_spec _, h3⟩

/-- **C174** (a removed route): a network is withdrawn in exactly the domains for which a section stops to import it. -/
theorem C174_removed_partial (w : World) (r : Route) (st : State) (d : Fin 4) (hw : r.key.dst.WF) (hn : Named w r)
    (hu : ∀ e ∈ st.imports, Usable e.val.cfg) :
    ∃ st', step st (.route w r false) = some st' ∧ (∀ k, k ≠ r.key → announced st'.lan k d = announced st.lan k d) ∧
      ((∀ e ∈ st.imports, ¬ Stops w r d e) → announced st'.lan r.key d = announced st.lan r.key d) ∧
      ((∃ e ∈ st.imports, Stops w r d e) → announced st'.lan r.key d = none) := by
  refine ⟨_, rfl, ?_⟩
  rcases importable_cases w r false st hw with ⟨hi, h⟩ | ⟨hi, h⟩
  · rw [h]
    exact ⟨fun _ _ => rfl, fun _ => rfl, fun ⟨e, _, hs⟩ => absurd hs.1.1 hi⟩
  · rw [h]
    obtain ⟨h1, _, h2⟩ := all_del_ann w r hi hw hn d st.imports st.lan hu
    refine ⟨h1, fun hno => ?_, fun hex => ?_⟩
    · rcases h2 with ⟨_, h2⟩ | ⟨⟨e, he, hs⟩, _⟩
      · exact h2
      · exact absurd hs (hno e he)
    · rcases h2 with ⟨hno, _⟩ | ⟨_, h3⟩
      · obtain ⟨e, he, hs⟩ := hex
        exact absurd hs (hno e he)
      · exact h3

/-- the last event for the network that the section takes notice of is a new route (newest event first) -/
def Present (w : World) (c : Cfg) (k : Key) : List (Route × Bool) → Prop
  | [] => False
  | x :: older => (x.1.key = k ∧ Takes w x.1 c ∧ x.2 = true) ∨ (¬ (x.1.key = k ∧ Takes w x.1 c) ∧ Present w c k older)

theorem run_append (l1 l2 : List Ev) : ∀ st, run st (l1 ++ l2) = (run st l1).bind fun st' => run st' l2 := by
  induction l1 with
  | nil => intro st; rfl
  | cons e es ih =>
    intro st
    show (match step st e with | some st' => run st' (es ++ l2) | none => none) = (match step st e with | some st' => run st' es | none => none).bind _
    cases step st e with
    | none => rfl
    | some st' => exact ih st'

/-- **C174** (one section): for every history of route events the section announces exactly the networks whose last event, of
those it takes notice of, is a new route, in exactly the configured domains. -/
theorem C174_follows_partial (w : World) (name : Txt) (c : Cfg) (hist : List (Route × Bool)) (hm : w.mem = true) (hu : Usable c)
    (hh : ∀ x ∈ hist, x.1.key.dst.WF ∧ Named w x.1) :
    ∃ st, run ⟨[⟨name, { cfg := c }⟩], fun _ => none, 0⟩ (hist.reverse.map fun x => .route w x.1 x.2) = some st ∧
      ∀ k d, announced st.lan k d ≠ none ↔ Present w c k hist ∧ Concerns w c d := by
  suffices h : ∃ st, run ⟨[⟨name, { cfg := c }⟩], fun _ => none, 0⟩ (hist.reverse.map fun x => .route w x.1 x.2) = some st ∧
      (∃ i, st.imports = [⟨name, i⟩] ∧ i.cfg = c ∧ ∀ k, Has i k ↔ Present w c k hist) ∧
      ∀ k d, announced st.lan k d ≠ none ↔ Present w c k hist ∧ Concerns w c d by
    obtain ⟨st, h1, _, h3⟩ := h
    exact ⟨st, h1, h3⟩
  induction hist with
  | nil =>
    refine ⟨_, rfl, ⟨_, rfl, rfl, ?_⟩, ?_⟩
    · intro k
      unfold Has Present
      simp
    · intro k d
      unfold announced Present
      simp
  | cons x older ih =>
    obtain ⟨st, h1, ⟨i, h2, hc, h3⟩, h4⟩ := ih (fun y hy => hh y (by simp [hy]))
    obtain ⟨hw, hn⟩ := hh x (by simp)
    have hrun : run ⟨[⟨name, { cfg := c }⟩], fun _ => none, 0⟩ ((x :: older).reverse.map fun x => .route w x.1 x.2) = step st (.route w x.1 x.2) := by
      rw [List.reverse_cons, List.map_append, run_append, h1]
      show run st [.route w x.1 x.2] = _
      unfold run
      cases step st (.route w x.1 x.2) <;> rfl
    rw [hrun]
    have hu' : ∀ e ∈ st.imports, Usable e.val.cfg := by
      intro e he
      rw [h2] at he
      simp at he
      subst he
      simp only [hc]
      exact hu
    obtain ⟨st', hs, hl, hsel⟩ := C173_selection_partial w x.1 x.2 st hw hn
    refine ⟨st', hs, ?_, ?_⟩
    · obtain ⟨e', g1, g2, g3, g4, g5, g6⟩ := hsel 0 ⟨name, i⟩ (by rw [h2]; rfl) (by simpa [hc] using hu)
      have hone : st'.imports = [e'] := by
        rw [h2] at hl
        match hq : st'.imports, hl with
        | [a], _ =>
          rw [hq] at g1
          simp at g1
          rw [g1]
      refine ⟨e'.val, ?_, g3.trans hc, fun k => ?_⟩
      · rw [hone]
        simp only at g2
        rw [← g2]
      · unfold Present
        rw [← h3 k]
        simp only [hc] at g5 g6
        by_cases hk : k = x.1.key
        · subst hk
          by_cases ht : Takes w x.1 c
          · cases hb : x.2 with
            | true => simp [g5 hb hm, ht]
            | false => simp [g6 hb, ht]
          · cases hb : x.2 with
            | true => simp [g5 hb hm, ht]
            | false => simp [g6 hb, ht]
        · rw [g4 k hk]
          have hk' : ¬ x.1.key = k := fun h => hk h.symm
          simp [hk']
    · intro k d
      have hPres : ∀ k, x.1.key ≠ k → (Present w c k (x :: older) ↔ Present w c k older) := by
        intro k hk
        show _ ∨ _ ↔ _
        simp [hk]
      cases hb : x.2 with
      | true =>
        obtain ⟨st2, q1, q2, q3, q4⟩ := C174_new_partial w x.1 st d hm hw hn hu'
        rw [hb] at hs
        rw [hs] at q1
        cases q1
        by_cases hk : k = x.1.key
        · subst hk
          by_cases hst : Starts w x.1 d ⟨name, i⟩
          · obtain ⟨e, _, _, n, _, hann⟩ := q4 ⟨_, by rw [h2]; simp, hst⟩
            rw [hann]
            have h5 := hst.2.2
            have h6 := hst.1
            simp only [hc] at h5 h6
            refine ⟨fun _ => ⟨.inl ⟨rfl, h6, hb⟩, h5⟩, fun _ => by simp⟩
          · rw [q3 (fun e he => by rw [h2] at he; simp at he; subst he; exact hst), h4]
            unfold Starts at hst
            simp only [hc, h3] at hst
            show _ ↔ (_ ∨ _) ∧ _
            by_cases ht : Takes w x.1 c
            · by_cases hcn : Concerns w c d
              · have hp : Present w c x.1.key older := by
                  apply Classical.byContradiction
                  intro hp
                  exact hst ⟨ht, hp, hcn⟩
                simp [ht, hcn, hb, hp]
              · simp [hcn]
            · simp [ht]
        · rw [q2 k hk, h4, hPres k (fun h => hk h.symm)]
      | false =>
        obtain ⟨st2, q1, q2, q3, q4⟩ := C174_removed_partial w x.1 st d hw hn hu'
        rw [hb] at hs
        rw [hs] at q1
        cases q1
        by_cases hk : k = x.1.key
        · subst hk
          by_cases hst : Stops w x.1 d ⟨name, i⟩
          · rw [q4 ⟨_, by rw [h2]; simp, hst⟩]
            have h6 := hst.1
            simp only [hc] at h6
            show _ ↔ (_ ∨ _) ∧ _
            simp [h6, hb]
          · rw [q3 (fun e he => by rw [h2] at he; simp at he; subst he; exact hst), h4]
            unfold Stops at hst
            simp only [hc, h3] at hst
            show _ ↔ (_ ∨ _) ∧ _
            by_cases ht : Takes w x.1 c
            · by_cases hcn : Concerns w c d
              · have hp : ¬ Present w c x.1.key older := fun hp => hst ⟨ht, hp, hcn⟩
                simp [ht, hb, hp]
              · simp [hcn]
            · simp [ht]
        · rw [q2 k hk, h4, hPres k (fun h => hk h.symm)]

example : ((run exState [.route exWorld exRoute true, .route exWorld { exRoute with table := 7 } false]).map fun st => announced st.lan exKey 0) = some (some (7, 10)) ∧
    ((run exState [.route exWorld exRoute true, .route exWorld exRoute false]).map fun st => announced st.lan exKey 0) = some none := by decide +kernel

/-- **C174** does not hold for two routes to the same network: the removal of one withdraws the network although the other one
was never removed (and is the better one). -/
theorem C174_twin_counterexample :
    Takes exWorld exRoute exCfg ∧
    ((run exState [.route exWorld exRoute true, .route exWorld { exRoute with metric := 20 } true, .route exWorld { exRoute with metric := 20 } false]).map
      fun st => announced st.lan exKey 0) = some none := by
  refine ⟨?_, by decide +kernel⟩
  have hw : exRoute.key.dst.WF := by decide
  have hn : Named exWorld exRoute := by intro _; decide
  have hu : Usable exCfg := by
    intro e he
    rcases he with he | he <;> cases he
  refine ⟨⟨rfl, fun h => ?_, by decide, rfl⟩, (selects_iff exWorld exRoute exCfg hu hw hn).1 (by decide +kernel)⟩
  exact absurd ((never_iff _ hw).2 h) (by decide +kernel)

/-- **C174** does not hold for changes of the configuration: whatever section is changed or removed, all networks stay
announced as they are. -/
theorem C174_config_counterexample (st st' : State) (name : Txt) (post : Option Cfg) (h : step st (.conf name post) = some st') :
    st'.lan = st.lan := by
  unfold step at h
  cases post with
  | some c =>
    simp only at h
    cases hc : configure 16 {} st.imports name (some fun i => { i with cfg := c }) with
    | none => rw [hc] at h; cases h
    | some l => rw [hc] at h; cases h; rfl
  | none =>
    simp only at h
    cases hc : configure 16 {} st.imports name none with
    | none => rw [hc] at h; cases h
    | some l => rw [hc] at h; cases h; rfl

/-- a network of a removed section is still announced after its route is removed -/
example : ((run exState [.route exWorld exRoute true, .conf [97] none, .route exWorld exRoute false]).map
    fun st => (st.imports, announced st.lan exKey 0)) = some ([], some (7, 10)) := by decide +kernel

/-- a section that is changed to another domain withdraws its network in the new domain only -/
example : ((run exState [.route exWorld exRoute true, .conf [97] (some { exCfg with domain := 5 }), .route { exWorld with doms := [⟨0, 0, 100, 254⟩, ⟨1, 5, 100, 254⟩] } exRoute false]).map
    fun st => announced st.lan exKey 0) = some (some (7, 10)) := by decide +kernel

/-- **C174** does not hold for a route whose metric changes: the distance is the one of the first event. -/
theorem C174_metric_counterexample :
    ((run exState [.route exWorld exRoute true, .route exWorld { exRoute with metric := 20 } true]).map fun st => announced st.lan exKey 0) = some (some (7, 10)) := by
  decide +kernel

/-! ### C175 -/

theorem age_min (m : Nat) (h : m ≤ METRIC_MAX) : age m = min (m * 2) METRIC_MAX := by
  unfold age METRIC_MAX at *
  split <;> omega

theorem ageLoop_spec : ∀ (ds : List Dom) (e : Olsr.Lan), (ds.map (·.index)).Nodup →
    (∀ i, (ageLoop ds e).1.data i = if (∃ x ∈ ds, x.index = i) then { e.data i with metric := age (e.data i).metric } else e.data i) ∧
    ((ageLoop ds e).2 = true ↔ ∃ x ∈ ds, (e.data x.index).metric ≥ METRIC_MAX / 2) := by
  intro ds
  induction ds with
  | nil => intro e _; simp [ageLoop]
  | cons x xs ih =>
    intro e hnd
    rw [List.map_cons, List.nodup_cons] at hnd
    obtain ⟨h1, h2⟩ := ih ⟨e.put x.index { e.data x.index with metric := age (e.data x.index).metric }, e.same⟩ hnd.2
    have hx : ∀ y ∈ xs, y.index ≠ x.index := by
      intro y hy h
      exact hnd.1 (List.mem_map.2 ⟨y, hy, h⟩)
    refine ⟨fun i => ?_, ?_⟩
    · show (ageLoop xs _).1.data i = _
      rw [h1 i]
      simp only [put_self]
      by_cases hi : i = x.index
      · subst hi
        rw [if_neg (by rintro ⟨y, hy, h⟩; exact hx y hy h), if_pos rfl, if_pos ⟨x, by simp, rfl⟩]
      · rw [if_neg hi]
        by_cases hy : ∃ y ∈ xs, y.index = i
        · obtain ⟨y, q1, q2⟩ := hy
          rw [if_pos ⟨y, q1, q2⟩, if_pos ⟨y, by simp [q1], q2⟩]
        · rw [if_neg hy, if_neg]
          rintro ⟨y, q1, q2⟩
          rcases List.mem_cons.1 q1 with rfl | q1
          · exact hi q2.symm
          · exact hy ⟨y, q1, q2⟩
    · show (decide ((e.data x.index).metric ≥ METRIC_MAX / 2) || (ageLoop xs _).2) = true ↔ _
      rw [Bool.or_eq_true, h2, decide_eq_true_eq]
      constructor
      · rintro (h | ⟨y, q1, q2⟩)
        · exact ⟨x, by simp, h⟩
        · refine ⟨y, by simp [q1], ?_⟩
          simp only [put_self, if_neg (hx y q1)] at q2
          exact q2
      · rintro ⟨y, q1, q2⟩
        rcases List.mem_cons.1 q1 with rfl | q1
        · exact .inl q2
        · right
          refine ⟨y, q1, ?_⟩
          simp only [put_self, if_neg (hx y q1)]
          exact q2

/-- the section with this name has this configuration, and its timer for the network is in this state -/
def Running (st : State) (name : Txt) (c : Cfg) (k : Key) (t : Bool) : Prop :=
  ∃ e, find st.imports name = some e ∧ e.val.cfg = c ∧ timerOf e.val k = t

theorem stop_timer (i : Imp) (k : Key) : timerOf (stopTimer k i) k = false := by
  unfold timerOf stopTimer
  simp only [List.any_map, List.any_eq_false, Function.comp]
  intro l _
  by_cases h : l.key = k <;> simp [h]

theorem fire_on (w : World) (name : Txt) (c : Cfg) (k : Key) (st : State) (m : Nat) (dist : Fin 4 → Nat) (hnd : (w.doms.map (·.index)).Nodup)
    (hm : m ≤ METRIC_MAX) (hc : ∃ d, Concerns w c d) (hr : Running st name c k true)
    (ha : ∀ d, Concerns w c d → announced st.lan k d = some (m, dist d)) :
    ∃ st', step st (.fire w name k) = some st' ∧ Running st' name c k (decide (m * 2 < METRIC_MAX)) ∧
      (∀ d, Concerns w c d → announced st'.lan k d = some (min (m * 2) METRIC_MAX, dist d)) ∧
      (∀ j d, ¬ (j = k ∧ Concerns w c d) → announced st'.lan j d = announced st.lan j d) := by
  obtain ⟨e, h1, h2, h3⟩ := hr
  obtain ⟨d0, hd0⟩ := hc
  have hnd' : ((domsOf w c).map (·.index)).Nodup := List.Nodup.sublist (List.Sublist.map _ (List.filter_sublist)) hnd
  cases hk : st.lan k with
  | none =>
    have := ha d0 hd0
    unfold announced at this
    rw [hk] at this
    cases this
  | some l =>
    obtain ⟨g1, g2⟩ := ageLoop_spec (domsOf w c) l hnd'
    have hdata : ∀ d, Concerns w c d → (l.data d).active = true ∧ (l.data d).metric = m ∧ (l.data d).dist = dist d := by
      intro d hd
      have := ha d hd
      unfold announced at this
      rw [hk] at this
      simp only at this
      split at this
      · rename_i hact
        simp only [Option.some.injEq, Prod.mk.injEq] at this
        exact ⟨hact, this.1, this.2⟩
      · cases this
    have hstop : (ageLoop (domsOf w c) l).2 = true ↔ m ≥ METRIC_MAX / 2 := by
      rw [g2]
      constructor
      · rintro ⟨x, q1, q2⟩
        have := (hdata x.index ((concerns_iff w c x.index).1 ⟨x, q1, rfl⟩)).2.1
        omega
      · intro h
        obtain ⟨x, q1, q2⟩ := (concerns_iff w c d0).2 hd0
        refine ⟨x, q1, ?_⟩
        rw [q2, (hdata d0 hd0).2.1]
        exact h
    have hfire : fire w name k st =
        { st with lan := st.lan.put k (some (ageLoop (domsOf w c) l).1), imports := if (ageLoop (domsOf w c) l).2 then change st.imports name (stopTimer k) else st.imports } := by
      unfold fire
      rw [h1]
      simp only [h3, if_true, hk, h2]
    refine ⟨_, rfl, ?_, ?_, ?_⟩
    · rw [hfire]
      by_cases hs : (ageLoop (domsOf w c) l).2 = true
      · have h5 := hstop.1 hs
        rw [decide_eq_false (by unfold METRIC_MAX at *; omega)]
        unfold Running
        simp only [hs, if_true]
        have hf := find_change st.imports name name (stopTimer k)
        rw [h1] at hf
        have hself : SameName name name := rfl
        simp only [Option.map_some, hself, if_true] at hf
        cases hq : find (change st.imports name (stopTimer k)) name with
        | none => rw [hq] at hf; cases hf
        | some e' =>
          rw [hq] at hf
          simp only [Option.map_some, Option.some.injEq] at hf
          refine ⟨e', rfl, ?_, ?_⟩
          · rw [hf]; exact h2
          · rw [hf]; exact stop_timer _ _
      · have h5 := mt hstop.2 hs
        rw [decide_eq_true (by unfold METRIC_MAX at *; omega)]
        exact ⟨e, by simpa [hs] using h1, h2, h3⟩
    · intro d hd
      rw [hfire]
      unfold announced
      simp only [set_put, if_true]
      rw [g1 d, if_pos ((concerns_iff w c d).2 hd)]
      obtain ⟨q1, q2, q3⟩ := hdata d hd
      simp only [q1, if_true, q2, q3, age_min m hm]
    · intro j d hj
      rw [hfire]
      unfold announced
      simp only [set_put]
      by_cases hjk : j = k
      · subst hjk
        simp only [if_true, hk]
        rw [g1 d, if_neg (fun h => hj ⟨rfl, (concerns_iff w c d).1 h⟩)]
      · simp only [if_neg hjk]

theorem fire_off (w : World) (name : Txt) (c : Cfg) (k : Key) (st : State) (hr : Running st name c k false) :
    step st (.fire w name k) = some st := by
  obtain ⟨e, h1, h2, h3⟩ := hr
  show some (fire w name k st) = some st
  unfold fire
  rw [h1]
  simp [h3]

/-- **C175** (all domains of the section announce the network with the same metric): after `n` periods the metric is the
original one, doubled `n` times, at most the largest metric; other networks and domains keep theirs; the timer runs until
the largest metric is reached. -/
theorem C175_doubles_partial (w : World) (name : Txt) (c : Cfg) (k : Key) (dist : Fin 4 → Nat) (hnd : (w.doms.map (·.index)).Nodup)
    (hc : ∃ d, Concerns w c d) (n : Nat) : ∀ (st : State) (m : Nat), m ≤ METRIC_MAX → Running st name c k true →
    (∀ d, Concerns w c d → announced st.lan k d = some (m, dist d)) →
    ∃ st', run st (List.replicate n (.fire w name k)) = some st' ∧ (Running st' name c k (decide (n = 0 ∨ m * 2 ^ n < METRIC_MAX))) ∧
      (∀ d, Concerns w c d → announced st'.lan k d = some (min (m * 2 ^ n) METRIC_MAX, dist d)) ∧
      (∀ j d, ¬ (j = k ∧ Concerns w c d) → announced st'.lan j d = announced st.lan j d) := by
  induction n with
  | zero =>
    intro st m hm hr ha
    refine ⟨st, rfl, by simpa using hr, ?_, fun _ _ _ => rfl⟩
    intro d hd
    rw [ha d hd, Nat.pow_zero, Nat.mul_one, Nat.min_eq_left hm]
  | succ n ih =>
    intro st m hm hr ha
    obtain ⟨st1, h1, h2, h3, h4⟩ := fire_on w name c k st m dist hnd hm hc hr ha
    have hrep : run st (List.replicate (n + 1) (.fire w name k)) = run st1 (List.replicate n (.fire w name k)) := by
      rw [List.replicate_succ]
      show (match step st (.fire w name k) with | some st' => run st' (List.replicate n (.fire w name k)) | none => none) = _
      rw [h1]
    have hpow : m * 2 ^ (n + 1) = m * 2 * 2 ^ n := by rw [Nat.pow_succ, Nat.mul_comm (2 ^ n) 2, Nat.mul_assoc]
    rw [hrep]
    by_cases hlt : m * 2 < METRIC_MAX
    · rw [decide_eq_true hlt] at h2
      obtain ⟨st', q1, q2, q3, q4⟩ := ih st1 (m * 2) (by omega) h2 (fun d hd => by rw [h3 d hd, Nat.min_eq_left (by omega)])
      refine ⟨st', q1, ?_, ?_, fun j d hj => (q4 j d hj).trans (h4 j d hj)⟩
      · have he : decide (n + 1 = 0 ∨ m * 2 ^ (n + 1) < METRIC_MAX) = decide (n = 0 ∨ m * 2 * 2 ^ n < METRIC_MAX) := by
          rw [hpow]
          apply decide_eq_decide.2
          cases n with
          | zero => simp; omega
          | succ n => simp
        rw [he]
        exact q2
      · intro d hd
        rw [q3 d hd, hpow]
    · rw [decide_eq_false hlt] at h2
      have hstay : ∀ n, run st1 (List.replicate n (.fire w name k)) = some st1 := by
        intro n
        induction n with
        | zero => rfl
        | succ n ih2 =>
          rw [List.replicate_succ]
          show (match step st1 (.fire w name k) with | some st' => run st' (List.replicate n (.fire w name k)) | none => none) = _
          rw [fire_off w name c k st1 h2]
          exact ih2
      have hge : METRIC_MAX ≤ m * 2 * 2 ^ n := Nat.le_trans (by omega) (Nat.le_mul_of_pos_right _ (Nat.pos_of_ne_zero (by simp)))
      refine ⟨st1, hstay n, ?_, ?_, h4⟩
      · rw [hpow, decide_eq_false (by omega)]
        exact h2
      · intro d hd
        rw [h3 d hd, hpow, Nat.min_eq_right hge, Nat.min_eq_right (by omega)]

/-- the network of the example after three periods, and after thirty -/
example : ((run exState ([.conf [97] (some { exCfg with aging := 100 }), .route exWorld exRoute true] ++ List.replicate 3 (.fire exWorld [97] exKey))).map
    fun st => (announced st.lan exKey 0, st.imports.map (·.val.lans))) = some (some (56, 10), [[⟨exKey, true⟩]]) := by decide +kernel
example : ((run exState ([.conf [97] (some { exCfg with aging := 100 }), .route exWorld exRoute true] ++ List.replicate 30 (.fire exWorld [97] exKey))).map
    fun st => (announced st.lan exKey 0, st.imports.map (·.val.lans))) = some (some (METRIC_MAX, 10), [[⟨exKey, false⟩]]) := by decide +kernel

/-- **C175** does not hold after the route is removed: the timer of the freed object is still running. -/
theorem C175_freed_counterexample :
    run exState [.conf [97] (some { exCfg with aging := 100 }), .route exWorld exRoute true, .route exWorld exRoute false, .orphan] = none := by
  rfl

/-- **C175** does not hold after the section is removed: the timer follows a pointer to the freed section. -/
theorem C175_section_counterexample :
    run exState [.conf [97] (some { exCfg with aging := 100 }), .route exWorld exRoute true, .conf [97] none, .orphan] = none := by
  rfl

/-- **C175** does not hold if a domain is added after the import: its infinite metric stops the timer, the metric of the
first domain is doubled only once. -/
theorem C175_domain_counterexample :
    ((run exState ([.conf [97] (some { exCfg with aging := 100 }), .route exWorld exRoute true] ++
      List.replicate 5 (.fire { exWorld with doms := [⟨0, 0, 100, 254⟩, ⟨1, 5, 100, 254⟩] } [97] exKey))).map
      fun st => (announced st.lan exKey 0, announced st.lan exKey 1, st.imports.map (·.val.lans))) = some (some (14, 10), none, [[⟨exKey, false⟩]]) := by
  decide +kernel

end Verif.Import
