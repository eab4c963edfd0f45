import Verif.Netaddr.Lemmas
/-
Property theorems for network addresses: C17 (comparison), C18 (subnet membership), C19 (truncation
and host creation), C20 (netmasks), C58 (binary and socket conversion).
-/
namespace Verif.Netaddr

/-! ## C17 -/

/-- What a comparator of a search tree has to fulfil on the keys of a domain `D`: `f a b` is
negative, zero or positive if `a` is smaller, equivalent (`eqv`) or larger. -/
structure TreeOrder {α : Type} (D : α → Prop) (eqv : α → α → Prop) (f : α → α → Int) : Prop where
  zero : ∀ a b, D a → D b → (f a b = 0 ↔ eqv a b)
  swap : ∀ a b, D a → D b → (f a b < 0 ↔ 0 < f b a)
  trans : ∀ a b c, D a → D b → D c → f a b ≤ 0 → f b c ≤ 0 → f a c ≤ 0
  trans_strict : ∀ a b c, D a → D b → D c → f a b < 0 → f b c ≤ 0 → f a c < 0

theorem treeOrder_of {α : Type} {D : α → Prop} {eqv : α → α → Prop} {f : α → α → Int}
    (zero : ∀ a b, D a → D b → (f a b = 0 ↔ eqv a b))
    (swap : ∀ a b, f b a = - f a b)
    (trans : ∀ a b c, D a → D b → D c → f a b ≤ 0 → f b c ≤ 0 → f a c ≤ 0) : TreeOrder D eqv f where
  zero := zero
  swap a b _ _ := by have := swap a b; omega
  trans := trans
  trans_strict a b c ha hb hc h1 h2 := by
    have h3 := trans a b c ha hb hc (by omega) h2
    apply Decidable.byContradiction
    intro h4
    -- a ≥ c, so b ≤ a via c
    have h5 := swap a c
    have h6 : f c a ≤ 0 := by omega
    have h7 := trans b c a hb hc ha h2 h6
    have h8 := swap a b
    omega

/-- C17: comparing network addresses is a total order, zero exactly for identical addresses
(address, family and prefix length). -/
theorem C17_netaddr : TreeOrder Netaddr.WF Eq cmp := by
  apply treeOrder_of
  · intro a b ha hb
    unfold Netaddr.WF at ha hb
    unfold cmp
    rw [memcmp_zero _ _ (by simp [ha, hb])]
    constructor
    · intro h
      obtain ⟨h1, h2⟩ := List.append_inj h (by rw [ha, hb])
      cases a; cases b; simp_all
    · rintro rfl; rfl
  · intro a b; exact memcmp_swap _ _
  · intro a b c ha hb hc
    unfold Netaddr.WF at ha hb hc
    exact memcmp_trans _ _ _ (by simp [ha, hb]) (by simp [hb, hc])

/-- the character in lower case (only ASCII letters change), by means of Lean's library -/
def lowerCase (c : UInt8) : UInt8 := UInt8.ofNat (Char.ofNat c.toNat).toLower.toNat

theorem lowerCase_eq (c : UInt8) : lowerCase c = toLower c := by
  have : ∀ n : Fin 256, lowerCase (UInt8.ofNat n.val) = toLower (UInt8.ofNat n.val) := by decide +kernel
  simpa using this ⟨c.toNat, c.toNat_lt⟩

/-- C17: the comparator of text keys is a total preorder, zero exactly for texts that are equal up
to the case of ASCII letters. -/
theorem C17_strcasecmp :
    TreeOrder (fun _ => True) (fun a b : List UInt8 => a.map lowerCase = b.map lowerCase) strcasecmp := by
  have e : lowerCase = toLower := funext lowerCase_eq
  rw [e]
  exact treeOrder_of (fun a b _ _ => strcasecmp_zero a b) strcasecmp_swap
    (fun a b c _ _ _ => strcasecmp_trans a b c)

/-- C17: the comparators of integer keys are total orders. -/
theorem C17_integers : TreeOrder (fun _ => True) Eq compInt := by
  apply treeOrder_of
  · intro a b _ _; unfold compInt; split <;> (try split) <;> omega
  · intro a b; unfold compInt; split <;> (try split) <;> (try split) <;> (try split) <;> omega
  · intro a b c _ _ _; unfold compInt
    split <;> split <;> (try split) <;> (try split) <;> (try split) <;> (try split) <;> omega

example : Netaddr.WF unspec ∧ cmp unspec { unspec with type := AF_INET } < 0 := by decide +kernel

/-! ## C18 -/

/-- the first `n` bits of two addresses agree -/
def SamePrefix (a b : List UInt8) (n : Nat) : Prop := ∀ i, i < n → bit a i = bit b i

theorem binaryIsInSubnet_spec (subnet : Netaddr) (bin : List UInt8) (hw : subnet.WF)
    (hp : subnet.prefixLen.toNat ≤ 128) (hb : subnet.prefixLen.toNat ≤ 8 * bin.length) :
    ∃ r, binaryIsInSubnet subnet bin = some r ∧
      (r = true ↔ SamePrefix subnet.addr bin subnet.prefixLen.toNat) := by
  unfold Netaddr.WF at hw
  unfold binaryIsInSubnet
  generalize hP : subnet.prefixLen.toNat = p at *
  have hsplit : 8 * (p / 8) + p % 8 = p := by omega
  simp only
  rw [if_neg (by omega)]
  have htk := take_eq_iff subnet.addr bin (p / 8) (by omega) (by omega)
  by_cases h1 : subnet.addr.take (p / 8) = bin.take (p / 8)
  · rw [if_neg (by simpa using h1)]
    have h1' := htk.1 h1
    by_cases h2 : p % 8 = 0
    · rw [if_neg (by omega)]
      refine ⟨true, rfl, ?_⟩
      simp only [true_iff]
      intro i hi
      exact h1' i (by omega)
    · rw [if_pos (by omega)]
      have hx : p / 8 < subnet.addr.length := by omega
      have hy : p / 8 < bin.length := by omega
      rw [List.getElem?_eq_getElem hx, List.getElem?_eq_getElem hy]
      refine ⟨_, rfl, ?_⟩
      rw [beq_iff_eq, shift_eq_iff _ _ _ (by omega)]
      have hbx := fun j => bit_at subnet.addr (p / 8) j _ (List.getElem?_eq_getElem hx)
      have hby := fun j => bit_at bin (p / 8) j _ (List.getElem?_eq_getElem hy)
      constructor
      · intro h i hi
        by_cases hi8 : i < 8 * (p / 8)
        · exact h1' i hi8
        · have := h (i - 8 * (p / 8)) (by omega)
          rw [← hbx _ (by omega), ← hby _ (by omega)] at this
          rwa [show 8 * (p / 8) + (i - 8 * (p / 8)) = i by omega] at this
      · intro h j hj
        rw [← hbx _ (by omega), ← hby _ (by omega)]
        exact h _ (by omega)
  · rw [if_pos h1]
    refine ⟨false, rfl, ?_⟩
    simp only [Bool.false_eq_true, false_iff]
    intro h
    exact h1 (htk.2 (fun i hi => h i (by omega)))

/-- C18: an address is reported inside a subnet exactly if the families are the same and the first
`prefix length` bits agree, for every prefix length from 0 to 128. -/
theorem C18_in_subnet (subnet addr : Netaddr) (hs : subnet.WF) (ha : addr.WF)
    (hp : subnet.prefixLen.toNat ≤ 128) :
    ∃ r, isInSubnet subnet addr = some r ∧
      (r = true ↔ subnet.type = addr.type ∧ SamePrefix subnet.addr addr.addr subnet.prefixLen.toNat) := by
  unfold Netaddr.WF at ha
  obtain ⟨r, h1, h2⟩ := binaryIsInSubnet_spec subnet addr.addr hs hp (by omega)
  unfold isInSubnet
  by_cases ht : subnet.type = addr.type
  · rw [if_neg (by simpa using ht)]
    exact ⟨r, h1, by simp [h2, ht]⟩
  · rw [if_pos ht]
    exact ⟨false, rfl, by simp [ht]⟩

/-- C18 for binary addresses: inside exactly if the family and the address length are those of the
subnet and the prefix bits agree. -/
theorem C18_binary_in_subnet (subnet : Netaddr) (bin : List UInt8) (af : UInt8) (hs : subnet.WF)
    (hp : subnet.prefixLen.toNat ≤ maxPrefix subnet) :
    ∃ r, netaddrBinaryIsInSubnet subnet bin af = some r ∧
      (r = true ↔ subnet.type = af ∧ maxPrefix subnet = 8 * bin.length ∧
        SamePrefix subnet.addr bin subnet.prefixLen.toNat) := by
  unfold netaddrBinaryIsInSubnet
  have hm : maxPrefix subnet ≤ 128 := by
    unfold maxPrefix afMaxPrefix; split <;> (try split) <;> (try split) <;> (try split) <;> omega
  by_cases ht : subnet.type = af ∧ maxPrefix subnet = bin.length * 8
  · rw [if_neg (by simp [ht])]
    obtain ⟨r, h1, h2⟩ := binaryIsInSubnet_spec subnet bin hs (by omega) (by omega)
    refine ⟨r, h1, ?_⟩
    rw [h2]
    constructor
    · intro h; exact ⟨ht.1, by omega, h⟩
    · intro h; exact h.2.2
  · rw [if_pos (by
      by_cases h : subnet.type = af
      · exact Or.inr (fun h2 => ht ⟨h, h2⟩)
      · exact Or.inl h)]
    refine ⟨false, rfl, ?_⟩
    simp only [Bool.false_eq_true, false_iff]
    rintro ⟨h1, h2, _⟩
    exact ht ⟨h1, by omega⟩

/-- 10.1.0.0/12 contains 10.15.0.1 (first twelve bits equal) and not 10.16.0.1 -/
example : let net : Netaddr := ⟨[10, 1] ++ List.replicate 14 0, AF_INET, 12⟩
    isInSubnet net ⟨[10, 15, 0, 1] ++ List.replicate 12 0, AF_INET, 32⟩ = some true ∧
    isInSubnet net ⟨[10, 16, 0, 1] ++ List.replicate 12 0, AF_INET, 32⟩ = some false := by decide +kernel

/-! ## C19 -/

/-- C19: truncation keeps family, prefix length and the first `prefix length` bits and zeroes all
others. -/
theorem C19_truncate (a : Netaddr) (ha : a.WF) (hp : a.prefixLen.toNat ≤ 128) :
    ∃ r, truncate a = some r ∧ r.WF ∧ r.type = a.type ∧ r.prefixLen = a.prefixLen ∧
      (∀ i, i < a.prefixLen.toNat → bit r.addr i = bit a.addr i) ∧
      (∀ i, a.prefixLen.toNat ≤ i → bit r.addr i = false) := by
  unfold Netaddr.WF at ha
  unfold truncate
  generalize hP : a.prefixLen.toNat = p at *
  simp only
  rw [if_neg (by omega)]
  have hlen : (a.addr.take (p / 8)).length = p / 8 := by rw [List.length_take]; omega
  by_cases hb : p % 8 = 0
  · rw [if_neg (by omega)]
    refine ⟨_, rfl, ?_, rfl, rfl, ?_, ?_⟩
    · unfold Netaddr.WF; simp; omega
    · intro i hi
      show bit (a.addr.take (p / 8) ++ List.replicate (16 - p / 8) 0) i = _
      rw [bit_append, hlen, if_pos (by omega), bit_take _ _ _ (by omega)]
    · intro i hi
      show bit (a.addr.take (p / 8) ++ List.replicate (16 - p / 8) 0) i = _
      rw [bit_append, hlen, if_neg (by omega), bit_zeros]
  · rw [if_pos (by omega)]
    have hx : p / 8 < a.addr.length := by omega
    rw [List.getElem?_eq_getElem hx]
    have hbx := fun j => bit_at a.addr (p / 8) j _ (List.getElem?_eq_getElem hx)
    generalize a.addr[p / 8] = x at *
    refine ⟨_, rfl, ?_, rfl, rfl, ?_, ?_⟩
    · unfold Netaddr.WF; simp; omega
    · intro i hi
      show bit (a.addr.take (p / 8) ++ [x &&& MASK.getD (p % 8) 0] ++ List.replicate (16 - (p / 8 + 1)) 0) i = _
      rw [List.append_assoc, bit_append, hlen]
      by_cases h1 : i < 8 * (p / 8)
      · rw [if_pos h1, bit_take _ _ _ h1]
      · rw [if_neg h1, bit_append]
        simp only [List.length_singleton]
        rw [if_pos (by omega), bit_single _ _ (by omega), and_bit, mask_bit _ _ (by omega) (by omega)]
        rw [decide_eq_true (by omega), Bool.and_true, ← hbx _ (by omega)]
        congr 1; omega
    · intro i hi
      show bit (a.addr.take (p / 8) ++ [x &&& MASK.getD (p % 8) 0] ++ List.replicate (16 - (p / 8 + 1)) 0) i = _
      rw [List.append_assoc, bit_append, hlen, if_neg (by omega), bit_append]
      simp only [List.length_singleton]
      by_cases h1 : i - 8 * (p / 8) < 8 * 1
      · rw [if_pos h1, bit_single _ _ (by omega), and_bit, mask_bit _ _ (by omega) (by omega)]
        rw [decide_eq_false (by omega), Bool.and_false]
      · rw [if_neg h1, bit_zeros]

theorem addr_ext (a b : List UInt8) (ha : a.length = 16) (hb : b.length = 16)
    (h : ∀ i, i < 128 → bit a i = bit b i) : a = b := by
  have := (take_eq_iff a b 16 (by omega) (by omega)).2 h
  rwa [List.take_of_length_le (by omega), List.take_of_length_le (by omega)] at this

/-- C19: truncation is idempotent and its result lies inside the subnet of the original address (and
the other way round). -/
theorem C19_truncate_idempotent (a r : Netaddr) (ha : a.WF) (hp : a.prefixLen.toNat ≤ 128)
    (h : truncate a = some r) :
    truncate r = some r ∧ isInSubnet a r = some true ∧ isInSubnet r a = some true := by
  obtain ⟨r', e, hw, ht, hpl, hb1, hb2⟩ := C19_truncate a ha hp
  rw [h] at e
  obtain rfl : r = r' := by simpa using e
  have hp' : r.prefixLen.toNat ≤ 128 := by rw [hpl]; exact hp
  obtain ⟨r2, e2, hw2, ht2, hpl2, hb3, hb4⟩ := C19_truncate r hw hp'
  refine ⟨?_, ?_, ?_⟩
  · rw [e2]
    have : r2.addr = r.addr := by
      apply addr_ext _ _ hw2 hw
      intro i _
      by_cases hi : i < a.prefixLen.toNat
      · exact hb3 i (by rw [hpl]; exact hi)
      · rw [hb4 i (by rw [hpl]; omega), hb2 i (by omega)]
    cases r; cases r2; simp_all
  · obtain ⟨x, e3, h3⟩ := C18_in_subnet a r ha hw hp
    rw [e3, h3.2 ⟨ht.symm, fun i hi => (hb1 i hi).symm⟩]
  · obtain ⟨x, e3, h3⟩ := C18_in_subnet r a hw ha hp'
    rw [e3, h3.2 ⟨ht, fun i hi => hb1 i (by rw [hpl] at hi; exact hi)⟩]

/-- C19: a host address created from a network and a host number has the full prefix length, keeps
the network bits, takes all other bits that the number has from the (right aligned) number and keeps
the remaining bits of the network address. -/
theorem C19_create_host (net : Netaddr) (number : List UInt8) (hw : net.WF)
    (hm : maxPrefix net ≠ 0) (hp : net.prefixLen.toNat ≤ maxPrefix net) :
    ∃ r, createHostBin net number = .ok r ∧ r.WF ∧ r.type = net.type ∧
      r.prefixLen.toNat = maxPrefix net ∧
      ∀ i, bit r.addr i =
        if net.prefixLen.toNat ≤ i ∧ i < maxPrefix net ∧ maxPrefix net ≤ i + 8 * number.length
        then bit number (i + 8 * number.length - maxPrefix net) else bit net.addr i := by
  unfold Netaddr.WF at hw
  have hm128 : maxPrefix net ≤ 128 ∧ maxPrefix net % 8 = 0 := by
    unfold maxPrefix afMaxPrefix
    split <;> (try split) <;> (try split) <;> (try split) <;> omega
  unfold createHostBin
  generalize hM : maxPrefix net = M at *
  generalize hP : net.prefixLen.toNat = p at *
  have hMof : (UInt8.ofNat M).toNat = M := by
    rw [UInt8.toNat_ofNat']; omega
  simp only
  rw [if_neg hm]
  by_cases h0 : M = p ∨ number.length = 0
  · rw [if_pos h0]
    refine ⟨_, rfl, hw, rfl, hMof, fun i => ?_⟩
    rw [if_neg (by omega)]
  · rw [if_neg h0, if_neg (by omega)]
    have hn : 0 < number.length := by omega
    by_cases hbig : (M - p + 7) / 8 > number.length
    · rw [if_pos hbig]
      have hl : (net.addr.take (M / 8 - number.length)).length = M / 8 - number.length := by
        rw [List.length_take]; omega
      refine ⟨_, rfl, ?_, rfl, hMof, fun i => ?_⟩
      · unfold Netaddr.WF
        simp only [List.length_append, hl, List.length_drop]
        omega
      · simp only
        rw [List.append_assoc, bit_append, hl]
        by_cases h1 : i < 8 * (M / 8 - number.length)
        · rw [if_pos h1, bit_take _ _ _ h1, if_neg (by omega)]
        · rw [if_neg h1, bit_append]
          by_cases h2 : i - 8 * (M / 8 - number.length) < 8 * number.length
          · rw [if_pos h2, if_pos (by omega)]
            congr 1; omega
          · rw [if_neg h2, bit_drop, if_neg (by omega)]
            congr 1; omega
    · rw [if_neg hbig]
      have hl : (net.addr.take (p / 8)).length = p / 8 := by rw [List.length_take]; omega
      by_cases hb : p % 8 = 0
      · rw [if_neg (by omega)]
        have hl2 : (number.drop (number.length - (M - p + 7) / 8)).length = (M - p + 7) / 8 := by
          rw [List.length_drop]; omega
        refine ⟨_, rfl, ?_, rfl, hMof, fun i => ?_⟩
        · unfold Netaddr.WF
          simp only [List.length_append, hl, List.length_drop]
          omega
        · simp only
          rw [List.append_assoc, bit_append, hl]
          by_cases h1 : i < 8 * (p / 8)
          · rw [if_pos h1, bit_take _ _ _ h1, if_neg (by omega)]
          · rw [if_neg h1, bit_append, hl2]
            by_cases h2 : i - 8 * (p / 8) < 8 * ((M - p + 7) / 8)
            · rw [if_pos h2, bit_drop, if_pos (by omega)]
              congr 1; omega
            · rw [if_neg h2, bit_drop, if_neg (by omega)]
              congr 1; omega
      · rw [if_pos (by omega)]
        have hx : p / 8 < net.addr.length := by omega
        have hy : number.length - (M - p + 7) / 8 < number.length := by omega
        rw [List.getElem?_eq_getElem hx, List.getElem?_eq_getElem hy]
        have hbx := fun j => bit_at net.addr (p / 8) j _ (List.getElem?_eq_getElem hx)
        have hby := fun j => bit_at number _ j _ (List.getElem?_eq_getElem hy)
        generalize net.addr[p / 8] = x at *
        generalize number[number.length - (M - p + 7) / 8] = y at *
        have hl2 : (number.drop (number.length - (M - p + 7) / 8 + 1)).length = (M - p + 7) / 8 - 1 := by
          rw [List.length_drop]; omega
        refine ⟨_, rfl, ?_, rfl, hMof, fun i => ?_⟩
        · unfold Netaddr.WF
          simp only [List.length_append, hl, List.length_drop, List.length_singleton]
          omega
        · simp only
          rw [List.append_assoc, List.append_assoc, bit_append, hl]
          by_cases h1 : i < 8 * (p / 8)
          · rw [if_pos h1, bit_take _ _ _ h1, if_neg (by omega)]
          · rw [if_neg h1, bit_append]
            simp only [List.length_singleton]
            by_cases h2 : i - 8 * (p / 8) < 8 * 1
            · rw [if_pos h2, bit_single _ _ (by omega), or_bit, and_bit, and_bit,
                mask2_bit _ _ (by omega) (by omega), not_mask2_bit _ _ (by omega) (by omega)]
              by_cases h3 : p ≤ i
              · rw [decide_eq_false (by omega), decide_eq_true (by omega), if_pos (by omega),
                  Bool.and_false, Bool.false_or, Bool.and_true, ← hby _ (by omega)]
                congr 1; omega
              · rw [decide_eq_true (by omega), decide_eq_false (by omega), if_neg (by omega),
                  Bool.and_false, Bool.or_false, Bool.and_true, ← hbx _ (by omega)]
                congr 1; omega
            · rw [if_neg h2, bit_append, hl2]
              by_cases h3 : i - 8 * (p / 8) - 8 * 1 < 8 * ((M - p + 7) / 8 - 1)
              · rw [if_pos h3, bit_drop, if_pos (by omega)]
                congr 1; omega
              · rw [if_neg h3, bit_drop, if_neg (by omega)]
                congr 1; omega

/-- 169.254.0.0/16 completed with the number 0x0102, and 10.0.0.0/12 completed with 0xff 0x01 -/
example : createHostBin ⟨[169, 254] ++ List.replicate 14 0, AF_INET, 16⟩ [1, 2]
      = .ok ⟨[169, 254, 1, 2] ++ List.replicate 12 0, AF_INET, 32⟩ ∧
    createHostBin ⟨[10, 16] ++ List.replicate 14 0, AF_INET, 12⟩ [255, 255, 255, 1]
      = .ok ⟨[10, 31, 255, 1] ++ List.replicate 12 0, AF_INET, 32⟩ := by decide +kernel

/-! ## C20 -/

/-- the IPv4 netmask of `n` one bits, in host byte order -/
def netmask32 (n : Nat) : Nat := 2 ^ 32 - 2 ^ (32 - n)

theorem netmask32_step (n : Nat) (h1 : 1 ≤ n) (h : n ≤ 32) :
    netmask32 n * 2 % 2 ^ 32 = netmask32 (n - 1) := by
  unfold netmask32
  have e : 2 ^ (32 - (n - 1)) = 2 ^ (32 - n) * 2 := by
    rw [← Nat.pow_succ]; congr 1; omega
  have hpos : 0 < 2 ^ (32 - n) := Nat.pow_pos (by omega)
  have hle : 2 ^ (32 - (n - 1)) ≤ 2 ^ 32 := Nat.pow_le_pow_right (by omega) (by omega)
  rw [e] at hle ⊢
  omega

theorem netmask32_inj (a b : Nat) (ha : a ≤ 32) (hb : b ≤ 32) (h : netmask32 a = netmask32 b) : a = b := by
  unfold netmask32 at h
  have h1 : 2 ^ (32 - a) ≤ 2 ^ 32 := Nat.pow_le_pow_right (by omega) (by omega)
  have h2 : 2 ^ (32 - b) ≤ 2 ^ 32 := Nat.pow_le_pow_right (by omega) (by omega)
  have h3 : 2 ^ (32 - a) = 2 ^ (32 - b) := by omega
  have := (Nat.pow_right_inj (by omega)).1 h3
  omega

theorem subnetLoop_hit (k : Nat) : ∀ (n : Nat), 1 ≤ k → k ≤ n → n ≤ 32 →
    subnetLoop (netmask32 k) n (netmask32 n) = (k : Int) - 1 := by
  intro n
  induction n with
  | zero => intro h1 h2; omega
  | succ n ih =>
    intro h1 h2 h3
    rw [subnetLoop]
    by_cases hk : k = n + 1
    · subst hk; rw [if_pos rfl]; omega
    · rw [if_neg (fun h => hk (netmask32_inj _ _ (by omega) h3 h)), netmask32_step _ (by omega) h3]
      exact ih h1 (by omega) (by omega)

theorem subnetLoop_miss (v : Nat) : ∀ (n : Nat), n ≤ 32 → (∀ k, 1 ≤ k → k ≤ n → v ≠ netmask32 k) →
    subnetLoop v n (netmask32 n) = -1 := by
  intro n
  induction n with
  | zero => intro _ _; rfl
  | succ n ih =>
    intro h3 h
    rw [subnetLoop, if_neg (h (n + 1) (by omega) (Nat.le_refl _)), netmask32_step _ (by omega) h3]
    exact ih (by omega) (fun k h1 h2 => h k h1 (by omega))

/-- C20 is false for the textual IPv4 netmask: *every* netmask of `n ≥ 1` one bits is converted to
`n - 1` (255.255.255.0 becomes /23), and 0.0.0.0 is rejected. -/
theorem C20_subnetmask_counterexample :
    (∀ n, 1 ≤ n → n ≤ 32 → subnetmaskToPrefixlen (netmask32 n) = (n : Int) - 1) ∧
    subnetmaskToPrefixlen (netmask32 0) = -1 := by
  refine ⟨fun n h1 h2 => subnetLoop_hit n 32 h1 h2 (Nat.le_refl _), ?_⟩
  apply subnetLoop_miss _ 32 (Nat.le_refl _)
  intro k h1 h2 h
  have := netmask32_inj 0 k (by omega) h2 h
  omega

/-- C20: every 32 bit number that is no contiguous netmask is rejected. -/
theorem C20_noncontiguous_rejected (v : Nat) (h : ∀ n, n ≤ 32 → v ≠ netmask32 n) :
    subnetmaskToPrefixlen v = -1 :=
  subnetLoop_miss v 32 (Nat.le_refl _) (fun k _ h2 => h k h2)

example : ∀ n, n ≤ 32 → 0xff00ff00 ≠ netmask32 n := by decide +kernel

/-- bytes of a mask of at most eight one bits -/
def smallMask (n : Nat) : List UInt8 := [UInt8.ofNat (256 - 2 ^ (8 - n))] ++ List.replicate 15 0

/-- C20: a binary netmask of at most eight one bits is converted to its length.  Missing: longer
masks (see the counterexample). -/
theorem C20_create_prefix_partial (host mask : Netaddr) (n : Nat) (hw : mask.WF) (hn : n ≤ 8)
    (ht : host.type = mask.type) (hm : maxPrefix mask ≠ 0) (hbits : ∀ i, bit mask.addr i = decide (i < n)) :
    createPrefixLen host mask = some n := by
  have hsm : ∀ n : Fin 9, ∀ i : Fin 128, bit (smallMask n.val) i.val = decide (i.val < n.val) := by
    decide +kernel
  have e : mask.addr = smallMask n := by
    apply addr_ext _ _ hw (by simp [smallMask])
    intro i hi
    rw [hbits i, hsm ⟨n, by omega⟩ ⟨i, hi⟩]
  have hl : ∀ n : Fin 9, ∀ maxlen, maxlen = 4 ∨ maxlen = 16 ∨ maxlen = 6 ∨ maxlen = 8 →
      prefixLoop (smallMask n.val) maxlen 17 0 0 = some n.val := by
    have : ∀ n : Fin 9, prefixLoop (smallMask n.val) 4 17 0 0 = some n.val ∧
        prefixLoop (smallMask n.val) 16 17 0 0 = some n.val ∧
        prefixLoop (smallMask n.val) 6 17 0 0 = some n.val ∧
        prefixLoop (smallMask n.val) 8 17 0 0 = some n.val := by decide +kernel
    intro n maxlen hx
    rcases hx with rfl | rfl | rfl | rfl
    · exact (this n).1
    · exact (this n).2.1
    · exact (this n).2.2.1
    · exact (this n).2.2.2
  have hmax : afMaxPrefix host.type / 8 = 4 ∨ afMaxPrefix host.type / 8 = 16 ∨
      afMaxPrefix host.type / 8 = 6 ∨ afMaxPrefix host.type / 8 = 8 := by
    rw [ht]
    unfold maxPrefix at hm
    unfold afMaxPrefix at hm ⊢
    split <;> (try split) <;> (try split) <;> (try split) <;> simp_all
  have hus : host.type ≠ AF_UNSPEC := by
    intro h
    apply hm
    unfold maxPrefix
    rw [← ht, h]
    decide
  unfold createPrefixLen
  rw [if_neg (fun h => h.elim (fun h => h ht) (fun h => hus h)), e]
  exact hl ⟨n, by omega⟩ _ hmax

/-- C20 is false: the binary netmask 255.255.0.0 is converted to 8, and the non-contiguous mask
255.0.255.0 to 16. -/
theorem C20_create_prefix_counterexample :
    let mk (l : List UInt8) : Netaddr := ⟨l ++ List.replicate 12 0, AF_INET, 32⟩
    createPrefixLen (mk [10, 0, 0, 1]) (mk [255, 255, 0, 0]) = some 8 ∧
    createPrefixLen (mk [10, 0, 0, 1]) (mk [255, 0, 255, 0]) = some 16 := by decide +kernel

/-! ## C58 -/

/-- bytes behind the address are zero (as all constructors leave them) -/
def Netaddr.Clean (a : Netaddr) : Prop := a.addr.drop (maxPrefix a / 8) = List.replicate (16 - maxPrefix a / 8) 0

theorem clean_split (a : Netaddr) (hc : a.Clean) :
    a.addr.take (maxPrefix a / 8) ++ List.replicate (16 - maxPrefix a / 8) 0 = a.addr := by
  rw [← hc, List.take_append_drop]

theorem maxPrefix_cases (a : Netaddr) (h : maxPrefix a ≠ 0) :
    (a.type = AF_INET ∧ maxPrefix a = 32) ∨ (a.type = AF_INET6 ∧ maxPrefix a = 128) ∨
    (a.type = AF_MAC48 ∧ maxPrefix a = 48) ∨ (a.type = AF_EUI64 ∧ maxPrefix a = 64) := by
  unfold maxPrefix afMaxPrefix at *
  by_cases h1 : a.type = AF_INET
  · simp [h1]
  · by_cases h2 : a.type = AF_INET6
    · simp [h2]; decide
    · by_cases h3 : a.type = AF_MAC48
      · simp [h3]; decide
      · by_cases h4 : a.type = AF_EUI64
        · simp [h4]; decide
        · simp [h1, h2, h3, h4] at h

/-- C58: an address written as binary data and read back (with its family, or with the family
detected from the length) is the same address. -/
theorem C58_binary_roundtrip (a : Netaddr) (len : Nat) (autodetect : Bool) (hw : a.WF) (hc : a.Clean)
    (hm : maxPrefix a ≠ 0) (hlen : maxPrefix a ≤ 8 * len) (hp : a.prefixLen ≠ 255) :
    ∃ b, toBinary a len = some b ∧
      fromBinaryPrefix b (if autodetect then 0 else a.type) a.prefixLen = .ok a := by
  unfold Netaddr.WF at hw
  have hsplit := clean_split a hc
  have hcases := maxPrefix_cases a hm
  have hsh : maxPrefix a >>> 3 = maxPrefix a / 8 := by rw [Nat.shiftRight_eq_div_pow]
  have h8 : maxPrefix a / 8 ≤ 16 ∧ maxPrefix a / 8 ≠ 0 := by omega
  refine ⟨a.addr.take (maxPrefix a / 8), ?_, ?_⟩
  · unfold toBinary
    simp only [hsh]
    rw [if_neg (by omega)]
  · have hl : (a.addr.take (maxPrefix a / 8)).length = maxPrefix a / 8 := by
      rw [List.length_take]; omega
    have hst : store (a.addr.take (maxPrefix a / 8)) = some a.addr := by
      unfold store; rw [hl, if_pos h8.1, hsplit]
    unfold fromBinaryPrefix
    simp only [hl, hp, if_false]
    have htk : (a.addr.take (maxPrefix a / 8)).take (maxPrefix a / 8) = a.addr.take (maxPrefix a / 8) := by
      rw [List.take_take, Nat.min_self]
    have fin : ∀ t, t = a.type → t ≠ AF_UNSPEC →
        (if t = AF_UNSPEC then Out.err (⟨a.addr, t, a.prefixLen⟩ : Netaddr) else .ok ⟨a.addr, t, a.prefixLen⟩) = .ok a := by
      rintro t rfl ht; rw [if_neg ht]
    rcases hcases with ⟨ht, hx⟩ | ⟨ht, hx⟩ | ⟨ht, hx⟩ | ⟨ht, hx⟩ <;>
      · cases autodetect <;>
          simp only [hx, ht, Bool.false_eq_true, if_false, if_true] at * <;>
          simp [hst, htk, AF_INET, AF_INET6, AF_MAC48, AF_EUI64, AF_UNSPEC] at * <;>
          (try rw [htk]) <;> (try rw [hst]) <;> (try (cases a; simp_all))

/-- C58: comparing an address with binary data yields true exactly for the data it would be written
as, with the same family and prefix length. -/
theorem C58_equal_binary (a : Netaddr) (bin : List UInt8) (af : Nat) (p : UInt8) (hw : a.WF) :
    isEqualBinary a bin af p = true ↔
      a.type.toNat = af ∧ a.prefixLen = p ∧ bin = a.addr.take (maxPrefix a / 8) := by
  unfold Netaddr.WF at hw
  have hsh : maxPrefix a >>> 3 = maxPrefix a / 8 := by rw [Nat.shiftRight_eq_div_pow]
  have hle : maxPrefix a / 8 ≤ 16 := by
    by_cases h : maxPrefix a = 0
    · omega
    · have := maxPrefix_cases a h; omega
  unfold isEqualBinary
  simp only [hsh]
  by_cases h1 : a.type.toNat ≠ af ∨ a.prefixLen ≠ p
  · rw [if_pos h1]
    simp only [Bool.false_eq_true, false_iff]
    rintro ⟨h2, h3, _⟩
    rcases h1 with h1 | h1
    · exact h1 h2
    · exact h1 h3
  · rw [if_neg h1]
    have hl : (a.addr.take (maxPrefix a / 8)).length = maxPrefix a / 8 := by
      rw [List.length_take]; omega
    by_cases h2 : maxPrefix a / 8 = bin.length
    · rw [if_neg (by omega), beq_iff_eq, memcmp_zero _ _ (by omega)]
      constructor
      · intro h
        refine ⟨?_, ?_, h.symm⟩
        · exact Decidable.byContradiction (fun hc => h1 (Or.inl hc))
        · exact Decidable.byContradiction (fun hc => h1 (Or.inr hc))
      · intro h; exact h.2.2.symm
    · rw [if_pos h2]
      simp only [Bool.false_eq_true, false_iff]
      rintro ⟨_, _, rfl⟩
      omega

/-- C58: an IP address put into a socket address comes back as host address with the same bytes; the
port is kept. -/
theorem C58_socket_roundtrip (a : Netaddr) (port scope : Nat) (hw : a.WF) (hc : a.Clean)
    (ht : a.type = AF_INET ∨ a.type = AF_INET6) (hport : port < 65536) :
    ∃ s, socketInit a port scope = some s ∧ socketGetPort s = port ∧
      fromSocket s = some { a with prefixLen := UInt8.ofNat (maxPrefix a) } := by
  unfold Netaddr.WF at hw
  have hsplit := clean_split a hc
  rcases ht with ht | ht
  · have hx : maxPrefix a = 32 := by simp [maxPrefix, afMaxPrefix, ht]
    rw [hx] at hsplit
    refine ⟨_, by simp [socketInit, ht]; rfl, by simp [socketGetPort]; omega, ?_⟩
    simp only [fromSocket, if_true, hx, List.take_take]
    rw [show min 4 4 = 4 from rfl]
    have : a.addr.take 4 ++ List.replicate 12 0 = a.addr := hsplit
    rw [this, ← ht]
    rfl
  · have hx : maxPrefix a = 128 := by
      simp [maxPrefix, afMaxPrefix, ht]; decide
    refine ⟨⟨10, a.addr.take 16, port % 65536, scope⟩, ?_, by simp [socketGetPort]; omega, ?_⟩
    · simp [socketInit, ht]; decide
    · simp only [fromSocket, hx, List.take_take]
      have : a.addr.take 16 = a.addr := List.take_of_length_le (by omega)
      simp only [this, show min 16 16 = 16 from rfl, ← ht]
      rfl

/-- C58: comparing an IP address with a socket address yields zero exactly if it is the host address
of the socket. -/
theorem C58_compare_socket (a : Netaddr) (s : Socket) (hw : a.WF) (hc : a.Clean)
    (ht : a.type = AF_INET ∨ a.type = AF_INET6) (hs : s.addr.length = 16) :
    cmpToSocket a s = 0 ↔ fromSocket s = some a := by
  unfold Netaddr.WF at hw
  have hsplit := clean_split a hc
  unfold cmpToSocket fromSocket
  have h32 : a.prefixLen.toNat = 32 ↔ a.prefixLen = 32 := by
    rw [← UInt8.toNat_inj]; rfl
  have h128 : a.prefixLen.toNat = 128 ↔ a.prefixLen = 128 := by
    rw [← UInt8.toNat_inj]; rfl
  rcases ht with ht | ht
  · have hx : maxPrefix a = 32 := by simp [maxPrefix, afMaxPrefix, ht]
    rw [hx] at hsplit
    have hsplit : a.addr.take 4 ++ List.replicate 12 0 = a.addr := hsplit
    have htn : a.type.toNat = 2 := by rw [ht]; rfl
    simp only [ht, if_true]
    have hta : AF_INET.toNat = 2 := rfl
    rw [hta]
    by_cases hf : s.family = 2
    · rw [if_neg (by omega), if_pos hf]
      have hz := memcmp_zero (a.addr.take 4) (s.addr.take 4) (by simp [hw, hs])
      by_cases hm : memcmp (a.addr.take 4) (s.addr.take 4) = 0
      · rw [if_neg (by omega)]
        have := hz.1 hm
        rw [← this, hsplit]
        constructor
        · intro h
          have : a.prefixLen = 32 := h32.1 (by omega)
          cases a; simp_all
        · intro h
          have : a.prefixLen = 32 := by
            have := congrArg (Option.map Netaddr.prefixLen) h
            simpa using this.symm
          rw [this]; rfl
      · rw [if_pos hm]
        constructor
        · intro h; exact absurd h hm
        · intro h
          exfalso; apply hm; apply hz.2
          have h2 := congrArg (Option.map (fun x : Netaddr => x.addr.take 4)) h
          simp only [Option.map_some, Option.some.injEq] at h2
          rw [← h2]
          simp [hs]
    · rw [if_pos (by omega), if_neg hf]
      constructor
      · intro h; omega
      · intro h
        exfalso
        split at h
        · have := congrArg (Option.map Netaddr.type) h
          simp [ht] at this
          exact absurd this (by decide)
        · simp at h
  · have hx : maxPrefix a = 128 := by
      simp [maxPrefix, afMaxPrefix, ht]; decide
    have hne : ¬ (AF_INET6 = AF_INET) := by decide
    have hta : AF_INET6.toNat = 10 := rfl
    simp only [ht, if_neg hne, if_true]
    rw [hta]
    have t1 : a.addr.take 16 = a.addr := List.take_of_length_le (by omega)
    have t2 : s.addr.take 16 = s.addr := List.take_of_length_le (by omega)
    rw [t1, t2]
    have hz := memcmp_zero a.addr s.addr (by omega)
    by_cases hf : s.family = 10
    · rw [if_neg (by omega), if_neg (show ¬ s.family = 2 by omega), if_pos hf]
      by_cases hm : memcmp a.addr s.addr = 0
      · rw [if_neg (by omega), ← hz.1 hm]
        constructor
        · intro h
          have : a.prefixLen = 128 := h128.1 (by omega)
          cases a; simp_all
        · intro h
          have : a.prefixLen = 128 := by
            have := congrArg (Option.map Netaddr.prefixLen) h
            simpa using this.symm
          rw [this]; rfl
      · rw [if_pos hm]
        constructor
        · intro h; exact absurd h hm
        · intro h
          exfalso; apply hm; apply hz.2
          have h2 := congrArg (Option.map Netaddr.addr) h
          simpa using h2.symm
    · rw [if_pos (by omega), if_neg hf]
      constructor
      · intro h; omega
      · intro h
        exfalso
        split at h
        · have := congrArg (Option.map Netaddr.type) h
          simp [ht] at this
          exact absurd this (by decide)
        · simp at h

/-- C58: an IPv4 prefix embedded into an IPv6 address is extracted unchanged. -/
theorem C58_embed_extract (a : Netaddr) (hc : a.Clean) (ht : a.type = AF_INET) :
    extractIpv4 (embedIpv4 a) = a := by
  have hsplit := clean_split a hc
  have hx : maxPrefix a = 32 := by simp [maxPrefix, afMaxPrefix, ht]
  rw [hx] at hsplit
  have hsplit : a.addr.take 4 ++ List.replicate 12 0 = a.addr := hsplit
  unfold extractIpv4 embedIpv4
  simp only
  rw [List.drop_append_of_le_length (by simp)]
  have : (List.replicate 12 (0 : UInt8)).drop 12 = [] := rfl
  rw [this, List.nil_append, List.take_take, show min 4 4 = 4 from rfl, hsplit, ← ht]
  simp

example : let a : Netaddr := ⟨[10, 0, 0, 1] ++ List.replicate 12 0, AF_INET, 24⟩
    a.WF ∧ maxPrefix a = 32 ∧ a.addr.drop 4 = List.replicate 12 0 ∧
    fromBinaryPrefix [10, 0, 0, 1] 0 24 = .ok a := by decide +kernel

end Verif.Netaddr
