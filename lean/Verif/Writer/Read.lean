import Verif.Writer.Runs

/-! Reading of written address blocks and TLVs. -/
namespace Verif.Writer
open Verif.Reader (Bytes S R Tlv Block parseTlv tlvValue tlvLoop parseTlvblock insertTlv blockLoop parseAddrblock valueAt indexMatch plenOf getU16)

/-! ### one address TLV -/

/-- indices of a run -/
def Run.idx (n : Nat) (r : Run) : Idx :=
  if r.first = 0 ∧ r.last = n - 1 then .all else if r.first = r.last then .one (lo r.first) else .range (lo r.first) (lo r.last)

/-- value of a run -/
def Run.value (r : Run) : Bytes := if r.same then r.values.headD [] else r.values.flatten

theorem flatten_length {L : Nat} : ∀ {l : List Bytes}, (∀ v ∈ l, v.length = L) → l.flatten.length = L * l.length
  | [], _ => by simp
  | v :: l, h => by
    rw [List.flatten_cons, List.length_append, h v List.mem_cons_self, flatten_length fun w hw => h w (List.mem_cons_of_mem _ hw), List.length_cons,
      Nat.mul_add, Nat.mul_one, Nat.add_comm]

theorem flatten_slice {L : Nat} : ∀ {l : List Bytes} {i : Nat}, i < l.length → (∀ v ∈ l, v.length = L) → (l.flatten.drop (i * L)).take L = l.getD i []
  | v :: l, 0, _, h => by
    rw [Nat.zero_mul, List.drop_zero, List.flatten_cons]
    exact List.take_left' (h v List.mem_cons_self)
  | v :: l, i + 1, hi, h => by
    rw [List.flatten_cons, show (i + 1) * L = L + i * L by rw [Nat.add_mul]; omega, ← List.drop_drop, List.drop_left' (h v List.mem_cons_self)]
    rw [flatten_slice (by simpa using hi) fun w hw => h w (List.mem_cons_of_mem _ hw)]
    rfl

theorem value_length {r : Run} (h : r.WF) :
    r.value.length = if r.same then (r.values.headD []).length else (r.values.headD []).length * (r.last - r.first + 1) := by
  unfold Run.value
  split
  · rfl
  · rw [flatten_length h.len, h.count]

theorem or_flags {a b c d e f : UInt8} (ha : a = 0 ∨ a = 0x80) (hb : b = 0 ∨ b = 0x40 ∨ b = 0x20) (hc : c = 0 ∨ c = 0x04)
    (hde : (d = 0 ∧ e = 0 ∧ f = 0) ∨ (d = 0 ∧ e = 0x10 ∧ f = 0x10) ∨ (d = 0x08 ∧ e = 0x10 ∧ f = 0x18)) :
    a ||| b ||| c ||| d ||| e = a ||| b ||| f ||| c := by
  rcases ha with rfl | rfl <;> rcases hb with rfl | rfl | rfl <;> rcases hc with rfl | rfl <;>
    rcases hde with ⟨rfl, rfl, rfl⟩ | ⟨rfl, rfl, rfl⟩ | ⟨rfl, rfl, rfl⟩ <;> decide

theorem writeRun_enc {n : Nat} {r : Run} (h : r.WF) (hl : r.value.length ≤ 65535) :
    writeRun n r = enc r.type r.ext (r.idx n) (!r.same) r.value := by
  have hv := value_length h
  have htotal : (if r.same then (r.values.headD []).length else (r.values.headD []).length * (r.last - r.first + 1) % 65536) = r.value.length := by
    rw [hv]
    by_cases hs : r.same = true
    · rw [if_pos hs, if_pos hs]
    · rw [if_neg hs, if_neg hs]
      rw [if_neg hs] at hv
      rw [Nat.mod_eq_of_lt (by omega)]
  have hval : (if (r.values.headD []).length > 0 then if r.same then r.values.headD [] else r.values.flatten else []) = r.value := by
    unfold Run.value
    by_cases h0 : (r.values.headD []).length > 0
    · rw [if_pos h0]
    · rw [if_neg h0]
      have h0 : (r.values.headD []).length = 0 := by omega
      have hs : r.same = true := by
        cases hs : r.same with
        | true => rfl
        | false => have := (h.multi hs).2; omega
      rw [if_pos hs]
      exact (List.length_eq_zero_iff.1 h0).symm
  unfold writeRun
  dsimp only
  rw [htotal, hval]
  unfold enc encFlags extFlag lenFlag lenBytes
  have hflags := or_flags (a := if r.ext ≠ 0 then 0x80 else 0)
    (b := if r.first = 0 ∧ r.last = n - 1 then 0 else if r.first = r.last then 0x40 else 0x20) (c := if r.same then 0 else 0x04)
    (d := if r.value.length > 255 then 0x08 else 0) (e := if r.value.length > 0 then 0x10 else 0)
    (f := if r.value.length > 255 then 0x18 else if r.value.length > 0 then 0x10 else 0)
    (by split <;> simp) (by split; · simp
                            · split <;> simp) (by split <;> simp)
    (by
      by_cases h1 : r.value.length > 255
      · right; right
        rw [if_pos h1, if_pos (by omega), if_pos h1]
        simp
      · rw [if_neg h1, if_neg h1]
        by_cases h2 : r.value.length > 0
        · right; left
          rw [if_pos h2]
          simp
        · left
          rw [if_neg h2]
          simp)
  rw [hflags]
  have hidx : (r.idx n).flag = (if r.first = 0 ∧ r.last = n - 1 then 0 else if r.first = r.last then 0x40 else 0x20) := by
    unfold Run.idx Idx.flag
    by_cases h1 : r.first = 0 ∧ r.last = n - 1
    · rw [if_pos h1, if_pos h1]
    · rw [if_neg h1, if_neg h1]
      by_cases h2 : r.first = r.last
      · rw [if_pos h2, if_pos h2]
      · rw [if_neg h2, if_neg h2]
  have hbytes : (r.idx n).bytes = (if r.first = 0 ∧ r.last = n - 1 then [] else if r.first = r.last then [lo r.first] else [lo r.first, lo r.last]) := by
    unfold Run.idx Idx.bytes
    by_cases h1 : r.first = 0 ∧ r.last = n - 1
    · rw [if_pos h1, if_pos h1]
    · rw [if_neg h1, if_neg h1]
      by_cases h2 : r.first = r.last
      · rw [if_pos h2, if_pos h2]
      · rw [if_neg h2, if_neg h2]
  have hmulti : (if (!r.same) = true then (0x04 : UInt8) else 0) = (if r.same then 0 else 0x04) := by cases r.same <;> rfl
  rw [hidx, hbytes, hmulti]
  have hlen : (if r.value.length > 255 then [hi r.value.length] else []) ++ (if r.value.length > 0 then [lo r.value.length] else []) =
      (if r.value.length > 255 then [hi r.value.length, lo r.value.length] else if r.value.length > 0 then [lo r.value.length] else []) := by
    by_cases h1 : r.value.length > 255
    · rw [if_pos h1, if_pos h1, if_pos (by omega)]
      rfl
    · rw [if_neg h1, if_neg h1]
      rfl
  rw [← hlen]
  simp only [List.append_assoc, List.cons_append, List.nil_append]

theorem value_le_write {n : Nat} {r : Run} (h : r.WF) : r.value.length ≤ (writeRun n r).length := by
  unfold writeRun
  dsimp only
  rw [List.length_append]
  have : r.value.length ≤ (if (r.values.headD []).length > 0 then if r.same then r.values.headD [] else r.values.flatten else []).length := by
    unfold Run.value
    by_cases h0 : (r.values.headD []).length > 0
    · rw [if_pos h0]
      exact Nat.le_refl _
    · have hs : r.same = true := by
        cases hs : r.same with
        | true => rfl
        | false => have := (h.multi hs).2; omega
      rw [if_pos hs]
      omega
  omega

/-- the TLV that was read for a run -/
structure Reads (r : Run) (t : Tlv) : Prop where
  type : t.type = r.type
  ext : t.ext = r.ext
  first : t.index1.toNat = r.first
  last : t.index2.toNat = r.last
  drop : t.drop = []
  value : ∀ i, r.first ≤ i → i ≤ r.last → valueAt t i = r.values.getD (i - r.first) []

theorem getD_mem {l : List Bytes} {i : Nat} (h : i < l.length) : l.getD i [] ∈ l := by
  rw [List.getD_eq_getElem?_getD, List.getElem?_eq_getElem h]
  exact List.getElem_mem h

theorem parseTlv_run {n : Nat} {r : Run} (h : r.WF) (hl : r.value.length ≤ 65535) (hn : r.last < n ∧ n ≤ 255) (id : Nat) (rest : Bytes) :
    ∃ t, parseTlv id (writeRun n r ++ rest) (lo n) = .ok (t, rest) ∧ Reads r t := by
  have hle := h.le
  have hnn : (lo n).toNat = n := lo_toNat' hn.2
  have hfirst : (r.idx n).first.toNat = r.first := by
    unfold Run.idx
    by_cases h1 : r.first = 0 ∧ r.last = n - 1
    · rw [if_pos h1, h1.1]
      rfl
    · rw [if_neg h1]
      by_cases h2 : r.first = r.last
      · rw [if_pos h2]
        exact lo_toNat' (by omega)
      · rw [if_neg h2]
        exact lo_toNat' (by omega)
  have hlast : ((r.idx n).last (lo n)).toNat = r.last := by
    unfold Run.idx
    by_cases h1 : r.first = 0 ∧ r.last = n - 1
    · rw [if_pos h1]
      show (lo n - 1).toNat = r.last
      rw [UInt8.toNat_sub_of_le, hnn, h1.2]
      · rfl
      · rw [UInt8.le_iff_toNat_le, hnn]
        show 1 ≤ n
        omega
    · rw [if_neg h1]
      by_cases h2 : r.first = r.last
      · rw [if_pos h2]
        show (lo r.first).toNat = r.last
        rw [lo_toNat' (by omega), h2]
      · rw [if_neg h2]
        exact lo_toNat' (by omega)
  rw [writeRun_enc h hl, parseTlv_enc id r.type r.ext (r.idx n) (!r.same) r.value rest (lo n) hl (by
    intro _
    rw [UInt8.lt_iff_toNat_lt, UInt8.lt_iff_toNat_lt, hfirst, hlast, hnn]
    omega)]
  have hf := (encFlags_and r.ext (r.idx n) (!r.same) r.value.length).2.2.2
  generalize encFlags r.ext (r.idx n) (!r.same) r.value.length = flags at hf
  have hv := value_length h
  cases hs : r.same with
  | true =>
    rw [hs] at hf
    rw [tlvValue_single (by simpa using hf)]
    refine ⟨_, rfl, rfl, rfl, hfirst, hlast, rfl, ?_⟩
    intro i h1 h2
    unfold valueAt
    dsimp only
    rw [if_neg (by decide), List.take_length, h.same hs _ (getD_mem (by rw [h.count]; omega))]
    unfold Run.value
    rw [if_pos hs]
  | false =>
    have hm := h.multi hs
    rw [hs] at hf hv
    rw [if_neg (by decide)] at hv
    have hcount : ((r.idx n).last (lo n) - (r.idx n).first + 1).toNat = r.last - r.first + 1 := by
      rw [UInt8.toNat_add, UInt8.toNat_sub_of_le, hlast, hfirst]
      · show (r.last - r.first + 1) % 256 = _
        omega
      · rw [UInt8.le_iff_toNat_le, hlast, hfirst]
        omega
    have htv : tlvValue flags (r.idx n).first ((r.idx n).last (lo n)) r.value.length = .ok ((r.values.headD []).length, true) := by
      unfold tlvValue
      have hf' : flags &&& 0x04 ≠ 0 := by rw [hf]; decide
      dsimp only
      have hpos : r.value.length ≠ 0 := by
        rw [hv]
        exact Nat.mul_ne_zero (by omega) (by omega)
      rw [if_neg hpos]
      have hc1 : (r.idx n).last (lo n) - (r.idx n).first + 1 ≠ 1 := by
        intro h1
        have := congrArg UInt8.toNat h1
        rw [hcount] at this
        have e1 : (1 : UInt8).toNat = 1 := rfl
        rw [e1] at this
        omega
      have hc0 : (r.idx n).last (lo n) - (r.idx n).first + 1 ≠ 0 := by
        intro h1
        have := congrArg UInt8.toNat h1
        rw [hcount] at this
        simp at this
      rw [if_neg hc1, if_neg (by simpa using hf'), if_neg hc0, hcount, hv, if_neg (by rw [Nat.mul_mod_left]; simp), Nat.mul_div_cancel _ (by omega)]
    rw [htv]
    refine ⟨_, rfl, rfl, rfl, hfirst, hlast, rfl, ?_⟩
    intro i h1 h2
    unfold valueAt
    dsimp only
    rw [if_pos rfl, hfirst]
    have : r.value = r.values.flatten := by
      unfold Run.value
      rw [hs]
      simp
    rw [this]
    exact flatten_slice (by rw [h.count]; omega) h.len

/-! ### TLV blocks -/

theorem insertTlv_perm (t : Tlv) : ∀ l : List Tlv, (insertTlv t l).Perm (t :: l)
  | [] => List.Perm.refl _
  | u :: us => by
    unfold insertTlv
    split
    · exact ((insertTlv_perm t us).cons u).trans (List.Perm.swap t u us)
    · exact List.Perm.refl _

/-- sorted by type -/
def Sorted (l : List Tlv) : Prop := l.Pairwise fun t u => t.order ≤ u.order

theorem insertTlv_sorted (t : Tlv) : ∀ {l : List Tlv}, Sorted l → Sorted (insertTlv t l)
  | [], _ => by simp [insertTlv, Sorted]
  | u :: us, h => by
    have h' := List.pairwise_cons.1 h
    unfold insertTlv
    split
    · rename_i hle
      apply List.pairwise_cons.2
      refine ⟨?_, insertTlv_sorted t h'.2⟩
      intro x hx
      rcases List.mem_cons.1 ((insertTlv_perm t us).subset hx) with rfl | hx
      · exact hle
      · exact h'.1 x hx
    · rename_i hle
      apply List.pairwise_cons.2
      refine ⟨?_, h⟩
      intro x hx
      rcases List.mem_cons.1 hx with rfl | hx
      · omega
      · have := h'.1 x hx
        omega

/-- pairs of what was written and what was read -/
inductive Pairs {α : Type} (Q : α → Tlv → Prop) : List α → List Tlv → Prop
  | nil : Pairs Q [] []
  | cons {x : α} {t : Tlv} {xs : List α} {ts : List Tlv} : Q x t → Pairs Q xs ts → Pairs Q (x :: xs) (t :: ts)

theorem tlvLoop_write {α : Type} {w : α → Bytes} {Q : α → Tlv → Prop} {n : UInt8} {mem : Nat → Bool} (hmem : ∀ k, mem k = true) {rest : Bytes} :
    ∀ (xs : List α), (∀ x ∈ xs, w x ≠ [] ∧ ∀ id rest, ∃ t, parseTlv id (w x ++ rest) n = .ok (t, rest) ∧ Q x t) →
    ∀ (fuel k id : Nat) (tlvs : List Tlv), xs.length < fuel → Sorted tlvs →
    ∃ ts l, Pairs Q xs ts ∧ tlvLoop mem n rest.length fuel k id (xs.flatMap w ++ rest) tlvs = .ok (l, rest, k + xs.length) ∧
      l.Perm (tlvs ++ ts) ∧ Sorted l
  | [], _, fuel, k, id, tlvs, hf, hs => by
    obtain ⟨f, rfl⟩ : ∃ f, fuel = f + 1 := ⟨fuel - 1, by simp at hf; omega⟩
    refine ⟨[], tlvs, .nil, ?_, by simp, hs⟩
    unfold tlvLoop
    simp
  | x :: xs, hx, fuel, k, id, tlvs, hf, hs => by
    obtain ⟨f, rfl⟩ : ∃ f, fuel = f + 1 := ⟨fuel - 1, by simp at hf; omega⟩
    obtain ⟨h1, h2⟩ := hx x List.mem_cons_self
    obtain ⟨t, ht, hq⟩ := h2 id (xs.flatMap w ++ rest)
    obtain ⟨ts, l, r1, r2, r3, r4⟩ := tlvLoop_write hmem (rest := rest) xs (fun y hy => hx y (List.mem_cons_of_mem _ hy)) f (k + 1) (id + 1)
      (insertTlv t tlvs) (by simpa using hf) (insertTlv_sorted t hs)
    refine ⟨t :: ts, l, .cons hq r1, ?_, ?_, r4⟩
    · unfold tlvLoop
      have hpos : 0 < (w x).length := List.length_pos_iff.2 h1
      rw [if_neg (by simp only [List.flatMap_cons, List.length_append]; omega), List.flatMap_cons, List.append_assoc, ht]
      dsimp only
      rw [hmem, if_neg (by decide), r2, List.length_cons]
      congr 3
      omega
    · refine r3.trans ?_
      exact ((insertTlv_perm t tlvs).append_right ts).trans List.perm_middle.symm

theorem parseTlvblock_write {α : Type} {w : α → Bytes} {Q : α → Tlv → Prop} {n : UInt8} {mem : Nat → Bool} (hmem : ∀ k, mem k = true) (rest : Bytes)
    (xs : List α) (hx : ∀ x ∈ xs, w x ≠ [] ∧ ∀ id rest, ∃ t, parseTlv id (w x ++ rest) n = .ok (t, rest) ∧ Q x t) (k : Nat)
    (hlen : (xs.flatMap w).length ≤ 65535) :
    ∃ ts l, Pairs Q xs ts ∧ parseTlvblock mem k (hi (xs.flatMap w).length :: lo (xs.flatMap w).length :: (xs.flatMap w ++ rest)) n = .ok (l, rest, k + xs.length) ∧
      l.Perm ts ∧ Sorted l := by
  have hge : xs.length ≤ (xs.flatMap w).length := by
    clear hlen
    induction xs with
    | nil => simp
    | cons x xs ih =>
      have := ih fun y hy => hx y (List.mem_cons_of_mem _ hy)
      have hpos : 0 < (w x).length := List.length_pos_iff.2 (hx x List.mem_cons_self).1
      rw [List.flatMap_cons, List.length_append, List.length_cons]
      omega
  unfold parseTlvblock
  have h16 : getU16 ⟨hi (xs.flatMap w).length :: lo (xs.flatMap w).length :: (xs.flatMap w ++ rest), Verif.Reader.OKAY⟩ =
      ((xs.flatMap w).length, ⟨xs.flatMap w ++ rest, Verif.Reader.OKAY⟩) := by
    unfold getU16
    simp only [getU8_c]
    rw [hi_toNat (by omega), lo_toNat]
    congr 1
    omega
  rw [h16]
  dsimp only
  rw [if_neg (by simp only [List.length_cons, List.length_append]; omega)]
  rw [show (hi (xs.flatMap w).length :: lo (xs.flatMap w).length :: (xs.flatMap w ++ rest)).length - (2 + (xs.flatMap w).length) = rest.length by
    simp only [List.length_cons, List.length_append]; omega]
  obtain ⟨ts, l, r1, r2, r3, r4⟩ := tlvLoop_write hmem (rest := rest) xs hx
    ((hi (xs.flatMap w).length :: lo (xs.flatMap w).length :: (xs.flatMap w ++ rest)).length + 1) k 0 [] (by
      simp only [List.length_cons, List.length_append]; omega) (by simp [Sorted])
  exact ⟨ts, l, r1, r2, by simpa using r3, r4⟩

/-! ### the TLVs of an address -/

/-- a sorted list is determined by its elements -/
theorem eq_of_perm {α : Type} {f : α → Nat} : ∀ {l m : List α}, l.Perm m → l.Pairwise (fun x y => f x ≤ f y) → m.Pairwise (fun x y => f x < f y) → l = m
  | l, [], h, _, _ => List.perm_nil.1 h
  | [], b :: m, h, _, _ => absurd (List.nil_perm.1 h) (by simp)
  | a :: l, b :: m, h, hl, hm => by
    have hl' := List.pairwise_cons.1 hl
    have hm' := List.pairwise_cons.1 hm
    have hab : a = b := by
      rcases List.mem_cons.1 (h.subset List.mem_cons_self) with h1 | h1
      · exact h1
      · rcases List.mem_cons.1 (h.symm.subset List.mem_cons_self) with h2 | h2
        · exact h2.symm
        · have := hm'.1 a h1
          have := hl'.1 b h2
          omega
    subst hab
    rw [eq_of_perm (List.Perm.cons_inv h) hl'.2 hm'.2]

/-- the TLVs of address `i` of a block, as given to consumers -/
def tlvsOf (tlvs : List Tlv) (i : Nat) : List ATlv := (tlvs.filter fun t => indexMatch t i).map fun t => ⟨t.type, t.ext, valueAt t i⟩

theorem pairs_at {i : Nat} : ∀ {rs : List Run} {ts : List Tlv}, Pairs Reads rs ts → tlvsOf ts i = rs.filterMap (Run.at i)
  | [], _, h => by cases h; rfl
  | r :: rs, _, h => by
    cases h with
    | cons hr h =>
      rename_i t ts
      have ih := pairs_at (i := i) h
      unfold tlvsOf at ih ⊢
      rw [List.filterMap_cons, List.filter_cons]
      have hm : indexMatch t i = decide (r.first ≤ i ∧ i ≤ r.last) := by
        unfold indexMatch
        rw [hr.drop, hr.first, hr.last]
        simp
      rw [hm]
      have hat : r.at i = if r.first ≤ i ∧ i ≤ r.last then some ⟨r.type, r.ext, r.values.getD (i - r.first) []⟩ else none := rfl
      rw [hat]
      by_cases hc : r.first ≤ i ∧ i ≤ r.last
      · rw [if_pos (by simpa using hc), if_pos hc, List.map_cons, hr.type, hr.ext, hr.value i hc.1 hc.2]
        dsimp only
        rw [← ih]
      · rw [if_neg (by simpa using hc), if_neg hc]
        dsimp only
        rw [← ih]

theorem tlvsOf_perm {ts l : List Tlv} (h : l.Perm ts) (i : Nat) : (tlvsOf l i).Perm (tlvsOf ts i) := (h.filter _).map _

theorem tlvsOf_sorted {l : List Tlv} (h : Sorted l) (i : Nat) : (tlvsOf l i).Pairwise fun t u => t.full ≤ u.full := by
  unfold tlvsOf
  rw [List.pairwise_map]
  exact List.Pairwise.imp (fun h => h) (List.Pairwise.filter _ h)

/-- TLVs of an address in the order of the tree, all of different type -/
def TlvsOk (a : WAddr) : Prop := a.tlvs.Pairwise fun t u => t.full < u.full

theorem TlvsOk.distinct {a : WAddr} (h : TlvsOk a) : Distinct a.tlvs := List.Pairwise.imp (fun h => Nat.ne_of_lt h) h

theorem writeRun_ne (n : Nat) (r : Run) : writeRun n r ≠ [] := by
  unfold writeRun
  simp

/-- a written TLV block of an address block is read: every address has its TLVs -/
theorem tlvs_read {mem : Nat → Bool} (hmem : ∀ k, mem k = true) (rest : Bytes) {blk : List WAddr} (hok : ∀ a ∈ blk, TlvsOk a) (hn : blk.length ≤ 255)
    (prev : Option WAddr) (k : Nat) (hlen : ((runs prev blk).flatMap (writeRun blk.length)).length ≤ 65535) :
    ∃ l k', parseTlvblock mem k ([hi ((runs prev blk).flatMap (writeRun blk.length)).length, lo ((runs prev blk).flatMap (writeRun blk.length)).length] ++
        ((runs prev blk).flatMap (writeRun blk.length) ++ rest)) (lo blk.length) = .ok (l, rest, k') ∧
      ∀ i (h : i < blk.length), tlvsOf l i = blk[i].tlvs := by
  obtain ⟨h1, h2⟩ := runs_spec prev fun a ha => (hok a ha).distinct
  obtain ⟨ts, l, r1, r2, r3, r4⟩ := parseTlvblock_write (w := writeRun blk.length) (Q := Reads) (n := lo blk.length) hmem rest (runs prev blk) (by
    intro r hr
    refine ⟨writeRun_ne _ _, ?_⟩
    intro id rest
    refine parseTlv_run (h1 r hr).1 ?_ ⟨(h1 r hr).2, hn⟩ id rest
    refine Nat.le_trans (value_le_write (n := blk.length) (h1 r hr).1) (Nat.le_trans ?_ hlen)
    exact (List.sublist_flatten_of_mem (List.mem_map_of_mem hr)).length_le) k hlen
  refine ⟨l, _, r2, ?_⟩
  intro i hi
  have hp : (tlvsOf l i).Perm blk[i].tlvs := by
    refine (tlvsOf_perm r3 i).trans ?_
    rw [pairs_at r1]
    exact h2 i hi
  exact eq_of_perm hp (tlvsOf_sorted r4 i) (hok _ (List.getElem_mem hi))

/-! ### the address blocks of a message -/

/-- what a consumer sees of the addresses of a block: address, prefix length and TLVs -/
def seen (addrLen : Nat) (b : Block) : List (Option Bytes × Option UInt8 × List ATlv) :=
  (List.range b.num.toNat).map fun i => (decode addrLen b i, plenOf b i, tlvsOf b.tlvs i)

/-- what was given to the writer -/
def given (a : WAddr) : Option Bytes × Option UInt8 × List ATlv := (some a.addr.bytes, some a.addr.plen, a.tlvs)

/-- the addresses of a block -/
def Blk.of (as : List WAddr) (b : Blk) : List WAddr := (as.drop b.first).take (b.last - b.first + 1)

theorem seen_eq {addrLen : Nat} {b : Block} {blk : List WAddr} (hn : b.num.toNat = blk.length)
    (h1 : ∀ i (h : i < blk.length), decode addrLen b i = some blk[i].addr.bytes ∧ plenOf b i = some blk[i].addr.plen)
    (h2 : ∀ i (h : i < blk.length), tlvsOf b.tlvs i = blk[i].tlvs) : seen addrLen b = blk.map given := by
  unfold seen
  apply List.ext_getElem
  · simp [hn]
  · intro i hi1 hi2
    have hi : i < blk.length := by simpa using hi2
    simp only [List.getElem_map, List.getElem_range]
    unfold given
    rw [(h1 i hi).1, (h1 i hi).2, h2 i hi]

theorem blockLoop_write {addrLen : Nat} {as : List WAddr} {mem : Nat → Bool} {more : Bool} (hmem : ∀ k, mem k = true) (hok : ∀ a ∈ as, TlvsOk a) :
    ∀ (bs : List Blk), (∀ b ∈ bs, BlockCond addrLen b.head b.multi ((b.of as).map WAddr.addr)) →
      (∀ b ∈ bs, (writeBlk addrLen as b).length ≤ 65535) →
    ∀ (fuel k : Nat) (blocks : List Block), bs.length < fuel →
    ∃ out k', blockLoop mem more (lo addrLen) fuel k (bs.flatMap (writeBlk addrLen as)) blocks = .ok (blocks ++ out, k') ∧
      out.flatMap (seen addrLen) = (bs.flatMap (Blk.of as)).map given
  | [], _, _, fuel, k, blocks, hf => by
    obtain ⟨f, rfl⟩ : ∃ f, fuel = f + 1 := ⟨fuel - 1, by simp at hf; omega⟩
    refine ⟨[], k, ?_, rfl⟩
    unfold blockLoop
    simp
  | b :: bs, hc, hl, fuel, k, blocks, hf => by
    obtain ⟨f, rfl⟩ : ∃ f, fuel = f + 1 := ⟨fuel - 1, by simp at hf; omega⟩
    have hb := hc b List.mem_cons_self
    have hlen := hl b List.mem_cons_self
    let rest := bs.flatMap (writeBlk addrLen as)
    let prev := if b.first = 0 then none else as[b.first - 1]?
    let tlvs := (runs prev (b.of as)).flatMap (writeRun (b.of as).length)
    have hw : writeBlk addrLen as b = writeBlock addrLen b.head b.multi ((b.of as).map WAddr.addr) ++ ([hi tlvs.length, lo tlvs.length] ++ tlvs) := by
      unfold writeBlk
      dsimp only
      rw [List.append_assoc]
      rfl
    rw [hw] at hlen
    simp only [List.length_append] at hlen
    have hnum := hb.num
    rw [List.length_map] at hnum
    obtain ⟨blk, p1, p2, p3, p4⟩ := writeBlock_parse hb more ([hi tlvs.length, lo tlvs.length] ++ (tlvs ++ rest))
    obtain ⟨l, k1, t1, t2⟩ := tlvs_read hmem rest (blk := b.of as) (fun a ha => hok a (List.mem_of_mem_drop (List.mem_of_mem_take ha))) hnum.2 prev (k + 1)
      (by show tlvs.length ≤ 65535; omega)
    rw [List.length_map] at p2
    have hnum' : blk.num = lo (b.of as).length := by
      apply UInt8.toNat_inj.1
      rw [p2, lo_toNat' hnum.2]
    obtain ⟨out, k', o1, o2⟩ := blockLoop_write (more := more) hmem hok bs (fun x hx => hc x (List.mem_cons_of_mem _ hx)) (fun x hx => hl x (List.mem_cons_of_mem _ hx))
      f k1 (blocks ++ [{ blk with tlvs := l, tlvSize := ([hi tlvs.length, lo tlvs.length] ++ (tlvs ++ rest)).length - rest.length }]) (by simpa using hf)
    refine ⟨{ blk with tlvs := l, tlvSize := ([hi tlvs.length, lo tlvs.length] ++ (tlvs ++ rest)).length - rest.length } :: out, k', ?_, ?_⟩
    · unfold blockLoop
      rw [List.flatMap_cons]
      have hne : writeBlk addrLen as b ++ rest ≠ [] := by
        rw [hw]
        simp
      rw [if_neg hne, hmem, if_neg (by decide)]
      rw [show writeBlk addrLen as b ++ rest = writeBlock addrLen b.head b.multi ((b.of as).map WAddr.addr) ++ ([hi tlvs.length, lo tlvs.length] ++ (tlvs ++ rest)) by
        rw [hw]; simp only [List.append_assoc]]
      rw [p1]
      dsimp only
      rw [← hnum'] at t1
      rw [t1]
      dsimp only
      exact o1.trans (by rw [List.append_assoc]; rfl)
    · rw [List.flatMap_cons, o2, List.flatMap_cons, List.map_append]
      congr 1
      refine seen_eq (b := { blk with tlvs := l, tlvSize := ([hi tlvs.length, lo tlvs.length] ++ (tlvs ++ rest)).length - rest.length }) p2 ?_ t2
      intro i hi
      have := p4 i (by rw [List.length_map]; exact hi)
      simp only [List.getElem_map] at this
      exact this

end Verif.Writer
