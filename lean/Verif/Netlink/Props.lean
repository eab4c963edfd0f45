import Verif.Netlink.Attr
import Verif.Netlink.Queue
/-
Properties C182 to C185: netlink messages.
-/
namespace Verif.Netlink

/-! ### C182: attributes and messages in a buffer -/

theorem align_ge (n : Nat) : n ≤ align n := by unfold align; omega
theorem align_mod (n : Nat) : align n % 4 = 0 := by unfold align; omega
theorem align_of_mod {n : Nat} (h : n % 4 = 0) : align n = n := by unfold align; omega
theorem align_lt (n : Nat) : align n < n + 4 := by unfold align; omega

theorem drop_at (p q : List UInt8) (n : Nat) (h : p.length = n) : (p ++ q).drop n = q := by subst h; exact List.drop_left

theorem rd16_le16 (n : Nat) (h : n < 65536) (l : List UInt8) : rd16 (le16 n ++ l) = n := by
  unfold le16 rd16
  simp only [List.cons_append, UInt8.toNat_ofNat']
  omega

/-- the bytes of an attribute without padding -/
def attrBytes (a : Nat × List UInt8) : List UInt8 := le16 (4 + a.2.length) ++ le16 a.1 ++ a.2

theorem attrBytes_length (a : Nat × List UInt8) : (attrBytes a).length = 4 + a.2.length := by
  unfold attrBytes le16; simp; omega

/-- the bytes of several attributes -/
def attrsBytes : List (Nat × List UInt8) → List UInt8
  | [] => []
  | [a] => attrBytes a
  | a :: b :: as => attrBytes a ++ List.replicate (align (4 + a.2.length) - (4 + a.2.length)) 0 ++ attrsBytes (b :: as)

theorem attrs_one (a : Nat × List UInt8) (h1 : a.1 < 65536) (h2 : 4 + a.2.length < 65536) (rest : List UInt8) (fuel : Nat) :
    attrs (fuel + 1) (attrBytes a ++ rest) = a :: attrs fuel ((attrBytes a ++ rest).drop (align (4 + a.2.length))) := by
  have hr : rd16 (attrBytes a ++ rest) = 4 + a.2.length := by
    unfold attrBytes
    rw [List.append_assoc, List.append_assoc]
    exact rd16_le16 _ h2 _
  have hl := attrBytes_length a
  conv => lhs; unfold attrs
  rw [hr, if_pos (by rw [List.length_append, hl]; omega)]
  have hd : (attrBytes a ++ rest).drop 2 = le16 a.1 ++ (a.2 ++ rest) := by
    unfold attrBytes
    rw [List.append_assoc, List.append_assoc]
    rfl
  have ht : ((attrBytes a ++ rest).take (4 + a.2.length)).drop 4 = a.2 := by
    rw [← hl, List.take_left]
    unfold attrBytes
    rfl
  rw [hd, rd16_le16 _ h1, ht]

theorem attrs_round (as : List (Nat × List UInt8)) (h : ∀ a ∈ as, a.1 < 65536 ∧ 4 + a.2.length < 65536) : ∀ fuel, (attrsBytes as).length ≤ fuel → attrs fuel (attrsBytes as) = as := by
  induction as with
  | nil => intro fuel _; cases fuel <;> simp [attrs, attrsBytes]
  | cons a as ih =>
    intro fuel hf
    obtain ⟨h1, h2⟩ := h a List.mem_cons_self
    have hl := attrBytes_length a
    cases as with
    | nil =>
      unfold attrsBytes at hf ⊢
      match fuel, hf with
      | fuel + 1, hf =>
        have := attrs_one a h1 h2 [] fuel
        rw [List.append_nil] at this
        rw [this, List.drop_eq_nil_of_le (by rw [hl]; exact align_ge _)]
        cases fuel <;> simp [attrs]
      | 0, hf => omega
    | cons b as =>
      unfold attrsBytes at hf ⊢
      match fuel, hf with
      | 0, hf => rw [List.length_append, List.length_append, hl] at hf; omega
      | fuel + 1, hf =>
        rw [List.append_assoc, attrs_one a h1 h2]
        congr 1
        rw [← List.append_assoc]
        have hlen : (attrBytes a ++ List.replicate (align (4 + a.2.length) - (4 + a.2.length)) 0).length = align (4 + a.2.length) := by
          have := align_ge (4 + a.2.length)
          rw [List.length_append, hl, List.length_replicate]; omega
        have hdrop : ((attrBytes a ++ List.replicate (align (4 + a.2.length) - (4 + a.2.length)) 0) ++ attrsBytes (b :: as)).drop (align (4 + a.2.length)) = attrsBytes (b :: as) := by
          exact drop_at _ _ _ hlen
        rw [hdrop]
        refine ih (fun x hx => h x (List.mem_cons_of_mem _ hx)) fuel ?_
        rw [List.length_append, hlen] at hf
        have := align_ge (4 + a.2.length)
        omega

theorem addAll_bytes (as : List (Nat × List UInt8)) : ∀ (msg m : List UInt8), addAll msg as = some m →
    ∃ pad : List UInt8, (as = [] → pad = []) ∧ (as ≠ [] → pad = List.replicate (align msg.length - msg.length) 0) ∧ m = msg ++ pad ++ attrsBytes as ∧
      (as ≠ [] → m.length ≤ MAXIOV) ∧ ∀ a ∈ as, 4 + a.2.length ≤ MAXIOV := by
  induction as with
  | nil => intro msg m h; cases h; exact ⟨[], fun _ => rfl, fun h => absurd rfl h, by simp [attrsBytes], fun h => absurd rfl h, by simp⟩
  | cons a as ih =>
    intro msg m h
    unfold addAll addreq at h
    by_cases hc : align msg.length + (4 + a.2.length) > MAXIOV
    · rw [if_pos hc] at h; cases h
    · rw [if_neg hc] at h
      simp only [Option.bind_some] at h
      obtain ⟨pad, h1, h2, h3, h4, h5⟩ := ih _ _ h
      refine ⟨List.replicate (align msg.length - msg.length) 0, (fun h => by cases h), fun _ => rfl, ?_, ?_, ?_⟩
      · have hlen : (msg ++ List.replicate (align msg.length - msg.length) 0 ++ le16 (4 + a.2.length) ++ le16 a.1 ++ a.2).length = align msg.length + (4 + a.2.length) := by
          have := align_ge msg.length
          unfold le16; simp; omega
        cases as with
        | nil => rw [h3, h1 rfl]; simp [attrsBytes, attrBytes]
        | cons b as =>
          rw [h3, h2 (by simp), hlen]
          have e : align (align msg.length + (4 + a.2.length)) - (align msg.length + (4 + a.2.length)) = align (4 + a.2.length) - (4 + a.2.length) := by
            unfold align; omega
          rw [e]
          simp [attrsBytes, attrBytes]
      · intro _
        cases as with
        | nil =>
          cases h
          have := align_ge msg.length
          unfold le16; simp; omega
        | cons b as => exact h4 (by simp)
      · intro x hx
        rcases List.mem_cons.mp hx with rfl | hx
        · have := align_ge msg.length; omega
        · exact h5 x hx

/-- What is put into a message as attributes is read from it as attributes, whatever their lengths. -/
theorem C182_attributes (hdr : List UInt8) (as : List (Nat × List UInt8)) (m : List UInt8) (ht : ∀ a ∈ as, a.1 < 65536) (h : addAll hdr as = some m) :
    readAttrs (m.drop (align hdr.length)) = as := by
  obtain ⟨pad, h1, h2, h3, h4, h5⟩ := addAll_bytes as hdr m h
  cases as with
  | nil =>
    rw [h3, h1 rfl]
    simp only [attrsBytes, List.append_nil]
    rw [List.drop_eq_nil_of_le (align_ge _)]
    rfl
  | cons a as =>
    rw [h3, h2 (by simp)]
    have hlen : (hdr ++ List.replicate (align hdr.length - hdr.length) 0).length = align hdr.length := by
      have := align_ge hdr.length
      rw [List.length_append, List.length_replicate]; omega
    rw [drop_at _ _ _ hlen]
    exact attrs_round _ (fun x hx => ⟨ht x hx, by have := h5 x hx; unfold MAXIOV at this; omega⟩) _ (Nat.le_refl _)

/-- Messages stay within the buffer of the caller; an attribute is refused only if it does not fit. -/
theorem C182_bounds (hdr : List UInt8) (as : List (Nat × List UInt8)) (hh : hdr.length ≤ 1024) :
    (∀ m, addAll hdr as = some m → m.length ≤ 1024) ∧
    ∀ type data, addreq hdr type data = none ↔ (hdr.length + 3) / 4 * 4 + 4 + data.length > 1024 := by
  constructor
  · intro m h
    obtain ⟨pad, h1, h2, h3, h4, _⟩ := addAll_bytes as hdr m h
    cases as with
    | nil => cases h; exact hh
    | cons a as => exact h4 (by simp)
  · intro type data
    unfold addreq align MAXIOV
    split
    · rename_i h; simp; omega
    · rename_i h; simp; omega

/-- a message that begins with its length -/
def Framed (m : List UInt8) : Prop := 16 ≤ m.length ∧ rd32 m = m.length

theorem rd32_append (m l : List UInt8) (h : 4 ≤ m.length) : rd32 (m ++ l) = rd32 m := by
  match m, h with
  | a :: b :: c :: d :: r, _ => rfl

/-- Messages whose length is a multiple of four are read from the common buffer as they were put in. -/
theorem C182_messages_partial (ms : List (List UInt8)) (h : ∀ m ∈ ms, Framed m ∧ m.length % 4 = 0) : messages (collect ms).length (collect ms) = ms := by
  have key : ∀ (ms : List (List UInt8)), (∀ m ∈ ms, Framed m ∧ m.length % 4 = 0) → ∀ fuel, (collect ms).length ≤ fuel → messages fuel (collect ms) = ms := by
    intro ms
    induction ms with
    | nil => intro _ fuel _; cases fuel <;> simp [messages, collect]
    | cons m ms ih =>
      intro h fuel hf
      obtain ⟨⟨h1, h2⟩, h3⟩ := h m List.mem_cons_self
      have hc : collect (m :: ms) = m ++ collect ms := by simp [collect]
      rw [hc] at hf ⊢
      rw [List.length_append] at hf
      match fuel, hf with
      | 0, hf => omega
      | fuel + 1, hf =>
        unfold messages
        rw [rd32_append m _ (by omega), h2, if_pos (by rw [List.length_append]; omega), List.take_left, align_of_mod h3, List.drop_left,
          ih (fun x hx => h x (List.mem_cons_of_mem _ hx)) fuel (by omega)]
  exact key ms h _ (Nat.le_refl _)

/-- a message of 18 bytes -/
def msg18 : List UInt8 := [18, 0, 0, 0] ++ List.replicate 14 7

/-- Messages of other lengths are not padded: of two messages with an attribute of six bytes (a MAC address), only the first is read. -/
theorem C182_unaligned_counterexample : (∀ m ∈ [msg18, msg18], Framed m) ∧ messages 36 (collect [msg18, msg18]) = [msg18] := by
  refine ⟨?_, by decide +kernel⟩
  intro m hm
  simp at hm
  subst hm
  exact ⟨by decide, by decide⟩

example : readAttrs (((addAll (List.replicate 18 9) [(3, [1, 2, 3, 4, 5, 6]), (8, []), (1, [7])]).getD []).drop 20) = [(3, [1, 2, 3, 4, 5, 6]), (8, []), (1, [7])] := by
  decide +kernel
example : addreq (List.replicate 1020 0) 1 [] = some (List.replicate 1020 0 ++ [4, 0, 1, 0]) ∧ addreq (List.replicate 1020 0) 1 [1] = none := by decide +kernel
example : messages 64 (collect [[16, 0, 0, 0] ++ List.replicate 12 1, [20, 0, 0, 0] ++ List.replicate 16 2]) = [[16, 0, 0, 0] ++ List.replicate 12 1, [20, 0, 0, 0] ++ List.replicate 16 2] := by
  decide +kernel

end Verif.Netlink
