import Verif.Dlep.SessionSpec
import Verif.Dlep.Lemmas

/-! Lemmas about the framing of messages. -/

namespace Verif.Dlep

open Spec

theorem Spec.Frames.append {a r : Bytes} {ms : List (Nat × Bytes)} (h : Frames a ms r) :
    ∀ {b r' : Bytes} {ms' : List (Nat × Bytes)}, Frames (r ++ b) ms' r' → Frames (a ++ b) (ms ++ ms') r' := by
  induction h with
  | rest h => intro b r' ms' h'; simpa using h'
  | cons ht hp h ih =>
    intro b r' ms' h'
    have := Frames.cons ht hp (ih h')
    simpa using this

theorem Spec.Frames.exists_aux (n : Nat) : ∀ s : Bytes, s.length ≤ n → ∃ ms r, Frames s ms r := by
  induction n with
  | zero => intro s hs; exact ⟨[], s, .rest (.inl (by omega))⟩
  | succ n ih =>
    intro s hs
    match s, hs with
    | [], _ => exact ⟨[], _, .rest (.inl (by simp))⟩
    | [_], _ => exact ⟨[], _, .rest (.inl (by simp))⟩
    | [_, _], _ => exact ⟨[], _, .rest (.inl (by simp))⟩
    | [_, _, _], _ => exact ⟨[], _, .rest (.inl (by simp))⟩
    | t1 :: t0 :: l1 :: l0 :: tl, hs =>
      have e : t1 :: t0 :: l1 :: l0 :: tl = be16 (num16 t1 t0) ++ be16 (num16 l1 l0) ++ tl := by
        rw [be16_num16, be16_num16]; rfl
      by_cases hc : tl.length < num16 l1 l0
      · exact ⟨[], _, .rest (.inr ⟨_, _, _, e, num16_lt _ _, num16_lt _ _, hc⟩)⟩
      · have el : (tl.take (num16 l1 l0)).length = num16 l1 l0 := by rw [List.length_take]; omega
        obtain ⟨ms, r, h⟩ := ih (tl.drop (num16 l1 l0))
          (by simp only [List.length_cons, List.length_drop] at hs ⊢; omega)
        refine ⟨(num16 t1 t0, tl.take (num16 l1 l0)) :: ms, r, ?_⟩
        have := Frames.cons (p := tl.take (num16 l1 l0)) (num16_lt t1 t0) (by rw [el]; exact num16_lt _ _) h
        rw [el] at this
        rw [e]
        simpa [List.append_assoc, List.take_append_drop] using this

theorem Spec.Frames.exists (s : Bytes) : ∃ ms r, Frames s ms r := Frames.exists_aux s.length s (Nat.le_refl _)

theorem header_inj {t n t' n' : Nat} {r r' : Bytes} (h1 : t < 65536) (h2 : n < 65536) (h3 : t' < 65536) (h4 : n' < 65536)
    (h : be16 t ++ be16 n ++ r = be16 t' ++ be16 n' ++ r') : t = t' ∧ n = n' ∧ r = r' := by
  simp only [be16, List.cons_append, List.nil_append, List.cons.injEq] at h
  obtain ⟨a, b, c, d, e⟩ := h
  refine ⟨?_, ?_, e⟩
  · rw [← num16_be16 h1, ← num16_be16 h3, a, b]
  · rw [← num16_be16 h2, ← num16_be16 h4, c, d]

theorem not_incomplete {t : Nat} {p s : Bytes} (ht : t < 65536) (hp : p.length < 65536) :
    ¬ Incomplete (be16 t ++ be16 p.length ++ p ++ s) := by
  rintro (h | ⟨t', n', r', h, h1, h2, h3⟩)
  · simp only [List.length_append, be16_length] at h
    omega
  · rw [List.append_assoc (be16 t ++ be16 p.length)] at h
    obtain ⟨_, e2, e3⟩ := header_inj ht hp h1 h2 h
    rw [← e3, List.length_append] at h3
    omega

theorem Spec.Frames.unique {s r : Bytes} {ms : List (Nat × Bytes)} (h : Frames s ms r) :
    ∀ {ms' : List (Nat × Bytes)} {r' : Bytes}, Frames s ms' r' → ms = ms' ∧ r = r' := by
  induction h with
  | rest h =>
    intro ms' r' h'
    cases h' with
    | rest _ => exact ⟨rfl, rfl⟩
    | cons ht hp _ => exact absurd h (not_incomplete ht hp)
  | @cons t p s ms r ht hp h ih =>
    intro ms' r' h'
    generalize hs : be16 t ++ be16 p.length ++ p ++ s = x at h'
    cases h' with
    | rest h' => subst hs; exact absurd h' (not_incomplete ht hp)
    | @cons t' p' s' ms'' _ ht' hp' h'' =>
      rw [List.append_assoc (be16 t ++ be16 p.length), List.append_assoc (be16 t' ++ be16 p'.length)] at hs
      obtain ⟨e1, e2, e3⟩ := header_inj ht hp ht' hp' hs
      obtain ⟨e4, e5⟩ := List.append_inj e3 e2
      subst e1 e4 e5
      obtain ⟨e6, e7⟩ := ih h''
      exact ⟨by rw [e6], e7⟩

variable {α : Type}

theorem processSignal_incomplete (h : Handler α) (s : St α) {b : Bytes} (hb : Incomplete b) (udp : Bool) :
    processSignal h s b udp = (s, [], 0) := by
  rcases hb with hb | ⟨t, n, r, rfl, h1, h2, h3⟩
  · match b, hb with
    | [], _ => rfl
    | [_], _ => rfl
    | [_, _], _ => rfl
    | [_, _, _], _ => rfl
  · simp only [be16, List.cons_append, List.nil_append, processSignal]
    rw [if_pos (by rw [num16_be16 h2]; exact h3)]

theorem processSignal_message (h : Handler α) (s : St α) {t : Nat} {p b : Bytes} (ht : t < 65536)
    (hp : p.length < 65536) : processSignal h s (be16 t ++ be16 p.length ++ p ++ b) false =
      ((message h s t p).1, (message h s t p).2.1, if (message h s t p).2.2 then (p.length : Int) + 4 else -1) := by
  simp only [be16, List.cons_append, List.nil_append, processSignal]
  rw [if_neg (by rw [num16_be16 hp, List.length_append]; omega)]
  simp only [num16_be16 hp, num16_be16 ht, List.take_left, Bool.false_eq_true, if_false]

/-- the loop handles the messages of the buffer -/
theorem processBuffer_frames (h : Handler α) {b r : Bytes} {ms : List (Nat × Bytes)} (hf : Frames b ms r) :
    ∀ (fuel : Nat) (s : St α) (off : Int) (out : Bytes), b.length < fuel → 0 ≤ off → s.restrict ≠ KILL →
    let x := processBuffer h false fuel s b off out
    let y := replay h s ms
    x.1 = y.1 ∧ x.2.1 = out ++ y.2.1 ∧ (y.2.2 = true ↔ x.2.2 < 0 ∨ x.1.restrict = KILL) ∧
      (y.2.2 = false → x.2.2 = off + (b.length - r.length) ∧ r.length ≤ b.length ∧ b.drop (b.length - r.length) = r) := by
  induction hf with
  | @rest b hi =>
    intro fuel s off out hfuel hoff hk
    match fuel, hfuel with
    | fuel + 1, _ =>
      have : processBuffer h false (fuel + 1) s b off out = (s, out, off) := by
        rw [processBuffer, processSignal_incomplete h s hi]
        simp
      rw [this]
      refine ⟨rfl, by simp [replay], ?_, ?_⟩
      · simp only [replay, Bool.false_eq_true, false_iff, not_or]
        exact ⟨by omega, hk⟩
      · intro _
        refine ⟨by simp, Nat.le_refl _, by simp⟩
  | @cons t p b ms r ht hp hf ih =>
    intro fuel s off out hfuel hoff hk
    match fuel, hfuel with
    | fuel + 1, hfuel =>
      have hlen : (be16 t ++ be16 p.length ++ p ++ b).length = 4 + p.length + b.length := by
        simp only [List.length_append, be16_length]
      have hdrop : (be16 t ++ be16 p.length ++ p ++ b).drop (p.length + 4) = b := by
        rw [List.drop_left']
        simp only [List.length_append, be16_length]
        omega
      rw [hlen] at hfuel
      simp only
      rw [processBuffer, if_neg (by rw [hlen]; omega), processSignal_message h s ht hp]
      simp only [replay]
      cases hm : (message h s t p).2.2 with
      | false =>
        simp
      | true =>
        simp only [if_true]
        rw [if_neg (by omega)]
        by_cases hK : (message h s t p).1.restrict = KILL
        · rw [if_pos hK, if_pos (.inr hK)]
          simp [hK]
        · rw [if_neg hK, if_neg (by simp [hK])]
          have e : ((p.length : Int) + 4).toNat = p.length + 4 := by omega
          rw [e, hdrop]
          obtain ⟨i1, i2, i3, i4⟩ := ih fuel (message h s t p).1 (off + (p.length + 4)) (out ++ (message h s t p).2.1)
            (by omega) (by omega) hK
          refine ⟨i1, ?_, i3, ?_⟩
          · rw [i2, List.append_assoc]
          · intro hc
            obtain ⟨j1, j2, j3⟩ := i4 hc
            refine ⟨?_, ?_, ?_⟩
            · rw [j1, hlen]
              omega
            · rw [hlen]; omega
            · rw [hlen]
              have : 4 + p.length + b.length - r.length = (p.length + 4) + (b.length - r.length) := by omega
              rw [this, ← List.drop_drop, hdrop, j3]

theorem replay_append (h : Handler α) (a b : List (Nat × Bytes)) : ∀ s : St α,
    replay h s (a ++ b) =
      if (replay h s a).2.2 then replay h s a
      else ((replay h (replay h s a).1 b).1, (replay h s a).2.1 ++ (replay h (replay h s a).1 b).2.1,
        (replay h (replay h s a).1 b).2.2) := by
  induction a with
  | nil => intro s; simp [replay]
  | cons m l ih =>
    intro s
    obtain ⟨t, p⟩ := m
    simp only [List.cons_append, replay]
    by_cases hc : (message h s t p).2.2 = false ∨ (message h s t p).1.restrict = KILL
    · rw [if_pos hc, if_pos hc]
      simp
    · rw [if_neg hc, if_neg hc, ih]
      simp only
      split
      · rfl
      · simp

theorem replay_open (h : Handler α) (l : List (Nat × Bytes)) : ∀ s : St α, s.restrict ≠ KILL →
    (replay h s l).2.2 = false → (replay h s l).1.restrict ≠ KILL := by
  induction l with
  | nil => intro s hs _; exact hs
  | cons m l ih =>
    intro s hs hc
    obtain ⟨t, p⟩ := m
    simp only [replay] at hc ⊢
    by_cases hm : (message h s t p).2.2 = false ∨ (message h s t p).1.restrict = KILL
    · rw [if_pos hm] at hc
      exact nomatch hc
    · rw [if_neg hm] at hc ⊢
      exact ih _ (fun c => hm (.inr c)) hc

theorem Spec.Frames.incomplete {s r : Bytes} {ms : List (Nat × Bytes)} (h : Frames s ms r) : Incomplete r := by
  induction h with
  | rest h => exact h
  | cons _ _ _ ih => exact ih

theorem Spec.Frames.bound {a b r : Bytes} {ms : List (Nat × Bytes)} {S : Nat} (h : Frames (a ++ b) ms r) (hi : Incomplete a)
    (h4 : 4 ≤ S) (hm : ∀ m ∈ ms, m.2.length + 4 ≤ S) (hr : r.length ≤ S) : a.length ≤ S := by
  generalize hx : a ++ b = x at h
  cases h with
  | rest _ =>
    rw [← hx, List.length_append] at hr
    omega
  | @cons t p s ms _ ht hp hf =>
    have := hm (t, p) (by simp)
    simp only at this
    rcases hi with hi | ⟨t', n', r', rfl, h1, h2, h3⟩
    · omega
    · rw [List.append_assoc (be16 t ++ be16 p.length), List.append_assoc (be16 t' ++ be16 n')] at hx
      obtain ⟨_, e2, _⟩ := header_inj h1 h2 ht hp hx
      simp only [List.length_append, be16_length]
      omega

theorem feed_closed (h : Handler α) (limit : Nat) (blocks : List Bytes) : ∀ c : Conn α, c.closed = true →
    c.feed h limit blocks = c := by
  induction blocks with
  | nil => intro c _; rfl
  | cons b l ih =>
    intro c hc
    simp only [Conn.feed, List.foldl_cons]
    have : c.receive h limit b = c := by simp [Conn.receive, hc]
    rw [this]
    exact ih c hc

/-- the connection handles the messages of its input -/
theorem feed_frames (h : Handler α) {limit S : Nat} (hS : S + BLOCK ≤ limit) (h4 : 4 ≤ S) (blocks : List Bytes) :
    ∀ (c : Conn α) (ms : List (Nat × Bytes)) (r : Bytes), c.closed = false → c.st.restrict ≠ KILL → Incomplete c.inb →
    Frames (c.inb ++ blocks.flatten) ms r → (∀ b ∈ blocks, b.length ≤ BLOCK) → (∀ m ∈ ms, m.2.length + 4 ≤ S) →
    r.length ≤ S →
    (c.feed h limit blocks).st = (replay h c.st ms).1 ∧ (c.feed h limit blocks).closed = (replay h c.st ms).2.2 ∧
    ((replay h c.st ms).2.2 = false →
      (c.feed h limit blocks).inb = r ∧ (c.feed h limit blocks).sent = c.sent ++ (replay h c.st ms).2.1) ∧
    ∃ lost, (c.feed h limit blocks).sent ++ lost = c.sent ++ (replay h c.st ms).2.1 := by
  induction blocks with
  | nil =>
    intro c ms r hcl hk hi hf _ _ _
    rw [List.flatten_nil, List.append_nil] at hf
    obtain ⟨rfl, rfl⟩ := (Frames.rest hi).unique hf
    refine ⟨rfl, hcl, fun _ => ⟨rfl, by simp [replay, Conn.feed]⟩, [], by simp [replay, Conn.feed]⟩
  | cons b l ih =>
    intro c ms r hcl hk hi hf hb hm hr
    obtain ⟨m1, r1, f1⟩ := Frames.exists (c.inb ++ b)
    obtain ⟨m2, r2, f2⟩ := Frames.exists (r1 ++ l.flatten)
    have f := f1.append f2
    rw [List.flatten_cons, ← List.append_assoc] at hf
    obtain ⟨rfl, rfl⟩ := f.unique hf
    have hlim : ¬ limit < (c.inb ++ b).length := by
      rw [List.append_assoc] at hf
      have := hf.bound hi h4 hm hr
      have := hb b (by simp)
      rw [List.length_append]
      omega
    obtain ⟨p1, p2, p3, p4⟩ := processBuffer_frames h f1 ((c.inb ++ b).length + 1) c.st 0 [] (by omega) (Int.le_refl _) hk
    have hfeed : c.feed h limit (b :: l) = (c.receive h limit b).feed h limit l := rfl
    rw [hfeed, replay_append]
    have hrec : c.receive h limit b =
        if (replay h c.st m1).2.2 = true then { c with st := (replay h c.st m1).1, inb := c.inb ++ b, closed := true }
        else ⟨(replay h c.st m1).1, r1, c.sent ++ (replay h c.st m1).2.1, false⟩ := by
      simp only [Conn.receive, hcl]
      rw [if_neg (by simp), if_neg hlim]
      by_cases hc : (replay h c.st m1).2.2 = true
      · rw [if_pos (p3.mp hc), if_pos hc, p1]
      · rw [if_neg (fun x => hc (p3.mpr x)), if_neg hc, p1, p2]
        obtain ⟨q1, q2, q3⟩ := p4 (by simpa using hc)
        rw [q1]
        have e : (0 + (((c.inb ++ b).length : Int) - r1.length)).toNat = (c.inb ++ b).length - r1.length := by omega
        rw [e, q3]
        simp
    rw [hrec]
    by_cases hc : (replay h c.st m1).2.2 = true
    · rw [if_pos hc, if_pos hc, feed_closed _ _ _ _ rfl]
      refine ⟨rfl, hc.symm, ?_, ?_⟩
      · intro x; rw [hc] at x; exact nomatch x
      · exact ⟨(replay h c.st m1).2.1, rfl⟩
    · rw [if_neg hc, if_neg hc]
      have hc' : (replay h c.st m1).2.2 = false := by simpa using hc
      have := ih ⟨(replay h c.st m1).1, r1, c.sent ++ (replay h c.st m1).2.1, false⟩ m2 r2 rfl
        (replay_open h m1 c.st hk hc') f1.incomplete f2 (fun x hx => hb x (by simp [hx]))
        (fun x hx => hm x (by simp [hx])) hr
      simpa [List.append_assoc] using this

theorem incomplete_prefix {a b p : Bytes} {t : Nat} (ht : t < 65536) (hp : p.length < 65536)
    (h : a ++ b = be16 t ++ be16 p.length ++ p) (hl : a.length < 4 + p.length) : Incomplete a := by
  rcases Nat.lt_or_ge a.length 4 with h4 | h4
  · exact .inl h4
  · right
    refine ⟨t, p.length, p.take (a.length - 4), ?_, ht, hp, by rw [List.length_take]; omega⟩
    have e1 : a = (a ++ b).take a.length := by simp
    rw [h, List.take_append, List.take_of_length_le (by simp only [List.length_append, be16_length]; omega)] at e1
    simpa only [List.length_append, be16_length] using e1

theorem receive_incomplete (h : Handler α) {limit : Nat} {c : Conn α} {b : Bytes} (hc : c.closed = false)
    (hk : c.st.restrict ≠ KILL) (hl : (c.inb ++ b).length ≤ limit) (hi : Incomplete (c.inb ++ b)) :
    c.receive h limit b = { c with inb := c.inb ++ b } := by
  obtain ⟨p1, p2, p3, p4⟩ := processBuffer_frames h (.rest hi) ((c.inb ++ b).length + 1) c.st 0 [] (by omega)
    (Int.le_refl _) hk
  simp only [replay] at p1 p2 p3 p4
  simp only [Conn.receive, hc]
  rw [if_neg (by simp), if_neg (by omega), if_neg (fun x => nomatch (p3.mpr x)), p1, p2]
  obtain ⟨q1, _, _⟩ := p4 trivial
  rw [q1]
  simp

/-- a message which does not fit into the input buffer -/
theorem feed_large (h : Handler α) {limit t : Nat} {p : Bytes} (ht : t < 65536) (hp : p.length < 65536)
    (hl : limit < 4 + p.length) (blocks : List Bytes) : ∀ c : Conn α, c.closed = false → c.st.restrict ≠ KILL →
    c.inb.length ≤ limit → c.inb ++ blocks.flatten = be16 t ++ be16 p.length ++ p →
    (c.feed h limit blocks).closed = true ∧ (c.feed h limit blocks).st = c.st ∧
      (c.feed h limit blocks).sent = c.sent := by
  induction blocks with
  | nil =>
    intro c _ _ hi he
    rw [List.flatten_nil, List.append_nil] at he
    rw [he] at hi
    simp only [List.length_append, be16_length] at hi
    omega
  | cons b l ih =>
    intro c hc hk hi he
    have hfeed : c.feed h limit (b :: l) = (c.receive h limit b).feed h limit l := rfl
    rw [hfeed]
    rw [List.flatten_cons, ← List.append_assoc] at he
    by_cases hx : limit < (c.inb ++ b).length
    · have : c.receive h limit b = { c with inb := c.inb ++ b, closed := true } := by
        simp only [Conn.receive, hc]
        rw [if_neg (by simp), if_pos hx]
      rw [this, feed_closed _ _ _ _ rfl]
      exact ⟨rfl, rfl, rfl⟩
    · rw [receive_incomplete h hc hk (by omega) (incomplete_prefix ht hp he (by omega))]
      exact ih _ hc hk (by simpa using hx) he

end Verif.Dlep
