import Verif.Dlep.Prefix
import Verif.Dlep.TlvsProps

/-! # C143: the router knows the addresses of the radio -/

namespace Verif.Dlep

open Spec Verif.Netaddr

namespace Spec

/-- an address or prefix of IPv4 or IPv6 -/
def Good (a : Netaddr) : Prop :=
  Canonical a ∧ ((a.type = AF_INET ∧ a.prefixLen ≤ 32) ∨ (a.type = AF_INET6 ∧ a.prefixLen ≤ 128))

/-- the address of the interface which is announced: the link-local one, if there is one -/
def chosen (first second : Netaddr) : Netaddr := if first.type = AF_UNSPEC then second else first

/-- what happens to the registration of one address -/
def regStep (me : Nat) (x : Option Nat) (add : Bool) : Option Nat :=
  if add then some me else if x = some me then none else x

/-- the announcements and withdrawals of one address, in their order -/
def about (a : Netaddr) (es : List (Netaddr × Bool)) : List Bool := (es.filter fun e => e.1 = a).map Prod.snd

end Spec

/-! ### the writer -/

/-- the router reads the items as these events -/
def Reads (items : List Item) (es : List (Netaddr × Bool)) : Prop :=
  items.map Prod.fst = es.map (fun e => ipType e.1) ∧ items.map (fun i => readIp i.1 i.2) = es.map R.ok ∧
    ∀ i ∈ items, i.2.length = ipLength i.1

theorem Reads.append {i j : List Item} {e f : List (Netaddr × Bool)} (h : Reads i e) (g : Reads j f) :
    Reads (i ++ j) (e ++ f) := by
  obtain ⟨a, b, c⟩ := h
  obtain ⟨a', b', c'⟩ := g
  refine ⟨by simp [a, a'], by simp [b, b'], ?_⟩
  intro x hx
  rcases List.mem_append.mp hx with hx | hx
  · exact c x hx
  · exact c' x hx

/-- the writer has appended announcements that are read as these events -/
def Wrote (w w' : Writer) (es : List (Netaddr × Bool)) : Prop :=
  ∃ items, w' = { w with out := w.out ++ encode items } ∧ Reads items es

theorem Wrote.nil (w : Writer) : Wrote w w [] := ⟨[], by simp [encode], rfl, rfl, by simp⟩

theorem Wrote.trans {a b c : Writer} {e f : List (Netaddr × Bool)} (h : Wrote a b e) (g : Wrote b c f) :
    Wrote a c (e ++ f) := by
  obtain ⟨i, rfl, hi⟩ := h
  obtain ⟨j, rfl, hj⟩ := g
  exact ⟨i ++ j, by simp [encode, List.append_assoc], hi.append hj⟩

theorem wrote_one (w : Writer) {a : Netaddr} (h : Good a) (add : Bool) :
    ∃ w', addIp w a add = some w' ∧ Wrote w w' [(a, add)] := by
  obtain ⟨v, h1, h2, h3⟩ := C140_ip w a add h.1 h.2
  refine ⟨_, h1, [(ipType a, v)], by simp [encode], rfl, by simp [h3], ?_⟩
  intro i hi
  rw [List.mem_singleton.mp hi]
  exact h2

/-! ### the radio -/

theorem add_loop (cur : List Netaddr) : ∀ (w : Writer) (known : List Netaddr), (∀ a ∈ cur, Good a) → cur.Nodup →
    ∃ w', addLoop cur w known = (w', known ++ cur.filter (· ∉ known), true) ∧
      Wrote w w' ((cur.filter (· ∉ known)).map fun a => (a, true)) := by
  induction cur with
  | nil => intro w known _ _; exact ⟨w, by simp [addLoop], Wrote.nil w⟩
  | cons a l ih =>
    intro w known hg nd
    simp only [List.nodup_cons] at nd
    by_cases ha : a ∈ known
    · obtain ⟨w', h1, h2⟩ := ih w known (fun x hx => hg x (by simp [hx])) nd.2
      refine ⟨w', ?_, ?_⟩
      · simp only [addLoop, if_pos ha, h1]
        rw [List.filter_cons_of_neg (by simpa using ha)]
      · rw [List.filter_cons_of_neg (by simpa using ha)]
        exact h2
    · obtain ⟨w1, h1, h2⟩ := wrote_one w (hg a (by simp)) true
      obtain ⟨w', h3, h4⟩ := ih w1 (known ++ [a]) (fun x hx => hg x (by simp [hx])) nd.2
      have hf : l.filter (· ∉ known ++ [a]) = l.filter (· ∉ known) := by
        apply List.filter_congr
        intro x hx
        have : x ≠ a := fun c => nd.1 (c ▸ hx)
        simp [this]
      rw [hf] at h3 h4
      refine ⟨w', ?_, ?_⟩
      · simp only [addLoop, if_neg ha, h1, h3]
        rw [List.filter_cons_of_pos (by simpa using ha)]
        simp
      · rw [List.filter_cons_of_pos (by simpa using ha)]
        exact h2.trans h4

theorem drop_loop (cur : List Netaddr) (l : List Netaddr) : ∀ (w : Writer) (known : List Netaddr), (∀ a ∈ l, Good a) →
    ∃ w', dropLoop cur l w known = (w', known.filter (fun a => a ∈ cur ∨ a ∉ l), true) ∧
      Wrote w w' ((l.filter (· ∉ cur)).map fun a => (a, false)) := by
  induction l with
  | nil => intro w known _; exact ⟨w, by simp [dropLoop, List.filter_eq_self.mpr], Wrote.nil w⟩
  | cons a l ih =>
    intro w known hg
    by_cases ha : a ∈ cur
    · obtain ⟨w', h1, h2⟩ := ih w known (fun x hx => hg x (by simp [hx]))
      refine ⟨w', ?_, ?_⟩
      · simp only [dropLoop, if_pos ha, h1, Prod.mk.injEq, true_and, and_true]
        apply List.filter_congr
        intro x _
        by_cases hx : x = a
        · subst hx; simp [ha]
        · simp [hx]
      · rw [List.filter_cons_of_neg (by simpa using ha)]
        exact h2
    · obtain ⟨w1, h1, h2⟩ := wrote_one w (hg a (by simp)) false
      obtain ⟨w', h3, h4⟩ := ih w1 (known.filter (· ≠ a)) (fun x hx => hg x (by simp [hx]))
      refine ⟨w', ?_, ?_⟩
      · simp only [dropLoop, if_neg ha, h1, h3, Prod.mk.injEq, true_and, and_true]
        rw [List.filter_filter]
        apply List.filter_congr
        intro x _
        by_cases hx : x = a
        · subst hx; simp [ha]
        · simp [hx]
      · rw [List.filter_cons_of_pos (by simpa using ha)]
        exact h2.trans h4

/-- the events of an update of prefixes -/
def prefixEvents (cur known : List Netaddr) : List (Netaddr × Bool) :=
  (cur.filter (· ∉ known)).map (fun a => (a, true)) ++ (known.filter (· ∉ cur)).map fun a => (a, false)

theorem write_prefixes (cur : List Netaddr) (w : Writer) (known : List Netaddr) (hc : ∀ a ∈ cur, Good a)
    (hk : ∀ a ∈ known, Good a) (nd : cur.Nodup) (nk : known.Nodup) :
    ∃ w' known', writePrefixes cur w known = (w', known', true) ∧
      (known'.Nodup ∧ ∀ a, a ∈ known' ↔ a ∈ cur) ∧ Wrote w w' (prefixEvents cur known) := by
  obtain ⟨w1, h1, h2⟩ := add_loop cur w known hc nd
  obtain ⟨w2, h3, h4⟩ := drop_loop cur (known ++ cur.filter (· ∉ known)) w1 (known ++ cur.filter (· ∉ known)) (by
    intro a ha
    rcases List.mem_append.mp ha with ha | ha
    · exact hk a ha
    · exact hc a (List.mem_filter.mp ha).1)
  refine ⟨w2, _, by simp only [writePrefixes, h1]; exact h3, ⟨?_, ?_⟩, ?_⟩
  · refine List.Nodup.sublist List.filter_sublist ?_
    rw [List.nodup_append]
    refine ⟨nk, List.Nodup.sublist List.filter_sublist nd, ?_⟩
    intro a ha b hb c
    have := (List.mem_filter.mp hb).2
    simp only [decide_eq_true_eq] at this
    exact this (c ▸ ha)
  · intro a
    simp only [List.mem_filter, List.mem_append, decide_eq_true_eq]
    constructor
    · rintro ⟨h, h' | h'⟩
      · exact h'
      · exact absurd h h'
    · intro h
      refine ⟨?_, .inl h⟩
      by_cases hk : a ∈ known
      · exact .inl hk
      · exact .inr ⟨h, hk⟩
  · have : (known ++ cur.filter (· ∉ known)).filter (· ∉ cur) = known.filter (· ∉ cur) := by
      rw [List.filter_append]
      have : (cur.filter (· ∉ known)).filter (· ∉ cur) = [] := by
        apply List.filter_eq_nil_iff.mpr
        intro a ha
        simp [(List.mem_filter.mp ha).1]
      rw [this, List.append_nil]
    rw [this] at h4
    exact h2.trans h4

/-! ### the router -/

theorem apply_fold (me : Nat) (es : List (Netaddr × Bool)) : ∀ (s : Addrs) (a : Netaddr),
    es.foldl (applyIp me) s a = (about a es).foldl (regStep me) (s a) := by
  induction es with
  | nil => intro s a; rfl
  | cons e l ih =>
    intro s a
    rw [List.foldl_cons, ih]
    by_cases h : e.1 = a
    · have : about a (e :: l) = e.2 :: about a l := by
        simp only [about]
        rw [List.filter_cons_of_pos (by simpa using h)]
        rfl
      rw [this, List.foldl_cons]
      simp only [applyIp, regStep, h, if_true]
    · have : about a (e :: l) = about a l := by
        simp only [about]
        rw [List.filter_cons_of_neg (by simpa using h)]
      rw [this]
      simp only [applyIp]
      rw [if_neg (fun c => h c.symm)]

theorem process_values (me type : Nat) (items : List Item) : ∀ {es : List (Netaddr × Bool)} (s : Addrs), Reads items es →
    processValues me type (Spec.valuesOf items type) s =
      .ok ((es.filter fun e => ipType e.1 = type).foldl (applyIp me) s) := by
  induction items with
  | nil =>
    intro es s h
    have : es = [] := by simpa using h.1.symm
    subst this
    rfl
  | cons i l ih =>
    intro es s h
    obtain ⟨h1, h2, h3⟩ := h
    cases es with
    | nil => exact nomatch h1
    | cons e es =>
      simp only [List.map_cons, List.cons.injEq] at h1 h2
      have ht : Reads l es := ⟨h1.2, h2.2, fun x hx => h3 x (by simp [hx])⟩
      by_cases hi : i.1 = type
      · have hv : Spec.valuesOf (i :: l) type = i.2 :: Spec.valuesOf l type := by
          simp only [Spec.valuesOf]
          rw [List.filter_cons_of_pos (by simpa using hi)]
          rfl
        rw [hv, List.filter_cons_of_pos (by simpa [← h1.1] using hi)]
        simp only [processValues]
        rw [← hi, h2.1]
        simp only [List.foldl_cons]
        rw [hi]
        exact ih _ ht
      · have hv : Spec.valuesOf (i :: l) type = Spec.valuesOf l type := by
          simp only [Spec.valuesOf]
          rw [List.filter_cons_of_neg (by simpa using hi)]
        rw [hv, List.filter_cons_of_neg (by simpa [← h1.1] using hi)]
        exact ih _ ht

theorem ipType_four (a : Netaddr) : ipType a = 8 ∨ ipType a = 9 ∨ ipType a = 10 ∨ ipType a = 11 := by
  simp only [ipType]
  split <;> split <;> simp

theorem about_filter (a : Netaddr) (t : Nat) (es : List (Netaddr × Bool)) :
    about a (es.filter fun e => ipType e.1 = t) = if ipType a = t then about a es else [] := by
  simp only [about]
  rw [List.filter_filter]
  by_cases h : ipType a = t
  · rw [if_pos h]
    congr 1
    apply List.filter_congr
    intro e _
    by_cases he : e.1 = a
    · simp [he, h]
    · simp [he]
  · rw [if_neg h]
    have : es.filter (fun e => decide (e.1 = a) && decide (ipType e.1 = t)) = [] := by
      apply List.filter_eq_nil_iff.mpr
      intro e _ c
      simp only [Bool.and_eq_true, decide_eq_true_eq] at c
      exact h (c.1 ▸ c.2)
    rw [this]
    rfl

/-- The router handles the announcements type by type, but for every address in the order of the message. -/
theorem process_update (me : Nat) {items : List Item} {es : List (Netaddr × Bool)} (s : Addrs) (h : Reads items es) :
    ∃ s', processUpdate me (Spec.valuesOf items) s = .ok s' ∧ ∀ a, s' a = (about a es).foldl (regStep me) (s a) := by
  simp only [processUpdate, processTypes, process_values me _ items _ h]
  refine ⟨_, rfl, ?_⟩
  intro a
  rw [apply_fold, apply_fold, apply_fold, apply_fold]
  simp only [about_filter]
  rcases ipType_four a with h | h | h | h <;> simp [h]

theorem about_append (a : Netaddr) (e f : List (Netaddr × Bool)) : about a (e ++ f) = about a e ++ about a f := by
  simp [about]

theorem about_map (a : Netaddr) (b : Bool) (l : List Netaddr) (nd : l.Nodup) :
    about a (l.map fun x => (x, b)) = if a ∈ l then [b] else [] := by
  induction l with
  | nil => rfl
  | cons x l ih =>
    simp only [List.nodup_cons] at nd
    have ih := ih nd.2
    simp only [about, List.map_cons] at ih ⊢
    by_cases h : x = a
    · subst h
      rw [List.filter_cons_of_pos (by simp)]
      rw [if_neg nd.1] at ih
      simp only [List.map_cons, ih]
      simp
    · rw [List.filter_cons_of_neg (by simpa using h), ih]
      have : (a ∈ x :: l) ↔ a ∈ l := by
        simp only [List.mem_cons]
        exact ⟨fun c => c.resolve_left fun c => h c.symm, .inr⟩
      simp only [this]

theorem about_prefix (a : Netaddr) {cur known : List Netaddr} (nc : cur.Nodup) (nk : known.Nodup) :
    about a (prefixEvents cur known) =
      if a ∈ cur ∧ a ∉ known then [true] else if a ∈ known ∧ a ∉ cur then [false] else [] := by
  simp only [prefixEvents]
  rw [about_append, about_map _ _ _ (List.Nodup.sublist List.filter_sublist nc),
    about_map _ _ _ (List.Nodup.sublist List.filter_sublist nk)]
  simp only [List.mem_filter, decide_eq_true_eq]
  by_cases h1 : a ∈ cur <;> by_cases h2 : a ∈ known <;> simp [h1, h2]

/-- the events of an address of the interface -/
def ifEvents (last ip : Netaddr) : List (Netaddr × Bool) :=
  if last = ip then []
  else (if last.type = AF_UNSPEC then [] else [(last, false)]) ++ (if ip.type = AF_UNSPEC then [] else [(ip, true)])

theorem handle_if (w : Writer) (last first second : Netaddr) (hl : last.type = AF_UNSPEC ∨ Good last)
    (hi : (chosen first second).type = AF_UNSPEC ∨ Good (chosen first second)) :
    ∃ w', handleIf w last first second = (w', chosen first second) ∧ Wrote w w' (ifEvents last (chosen first second)) := by
  have hc : (if isUnspec first then second else first) = chosen first second := by
    simp only [isUnspec, chosen, decide_eq_true_eq]
  simp only [handleIf, hc, ifEvents]
  by_cases he : last = chosen first second
  · rw [if_pos he, if_pos he]
    exact ⟨w, by rw [he], Wrote.nil w⟩
  · rw [if_neg he, if_neg he]
    have h1 : ∃ w', (if isUnspec last then w else (addIp w last false).getD w) = w' ∧
        Wrote w w' (if last.type = AF_UNSPEC then [] else [(last, false)]) := by
      by_cases hu : last.type = AF_UNSPEC
      · rw [if_pos (by simpa [isUnspec] using hu), if_pos hu]
        exact ⟨w, rfl, Wrote.nil w⟩
      · rw [if_neg (by simpa [isUnspec] using hu), if_neg hu]
        obtain ⟨w', a, b⟩ := wrote_one w (hl.resolve_left hu) false
        exact ⟨w', by rw [a]; rfl, b⟩
    obtain ⟨w1, h1, h2⟩ := h1
    rw [h1]
    have h3 : ∃ w', (if isUnspec (chosen first second) then w1 else (addIp w1 (chosen first second) true).getD w1) = w' ∧
        Wrote w1 w' (if (chosen first second).type = AF_UNSPEC then [] else [(chosen first second, true)]) := by
      by_cases hu : (chosen first second).type = AF_UNSPEC
      · rw [if_pos (by simpa [isUnspec] using hu), if_pos hu]
        exact ⟨w1, rfl, Wrote.nil w1⟩
      · rw [if_neg (by simpa [isUnspec] using hu), if_neg hu]
        obtain ⟨w', a, b⟩ := wrote_one w1 (hi.resolve_left hu) true
        exact ⟨w', by rw [a]; rfl, b⟩
    obtain ⟨w2, h3, h4⟩ := h3
    rw [h3]
    exact ⟨w2, rfl, h2.trans h4⟩

theorem about_if (a last ip : Netaddr) :
    about a (ifEvents last ip) =
      if last = ip then []
      else (if last.type ≠ AF_UNSPEC ∧ a = last then [false] else []) ++ (if ip.type ≠ AF_UNSPEC ∧ a = ip then [true] else []) := by
  simp only [ifEvents]
  by_cases he : last = ip
  · rw [if_pos he, if_pos he]; rfl
  · rw [if_neg he, if_neg he, about_append]
    have one : ∀ (x : Netaddr) (b : Bool), about a (if x.type = AF_UNSPEC then [] else [(x, b)]) =
        if x.type ≠ AF_UNSPEC ∧ a = x then [b] else [] := by
      intro x b
      by_cases hu : x.type = AF_UNSPEC
      · rw [if_pos hu, if_neg (fun c => c.1 hu)]; rfl
      · rw [if_neg hu]
        by_cases hx : a = x
        · rw [if_pos ⟨hu, hx⟩]
          simp [about, hx]
        · rw [if_neg (fun c => hx c.2)]
          simp only [about]
          rw [List.filter_cons_of_neg (by simpa using fun c => hx c.symm)]
          rfl
    rw [one, one]

/-! ### C143 -/

/-- An update of prefixes registers the new ones, withdraws the ones which are gone, and touches nothing else: neither
other addresses nor (when withdrawing) addresses which somebody else registered.  The radio remembers what it told. -/
theorem C143_update (me : Nat) (cur known : List Netaddr) (w : Writer) (s : Addrs) (hc : ∀ a ∈ cur, Good a)
    (hk : ∀ a ∈ known, Good a) (nc : cur.Nodup) (nk : known.Nodup) :
    ∃ w' known' items s', writePrefixes cur w known = (w', known', true) ∧ w' = { w with out := w.out ++ encode items } ∧
      known'.Nodup ∧ (∀ a, a ∈ known' ↔ a ∈ cur) ∧
      processUpdate me (Spec.valuesOf items) s = .ok s' ∧
      (∀ a ∈ cur, a ∉ known → s' a = some me) ∧
      (∀ a ∈ known, a ∉ cur → s' a = if s a = some me then none else s a) ∧
      ∀ a, (a ∈ cur ↔ a ∈ known) → s' a = s a := by
  obtain ⟨w', known', h1, h2, items, h3, h4⟩ := write_prefixes cur w known hc hk nc nk
  obtain ⟨s', h5, h6⟩ := process_update me s h4
  refine ⟨w', known', items, s', h1, h3, h2.1, h2.2, h5, ?_, ?_, ?_⟩
  · intro a ha hn
    rw [h6, about_prefix a nc nk, if_pos ⟨ha, hn⟩]
    rfl
  · intro a ha hn
    rw [h6, about_prefix a nc nk, if_neg (fun c => hn c.1), if_pos ⟨ha, hn⟩]
    rfl
  · intro a hi
    rw [h6, about_prefix a nc nk, if_neg (fun c => c.2 (hi.mp c.1)), if_neg (fun c => c.2 (hi.mpr c.1))]
    rfl

def addr4 (a b c d p : UInt8) : Netaddr := ⟨[a, b, c, d, 0, 0, 0, 0, 0, 0, 0, 0, 0, 0, 0, 0], AF_INET, p⟩

def NONE : Netaddr := ⟨List.replicate 16 0, AF_UNSPEC, 0⟩

theorem good4 (a b c d p : UInt8) (h : p ≤ 32) : Good (addr4 a b c d p) :=
  ⟨⟨[a, b, c, d], show 4 = maxPrefix ⟨[], AF_INET, 0⟩ / 8 by decide, rfl⟩, .inl ⟨rfl, h⟩⟩

example : (∀ a ∈ [addr4 10 0 0 1 32, addr4 10 1 0 0 16], Good a) ∧ (∀ a ∈ [addr4 10 2 0 0 16], Good a) ∧
    [addr4 10 0 0 1 32, addr4 10 1 0 0 16].Nodup ∧
    (writePrefixes [addr4 10 0 0 1 32, addr4 10 1 0 0 16] { out := [] } [addr4 10 2 0 0 16]).1.out =
      [0, 8, 0, 5, 1, 10, 0, 0, 1, 0, 10, 0, 6, 1, 10, 1, 0, 0, 16, 0, 10, 0, 6, 0, 10, 2, 0, 0, 16] := by
  refine ⟨?_, ?_, by decide +kernel, by decide +kernel⟩
  · intro a ha
    simp only [List.mem_cons, List.not_mem_nil, or_false] at ha
    rcases ha with rfl | rfl <;> exact good4 _ _ _ _ _ (by decide)
  · intro a ha
    simp only [List.mem_singleton] at ha
    subst ha
    exact good4 _ _ _ _ _ (by decide)

namespace Spec

/-- the addresses which a radio wants the router to know -/
def Announced (x : Snapshot) (a : Netaddr) : Prop :=
  a ∈ x.cur ∨ a.type ≠ AF_UNSPEC ∧ (a = chosen x.ll4 x.v4 ∨ a = chosen x.ll6 x.v6)

/-- prefixes and addresses are what their names say -/
def SnapOk (x : Snapshot) : Prop :=
  (∀ a ∈ x.cur, Good a) ∧ x.cur.Nodup ∧
  ((chosen x.ll4 x.v4).type = AF_UNSPEC ∨ Good (chosen x.ll4 x.v4) ∧ (chosen x.ll4 x.v4).type = AF_INET) ∧
  ((chosen x.ll6 x.v6).type = AF_UNSPEC ∨ Good (chosen x.ll6 x.v6) ∧ (chosen x.ll6 x.v6).type = AF_INET6)

/-- no address of the interface is also one of the prefixes -/
def Apart (x y : Snapshot) : Prop := chosen x.ll4 x.v4 ∉ y.cur ∧ chosen x.ll6 x.v6 ∉ y.cur

/-- a sequence of session updates, each written by the radio and handled by the router -/
inductive Rounds (me : Nat) : Radio → Addrs → List Snapshot → Radio → Addrs → Prop where
  | nil {r s} : Rounds me r s [] r s
  | cons {r s x l r1 s1 r2 s2} (w : Writer) (items : List Item)
      (write : writeSession x w r = ({ w with out := w.out ++ encode items }, r1, true))
      (process : processUpdate me (Spec.valuesOf items) s = .ok s1) (rest : Rounds me r1 s1 l r2 s2) :
      Rounds me r s (x :: l) r2 s2

end Spec

theorem if_part (me : Nat) {a l g : Netaddr} {o : Option Nat} (ha : a.type ≠ AF_UNSPEC) (h : o = some me ↔ a = l) :
    ((if l = g then [] else (if l.type ≠ AF_UNSPEC ∧ a = l then [false] else []) ++
      (if g.type ≠ AF_UNSPEC ∧ a = g then [true] else [])).foldl (regStep me) o = some me) ↔ a = g := by
  by_cases hlg : l = g
  · rw [if_pos hlg, ← hlg]
    exact h
  · rw [if_neg hlg]
    by_cases hg : a = g
    · rw [if_pos (show g.type ≠ AF_UNSPEC ∧ a = g from ⟨hg ▸ ha, hg⟩), List.foldl_append]
      simp [regStep, hg]
    · rw [if_neg (show ¬ (g.type ≠ AF_UNSPEC ∧ a = g) from fun c => hg c.2), List.append_nil]
      by_cases hl : a = l
      · rw [if_pos ⟨hl ▸ ha, hl⟩]
        simp only [List.foldl_cons, List.foldl_nil, regStep, Bool.false_eq_true, if_false]
        rw [if_pos (h.mpr hl)]
        simp [hg]
      · rw [if_neg (fun c => hl c.2), List.foldl_nil, h]
        exact ⟨fun c => absurd c hl, fun c => absurd c hg⟩

theorem if_none {a l g : Netaddr} (h1 : a.type = AF_UNSPEC ∨ a ≠ l) (h2 : a.type = AF_UNSPEC ∨ a ≠ g) :
    (if l = g then [] else (if l.type ≠ AF_UNSPEC ∧ a = l then [false] else []) ++
      (if g.type ≠ AF_UNSPEC ∧ a = g then [true] else [])) = [] := by
  by_cases hlg : l = g
  · rw [if_pos hlg]
  · rw [if_neg hlg, if_neg (fun c => h1.elim (fun d => c.1 (c.2 ▸ d)) fun d => d c.2),
      if_neg (fun c => h2.elim (fun d => c.1 (c.2 ▸ d)) fun d => d c.2)]
    rfl

/-- the memory of the radio is the situation `x` -/
def Remembers (r : Radio) (x : Snapshot) : Prop :=
  r.known.Nodup ∧ (∀ a, a ∈ r.known ↔ a ∈ x.cur) ∧ r.if4 = chosen x.ll4 x.v4 ∧ r.if6 = chosen x.ll6 x.v6

theorem session_step (me : Nat) {x y : Snapshot} (w : Writer) {r : Radio} {s : Addrs} (hx : SnapOk x) (hy : SnapOk y)
    (a1 : Apart x x) (a2 : Apart x y) (a3 : Apart y x) (a4 : Apart y y) (hr : Remembers r x)
    (hs : ∀ a, s a = some me ↔ Announced x a) :
    ∃ items r' s', writeSession y w r = ({ w with out := w.out ++ encode items }, r', true) ∧
      processUpdate me (Spec.valuesOf items) s = .ok s' ∧ Remembers r' y ∧ (∀ a, s' a = some me ↔ Announced y a) := by
  obtain ⟨r1, r2, r3, r4⟩ := hr
  obtain ⟨x1, x2, x3, x4⟩ := hx
  obtain ⟨y1, y2, y3, y4⟩ := hy
  obtain ⟨w1, known', h1, ⟨n1, n2⟩, h2⟩ := write_prefixes y.cur w r.known y1 (fun a ha => x1 a ((r2 a).mp ha)) y2 r1
  obtain ⟨w2, h3, h4⟩ := handle_if w1 r.if4 y.ll4 y.v4 (by rw [r3]; exact x3.imp id And.left) (y3.imp id And.left)
  obtain ⟨w3, h5, h6⟩ := handle_if w2 r.if6 y.ll6 y.v6 (by rw [r4]; exact x4.imp id And.left) (y4.imp id And.left)
  obtain ⟨items, h7, h8⟩ := (h2.trans h4).trans h6
  obtain ⟨s', h9, h10⟩ := process_update me s h8
  refine ⟨items, ⟨known', chosen y.ll4 y.v4, chosen y.ll6 y.v6⟩, s', ?_, h9, ⟨n1, n2, rfl, rfl⟩, ?_⟩
  · simp only [writeSession, h1, h3, h5]
    rw [h7]
  · intro a
    rw [h10, about_append, about_append, about_prefix a y2 r1, about_if, about_if, r3, r4]
    have hs := hs a
    simp only [Announced, r2] at hs ⊢
    simp only [Apart] at a1 a2 a3 a4
    generalize hf4 : chosen x.ll4 x.v4 = f4 at *
    generalize hf6 : chosen x.ll6 x.v6 = f6 at *
    generalize hg4 : chosen y.ll4 y.v4 = g4 at *
    generalize hg6 : chosen y.ll6 y.v6 = g6 at *
    rw [List.foldl_append, List.foldl_append]
    by_cases hp : a ∈ y.cur ∨ a ∈ x.cur
    · have e1 : a ≠ f4 := fun c => hp.elim (fun h => a2.1 (c ▸ h)) fun h => a1.1 (c ▸ h)
      have e2 : a ≠ f6 := fun c => hp.elim (fun h => a2.2 (c ▸ h)) fun h => a1.2 (c ▸ h)
      have e3 : a ≠ g4 := fun c => hp.elim (fun h => a4.1 (c ▸ h)) fun h => a3.1 (c ▸ h)
      have e4 : a ≠ g6 := fun c => hp.elim (fun h => a4.2 (c ▸ h)) fun h => a3.2 (c ▸ h)
      rw [if_none (.inr e1) (.inr e3), if_none (.inr e2) (.inr e4)]
      simp only [e1, e2, e3, e4, or_false, and_false] at hs ⊢
      by_cases p1 : a ∈ y.cur <;> by_cases p2 : a ∈ x.cur <;> simp [p1, p2, regStep] at hs hp ⊢
      · exact hs
    · have p1 : a ∉ y.cur := fun c => hp (.inl c)
      have p2 : a ∉ x.cur := fun c => hp (.inr c)
      rw [if_neg (show ¬ (a ∈ y.cur ∧ a ∉ x.cur) from fun c => p1 c.1), if_neg (show ¬ (a ∈ x.cur ∧ a ∉ y.cur) from fun c => p2 c.1)]
      simp only [p1, p2, false_or, List.foldl_nil] at hs ⊢
      by_cases hu : a.type = AF_UNSPEC
      · rw [if_none (.inl hu) (.inl hu), if_none (.inl hu) (.inl hu)]
        simp only [hu, ne_eq, not_true, false_and, iff_false, List.foldl_nil] at hs ⊢
        exact hs
      · simp only [ne_eq, hu, not_false_eq_true, true_and] at hs ⊢
        by_cases h4 : a.type = AF_INET
        · have n6 : ∀ g : Netaddr, (g.type = AF_UNSPEC ∨ Good g ∧ g.type = AF_INET6) → a ≠ g := by
            rintro g (hg | ⟨_, hg⟩) c
            · exact hu (c ▸ hg)
            · rw [← c, h4] at hg
              exact absurd hg (by decide)
          have e2 := n6 f6 x4
          have e4 := n6 g6 y4
          rw [if_none (.inr e2) (.inr e4)]
          simp only [e2, e4, or_false, List.foldl_nil] at hs ⊢
          exact if_part me hu hs
        · have n4 : ∀ g : Netaddr, (g.type = AF_UNSPEC ∨ Good g ∧ g.type = AF_INET) → a ≠ g := by
            rintro g (hg | ⟨_, hg⟩) c
            · exact hu (c ▸ hg)
            · exact h4 (c ▸ hg)
          have e1 := n4 f4 x3
          have e3 := n4 g4 y3
          rw [if_none (.inr e1) (.inr e3)]
          simp only [e1, e3, false_or, List.foldl_nil] at hs ⊢
          exact if_part me hu hs

/-- After any sequence of session updates the router has registered for the radio exactly the prefixes and addresses of the
last situation.  (Missing: addresses of the interface which are also among the prefixes, see below.) -/
theorem C143_session_partial (me : Nat) (l : List Snapshot) (x : Snapshot) (r : Radio) (s : Addrs)
    (hok : ∀ y ∈ x :: l, SnapOk y) (hap : ∀ y ∈ x :: l, ∀ z ∈ x :: l, Apart y z) (hr : Remembers r x)
    (hs : ∀ a, s a = some me ↔ Announced x a) :
    ∃ r' s', Rounds me r s l r' s' ∧ ∀ a, s' a = some me ↔ Announced ((x :: l).getLast (by simp)) a := by
  induction l generalizing x r s with
  | nil => exact ⟨r, s, .nil, hs⟩
  | cons y l ih =>
    obtain ⟨items, r1, s1, h1, h2, h3, h4⟩ := session_step me { out := [] } (hok x (by simp))
      (hok y (by simp)) (hap x (by simp) x (by simp)) (hap x (by simp) y (by simp)) (hap y (by simp) x (by simp))
      (hap y (by simp) y (by simp)) hr hs
    obtain ⟨r2, s2, h5, h6⟩ := ih y r1 s1 (fun z hz => hok z (List.mem_cons_of_mem _ hz))
      (fun z hz t ht => hap z (List.mem_cons_of_mem _ hz) t (List.mem_cons_of_mem _ ht)) h3 h4
    exact ⟨r2, s2, .cons _ items h1 h2 h5, by rw [List.getLast_cons (by simp)]; exact h6⟩

/-- the start: nothing announced, nothing registered -/
theorem C143_start : Remembers ⟨[], NONE, NONE⟩ ⟨[], NONE, NONE, NONE, NONE⟩ ∧ SnapOk ⟨[], NONE, NONE, NONE, NONE⟩ ∧
    (∀ a, ¬ Announced ⟨[], NONE, NONE, NONE, NONE⟩ a) := by
  refine ⟨⟨by simp, by simp, rfl, rfl⟩, ⟨by simp, by simp, .inl rfl, .inl rfl⟩, ?_⟩
  rintro a (h | ⟨h, c | c⟩)
  · exact nomatch h
  · exact h (c ▸ rfl)
  · exact h (c ▸ rfl)

example : SnapOk ⟨[addr4 10 1 0 0 16], NONE, addr4 10 0 0 1 32, NONE, NONE⟩ ∧
    Apart ⟨[addr4 10 1 0 0 16], NONE, addr4 10 0 0 1 32, NONE, NONE⟩ ⟨[addr4 10 1 0 0 16], NONE, addr4 10 0 0 1 32, NONE, NONE⟩ ∧
    Announced ⟨[addr4 10 1 0 0 16], NONE, addr4 10 0 0 1 32, NONE, NONE⟩ (addr4 10 0 0 1 32) := by
  refine ⟨⟨?_, by decide, .inr ⟨good4 _ _ _ _ _ (by decide), by decide⟩, .inl (by decide)⟩, ⟨by decide, by decide⟩,
    .inr ⟨by decide, .inl rfl⟩⟩
  intro a ha
  simp only [List.mem_singleton] at ha
  subst ha
  exact good4 _ _ _ _ _ (by decide)

/-- The address of the interface is also a configured prefix.  When the interface loses it, the router is told to forget it,
although the prefix is still configured; it is never announced again. -/
theorem C143_shared_counterexample (w : Writer) (me : Nat) :
    ∃ items s', (writeSession ⟨[addr4 10 0 0 1 32], NONE, NONE, NONE, NONE⟩ w
        ⟨[addr4 10 0 0 1 32], addr4 10 0 0 1 32, NONE⟩ =
          ({ w with out := w.out ++ encode items }, ⟨[addr4 10 0 0 1 32], NONE, NONE⟩, true)) ∧
      processUpdate me (Spec.valuesOf items) (fun a => if a = addr4 10 0 0 1 32 then some me else none) = .ok s' ∧
      s' (addr4 10 0 0 1 32) = none ∧
      writeSession ⟨[addr4 10 0 0 1 32], NONE, NONE, NONE, NONE⟩ w ⟨[addr4 10 0 0 1 32], NONE, NONE⟩ =
        (w, ⟨[addr4 10 0 0 1 32], NONE, NONE⟩, true) := by
  have hg := good4 10 0 0 1 32 (by decide)
  obtain ⟨w', h1, items, h2, h3⟩ := wrote_one w hg false
  obtain ⟨s', h4, h5⟩ := process_update me (fun a => if a = addr4 10 0 0 1 32 then some me else none) h3
  refine ⟨items, s', ?_, h4, ?_, rfl⟩
  · have : writeSession ⟨[addr4 10 0 0 1 32], NONE, NONE, NONE, NONE⟩ w
        ⟨[addr4 10 0 0 1 32], addr4 10 0 0 1 32, NONE⟩ =
        ((addIp w (addr4 10 0 0 1 32) false).getD w, ⟨[addr4 10 0 0 1 32], NONE, NONE⟩, true) := rfl
    rw [this, h1, h2]
    rfl
  · rw [h5]
    simp [about, regStep]

/-- An address which somebody else has registered belongs to the radio when it announces the address, and is gone when
it withdraws it. -/
theorem C143_origin_counterexample (me : Nat) (a : Netaddr) (hg : Good a) (s : Addrs) :
    ∃ w1 w2 i1 i2 s1 s2, writePrefixes [a] { out := [] } [] = (w1, [a], true) ∧
      w1.out = encode i1 ∧ writePrefixes [] { out := [] } [a] = (w2, [], true) ∧
      w2.out = encode i2 ∧ processUpdate me (Spec.valuesOf i1) s = .ok s1 ∧ processUpdate me (Spec.valuesOf i2) s1 = .ok s2 ∧
      s2 a = none := by
  obtain ⟨w1, h1, i1, h2, h3⟩ := wrote_one { out := [] } hg true
  obtain ⟨w2, g1, i2, g2, g3⟩ := wrote_one { out := [] } hg false
  obtain ⟨s1, h4, h5⟩ := process_update me s h3
  obtain ⟨s2, g4, g5⟩ := process_update me s1 g3
  refine ⟨w1, w2, i1, i2, s1, s2, ?_, by rw [h2]; simp, ?_, by rw [g2]; simp, h4, g4, ?_⟩
  · simp [writePrefixes, addLoop, dropLoop, h1]
  · simp [writePrefixes, addLoop, dropLoop, g1]
  · rw [g5, h5]
    simp [about, regStep]

example : Good (addr4 10 0 0 1 32) := good4 _ _ _ _ _ (by decide)

end Verif.Dlep
