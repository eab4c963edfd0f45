import Verif.Rfc5444.FlowSpec
/-
Invariants for C149 and C150.
-/
namespace Verif.Rfc5444

/-! ## How the fields change -/

/-- `begin_` changes only `seq` and `begun` -/
theorem begin_eq (d : Dest) : ∃ s q, begin_ d = { d with seq := q, begun := some s } := by
  unfold begin_
  by_cases h : d.own > 0 ∨ d.all > 0
  · rw [if_pos h]; exact ⟨_, _, rfl⟩
  · rw [if_neg h]; exact ⟨_, d.seq, rfl⟩

theorem begin_hdr (d : Dest) : begunHdr (begin_ d) ≤ 5 ∧ 3 ≤ begunHdr (begin_ d) := by
  obtain ⟨s, q, h⟩ := begin_eq d
  rw [h]
  unfold begunHdr hdr
  simp only [Option.getD_some]
  split <;> omega

/-! ## Sequence numbers -/

/-- numbers used so far: those of the packets and of the begun one -/
def used (d : Dest) : List Nat := (d.begun.bind id).toList ++ packetNumbers d.out

def SeqInv (d : Dest) : Prop := Consecutive (packetNumbers d.out) ∧ Consecutive (used d) ∧ (∀ a l, used d = a :: l → d.seq = a)

theorem seqInv_fresh (now max agg rnd : Nat) : SeqInv (fresh now max agg rnd) := ⟨trivial, trivial, fun _ _ h => nomatch h⟩

theorem consecutive_cons {a : Nat} {l : List Nat} (h : Consecutive l) (ha : ∀ b l', l = b :: l' → a = (b + 1) % 65536) : Consecutive (a :: l) := by
  cases l with
  | nil => trivial
  | cons b l' => exact ⟨ha b l' rfl, h⟩

theorem consecutive_tail {a : Nat} {l : List Nat} (h : Consecutive (a :: l)) : Consecutive l := by
  cases l with
  | nil => trivial
  | cons b l' => exact h.2

/-- invariant without fields that do not matter -/
theorem seqInv_congr {d d' : Dest} (h : SeqInv d) (h1 : d'.out = d.out) (h2 : d'.begun = d.begun) (h3 : d'.seq = d.seq) : SeqInv d' := by
  unfold SeqInv used at *
  rw [h1, h2, h3]
  exact h

theorem seqInv_begin {d : Dest} (h : SeqInv d) (hb : d.begun = none) : SeqInv (begin_ d) := by
  obtain ⟨h1, h2, h3⟩ := h
  unfold used at h2 h3
  rw [hb] at h2 h3
  unfold begin_
  by_cases hn : d.own > 0 ∨ d.all > 0
  · rw [if_pos hn]
    have hu : used { d with seq := (d.seq + 1) % 65536, begun := some (some ((d.seq + 1) % 65536)) } =
        ((d.seq + 1) % 65536) :: packetNumbers d.out := rfl
    refine ⟨h1, ?_, ?_⟩
    · rw [hu]
      refine consecutive_cons h1 fun b l hl => ?_
      rw [h3 b l hl]
    · intro a l hl
      rw [hu] at hl
      exact (List.cons.inj hl).1
  · rw [if_neg hn]
    exact ⟨h1, h2, h3⟩

theorem seqInv_send {d : Dest} {s : Option Nat} (h : SeqInv d) (hb : d.begun = some s) : SeqInv (send d s) := by
  obtain ⟨h1, h2, h3⟩ := h
  have hu : used d = packetNumbers (send d s).out := by
    unfold used send packetNumbers
    rw [hb]
    cases s <;> rfl
  have hu' : used (send d s) = packetNumbers (send d s).out := rfl
  refine ⟨?_, ?_, ?_⟩
  · rw [← hu]; exact h2
  · rw [hu', ← hu]; exact h2
  · intro a l hl
    rw [hu', ← hu] at hl
    exact h3 a l hl

theorem seqInv_flush {d : Dest} (h : SeqInv d) (f : Bool) : SeqInv (flush d f) := by
  unfold flush
  cases hb : d.begun with
  | some s => exact seqInv_send h hb
  | none =>
    cases f with
    | false => exact h
    | true =>
      obtain ⟨s, q, he⟩ := begin_eq d
      have hi := seqInv_begin h hb
      have hbs : (begin_ d).begun = some s := by rw [he]
      show SeqInv (send (begin_ d) ((begin_ d).begun.getD none))
      rw [hbs]
      exact seqInv_send hi hbs

theorem flush_begun {d : Dest} {f : Bool} : (flush d f).begun = none := by
  unfold flush
  cases hb : d.begun with
  | some s => rfl
  | none =>
    cases f with
    | false => exact hb
    | true => rfl

theorem seqInv_ready {d : Dest} (h : SeqInv d) : SeqInv (ready d) := by
  unfold ready
  by_cases hb : d.begun = none
  · rw [if_pos hb]; exact seqInv_begin h hb
  · rw [if_neg hb]; exact h

theorem seqInv_append {d : Dest} (h : SeqInv d) (id size : Nat) : SeqInv (append d id size) := by
  unfold append notify
  split <;> exact seqInv_congr h rfl rfl rfl

theorem seqInv_step {d : Dest} (h : SeqInv d) (e : Ev) (he : ∀ r, e ≠ .recreate r) : SeqInv (step d e) := by
  cases e with
  | create id size =>
    show SeqInv (create d id size)
    unfold create
    refine seqInv_append ?_ _ _
    by_cases hc : begunHdr (ready d) + bytes (ready d).pend + size > (ready d).max
    · rw [if_pos hc]; exact seqInv_begin (seqInv_flush (seqInv_ready h) _) flush_begun
    · rw [if_neg hc]; exact seqInv_ready h
  | forward id size =>
    show SeqInv (forward d id size)
    unfold forward
    have h1 : SeqInv (if d.begun ≠ none ∧ begunHdr d + bytes d.pend + size > d.max then flush d false else d) := by
      split
      · exact seqInv_flush h _
      · exact h
    generalize (if d.begun ≠ none ∧ begunHdr d + bytes d.pend + size > d.max then flush d false else d) = d1 at h1
    simp only
    split
    · exact seqInv_ready h1
    · exact seqInv_append (seqInv_ready h1) _ _
  | refuse => exact seqInv_ready h
  | tick =>
    show SeqInv (tick d)
    unfold tick
    cases d.timer with
    | none => exact h
    | some t =>
      simp only
      split
      · exact seqInv_flush (d := { d with timer := none }) (seqInv_congr h rfl rfl rfl) _
      · exact h
  | force => exact seqInv_flush h _
  | wait dt => exact seqInv_congr h rfl rfl rfl
  | needOwn => exact seqInv_congr h rfl rfl rfl
  | dropOwn => exact seqInv_congr h rfl rfl rfl
  | needAll => exact seqInv_congr h rfl rfl rfl
  | dropAll => exact seqInv_congr h rfl rfl rfl
  | setAgg v => exact seqInv_congr h rfl rfl rfl
  | recreate r => exact absurd rfl (he r)

theorem seqInv_run (d : Dest) (es : List Ev) (hk : Kept es) (h : SeqInv d) : SeqInv (run d es) := by
  induction es with
  | nil => exact h
  | cons e es ih => exact seqInv_step (ih fun r hr => hk r (List.mem_cons_of_mem _ hr)) e fun r hr => hk r (by rw [hr]; exact List.mem_cons_self)

theorem numbers_inv (s : Nat) (es : List NoEv) (hn : ∀ r, NoEv.newIf r ∉ es) :
    Consecutive (numbers s es).2 ∧ ∀ a l, (numbers s es).2 = a :: l → (numbers s es).1 = a := by
  induction es with
  | nil => exact ⟨trivial, fun _ _ h => nomatch h⟩
  | cons e es ih =>
    obtain ⟨i1, i2⟩ := ih fun r hr => hn r (List.mem_cons_of_mem _ hr)
    cases e with
    | newIf r => exact absurd List.mem_cons_self (hn r)
    | next =>
      refine ⟨consecutive_cons i1 fun b l hl => ?_, fun a l hl => (List.cons.inj hl).1⟩
      rw [i2 b l hl]

/-! ## Generic preservation: an invariant that holds through `begin_`, sending, appending -/

theorem bytes_append (ms : List Msg) (m : Msg) : bytes (ms ++ [m]) = bytes ms + m.size := by
  unfold bytes
  simp

theorem create_timer (d : Dest) (id size : Nat) (h : d.timer = none) : (create d id size).timer = some (d.now + d.agg) := by
  have hr : ∀ d : Dest, (ready d).timer = d.timer ∧ (ready d).now = d.now ∧ (ready d).agg = d.agg := by
    intro d
    unfold ready
    split
    · obtain ⟨s, q, he⟩ := begin_eq d; rw [he]; exact ⟨rfl, rfl, rfl⟩
    · exact ⟨rfl, rfl, rfl⟩
  have hb : ∀ d : Dest, (begin_ (flush d false)).timer = d.timer ∧ (begin_ (flush d false)).now = d.now ∧ (begin_ (flush d false)).agg = d.agg := by
    intro d
    obtain ⟨s, q, he⟩ := begin_eq (flush d false)
    rw [he]
    unfold flush
    cases d.begun <;> exact ⟨rfl, rfl, rfl⟩
  unfold create
  obtain ⟨r1, r2, r3⟩ := hr d
  obtain ⟨b1, b2, b3⟩ := hb (ready d)
  simp only
  split
  · unfold append notify
    rw [if_pos (show (begin_ (flush (ready d) false)).timer = none by rw [b1, r1, h])]
    show some ((begin_ (flush (ready d) false)).now + (begin_ (flush (ready d) false)).agg) = _
    rw [b2, b3, r2, r3]
  · unfold append notify
    rw [if_pos (show (ready d).timer = none by rw [r1, h])]
    show some ((ready d).now + (ready d).agg) = _
    rw [r2, r3]

/-! ## Messages leave once, packets fit -/

/-- what is needed to follow messages: nothing pending without a begun packet, what is begun fits -/
def Whole (max : Nat) (d : Dest) : Prop := d.max = max ∧ (d.begun = none → d.pend = []) ∧ (∀ s, d.begun = some s → hdr s + bytes d.pend ≤ max) ∧
  ∀ p ∈ d.out, wire p ≤ max

def line (d : Dest) : List Nat := delivered d.out ++ d.pend.map (·.id)

theorem whole_fresh (now max agg rnd : Nat) : Whole max (fresh now max agg rnd) := ⟨rfl, fun _ => rfl, (fun s h => nomatch h), (fun p h => nomatch h)⟩

theorem hdr_le (s : Option Nat) : hdr s ≤ 5 ∧ 3 ≤ hdr s := by
  unfold hdr
  split <;> omega

theorem whole_begin {max : Nat} {d : Dest} (hm : 5 ≤ max) (h : Whole max d) (hb : d.begun = none) :
    Whole max (begin_ d) ∧ line (begin_ d) = line d ∧ (begin_ d).pend = [] ∧ ∃ s, (begin_ d).begun = some s := by
  obtain ⟨h1, h2, h3, h4⟩ := h
  obtain ⟨s, q, he⟩ := begin_eq d
  rw [he]
  have hp := h2 hb
  refine ⟨⟨h1, (fun hh => nomatch hh), ?_, h4⟩, rfl, hp, s, rfl⟩
  intro s' _
  show hdr s' + bytes d.pend ≤ max
  rw [hp]
  have := (hdr_le s').1
  show hdr s' + 0 ≤ max
  omega

theorem whole_send {max : Nat} {d : Dest} {s : Option Nat} (h : Whole max d) (hb : d.begun = some s) :
    Whole max (send d s) ∧ line (send d s) = line d := by
  obtain ⟨h1, h2, h3, h4⟩ := h
  refine ⟨⟨h1, fun _ => rfl, (fun s hh => nomatch hh), ?_⟩, ?_⟩
  · intro p hp
    rcases List.mem_cons.mp hp with rfl | hp'
    · have := h3 s hb
      unfold hdr bytes at this
      unfold wire
      simp only
      split at this <;> rename_i hs <;> simp only [hs] <;> simp <;> omega
    · exact h4 p hp'
  · unfold line
    show (delivered d.out ++ d.pend.map (·.id)) ++ [] = _
    rw [List.append_nil]

theorem whole_flush {max : Nat} {d : Dest} (hm : 5 ≤ max) (h : Whole max d) (f : Bool) :
    Whole max (flush d f) ∧ line (flush d f) = line d := by
  unfold flush
  cases hb : d.begun with
  | some s => exact whole_send h hb
  | none =>
    cases f with
    | false => exact ⟨h, rfl⟩
    | true =>
      obtain ⟨w, l, _, s, hs⟩ := whole_begin hm h hb
      show Whole max (send (begin_ d) ((begin_ d).begun.getD none)) ∧ line (send (begin_ d) ((begin_ d).begun.getD none)) = _
      rw [hs]
      obtain ⟨w', l'⟩ := whole_send w hs
      exact ⟨w', l'.trans l⟩

theorem whole_ready {max : Nat} {d : Dest} (hm : 5 ≤ max) (h : Whole max d) :
    Whole max (ready d) ∧ line (ready d) = line d ∧ ∃ s, (ready d).begun = some s := by
  unfold ready
  by_cases hb : d.begun = none
  · rw [if_pos hb]
    obtain ⟨w, l, _, s⟩ := whole_begin hm h hb
    exact ⟨w, l, s⟩
  · rw [if_neg hb]
    exact ⟨h, rfl, Option.ne_none_iff_exists'.mp hb⟩

theorem whole_append {max : Nat} {d : Dest} (h : Whole max d) {s : Option Nat} (hb : d.begun = some s) (id size : Nat)
    (hf : begunHdr d + bytes d.pend + size ≤ max) : Whole max (append d id size) ∧ line (append d id size) = line d ++ [id] := by
  obtain ⟨h1, h2, h3, h4⟩ := h
  have key : Whole max { d with pend := d.pend ++ [⟨id, size, d.now⟩] } ∧ line { d with pend := d.pend ++ [⟨id, size, d.now⟩] } = line d ++ [id] := by
    refine ⟨⟨h1, fun hn => ?_, fun s' hs' => ?_, h4⟩, ?_⟩
    · have : d.begun = none := hn
      rw [hb] at this
      exact nomatch this
    · have hs' : d.begun = some s' := hs'
      unfold begunHdr at hf
      rw [hs'] at hf
      show hdr s' + bytes (d.pend ++ [⟨id, size, d.now⟩]) ≤ max
      rw [bytes_append]
      show hdr s' + (bytes d.pend + size) ≤ max
      simp only [Option.getD_some] at hf
      omega
    · unfold line
      simp
  unfold append notify
  split
  · exact key
  · exact key

theorem create_whole {max : Nat} {d : Dest} (hm : 5 ≤ max) (h : Whole max d) (id size : Nat) (hs : size + 5 ≤ max) :
    Whole max (create d id size) ∧ line (create d id size) = line d ++ [id] := by
  obtain ⟨w, l, s, hb⟩ := whole_ready hm h
  unfold create
  simp only
  by_cases hc : begunHdr (ready d) + bytes (ready d).pend + size > (ready d).max
  · rw [if_pos hc]
    obtain ⟨w', l'⟩ := whole_flush hm w false
    obtain ⟨w2, l2, p2, s2, hb2⟩ := whole_begin hm w' flush_begun
    have hd := (begin_hdr (flush (ready d) false)).1
    obtain ⟨w3, l3⟩ := whole_append w2 hb2 id size (by rw [p2]; show _ + 0 + size ≤ max; omega)
    exact ⟨w3, by rw [l3, l2, l', l]⟩
  · rw [if_neg hc]
    rw [w.1] at hc
    obtain ⟨w3, l3⟩ := whole_append w hb id size (by omega)
    exact ⟨w3, by rw [l3, l]⟩

theorem forward_whole {max : Nat} {d : Dest} (hm : 5 ≤ max) (h : Whole max d) (id size : Nat) :
    Whole max (forward d id size) ∧ (size + 5 ≤ max → line (forward d id size) = line d ++ [id]) ∧ (max < size + 3 → line (forward d id size) = line d) := by
  unfold forward
  have h1 : Whole max (if d.begun ≠ none ∧ begunHdr d + bytes d.pend + size > d.max then flush d false else d) ∧
      line (if d.begun ≠ none ∧ begunHdr d + bytes d.pend + size > d.max then flush d false else d) = line d ∧
      ((if d.begun ≠ none ∧ begunHdr d + bytes d.pend + size > d.max then flush d false else d).begun = none ∨
        begunHdr d + bytes d.pend + size ≤ max ∧
        (if d.begun ≠ none ∧ begunHdr d + bytes d.pend + size > d.max then flush d false else d) = d ∧ d.begun ≠ none) := by
    by_cases hc : d.begun ≠ none ∧ begunHdr d + bytes d.pend + size > d.max
    · rw [if_pos hc]
      exact ⟨(whole_flush hm h _).1, (whole_flush hm h _).2, .inl flush_begun⟩
    · rw [if_neg hc]
      refine ⟨h, rfl, ?_⟩
      by_cases hb : d.begun = none
      · exact .inl hb
      · right
        have := h.1
        refine ⟨?_, rfl, hb⟩
        apply Nat.le_of_not_lt
        intro hl
        exact hc ⟨hb, by omega⟩
  generalize (if d.begun ≠ none ∧ begunHdr d + bytes d.pend + size > d.max then flush d false else d) = d1 at h1
  obtain ⟨w1, l1, c1⟩ := h1
  obtain ⟨w, l, s, hb⟩ := whole_ready hm w1
  have hfit : size + 5 ≤ max → ¬ begunHdr (ready d1) + bytes (ready d1).pend + size > (ready d1).max := by
    intro hsz
    rw [w.1]
    rcases c1 with hn | ⟨hle, he, hb1⟩
    · have hr : ready d1 = begin_ d1 := by unfold ready; rw [if_pos hn]
      rw [hr]
      have hd := (begin_hdr d1).1
      have hp := (whole_begin hm w1 hn).2.2.1
      rw [hp]
      show ¬ begunHdr (begin_ d1) + 0 + size > max
      omega
    · have hr : ready d1 = d := by unfold ready; rw [he, if_neg hb1]
      rw [hr]
      omega
  have hbig : max < size + 3 → begunHdr (ready d1) + bytes (ready d1).pend + size > (ready d1).max := by
    intro hsz
    rw [w.1]
    unfold begunHdr
    have := (hdr_le ((ready d1).begun.getD none)).2
    omega
  simp only
  by_cases hc : begunHdr (ready d1) + bytes (ready d1).pend + size > (ready d1).max
  · rw [if_pos hc]
    refine ⟨w, fun hsz => absurd hc (hfit hsz), fun _ => by rw [l, l1]⟩
  · rw [if_neg hc]
    have hle : begunHdr (ready d1) + bytes (ready d1).pend + size ≤ max := by rw [w.1] at hc; omega
    obtain ⟨w2, l2⟩ := whole_append w hb id size hle
    refine ⟨w2, fun _ => by rw [l2, l, l1], fun hsz => absurd (hbig hsz) hc⟩

theorem whole_congr {max : Nat} {d d' : Dest} (h : Whole max d) (h1 : d'.out = d.out) (h2 : d'.begun = d.begun) (h3 : d'.pend = d.pend)
    (h4 : d'.max = d.max) : Whole max d' ∧ line d' = line d := by
  unfold Whole line at *
  rw [h1, h2, h3, h4]
  exact ⟨h, rfl⟩

theorem tick_whole {max : Nat} {d : Dest} (hm : 5 ≤ max) (h : Whole max d) : Whole max (tick d) ∧ line (tick d) = line d := by
  unfold tick
  cases d.timer with
  | none => exact ⟨h, rfl⟩
  | some t =>
    simp only
    split
    · obtain ⟨w, l⟩ := whole_congr (d' := { d with timer := none }) h rfl rfl rfl rfl
      obtain ⟨w', l'⟩ := whole_flush hm w false
      exact ⟨w', l'.trans l⟩
    · exact ⟨h, rfl⟩

theorem sized_tail {max : Nat} {e : Ev} {es : List Ev} (h : Sized max (e :: es)) : Sized max es :=
  ⟨h.1, fun i s hi => h.2.1 i s (List.mem_cons_of_mem _ hi), fun i s hi => h.2.2 i s (List.mem_cons_of_mem _ hi)⟩

theorem whole_run (now max agg rnd : Nat) (es : List Ev) (hs : Sized max es) :
    Whole max (run (fresh now max agg rnd) es) ∧ (Kept es → line (run (fresh now max agg rnd) es) = given max es) := by
  induction es with
  | nil => exact ⟨whole_fresh now max agg rnd, fun _ => rfl⟩
  | cons e es ih =>
    obtain ⟨w, l⟩ := ih (sized_tail hs)
    have kt : Kept (e :: es) → Kept es := fun hk r hr => hk r (List.mem_cons_of_mem _ hr)
    have hm := hs.1
    show Whole max (step (run (fresh now max agg rnd) es) e) ∧ (_ → line (step (run (fresh now max agg rnd) es) e) = _)
    generalize run (fresh now max agg rnd) es = d at w l
    cases e with
    | create i s =>
      obtain ⟨w', l'⟩ := create_whole hm w i s (hs.2.1 i s List.mem_cons_self)
      exact ⟨w', fun hk => by show line (create d i s) = given max es ++ [i]; rw [l', l (kt hk)]⟩
    | forward i s =>
      obtain ⟨w', l1, l2⟩ := forward_whole hm w i s
      refine ⟨w', fun hk => ?_⟩
      show line (forward d i s) = if s + 5 ≤ max then given max es ++ [i] else given max es
      rcases hs.2.2 i s List.mem_cons_self with hf | hb
      · rw [if_pos hf, l1 hf, l (kt hk)]
      · rw [if_neg (by omega), l2 hb, l (kt hk)]
    | refuse =>
      obtain ⟨w', l', _⟩ := whole_ready hm w
      exact ⟨w', fun hk => l'.trans (l (kt hk))⟩
    | tick =>
      obtain ⟨w', l'⟩ := tick_whole hm w
      exact ⟨w', fun hk => l'.trans (l (kt hk))⟩
    | force =>
      obtain ⟨w', l'⟩ := whole_flush hm w true
      exact ⟨w', fun hk => l'.trans (l (kt hk))⟩
    | wait dt => exact ⟨w, fun hk => l (kt hk)⟩
    | needOwn => exact ⟨w, fun hk => l (kt hk)⟩
    | dropOwn => exact ⟨w, fun hk => l (kt hk)⟩
    | needAll => exact ⟨w, fun hk => l (kt hk)⟩
    | dropAll => exact ⟨w, fun hk => l (kt hk)⟩
    | setAgg v => exact ⟨w, fun hk => l (kt hk)⟩
    | recreate r =>
      refine ⟨⟨w.1, fun _ => rfl, (fun s hh => nomatch hh), w.2.2.2⟩, fun hk => absurd List.mem_cons_self (hk r)⟩

/-! ## Time -/

def TimeInv (agg : Nat) (d : Dest) : Prop :=
  d.agg = agg ∧ (d.begun = none → d.pend = []) ∧ (∀ t, d.timer = some t → d.now ≤ t ∧ t ≤ d.now + agg) ∧
  (∀ p ∈ d.out, ∀ m ∈ p.msgs, p.sent ≤ m.born + agg) ∧ (∀ m ∈ d.pend, d.now ≤ m.born + agg ∧ ∃ t, d.timer = some t ∧ t ≤ m.born + agg)

/-- like `TimeInv`, but the timer may have been stopped right now -/
def TimeInv' (agg : Nat) (d : Dest) : Prop :=
  d.agg = agg ∧ (d.begun = none → d.pend = []) ∧ (∀ t, d.timer = some t → d.now ≤ t ∧ t ≤ d.now + agg) ∧
  (∀ p ∈ d.out, ∀ m ∈ p.msgs, p.sent ≤ m.born + agg) ∧ (∀ m ∈ d.pend, d.now ≤ m.born + agg)

theorem time_weak {agg : Nat} {d : Dest} (h : TimeInv agg d) : TimeInv' agg d := ⟨h.1, h.2.1, h.2.2.1, h.2.2.2.1, fun m hm => (h.2.2.2.2 m hm).1⟩

theorem time_begin {agg : Nat} {d : Dest} (h : TimeInv agg d) : TimeInv agg (begin_ d) := by
  obtain ⟨s, q, he⟩ := begin_eq d
  rw [he]
  exact ⟨h.1, (fun hh => nomatch hh), h.2.2⟩

theorem time_send {agg : Nat} {d : Dest} (s : Option Nat) (h : TimeInv' agg d) : TimeInv agg (send d s) := by
  refine ⟨h.1, fun _ => rfl, h.2.2.1, ?_, (fun m hm => nomatch hm)⟩
  intro p hp m hm
  rcases List.mem_cons.mp hp with rfl | hp'
  · exact h.2.2.2.2 m hm
  · exact h.2.2.2.1 p hp' m hm

theorem time_flush {agg : Nat} {d : Dest} (h : TimeInv' agg d) (f : Bool) : TimeInv agg (flush d f) := by
  unfold flush
  cases hb : d.begun with
  | some s => exact time_send s h
  | none =>
    have hp := h.2.1 hb
    have hh : TimeInv agg d := ⟨h.1, h.2.1, h.2.2.1, h.2.2.2.1, fun m hm => by rw [hp] at hm; exact nomatch hm⟩
    cases f with
    | false => exact hh
    | true => exact time_send _ (time_weak (time_begin hh))

theorem time_ready {agg : Nat} {d : Dest} (h : TimeInv agg d) : TimeInv agg (ready d) := by
  unfold ready
  split
  · exact time_begin h
  · exact h

theorem ready_begun (d : Dest) : (ready d).begun ≠ none := by
  unfold ready
  by_cases hb : d.begun = none
  · rw [if_pos hb]
    obtain ⟨s, q, he⟩ := begin_eq d
    rw [he]
    exact fun h => nomatch h
  · rw [if_neg hb]; exact hb

theorem begin_begun (d : Dest) : (begin_ d).begun ≠ none := by
  obtain ⟨s, q, he⟩ := begin_eq d
  rw [he]
  exact fun h => nomatch h

theorem time_append {agg : Nat} {d : Dest} (h : TimeInv agg d) (hb : d.begun ≠ none) (id size : Nat) : TimeInv agg (append d id size) := by
  obtain ⟨h1, h2, h3, h4, h5⟩ := h
  unfold append notify
  by_cases ht : d.timer = none
  · rw [if_pos (show ({ d with pend := d.pend ++ [⟨id, size, d.now⟩] } : Dest).timer = none from ht)]
    refine ⟨h1, fun hn => absurd hn hb, ?_, h4, ?_⟩
    · intro t e
      have e : some (d.now + d.agg) = some t := e
      cases e
      show d.now ≤ d.now + d.agg ∧ d.now + d.agg ≤ d.now + agg
      omega
    · intro m hm
      rcases List.mem_append.mp hm with hm | hm
      · obtain ⟨_, t, e, _⟩ := h5 m hm
        rw [ht] at e
        exact nomatch e
      · have := List.mem_singleton.mp hm
        subst this
        refine ⟨Nat.le_add_right _ _, d.now + d.agg, rfl, ?_⟩
        show d.now + d.agg ≤ d.now + agg
        omega
  · rw [if_neg (show ¬ ({ d with pend := d.pend ++ [⟨id, size, d.now⟩] } : Dest).timer = none from ht)]
    refine ⟨h1, fun hn => absurd hn hb, h3, h4, ?_⟩
    intro m hm
    rcases List.mem_append.mp hm with hm | hm
    · exact h5 m hm
    · have := List.mem_singleton.mp hm
      subst this
      obtain ⟨t, e⟩ := Option.ne_none_iff_exists'.mp ht
      exact ⟨Nat.le_add_right _ _, t, e, (h3 t e).2⟩

theorem timeInv_run (now max agg rnd : Nat) (es : List Ev) (hk : Kept es) (ht : Timely (fresh now max agg rnd) es) :
    TimeInv agg (run (fresh now max agg rnd) es) := by
  induction es with
  | nil => exact ⟨rfl, fun _ => rfl, (fun t h => nomatch h), (fun p h => nomatch h), (fun m h => nomatch h)⟩
  | cons e es ih =>
    obtain ⟨t1, t2⟩ := ht
    have I := ih (fun r hr => hk r (List.mem_cons_of_mem _ hr)) t1
    show TimeInv agg (step (run (fresh now max agg rnd) es) e)
    generalize run (fresh now max agg rnd) es = d at I t2
    cases e with
    | create i s =>
      show TimeInv agg (create d i s)
      unfold create
      simp only
      split
      · exact time_append (time_begin (time_flush (time_weak (time_ready I)) _)) (begin_begun _) _ _
      · exact time_append (time_ready I) (ready_begun _) _ _
    | forward i s =>
      show TimeInv agg (forward d i s)
      unfold forward
      have h1 : TimeInv agg (if d.begun ≠ none ∧ begunHdr d + bytes d.pend + s > d.max then flush d false else d) := by
        split
        · exact time_flush (time_weak I) _
        · exact I
      generalize (if d.begun ≠ none ∧ begunHdr d + bytes d.pend + s > d.max then flush d false else d) = d1 at h1
      simp only
      split
      · exact time_ready h1
      · exact time_append (time_ready h1) (ready_begun _) _ _
    | refuse => exact time_ready I
    | tick =>
      show TimeInv agg (tick d)
      unfold tick
      cases d.timer with
      | none => exact I
      | some t =>
        simp only
        split
        · refine time_flush (d := { d with timer := none }) ⟨I.1, I.2.1, (fun t h => nomatch h), I.2.2.2.1, fun m hm => (I.2.2.2.2 m hm).1⟩ _
        · exact I
    | force => exact time_flush (time_weak I) _
    | wait dt =>
      have t2 := t2 dt rfl
      obtain ⟨h1, h2, h3, h4, h5⟩ := I
      refine ⟨h1, h2, ?_, h4, ?_⟩
      · intro t e
        have e : d.timer = some t := e
        have := h3 t e
        have := t2 t e
        show d.now + dt ≤ t ∧ t ≤ d.now + dt + agg
        omega
      · intro m hm
        obtain ⟨_, t, e, hle⟩ := h5 m hm
        have := t2 t e
        exact ⟨by show d.now + dt ≤ _; omega, t, e, hle⟩
    | needOwn => exact I
    | dropOwn => exact I
    | needAll => exact I
    | dropAll => exact I
    | setAgg v => exact I
    | recreate r => exact absurd List.mem_cons_self (hk r)

/-! ## No empty packets -/

def FullInv (max : Nat) (d : Dest) : Prop := d.max = max ∧ (d.begun = none → d.pend = []) ∧ (d.timer ≠ none → d.pend ≠ []) ∧ ∀ p ∈ d.out, p.msgs ≠ []

theorem full_begin {max : Nat} {d : Dest} (h : FullInv max d) : FullInv max (begin_ d) := by
  obtain ⟨s, q, he⟩ := begin_eq d
  rw [he]
  exact ⟨h.1, (fun hh => nomatch hh), h.2.2⟩

theorem full_ready {max : Nat} {d : Dest} (h : FullInv max d) : FullInv max (ready d) := by
  unfold ready
  split
  · exact full_begin h
  · exact h

theorem full_append {max : Nat} {d : Dest} (h1 : d.max = max) (h4 : ∀ p ∈ d.out, p.msgs ≠ []) (hb : d.begun ≠ none) (id size : Nat) :
    FullInv max (append d id size) := by
  unfold append notify
  split <;> exact ⟨h1, fun hn => absurd hn hb, fun _ => by simp, h4⟩

/-- overflow: the packet in the buffer is not empty -/
theorem full_overflow {max : Nat} {d : Dest} (h : FullInv max d) (hb : d.begun ≠ none) {size : Nat} (hs : size + 5 ≤ max)
    (hc : begunHdr d + bytes d.pend + size > d.max) : (flush d false).max = max ∧ (flush d false).pend = [] ∧ (∀ p ∈ (flush d false).out, p.msgs ≠ []) := by
  obtain ⟨h1, h2, h3, h4⟩ := h
  obtain ⟨s, e⟩ := Option.ne_none_iff_exists'.mp hb
  have hp : d.pend ≠ [] := by
    intro hp
    rw [hp, h1] at hc
    unfold begunHdr at hc
    have := (hdr_le (d.begun.getD none)).1
    have : bytes [] = 0 := rfl
    omega
  unfold flush
  rw [e]
  refine ⟨h1, rfl, ?_⟩
  intro p hp'
  rcases List.mem_cons.mp hp' with rfl | hp'
  · exact hp
  · exact h4 p hp'

theorem fullInv_run (now max agg rnd : Nat) (es : List Ev) (hc : ∀ i s, Ev.create i s ∈ es → s + 5 ≤ max)
    (hf : ∀ i s, Ev.forward i s ∈ es → s + 5 ≤ max) (hn : Ev.force ∉ es) : FullInv max (run (fresh now max agg rnd) es) := by
  induction es with
  | nil => exact ⟨rfl, fun _ => rfl, (fun h => absurd rfl h), (fun p h => nomatch h)⟩
  | cons e es ih =>
    have I := ih (fun i s h => hc i s (List.mem_cons_of_mem _ h)) (fun i s h => hf i s (List.mem_cons_of_mem _ h)) (fun h => hn (List.mem_cons_of_mem _ h))
    show FullInv max (step (run (fresh now max agg rnd) es) e)
    generalize run (fresh now max agg rnd) es = d at I
    cases e with
    | create i s =>
      have hs := hc i s List.mem_cons_self
      show FullInv max (create d i s)
      unfold create
      simp only
      by_cases ho : begunHdr (ready d) + bytes (ready d).pend + s > (ready d).max
      · rw [if_pos ho]
        obtain ⟨f1, f2, f3⟩ := full_overflow (full_ready I) (ready_begun d) hs ho
        obtain ⟨s', q, he⟩ := begin_eq (flush (ready d) false)
        refine full_append ?_ ?_ (begin_begun _) _ _
        · rw [he]; exact f1
        · rw [he]; exact f3
      · rw [if_neg ho]
        exact full_append (full_ready I).1 (full_ready I).2.2.2 (ready_begun _) _ _
    | forward i s =>
      have hs := hf i s List.mem_cons_self
      show FullInv max (forward d i s)
      unfold forward
      by_cases ho : d.begun ≠ none ∧ begunHdr d + bytes d.pend + s > d.max
      · simp only
        rw [if_pos ho]
        obtain ⟨f1, f2, f3⟩ := full_overflow I ho.1 hs ho.2
        have hr : ready (flush d false) = begin_ (flush d false) := by unfold ready; rw [if_pos flush_begun]
        rw [hr]
        have hd := (begin_hdr (flush d false)).1
        obtain ⟨s', q, he⟩ := begin_eq (flush d false)
        have hp : (begin_ (flush d false)).pend = [] := by rw [he]; exact f2
        have hm : (begin_ (flush d false)).max = max := by rw [he]; exact f1
        have ho' : (begin_ (flush d false)).out = (flush d false).out := by rw [he]
        rw [if_neg]
        · exact full_append hm (by rw [ho']; exact f3) (begin_begun _) _ _
        · rw [hp, hm]
          show ¬ _ + 0 + s > max
          omega
      · simp only
        rw [if_neg ho]
        have hfit : ¬ begunHdr (ready d) + bytes (ready d).pend + s > (ready d).max := by
          by_cases hb : d.begun = none
          · have hr : ready d = begin_ d := by unfold ready; rw [if_pos hb]
            have hd := (begin_hdr d).1
            obtain ⟨s', q, he⟩ := begin_eq d
            have hp : (begin_ d).pend = [] := by rw [he]; exact I.2.1 hb
            have hm : (begin_ d).max = max := by rw [he]; exact I.1
            rw [hr, hp, hm]
            show ¬ _ + 0 + s > max
            omega
          · have hr : ready d = d := by unfold ready; rw [if_neg hb]
            rw [hr]
            exact fun hh => ho ⟨hb, hh⟩
        rw [if_neg hfit]
        exact full_append (full_ready I).1 (full_ready I).2.2.2 (ready_begun _) _ _
    | refuse => exact full_ready I
    | tick =>
      show FullInv max (tick d)
      obtain ⟨h1, h2, h3, h4⟩ := I
      unfold tick
      cases htm : d.timer with
      | none => exact ⟨h1, h2, h3, h4⟩
      | some t =>
        simp only
        split
        · unfold flush
          simp only
          cases hb : d.begun with
          | none => exact ⟨h1, fun _ => h2 hb, (fun h => absurd rfl h), h4⟩
          | some s =>
            refine ⟨h1, fun _ => rfl, (fun h => absurd rfl h), ?_⟩
            intro p hp
            rcases List.mem_cons.mp hp with rfl | hp'
            · exact h3 (by rw [htm]; exact fun h => nomatch h)
            · exact h4 p hp'
        · exact ⟨h1, h2, h3, h4⟩
    | force => exact absurd List.mem_cons_self hn
    | wait dt => exact I
    | needOwn => exact I
    | dropOwn => exact I
    | needAll => exact I
    | dropAll => exact I
    | setAgg v => exact I
    | recreate r => exact ⟨I.1, fun _ => rfl, (fun h => absurd rfl h), I.2.2.2⟩

/-! ## Who gets a number -/

/-- every packet has (`b`) or lacks a number, as the next one will -/
def NumInv (b : Bool) (d : Dest) : Prop :=
  (decide (d.own > 0 ∨ d.all > 0) = b) ∧ (∀ s, d.begun = some s → s.isSome = b) ∧ ∀ p ∈ d.out, p.seq.isSome = b

theorem num_congr {b : Bool} {d d' : Dest} (h : NumInv b d) (h1 : d'.own = d.own) (h2 : d'.all = d.all) (h3 : d'.begun = d.begun) (h4 : d'.out = d.out) :
    NumInv b d' := by
  unfold NumInv at *
  rw [h1, h2, h3, h4]
  exact h

theorem num_begin {b : Bool} {d : Dest} (h : NumInv b d) : NumInv b (begin_ d) := by
  obtain ⟨h1, h2, h3⟩ := h
  unfold begin_
  by_cases hn : d.own > 0 ∨ d.all > 0
  · rw [if_pos hn]
    rw [decide_eq_true hn] at h1
    subst h1
    refine ⟨decide_eq_true hn, fun s hs => ?_, h3⟩
    cases hs
    rfl
  · rw [if_neg hn]
    rw [decide_eq_false hn] at h1
    subst h1
    refine ⟨decide_eq_false hn, fun s hs => ?_, h3⟩
    cases hs
    rfl

theorem num_send {b : Bool} {d : Dest} {s : Option Nat} (h : NumInv b d) (hb : d.begun = some s) : NumInv b (send d s) := by
  obtain ⟨h1, h2, h3⟩ := h
  refine ⟨h1, (fun s hs => nomatch hs), ?_⟩
  intro p hp
  rcases List.mem_cons.mp hp with rfl | hp'
  · exact h2 s hb
  · exact h3 p hp'

theorem num_flush {b : Bool} {d : Dest} (h : NumInv b d) (f : Bool) : NumInv b (flush d f) := by
  unfold flush
  cases hb : d.begun with
  | some s => exact num_send h hb
  | none =>
    cases f with
    | false => exact h
    | true =>
      obtain ⟨s, q, he⟩ := begin_eq d
      have hbs : (begin_ d).begun = some s := by rw [he]
      show NumInv b (send (begin_ d) ((begin_ d).begun.getD none))
      rw [hbs]
      exact num_send (num_begin h) hbs

theorem num_ready {b : Bool} {d : Dest} (h : NumInv b d) : NumInv b (ready d) := by
  unfold ready
  split
  · exact num_begin h
  · exact h

theorem num_append {b : Bool} {d : Dest} (h : NumInv b d) (id size : Nat) : NumInv b (append d id size) := by
  unfold append notify
  split <;> exact num_congr h rfl rfl rfl rfl

/-- the event does not concern requests of numbers -/
def neutral : Ev → Bool
  | .needOwn | .dropOwn | .needAll | .dropAll | .recreate _ => false
  | _ => true

theorem num_neutral {b : Bool} {d : Dest} (h : NumInv b d) (e : Ev) (he : neutral e = true) : NumInv b (step d e) := by
  cases e with
  | create id size =>
    show NumInv b (create d id size)
    unfold create
    simp only
    split
    · exact num_append (num_begin (num_flush (num_ready h) _)) _ _
    · exact num_append (num_ready h) _ _
  | forward id size =>
    show NumInv b (forward d id size)
    unfold forward
    have h1 : NumInv b (if d.begun ≠ none ∧ begunHdr d + bytes d.pend + size > d.max then flush d false else d) := by
      split
      · exact num_flush h _
      · exact h
    generalize (if d.begun ≠ none ∧ begunHdr d + bytes d.pend + size > d.max then flush d false else d) = d1 at h1
    simp only
    split
    · exact num_ready h1
    · exact num_append (num_ready h1) _ _
  | refuse => exact num_ready h
  | tick =>
    show NumInv b (tick d)
    unfold tick
    cases d.timer with
    | none => exact h
    | some t =>
      simp only
      split
      · exact num_flush (d := { d with timer := none }) (num_congr h rfl rfl rfl rfl) _
      · exact h
  | force => exact num_flush h _
  | wait dt => exact num_congr h rfl rfl rfl rfl
  | setAgg v => exact num_congr h rfl rfl rfl rfl
  | needOwn => exact nomatch he
  | dropOwn => exact nomatch he
  | needAll => exact nomatch he
  | dropAll => exact nomatch he
  | recreate r => exact nomatch he

theorem neutral_all {d : Dest} (e : Ev) (he : neutral e = true) : (step d e).all = d.all := by
  have hb : ∀ d : Dest, (begin_ d).all = d.all := by
    intro d; obtain ⟨s, q, h⟩ := begin_eq d; rw [h]
  have hf : ∀ (d : Dest) f, (flush d f).all = d.all := by
    intro d f
    unfold flush
    cases d.begun with
    | some s => rfl
    | none => cases f with
      | false => rfl
      | true => exact hb d
  have hr : ∀ d : Dest, (ready d).all = d.all := by
    intro d; unfold ready; split
    · exact hb d
    · rfl
  have ha : ∀ (d : Dest) i s, (append d i s).all = d.all := by
    intro d i s; unfold append notify; split <;> rfl
  cases e with
  | create id size =>
    show (create d id size).all = _
    unfold create
    simp only
    rw [ha]
    split
    · rw [hb, hf, hr]
    · rw [hr]
  | forward id size =>
    show (forward d id size).all = _
    unfold forward
    have h1 : (if d.begun ≠ none ∧ begunHdr d + bytes d.pend + size > d.max then flush d false else d).all = d.all := by
      split
      · exact hf _ _
      · rfl
    generalize (if d.begun ≠ none ∧ begunHdr d + bytes d.pend + size > d.max then flush d false else d) = d1 at h1
    simp only
    split
    · rw [hr, h1]
    · rw [ha, hr, h1]
  | refuse => exact hr d
  | tick =>
    show (tick d).all = _
    unfold tick
    cases d.timer with
    | none => rfl
    | some t =>
      simp only
      split
      · rw [hf]
      · rfl
  | force => exact hf _ _
  | wait dt => rfl
  | setAgg v => rfl
  | needOwn => exact nomatch he
  | dropOwn => exact nomatch he
  | needAll => exact nomatch he
  | dropAll => exact nomatch he
  | recreate r => exact nomatch he

theorem num_never (now max agg rnd : Nat) (es : List Ev) (h1 : Ev.needOwn ∉ es) (h2 : Ev.needAll ∉ es) :
    NumInv false (run (fresh now max agg rnd) es) := by
  induction es with
  | nil => exact ⟨rfl, (fun s h => nomatch h), (fun p h => nomatch h)⟩
  | cons e es ih =>
    have I := ih (fun h => h1 (List.mem_cons_of_mem _ h)) (fun h => h2 (List.mem_cons_of_mem _ h))
    show NumInv false (step (run (fresh now max agg rnd) es) e)
    generalize run (fresh now max agg rnd) es = d at I
    obtain ⟨i1, i2, i3⟩ := I
    have i1' := of_decide_eq_false i1
    by_cases hne : neutral e = true
    · exact num_neutral ⟨i1, i2, i3⟩ e hne
    · cases e with
      | needOwn => exact absurd List.mem_cons_self h1
      | needAll => exact absurd List.mem_cons_self h2
      | dropOwn => exact ⟨decide_eq_false (by show ¬ (d.own - 1 > 0 ∨ d.all > 0); omega), i2, i3⟩
      | dropAll => exact ⟨decide_eq_false (by show ¬ (d.own > 0 ∨ d.all - 1 > 0); omega), i2, i3⟩
      | recreate r => exact ⟨decide_eq_false (by show ¬ (0 > 0 ∨ d.all > 0); omega), (fun s h => nomatch h), i3⟩
      | _ => exact absurd rfl hne

theorem num_always (now max agg rnd : Nat) (es : List Ev) (h1 : Ev.dropAll ∉ es) :
    NumInv true (run (fresh now max agg rnd) (es ++ [.needAll])) ∧ 0 < (run (fresh now max agg rnd) (es ++ [.needAll])).all := by
  induction es with
  | nil => exact ⟨⟨rfl, (fun s h => nomatch h), (fun p h => nomatch h)⟩, Nat.zero_lt_one⟩
  | cons e es ih =>
    obtain ⟨I, ia⟩ := ih (fun h => h1 (List.mem_cons_of_mem _ h))
    simp only [List.cons_append, run]
    generalize run (fresh now max agg rnd) (es ++ [.needAll]) = d at I ia
    by_cases hne : neutral e = true
    · exact ⟨num_neutral I e hne, by rw [neutral_all e hne]; exact ia⟩
    · obtain ⟨i1, i2, i3⟩ := I
      cases e with
      | needOwn => exact ⟨⟨decide_eq_true (.inr ia), i2, i3⟩, ia⟩
      | dropOwn => exact ⟨⟨decide_eq_true (.inr ia), i2, i3⟩, ia⟩
      | needAll => exact ⟨⟨decide_eq_true (.inr (Nat.succ_pos _)), i2, i3⟩, Nat.succ_pos _⟩
      | dropAll => exact absurd List.mem_cons_self h1
      | recreate r => exact ⟨⟨decide_eq_true (.inr ia), (fun s h => nomatch h), i3⟩, ia⟩
      | _ => exact absurd rfl hne

end Verif.Rfc5444
