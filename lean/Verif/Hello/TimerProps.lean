import Verif.Hello.LinkModel
import Verif.Codec.Model

/-! C93: the timers of a link. -/
namespace Verif.Hello
open Verif.Nhdp (Status calculateStatus)
open Verif.Codec (timeMax timeDecode)

/-! ### Specification -/

/-- a link is symmetric not longer than it is heard and heard not longer than it exists (one tick of the scheduler, 100 ms, aside); it
does not exist forever -/
structure Ordered (l : Lk) : Prop where
  symHeard : l.sym ≠ 0 → l.heard ≠ 0 ∧ l.sym ≤ l.heard
  valid : l.vt ≠ 0
  heardValid : l.heard ≤ l.vt + 100

/-- what happens to a link within `now`: the timers are processed, a HELLO comes in, the interface goes down -/
inductive LReach : Nat → Option Lk → Prop
  | new : LReach 0 none
  | tick {now now' : Nat} {l : Option Lk} (q : Quality) : LReach now l → now ≤ now' → now' < 2 ^ 60 → LReach now' (advance now' q l)
  | hello {now : Nat} {l : Option Lk} (vtime lhold : Nat) (q q' : Quality) (said : Option Bool) :
      LReach now l → 0 < vtime → vtime ≤ timeMax → lhold < 2 ^ 60 → LReach now (some (recv now vtime lhold q q' said l))
  | down {now : Nat} {l : Lk} : LReach now (some l) → LReach now (some (unsym l))

/-! ### Lemmas -/

theorem setT_bounds {now rel : Nat} (hr : 0 < rel) (h : now + rel < 2 ^ 63) : now + rel < setT now rel ∧ setT now rel ≤ now + rel + 100 := by
  unfold setT Verif.Timer.calcClock Verif.Timer.slice
  rw [if_neg (by omega)]
  simp only [ne_eq, not_true_eq_false, if_false]
  omega

theorem s64_small {x : Nat} (h : x < 2 ^ 63) : s64 x = x := by unfold s64; rw [if_pos h]

theorem u64_nat {i : Int} (h0 : 0 ≤ i) (h : i < 2 ^ 63) : (u64 i : Int) = i := by unfold u64; omega

/-- `t` if the symmetric timer is not late -/
theorem heardFor_eq {now vtime : Nat} {l : Lk} (hn : now < 2 ^ 60) (hs : l.sym = 0 ∨ now ≤ l.sym) (hb : l.sym < 2 ^ 62) :
    heardFor now vtime l = max vtime (l.sym - now) := by
  unfold heardFor
  by_cases h0 : l.sym = 0
  · rw [if_pos (Or.inl h0), h0, Nat.zero_sub, Nat.max_eq_left (Nat.zero_le _)]
  · have hs : now ≤ l.sym := by omega
    have hd : due l.sym now = (l.sym : Int) - now := by
      unfold due; rw [s64_small (by omega), s64_small (by omega)]
    have hu : u64 (due l.sym now) = l.sym - now := by
      have := u64_nat (i := due l.sym now) (by omega) (by omega)
      omega
    rw [hu]
    by_cases h1 : l.sym - now < vtime
    · rw [if_pos (Or.inr h1), Nat.max_eq_left (by omega)]
    · rw [if_neg (by omega), Nat.max_eq_right (by omega)]

/-- bounds of the timers which hold in the model of runs: timers which run are not late -/
structure Bounds (now : Nat) (l : Lk) : Prop where
  sym : l.sym = 0 ∨ now < l.sym
  heard : l.heard = 0 ∨ now < l.heard
  vt : l.vt = 0 ∨ now < l.vt
  symB : l.sym < 2 ^ 61
  vtB : l.vt < 2 ^ 62

theorem validFor_eq {now vtime lhold : Nat} {l : Lk} (hv : vtime ≤ timeMax) (hl : lhold < 2 ^ 60) (hn : now < 2 ^ 60)
    (hs : l.sym = 0 ∨ now ≤ l.sym) (hb : l.sym < 2 ^ 61) :
    validFor now vtime lhold l = max vtime (l.sym - now) + (if l.status ≠ .pending then lhold else 0) := by
  unfold validFor
  rw [heardFor_eq hn hs (by omega)]
  have : max vtime (l.sym - now) < 2 ^ 61 := by
    apply Nat.max_lt.2; simp only [timeMax] at hv; omega
  split
  · omega
  · rfl

/-- the second part of the update -/
theorem recvTimes_spec {now vtime lhold : Nat} {l : Lk} (hn : now < 2 ^ 60) (hv0 : 0 < vtime) (hv : vtime ≤ timeMax) (hl : lhold < 2 ^ 60)
    (hs : l.sym = 0 ∨ now ≤ l.sym) (hsb : l.sym < 2 ^ 61) (hvb : l.vt < 2 ^ 62) :
    let r := recvTimes now vtime lhold l
    now + vtime < r.heard ∧ l.sym ≤ r.heard ∧ r.heard ≤ max (now + vtime) l.sym + 100 ∧
    now + vtime ≤ r.vt ∧ r.heard ≤ r.vt + 100 ∧ (l.status ≠ .pending → now + vtime + lhold ≤ r.vt) ∧ r.vt < 2 ^ 62 := by
  have hvalid := validFor_eq hv hl hn hs hsb
  have hheard := heardFor_eq (vtime := vtime) hn hs (by omega)
  have hv' : vtime < 2 ^ 32 := by simp only [timeMax] at hv; omega
  have hM : max vtime (l.sym - now) < 2 ^ 61 := Nat.max_lt.2 ⟨by omega, by omega⟩
  have hM1 : vtime ≤ max vtime (l.sym - now) := Nat.le_max_left _ _
  have hM2 : l.sym - now ≤ max vtime (l.sym - now) := Nat.le_max_right _ _
  have hM3 : max vtime (l.sym - now) = vtime ∨ max vtime (l.sym - now) = l.sym - now := by
    rcases Nat.le_total vtime (l.sym - now) with h | h
    · right; exact Nat.max_eq_right h
    · left; exact Nat.max_eq_left h
  dsimp only [recvTimes]
  rw [hvalid, hheard]
  generalize max vtime (l.sym - now) = M at *
  have hp : (if l.status ≠ .pending then lhold else 0) ≤ lhold := by split <;> omega
  have hp2 : l.status ≠ .pending → (if l.status ≠ .pending then lhold else 0) = lhold := fun h => if_pos h
  generalize (if l.status ≠ Status.pending then lhold else 0) = H at *
  have b1 := setT_bounds (now := now) (rel := M) (by omega) (by omega)
  have b2 := setT_bounds (now := now) (rel := M + H) (by omega) (by omega)
  have hs64 : s64 (M + H) = ((M + H : Nat) : Int) := s64_small (by omega)
  have hdue : due l.vt now = (l.vt : Int) - now := by
    unfold due; rw [s64_small (by omega), s64_small (by omega)]
  rw [hs64, hdue]
  have hmax1 : now + vtime ≤ max (now + vtime) l.sym := Nat.le_max_left _ _
  have hmax2 : l.sym ≤ max (now + vtime) l.sym := Nat.le_max_right _ _
  generalize max (now + vtime) l.sym = X at *
  refine ⟨by omega, by omega, by omega, ?_⟩
  by_cases hc : l.vt = 0 ∨ ((M + H : Nat) : Int) > (l.vt : Int) - now
  · rw [if_pos hc]
    exact ⟨by omega, by omega, fun h => by have := hp2 h; omega, by omega⟩
  · rw [if_neg hc]
    exact ⟨by omega, by omega, fun h => by have := hp2 h; omega, by omega⟩

theorem upd_timers (l : Lk) (q : Quality) : (upd l q).sym = l.sym ∧ (upd l q).heard = l.heard ∧ (upd l q).vt = l.vt ∧
    (upd l q).status = statusOf q l.sym l.heard := ⟨rfl, rfl, rfl, rfl⟩

/-- the symmetric timer after the first part -/
theorem recvSym_sym (now vtime lhold : Nat) (q : Quality) (said : Option Bool) (l : Lk) :
    (recvSym now vtime lhold q said l).sym = match said with | none => l.sym | some true => setT now vtime | some false => 0 := by
  unfold recvSym
  match said with
  | none => rfl
  | some true => rfl
  | some false =>
    dsimp only
    split
    · assumption
    · split <;> rfl

theorem recvSym_vt (now vtime lhold : Nat) (q : Quality) (said : Option Bool) (l : Lk) :
    (recvSym now vtime lhold q said l).vt = l.vt ∨ (recvSym now vtime lhold q said l).vt = setT now lhold := by
  unfold recvSym
  match said with
  | none => exact Or.inl rfl
  | some true => exact Or.inl rfl
  | some false =>
    dsimp only
    split
    · exact Or.inl rfl
    · split
      · exact Or.inr rfl
      · exact Or.inl rfl

theorem setT_lt {now rel : Nat} (h : now + rel < 2 ^ 61 + 2 ^ 60) : setT now rel < 2 ^ 62 := by
  rcases Nat.eq_zero_or_pos rel with h0 | h0
  · subst h0; simp [setT]
  · have := setT_bounds (now := now) h0 (by omega)
    omega

/-- the symmetric timer of a link which may not exist yet -/
def symOf (l : Option Lk) : Nat := match l with | none => 0 | some x => x.sym
def vtOf (l : Option Lk) : Nat := match l with | none => 0 | some x => x.vt

theorem recvAddr_sym (l : Option Lk) : (recvAddr l).sym = symOf l := by cases l <;> rfl
theorem recvAddr_vt (l : Option Lk) : (recvAddr l).vt = vtOf l := by cases l <;> rfl

theorem recv_spec {now vtime lhold : Nat} (q q' : Quality) (said : Option Bool) {l : Option Lk} (hn : now < 2 ^ 60) (hv0 : 0 < vtime)
    (hv : vtime ≤ timeMax) (hl : lhold < 2 ^ 60) (hs : symOf l = 0 ∨ now ≤ symOf l) (hsb : symOf l < 2 ^ 61) (hvb : vtOf l < 2 ^ 62) :
    let r := recv now vtime lhold q q' said l
    (r.sym = match said with | none => symOf l | some true => setT now vtime | some false => 0) ∧
    now + vtime < r.heard ∧ r.sym ≤ r.heard ∧ r.heard ≤ max (now + vtime) r.sym + 100 ∧
    now + vtime ≤ r.vt ∧ r.heard ≤ r.vt + 100 ∧ r.vt < 2 ^ 62 ∧ r.status = statusOf q' r.sym r.heard := by
  have hv' : vtime < 2 ^ 32 := by simp only [timeMax] at hv; omega
  have b := setT_bounds (now := now) (rel := vtime) hv0 (by omega)
  have e := recvSym_sym now vtime lhold q said (recvAddr l)
  have hsym : (recvSym now vtime lhold q said (recvAddr l)).sym = 0 ∨ now ≤ (recvSym now vtime lhold q said (recvAddr l)).sym := by
    rw [e]
    match said with
    | none => dsimp only; rw [recvAddr_sym]; exact hs
    | some true => right; dsimp only; omega
    | some false => left; rfl
  have hsymb : (recvSym now vtime lhold q said (recvAddr l)).sym < 2 ^ 61 := by
    rw [e]
    match said with
    | none => dsimp only; rw [recvAddr_sym]; exact hsb
    | some true => dsimp only; omega
    | some false => dsimp only; omega
  have hvtb : (recvSym now vtime lhold q said (recvAddr l)).vt < 2 ^ 62 := by
    rcases recvSym_vt now vtime lhold q said (recvAddr l) with h | h
    · rw [h, recvAddr_vt]; exact hvb
    · rw [h]; exact setT_lt (by omega)
  obtain ⟨r1, r2, r3, r4, r5, _, r7⟩ := recvTimes_spec hn hv0 hv hl hsym hsymb hvtb
  obtain ⟨u1, u2, u3, u4⟩ := upd_timers (recvTimes now vtime lhold (recvSym now vtime lhold q said (recvAddr l))) q'
  have hsame : (recvTimes now vtime lhold (recvSym now vtime lhold q said (recvAddr l))).sym = (recvSym now vtime lhold q said (recvAddr l)).sym := rfl
  dsimp only [recv]
  rw [u4, u1, u2, u3, hsame]
  refine ⟨?_, r1, r2, r3, r4, r5, r7, rfl⟩
  rw [e]
  match said with
  | none => exact recvAddr_sym l
  | some true => rfl
  | some false => rfl

/-- bounds and order in runs -/
theorem lreach_inv {now : Nat} {l : Option Lk} (h : LReach now l) : now < 2 ^ 60 ∧ ∀ x, l = some x → Bounds now x ∧ Ordered x := by
  induction h with
  | new => exact ⟨by decide, fun x h => by cases h⟩
  | @tick now now' l q _ hle hb ih =>
    refine ⟨hb, ?_⟩
    intro x hx
    cases l with
    | none => cases hx
    | some y =>
      obtain ⟨hB, hO⟩ := ih.2 y rfl
      unfold advance at hx
      dsimp only at hx
      by_cases c1 : y.vt ≠ 0 ∧ y.vt ≤ now'
      · rw [if_pos c1] at hx; cases hx
      · rw [if_neg c1] at hx
        have hvt : now' < y.vt := by have := hO.valid; omega
        by_cases c2 : (y.sym ≠ 0 ∧ y.sym ≤ now') ∨ (y.heard ≠ 0 ∧ y.heard ≤ now')
        · rw [if_pos c2] at hx
          injection hx with hx
          subst hx
          have f1 : fire now' y.sym = 0 ∨ fire now' y.sym = y.sym ∧ now' < y.sym := by unfold fire; split <;> omega
          have f2 : fire now' y.heard = 0 ∨ fire now' y.heard = y.heard ∧ now' < y.heard := by unfold fire; split <;> omega
          have f3 : now' < y.heard → fire now' y.heard = y.heard := by intro h; unfold fire; rw [if_neg (by omega)]
          have hB1 := hB.symB
          have hB2 := hB.vtB
          have hO1 := hO.symHeard
          have hO2 := hO.heardValid
          constructor
          · exact ⟨by dsimp only [upd]; omega, by dsimp only [upd]; omega, Or.inr hvt, by dsimp only [upd]; omega, hB2⟩
          · refine ⟨?_, hO.valid, by dsimp only [upd]; omega⟩
            intro hs
            have hs : fire now' y.sym ≠ 0 := hs
            have h1 : now' < y.sym := by omega
            have h2 := hO1 (by omega)
            have h3 := f3 (by omega)
            show fire now' y.heard ≠ 0 ∧ fire now' y.sym ≤ fire now' y.heard
            omega
        · rw [if_neg c2] at hx
          injection hx with hx
          subst hx
          exact ⟨⟨by omega, by omega, Or.inr hvt, hB.symB, hB.vtB⟩, hO⟩
  | @hello now l vtime lhold q q' said _ h0 h1 h2 ih =>
    refine ⟨ih.1, ?_⟩
    intro x hx
    injection hx with hx
    have hv' : vtime < 2 ^ 32 := by simp only [timeMax] at h1; omega
    have hb := setT_bounds (now := now) (rel := vtime) h0 (by have := ih.1; omega)
    have hsym : symOf l = 0 ∨ now < symOf l := by
      cases l with
      | none => exact Or.inl rfl
      | some y => exact (ih.2 y rfl).1.sym
    have hsymb : symOf l < 2 ^ 61 := by
      cases l with
      | none => show 0 < _; omega
      | some y => exact (ih.2 y rfl).1.symB
    have hvtb : vtOf l < 2 ^ 62 := by
      cases l with
      | none => show 0 < _; omega
      | some y => exact (ih.2 y rfl).1.vtB
    obtain ⟨r0, r1, r2, r3, r4, r5, r6, _⟩ := recv_spec q q' said ih.1 h0 h1 h2 (by omega) hsymb hvtb
    rw [hx] at *
    have hs : x.sym = 0 ∨ now < x.sym := by
      rw [r0]
      match said with
      | none => exact hsym
      | some true => dsimp only; omega
      | some false => exact Or.inl rfl
    have hsb : x.sym < 2 ^ 61 := by
      rw [r0]
      have := ih.1
      match said with
      | none => exact hsymb
      | some true => dsimp only; omega
      | some false => dsimp only; omega
    exact ⟨⟨hs, by omega, by omega, hsb, r6⟩, ⟨fun _ => ⟨by omega, r2⟩, by omega, r5⟩⟩
  | @down now l _ ih =>
    refine ⟨ih.1, ?_⟩
    intro x hx
    injection hx with hx
    subst hx
    obtain ⟨hB, hO⟩ := ih.2 l rfl
    exact ⟨⟨Or.inl rfl, hB.heard, hB.vt, by dsimp only [unsym]; omega, hB.vtB⟩, ⟨fun h => absurd rfl h, hO.valid, hO.heardValid⟩⟩

/-! ### Properties -/

/-- C93: in every run, a link is symmetric not longer than heard, heard not longer than it exists, and it has a limited life; missing:
HELLOs processed while a timer is overdue, validity times of zero and infinity, see the counterexamples. -/
theorem C93_order_partial {now : Nat} {l : Lk} (h : LReach now (some l)) : Ordered l := ((lreach_inv h).2 l rfl).2

/-- C93: no timer of a link which still exists is overdue after the timers were processed. -/
theorem C93_not_late_partial {now : Nat} {l : Lk} (h : LReach now (some l)) :
    (l.sym ≠ 0 → now < l.sym) ∧ (l.heard ≠ 0 → now < l.heard) ∧ now < l.vt := by
  obtain ⟨hB, hO⟩ := (lreach_inv h).2 l rfl
  have := hB.sym
  have := hB.heard
  have := hB.vt
  have := hO.valid
  omega

/-- C93: effect of a HELLO with validity time `vtime`: the link exists and is heard at least for this time; it is symmetric for this
time (rounded up to ticks of 100 ms) if the HELLO says that we are heard, is not symmetric if it says that we are lost; otherwise nothing
changes about this. -/
theorem C93_hello_partial {now : Nat} {l : Option Lk} (h : LReach now l) {vtime lhold : Nat} (hv0 : 0 < vtime) (hv : vtime ≤ timeMax)
    (hl : lhold < 2 ^ 60) (q q' : Quality) (said : Option Bool) :
    let r := recv now vtime lhold q q' said l
    now + vtime < r.heard ∧ now + vtime ≤ r.vt ∧
    (said = some true → now + vtime < r.sym ∧ r.sym ≤ now + vtime + 100) ∧ (said = some false → r.sym = 0) ∧
    (said = none → r.sym = symOf l) := by
  have hi := lreach_inv h
  have hv' : vtime < 2 ^ 32 := by simp only [timeMax] at hv; omega
  have hb := setT_bounds (now := now) (rel := vtime) hv0 (by have := hi.1; omega)
  have hsym : symOf l = 0 ∨ now ≤ symOf l := by
    cases l with
    | none => exact Or.inl rfl
    | some y => have : y.sym = 0 ∨ now < y.sym := (hi.2 y rfl).1.sym; show y.sym = 0 ∨ now ≤ y.sym; omega
  have hsymb : symOf l < 2 ^ 61 := by
    cases l with
    | none => show 0 < _; omega
    | some y => exact (hi.2 y rfl).1.symB
  have hvtb : vtOf l < 2 ^ 62 := by
    cases l with
    | none => show 0 < _; omega
    | some y => exact (hi.2 y rfl).1.vtB
  obtain ⟨r0, r1, _, _, r4, _⟩ := recv_spec q q' said hi.1 hv0 hv hl hsym hsymb hvtb
  dsimp only at r0 ⊢
  refine ⟨r1, r4, ?_, ?_, ?_⟩
  · intro hsaid; subst hsaid; rw [r0]; exact hb
  · intro hsaid; subst hsaid; rw [r0]
  · intro hsaid; subst hsaid; rw [r0]

/-- C93: without address collision and with sufficient link quality the status follows from the HELLO: symmetric if it says that we are
heard; heard if it says that we are lost, or if it says nothing and the link was not symmetric. -/
theorem C93_status_partial {now : Nat} {l : Option Lk} (h : LReach now l) {vtime lhold : Nat} (hv0 : 0 < vtime) (hv : vtime ≤ timeMax)
    (hl : lhold < 2 ^ 60) (q : Quality) (said : Option Bool) :
    (recv now vtime lhold q good said l).status =
      if said = some true ∨ said = none ∧ symOf l ≠ 0 then .symmetric else .heard := by
  obtain ⟨h1, _, h3, h4, h5⟩ := C93_hello_partial h hv0 hv hl q good said
  have hst : (recv now vtime lhold q good said l).status =
      statusOf good (recv now vtime lhold q good said l).sym (recv now vtime lhold q good said l).heard := rfl
  rw [hst]
  have key : ∀ s h : Nat, h ≠ 0 → statusOf good s h = if s ≠ 0 then .symmetric else .heard := by
    intro s h hh
    by_cases hs : s = 0 <;> simp [statusOf, calculateStatus, good, hs, hh]
  rw [key _ _ (by omega)]
  match said with
  | none => rw [h5 rfl]; simp
  | some true => have := (h3 rfl).1; rw [if_pos (by omega), if_pos (Or.inl rfl)]
  | some false => rw [h4 rfl]; simp

/-- C93: a HELLO is processed 1 ms after the symmetric timer of the link should have fired (the clock is updated without processing timers
before packets are read, oonf_socket.c:252-255).  It does not mention us; its validity time is 20 s.  The heard timer is set to a time
99 ms from now. -/
theorem C93_overdue_counterexample :
    let l := recv 1000 20000 20000 good good (some true) none
    l.sym = 21100 ∧ (recv 21101 20000 20000 good good none (some l)).heard = 21200 ∧
    (advance 21200 good (some (recv 21101 20000 20000 good good none (some l)))).map (·.status) = some .lost ∧
    (recv 21100 20000 20000 good good none (some l)).heard = 41200 := by decide +kernel

/-- C93: the validity time "infinite" (time code 255) ends within 100 ms. -/
theorem C93_infinite_counterexample :
    timeDecode 255 = 2 ^ 64 - 1 ∧
    (recv 1000 (timeDecode 255) 20000 good good (some true) none).status = .symmetric ∧
    (advance 1100 good (some (recv 1000 (timeDecode 255) 20000 good good (some true) none))).map (·.status) = some .lost := by decide +kernel

/-- C93: a HELLO with validity time 0 of a router with a colliding address leaves a link without any timer. -/
theorem C93_zero_counterexample :
    recv 1000 (timeDecode 0) 20000 ⟨true, false⟩ ⟨true, false⟩ (some true) none = ⟨0, 0, 0, .pending, true⟩ ∧
    ∀ now q, advance now q (some ⟨0, 0, 0, .pending, true⟩) = some ⟨0, 0, 0, .pending, true⟩ := by
  refine ⟨by decide +kernel, fun now q => rfl⟩

/-- two HELLOs, the second one says that we are heard; then the link is symmetric, later heard (a HELLO which says that we are lost),
then it does not exist any more -/
example :
    let l1 := recv 1000 20000 20000 good good none none
    let l2 := recv 3000 20000 20000 good good (some true) (some l1)
    let l3 := recv 5000 20000 20000 good good (some false) (some l2)
    l1 = ⟨0, 21100, 41100, .heard, true⟩ ∧ l2 = ⟨23100, 23200, 43200, .symmetric, true⟩ ∧ l3 = ⟨0, 25100, 45100, .heard, false⟩ ∧
    advance 25100 good (some l3) = some ⟨0, 0, 45100, .lost, false⟩ ∧ advance 45100 good (some l3) = none := by decide +kernel

example : LReach 1000 (some (recv 1000 20000 20000 good good none none)) :=
  .hello 20000 20000 good good none (.tick good .new (by decide) (by decide)) (by decide) (by decide) (by decide)

end Verif.Hello
