import Verif.Metric.DatModel

/-
Packet counters of the metric plugin: C82 (window of the last 32 sampling intervals), C83 (share of received packets), C84 (missed HELLOs).
-/
namespace Verif.Metric

/-! ### Specification -/

/-- the packets of a link as an unbounded history: received packets and advance of the sequence number in the current sampling interval
and in each of the closed ones, latest first -/
structure Log where
  last : Nat
  cur : Nat × Nat
  past : List (Nat × Nat)

/-- the history starts with the first packet -/
def Log.step (l : Option Log) : DEvent → Option Log
  | .packet seq =>
    match l with
    | none => some ⟨seq, (1, 1), []⟩
    | some l => some ⟨seq, (l.cur.1 + 1, l.cur.2 + (seq + 65536 - l.last) % 65536), l.past⟩
  | .sample _ _ => l.map (fun l => ⟨l.last, (0, 0), l.cur :: l.past⟩)
  | _ => l

/-- the history of a sequence of events -/
def history (es : List DEvent) : Option Log := es.foldl Log.step none

/-- the last 32 intervals; an interval before the first packet counts as one lost packet -/
def Log.window (l : Log) : List (Nat × Nat) := (l.cur :: (l.past ++ List.replicate 32 (0, 1))).take 32

/-- sequence numbers are 16 bit numbers -/
def SeqOk (es : List DEvent) : Prop := ∀ s, DEvent.packet s ∈ es → s < 65536

/-! ### Lemmas -/

/-- position of the interval `k` intervals ago -/
def slot (a k : Nat) : Nat := (a + 32 - k) % 32

/-- the counters of a bucket -/
def cnt (b : Bucket) : Nat × Nat := (b.received, b.total)

/-- reduction of both -/
def red (p : Nat × Nat) : Nat × Nat := (u32 p.1, u32 p.2)

/-- the buckets represent the window -/
structure Inv (d : DLink) (l : Log) : Prop where
  len : d.buckets.length = 32
  act : d.active < 32
  last : d.lastSeq = l.last
  seq : l.last < 65536
  win : ∀ k, k < 32 → (d.buckets[slot d.active k]?).map cnt = (l.window[k]?).map red

theorem window_length (l : Log) : l.window.length = 32 := by
  unfold Log.window
  simp

theorem window_zero (l : Log) : l.window[0]? = some l.cur := by
  unfold Log.window; rw [List.getElem?_take_of_lt (by omega)]; rfl

theorem window_succ (l : Log) (k : Nat) (h : k + 1 < 32) : l.window[k + 1]? = (l.past ++ List.replicate 32 (0, 1))[k]? := by
  unfold Log.window; rw [List.getElem?_take_of_lt h]; rfl

theorem slot_lt (a k : Nat) : slot a k < 32 := Nat.mod_lt _ (by omega)

theorem slot_zero (a : Nat) (h : a < 32) : slot a 0 = a := by unfold slot; omega

theorem slot_ne (a k : Nat) (h : a < 32) (hk : k < 32) (h0 : 0 < k) : slot a k ≠ a := by unfold slot; omega

/-- the next position -/
def nextA (a : Nat) : Nat := if a + 1 ≥ COUNT then 0 else a + 1

theorem nextA_lt (a : Nat) : nextA a < 32 := by
  unfold nextA COUNT; split <;> omega

theorem slot_next (a k : Nat) (h : a < 32) (hk : k + 1 < 32) : slot (nextA a) (k + 1) = slot a k := by
  unfold slot nextA COUNT; split <;> omega

theorem u32_add (a b : Nat) : u32 (u32 a + b) = u32 (a + b) := by unfold u32; omega

theorem inv_packet (d : DLink) (l : Log) (hi : Inv d l) (hc : d.contains = true) (seq : Nat) (hs : seq < 65536) :
    Inv (packet seq d) ⟨seq, (l.cur.1 + 1, l.cur.2 + (seq + 65536 - l.last) % 65536), l.past⟩ := by
  unfold packet
  rw [if_neg (by rw [hc]; decide)]
  have hl := hi.last
  have hq := hi.seq
  have e : (if seq ≥ d.lastSeq then seq - d.lastSeq else seq + 65536 - d.lastSeq) = (seq + 65536 - l.last) % 65536 := by
    rw [hl]; split <;> omega
  rw [e]
  refine ⟨by simp [DLink.atActive, hi.len], hi.act, rfl, hs, ?_⟩
  intro k hk
  have hw := hi.win k hk
  simp only [DLink.atActive]
  by_cases h0 : k = 0
  · subst h0
    rw [slot_zero _ hi.act] at hw ⊢
    rw [window_zero] at hw ⊢
    rw [List.getElem?_modify_eq]
    cases hb : d.buckets[d.active]? with
    | none => rw [hb] at hw; cases hw
    | some b =>
      rw [hb] at hw
      simp only [Option.map_some, Option.some.injEq, cnt, red, Prod.mk.injEq] at hw
      show some (u32 (b.received + 1), u32 (b.total + (seq + 65536 - l.last) % 65536)) = _
      rw [hw.1, hw.2, u32_add, u32_add]
      rfl
  · have hne := slot_ne d.active k hi.act hk (by omega)
    rw [List.getElem?_modify_ne _ _ (Ne.symm hne)]
    rw [hw]
    obtain ⟨k, rfl⟩ : ∃ j, k = j + 1 := ⟨k - 1, by omega⟩
    rw [window_succ _ _ hk, window_succ _ _ hk]

theorem inv_first (d : DLink) (hl : d.buckets.length = 32) (hb : ∀ k, k < 32 → d.buckets[k]?.map cnt = some (0, 1))
    (hc : d.contains = false) (seq : Nat) (hs : seq < 65536) : Inv (packet seq d) ⟨seq, (1, 1), []⟩ := by
  unfold packet
  rw [if_pos hc]
  refine ⟨by simp [hl], by show (0 : Nat) < 32; omega, rfl, hs, ?_⟩
  intro k hk
  dsimp only
  by_cases h0 : k = 0
  · subst h0
    rw [window_zero, slot_zero _ (by omega), List.getElem?_modify_eq]
    have := hb 0 (by omega)
    cases h : d.buckets[0]? with
    | none => rw [h] at this; cases this
    | some b => rfl
  · have hne := slot_ne 0 k (by omega) hk (by omega)
    rw [List.getElem?_modify_ne _ _ (Ne.symm hne), hb _ (slot_lt _ _)]
    obtain ⟨k, rfl⟩ : ∃ j, k = j + 1 := ⟨k - 1, by omega⟩
    rw [window_succ _ _ hk]
    dsimp only
    rw [List.nil_append, List.getElem?_replicate, if_pos (by omega)]
    rfl

theorem inv_advance (d : DLink) (l : Log) (hi : Inv d l) : Inv (advance d) ⟨l.last, (0, 0), l.cur :: l.past⟩ := by
  have ha : advance d = { d with active := nextA d.active }.atActive (fun b => { b with received := 0, total := 0 }) := rfl
  rw [ha]
  refine ⟨by simp [DLink.atActive, hi.len], nextA_lt _, hi.last, hi.seq, ?_⟩
  intro k hk
  simp only [DLink.atActive]
  by_cases h0 : k = 0
  · subst h0
    rw [slot_zero _ (nextA_lt _), window_zero, List.getElem?_modify_eq]
    have : nextA d.active < d.buckets.length := by rw [hi.len]; exact nextA_lt _
    rw [List.getElem?_eq_getElem this]
    rfl
  · have hne := slot_ne (nextA d.active) k (nextA_lt _) hk (by omega)
    rw [List.getElem?_modify_ne _ _ (Ne.symm hne)]
    obtain ⟨k, rfl⟩ : ∃ j, k = j + 1 := ⟨k - 1, by omega⟩
    rw [slot_next _ _ hi.act hk, hi.win k (by omega), window_succ _ _ hk]
    dsimp only
    cases k with
    | zero => rw [window_zero]; rfl
    | succ k =>
      rw [window_succ _ _ (by omega)]
      rfl

/-- changes that leave the counters alone -/
theorem inv_same (d d' : DLink) (l : Log) (hi : Inv d l) (hl : d'.buckets.map cnt = d.buckets.map cnt) (ha : d'.active = d.active)
    (hs : d'.lastSeq = d.lastSeq) : Inv d' l := by
  have hlen : d'.buckets.length = d.buckets.length := by
    have := congrArg List.length hl; simpa using this
  refine ⟨by rw [hlen]; exact hi.len, by rw [ha]; exact hi.act, by rw [hs]; exact hi.last, hi.seq, fun k hk => ?_⟩
  rw [ha, ← hi.win k hk, ← List.getElem?_map, ← List.getElem?_map, hl]

theorem map_modify_speed (bs : List Bucket) (i : Nat) (v : Int) : (bs.modify i (fun b => { b with speed := v })).map cnt = bs.map cnt := by
  apply List.ext_getElem?
  intro k
  rw [List.getElem?_map, List.getElem?_map]
  by_cases h : i = k
  · subst h
    rw [List.getElem?_modify_eq]
    cases bs[i]? <;> rfl
  · rw [List.getElem?_modify_ne _ _ h]

/-- what a sampling step does to everything but the metric -/
theorem sample_shape (c : DCfg) (i : Inputs) (d d' : DLink) (m : Option Nat) (h : sample c i d = some (d', m)) (hc : d.contains = true) :
    ∃ last nb, d' = advance { (d.atActive (fun b => { b with speed := i.speed })) with lastLoss := last, neighborhood := nb } ∧
      nb = (micCost c.mic d.neighborhood i.neighbors).2 := by
  unfold sample at h
  rw [if_neg (by rw [hc]; decide)] at h
  dsimp only at h
  split at h
  · cases h
  split at h
  · cases h
  split at h
  · cases h
  cases h
  exact ⟨_, _, rfl, rfl⟩

/-- state of a link after a history -/
def Rel (d : DLink) : Option Log → Prop
  | none => d.contains = false ∧ d.buckets.length = 32 ∧ (∀ k, k < 32 → d.buckets[k]?.map cnt = some (0, 1))
  | some l => d.contains = true ∧ Inv d l

theorem rel_step (d d' : DLink) (l : Option Log) (e : DEvent) (m : Option Nat) (hr : Rel d l) (hs : ∀ s, e = .packet s → s < 65536)
    (h : dstep d e = some (d', m)) : Rel d' (Log.step l e) := by
  cases e with
  | packet seq =>
    simp only [dstep, Option.some.injEq, Prod.mk.injEq] at h
    obtain ⟨rfl, -⟩ := h
    have hq := hs seq rfl
    cases l with
    | none =>
      obtain ⟨h1, h2, h3⟩ := hr
      refine ⟨?_, inv_first d h2 h3 h1 seq hq⟩
      unfold packet; rw [if_pos h1]
    | some l =>
      obtain ⟨h1, h2⟩ := hr
      refine ⟨?_, inv_packet d l h2 h1 seq hq⟩
      unfold packet; rw [if_neg (by rw [h1]; decide)]; exact h1
  | helloLost =>
    simp only [dstep, Option.some.injEq, Prod.mk.injEq] at h
    obtain ⟨rfl, -⟩ := h
    unfold helloLost
    cases l with
    | none =>
      obtain ⟨h1, h2, h3⟩ := hr
      rw [if_neg (by rw [h1]; decide)]
      exact ⟨h1, h2, h3⟩
    | some l =>
      obtain ⟨h1, h2⟩ := hr
      rw [if_pos h1]
      exact ⟨h1, inv_same d _ l h2 rfl rfl rfl⟩
  | changed it vt =>
    simp only [dstep, Option.some.injEq, Prod.mk.injEq] at h
    obtain ⟨rfl, -⟩ := h
    unfold linkChanged
    cases l with
    | none => exact hr
    | some l => exact ⟨hr.1, inv_same d _ l hr.2 rfl rfl rfl⟩
  | sample c i =>
    simp only [dstep] at h
    cases l with
    | none =>
      unfold sample at h
      rw [if_pos hr.1] at h
      cases h
      exact hr
    | some l =>
      obtain ⟨h1, h2⟩ := hr
      obtain ⟨last, nb, rfl, -⟩ := sample_shape c i d d' m h h1
      refine ⟨h1, inv_advance _ l (inv_same d _ l h2 ?_ rfl rfl)⟩
      exact map_modify_speed _ _ _

theorem drun_cons (d : DLink) (e : DEvent) (es : List DEvent) :
    drun d (e :: es) = (dstep d e).bind (fun r => (drun r.1 es).map (fun q => (q.1, r.2.toList ++ q.2))) := by
  rw [drun]
  cases dstep d e <;> rfl

theorem rel_run (es : List DEvent) : ∀ (d d' : DLink) (l : Option Log) (ms : List Nat), Rel d l → SeqOk es →
    drun d es = some (d', ms) → Rel d' (es.foldl Log.step l) := by
  induction es with
  | nil => intro d d' l ms hr _ h; cases h; exact hr
  | cons e es ih =>
    intro d d' l ms hr hs h
    rw [drun_cons] at h
    cases he : dstep d e with
    | none => rw [he] at h; cases h
    | some r =>
      rw [he] at h
      simp only [Option.bind_some] at h
      cases hd : drun r.1 es with
      | none => rw [hd] at h; cases h
      | some q =>
        rw [hd] at h
        simp only [Option.map_some, Option.some.injEq, Prod.mk.injEq] at h
        have h1 := rel_step d r.1 l e r.2 hr (fun s hs' => hs s (by rw [hs']; simp)) he
        have h2 := ih r.1 q.1 _ q.2 h1 (fun s hs' => hs s (List.mem_cons_of_mem _ hs')) hd
        rw [h.1] at h2
        exact h2

theorem rel_init (it vt : Nat) : Rel (DLink.init it vt) none := by
  refine ⟨rfl, by simp [DLink.init, COUNT], fun k hk => ?_⟩
  simp only [DLink.init]
  rw [List.getElem?_replicate, if_pos (by unfold COUNT; exact hk)]
  rfl

/-- the positions are a permutation -/
theorem slot_perm (a : Nat) (h : a < 32) : ((List.range 32).map (slot a)).Perm (List.range 32) := by
  have : ∀ a : Fin 32, ((List.range 32).map (slot a)).isPerm (List.range 32) = true := by decide +kernel
  exact List.isPerm_iff.mp (this ⟨a, h⟩)

theorem sum_slots {α : Type} (bs : List α) (hl : bs.length = 32) (a : Nat) (h : a < 32) (f : Option α → Nat) :
    ((List.range 32).map (fun k => f bs[slot a k]?)).sum = (bs.map (fun b => f (some b))).sum := by
  have h1 := ((slot_perm a h).map (fun k => f bs[k]?)).sum_nat
  rw [List.map_map] at h1
  have e : (List.range 32).map (fun k => f bs[k]?) = bs.map (fun b => f (some b)) := by
    apply List.ext_getElem?
    intro k
    rw [List.getElem?_map, List.getElem?_map]
    by_cases hk : k < 32
    · rw [List.getElem?_range hk, List.getElem?_eq_getElem (by omega)]
      simp only [Option.map_some]
      rw [List.getElem?_eq_getElem (by omega)]
    · rw [List.getElem?_eq_none (by simp; omega), List.getElem?_eq_none (by omega)]
      rfl
  rw [← e, ← h1]
  rfl

theorem sum_u32 (l : List Nat) : u32 (l.map u32).sum = u32 l.sum := by
  induction l with
  | nil => rfl
  | cons x l ih =>
    simp only [List.map_cons, List.sum_cons]
    unfold u32 at *
    omega

/-- sum of a component over the window -/
theorem sum_window (d : DLink) (l : Log) (hi : Inv d l) (g : Nat × Nat → Nat) (hg : ∀ p, g (red p) = u32 (g p)) :
    u32 (d.buckets.map (fun b => g (cnt b))).sum = u32 (l.window.map g).sum := by
  have h1 := sum_slots d.buckets hi.len d.active hi.act (fun o => ((o.map cnt).map g).getD 0)
  simp only [Option.map_some, Option.getD_some] at h1
  rw [← h1]
  have h2 : (List.range 32).map (fun k => (((d.buckets[slot d.active k]?).map cnt).map g).getD 0) = (l.window.map g).map u32 := by
    apply List.ext_getElem?
    intro k
    rw [List.getElem?_map, List.getElem?_map, List.getElem?_map]
    by_cases hk : k < 32
    · rw [List.getElem?_range hk]
      simp only [Option.map_some]
      rw [hi.win k hk, List.getElem?_eq_getElem (by rw [window_length]; exact hk)]
      simp only [Option.map_some, Option.getD_some, hg]
    · rw [List.getElem?_eq_none (by simp; omega), List.getElem?_eq_none (by rw [window_length]; omega)]
      rfl
  rw [h2, sum_u32]

theorem sum_le {α : Type} (f g : α → Nat) : ∀ (l : List α), (∀ x ∈ l, f x ≤ g x) → (l.map f).sum ≤ (l.map g).sum
  | [], _ => Nat.le_refl _
  | x :: l, h => by
    simp only [List.map_cons, List.sum_cons]
    have h1 := h x (by simp)
    have h2 := sum_le f g l (fun y hy => h y (List.mem_cons_of_mem _ hy))
    omega

/-! ### C82 -/

/-- C82: after every sequence of packets, losses, changes and samples the counters of a link are those of the last 32 sampling
intervals: the number of received packets and the total advance of the sequence number, with one lost packet for each interval
before the first packet (both modulo 2^32); older packets have no influence. -/
theorem C82_window (it vt : Nat) (es : List DEvent) (hs : SeqOk es) (d : DLink) (ms : List Nat) (h : drun (DLink.init it vt) es = some (d, ms))
    (l : Log) (hl : history es = some l) :
    counters d.buckets = ((l.window.map Prod.fst).sum % 2 ^ 32, (l.window.map Prod.snd).sum % 2 ^ 32) := by
  have hr := rel_run es (DLink.init it vt) d none ms (rel_init it vt) hs h
  have hl' : es.foldl Log.step none = some l := hl
  rw [hl'] at hr
  have h1 := sum_window d l hr.2 Prod.fst (fun _ => rfl)
  have h2 := sum_window d l hr.2 Prod.snd (fun _ => rfl)
  unfold counters
  have e1 : (d.buckets.map (fun b => (cnt b).1)) = d.buckets.map (·.received) := rfl
  have e2 : (d.buckets.map (fun b => (cnt b).2)) = d.buckets.map (·.total) := rfl
  rw [e1] at h1
  rw [e2] at h2
  rw [h1, h2]
  rfl

/-- C82: before the first packet a sample sets no metric. -/
theorem C82_no_data (it vt : Nat) (es : List DEvent) (hs : SeqOk es) (d : DLink) (ms : List Nat) (h : drun (DLink.init it vt) es = some (d, ms))
    (hl : history es = none) (c : DCfg) (i : Inputs) : sample c i d = some (d, none) := by
  have hr := rel_run es (DLink.init it vt) d none ms (rel_init it vt) hs h
  have hl' : es.foldl Log.step none = none := hl
  rw [hl'] at hr
  unfold sample
  rw [if_pos hr.1]

/-! ### C83 -/

/-- no packet has the sequence number of the one before it -/
def NoRepeat : Option Nat → List DEvent → Prop
  | _, [] => True
  | last, .packet s :: es => last ≠ some s ∧ NoRepeat (some s) es
  | last, _ :: es => NoRepeat last es

theorem log_le (es : List DEvent) : ∀ (l : Option Log) (l' : Log), SeqOk es → NoRepeat (l.map Log.last) es →
    (∀ l0, l = some l0 → l0.last < 65536 ∧ l0.cur.1 ≤ l0.cur.2 ∧ ∀ p ∈ l0.past, p.1 ≤ p.2) → es.foldl Log.step l = some l' →
    l'.cur.1 ≤ l'.cur.2 ∧ ∀ p ∈ l'.past, p.1 ≤ p.2 := by
  induction es with
  | nil =>
    intro l l' _ _ hi h
    have h' : l = some l' := h
    exact (hi l' h').2
  | cons e es ih =>
    intro l l' hs hn hi h
    have hs' : SeqOk es := fun s h => hs s (List.mem_cons_of_mem _ h)
    simp only [List.foldl_cons] at h
    refine ih (Log.step l e) l' hs' ?_ ?_ h
    · cases e with
      | packet s => cases l <;> exact hn.2
      | helloLost => exact hn
      | changed it vt => exact hn
      | sample c i => cases l <;> exact hn
    · cases e with
      | packet s =>
        have hq := hs s (by simp)
        intro l0 h0
        cases l with
        | none =>
          cases h0
          exact ⟨hq, Nat.le_refl _, fun p hp => absurd hp (by simp)⟩
        | some l =>
          cases h0
          obtain ⟨h1, h2, h3⟩ := hi l rfl
          refine ⟨hq, ?_, h3⟩
          have hne : l.last ≠ s := fun e => hn.1 (by rw [← e]; rfl)
          dsimp only
          omega
      | helloLost => exact hi
      | changed it vt => exact hi
      | sample c i =>
        intro l0 h0
        cases l with
        | none => cases h0
        | some l =>
          cases h0
          obtain ⟨h1, h2, h3⟩ := hi l rfl
          refine ⟨h1, Nat.le_refl _, fun p hp => ?_⟩
          rcases List.mem_cons.mp hp with rfl | hp
          · exact h2
          · exact h3 p hp

/-- C83: as long as no packet repeats the sequence number of the packet before and fewer than 2^32 packets are covered by the last 32
intervals, a link never has more received than transmitted packets. -/
theorem C83_share_partial (it vt : Nat) (es : List DEvent) (hs : SeqOk es) (hn : NoRepeat none es) (d : DLink) (ms : List Nat)
    (h : drun (DLink.init it vt) es = some (d, ms)) (hb : ∀ l, history es = some l → (l.window.map Prod.snd).sum < 2 ^ 32) :
    (counters d.buckets).1 ≤ (counters d.buckets).2 := by
  cases hl : history es with
  | none =>
    have hr := rel_run es (DLink.init it vt) d none ms (rel_init it vt) hs h
    have hl' : es.foldl Log.step none = none := hl
    rw [hl'] at hr
    obtain ⟨-, h2, h3⟩ := hr
    have hz : ∀ b ∈ d.buckets, b.received ≤ 0 := by
      intro b hb
      obtain ⟨k, hk, hb⟩ := List.getElem_of_mem hb
      have := h3 k (by omega)
      rw [List.getElem?_eq_getElem hk, hb] at this
      simp only [Option.map_some, Option.some.injEq, cnt, Prod.mk.injEq] at this
      omega
    have h0 : (d.buckets.map (·.received)).sum ≤ (d.buckets.map (fun _ => 0)).sum := sum_le _ _ _ hz
    have h1 : (d.buckets.map (fun _ => 0)).sum = 0 := by
      generalize d.buckets = bs
      induction bs with
      | nil => rfl
      | cons x xs ih => simpa using ih
    have h2 : (counters d.buckets).1 = 0 := by
      show u32 _ = 0
      rw [show (d.buckets.map (·.received)).sum = 0 by omega]; rfl
    omega
  | some l =>
    rw [C82_window it vt es hs d ms h l hl]
    have h1 := hb l hl
    obtain ⟨h2, h3⟩ := log_le es none l hs hn (fun _ h => by cases h) hl
    have h4 : (l.window.map Prod.fst).sum ≤ (l.window.map Prod.snd).sum := by
      refine sum_le _ _ _ fun p hp => ?_
      have hp' := List.mem_of_mem_take hp
      rcases List.mem_cons.mp hp' with rfl | hp'
      · exact h2
      · rcases List.mem_append.mp hp' with hp' | hp'
        · exact h3 p hp'
        · rw [List.eq_of_mem_replicate hp']; decide
    dsimp only
    rw [Nat.mod_eq_of_lt h1, Nat.mod_eq_of_lt (by omega)]
    exact h4

/-- a sample with nothing from layer 2 but a link speed of 1 Mbit/s -/
def plain : Inputs := ⟨2000, 1000000, none, none, none, 5⟩

/-- linear loss, everything else default -/
def linearCfg : DCfg := ⟨true, .linear, false⟩

/-- C83 is false with repeated packets: they count as received, but not as transmitted. Forty copies of a packet exceed everything
transmitted, and the link gets a lower metric than a link without any loss. -/
theorem C83_share_counterexample :
    ∃ es d, SeqOk es ∧ drun (DLink.init 2000 6000) es = some (d, []) ∧ (counters d.buckets) = (40, 32) ∧
      (sample linearCfg plain d).map Prod.snd = some (some 1720) ∧
      (throughputCost (bitrateCost (List.replicate 32 ⟨1, 1, 1000000⟩)) 1000 none).map (fun c => metricOf c 1000) = some 2152 := by
  refine ⟨List.replicate 40 (.packet 7), ((drun (DLink.init 2000 6000) (List.replicate 40 (.packet 7))).getD (DLink.init 0 0, [])).1, ?_, ?_, ?_, ?_, ?_⟩
  · intro s hs
    have := List.eq_of_mem_replicate hs
    cases this
    omega
  all_goals decide +kernel

/-- an execution without repetition: 40 samples with two packets each -/
def demo : List DEvent := (List.range 40).flatMap (fun k => [.packet (65500 + 2 * k - if 65500 + 2 * k ≥ 65536 then 65536 else 0), .sample linearCfg plain])

example : ((drun (DLink.init 2000 6000) demo).map (fun r => (counters r.1.buckets, r.2.length))) = some ((31, 62), 40) := by decide +kernel
example : (history demo).map (fun l => ((l.window.map Prod.fst).sum, (l.window.map Prod.snd).sum)) = some (31, 62) := by decide +kernel
example : SeqOk demo := by
  intro s hs
  unfold demo at hs
  simp only [List.mem_flatMap, List.mem_range, List.mem_cons, DEvent.packet.injEq, reduceCtorEq, List.not_mem_nil, or_false] at hs
  obtain ⟨k, hk, rfl⟩ := hs
  split <;> omega

/-! ### C84 -/

/-- C84: without missed HELLOs the number of received packets is used as it is. -/
theorem C84_none_missed (interval refresh received : Nat) : adjust 0 interval refresh received = some received := rfl

/-- C84: each missed HELLO interval, measured in sampling intervals, removes 1/32 of the received packets (rounded down). -/
theorem C84_missed (missed interval refresh received : Nat) (hm : 0 < missed) (hr : 0 < refresh) (hb : missed * interval < 2 ^ 64)
    (hb' : missed * interval / refresh < 2 ^ 32) (hc : received < 2 ^ 32) :
    adjust missed interval refresh received = some (received * (32 - missed * interval / refresh) / 32) := by
  unfold adjust COUNT
  rw [if_pos hm, if_neg (by omega)]
  dsimp only
  rw [Nat.mod_eq_of_lt hb]
  have e : u32 (missed * interval / refresh) = missed * interval / refresh := Nat.mod_eq_of_lt hb'
  rw [e]
  generalize missed * interval / refresh = x at *
  have hle : received * (32 - x) / 32 ≤ received := by
    have : received * (32 - x) ≤ received * 32 := Nat.mul_le_mul_left _ (by omega)
    omega
  split
  · have : 32 - x = 0 := by omega
    rw [this]; simp
  · rw [show u32 (received * (32 - x) / 32) = received * (32 - x) / 32 from Nat.mod_eq_of_lt (by omega)]

/-- C84: the result never exceeds the number of received packets, does not grow with the number of missed HELLOs, and is 0 as soon as
the missed HELLOs cover the whole window of 32 sampling intervals. -/
theorem C84_decreasing (m m' interval refresh received r r' : Nat) (hle : m ≤ m') (hr : 0 < refresh) (hb : m' * interval < 2 ^ 32)
    (hc : received < 2 ^ 32) (h : adjust m interval refresh received = some r) (h' : adjust m' interval refresh received = some r') :
    r' ≤ r ∧ r ≤ received ∧ (32 * refresh ≤ m' * interval → r' = 0) := by
  have key : ∀ n, n ≤ m' → ∀ x, adjust n interval refresh received = some x →
      x = received * (32 - n * interval / refresh) / 32 := by
    intro n hn x hx
    have hmul : n * interval ≤ m' * interval := Nat.mul_le_mul_right _ hn
    have hdiv : n * interval / refresh ≤ n * interval := Nat.div_le_self _ _
    by_cases h0 : n = 0
    · subst h0
      rw [C84_none_missed] at hx
      cases hx
      simp
    · rw [C84_missed n interval refresh received (by omega) hr (by omega) (by omega) hc] at hx
      cases hx; rfl
  rw [key m hle r h, key m' (Nat.le_refl _) r' h']
  have hsub : 32 - m * interval / refresh ≤ 32 := Nat.sub_le _ _
  have hmul : m * interval / refresh ≤ m' * interval / refresh := Nat.div_le_div_right (Nat.mul_le_mul_right _ hle)
  refine ⟨?_, ?_, ?_⟩
  · refine Nat.div_le_div_right (Nat.mul_le_mul_left _ ?_)
    omega
  · have : received * (32 - m * interval / refresh) ≤ received * 32 := Nat.mul_le_mul_left _ hsub
    omega
  · intro h
    have : 32 ≤ m' * interval / refresh := (Nat.le_div_iff_mul_le hr).mpr h
    rw [show 32 - m' * interval / refresh = 0 by omega]; simp

/-- C84: the number of missed HELLOs is reset by every packet after the first one. -/
theorem C84_reset (seq : Nat) (d : DLink) (hc : d.contains = true) : (packet seq d).missed = 0 := by
  unfold packet; rw [if_neg (by rw [hc]; decide)]

/-- number of HELLOs missed in a history since the last packet or link change, on top of `n` before it -/
def missedSince (n : Nat) : List DEvent → Nat
  | [] => n
  | .packet _ :: es => missedSince 0 es
  | .changed _ _ :: es => missedSince 0 es
  | .helloLost :: es => missedSince (n + 1) es
  | .sample _ _ :: es => missedSince n es

theorem missed_mod (a b : Nat) (es : List DEvent) (h : a % 4294967296 = b % 4294967296) :
    missedSince a es % 4294967296 = missedSince b es % 4294967296 := by
  induction es generalizing a b with
  | nil => exact h
  | cons e es ih =>
    cases e with
    | packet s => rfl
    | changed i v => rfl
    | helloLost => exact ih _ _ (by omega)
    | sample c i => exact ih _ _ h

/-- C84: after the first packet, whatever happens, the counter used for the adjustment is the number of HELLOs missed since
the last packet or change of the link. -/
theorem C84_counted (es : List DEvent) (d d' : DLink) (ms : List Nat) (hc : d.contains = true) (hd : d.missed < 2 ^ 32)
    (h : drun d es = some (d', ms)) : d'.contains = true ∧ d'.missed = missedSince d.missed es % 2 ^ 32 := by
  induction es generalizing d ms with
  | nil => cases h; exact ⟨hc, (Nat.mod_eq_of_lt hd).symm⟩
  | cons e es ih =>
    unfold drun at h
    split at h
    · cases h
    · rename_i d1 m1 hs
      obtain ⟨⟨d2, ms2⟩, h2, heq⟩ := Option.map_eq_some_iff.mp h
      cases heq
      cases e with
      | packet s =>
        cases hs
        have hc1 : (packet s d).contains = true := by
          unfold packet; rw [if_neg (by rw [hc]; decide)]; exact hc
        have := ih _ _ hc1 (by rw [C84_reset s d hc]; decide) h2
        rw [C84_reset s d hc] at this
        exact this
      | changed i v =>
        cases hs
        exact ih (linkChanged i v d) _ hc (show 0 < 2 ^ 32 by decide) h2
      | helloLost =>
        cases hs
        have he : helloLost d = { d with missed := u32 (d.missed + 1) } := by unfold helloLost; rw [if_pos hc]
        rw [he] at h2
        obtain ⟨h3, h4⟩ := ih { d with missed := u32 (d.missed + 1) } _ hc (show u32 (d.missed + 1) < 2 ^ 32 from Nat.mod_lt _ (by decide)) h2
        refine ⟨h3, h4.trans ?_⟩
        exact missed_mod _ _ es (by show (d.missed + 1) % 4294967296 % 4294967296 = _; omega)
      | sample c i =>
        obtain ⟨l, nb, hd1, -⟩ := sample_shape c i d d1 m1 hs hc
        have e1 : d1.contains = d.contains := by rw [hd1]; rfl
        have e2 : d1.missed = d.missed := by rw [hd1]; rfl
        have := ih _ _ (e1.trans hc) (by rw [e2]; exact hd) h2
        rw [e2] at this
        exact this

example : adjust 4 2000 1000 32 = some 24 ∧ adjust 16 2000 1000 32 = some 0 ∧ adjust 5 2000 1000 33 = some 22 := by decide

end Verif.Metric
