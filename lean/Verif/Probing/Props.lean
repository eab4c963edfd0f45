import Verif.Probing.Model

/-! # Properties of the probing of neighbors -/

namespace Verif.Probing

/-! ## Specification -/

/-- an interface to be probed: what it says itself; else the configuration for radios with DLEP, else only wireless interfaces -/
def Probed (probeDlep : Bool) (n : Net) : Prop :=
  n.flag = some true ∨ n.flag = none ∧ (n.dlep = true ∧ probeDlep = true ∨ n.dlep = false ∧ n.wireless = true)

/-- a link to be looked at -/
def Usable (probeDlep : Bool) (o : Obs) : Prop := (∃ n, o.net = some n ∧ Probed probeDlep n) ∧ o.sym = true ∧ o.data = true

/-- a link to be looked at to which nothing was sent since the last round, some time ago -/
def Idle (probeDlep : Bool) (now : Nat) (x : Lnk × Obs) : Prop := Usable probeDlep x.2 ∧ x.1.tx = x.2.tx ∧ x.1.last < now

/-! ## Lemmas -/

theorem checkIf_iff (pd : Bool) (n : Net) : checkIf pd n = true ↔ Probed pd n := by
  obtain ⟨flag, dlep, wl⟩ := n
  cases flag with
  | some v => simp [checkIf, Probed]
  | none => cases dlep <;> simp [checkIf, Probed]

theorem eligible_iff (pd : Bool) (o : Obs) : eligible pd o = true ↔ Usable pd o := by
  unfold eligible Usable
  cases h : o.net with
  | none => simp
  | some n => simp [checkIf_iff, and_assoc]

/-- the data of a link after a round that does not choose it -/
def upd (pd : Bool) (now : Nat) (x : Lnk × Obs) : Lnk :=
  if eligible pd x.2 then (if x.1.tx ≠ x.2.tx then { x.1 with tx := x.2.tx, last := now } else x.1) else x.1

theorem scan_links (pd : Bool) (now : Nat) : ∀ (ls : List (Lnk × Obs)) (i : Nat) (b : Option (Nat × Nat)), (scan pd now i b ls).1 = ls.map (upd pd now) := by
  intro ls
  induction ls with
  | nil => intro i b; rfl
  | cons x ls ih =>
    obtain ⟨l, o⟩ := x
    intro i b
    unfold scan
    by_cases he : eligible pd o = true
    · by_cases ht : l.tx = o.tx
      · simp only [he, ht, ne_eq, not_true_eq_false, if_true, if_false, ih, List.map_cons, upd]
        congr 1
        cases l; simp only at ht; rw [ht]
      · simp [he, ht, ih, upd]
    · simp [he, ih, upd]

theorem idle_points {pd now} {x : Lnk × Obs} (h : Usable pd x.2 ∧ x.1.tx = x.2.tx) (hn : ¬ Idle pd now x) : now - x.1.last = 0 := by
  have : ¬ x.1.last < now := fun h' => hn ⟨h.1, h.2, h'⟩
  omega

theorem scan_best (pd : Bool) (now : Nat) : ∀ (ls : List (Lnk × Obs)) (i : Nat) (b : Option (Nat × Nat)),
    ((scan pd now i b ls).2 = b ∧ ∀ x ∈ ls, Idle pd now x → now - x.1.last ≤ bp b) ∨
    ∃ k x, ls[k]? = some x ∧ (scan pd now i b ls).2 = some (i + k, now - x.1.last) ∧ Idle pd now x ∧ bp b < now - x.1.last ∧
      (∀ y ∈ ls, Idle pd now y → now - y.1.last ≤ now - x.1.last) ∧
      ∀ j y, j < k → ls[j]? = some y → Idle pd now y → now - y.1.last < now - x.1.last := by
  intro ls
  induction ls with
  | nil => intro i b; left; exact ⟨rfl, fun x h => (nomatch h)⟩
  | cons x ls ih =>
    obtain ⟨l, o⟩ := x
    intro i b
    by_cases hx : Usable pd o ∧ l.tx = o.tx ∧ now - l.last > bp b
    · obtain ⟨h1, h2, h3⟩ := hx
      have he := (eligible_iff pd o).2 h1
      have e : (scan pd now i b ((l, o) :: ls)).2 = (scan pd now (i + 1) (some (i, now - l.last)) ls).2 := by
        simp only [scan, he, h2, ne_eq, not_true_eq_false, if_true, if_false]
        rw [if_pos h3]
      rw [e]
      have hi : Idle pd now (l, o) := ⟨h1, h2, by show l.last < now; omega⟩
      right
      rcases ih (i + 1) (some (i, now - l.last)) with ⟨a, c⟩ | ⟨k, y, a, c, d, f, g, q⟩
      · refine ⟨0, (l, o), rfl, by rw [a]; rfl, hi, h3, ?_, ?_⟩
        · intro y hy hyi
          rcases List.mem_cons.1 hy with rfl | hy
          · exact Nat.le_refl _
          · exact c y hy hyi
        · intro j y hj; omega
      · have f' : now - l.last < now - y.1.last := f
        refine ⟨k + 1, y, a, by rw [c]; congr 2; omega, d, by omega, ?_, ?_⟩
        · intro z hz hzi
          rcases List.mem_cons.1 hz with rfl | hz
          · exact Nat.le_of_lt f'
          · exact g z hz hzi
        · intro j z hj hz hzi
          cases j with
          | zero => simp only [List.getElem?_cons_zero, Option.some.injEq] at hz; subst hz; exact f'
          | succ j => exact q j z (by omega) hz hzi
    · have e : (scan pd now i b ((l, o) :: ls)).2 = (scan pd now (i + 1) b ls).2 := by
        by_cases he : eligible pd o = true
        · by_cases ht : l.tx = o.tx
          · have h3 : ¬ now - l.last > bp b := fun h => hx ⟨(eligible_iff pd o).1 he, ht, h⟩
            simp only [scan, he, ht, ne_eq, not_true_eq_false, if_true, if_false]
            rw [if_neg h3]
          · simp [scan, he, ht]
        · simp [scan, he]
      rw [e]
      have hl : Idle pd now (l, o) → now - l.last ≤ bp b := by
        intro hi
        apply Nat.le_of_not_lt
        intro h
        exact hx ⟨hi.1, hi.2.1, h⟩
      rcases ih (i + 1) b with ⟨a, c⟩ | ⟨k, y, a, c, d, f, g, q⟩
      · left
        refine ⟨a, ?_⟩
        intro y hy hyi
        rcases List.mem_cons.1 hy with rfl | hy
        · exact hl hyi
        · exact c y hy hyi
      · right
        refine ⟨k + 1, y, a, by rw [c]; congr 2; omega, d, f, ?_, ?_⟩
        · intro z hz hzi
          rcases List.mem_cons.1 hz with rfl | hz
          · have := hl hzi
            show now - l.last ≤ _
            omega
          · exact g z hz hzi
        · intro j z hj hz hzi
          cases j with
          | zero => simp only [List.getElem?_cons_zero, Option.some.injEq] at hz; subst hz; have := hl hzi; simp only; omega
          | succ j => exact q j z (by omega) hz hzi

/-! ## C208 -/

/-- a link is chosen if there is one to which nothing was sent; it is the one that waited longest, the first of them if there are several -/
theorem C208_choice (pd : Bool) (now : Nat) (ls : List (Lnk × Obs)) :
    ((probe pd now ls).2.1 = none ↔ ∀ x ∈ ls, ¬ Idle pd now x) ∧
    ∀ i, (probe pd now ls).2.1 = some i ↔ ∃ x, ls[i]? = some x ∧ Idle pd now x ∧ (∀ y ∈ ls, Idle pd now y → x.1.last ≤ y.1.last) ∧
      ∀ j y, j < i → ls[j]? = some y → Idle pd now y → x.1.last < y.1.last := by
  have hp : (probe pd now ls).2.1 = (scan pd now 0 none ls).2.map (·.1) := by
    unfold probe
    cases h : (scan pd now 0 none ls).2 <;> simp [h]
  rw [hp]
  rcases scan_best pd now ls 0 none with ⟨a, b⟩ | ⟨k, x, a, b, c, d, f, g⟩
  · have hno : ∀ x ∈ ls, ¬ Idle pd now x := by
      intro x hx hi
      have := b x hx hi
      have h2 : x.1.last < now := hi.2.2
      simp only [bp] at this
      omega
    rw [a]
    refine ⟨by simpa using fun x y h => hno (x, y) h, fun i => ⟨fun h => by simp at h, ?_⟩⟩
    rintro ⟨x, h1, h2, _⟩
    exact absurd h2 (hno x (List.mem_of_getElem? h1))
  · rw [b]
    have hxm := List.mem_of_getElem? a
    have key : ∀ y, Idle pd now y → now - y.1.last ≤ now - x.1.last → x.1.last ≤ y.1.last := by
      intro y hy h
      have h1 : x.1.last < now := c.2.2
      have h2 : y.1.last < now := hy.2.2
      omega
    refine ⟨⟨fun h => by simp at h, fun h => absurd c (h x hxm)⟩, fun i => ?_⟩
    simp only [Option.map_some, Nat.zero_add, Option.some.injEq]
    constructor
    · rintro rfl
      refine ⟨x, a, c, fun y hy hyi => key y hyi (f y hy hyi), fun j y hj hy hyi => ?_⟩
      have h1 := g j y hj hy hyi
      have h2 : x.1.last < now := c.2.2
      have h3 : y.1.last < now := hyi.2.2
      omega
    · rintro ⟨y, h1, h2, h3, h4⟩
      have e1 := h3 x hxm c
      have e2 := key y h2 (f y (List.mem_of_getElem? h1) h2)
      rcases Nat.lt_trichotomy k i with h | h | h
      · have := h4 k x h a c; omega
      · exact h
      · have := g i y h h1 h2
        have h5 : y.1.last < now := h2.2.2
        omega

/-- a link that is chosen gets the probe, at its known address or the one it was probed at before -/
theorem C208_sent (pd : Bool) (now : Nat) (ls : List (Lnk × Obs)) (i : Nat) (l : Lnk) (o : Obs) (hi : (probe pd now ls).2.1 = some i) (hl : ls[i]? = some (l, o)) :
    (probe pd now ls).2.2 = (match l.target with | some a => some a | none => o.addr) := by
  have h1 := scan_links pd now ls 0 none
  unfold probe at hi ⊢
  cases hr : (scan pd now 0 none ls).2 with
  | none => simp [hr] at hi
  | some b =>
    obtain ⟨k, p⟩ := b
    simp only [hr] at hi ⊢
    simp only [Option.some.injEq] at hi
    subst hi
    have e : (upd pd now (l, o)).target = l.target := by
      unfold upd
      split
      · split <;> rfl
      · rfl
    simp only [h1, List.getElem?_modify, List.getElem?_map, hl, Option.map_some, if_true, Option.bind_some, chosen]
    show (match (upd pd now (l, o)).target with | none => o.addr | some a => some a) = _
    rw [e]
    cases l.target <;> rfl

/-- nothing is sent if no link is chosen -/
theorem C208_quiet (pd : Bool) (now : Nat) (ls : List (Lnk × Obs)) (h : (probe pd now ls).2.1 = none) : (probe pd now ls).2.2 = none := by
  unfold probe at h ⊢
  cases hr : (scan pd now 0 none ls).2 with
  | none => simp [hr]
  | some b => simp [hr] at h

/-- the new times: a link that was chosen or that had traffic begins to wait anew, all others go on waiting; the number of frames is remembered -/
theorem C208_times (pd : Bool) (now : Nat) (ls : List (Lnk × Obs)) (j : Nat) (l : Lnk) (o : Obs) (h : ls[j]? = some (l, o)) :
    ∃ l', (probe pd now ls).1[j]? = some l' ∧
      ((probe pd now ls).2.1 = some j ∨ Usable pd o ∧ l.tx ≠ o.tx → l'.last = now) ∧
      (¬ ((probe pd now ls).2.1 = some j ∨ Usable pd o ∧ l.tx ≠ o.tx) → l'.last = l.last) ∧
      (Usable pd o → l'.tx = o.tx) ∧ (¬ Usable pd o → l'.tx = l.tx) := by
  have h1 := scan_links pd now ls 0 none
  have h2 := fun i => (C208_choice pd now ls).2 i
  have hu : Usable pd o ↔ eligible pd o = true := (eligible_iff pd o).symm
  unfold probe at h2 ⊢
  cases hr : (scan pd now 0 none ls).2 with
  | none =>
    simp only [hr] at h2 ⊢
    refine ⟨upd pd now (l, o), by simp [h1, h], ?_⟩
    rw [hu]
    unfold upd
    by_cases he : eligible pd o = true <;> by_cases ht : l.tx = o.tx <;> simp [he, ht]
  | some b =>
    obtain ⟨k, p⟩ := b
    simp only [hr] at h2 ⊢
    by_cases hk : k = j
    · subst hk
      obtain ⟨x, hx, hid, _⟩ := (h2 k).1 rfl
      rw [h] at hx
      injection hx with hx
      subst hx
      refine ⟨chosen now (ls[k]?.bind fun x => x.2.addr) (upd pd now (l, o)), by simp [h1, h], fun _ => rfl, by simp, ?_, fun hn => absurd hid.1 hn⟩
      intro _
      have : l.tx = o.tx := hid.2.1
      unfold upd chosen
      simp [(eligible_iff pd o).2 hid.1, this]
    · refine ⟨upd pd now (l, o), by simp [h1, h, hk], ?_⟩
      rw [hu]
      unfold upd
      by_cases he : eligible pd o = true <;> by_cases ht : l.tx = o.tx <;> simp [he, ht, hk]

/-- a link keeps the address it was probed at first; the others have none -/
theorem C208_target (pd : Bool) (now : Nat) (ls : List (Lnk × Obs)) (j : Nat) (l : Lnk) (o : Obs) (h : ls[j]? = some (l, o)) :
    ∃ l', (probe pd now ls).1[j]? = some l' ∧ ((probe pd now ls).2.1 ≠ some j → l'.target = l.target) ∧
      ((probe pd now ls).2.1 = some j → l'.target = (probe pd now ls).2.2 ∧ (∀ a, l.target = some a → l'.target = some a)) := by
  have h1 := scan_links pd now ls 0 none
  have h2 := C208_sent pd now ls j l o
  have e : (upd pd now (l, o)).target = l.target := by
    unfold upd
    split
    · split <;> rfl
    · rfl
  unfold probe at h2 ⊢
  cases hr : (scan pd now 0 none ls).2 with
  | none =>
    simp only [hr] at h2 ⊢
    exact ⟨upd pd now (l, o), by simp [h1, h], fun _ => e, fun hn => by cases hn⟩
  | some b =>
    obtain ⟨k, p⟩ := b
    simp only [hr] at h2 ⊢
    by_cases hk : k = j
    · subst hk
      refine ⟨chosen now (ls[k]?.bind fun x => x.2.addr) (upd pd now (l, o)), by simp [h1, h], fun hn => absurd rfl hn, fun _ => ?_⟩
      rw [h2 rfl h]
      simp only [chosen, e, h, Option.bind_some]
      cases l.target <;> simp
    · exact ⟨upd pd now (l, o), by simp [h1, h, hk], fun _ => e, fun hn => absurd (Option.some.inj hn) hk⟩

theorem countP_lt {α} (p : α → Bool) : ∀ (a b : List α), a.length = b.length → (∀ (j : Nat) x y, a[j]? = some x → b[j]? = some y → p y = true → p x = true) →
    (∃ (j : Nat) (x y : α), a[j]? = some x ∧ b[j]? = some y ∧ p x = true ∧ p y = false) → b.countP p < a.countP p := by
  have hle : ∀ (a b : List α), a.length = b.length → (∀ (j : Nat) x y, a[j]? = some x → b[j]? = some y → p y = true → p x = true) → b.countP p ≤ a.countP p := by
    intro a
    induction a with
    | nil => intro b hb _; have : b = [] := List.length_eq_zero_iff.1 hb.symm; subst this; exact Nat.le_refl _
    | cons x a ih =>
      intro b hb h
      cases b with
      | nil => simp at hb
      | cons y b =>
        have h0 := ih b (by simpa using hb) (fun j x y hx hy => h (j + 1) x y hx hy)
        have h1 := h 0 x y rfl rfl
        simp only [List.countP_cons]
        split
        · rename_i hy; rw [if_pos (h1 hy)]; omega
        · omega
  intro a
  induction a with
  | nil => rintro b _ _ ⟨j, x, y, hx, _⟩; simp at hx
  | cons x a ih =>
    intro b hb h hj
    cases b with
    | nil => simp at hb
    | cons y b =>
      have h' : ∀ (j : Nat) x y, a[j]? = some x → b[j]? = some y → p y = true → p x = true := fun j x y hx hy => h (j + 1) x y hx hy
      have h1 := h 0 x y rfl rfl
      simp only [List.countP_cons]
      obtain ⟨j, u, v, hu, hv, pu, pv⟩ := hj
      cases j with
      | zero =>
        simp only [List.getElem?_cons_zero, Option.some.injEq] at hu hv
        subst hu; subst hv
        have := hle a b (by simpa using hb) h'
        simp [pu, pv]; omega
      | succ j =>
        have := ih b (by simpa using hb) h' ⟨j, u, v, hu, hv, pu, pv⟩
        split
        · rename_i hy; rw [if_pos (h1 hy)]; omega
        · omega

theorem probe_length (pd : Bool) (now : Nat) (ls : List (Lnk × Obs)) : (probe pd now ls).1.length = ls.length := by
  have h1 := scan_links pd now ls 0 none
  unfold probe
  cases hr : (scan pd now 0 none ls).2 <;> simp [hr, h1]

/-- nobody is forgotten: a link that stays usable and to which nothing is sent is probed after as many rounds as there are links, whatever happens
to the other links meanwhile -/
theorem C208_fair (pd : Bool) (i : Nat) : ∀ (rs : List (Nat × List Obs)) (ls : List Lnk) (l : Lnk), ls[i]? = some l →
    (∀ r ∈ rs, r.2.length = ls.length) → (∀ r ∈ rs, l.last < r.1) → 
    (∀ r ∈ rs, ∃ o, r.2[i]? = some o ∧ Usable pd o ∧ o.tx = l.tx) → ls.length ≤ rs.length → some i ∈ rounds pd ls rs := by
  have key : ∀ (rs : List (Nat × List Obs)) (ls : List Lnk) (l : Lnk), ls[i]? = some l →
    (∀ r ∈ rs, r.2.length = ls.length) → (∀ r ∈ rs, l.last < r.1) →
    (∀ r ∈ rs, ∃ o, r.2[i]? = some o ∧ Usable pd o ∧ o.tx = l.tx) → ls.countP (fun x => x.last ≤ l.last) ≤ rs.length → some i ∈ rounds pd ls rs := by
    intro rs
    induction rs with
    | nil =>
      intro ls l hl _ _ _ hc
      exfalso
      have := List.countP_eq_zero.1 (Nat.le_zero.1 hc) l (List.mem_of_getElem? hl)
      simp at this
    | cons r rs ih =>
      obtain ⟨now, os⟩ := r
      intro ls l hl hlen hlast hobs hc
      have hln := hlen _ (List.mem_cons_self ..)
      have hnow := hlast _ (List.mem_cons_self ..)
      obtain ⟨o, ho, hus, htx⟩ := hobs _ (List.mem_cons_self ..)
      simp only at hln hnow ho
      simp only [rounds]
      have hz : (ls.zip os)[i]? = some (l, o) := by simp [List.getElem?_zip_eq_some, hl, ho]
      have hidle : Idle pd now (l, o) := ⟨hus, htx.symm, hnow⟩
      have hzl : (ls.zip os).length = ls.length := by rw [List.length_zip]; omega
      by_cases hch : (probe pd now (ls.zip os)).2.1 = some i
      · rw [hch]; exact List.mem_cons_self ..
      · apply List.mem_cons_of_mem
        obtain ⟨l', h1, _, h3, h4, _⟩ := C208_times pd now _ i l o hz
        have hlast' : l'.last = l.last := h3 (by rintro (h | ⟨_, h⟩); exact hch h; exact h htx.symm)
        have htx' : l'.tx = l.tx := by rw [h4 hus, htx]
        have hpl := probe_length pd now (ls.zip os)
        refine ih _ l' h1 ?_ ?_ ?_ ?_
        · intro r hr; rw [hlen r (List.mem_cons_of_mem _ hr)]; omega
        · intro r hr; rw [hlast']; exact hlast r (List.mem_cons_of_mem _ hr)
        · intro r hr
          obtain ⟨o', a, b, c⟩ := hobs r (List.mem_cons_of_mem _ hr)
          exact ⟨o', a, b, by rw [htx']; exact c⟩
        · have hlt : (probe pd now (ls.zip os)).1.countP (fun x => decide (x.last ≤ l.last)) < ls.countP (fun x => decide (x.last ≤ l.last)) := by
            apply countP_lt
            · omega
            · intro j x y hx hy hp
              have hjl : j < os.length := by
                have := (List.getElem?_eq_some_iff.1 hx).1; omega
              have hzj : (ls.zip os)[j]? = some (x, os[j]) := by simp [List.getElem?_zip_eq_some, hx, hjl]
              obtain ⟨y', a, b, c, _⟩ := C208_times pd now _ j x _ hzj
              rw [hy] at a
              injection a with a
              subst a
              simp only [decide_eq_true_eq] at hp ⊢
              by_cases hq : (probe pd now (ls.zip os)).2.1 = some j ∨ Usable pd os[j] ∧ x.tx ≠ os[j].tx
              · have := b hq; omega
              · have := c hq; omega
            · have hsome : (probe pd now (ls.zip os)).2.1 ≠ none := by
                intro h
                exact ((C208_choice pd now _).1.1 h) _ (List.mem_of_getElem? hz) hidle
              cases hk : (probe pd now (ls.zip os)).2.1 with
              | none => exact absurd hk hsome
              | some k =>
                obtain ⟨x, hx, hxi, hxm, _⟩ := ((C208_choice pd now _).2 k).1 hk
                have hle := hxm _ (List.mem_of_getElem? hz) hidle
                obtain ⟨xl, xo⟩ := x
                obtain ⟨y, a, b, _⟩ := C208_times pd now _ k xl xo hx
                have hxl : ls[k]? = some xl := (List.getElem?_zip_eq_some.1 hx).1
                have hy := b (.inl hk)
                simp only at hle
                exact ⟨k, xl, y, hxl, a, by simpa using hle, by simp; omega⟩
          rw [hlast']
          simp only [List.length_cons] at hc
          omega
  intro rs ls l hl hlen hlast hobs hc
  exact key rs ls l hl hlen hlast hobs (Nat.le_trans List.countP_le_length hc)

/-- three links on a wireless interface, all idle -/
def demoObs : Obs := ⟨some ⟨none, false, true⟩, true, true, 7, some 1⟩

example : rounds true [⟨300, 7, none⟩, ⟨100, 7, none⟩, ⟨200, 6, none⟩] [(400, [demoObs, demoObs, demoObs]), (600, [demoObs, demoObs, demoObs]), (800, [demoObs, demoObs, demoObs])] =
    [some 1, some 0, some 1] := by decide +kernel

/-- a neighbor that changes its address is still probed at its old one, as long as the link exists -/
theorem C208_address_counterexample (pd : Bool) (now : Nat) (ls : List (Lnk × Obs)) (i : Nat) (l : Lnk) (o : Obs) (hi : (probe pd now ls).2.1 = some i)
    (hl : ls[i]? = some (l, o)) (old : Nat) (ht : l.target = some old) (new : Nat) (_ : o.addr = some new) (hne : new ≠ old) :
    (probe pd now ls).2.2 = some old ∧ (probe pd now ls).2.2 ≠ some new := by
  have := C208_sent pd now ls i l o hi hl
  rw [ht] at this
  exact ⟨this, by rw [this]; simp [Ne.symm hne]⟩

example : (probe true 900 [(⟨300, 7, some 1⟩, { demoObs with addr := some 2 })]).2 = (some 0, some 1) := by decide +kernel

end Verif.Probing
