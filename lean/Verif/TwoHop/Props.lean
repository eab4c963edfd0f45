import Verif.TwoHop.Lemmas
import Verif.Hello.TimerProps
import Verif.Routing.Props

/-
Two-hop addresses of a link: C115, and what the routing makes of them: C116.
-/
namespace Verif.TwoHop
open Verif.Codec (MetricField)
open Verif.Hello (Pair receiveHop setT)
open Verif.Nhdp (Map Status)
open Verif.Netaddr (Netaddr)

/-! ### C115 -/

theorem since_cons {ev : Ev} {evs : List Ev} {a : Netaddr} {m : Msg} {s : Said} :
    Since (ev :: evs) a m s ↔
      (ev = .hello m ∧ Last m s a ∧ SaysSym s ∧ a ∉ m.lost ∧ ¬Ends (statusAfter evs) m.status) ∨
      (Since evs a m s ∧ Keeps a (statusAfter evs) ev ∧ ∀ t, ev = .time t → setT m.now m.vtime = 0 ∨ t < setT m.now m.vtime) := by
  constructor
  · rintro ⟨post, pre, he, h1, h2, h3, h4, h5, h6⟩
    cases post with
    | nil =>
      rw [List.nil_append, List.cons.injEq] at he
      obtain ⟨rfl, rfl⟩ := he
      exact .inl ⟨rfl, h1, h2, h3, h4⟩
    | cons e post =>
      rw [List.cons_append, List.cons.injEq] at he
      obtain ⟨rfl, rfl⟩ := he
      refine .inr ⟨⟨post, pre, rfl, h1, h2, h3, h4, ?_, ?_⟩, h5 [] ev post rfl, ?_⟩
      · intro p x q hp
        exact h5 (ev :: p) x q (by rw [hp]; rfl)
      · exact fun t ht => h6 t (List.mem_cons_of_mem _ ht)
      · exact fun t ht => h6 t (by rw [ht]; exact List.mem_cons_self)
  · rintro (⟨rfl, h1, h2, h3, h4⟩ | ⟨⟨post, pre, rfl, h1, h2, h3, h4, h5, h6⟩, hk, ht⟩)
    · refine ⟨[], evs, rfl, h1, h2, h3, h4, ?_, fun t h => (nomatch h)⟩
      intro p ev q h
      cases p <;> cases h
    · refine ⟨ev :: post, pre, rfl, h1, h2, h3, h4, ?_, ?_⟩
      · intro p x q hp
        cases p with
        | nil =>
          rw [List.nil_append, List.cons.injEq] at hp
          obtain ⟨rfl, rfl⟩ := hp
          exact hk
        | cons y p =>
          rw [List.cons_append, List.cons.injEq] at hp
          exact h5 p x q hp.2
      · intro t hm
        rcases List.mem_cons.1 hm with h | h
        · exact ht t h.symm
        · exact h6 t h

theorem get_setStatus (s : St) (st : Status) (a : Netaddr) : (Ends s.status st → (setStatus s st).hops.get a = none) ∧
    (¬Ends s.status st → (setStatus s st).hops.get a = s.hops.get a) := by
  unfold setStatus Ends
  constructor
  · intro h; rw [if_pos h]; rfl
  · intro h; rw [if_neg h]

/-- **C115**: An address is a two-hop address of a link exactly if the last HELLO with a LINK_STATUS or OTHER_NEIGHB TLV for it said SYMMETRIC,
it was not lost and the link did not cease to be symmetric since then, and the validity time of that HELLO is not over.  Interface, validity
time and metrics are the ones of that HELLO. -/
theorem C115_follows {doms : List Dom} (hu : (doms.map (·.ext)).Nodup) (evs : List Ev) (a : Netaddr) :
    (∀ h, (run doms evs).hops.get a = some h → ∃ m s, Since evs a m s ∧ Reports doms m s h) ∧
    (∀ m s, Since evs a m s → ∃ h, (run doms evs).hops.get a = some h ∧ Reports doms m s h) := by
  induction evs with
  | nil =>
    refine ⟨fun _ h => (nomatch h), ?_⟩
    rintro m s ⟨post, pre, h, _⟩
    cases post <;> cases h
  | cons ev evs ih =>
    have ok := ok_run doms evs
    have hst := status_run doms evs
    cases ev with
    | hello m =>
      obtain ⟨r1, r2, r3, r4⟩ := received_get hu ok m a
      obtain ⟨s1, s2⟩ := get_setStatus ⟨received doms m (run doms evs).hops, (run doms evs).status⟩ m.status a
      have hrun : run doms (.hello m :: evs) = setStatus ⟨received doms m (run doms evs).hops, (run doms evs).status⟩ m.status := rfl
      rw [hrun]
      dsimp only at s1 s2
      rw [hst] at s1 s2
      rw [hst]
      constructor
      · intro h hg
        by_cases he : Ends (statusAfter evs) m.status
        · rw [s1 he] at hg; cases hg
        rw [s2 he] at hg
        by_cases hl : a ∈ m.lost
        · rw [r1 hl] at hg; cases hg
        rcases last_or_quiet m a m.said with hq | ⟨xs, s, ys, hx, hm, hq⟩
        · rw [r2 hl hq] at hg
          obtain ⟨m', s', h1, h2⟩ := ih.1 h hg
          exact ⟨m', s', since_cons.2 (.inr ⟨h1, ⟨hq, hl, he⟩, fun _ h => (nomatch h)⟩), h2⟩
        · have hlast : Last m s a := ⟨xs, ys, hx, hm, hq⟩
          by_cases hs : SaysSym s
          · obtain ⟨x, h1, h2⟩ := r3 s hl hlast hs
            rw [h1] at hg
            cases hg
            exact ⟨m, s, since_cons.2 (.inl ⟨rfl, hlast, hs, hl, he⟩), h2⟩
          · rw [r4 s hl hlast hs] at hg; cases hg
      · intro m' s' hs
        rcases since_cons.1 hs with ⟨h0, h1, h2, h3, h4⟩ | ⟨h1, ⟨hq, hl, he⟩, _⟩
        · cases h0
          rw [s2 h4]
          exact r3 s' h3 h1 h2
        · rw [s2 he, r2 hl hq]
          exact ih.2 m' s' h1
    | status st =>
      obtain ⟨s1, s2⟩ := get_setStatus (run doms evs) st a
      rw [hst] at s1 s2
      have hrun : run doms (.status st :: evs) = setStatus (run doms evs) st := rfl
      rw [hrun]
      constructor
      · intro h hg
        by_cases he : Ends (statusAfter evs) st
        · rw [s1 he] at hg; cases hg
        rw [s2 he] at hg
        obtain ⟨m', s', h1, h2⟩ := ih.1 h hg
        exact ⟨m', s', since_cons.2 (.inr ⟨h1, he, fun _ h => (nomatch h)⟩), h2⟩
      · intro m' s' hs
        rcases since_cons.1 hs with ⟨h0, _⟩ | ⟨h1, he, _⟩
        · cases h0
        · rw [s2 he]
          exact ih.2 m' s' h1
    | unsymmetric =>
      refine ⟨fun _ h => (nomatch h), ?_⟩
      intro m' s' hs
      rcases since_cons.1 hs with ⟨h0, _⟩ | ⟨_, he, _⟩
      · cases h0
      · exact he.elim
    | time now =>
      have hg : (run doms (.time now :: evs)).hops.get a = match (run doms evs).hops.get a with
          | none => none
          | some v => if (v.clock != 0 && decide (v.clock ≤ now)) = true then none else some v := by
        have h := Map.get_delWhere (run doms evs).hops ok.keys (fun _ h => h.clock != 0 && decide (h.clock ≤ now)) a
        cases hv : (run doms evs).hops.get a with
        | none => rw [hv] at h; exact h
        | some v => rw [hv] at h; exact h
      rw [hg]
      constructor
      · intro h hh
        cases hv : (run doms evs).hops.get a with
        | none => rw [hv] at hh; cases hh
        | some v =>
          rw [hv] at hh
          dsimp only at hh
          by_cases hc : (v.clock != 0 && decide (v.clock ≤ now)) = true
          · rw [if_pos hc] at hh; cases hh
          · rw [if_neg hc] at hh
            cases hh
            obtain ⟨m', s', h1, h2⟩ := ih.1 _ hv
            refine ⟨m', s', since_cons.2 (.inr ⟨h1, trivial, ?_⟩), h2⟩
            intro t ht
            cases ht
            have hclock := h2.2.1
            rw [hclock] at hc
            simp at hc
            omega
      · intro m' s' hs
        rcases since_cons.1 hs with ⟨h0, _⟩ | ⟨h1, _, ht⟩
        · cases h0
        · obtain ⟨v, hv, hr⟩ := ih.2 m' s' h1
          refine ⟨v, ?_, hr⟩
          rw [hv]
          dsimp only
          rw [if_neg]
          have hclock := hr.2.1
          have := ht now rfl
          rw [hclock]
          simp
          omega

/-- **C115**: two HELLOs cannot both be the one which counts -/
theorem C115_unique {evs : List Ev} {a : Netaddr} {m m' : Msg} {s s' : Said} (h : Since evs a m s) (h' : Since evs a m' s') :
    m = m' ∧ s = s' := by
  have last_unique : ∀ {m : Msg} {s s' : Said}, Last m s a → Last m s' a → s = s' := by
    rintro m s s' ⟨xs, ys, h1, h2, h3⟩ ⟨xs', ys', h1', h2', h3'⟩
    rw [h1] at h1'
    rcases List.append_eq_append_iff.1 h1' with ⟨l, hl, hr⟩ | ⟨l, hl, hr⟩
    · cases l with
      | nil => exact (List.cons.inj hr).1
      | cons x l =>
        have := (List.cons.inj hr).2
        exact absurd h2' (h3 s' (by rw [this]; simp))
    · cases l with
      | nil => exact (List.cons.inj hr).1.symm
      | cons x l =>
        have := (List.cons.inj hr).2
        exact absurd h2 (h3' s (by rw [this]; simp))
  induction evs with
  | nil =>
    obtain ⟨post, pre, h, _⟩ := h
    cases post <;> cases h
  | cons ev evs ih =>
    rcases since_cons.1 h with ⟨h0, h1, _⟩ | ⟨h1, hk, _⟩
    · rcases since_cons.1 h' with ⟨h0', h1', _⟩ | ⟨_, hk', _⟩
      · rw [h0] at h0'
        cases h0'
        exact ⟨rfl, last_unique h1 h1'⟩
      · subst h0
        obtain ⟨xs, ys, hx, hm, _⟩ := h1
        exact absurd hm (hk'.1 s (by rw [hx]; simp))
    · rcases since_cons.1 h' with ⟨h0', h1', _⟩ | ⟨h1', _, _⟩
      · subst h0'
        obtain ⟨xs, ys, hx, hm, _⟩ := h1'
        exact absurd hm (hk.1 s' (by rw [hx]; simp))
      · exact ih h1 h1'

/-- **C115**: with a validity time the address is gone when the time is over -/
theorem C115_expires {doms : List Dom} (hu : (doms.map (·.ext)).Nodup) {evs : List Ev} {a : Netaddr} {m : Msg} {s : Said} (h : Since evs a m s)
    (hv : 0 < m.vtime) (hn : m.now + m.vtime < 2 ^ 63) {t : Nat} (ht : m.now + m.vtime + 100 ≤ t) : (run doms (.time t :: evs)).hops.get a = none := by
  cases hg : (run doms (.time t :: evs)).hops.get a with
  | none => rfl
  | some x =>
    exfalso
    obtain ⟨m', s', h1, _⟩ := (C115_follows hu _ a).1 x hg
    rcases since_cons.1 h1 with ⟨h0, _⟩ | ⟨h2, _, h3⟩
    · cases h0
    · obtain ⟨rfl, rfl⟩ := C115_unique h h2
      have := Verif.Hello.setT_bounds hv hn
      have := h3 t rfl
      omega

namespace Ex
def addr (n : UInt8) : Netaddr := ⟨[10, 0, 0, n] ++ List.replicate 12 0, 2, 32⟩
def doms : List Dom := [⟨0, false, ⟨1, 1⟩⟩, ⟨7, true, ⟨256, 256⟩⟩]
/-- metric TLV for the outgoing metric with value `b1` -/
def out (b1 : Nat) : MetricField := ⟨16, b1⟩
/-- 10.0.0.5 is symmetric on the same interface, 10.0.0.6 symmetric elsewhere, 10.0.0.7 heard only, 10.0.0.1 is this router -/
def hello (now vtime : Nat) (st : Status) : Msg :=
  ⟨now, vtime, fun a => a == addr 1, fun a => a == addr 1,
    [⟨addr 5, some 1, none, [(0, out 4)]⟩, ⟨addr 6, none, some 1, []⟩, ⟨addr 7, some 2, none, []⟩, ⟨addr 1, some 1, none, []⟩], [], st⟩
end Ex

example : (run Ex.doms [.time 500, .hello (Ex.hello 0 1000 .symmetric)]).hops =
    [(Ex.addr 5, ⟨true, 1100, [⟨0xffffff, Verif.Codec.metricDecode (Ex.out 4)⟩, ⟨256, 256⟩]⟩), (Ex.addr 6, ⟨false, 1100, [infinite, ⟨256, 256⟩]⟩)] ∧
    (run Ex.doms [.time 1100, .hello (Ex.hello 0 1000 .symmetric)]).hops = [] ∧
    (run Ex.doms [.status .heard, .hello (Ex.hello 0 1000 .symmetric)]).hops = [] ∧
    Since [.time 500, .hello (Ex.hello 0 1000 .symmetric)] (Ex.addr 5) (Ex.hello 0 1000 .symmetric) ⟨Ex.addr 5, some 1, none, [(0, Ex.out 4)]⟩ := by
  refine ⟨by decide +kernel, by decide +kernel, by decide +kernel, ?_⟩
  rw [since_cons, since_cons]
  refine .inr ⟨.inl ⟨rfl, ⟨[], _, rfl, ⟨rfl, .inl (by decide), by decide +kernel, by decide +kernel⟩, ?_⟩, .inl ⟨1, rfl, rfl⟩, (fun h => nomatch h), fun h => nomatch h.1⟩,
    trivial, fun t h => ?_⟩
  · intro y hy hm
    simp only [List.mem_cons, List.not_mem_nil, or_false] at hy
    rcases hy with rfl | rfl | rfl
    · exact absurd hm.1 (by decide)
    · exact absurd hm.1 (by decide)
    · exact absurd hm.1 (by decide)
  · cases h
    exact .inr (by decide)

/-- **C115** is not what RFC 6130 asks for: a link which is only heard has two-hop addresses. -/
theorem C115_heard_counterexample : (run Ex.doms [.hello (Ex.hello 0 1000 .heard)]).status = .heard ∧
    (run Ex.doms [.hello (Ex.hello 0 1000 .heard)]).hops.get (Ex.addr 5) ≠ none := by
  decide +kernel

/-- **C115**: after a HELLO with validity time 0 the two-hop addresses never expire. -/
theorem C115_forever_counterexample (ts : List Nat) :
    (run Ex.doms (ts.map Ev.time ++ [.hello (Ex.hello 0 0 .symmetric)])).hops.get (Ex.addr 5) ≠ none := by
  have h0 : Since [.hello (Ex.hello 0 0 .symmetric)] (Ex.addr 5) (Ex.hello 0 0 .symmetric) ⟨Ex.addr 5, some 1, none, [(0, Ex.out 4)]⟩ := by
    rw [since_cons]
    refine .inl ⟨rfl, ⟨[], _, rfl, ⟨rfl, .inl (by decide), by decide +kernel, by decide +kernel⟩, ?_⟩, .inl ⟨1, rfl, rfl⟩, (fun h => nomatch h), fun h => nomatch h.1⟩
    intro y hy hm
    simp only [List.mem_cons, List.not_mem_nil, or_false] at hy
    rcases hy with rfl | rfl | rfl
    · exact absurd hm.1 (by decide)
    · exact absurd hm.1 (by decide)
    · exact absurd hm.1 (by decide)
  have : Since (ts.map Ev.time ++ [.hello (Ex.hello 0 0 .symmetric)]) (Ex.addr 5) (Ex.hello 0 0 .symmetric) ⟨Ex.addr 5, some 1, none, [(0, Ex.out 4)]⟩ := by
    induction ts with
    | nil => exact h0
    | cons t ts ih =>
      rw [List.map_cons, List.cons_append, since_cons]
      exact .inr ⟨ih, trivial, fun _ _ => .inl rfl⟩
  obtain ⟨x, hx, _⟩ := (C115_follows (doms := Ex.doms) (by decide) _ _).2 _ _ this
  rw [hx]
  exact fun h => (nomatch h)

/-! ### C116 -/

theorem mem_iff_get {m : Hops} (hn : m.keys.Nodup) (a : Netaddr) (h : Hop) : (a, h) ∈ m ↔ m.get a = some h := by
  induction m with
  | nil => exact ⟨fun h => (nomatch h), fun h => (nomatch h)⟩
  | cons x m ih =>
    obtain ⟨b, v⟩ := x
    have hk : b ∉ Map.keys m ∧ (Map.keys m).Nodup := List.nodup_cons.1 hn
    rw [Map.get_cons, List.mem_cons]
    by_cases hb : b = a
    · subst hb
      rw [if_pos rfl]
      constructor
      · rintro (h | h)
        · cases h; rfl
        · exact absurd (List.mem_map.2 ⟨_, h, rfl⟩) hk.1
      · intro h
        cases h
        exact .inl rfl
    · rw [if_neg hb, ← ih hk.2]
      constructor
      · rintro (h | h)
        · cases h; exact absurd rfl hb
        · exact h
      · exact .inr

/-- the validity times of all HELLOs are there, and the clock is far from its end -/
def Timed (evs : List Ev) : Prop := ∀ m, Ev.hello m ∈ evs → 0 < m.vtime ∧ m.now + m.vtime < 2 ^ 63

/-- **C116** (part): the two-hop addresses the routing uses are those whose HELLO had no validity time. -/
theorem C116_partial {doms : List Dom} (hu : (doms.map (·.ext)).Nodup) (evs : List Ev) (i : Nat) (a : Netaddr) :
    (∃ x ∈ (run doms evs).hops.map (toRouting i), x.addr = a ∧ x.lost = false) ↔ ∃ m s, Since evs a m s ∧ setT m.now m.vtime = 0 := by
  constructor
  · rintro ⟨x, hx, rfl, hl⟩
    obtain ⟨⟨b, h⟩, hm, rfl⟩ := List.mem_map.1 hx
    obtain ⟨m, s, h1, h2⟩ := (C115_follows hu evs b).1 h ((mem_iff_get (ok_run doms evs).keys b h).1 hm)
    refine ⟨m, s, h1, ?_⟩
    rw [← h2.2.1]
    simpa [toRouting] using hl
  · rintro ⟨m, s, h1, h2⟩
    obtain ⟨h, hg, hr⟩ := (C115_follows hu evs a).2 m s h1
    refine ⟨_, List.mem_map.2 ⟨(a, h), (mem_iff_get (ok_run doms evs).keys a h).2 hg, rfl⟩, rfl, ?_⟩
    have := hr.2.1
    simp [toRouting, this, h2]

/-- The routing sees the links as they are: the links of every neighbor have the two-hop addresses which HELLOs announced. -/
def Sees (doms : List Dom) (i : Nat) (w : Verif.Routing.Env) : Prop :=
  ∀ j, ∀ link ∈ (w.neigh j).links, ∃ evs, Timed evs ∧ link = (run doms evs).hops.map (toRouting i)

theorem sees_lost {doms : List Dom} (hu : (doms.map (·.ext)).Nodup) {i : Nat} {w : Verif.Routing.Env} (h : Sees doms i w) {j : Nat}
    {link : List Verif.Routing.L2hop} (hl : link ∈ (w.neigh j).links) {x : Verif.Routing.L2hop} (hx : x ∈ link) : x.lost = true := by
  obtain ⟨evs, ht, rfl⟩ := h j link hl
  cases hb : x.lost with
  | true => rfl
  | false =>
    exfalso
    obtain ⟨m, s, h1, h2⟩ := (C116_partial hu evs i x.addr).1 ⟨x, hx, rfl, hb⟩
    have hm : Ev.hello m ∈ evs := by
      obtain ⟨post, pre, rfl, _⟩ := h1
      simp
    obtain ⟨t1, t2⟩ := ht m hm
    have := Verif.Hello.setT_bounds t1 t2
    omega

/-- **C116** is false: as long as HELLOs have validity times, no two-hop address ever reaches the routing table.
Every route leads to a destination of the topology or to an address of a neighbor. -/
theorem C116_counterexample {doms : List Dom} (hu : (doms.map (·.ext)).Nodup) {i : Nat} {w : Verif.Routing.Env} (hw : Sees doms i w) :
    (∀ j, Verif.Routing.twohopCalls w j = []) ∧
    (Verif.Routing.WF w → Verif.Routing.CostOk w → ∀ tbl : List Verif.Routing.Entry, (tbl.map Verif.Routing.Entry.key).Nodup →
      ∀ n, w.targets.length ≤ n → ∀ e ∈ Verif.Routing.calculate w n tbl, e.set = true → Verif.Routing.Wanted w e.key → e.key.src.prefixLen = 0 →
      (∃ j t c h l, Verif.Routing.Path w j t c h l ∧ e.key = (w.target t).key) ∨ ∃ j, ∃ a ∈ (w.neigh j).addrs, e.key = Verif.Routing.hostKey a) := by
  constructor
  · intro j
    unfold Verif.Routing.twohopCalls
    rw [List.map_eq_nil_iff, List.filter_eq_nil_iff]
    intro x hx
    obtain ⟨link, hl, hx⟩ := List.mem_flatten.1 hx
    simp [sees_lost hu hw hl hx]
  · intro wf hc tbl hn n hr e he hs hwant hp
    obtain ⟨j, h, l, hreach⟩ := ((Verif.Routing.C40_partial wf hc tbl hn n hr e.key (.inl hp) hwant).2 e he rfl hs).1
    generalize hk : e.key = k at hreach
    generalize e.cost = c at hreach
    cases hreach with
    | path hpath => exact .inl ⟨_, _, _, _, _, hpath, rfl⟩
    | neighbor _ _ _ ha => exact .inr ⟨_, _, ha, rfl⟩
    | twohop _ _ _ hl hx hlost =>
      rw [sees_lost hu hw hl hx] at hlost
      cases hlost

namespace Ex
/-- a neighbor 10.0.0.2 with one link, whose HELLO has announced the two-hop address 10.0.0.5 with metric 5 -/
def w : Verif.Routing.Env where
  targets := []
  neighs := [⟨addr 2, 1, none, 3, 3, 1, addr 2, [addr 2], [(run doms [.hello (hello 0 1000 .symmetric)]).hops.map (toRouting 0)]⟩]
  originator := fun _ => addr 1
  ifAddr := fun _ => false
  lan := fun _ => none
  routable := fun _ => true
  nhdpRoutable := true

theorem sees : Sees doms 0 w := by
  intro j link hl
  cases j with
  | zero =>
    have hl : link ∈ [(run doms [.hello (hello 0 1000 .symmetric)]).hops.map (toRouting 0)] := hl
    rw [List.mem_singleton] at hl
    refine ⟨_, ?_, hl⟩
    intro m hm
    rw [List.mem_singleton] at hm
    cases hm
    exact ⟨by decide, by decide⟩
  | succ j => exact (nomatch hl)
end Ex

/-- **C116**: the announced address is known with a metric, the neighbor is symmetric, and there is a route to the neighbor only. -/
theorem C116_no_route_counterexample :
    (∃ x ∈ (Ex.w.neigh 0).links.flatten, x.addr = Ex.addr 5 ∧ x.metric ≤ Verif.Routing.METRIC_MAX) ∧ (Ex.w.neigh 0).symmetric ≠ 0 ∧
    ((Verif.Routing.calculate Ex.w 0 []).filter Verif.Routing.Entry.set).map (fun e => (e.key.dst, e.cost)) = [(Ex.addr 2, 3)] := by
  refine ⟨?_, by decide, by decide +kernel⟩
  have : ((Ex.w.neigh 0).links.flatten.any fun x => decide (x.addr = Ex.addr 5) && decide (x.metric ≤ Verif.Routing.METRIC_MAX)) = true := by decide +kernel
  rw [List.any_eq_true] at this
  obtain ⟨x, h1, h2⟩ := this
  simp only [Bool.and_eq_true, decide_eq_true_eq] at h2
  exact ⟨x, h1, h2⟩

/-- the hypotheses of `C116_counterexample` can be met -/
example : Sees Ex.doms 0 Ex.w ∧ Verif.Routing.WF Ex.w ∧ Verif.Routing.CostOk Ex.w := by
  refine ⟨Ex.sees, ⟨?_, ?_, ?_⟩, Verif.Routing.C40_small_network (by decide)⟩
  · intro i t h
    match i with
    | 0 => cases h
    | n + 1 => cases h
  · intro t e he
    cases he
  · intro t e he
    cases he

end Verif.TwoHop
