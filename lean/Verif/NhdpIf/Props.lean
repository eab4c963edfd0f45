import Verif.NhdpIf.Lemmas
/-
C145: families used for flooding.  C146: life cycle of interface addresses.  C147: users and removal of interfaces.
-/
namespace Verif.NhdpIf
open Verif.Netaddr

/-! ### C145 -/

/-- messages are flooded over IPv4 iff there is a symmetric IPv4-only neighbor, over IPv6 iff there is a symmetric IPv6-only one or dualstack
ones which no IPv4 message reaches; never to unicast targets or interfaces NHDP does not know -/
theorem C145_families (links : List Link) :
    (Sent4 links ↔ Only links AF_INET) ∧ (Sent6 links ↔ Only links AF_INET6 ∨ (Dual links ∧ ¬ Only links AF_INET)) ∧
    (∀ f, forwardingSelector f .unicast = false) ∧ ∀ t, forwardingSelector none t = false :=
  ⟨sent4_iff links, sent6_iff links, fun _ => rfl, fun t => by cases t <;> rfl⟩

/-- both families only if there are neighbors of each kind which need it; none without symmetric link -/
theorem C145_thrifty (links : List Link) : (Sent4 links → Sent6 links → Only links AF_INET ∧ Only links AF_INET6) ∧
    ((∀ l ∈ links, l.sym = false) → ¬ Sent4 links ∧ ¬ Sent6 links) := by
  rw [sent4_iff, sent6_iff]
  refine ⟨fun h4 h6 => ⟨h4, h6.resolve_right fun h => h.2 h4⟩, fun h => ?_⟩
  have ho : ∀ f, ¬ Only links f := by
    rintro f ⟨l, hl, hs, _⟩
    rw [h l hl] at hs
    exact nomatch hs
  have hd : ¬ Dual links := by
    rintro ⟨l, hl, hs, _⟩
    rw [h l hl] at hs
    exact nomatch hs
  exact ⟨ho _, fun h => h.elim (ho _) fun h => hd h.1⟩

/-- every neighbor with a symmetric link gets the message, if partners are symmetric together; missing: dualstack neighbors with one symmetric
link, see the counterexamples -/
theorem C145_reached_partial {links : List Link} (hp : Paired links) {l : Link} (hl : l ∈ links) (hs : l.sym = true) : Reached links l := by
  obtain ⟨hf, hpart⟩ := hp l hl hs
  unfold Reached
  rw [sent4_iff, sent6_iff]
  cases hq : l.partner with
  | none =>
    refine ⟨l, hl, hs, .inl rfl, ?_⟩
    rcases hf with hf | hf
    · exact .inl ⟨hf, l, hl, hs, hq, hf⟩
    · exact .inr ⟨hf, .inl ⟨l, hl, hs, hq, hf⟩⟩
  | some p =>
    obtain ⟨k, hk, hid, hks, hkp, hkf, hne⟩ := hpart p hq
    have hne' : l.partner ≠ none := by rw [hq]; simp
    have hkne : k.partner ≠ none := by rw [hkp]; simp
    have kp : some p = some k.id := by rw [hid]
    by_cases ho : Only links AF_INET
    · rcases hf with hf | hf
      · exact ⟨l, hl, hs, .inl rfl, .inl ⟨hf, ho⟩⟩
      · rcases hkf with hkf | hkf
        · exact ⟨k, hk, hks, .inr kp, .inl ⟨hkf, ho⟩⟩
        · exact absurd (hkf.trans hf.symm) hne
    · rcases hf with hf | hf
      · rcases hkf with hkf | hkf
        · exact absurd (hkf.trans hf.symm) hne
        · exact ⟨k, hk, hks, .inr kp, .inr ⟨hkf, .inr ⟨⟨l, hl, hs, hne', hf⟩, ho⟩⟩⟩
      · rcases hkf with hkf | hkf
        · exact ⟨l, hl, hs, .inl rfl, .inr ⟨hf, .inr ⟨⟨k, hk, hks, hkne, hkf⟩, ho⟩⟩⟩
        · exact absurd (hkf.trans hf.symm) hne

/-- an IPv4-only neighbor and a dualstack one: everybody is reached with IPv4 -/
example : let links := [⟨1, true, none, AF_INET⟩, ⟨2, true, some 3, AF_INET⟩, ⟨3, true, some 2, AF_INET6⟩]
    updateStatus links = ⟨true, false, AF_INET⟩ ∧ forwardingSelector (some (updateStatus links)) .multicast6 = false ∧ Paired links := by
  refine ⟨by decide, by decide, ?_⟩
  intro l hl _
  simp only [List.mem_cons, List.not_mem_nil, or_false] at hl
  rcases hl with rfl | rfl | rfl
  · exact ⟨.inl rfl, fun p hp => (nomatch hp)⟩
  · refine ⟨.inl rfl, fun p hp => ?_⟩
    cases hp
    exact ⟨⟨3, true, some 2, AF_INET6⟩, by simp, rfl, rfl, rfl, .inr rfl, by decide⟩
  · refine ⟨.inr rfl, fun p hp => ?_⟩
    cases hp
    exact ⟨⟨2, true, some 3, AF_INET⟩, by simp, rfl, rfl, rfl, .inl rfl, by decide⟩

/-- a dualstack neighbor whose IPv4 link is not symmetric gets nothing, on any interface where it is the only symmetric neighbor -/
theorem C145_ipv4_lost_counterexample (a b : Nat) : let links := [⟨a, false, some b, AF_INET⟩, ⟨b, true, some a, AF_INET6⟩]
    ¬ Sent4 links ∧ ¬ Sent6 links ∧ ¬ Reached links ⟨b, true, some a, AF_INET6⟩ := by
  intro links
  have h4 : ¬ Sent4 links := by
    rw [sent4_iff]; simp [Only, links]
  have h6 : ¬ Sent6 links := by
    rw [sent6_iff]
    rintro (h | h)
    · simp [Only, links] at h
    · have := h.1
      simp [Dual, links, AF_INET, AF_INET6] at this
  refine ⟨h4, h6, ?_⟩
  rintro ⟨k, _, _, _, (h | h)⟩
  · exact h4 h.2
  · exact h6 h.2

/-- a dualstack neighbor whose IPv6 link is not symmetric is flooded over IPv6 only -/
theorem C145_ipv6_lost_counterexample (a b : Nat) : let links := [⟨a, true, some b, AF_INET⟩, ⟨b, false, some a, AF_INET6⟩]
    ¬ Sent4 links ∧ Sent6 links ∧ ¬ Reached links ⟨a, true, some b, AF_INET⟩ := by
  intro links
  have h4 : ¬ Sent4 links := by
    rw [sent4_iff]; simp [Only, links]
  have h6 : Sent6 links := by
    rw [sent6_iff]
    exact .inr ⟨⟨⟨a, true, some b, AF_INET⟩, by simp [links], rfl, by simp, rfl⟩, by simp [Only, links]⟩
  refine ⟨h4, h6, ?_⟩
  rintro ⟨k, hk, hs, _, (h | h)⟩
  · exact h4 h.2
  · simp only [links, List.mem_cons, List.not_mem_nil, or_false] at hk
    rcases hk with rfl | rfl
    · exact absurd (show AF_INET = AF_INET6 from h.1) (by decide)
    · exact nomatch hs

/-! ### C146 -/

theorem mem_view {s : St} (hu : Uniq s.entries) (i : Nat) (a : Netaddr) (r : Bool) :
    (∃ e ∈ s.entries, e.ifc = i ∧ e.addr = a ∧ e.removed = r) ↔ ∃ d, view s i a = some (r, d) := by
  unfold view
  constructor
  · rintro ⟨e, he, rfl, rfl, rfl⟩
    cases hf : find s.entries e.ifc e.addr with
    | none => exact absurd (is_iff.mpr ⟨rfl, rfl⟩) (List.find?_eq_none.mp hf e he)
    | some x =>
      have hk := find_key hf
      have hx := List.mem_of_find?_eq_some hf
      have : x = e := by
        unfold Uniq at hu
        rcases List.mem_iff_getElem.mp he with ⟨m, hm, rfl⟩
        rcases List.mem_iff_getElem.mp hx with ⟨n, hn, rfl⟩
        have hp := List.pairwise_iff_getElem.mp hu
        rcases Nat.lt_trichotomy m n with hlt | heq | hlt
        · exact absurd ⟨hk.1.symm, hk.2.symm⟩ (hp m n hm hn hlt)
        · subst heq; rfl
        · exact absurd hk (hp n m hn hm hlt)
      subst this
      exact ⟨x.due, rfl⟩
  · rintro ⟨d, hd⟩
    obtain ⟨e, he, h⟩ := Option.map_eq_some_iff.mp hd
    have hk := find_key he
    exact ⟨e, List.mem_of_find?_eq_some he, hk.1, hk.2, (Prod.mk.inj h).1⟩

/-- after all histories: an interface has an address which is not marked as removed iff the last news of the interface told that it is
usable -/
theorem C146_active (h : List (Nat × Ev)) (ho : Ordered h) (i : Nat) (a : Netaddr) :
    (∃ e ∈ (run h).entries, e.ifc = i ∧ e.addr = a ∧ e.removed = false) ↔ Active i a h := by
  rw [mem_view (uniq_run h)]
  exact ⟨fun ⟨d, hd⟩ => (((view_run i a h ho).1 d).mp hd).1, fun hA => ⟨none, ((view_run i a h ho).1 none).mpr ⟨hA, rfl⟩⟩⟩

/-- an interface has an address which is marked as removed iff the address was lost, did not come back, and the hold time valid at the loss is
not over (a hold time 0 never ends) -/
theorem C146_removed (h : List (Nat × Ev)) (ho : Ordered h) (i : Nat) (a : Netaddr) :
    (∃ e ∈ (run h).entries, e.ifc = i ∧ e.addr = a ∧ e.removed = true) ↔ ∃ t v, LostAt i a h t v ∧ (v = 0 ∨ now h < t + v) := by
  rw [mem_view (uniq_run h)]
  have key : ∀ t v, Waits (now h) (timerSet t v) ↔ (v = 0 ∨ now h < t + v) := by
    intro t v
    unfold Waits timerSet
    by_cases hv : v = 0
    · simp [hv]
    · simp [hv]
  constructor
  · rintro ⟨d, hd⟩
    obtain ⟨hw, t, v, hl, rfl⟩ := ((view_run i a h ho).2 d).mp hd
    exact ⟨t, v, hl, (key t v).mp hw⟩
  · rintro ⟨t, v, hl, hw⟩
    exact ⟨timerSet t v, ((view_run i a h ho).2 _).mpr ⟨(key t v).mpr hw, t, v, hl, rfl⟩⟩

/-- an address is at most once in an interface -/
theorem C146_once (h : List (Nat × Ev)) : (run h).entries.Pairwise fun x y => ¬ (x.ifc = y.ifc ∧ x.addr = y.addr) := uniq_run h

/-- the search for an own address on all interfaces finds exactly the addresses which are in use or held, whatever prefix length -/
theorem C146_global (h : List (Nat × Ev)) (ho : Ordered h) (a : Netaddr) : (globalGet (run h) a).isSome = true ↔
    ∃ i b, b.type = a.type ∧ b.addr = a.addr ∧ (Active i b h ∨ ∃ t v, LostAt i b h t v ∧ (v = 0 ∨ now h < t + v)) := by
  unfold globalGet
  rw [List.find?_isSome]
  constructor
  · rintro ⟨e, he, hs⟩
    have hs : e.addr.type = a.type ∧ e.addr.addr = a.addr := by simpa [sameHost] using hs
    refine ⟨e.ifc, e.addr, hs.1, hs.2, ?_⟩
    cases hr : e.removed with
    | false => exact .inl ((C146_active h ho _ _).mp ⟨e, he, rfl, rfl, hr⟩)
    | true => exact .inr ((C146_removed h ho _ _).mp ⟨e, he, rfl, rfl, hr⟩)
  · rintro ⟨i, b, h1, h2, h3⟩
    have : ∃ e ∈ (run h).entries, e.addr = b := by
      rcases h3 with h3 | h3
      · obtain ⟨e, he, _, hb, _⟩ := (C146_active h ho i b).mpr h3
        exact ⟨e, he, hb⟩
      · obtain ⟨e, he, _, hb, _⟩ := (C146_removed h ho i b).mpr h3
        exact ⟨e, he, hb⟩
    obtain ⟨e, he, rfl⟩ := this
    exact ⟨e, he, by simp [sameHost, h1, h2]⟩

/-- the links of an interface become unsymmetric iff it has no usable address -/
theorem C146_links (env : Env) : hasActiveAddr env = true ↔ ∃ a, Usable env a := by
  unfold hasActiveAddr Usable
  simp only [Bool.and_eq_true, List.any_eq_true, Bool.not_eq_true', Bool.and_eq_false_iff, decide_eq_false_iff_not, Bool.not_eq_false',
    Bool.or_eq_true]
  constructor
  · rintro ⟨hu, a, ha, ⟨h1, h2⟩, h3⟩
    exact ⟨a, hu, ha, fun h => h1.resolve_left (fun hn => hn h), fun h => h2.resolve_left (fun hn => hn h), h3⟩
  · rintro ⟨a, hu, ha, h1, h2, h3⟩
    refine ⟨hu, a, ha, ⟨?_, ?_⟩, h3⟩
    · by_cases h : a.type = AF_INET
      · exact .inr (h1 h)
      · exact .inl h
    · by_cases h : a.type = AF_INET6
      · exact .inr (h2 h)
      · exact .inl h

/-- addresses for the examples -/
def ip (n : UInt8) : Netaddr := ⟨[10, 0, 0, n, 0, 0, 0, 0, 0, 0, 0, 0, 0, 0, 0, 0], AF_INET, 32⟩

/-- address 1 gets lost at time 10, hold time 6; news at 12 do not prolong it; at 15 it is still held, at 16 it is gone -/
def lostHistory : List (Nat × Ev) :=
  [(12, .change 0 ⟨true, false, true, true, [ip 2], fun _ => true⟩), (10, .change 0 ⟨true, false, true, true, [ip 2], fun _ => true⟩),
    (5, .settings 0 ⟨true, false, true, true, [ip 1, ip 2], fun _ => true⟩ 0 6)]

example : (run lostHistory).entries = [⟨0, ip 1, true, true, some 16⟩, ⟨0, ip 2, false, false, none⟩] := by decide +kernel
example : (run ((15, .wait) :: lostHistory)).entries.length = 2 := by decide +kernel
example : (run ((16, .wait) :: lostHistory)).entries = [⟨0, ip 2, false, false, none⟩] := by decide +kernel
example : Ordered lostHistory := by
  unfold Ordered lostHistory
  simp

/-! ### C147 -/

/-- an interface exists iff it has more registrations than removals -/
theorem C147_users (h : List RegEv) {r : Reg} (hr : regRun h = some r) (i : Nat) : r.refs i = users i h := by
  induction h generalizing r with
  | nil => cases hr; rfl
  | cons e h ih =>
    obtain ⟨r', h1, h2⟩ := Option.bind_eq_some_iff.mp hr
    have ih := ih h1
    cases e with
    | add j =>
      cases h2
      show (if i = j then r'.refs j + 1 else r'.refs i) = if j = i then users i h + 1 else users i h
      by_cases c : i = j
      · subst c; rw [if_pos rfl, if_pos rfl, ih]
      · rw [if_neg c, if_neg (fun h => c h.symm), ih]
    | remove j =>
      cases h2
      show (if i = j then r'.refs j - 1 else r'.refs i) = if j = i then users i h - 1 else users i h
      by_cases c : i = j
      · subst c; rw [if_pos rfl, if_pos rfl, ih]
      · rw [if_neg c, if_neg (fun h => c h.symm), ih]
    | hello l j =>
      cases h2
      show Reg.refs (if _ then r' else linkAdd r' l j) i = users i h
      split
      · exact ih
      · unfold linkAdd
        split <;> exact ih
    | timeout l =>
      show r.refs i = users i h
      change linkRemove r' l = some r at h2
      unfold linkRemove at h2
      split at h2
      · cases h2; exact ih
      · split at h2
        · exact nomatch h2
        · cases h2; exact ih

/-- every link points to an existing interface -/
def Sound (r : Reg) : Prop := ∀ p ∈ r.links, r.refs p.2.1 ≠ 0 ∧ r.gen p.2.1 = p.2.2

theorem tidy_tail {e : RegEv} {h : List RegEv} (ht : Tidy (e :: h)) : Tidy h :=
  fun later i before r h1 => ht (e :: later) i before r (by rw [h1]; rfl)

theorem tidy_sound (h : List RegEv) (ht : Tidy h) : ∃ r, regRun h = some r ∧ Sound r := by
  induction h with
  | nil => exact ⟨{}, rfl, fun p hp => absurd hp (by simp)⟩
  | cons e h ih =>
    obtain ⟨r, hr, hs⟩ := ih (tidy_tail ht)
    have hrun : regRun (e :: h) = regStep r e := by
      show (regRun h).bind _ = _
      rw [hr]; rfl
    rw [hrun]
    cases e with
    | add j =>
      refine ⟨_, rfl, ?_⟩
      intro p hp
      obtain ⟨h1, h2⟩ := hs p hp
      constructor
      · show (if p.2.1 = j then r.refs j + 1 else r.refs p.2.1) ≠ 0
        split
        · omega
        · exact h1
      · show (if p.2.1 = j ∧ r.refs j = 0 then r.gen j + 1 else r.gen p.2.1) = _
        rw [if_neg]
        · exact h2
        · rintro ⟨rfl, h0⟩; exact h1 h0
    | remove j =>
      refine ⟨_, rfl, ?_⟩
      intro p hp
      obtain ⟨h1, h2⟩ := hs p hp
      refine ⟨?_, h2⟩
      show (if p.2.1 = j then r.refs j - 1 else r.refs p.2.1) ≠ 0
      by_cases c : p.2.1 = j
      · rw [if_pos c]
        have hu := C147_users h hr j
        intro h0
        rw [c] at h1
        have : users j h = 1 := by omega
        exact ht [] j h r rfl hr this p hp c
      · rw [if_neg c]; exact h1
    | hello l j =>
      refine ⟨_, rfl, ?_⟩
      show Sound (if _ then r else linkAdd r l j)
      split
      · exact hs
      · unfold linkAdd
        split
        · exact hs
        · rename_i hj
          intro p hp
          rcases List.mem_cons.mp hp with rfl | hp'
          · exact ⟨hj, rfl⟩
          · exact hs p hp'
    | timeout l =>
      show ∃ r', linkRemove r l = some r' ∧ Sound r'
      unfold linkRemove
      split
      · exact ⟨r, rfl, hs⟩
      · rename_i p hp
        have hm := List.mem_of_find?_eq_some hp
        obtain ⟨h1, h2⟩ := hs p hm
        rw [if_neg (by rintro (h | h); exact h1 h; exact h h2)]
        exact ⟨_, rfl, fun q hq => hs q (List.mem_filter.mp hq).1⟩

/-- no freed interface is used by its links, if interfaces lose their last user only after their links ended; missing: interfaces removed while
they have links, see the counterexample -/
theorem C147_no_freed_partial (h : List RegEv) (ht : Tidy h) :
    ∃ r, regRun h = some r ∧ ∀ p ∈ r.links, r.refs p.2.1 ≠ 0 ∧ r.gen p.2.1 = p.2.2 := tidy_sound h ht

/-- two users, the interface survives the first removal -/
example : (regRun [.timeout 7, .remove 0, .hello 7 0, .add 0, .add 0]).map (fun r => (r.refs 0, r.links)) = some (1, []) := by decide +kernel

example : Tidy [.remove 0, .timeout 7, .hello 7 0, .add 0] := by
  intro later i before r h1 h2 h3 p hp
  match later, h1 with
  | [], h1 =>
    obtain ⟨e, rfl⟩ := List.cons.inj h1
    have hl : (regRun [.timeout 7, .hello 7 0, .add 0]).map (fun r => r.links) = some [] := by decide +kernel
    rw [h2] at hl
    have hl : r.links = [] := by simpa using hl
    rw [hl] at hp
    exact nomatch hp
  | [_], h1 => simp at h1
  | [_, _], h1 => simp at h1
  | [_, _, _], h1 => simp at h1
  | _ :: _ :: _ :: _ :: _, h1 => simp at h1

/-- whenever an interface with one user gets a link and is removed, the timeout of the link uses the freed interface, even if an interface with
the same name was registered again -/
theorem C147_dangling_counterexample (i l : Nat) :
    regRun [.timeout l, .remove i, .hello l i, .add i] = none ∧ regRun [.timeout l, .add i, .remove i, .hello l i, .add i] = none := by
  constructor <;> simp [regRun, regStep, linkRemove, ifRemove, ifAdd, linkAdd]

end Verif.NhdpIf
