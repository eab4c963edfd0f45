/-
C155: where a TCP service listens and who may connect.
-/
import Verif.Stream.Bind
import Verif.Acl.Props
namespace Verif.Stream
open Verif.Netaddr Verif.Acl

/-! ### Specification -/

/-- A complete IPv4 or IPv6 host address. -/
def Host (a : Netaddr) : Prop :=
  a.WF ∧ ((a.type = AF_INET ∧ a.prefixLen = 32) ∨ (a.type = AF_INET6 ∧ a.prefixLen = 128))

/-- All addresses of an interface are host addresses, and its link-local
address is one or missing. -/
def GoodIface (i : Iface) : Prop :=
  (∀ x ∈ i.addrs, Host x) ∧ (Host i.linklocal ∨ i.linklocal = unspec)

/-- The addresses a service could listen on: those of its interface, or of
all interfaces. -/
def Own (all : List Iface) (on : Option Iface) (a : Netaddr) : Prop :=
  match on with
  | some i => a ∈ i.addrs ∨ a = i.linklocal
  | none => ∃ i ∈ all, a ∈ i.addrs

/-! ### Lemmas -/

theorem host_max {a : Netaddr} (h : Host a) : a.prefixLen.toNat = maxPrefix a := by
  rcases h.2 with ⟨h1, h2⟩ | ⟨h1, h2⟩ <;> unfold maxPrefix <;> rw [h1, h2] <;> decide

theorem cmp_zero {x a : Netaddr} (hx : x.WF) (ha : a.WF) (h : cmp x a = 0) : x = a := by
  unfold cmp at h
  rw [memcmp_zero _ _ (by simp only [List.length_append]; rw [hx, ha]; rfl)] at h
  obtain ⟨xa, xt, xp⟩ := x
  obtain ⟨aa, at', ap⟩ := a
  have h1 : xa.length = aa.length := by rw [show xa.length = 16 from hx, show aa.length = 16 from ha]
  obtain ⟨h2, h3⟩ := List.append_inj h h1
  simp only [List.cons.injEq, and_true] at h3
  have h2' : xa = aa := h2
  rw [h2', h3.1, h3.2]

theorem listed_self {l : List Netaddr} {a : Netaddr} (h : a ∈ l) : Listed l a :=
  ⟨a, h, rfl, fun _ _ => rfl⟩

theorem exactOn_spec {af : UInt8} {f : Acl} {i : Iface} {a : Netaddr} (he : Entries f) (hi : GoodIface i)
    (haf : af = AF_INET ∨ af = AF_INET6) (h : exactOn af f i = some a) :
    a ∈ i.addrs ∧ a ∈ f.accept ∧ a.type = af := by
  have hm := List.mem_of_find?_eq_some h
  have hp := List.find?_some h
  rw [Bool.and_eq_true] at hp
  obtain ⟨h1, h2⟩ := hp
  obtain ⟨x, hx, hc⟩ := List.any_eq_true.mp h2
  have hh := hi.1 x hx
  have heq := cmp_zero hh.1 (he a (Or.inl hm)).1 (eq_of_beq hc)
  subst heq
  refine ⟨hx, hm, ?_⟩
  have h1' := eq_of_beq h1
  rcases hh.2 with ⟨t, p⟩ | ⟨t, p⟩ <;> rcases haf with rfl | rfl
  · exact t
  · rw [p] at h1'; exact absurd h1' (by decide)
  · rw [p] at h1'; exact absurd h1' (by decide)
  · exact t

theorem matchingOn_spec (af : UInt8) (f : Acl) (l : List Netaddr) (he : Entries f) (hl : ∀ x ∈ l, Host x) :
    (∃ a, matchingOn af f l = some (some a) ∧ a ∈ l ∧ a.type = af ∧ Accepted f a) ∨
    (matchingOn af f l = some none ∧ ∀ x ∈ l, x.type = af → ¬ Accepted f x) := by
  induction l with
  | nil => exact Or.inr ⟨rfl, fun x hx => nomatch hx⟩
  | cons y l ih =>
    have ih' := ih (fun x hx => hl x (List.mem_cons_of_mem _ hx))
    by_cases ht : y.type = af
    · obtain ⟨r, hr, hacc⟩ := C22_decision f y he (hl y List.mem_cons_self).1
      cases r with
      | true =>
        refine Or.inl ⟨y, ?_, List.mem_cons_self, ht, hacc.mp rfl⟩
        simp only [matchingOn, hr, ht, ne_eq, not_true_eq_false, if_false]
      | false =>
        have hm : matchingOn af f (y :: l) = matchingOn af f l := by
          simp only [matchingOn, hr, ht, ne_eq, not_true_eq_false, if_false]
        rw [hm]
        rcases ih' with ⟨a, h1, h2, h3⟩ | ⟨h1, h2⟩
        · exact Or.inl ⟨a, h1, List.mem_cons_of_mem _ h2, h3⟩
        · refine Or.inr ⟨h1, fun x hx hxt => ?_⟩
          rcases List.mem_cons.mp hx with rfl | hx'
          · intro hA; exact absurd (hacc.mpr hA) (by decide)
          · exact h2 x hx' hxt
    · have hm : matchingOn af f (y :: l) = matchingOn af f l := by
        simp only [matchingOn, ne_eq, ht, not_false_eq_true, if_true]
      rw [hm]
      rcases ih' with ⟨a, h1, h2, h3⟩ | ⟨h1, h2⟩
      · exact Or.inl ⟨a, h1, List.mem_cons_of_mem _ h2, h3⟩
      · refine Or.inr ⟨h1, fun x hx hxt => ?_⟩
        rcases List.mem_cons.mp hx with rfl | hx'
        · exact absurd hxt ht
        · exact h2 x hx' hxt

theorem matchingAll_spec (af : UInt8) (f : Acl) (l : List Iface) (he : Entries f) (hl : ∀ i ∈ l, GoodIface i) :
    (∃ a, matchingAll af f l = some (some a) ∧ (∃ i ∈ l, a ∈ i.addrs) ∧ a.type = af ∧ Accepted f a) ∨
    (matchingAll af f l = some none ∧ ∀ i ∈ l, ∀ x ∈ i.addrs, x.type = af → ¬ Accepted f x) := by
  induction l with
  | nil => exact Or.inr ⟨rfl, fun x hx => nomatch hx⟩
  | cons i l ih =>
    rcases matchingOn_spec af f i.addrs he (hl i List.mem_cons_self).1 with ⟨a, h1, h2, h3⟩ | ⟨h1, h2⟩
    · refine Or.inl ⟨a, ?_, ⟨i, List.mem_cons_self, h2⟩, h3⟩
      simp only [matchingAll, h1]
    · have hm : matchingAll af f (i :: l) = matchingAll af f l := by simp only [matchingAll, h1]
      rw [hm]
      rcases ih (fun j hj => hl j (List.mem_cons_of_mem _ hj)) with ⟨a, g1, ⟨j, hj, g2⟩, g3⟩ | ⟨g1, g2⟩
      · exact Or.inl ⟨a, g1, ⟨j, List.mem_cons_of_mem _ hj, g2⟩, g3⟩
      · refine Or.inr ⟨g1, fun j hj => ?_⟩
        rcases List.mem_cons.mp hj with rfl | hj'
        · exact h2
        · exact g2 j hj'

theorem fixedPrefix_spec {af : UInt8} {f : Acl} {a : Netaddr} (h : fixedPrefix af f = some a) :
    a ∈ f.accept ∧ a.type = af ∧ f.reject = [] ∧ a.prefixLen.toNat = maxPrefix a := by
  unfold fixedPrefix at h
  split at h
  · exact nomatch h
  · rename_i hr
    have hr' : f.reject = [] := List.eq_nil_of_length_eq_zero (by omega)
    split at h
    · rename_i x hx
      split at h
      · exact nomatch h
      · rename_i hp
        split at h
        · rename_i ht
          injection h with h
          subst h
          exact ⟨by rw [hx]; exact List.mem_singleton.mpr rfl, ht, hr', Decidable.of_not_not hp⟩
        · exact nomatch h
    · rename_i x y hx
      split at h
      · exact nomatch h
      · rename_i hp
        split at h
        · exact nomatch h
        · split at h
          · exact nomatch h
          · rename_i hp2
            split at h
            · rename_i ht
              injection h with h
              subst h
              exact ⟨by rw [hx]; simp, ht, hr', Decidable.of_not_not hp2⟩
            · split at h
              · rename_i ht
                injection h with h
                subst h
                exact ⟨by rw [hx]; simp, ht, hr', Decidable.of_not_not hp⟩
              · exact nomatch h
    · exact nomatch h

/-- What `choose` returns, in all cases. -/
theorem choose_spec (af : UInt8) (f : Acl) (all : List Iface) (on : Option Iface) (he : Entries f)
    (hall : ∀ i ∈ all, GoodIface i) (hon : ∀ i, on = some i → GoodIface i)
    (haf : af = AF_INET ∨ af = AF_INET6) :
    (∃ a, choose af f all on = some (some a) ∧ a.type = af ∧ (∀ i, on = some i → i.up = true) ∧
      ((Accepted f a ∧ Own all on a) ∨ (a ∈ f.accept ∧ Own all on a) ∨
       (on = none ∧ a ∈ f.accept ∧ f.reject = [] ∧ a.prefixLen.toNat = maxPrefix a))) ∨
    (choose af f all on = some none ∧
      ((∃ i, on = some i ∧ i.up = false) ∨ ∀ x, Own all on x → x.type = af → ¬ Accepted f x)) := by
  have single : ∀ i, GoodIface i →
      (∃ a, bindAddress af f all (some i) = some (some a) ∧ a.type = af ∧ a ∈ i.addrs ∧
        (Accepted f a ∨ a ∈ f.accept)) ∨
      (bindAddress af f all (some i) = some none ∧ ∀ x ∈ i.addrs, x.type = af → ¬ Accepted f x) := by
    intro i hi
    unfold bindAddress
    simp only
    cases hx : exactOn af f i with
    | some a =>
      obtain ⟨h1, h2, h3⟩ := exactOn_spec he hi haf hx
      exact Or.inl ⟨a, rfl, h3, h1, Or.inr h2⟩
    | none =>
      rcases matchingOn_spec af f i.addrs he hi.1 with ⟨a, h1, h2, h3, h4⟩ | ⟨h1, h2⟩
      · exact Or.inl ⟨a, h1, h3, h2, Or.inl h4⟩
      · exact Or.inr ⟨h1, h2⟩
  cases on with
  | none =>
    unfold choose bindAddress
    simp only
    cases hf : fixedPrefix af f with
    | some a =>
      obtain ⟨h1, h2, h3, h4⟩ := fixedPrefix_spec hf
      exact Or.inl ⟨a, rfl, h2, (fun i h => nomatch h), Or.inr (Or.inr ⟨trivial, h1, h3, h4⟩)⟩
    | none =>
      simp only
      cases hx : all.findSome? (exactOn af f) with
      | some a =>
        obtain ⟨i, hi, ha⟩ := List.exists_of_findSome?_eq_some hx
        obtain ⟨h1, h2, h3⟩ := exactOn_spec he (hall i hi) haf ha
        exact Or.inl ⟨a, rfl, h3, (fun i h => nomatch h), Or.inr (Or.inl ⟨h2, ⟨i, hi, h1⟩⟩)⟩
      | none =>
        rcases matchingAll_spec af f all he hall with ⟨a, h1, h2, h3, h4⟩ | ⟨h1, h2⟩
        · exact Or.inl ⟨a, h1, h3, (fun i h => nomatch h), Or.inl ⟨h4, h2⟩⟩
        · refine Or.inr ⟨h1, Or.inr (fun x hx ht => ?_)⟩
          obtain ⟨i, hi, hxi⟩ := hx
          exact h2 i hi x hxi ht
  | some i =>
    have hi := hon i rfl
    cases hup : i.up with
    | false =>
      refine Or.inr ⟨?_, Or.inl ⟨i, rfl, hup⟩⟩
      simp only [choose, hup, Bool.false_eq_true, not_false_eq_true, if_true]
    | true =>
      by_cases ht : i.linklocal.type = af
      · have hll : i.linklocal.WF := by
          rcases hi.2 with h | h
          · exact h.1
          · rw [h]; rfl
        obtain ⟨r, hr, hacc⟩ := C22_decision f i.linklocal he hll
        cases r with
        | true =>
          refine Or.inl ⟨i.linklocal, ?_, ht, ?_, Or.inl ⟨hacc.mp rfl, Or.inr rfl⟩⟩
          · simp only [choose, hup, not_true_eq_false, if_false, ht, if_true, hr]
          · intro j hj; injection hj with hj; rw [← hj]; exact hup
        | false =>
          have hc : choose af f all (some i) = bindAddress af f all (some i) := by
            simp only [choose, hup, not_true_eq_false, if_false, ht, if_true, hr]
          rw [hc]
          rcases single i hi with ⟨a, h1, h2, h3, h4⟩ | ⟨h1, h2⟩
          · refine Or.inl ⟨a, h1, h2, ?_, ?_⟩
            · intro j hj; injection hj with hj; rw [← hj]; exact hup
            · rcases h4 with h4 | h4
              · exact Or.inl ⟨h4, Or.inl h3⟩
              · exact Or.inr (Or.inl ⟨h4, Or.inl h3⟩)
          · refine Or.inr ⟨h1, Or.inr (fun x hx hxt => ?_)⟩
            rcases hx with hx | hx
            · exact h2 x hx hxt
            · rw [hx]; intro hA; exact absurd (hacc.mpr hA) (by decide)
      · have hc : choose af f all (some i) = bindAddress af f all (some i) := by
          simp only [choose, hup, not_true_eq_false, if_false, ht]
        rw [hc]
        rcases single i hi with ⟨a, h1, h2, h3, h4⟩ | ⟨h1, h2⟩
        · refine Or.inl ⟨a, h1, h2, ?_, ?_⟩
          · intro j hj; injection hj with hj; rw [← hj]; exact hup
          · rcases h4 with h4 | h4
            · exact Or.inl ⟨h4, Or.inl h3⟩
            · exact Or.inr (Or.inl ⟨h4, Or.inl h3⟩)
        · refine Or.inr ⟨h1, Or.inr (fun x hx hxt => ?_)⟩
          rcases hx with hx | hx
          · exact h2 x hx hxt
          · rw [hx] at hxt; exact absurd hxt ht

/-! ### Properties -/

/-- **C155, where to listen.**  The address chosen for a socket has the right
family, belongs to the interface of the service (to any interface, if it is
not bound to one) unless it is a full address the filter names, and no
address is chosen while the interface is down.  It passes the filter, if the
filter does not look at its list of rejected addresses first. -/
theorem C155_address_partial (af : UInt8) (f : Acl) (all : List Iface) (on : Option Iface) (a : Netaddr)
    (he : Entries f) (hall : ∀ i ∈ all, GoodIface i) (hon : ∀ i, on = some i → GoodIface i)
    (haf : af = AF_INET ∨ af = AF_INET6) (h : choose af f all on = some (some a)) :
    a.type = af ∧ (∀ i, on = some i → i.up = true) ∧
    (Own all on a ∨ (on = none ∧ a ∈ f.accept ∧ a.prefixLen.toNat = maxPrefix a)) ∧
    (f.rejectFirst = false ∨ f.reject = [] → Accepted f a) := by
  rcases choose_spec af f all on he hall hon haf with ⟨b, h1, h2, h3, h4⟩ | ⟨h1, _⟩
  · rw [h] at h1
    injection h1 with h1
    injection h1 with h1
    subst h1
    have hacc : a ∈ f.accept → (f.rejectFirst = false ∨ f.reject = []) → Accepted f a := by
      intro hm hr
      have hl := listed_self hm
      unfold Accepted
      rcases hr with hr | hr
      · rw [hr]
        exact Or.inl hl
      · split
        · refine ⟨?_, Or.inl hl⟩
          rw [hr]
          rintro ⟨e, he', _⟩
          exact nomatch he'
        · exact Or.inl hl
    refine ⟨h2, h3, ?_, ?_⟩
    · rcases h4 with h4 | h4 | h4
      · exact Or.inl h4.2
      · exact Or.inl h4.2
      · exact Or.inr ⟨h4.1, h4.2.1, h4.2.2.2⟩
    · rcases h4 with h4 | h4 | h4
      · exact fun _ => h4.1
      · exact hacc h4.1
      · exact hacc h4.2.1
  · rw [h] at h1
    injection h1 with h1
    exact nomatch h1

/-- **C155, nothing overlooked.**  A socket is left without an address only
if its interface is down or none of the addresses it could listen on is of
its family and passes the filter; and a decision is always reached. -/
theorem C155_none (af : UInt8) (f : Acl) (all : List Iface) (on : Option Iface)
    (he : Entries f) (hall : ∀ i ∈ all, GoodIface i) (hon : ∀ i, on = some i → GoodIface i)
    (haf : af = AF_INET ∨ af = AF_INET6) :
    choose af f all on ≠ none ∧
    (choose af f all on = some none →
      (∃ i, on = some i ∧ i.up = false) ∨ ∀ x, Own all on x → x.type = af → ¬ Accepted f x) := by
  rcases choose_spec af f all on he hall hon haf with ⟨b, h1, _⟩ | ⟨h1, h2⟩
  · rw [h1]
    refine ⟨(fun h => nomatch h), fun h => ?_⟩
    injection h with h
    exact nomatch h
  · rw [h1]
    exact ⟨(fun h => nomatch h), fun _ => h2⟩

/-- **C155, following the configuration.**  After a configuration without
failing system call a socket is bound to the chosen address and the
configured port, or to nothing if there is no address; it is left alone,
sessions included, exactly if that was so before. -/
theorem C155_follows (af : UInt8) (m : Managed) (v v' : Server) (act : Act) (all : List Iface)
    (on : Option Iface) (addOk : Bool) (h : applySocket af m v all on addOk = some (v', act))
    (hok : act ≠ .failed) :
    ∃ c, choose af m.bindto all on = some c ∧
      (c = none → v'.bound = none ∧ act = .removed) ∧
      (∀ a, c = some a →
        v'.bound = socketInit a m.port (scopeOf on) ∧ v'.bound.isSome ∧
        v'.acl = m.acl ∧ (act = .kept ↔ v.bound = v'.bound)) := by
  unfold applySocket at h
  cases hc : choose af m.bindto all on with
  | none => rw [hc] at h; exact nomatch h
  | some c =>
    rw [hc] at h
    refine ⟨c, rfl, ?_, ?_⟩
    · rintro rfl
      simp only at h
      injection h with h
      injection h with h1 h2
      subst h1; subst h2
      exact ⟨rfl, rfl⟩
    · rintro a rfl
      simp only at h
      generalize socketInit a m.port (scopeOf on) = s at h ⊢
      cases s with
      | none =>
        injection h with h
        injection h with h1 h2
        exact absurd h2.symm hok
      | some s =>
        simp only at h
        split at h
        · rename_i hb
          injection h with h
          injection h with h1 h2
          subst h1; subst h2
          exact ⟨hb, by rw [hb]; rfl, rfl, ⟨fun _ => rfl, fun _ => rfl⟩⟩
        · rename_i hb
          split at h
          · injection h with h
            injection h with h1 h2
            subst h1; subst h2
            exact ⟨rfl, rfl, rfl, ⟨(fun h => nomatch h), fun h => absurd h hb⟩⟩
          · injection h with h
            injection h with h1 h2
            exact absurd h2.symm hok

/-- **C155 is false for filters that reject first.**  A filter whose list of
rejected addresses has precedence still lets the service listen on an address
it rejects, if the address also is in the other list. -/
theorem C155_address_counterexample :
    ∃ (f : Acl) (i : Iface) (a : Netaddr), GoodIface i ∧ Entries f ∧
      choose AF_INET f [i] (some i) = some (some a) ∧ checkAccept f a = some false := by
  let a : Netaddr := ⟨[10, 0, 0, 1, 0, 0, 0, 0, 0, 0, 0, 0, 0, 0, 0, 0], AF_INET, 32⟩
  let n : Netaddr := ⟨[10, 0, 0, 0, 0, 0, 0, 0, 0, 0, 0, 0, 0, 0, 0, 0], AF_INET, 24⟩
  refine ⟨⟨[a], [n], true, false⟩, ⟨true, 2, unspec, [a]⟩, a, ⟨?_, Or.inr rfl⟩, ?_, by decide +kernel, by decide +kernel⟩
  · intro x hx
    rw [List.mem_singleton.mp hx]
    exact ⟨rfl, Or.inl ⟨rfl, rfl⟩⟩
  · intro e h
    rcases h with h | h <;> rw [List.mem_singleton.mp h] <;> exact ⟨rfl, by decide⟩

/-- **C155 is false for the access list of the clients.**  Whatever access
lists a service is configured with, in whatever order and on whatever
interfaces: every client may connect.  The configured list never reaches the
place where it would be consulted. -/
theorem C155_clients_counterexample (cs : List Conf) (m : Managed) (h : configured cs = some m)
    (remote : Netaddr) : admits m.v4 remote = some true ∧ admits m.v6 remote = some true := by
  have hsock : ∀ (af : UInt8) (m : Managed) (v v' : Server) (act : Act) (all : List Iface) (on : Option Iface)
      (ok : Bool), applySocket af m v all on ok = some (v', act) → m.acl = none → v.acl = none → v'.acl = none := by
    intro af m v v' act all on ok hs hm hv
    unfold applySocket at hs
    split at hs
    · exact nomatch hs
    · injection hs with hs; injection hs with hs; subst hs; exact hv
    · split at hs
      · injection hs with hs; injection hs with hs; subst hs; exact hv
      · split at hs
        · injection hs with hs; injection hs with hs; subst hs; exact hm
        · split at hs <;> (injection hs with hs; injection hs with hs; subst hs; exact hm)
  have inv : ∀ cs m, configured cs = some m → m.acl = none ∧ m.v4.acl = none ∧ m.v6.acl = none := by
    intro cs
    induction cs with
    | nil =>
      intro m hm
      injection hm with hm
      subst hm
      exact ⟨rfl, rfl, rfl⟩
    | cons c cs ih =>
      intro m hm
      rw [configured] at hm
      split at hm
      · exact nomatch hm
      · rename_i m0 hm0
        obtain ⟨h1, h2, h3⟩ := ih m0 hm0
        unfold applyManaged at hm
        simp only at hm
        split at hm
        · exact nomatch hm
        · rename_i v4 hv4
          injection hm with hm
          subst hm
          exact ⟨h1, hsock _ _ _ _ _ _ _ _ hv4 h1 h2, h3⟩
        · rename_i v4 act _ hv4
          split at hm
          · exact nomatch hm
          · rename_i v6 act6 hv6
            injection hm with hm
            subst hm
            exact ⟨h1, hsock _ _ _ _ _ _ _ _ hv4 h1 h2, hsock _ _ _ _ _ _ _ _ hv6 h1 h3⟩
  obtain ⟨_, h2, h3⟩ := inv cs m h
  unfold admits
  rw [h2, h3]
  exact ⟨rfl, rfl⟩

/-- The configuration of a service that rejects all clients, on an interface
with one address. -/
def demoConf : Conf :=
  { clients := ⟨[], [⟨List.replicate 16 0, AF_INET, 0⟩], true, false⟩,
    bindto := ⟨[⟨[10, 0, 0, 0, 0, 0, 0, 0, 0, 0, 0, 0, 0, 0, 0, 0], AF_INET, 8⟩], [], false, false⟩,
    port := 2009, all := [],
    on := some ⟨true, 2, unspec, [⟨[10, 0, 0, 1, 0, 0, 0, 0, 0, 0, 0, 0, 0, 0, 0, 0], AF_INET, 32⟩]⟩,
    ok4 := true, ok6 := true }

/-- The service listens, its access list rejects a client, and the client is
admitted. -/
example : (configured [demoConf]).map (fun m => (m.v4.bound, m.v6.bound)) =
      some (some ⟨2, [10, 0, 0, 1], 2009, 0⟩, none) ∧
    checkAccept demoConf.clients ⟨[10, 9, 9, 9, 0, 0, 0, 0, 0, 0, 0, 0, 0, 0, 0, 0], AF_INET, 32⟩ = some false ∧
    (configured [demoConf]).bind (fun m => admits m.v4 ⟨[10, 9, 9, 9, 0, 0, 0, 0, 0, 0, 0, 0, 0, 0, 0, 0], AF_INET, 32⟩) =
      some true := by decide +kernel

end Verif.Stream
