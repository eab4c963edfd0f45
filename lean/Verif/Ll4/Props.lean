import Verif.Ll4.Lemmas
/-
Properties C178 to C181: automatic IPv4 link-local addresses.
-/
namespace Verif.Ll4
open Verif.Netaddr Spec

/-! ### for the examples -/

/-- an IPv4 host address -/
def ip (p q r s : UInt8) : Netaddr := ⟨[p, q, r, s] ++ List.replicate 12 0, AF_INET, 32⟩
/-- the IPv6 address fe80::x -/
def fe80 (x : UInt8) : Netaddr := ⟨[0xfe, 0x80] ++ List.replicate 13 0 ++ [x], AF_INET6, 128⟩
/-- the IPv6 address 2001::x -/
def v2001 (x : UInt8) : Netaddr := ⟨[0x20, 0x01] ++ List.replicate 13 0 ++ [x], AF_INET6, 128⟩
/-- an interface without addresses and neighbors; the random generator returns 0, 1, 2, ... -/
def w0 : World := { rnd := some, v6 := fe80 1 }
/-- a plugin that is on -/
def on0 : State := { active := true, delay := 5, timer := some 5 }

/-! ### C178: the default address -/

theorem toNat_shl (h : UInt32) (n : Nat) (hn : n < 32) : (h <<< UInt32.ofNat n).toNat = shl h.toNat n := by
  rw [UInt32.toNat_shiftLeft, UInt32.toNat_ofNat', Nat.shiftLeft_eq]
  unfold shl
  rw [Nat.mod_eq_of_lt (show n < 2 ^ 32 by omega), Nat.mod_eq_of_lt hn]

theorem toNat_shr (h : UInt32) (n : Nat) (hn : n < 32) : (h >>> UInt32.ofNat n).toNat = shr h.toNat n := by
  rw [UInt32.toNat_shiftRight, UInt32.toNat_ofNat', Nat.shiftRight_eq_div_pow]
  unfold shr
  rw [Nat.mod_eq_of_lt (show n < 2 ^ 32 by omega), Nat.mod_eq_of_lt hn]

/-- For bytes below 128, and for all bytes where `char` is unsigned, the host part is Jenkins' hash, mapped to 256 … 65279. -/
theorem C178_hash_partial (signed : Bool) (a : Netaddr) (h : signed = true → ∀ b ∈ octetsOf a, b < 128) :
    hostPart signed a = oneAtATime (octetsOf a) % 65024 + 256 := by
  have key : ∀ (l : List UInt8) (g : UInt32), (signed = true → ∀ b ∈ l, b < 128) →
      (l.foldl (mix signed) g).toNat = l.foldl (fun h b => let h := (h + b.toNat) % 2 ^ 32; let h := (h + shl h 10) % 2 ^ 32; h ^^^ shr h 6) g.toNat := by
    intro l
    induction l with
    | nil => intro g _; rfl
    | cons b l ih =>
      intro g hl
      rw [List.foldl_cons, List.foldl_cons, ih _ (fun hs x hx => hl hs x (List.mem_cons_of_mem _ hx))]
      congr 1
      unfold mix
      have hb : (if signed && decide (128 ≤ b) then b.toUInt32 + 0xffffff00 else b.toUInt32) = b.toUInt32 := by
        apply if_neg
        intro hc
        simp at hc
        have h1 := hl hc.1 b List.mem_cons_self
        have h2 := hc.2
        rw [UInt8.lt_iff_toNat_lt] at h1
        rw [UInt8.le_iff_toNat_le] at h2
        omega
      rw [hb]
      have h10 := toNat_shl (g + b.toUInt32) 10 (by omega)
      have h6 := toNat_shr (g + b.toUInt32 + (g + b.toUInt32) <<< (10 : UInt32)) 6 (by omega)
      simp only [UInt32.toNat_xor, UInt32.toNat_add]
      have e10 : (UInt32.ofNat 10) = 10 := rfl
      have e6 : (UInt32.ofNat 6) = 6 := rfl
      rw [e10] at h10; rw [e6] at h6
      rw [h6]
      simp only [UInt32.toNat_add]
      rw [h10]
      simp only [UInt32.toNat_add, UInt8.toNat_toUInt32]
  unfold hostPart oneAtATime
  simp only
  have hk := key (octetsOf a) 0 h
  have h0 : (0 : UInt32).toNat = 0 := rfl
  rw [h0] at hk
  rw [← hk]
  show (finalMix ((octetsOf a).foldl (mix signed) 0)).toNat % (254 * 256) + 256 = _
  generalize (octetsOf a).foldl (mix signed) 0 = g
  unfold finalMix
  have h3 := toNat_shl g 3 (by omega)
  have h11 := toNat_shr (g + g <<< (3 : UInt32)) 11 (by omega)
  have h15 := toNat_shl ((g + g <<< (3 : UInt32)) ^^^ ((g + g <<< (3 : UInt32)) >>> (11 : UInt32))) 15 (by omega)
  have e3 : (UInt32.ofNat 3) = 3 := rfl
  have e11 : (UInt32.ofNat 11) = 11 := rfl
  have e15 : (UInt32.ofNat 15) = 15 := rfl
  rw [e3] at h3; rw [e11] at h11; rw [e15] at h15
  simp only [UInt32.toNat_add]
  rw [h15]
  simp only [UInt32.toNat_xor]
  rw [h11]
  simp only [UInt32.toNat_add]
  rw [h3]

/-- The default address of a node lies between 169.254.1.0 and 169.254.254.255. -/
theorem C178_range (signed : Bool) (v6 : Netaddr) (h : v6.type ≠ AF_UNSPEC) : Usable (defaultAddr signed v6) ∧ (defaultAddr signed v6).prefixLen = 32 := by
  unfold defaultAddr
  rw [if_neg h]
  exact ⟨linkLocal_usable _ (hostPart_range _ _).1 (hostPart_range _ _).2, by rw [linkLocal_eq]⟩

/-- An address collides with a neighbor known by an address that is not IPv4 exactly if it is the default address of that
neighbor, provided both nodes agree about `char`. -/
theorem C178_predicts_partial (signed : Bool) (x v6 : Netaddr) (hx : x.WF) (hcx : x.Clean) (hpx : x.prefixLen = 32) (hl : LinkLocal x) (hv : v6.WF) (hcv : v6.Clean)
    (h4 : v6.type ≠ AF_INET) (hu : v6.type ≠ AF_UNSPEC) : collides signed x v6 = true ↔ x = defaultAddr signed v6 := by
  rw [collides_iff signed x v6 hx hv hcx hcv hpx (fun h => absurd h h4) hl]
  unfold Claims defaultAddr
  rw [if_neg hu]
  have hp : Proper (fun _ => True) (linkLocal (hostPart signed v6)) := linkLocal_proper (fun _ _ => trivial) _ (hostPart_range _ _).1 (hostPart_range _ _).2
  constructor
  · rintro (h | h)
    · exact absurd h.1 h4
    · exact (v4_ext hp.1 hx hp.2.1 hcx hp.2.2.1 hpx h.2).symm
  · intro h
    right
    refine ⟨h4, proper_type hp, ?_, by rw [h]⟩
    rw [h]; exact proper_type hp

/-- Where `char` is signed the hash of a link-local IPv6 address differs from the one of a node where it is unsigned: this node
takes the very address the other one has for free. -/
theorem C178_char_counterexample : hostPart true (fe80 1) ≠ oneAtATime (octetsOf (fe80 1)) % 65024 + 256 ∧
    hostPart true (fe80 1) ≠ hostPart false (fe80 1) ∧
    hasCollision true [⟨[fe80 1], []⟩] (defaultAddr false (fe80 1)) = false := by decide +kernel

example : hostPart true (v2001 7) = oneAtATime (octetsOf (v2001 7)) % 65024 + 256 := C178_hash_partial true _ (by decide)
example : Usable (defaultAddr true (fe80 1)) := (C178_range true (fe80 1) (by decide)).1
example : defaultAddr true (fe80 1) ≠ defaultAddr true (fe80 2) := by decide +kernel
example : collides true (defaultAddr true (fe80 1)) (fe80 1) = true :=
  (C178_predicts_partial true _ (fe80 1) (by decide) (by unfold Netaddr.Clean; decide +kernel) (by decide) ⟨_, _, by decide, rfl⟩ (by decide) (by unfold Netaddr.Clean; decide +kernel) (by decide) (by decide)).2 rfl

/-! ### C179: a free address -/

/-- Whenever an address is set, in every history: the plugin is on, the interface is up, not the loopback and has no IPv4
address; the address is link-local with a prefix length of 16, and no neighbor and no two-hop neighbor claims it. -/
theorem C179_free (es : List Ev) (w : World) (fuel : Nat) (st st' : State) (cmds : List Cmd) (c : Cmd)
    (hf : ∀ w fuel, Ev.fire w fuel ∈ es → Hosts w) (hh : Hosts w) (hr : run es = some (st, cmds))
    (hs : step st (.fire w fuel) = some (st', some c)) (hc : c.set = true) :
    st.active = true ∧ w.up = true ∧ w.loopback = false ∧ v4 w = [] ∧ LinkLocal c.addr ∧ c.addr.prefixLen = 16 ∧ Free w c.addr := by
  have hm := run_mine (K := fun _ => True) (fun _ _ => trivial) es st cmds (fun w f h => ⟨hf w f h, fun _ _ _ => trivial⟩) hr
  rcases step_fire hs with h | ⟨_, st1, hu, _⟩
  · cases h.1
  · obtain ⟨h1, h2⟩ := update_cases (K := fun _ => True) (fun _ _ => trivial) hh (fun _ _ _ => trivial) (st := { st with timer := none }) hm hu
    have hup := h2 (by simp)
    generalize hcc : some c = c' at h1
    cases h1 with
    | quiet => cases hcc
    | lost => cases hcc
    | keep => cases hcc
    | withdraw => cases hcc; cases hc
    | replace => cases hcc; cases hc
    | assign b h3 h4 h5 h6 =>
      cases hcc
      exact ⟨h6, hup.1, hup.2, h3, h4.2.2.2.1, rfl, fun l hl n hn hcl => h5 l hl n hn hcl⟩

/-- Every address set lies between 169.254.1.0 and 169.254.254.255, as long as nobody else gives the interface link-local
addresses outside of this range. -/
theorem C179_range_partial (es : List Ev) (st : State) (cmds : List Cmd)
    (hf : ∀ w fuel, Ev.fire w fuel ∈ es → Hosts w ∧ ∀ a ∈ w.addrs, LinkLocal a → Usable a)
    (hr : run es = some (st, cmds)) (c : Cmd) (hc : c ∈ cmds) (hset : c.set = true) : Usable c.addr := by
  induction es generalizing st cmds with
  | nil => cases hr; cases hc
  | cons e es ih =>
    obtain ⟨st0, cmds0, c0, h1, h2, h3⟩ := run_cons hr
    have hf' : ∀ w fuel, Ev.fire w fuel ∈ es → Hosts w ∧ ∀ a ∈ w.addrs, LinkLocal a → Usable a := fun w f h => hf w f (List.mem_cons_of_mem _ h)
    rw [h3] at hc
    rcases List.mem_append.mp hc with hc | hc
    · have hm := run_mine (K := Usable) (fun _ h => h) es st0 cmds0 hf' h1
      have hc0 : c0 = some c := by cases c0 <;> simp at hc; rw [hc]
      subst hc0
      cases e with
      | fire w fuel =>
        obtain ⟨hh, hk⟩ := hf w fuel List.mem_cons_self
        rcases step_fire h2 with h | ⟨_, st1, hu, _⟩
        · cases h.1
        · have h1 := (update_cases (K := Usable) (fun _ h => h) hh hk (st := { st0 with timer := none }) hm hu).1
          generalize hcc : some c = c' at h1
          cases h1 with
          | quiet => cases hcc
          | lost => cases hcc
          | keep => cases hcc
          | withdraw => cases hcc; cases hset
          | replace => cases hcc; cases hset
          | assign b h3 h4 h5 h6 => cases hcc; exact h4.2.2.2.2
      | _ =>
        have := (step_other h2 (by intro _ _ h'; cases h')).2.2
        rcases this with h | h
        · cases h.1
        · have := h.2.2.2.2.2; cases this; cases hset
    · exact ih st0 cmds0 hf' h1 hc

/-- The search ends when a free address is drawn or the random generator fails. -/
theorem C179_ends_partial (w : World) (fuel : Nat) (st : State) (hh : Hosts w)
    (hj : ∃ j < fuel, w.rnd j = none ∨ ∃ r, w.rnd j = some r ∧ Free w (linkLocal (r % 65024 + 256))) : ∃ r, update w fuel st = some r := by
  obtain ⟨j, hj, h⟩ := hj
  have hp := pick_ends w fuel 0 (begin w st (current st.mine w.addrs)) ⟨j, by omega, by omega, by
    rcases h with h | ⟨r, h1, h2⟩
    · exact .inl h
    · have hp : Proper (fun _ => True) (linkLocal (r % 65024 + 256)) := linkLocal_proper (fun _ _ => trivial) _ (by omega) (by omega)
      exact .inr ⟨r, h1, (hasCollision_iff w _ hh hp.1 hp.2.1 hp.2.2.1 hp.2.2.2.1).2 h2⟩⟩
  unfold update
  simp only
  split
  · exact ⟨_, rfl⟩
  · split
    · split <;> exact ⟨_, rfl⟩
    · split
      · split <;> exact ⟨_, rfl⟩
      · split
        · exact ⟨_, rfl⟩
        · cases hpp : pick w fuel 0 (begin w st (current st.mine w.addrs)) with
          | hang => exact absurd hpp hp
          | found a => exact ⟨_, rfl⟩
          | noRandom a => exact ⟨_, rfl⟩

/-- If neighbors claim all 65024 addresses the daemon hangs. -/
theorem C179_endless_counterexample (w : World) (st : State) (hh : Hosts w) (hup : w.up = true ∧ w.loopback = false) (hact : st.active = true)
    (hno : v4 w = []) (hm : st.mine = unspec) (hr : ∀ i, (w.rnd i).isSome)
    (hall : ∀ x, Usable x → ¬ Free w x) (fuel : Nat) : update w fuel st = none := by
  have hw : ∀ a ∈ w.addrs, a.WF := fun a ha => (hh.1 a ha).1
  have hmw : st.mine.WF := by rw [hm]; rfl
  have hc0 : (current st.mine w.addrs).1 = 0 := by rw [current_count w st.mine hmw hw, hno]; rfl
  have hcol : ∀ n, 256 ≤ n → n < 65280 → hasCollision w.signed w.links (linkLocal n) = true := by
    intro n h1 h2
    have hp : Proper (fun _ => True) (linkLocal n) := linkLocal_proper (fun _ _ => trivial) _ h1 h2
    cases hx : hasCollision w.signed w.links (linkLocal n) with
    | true => rfl
    | false => exact absurd ((hasCollision_iff w _ hh hp.1 hp.2.1 hp.2.2.1 hp.2.2.2.1).1 hx) (hall _ (linkLocal_usable n h1 h2))
  have hb : hasCollision w.signed w.links (begin w st (current st.mine w.addrs)) = true := by
    unfold begin
    simp only
    rw [if_neg (by omega : ¬ (current st.mine w.addrs).1 = 1), if_pos (by rw [hm]; rfl)]
    unfold defaultAddr
    split
    · simp [hasCollision, unspec_type]
    · exact hcol _ (hostPart_range _ _).1 (hostPart_range _ _).2
  have hp := pick_hang w (fun r => hcol _ (by omega) (by omega)) hr fuel 0 _ hb
  unfold update
  simp only [hup.1, hup.2, hact, hc0, hp]
  simp

/-- An address outside of the range that somebody gave to the interface is adopted, and set again by the plugin after its owner removed it. -/
theorem C179_reserved_counterexample :
    (run [.fire w0 9, .change, .fire { w0 with addrs := [ip 169 254 0 7] } 9, .conf true 5]).map (·.2) = some [⟨true, { ip 169 254 0 7 with prefixLen := 16 }⟩] := by
  decide +kernel

example : Free { w0 with links := [⟨[fe80 2], [ip 169 254 9 9]⟩] } (ip 169 254 9 8) := by
  rintro l hl n hn (h | h)
  · simp at hl; subst hl; simp at hn
    rcases hn with rfl | rfl
    · exact absurd h.1 (by decide)
    · exact absurd h.2.2 (by decide)
  · simp at hl; subst hl; simp at hn
    rcases hn with rfl | rfl
    · exact absurd h.2.2.2 (by decide +kernel)
    · exact absurd rfl h.1

/-- the default address is taken by a two-hop neighbor: the first random number is used -/
example : (run [.fire { w0 with links := [⟨[], [defaultAddr true (fe80 1)]⟩] } 9, .conf true 5]).map (·.2) = some [⟨true, { ip 169 254 1 0 with prefixLen := 16 }⟩] := by
  decide +kernel
/-- an overcrowded network -/
example : ∀ fuel, update { w0 with links := [⟨(List.range 65024).map fun n => linkLocal (n + 256), []⟩] } fuel { active := true } = none := by
  refine C179_endless_counterexample _ _ ⟨by simp [w0], ?_⟩ (by decide) rfl rfl rfl (fun _ => rfl) ?_
  · intro l hl n hn
    simp at hl; subst hl
    simp at hn
    obtain ⟨k, hk, rfl⟩ := hn
    have hp : Proper (fun _ => True) (linkLocal (k + 256)) := linkLocal_proper (fun _ _ => trivial) _ (by omega) (by omega)
    exact ⟨hp.1, hp.2.1, fun _ => hp.2.2.1⟩
  · rintro x ⟨r, s, ⟨ht, ho⟩, h1, h2⟩ hfree
    rw [UInt8.le_iff_toNat_le] at h1 h2
    have h1 : 1 ≤ r.toNat := h1
    have h2 : r.toNat ≤ 254 := h2
    have hs := s.toNat_lt
    refine hfree _ List.mem_cons_self (linkLocal ((r.toNat * 256 + s.toNat - 256) + 256)) ?_ (.inl ⟨?_, ht, ?_⟩)
    · simp
      exact ⟨r.toNat * 256 + s.toNat - 256, by omega, rfl⟩
    · rw [linkLocal_eq]
    · rw [show r.toNat * 256 + s.toNat - 256 + 256 = r.toNat * 256 + s.toNat by omega, linkLocal_eq, ho]
      have e1 : UInt8.ofNat ((r.toNat * 256 + s.toNat) / 256) = r := by
        apply UInt8.toNat_inj.mp; rw [UInt8.toNat_ofNat']; omega
      have e2 : UInt8.ofNat (r.toNat * 256 + s.toNat) = s := by
        apply UInt8.toNat_inj.mp; rw [UInt8.toNat_ofNat']; omega
      rw [e1, e2]; rfl

/-! ### C180: the addresses of others -/

/-- Whatever is removed during an update is a link-local address of the interface: the one the plugin has set itself, because
the plugin was switched off or another IPv4 address was added, or the only IPv4 address of the interface, which collides. -/
theorem C180_removes_partial (es : List Ev) (w : World) (fuel : Nat) (st st' : State) (cmds : List Cmd) (c : Cmd)
    (hf : ∀ w fuel, Ev.fire w fuel ∈ es → Hosts w) (hh : Hosts w) (hr : run es = some (st, cmds))
    (hs : step st (.fire w fuel) = some (st', some c)) (hc : c.set = false) :
    ∃ a ∈ w.addrs, LinkLocal a ∧ c.addr = { a with prefixLen := 16 } ∧
      ((st.generated = true ∧ a = st.mine ∧ (st.active = false ∨ 2 ≤ (v4 w).length)) ∨ (st.active = true ∧ v4 w = [a] ∧ ¬ Free w a)) := by
  have hm := run_mine (K := fun _ => True) (fun _ _ => trivial) es st cmds (fun w f h => ⟨hf w f h, fun _ _ _ => trivial⟩) hr
  rcases step_fire hs with h | ⟨_, st1, hu, _⟩
  · cases h.1
  · obtain ⟨h1, _⟩ := update_cases (K := fun _ => True) (fun _ _ => trivial) hh (fun _ _ _ => trivial) (st := { st with timer := none }) hm hu
    generalize hcc : some c = c' at h1
    cases h1 with
    | quiet => cases hcc
    | lost => cases hcc
    | keep => cases hcc
    | withdraw h1 h2 h3 h4 => cases hcc; exact ⟨st.mine, h2, h3.2.2.2.1, rfl, .inl ⟨h1, rfl, h4⟩⟩
    | replace a b h1 h2 h3 h4 h5 h6 =>
      cases hcc
      have : a ∈ v4 w := by rw [h2]; exact List.mem_cons_self
      unfold v4 at this
      exact ⟨a, (List.mem_filter.mp this).1, h1.2.2.2.1, rfl, .inr ⟨h6, h2, h3⟩⟩
    | assign => cases hcc; cases hc

/-- An interface that has an IPv4 address gets no other one; if its only one is not link-local, nothing is done at all. -/
theorem C180_hands_off (es : List Ev) (w : World) (fuel : Nat) (st st' : State) (cmds : List Cmd) (c : Option Cmd)
    (hf : ∀ w fuel, Ev.fire w fuel ∈ es → Hosts w) (hh : Hosts w) (hr : run es = some (st, cmds))
    (hs : step st (.fire w fuel) = some (st', c)) :
    (v4 w ≠ [] → ∀ x, c ≠ some ⟨true, x⟩) ∧ ((∃ a, v4 w = [a] ∧ ¬ LinkLocal a) → c = none) := by
  constructor
  · intro hv x hc
    subst hc
    exact hv (C179_free es w fuel st st' cmds _ hf hh hr hs rfl).2.2.2.1
  · rintro ⟨a, hv, hl⟩
    cases c with
    | none => rfl
    | some c =>
      exfalso
      cases hcs : c.set with
      | true =>
        have := (C179_free es w fuel st st' cmds _ hf hh hr hs hcs).2.2.2.1
        rw [hv] at this; cases this
      | false =>
        obtain ⟨b, hb, hbl, _⟩ := C180_removes_partial es w fuel st st' cmds _ hf hh hr hs hcs
        obtain ⟨r, t, ht, ho⟩ := hbl
        have : b ∈ v4 w := by unfold v4; simp [hb, ht]
        rw [hv] at this
        simp at this
        subst this
        exact hl ⟨r, t, ht, ho⟩

/-- The plugin gives way: as soon as the interface has another IPv4 address, the one set by the plugin is removed. -/
theorem C180_gives_way (es : List Ev) (w : World) (fuel : Nat) (st : State) (cmds : List Cmd)
    (hf : ∀ w fuel, Ev.fire w fuel ∈ es → Hosts w) (hh : Hosts w) (hr : run es = some (st, cmds))
    (hup : w.up = true ∧ w.loopback = false) (halive : st.alive = true) (hact : st.active = true) (hgen : st.generated = true) (hp : st.pending = false)
    (ht : st.timer ≠ none) (hmem : st.mine ∈ w.addrs) (hv : 2 ≤ (v4 w).length) :
    ∃ st', step st (.fire w fuel) = some (st', some ⟨false, { st.mine with prefixLen := 16 }⟩) ∧ st'.generated = false := by
  have hm := run_mine (K := fun _ => True) (fun _ _ => trivial) es st cmds (fun w f h => ⟨hf w f h, fun _ _ _ => trivial⟩) hr
  rcases hm with hm | hm
  · rw [hm.2] at hgen; cases hgen
  · have hw : ∀ a ∈ w.addrs, a.WF := fun a ha => (hh.1 a ha).1
    have h1 := current_count w st.mine hm.1 hw
    have h2 := current_mine w st.mine hm.1 hw hmem hm.2.2.2.1
    have hgt : (current st.mine w.addrs).1 > 1 := by omega
    have hz := (cmp_zero hm.1 hm.1).2 rfl
    refine ⟨{ st with timer := none, cmd := ⟨false, { st.mine with prefixLen := 16 }⟩, generated := false, pending := true }, ?_, rfl⟩
    have hu : update w fuel { st with timer := none } = some (commit { st with timer := none } st.mine false) := by
      unfold update
      simp only [hup.1, hup.2, hact, hgen, h2, hgt, hz]
      simp
    unfold step
    simp only
    rw [if_neg ht]
    simp only [halive, Bool.not_true, Bool.false_eq_true, if_false]
    have e : ({ st with alive := st.alive, timer := none } : State) = { st with timer := none } := rfl
    rw [← halive, e, hu]
    simp only [Option.bind_some, commit, request, hp]
    simp [halive]

/-- A link-local address set by somebody else is removed if it collides, and replaced. -/
theorem C180_user_counterexample :
    (run [.fire { w0 with addrs := [ip 169 254 7 7], links := [⟨[ip 169 254 7 7], []⟩] } 9, .conf true 5]).map (·.2) =
      some [⟨false, { ip 169 254 7 7 with prefixLen := 16 }⟩] := by decide +kernel

/-- Somebody replaces the address set by the plugin by one of their own. Then the plugin is switched off: it removes this address. -/
theorem C180_replaced_counterexample :
    let d := defaultAddr true (fe80 1)
    (run [.fire { w0 with addrs := [ip 169 254 7 7] } 9, .conf false 5, .fire { w0 with addrs := [ip 169 254 7 7] } 9, .change, .answer .ok, .fire w0 9, .conf true 5]).map (·.2) =
      some [⟨false, { ip 169 254 7 7 with prefixLen := 16 }⟩, ⟨true, { d with prefixLen := 16 }⟩] ∧ d ≠ ip 169 254 7 7 := by decide +kernel

/-- The plugin is switched off while the interface has a second IPv4 address: the address set by the plugin stays. -/
theorem C180_stays_counterexample :
    let d := defaultAddr true (fe80 1)
    (run [.fire { w0 with addrs := [d, ip 10 0 0 1] } 9, .conf false 5, .answer .ok, .fire w0 9, .conf true 5]).map (fun r => (r.2, r.1.timer)) =
      some ([⟨true, { d with prefixLen := 16 }⟩], none) := by decide +kernel

/-- another address appears: the plugin withdraws its own -/
example : let d := defaultAddr true (fe80 1)
    (run [.fire { w0 with addrs := [ip 10 0 0 1, d] } 9, .change, .answer .ok, .fire w0 9, .conf true 5]).map (·.2) =
      some [⟨false, { d with prefixLen := 16 }⟩, ⟨true, { d with prefixLen := 16 }⟩] := by decide +kernel
/-- an interface with an address of its own is left alone -/
example : (run [.fire { w0 with addrs := [ip 10 0 0 1] } 9, .conf true 5]).map (·.2) = some [] := by decide +kernel

/-! ### C181: life cycle -/

/-- With a kernel that does as requested, an interface without IPv4 address or with a link-local one gets, within two updates, exactly
one IPv4 address: a link-local one no neighbor claims. Then nothing is requested any more. -/
theorem C181_settles (w : World) (fuel : Nat) (st : State) (hh : Hosts w) (hup : w.up = true ∧ w.loopback = false) (hact : st.active = true)
    (hm : (st.mine = unspec ∧ st.generated = false) ∨ (st.mine.WF ∧ st.mine.Clean ∧ st.mine.prefixLen = 32 ∧ LinkLocal st.mine))
    (hv : v4 w = [] ∨ ∃ a, v4 w = [a] ∧ LinkLocal a)
    (hr : ∀ i, (w.rnd i).isSome) (hj : ∃ j < fuel, ∃ r, w.rnd j = some r ∧ Free w (linkLocal (r % 65024 + 256))) :
    ∃ st1 as1 c1 st2 as2 c2, round w fuel st = some (st1, as1, c1) ∧ round { w with addrs := as1 } fuel st1 = some (st2, as2, c2) ∧
      (∃ x, v4 { w with addrs := as2 } = [x] ∧ LinkLocal x ∧ Free w x) ∧ round { w with addrs := as2 } fuel st2 = some (st2, as2, none) := by
  have hm' : Mine (fun _ => True) st := hm.imp id (fun h => ⟨h.1, h.2.1, h.2.2.1, h.2.2.2, trivial⟩)
  obtain ⟨⟨st1, c1⟩, hu⟩ := C179_ends_partial w fuel st hh (by
    obtain ⟨j, h1, r, h2, h3⟩ := hj
    exact ⟨j, h1, .inr ⟨r, h2, h3⟩⟩)
  have hcase := (update_cases (K := fun _ => True) (fun _ _ => trivial) hh (fun _ _ _ => trivial) hm' hu).1
  cases hcase with
  | quiet h =>
    exfalso
    rcases h with h | h | h | h | ⟨a, h, hl⟩
    · rw [hup.1] at h; cases h
    · rw [hup.2] at h; cases h
    · rw [hact] at h; cases h
    · rcases hv with hv | ⟨a, hv, _⟩ <;> (rw [hv] at h; simp at h)
    · rcases hv with hv | ⟨b, hv, hbl⟩
      · rw [hv] at h; cases h
      · rw [hv] at h; cases h; exact hl hbl
  | lost a h _ =>
    obtain ⟨i, hi⟩ := h
    have := hr i
    rw [hi] at this; cases this
  | withdraw _ _ _ h =>
    exfalso
    rcases h with h | h
    · rw [hact] at h; cases h
    · rcases hv with hv | ⟨a, hv, _⟩ <;> (rw [hv] at h; simp at h)
  | keep a ha hva hfa =>
    have hs := update_stays w fuel { st with mine := a } hh hup hact ha hva hfa
    have hr2 : round w fuel { st with mine := a } = some ({ st with mine := a }, w.addrs, none) := by
      unfold round; rw [hs]; rfl
    refine ⟨_, w.addrs, none, _, w.addrs, none, ?_, hr2, ⟨a, hva, ha.2.2.2.1, hfa⟩, hr2⟩
    unfold round; rw [hu]; rfl
  | assign b hv0 hb hfb _ =>
    obtain ⟨k1, k2, k3⟩ := kernel_set w b hb hh hv0
    have hs := update_stays { w with addrs := w.addrs ++ [b] } fuel (commit { st with mine := b } b true).1 k2 hup hact hb k3 hfb
    have hr2 : round { w with addrs := w.addrs ++ [b] } fuel (commit { st with mine := b } b true).1 = some ((commit { st with mine := b } b true).1, w.addrs ++ [b], none) := by
      unfold round; rw [hs]; rfl
    refine ⟨_, w.addrs ++ [b], some ⟨true, { b with prefixLen := 16 }⟩, _, w.addrs ++ [b], none, ?_, hr2, ⟨b, k3, hb.2.2.2.1, hfb⟩, hr2⟩
    unfold round; rw [hu]
    simp only [Option.map_some]
    rw [show (commit { st with mine := b } b true).2 = some ⟨true, { b with prefixLen := 16 }⟩ from rfl, k1]
  | replace a b ha hva hna hb hfb _ =>
    obtain ⟨k1, k2⟩ := kernel_remove w a hh hva
    have hs := update_sets _ fuel (commit { st with mine := b } a false).1 k1 hup hact hb k2 hfb
    obtain ⟨k3, k4, k5⟩ := kernel_set _ b hb k1 k2
    have hs2 := update_stays _ fuel (commit (commit { st with mine := b } a false).1 b true).1 k4 hup hact hb k5 hfb
    refine ⟨(commit { st with mine := b } a false).1, kernel w.addrs (some ⟨false, { a with prefixLen := 16 }⟩), some ⟨false, { a with prefixLen := 16 }⟩,
      (commit (commit { st with mine := b } a false).1 b true).1, kernel w.addrs (some ⟨false, { a with prefixLen := 16 }⟩) ++ [b],
      some ⟨true, { b with prefixLen := 16 }⟩, ?_, ?_, ⟨b, k5, hb.2.2.2.1, hfb⟩, ?_⟩
    · unfold round; rw [hu]; rfl
    · unfold round; rw [hs]
      simp only [Option.map_some]
      show some ((commit (commit { st with mine := b } a false).1 b true).1, kernel (kernel w.addrs (some ⟨false, { a with prefixLen := 16 }⟩)) (some ⟨true, { b with prefixLen := 16 }⟩), some (⟨true, { b with prefixLen := 16 }⟩ : Cmd)) = _
      have k3' : kernel (kernel w.addrs (some ⟨false, { a with prefixLen := 16 }⟩)) (some ⟨true, { b with prefixLen := 16 }⟩) = kernel w.addrs (some ⟨false, { a with prefixLen := 16 }⟩) ++ [b] := k3
      rw [k3']
    · unfold round; rw [hs2]; rfl

/-- the last request, as long as the interface exists -/
def Last (st : State) (cmds : List Cmd) : Prop := st.alive = true → st.generated = true → ∃ a rest, cmds = ⟨true, a⟩ :: rest ∧ st.cmd = ⟨true, a⟩

theorem run_last (es : List Ev) : ∀ st cmds, run es = some (st, cmds) → Last st cmds := by
  induction es with
  | nil => intro st cmds h; cases h; intro _ h; cases h
  | cons e es ih =>
    intro st' cmds' h
    obtain ⟨st, cmds, c, h1, h2, h3⟩ := run_cons h
    have ih := ih st cmds h1
    subst h3
    have other : (∀ w fuel, e ≠ .fire w fuel) → Last st' (c.toList ++ cmds) := by
      intro hf
      obtain ⟨_, hg, h⟩ := step_other h2 hf
      rcases h with ⟨rfl, hc, ha⟩ | h
      · intro ha' hg'
        rcases ha with ha | ha
        · rw [hc]; exact ih (ha ▸ ha') (hg ▸ hg')
        · rw [ha] at ha'; cases ha'
      · intro ha'; rw [h.2.1] at ha'; cases ha'
    cases e with
    | fire w fuel =>
      rcases step_fire h2 with ⟨rfl, _, hg, hc, ha, _⟩ | ⟨ha, st1, hu, _, hg, hc, ha1⟩
      · intro ha' hg'; rw [hc]; exact ih (ha ▸ ha') (hg ▸ hg')
      · intro _ hg'
        -- an update without request leaves the mark and the request alone
        have hcmd : ∀ (s : State) (a : Netaddr) (b : Bool), Last (commit s a b).1 ((commit s a b).2.toList ++ cmds) := by
          intro s a b _ hgen
          have hb : b = true := hgen
          subst hb
          exact ⟨_, _, rfl, rfl⟩
        have key : c = none ∧ st1.generated = st.generated ∧ st1.cmd = st.cmd ∨ ∃ s a b, (st1, c) = commit s a b ∧ s.alive = true := by
          unfold update at hu
          simp only at hu
          split at hu
          · cases hu; exact .inl ⟨rfl, rfl, rfl⟩
          · split at hu
            · split at hu
              · simp at hu; exact .inr ⟨_, _, _, hu.symm, ha⟩
              · cases hu; exact .inl ⟨rfl, rfl, rfl⟩
            · split at hu
              · split at hu
                · simp at hu; exact .inr ⟨_, _, _, hu.symm, ha⟩
                · cases hu; exact .inl ⟨rfl, rfl, rfl⟩
              · split at hu
                · cases hu; exact .inl ⟨rfl, rfl, rfl⟩
                · split at hu
                  · simp at hu
                    unfold conclude at hu
                    split at hu
                    · cases hu; exact .inl ⟨rfl, rfl, rfl⟩
                    · split at hu
                      · exact .inr ⟨_, _, _, hu.symm, ha⟩
                      · exact .inr ⟨_, _, _, hu.symm, ha⟩
                  · cases hu; exact .inl ⟨rfl, rfl, rfl⟩
                  · cases hu
        rcases key with ⟨rfl, k2, k3⟩ | ⟨s, a, b, k, hsa⟩
        · rw [hc, k3]; exact ih ha (by rw [← k2, ← hg]; exact hg')
        · have k1 : st1 = (commit s a b).1 := congrArg Prod.fst k
          have k2 : c = (commit s a b).2 := congrArg Prod.snd k
          rw [hc, k1, k2]
          exact hcmd s a b hsa (by rw [← k1, ← hg]; exact hg')
    | _ => exact other (by intro _ _ h'; cases h')

/-- When the interface is removed or the daemon ends, the address the plugin set last and did not remove yet is removed, provided
the plugin is on. -/
theorem C181_removed_partial (es : List Ev) (st : State) (cmds : List Cmd) (hr : run es = some (st, cmds)) (hal : st.alive = true) (hact : st.active = true)
    (hgen : st.generated = true) :
    ∃ a rest st', cmds = ⟨true, a⟩ :: rest ∧ step st .remove = some (st', some ⟨false, a⟩) := by
  obtain ⟨a, rest, h1, h2⟩ := run_last es st cmds hr hal hgen
  refine ⟨a, rest, { st with cmd := ⟨false, a⟩, active := false, timer := none, alive := false, pending := false }, h1, ?_⟩
  unfold step
  simp [hal, hact, hgen, h2]

theorem dead_step {st st' : State} {c : Option Cmd} {e : Ev} (hd : st.alive = false) (h : step st e = some (st', c)) : st'.alive = false ∧ c = none := by
  cases e with
  | fire w fuel =>
    rcases step_fire h with h | h
    · exact ⟨by rw [h.2.2.2.2.1, hd], h.1⟩
    · rw [hd] at h; cases h.1
  | _ =>
    obtain ⟨_, _, h⟩ := step_other h (by intro _ _ h'; cases h')
    rcases h with ⟨h1, _, h3⟩ | h
    · exact ⟨by rcases h3 with h3 | h3 <;> simp [h3, hd], h1⟩
    · rw [hd] at h; cases h.2.2.1

/-- After that nothing is requested any more. -/
theorem C181_silent (later earlier : List Ev) (st : State) (cmds : List Cmd) (h : run (later ++ .remove :: earlier) = some (st, cmds)) :
    ∃ st0, run (.remove :: earlier) = some (st0, cmds) := by
  have key : ∀ later st cmds, run (later ++ .remove :: earlier) = some (st, cmds) → st.alive = false ∧ ∃ st0, run (.remove :: earlier) = some (st0, cmds) := by
    intro later
    induction later with
    | nil =>
      intro st cmds h
      refine ⟨?_, st, h⟩
      obtain ⟨st0, cmds0, c, _, h2, _⟩ := run_cons h
      have := (step_other h2 (by intro _ _ h'; cases h')).2.2
      unfold step at h2
      simp only at h2
      split at h2
      · rename_i ha; cases h2; simpa using ha
      · cases h2; rfl
    | cons e later ih =>
      intro st cmds h
      obtain ⟨st0, cmds0, c, h1, h2, h3⟩ := run_cons h
      obtain ⟨hd, s0, hs0⟩ := ih st0 cmds0 h1
      obtain ⟨hd', rfl⟩ := dead_step hd h2
      exact ⟨hd', s0, by rw [h3]; exact hs0⟩
  exact (key later st cmds h).2

/-- The plugin is switched off, and the interface removed (or the daemon ended) before the next update: the address stays. -/
theorem C181_leak_counterexample :
    let d := defaultAddr true (fe80 1)
    (run [.remove, .conf false 5, .answer .ok, .fire w0 9, .conf true 5]).map (fun r => (r.2, r.1.timer)) = some ([⟨true, { d with prefixLen := 16 }⟩], none) := by decide +kernel

/-- With a delay of zero the timer does not start: there is no address until something else changes. -/
theorem C181_delay_counterexample (w : World) (fuel : Nat) : (run [.fire w fuel, .conf true 0]).map (fun r => (r.2, r.1.timer)) = some ([], none) := rfl

/-- A request is not answered before the next update, the plugin has the same request to make: the list of open requests is destroyed. -/
theorem C181_twice_counterexample : run [.fire w0 9, .change, .fire w0 9, .conf true 5] = none := by decide +kernel

example : ∃ st1 as1 c1 st2 as2 c2, round { w0 with addrs := [ip 169 254 7 7], links := [⟨[ip 169 254 7 7], []⟩] } 9 { active := true } = some (st1, as1, c1) ∧
    round { w0 with addrs := as1, links := [⟨[ip 169 254 7 7], []⟩] } 9 st1 = some (st2, as2, c2) ∧ as1 = [] ∧ as2 = [ip 169 254 1 0] :=
  ⟨_, _, _, _, _, _, rfl, rfl, by decide +kernel, by decide +kernel⟩
example : (run [.remove, .answer .ok, .fire w0 9, .conf true 5]).map (·.2) =
    some [⟨false, { defaultAddr true (fe80 1) with prefixLen := 16 }⟩, ⟨true, { defaultAddr true (fe80 1) with prefixLen := 16 }⟩] := by decide +kernel
/-- errors are answered with a new attempt after a second -/
example : (run [.answer .other, .fire w0 9, .conf true 5]).map (·.1.timer) = some (some 1000) := by decide +kernel

end Verif.Ll4
