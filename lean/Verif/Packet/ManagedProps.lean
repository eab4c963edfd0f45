import Verif.Packet.Managed
/-
C170: managed UDP sockets follow the configuration and the interface.
-/
namespace Verif.Packet

/-! ## Specification -/

/-- A socket is open at an address and port on an interface. -/
def OpenAt (s : PSock) (a : Addr) (port : Nat) (i : Iface) : Prop :=
  s.opened = true ∧ s.loc = ⟨some a, port, i.index⟩ ∧ s.iface = i.index

/-- The sockets are where the configuration `c` for the interface `i` wants them to be if the unicast
address is `b`: unicast at `b`; if there is a multicast group (never on the loopback interface), a
socket at the group, on the configured port or that of unicast; otherwise no second socket. Packets
for "multicast" go to the group, the configured broadcast address, or to oneself on the loopback
interface; without such an address nowhere. -/
structure Placed (c : Cfg) (i : Iface) (b : Addr) (p : Pair) : Prop where
  uni : OpenAt p.uni b c.port i
  group : ∀ g, c.group = some g → g.group = true → i.loopback = false →
    OpenAt p.mc g (if c.mcPort = 0 then c.port else c.mcPort) i
  broadcast : ∀ g, c.group = some g → g.group = false → i.loopback = false →
    p.mc.opened = false ∧ p.mc.loc = ⟨some g, if c.mcPort = 0 then c.port else c.mcPort, i.index⟩
  loopback : ∀ g, c.group = some g → i.loopback = true →
    p.mc.opened = false ∧ p.mc.loc = ⟨some b, if c.mcPort = 0 then c.port else c.mcPort, i.index⟩
  nowhere : c.group = none → p.mc.opened = false ∧ p.mc.loc.addr = none

/-- The options of the sockets are the configured ones. -/
structure Options (c : Cfg) (i : Iface) (p : Pair) : Prop where
  dscp : p.uni.dscp = c.dscp
  kind : p.uni.raw = (c.proto != 0)
  send : ∀ g, c.group = some g → g.group = true → i.loopback = false → p.uni.mcast = some (c.loop, c.ttl)
  mcDscp : p.mc.opened = true → p.mc.dscp = c.dscp ∧ p.mc.raw = (c.proto != 0)
  member : p.mc.opened = true → p.mc.member = true

/-- No configuration of the history asks for raw sockets. -/
def AllUdp (h : List (Cfg × Iface × Sys)) : Prop := ∀ x ∈ h, x.1.proto = 0

/-! ## Lemmas -/

theorem applySock_proto (s : PSock) (l : Loc) (i : Iface) (c : Cfg) (ok : Bool) (hc : c.proto = 0)
    (hs : s.proto = 0) : (applySock s l i c ok).1.proto = 0 := by
  unfold applySock
  split
  · exact hs
  · split
    · show (if c.proto = 0 then s.proto else c.proto) = 0
      rw [if_pos hc]; exact hs
    · exact hs

theorem applyUni_proto (s : PSock) (i : Iface) (c : Cfg) (b : Addr) (real ok : Bool) (hc : c.proto = 0)
    (hs : s.proto = 0) : (applyUni s c i b real ok).1.proto = 0 := by
  have h := applySock_proto s ⟨some b, c.port, i.index⟩ i c ok hc hs
  unfold applyUni
  generalize applySock s ⟨some b, c.port, i.index⟩ i c ok = r at h ⊢
  obtain ⟨u, r⟩ := r
  cases r with
  | kept => exact h
  | failed => exact h
  | fresh =>
    simp only
    split
    · exact h
    · exact h

theorem applyPair_proto (p : Pair) (c : Cfg) (i : Iface) (y : Sys) (hc : c.proto = 0)
    (h1 : p.uni.proto = 0) (h2 : p.mc.proto = 0) :
    (applyPair p c i y).1.uni.proto = 0 ∧ (applyPair p c i y).1.mc.proto = 0 := by
  unfold applyPair
  split
  · exact ⟨h1, h2⟩
  · rename_i b _
    simp only
    have hu := applyUni_proto p.uni i c b ((groupOf c i b).any (·.group)) y.okUni hc h1
    have hm := applySock_proto p.mc ⟨groupOf c i b, mcPortOf c, i.index⟩ i c y.okMc hc h2
    split
    · generalize applySock p.mc ⟨groupOf c i b, mcPortOf c, i.index⟩ i c y.okMc = r at hm ⊢
      obtain ⟨m, r⟩ := r
      cases r <;> exact ⟨hu, hm⟩
    · exact ⟨hu, h2⟩

theorem history_proto (h : List (Cfg × Iface × Sys)) (hu : AllUdp h) :
    (history h).uni.proto = 0 ∧ (history h).mc.proto = 0 := by
  induction h with
  | nil => exact ⟨rfl, rfl⟩
  | cons x h ih =>
    obtain ⟨c, i, y⟩ := x
    have := ih (fun x hx => hu x (List.mem_cons_of_mem _ hx))
    exact applyPair_proto _ c i y (hu (c, i, y) (List.mem_cons_self ..)) this.1 this.2

/-- A socket which could be opened is where it should be. -/
theorem applySock_open (s : PSock) (a : Addr) (port : Nat) (i : Iface) (c : Cfg) (ok : Bool)
    (h : (applySock s ⟨some a, port, i.index⟩ i c ok).2 ≠ .failed) :
    OpenAt (applySock s ⟨some a, port, i.index⟩ i c ok).1 a port i := by
  unfold applySock at h ⊢
  split
  · rename_i hk
    exact ⟨hk.1, hk.2.2.1.symm, hk.2.1.symm⟩
  · rename_i hk
    rw [if_neg hk] at h
    split
    · exact ⟨rfl, rfl, rfl⟩
    · rename_i ho
      rw [if_neg ho] at h
      exact absurd rfl h

theorem applySock_ok (s : PSock) (l : Loc) (i : Iface) (c : Cfg) : (applySock s l i c true).2 ≠ .failed := by
  unfold applySock
  split
  · exact (fun h => nomatch h)
  · rw [if_pos rfl]; exact (fun h => nomatch h)

theorem applyUni_open (s : PSock) (i : Iface) (c : Cfg) (b : Addr) (real : Bool) :
    OpenAt (applyUni s c i b real true).1 b c.port i ∧ (applyUni s c i b real true).2 ≠ .failed ∧
      (applyUni s c i b real true).2 = (applySock s ⟨some b, c.port, i.index⟩ i c true).2 := by
  have h1 := applySock_ok s ⟨some b, c.port, i.index⟩ i c
  have h2 := applySock_open s b c.port i c true h1
  unfold applyUni
  generalize applySock s ⟨some b, c.port, i.index⟩ i c true = r at h1 h2 ⊢
  obtain ⟨u, r⟩ := r
  cases r with
  | kept => exact ⟨h2, h1, rfl⟩
  | failed => exact absurd rfl h1
  | fresh =>
    refine ⟨?_, h1, rfl⟩
    simp only
    split
    · exact h2
    · exact h2

/-- A group for multicast: not on the loopback interface, unless the unicast address is one. -/
theorem groupOf_real {c : Cfg} {i : Iface} {b : Addr} (hb : b.group = false) :
    ((groupOf c i b).any (·.group) = true ↔ ∃ g, c.group = some g ∧ g.group = true ∧ i.loopback = false) := by
  unfold groupOf
  by_cases hl : i.loopback = true
  · by_cases hg : c.group.isSome = true
    · rw [if_pos ⟨hl, hg⟩]
      simp [hb, hl]
    · rw [if_neg (by simp [hg])]
      have : c.group = none := by cases h : c.group <;> simp_all
      simp [this]
  · have hl' : i.loopback = false := by cases h : i.loopback <;> simp_all
    rw [if_neg (by simp [hl'])]
    cases h : c.group <;> simp [hl']

theorem groupOf_plain {c : Cfg} {i : Iface} {b : Addr} (hl : i.loopback = false) : groupOf c i b = c.group := by
  unfold groupOf; rw [if_neg (by simp [hl])]

theorem groupOf_loop {c : Cfg} {i : Iface} {b g : Addr} (hl : i.loopback = true) (hg : c.group = some g) :
    groupOf c i b = some b := by
  unfold groupOf; rw [if_pos ⟨hl, by simp [hg]⟩]

theorem groupOf_none {c : Cfg} {i : Iface} {b : Addr} (hg : c.group = none) : groupOf c i b = none := by
  unfold groupOf; rw [if_neg (by simp [hg])]; exact hg

/-- A socket treated the second time is not opened anew. -/
theorem applySock_again (s s' : PSock) (l : Loc) (i : Iface) (c : Cfg) (ok : Bool) (hc : c.proto = 0)
    (hp : s'.proto = 0) (e1 : s'.opened = (applySock s l i c ok).1.opened)
    (e2 : s'.loc = (applySock s l i c ok).1.loc) (e3 : s'.iface = (applySock s l i c ok).1.iface) :
    (applySock s' l i c ok).2 ≠ .fresh := by
  have key : (s'.opened = true ∧ i.index = s'.iface ∧ l = s'.loc ∧ c.proto = s'.proto) ∨ (s'.opened = false ∧ ok = false) := by
    unfold applySock at e1 e2 e3
    split at e1
    · rename_i hk
      rw [if_pos hk] at e2 e3
      exact .inl ⟨e1.trans hk.1, hk.2.1.trans e3.symm, hk.2.2.1.trans e2.symm, by rw [hc, hp]⟩
    · rename_i hk
      split at e1
      · rename_i ho
        rw [if_neg hk, if_pos ho] at e2 e3
        exact .inl ⟨e1, e3.symm, e2.symm, by rw [hc, hp]⟩
      · rename_i ho
        exact .inr ⟨e1, by simpa using ho⟩
  unfold applySock
  rcases key with h | ⟨h1, h2⟩
  · rw [if_pos h]; exact (fun h => nomatch h)
  · rw [if_neg (by simp [h1]), if_neg (by simp [h2])]; exact (fun h => nomatch h)

theorem applyUni_res (s : PSock) (c : Cfg) (i : Iface) (b : Addr) (real ok : Bool) :
    (applyUni s c i b real ok).2 = (applySock s ⟨some b, c.port, i.index⟩ i c ok).2 ∧
    (applyUni s c i b real ok).1.opened = (applySock s ⟨some b, c.port, i.index⟩ i c ok).1.opened ∧
    (applyUni s c i b real ok).1.loc = (applySock s ⟨some b, c.port, i.index⟩ i c ok).1.loc ∧
    (applyUni s c i b real ok).1.iface = (applySock s ⟨some b, c.port, i.index⟩ i c ok).1.iface := by
  have hfail : (applySock s ⟨some b, c.port, i.index⟩ i c ok).2 = .failed → (applySock s ⟨some b, c.port, i.index⟩ i c ok).1.opened = false := by
    unfold applySock
    split
    · exact (fun h => nomatch h)
    · split
      · exact (fun h => nomatch h)
      · exact (fun _ => rfl)
  unfold applyUni
  generalize applySock s ⟨some b, c.port, i.index⟩ i c ok = r at hfail ⊢
  obtain ⟨u, r⟩ := r
  cases r with
  | kept => exact ⟨rfl, rfl, rfl, rfl⟩
  | failed => exact ⟨rfl, (hfail rfl).symm, rfl, rfl⟩
  | fresh =>
    cases real <;> exact ⟨rfl, rfl, rfl, rfl⟩

theorem applyUni_again (s : PSock) (c : Cfg) (i : Iface) (b : Addr) (real ok : Bool) (hc : c.proto = 0)
    (hs : s.proto = 0) : ((applyUni (applyUni s c i b real ok).1 c i b real ok).2 == .fresh) = false := by
  obtain ⟨-, h1, h2, h3⟩ := applyUni_res s c i b real ok
  rw [(applyUni_res (applyUni s c i b real ok).1 c i b real ok).1]
  have := applySock_again s (applyUni s c i b real ok).1 ⟨some b, c.port, i.index⟩ i c ok hc
    (applyUni_proto s i c b real ok hc hs) h1 h2 h3
  simpa using this

theorem applyUni_closed (s : PSock) (c : Cfg) (i : Iface) (b : Addr) (real : Bool) :
    ((applyUni (closed s) c i b real false).2 == .fresh) = false := by
  rw [(applyUni_res (closed s) c i b real false).1]
  unfold applySock
  rw [if_neg (by simp [closed]), if_neg (by decide)]
  rfl

/-! ## C170 -/

/-- **C170, the right places.** Whatever the sockets were before: if the interface is up with an
address that fits (`b`, not a multicast address) and the sockets can be opened, they are where the
configuration wants them; if not, both are closed. Missing: failures, options and notification, see
the counterexamples. -/
theorem C170_places_partial (p : Pair) (c : Cfg) (i : Iface) (y : Sys) :
    (∀ b, y.bind = some b → b.group = false → y.okUni = true → y.okMc = true →
      Placed c i b (applyPair p c i y).1 ∧ (applyPair p c i y).2.2 = true) ∧
    (y.bind = none → (applyPair p c i y).1.uni.opened = false ∧ (applyPair p c i y).1.mc.opened = false) := by
  constructor
  · intro b hb hg hu hm
    unfold applyPair
    rw [hb]
    simp only
    rw [hu, hm]
    obtain ⟨huo, huf, _⟩ := applyUni_open p.uni i c b ((groupOf c i b).any (·.group))
    by_cases hr : (groupOf c i b).any (·.group) = true
    · rw [if_pos hr]
      obtain ⟨g, h1, h2, h3⟩ := (groupOf_real hg).mp hr
      have hgo : groupOf c i b = some g := by rw [groupOf_plain h3]; exact h1
      rw [hgo] at huo huf ⊢
      have hmf := applySock_ok p.mc ⟨some g, mcPortOf c, i.index⟩ i c
      have hmo := applySock_open p.mc g (mcPortOf c) i c true hmf
      generalize applySock p.mc ⟨some g, mcPortOf c, i.index⟩ i c true = r at hmf hmo ⊢
      obtain ⟨m, r⟩ := r
      have hmo' : OpenAt m g (mcPortOf c) i := hmo
      have hpl : ∀ m', OpenAt m' g (mcPortOf c) i → Placed c i b ⟨(applyUni p.uni c i b (Option.any (fun x => x.group) (some g)) true).1, m'⟩ := by
        intro m' hm'
        refine ⟨huo, ?_, ?_, ?_, ?_⟩
        · intro g' e _ _
          rw [h1] at e; injection e with e; subst e
          exact hm'
        · intro g' e e2 _
          rw [h1] at e; injection e with e; subst e
          rw [h2] at e2; cases e2
        · intro g' _ e2
          rw [h3] at e2; cases e2
        · intro e; rw [h1] at e; cases e
      have hne : (applyUni p.uni c i b (Option.any (fun x => x.group) (some g)) true).2 != .failed := by simpa using huf
      cases r with
      | failed => exact absurd rfl hmf
      | kept => exact ⟨hpl m hmo', hne⟩
      | fresh => exact ⟨hpl { m with member := true } hmo', hne⟩
    · have hr' : (groupOf c i b).any (·.group) = false := by simpa using hr
      rw [if_neg hr]
      refine ⟨⟨huo, ?_, ?_, ?_, ?_⟩, by simpa using huf⟩
      · intro g h1 h2 h3
        exact absurd ((groupOf_real hg).mpr ⟨g, h1, h2, h3⟩) hr
      · intro g h1 h2 h3
        rw [groupOf_plain h3, h1]
        exact ⟨rfl, rfl⟩
      · intro g h1 h2
        rw [groupOf_loop h2 h1]
        exact ⟨rfl, rfl⟩
      · intro h1
        rw [groupOf_none h1]
        exact ⟨rfl, rfl⟩
  · intro hb
    unfold applyPair
    rw [hb]
    exact ⟨rfl, rfl⟩

/-- **C170, options of new sockets.** If both sockets were closed before and can be opened, all
options are the configured ones (for a unicast address on an interface). -/
theorem C170_options_partial (p : Pair) (c : Cfg) (i : Iface) (y : Sys) (b : Addr) (hb : y.bind = some b)
    (hg : b.group = false) (hu : y.okUni = true) (hm : y.okMc = true) (h1 : p.uni.opened = false)
    (h2 : p.mc.opened = false) : Options c i (applyPair p c i y).1 := by
  have hs : ∀ (s : PSock) (l : Loc), s.opened = false → applySock s l i c true = (newSock s l i c, .fresh) := by
    intro s l h
    unfold applySock
    rw [if_neg (by simp [h]), if_pos rfl]
  unfold applyPair
  rw [hb]
  simp only
  rw [hu, hm]
  unfold applyUni
  rw [hs _ _ h1, hs _ _ h2]
  by_cases hr : (groupOf c i b).any (·.group) = true
  · rw [if_pos hr]
    simp only [hr, if_true]
    exact ⟨rfl, rfl, (fun _ _ _ _ => rfl), (fun _ => ⟨rfl, rfl⟩), (fun _ => rfl)⟩
  · rw [if_neg hr]
    simp only [hr, Bool.false_eq_true, if_false]
    refine ⟨rfl, rfl, ?_, ?_, ?_⟩
    · intro g e1 e2 e3
      exact absurd ((groupOf_real hg).mpr ⟨g, e1, e2, e3⟩) hr
    · intro h; cases h
    · intro h; cases h

/-- An example with a group, the port of unicast for both. -/
example : (applyPair {} ⟨269, 0, some ⟨7, true⟩, 192, false, 1, 0⟩ ⟨3, false⟩ ⟨some ⟨5, false⟩, true, true⟩) =
    (⟨⟨true, ⟨some ⟨5, false⟩, 269, 3⟩, 3, 0, false, 0, 192, some (false, 1), false⟩,
      ⟨true, ⟨some ⟨7, true⟩, 269, 3⟩, 3, 0, false, 0, 192, none, true⟩⟩, true, true) := by decide

/-- **C170, it settles.** With UDP sockets only, and if not just the multicast socket fails, applying a
configuration a second time changes nothing: the chain of calls through the notification ends after
two rounds. Missing: the other cases, see the counterexamples. -/
theorem C170_settles_partial (h : List (Cfg × Iface × Sys)) (hu : AllUdp h) (c : Cfg) (hc : c.proto = 0)
    (i : Iface) (y : Sys) (hy : y.okMc = true ∨ y.okUni = false) (n : Nat) :
    ∃ p, settle (n + 2) (history h) c i y = some p := by
  obtain ⟨hp1, hp2⟩ := history_proto h hu
  generalize history h = p at hp1 hp2
  have second : (applyPair (applyPair p c i y).1 c i y).2.1 = false := by
    unfold applyPair
    cases hb : y.bind with
    | none => rfl
    | some b =>
      simp only
      have hua := applyUni_again p.uni c i b ((groupOf c i b).any (·.group)) y.okUni hc hp1
      by_cases hr : (groupOf c i b).any (·.group) = true
      · rw [if_pos hr, if_pos hr]
        have hma := applySock_again p.mc { (applySock p.mc ⟨groupOf c i b, mcPortOf c, i.index⟩ i c y.okMc).1 with member := true } ⟨groupOf c i b, mcPortOf c, i.index⟩ i c y.okMc hc
          (applySock_proto _ _ _ _ _ hc hp2) rfl rfl rfl
        have hmb := applySock_again p.mc (applySock p.mc ⟨groupOf c i b, mcPortOf c, i.index⟩ i c y.okMc).1 ⟨groupOf c i b, mcPortOf c, i.index⟩ i c y.okMc hc
          (applySock_proto _ _ _ _ _ hc hp2) rfl rfl rfl
        have hok : (applySock p.mc ⟨groupOf c i b, mcPortOf c, i.index⟩ i c y.okMc).2 = .failed → y.okUni = false := by
          intro hf
          rcases hy with h1 | h1
          · rw [h1] at hf
            exact absurd hf (applySock_ok _ _ _ _)
          · exact h1
        have fin : ∀ (u m : PSock × Res), m.2 ≠ .fresh → (u.2 == .fresh) = false → (combine u m).2.1 = false := by
          intro u m h1 h2
          obtain ⟨m, q⟩ := m
          cases q with
          | fresh => exact absurd rfl h1
          | failed => exact h2
          | kept => exact h2
        generalize hm : applySock p.mc ⟨groupOf c i b, mcPortOf c, i.index⟩ i c y.okMc = r at hma hmb hok ⊢
        obtain ⟨m, r⟩ := r
        cases r with
        | fresh => exact fin _ _ hma hua
        | kept => exact fin _ _ hmb hua
        | failed =>
          refine fin _ _ hmb ?_
          rw [hok rfl]
          exact applyUni_closed _ c i b _
      · rw [if_neg hr, if_neg hr]
        exact hua
  show ∃ q, settle ((n + 1) + 1) p c i y = some q
  unfold settle
  simp only
  by_cases h1 : (applyPair p c i y).2.1 = true
  · rw [if_pos h1]
    unfold settle
    simp only
    rw [second]
    exact ⟨_, rfl⟩
  · rw [if_neg h1]
    exact ⟨_, rfl⟩

/-- **C170 is false if only the multicast socket cannot be opened**, for instance because of its port:
the unicast socket is opened, closed again because of the other one, and reported as changed, which
makes RFC5444 interfaces start all over, to any depth. -/
theorem C170_endless_counterexample (p : Pair) (c : Cfg) (i : Iface) (b g : Addr) (hc : c.group = some g)
    (hg : g.group = true) (hl : i.loopback = false) (h1 : p.uni.opened = false) (h2 : p.mc.opened = false)
    (n : Nat) : settle n p c i ⟨some b, true, false⟩ = none := by
  induction n generalizing p with
  | zero => rfl
  | succ n ih =>
    have hgo : groupOf c i b = some g := by rw [groupOf_plain hl]; exact hc
    have hreal : (groupOf c i b).any (·.group) = true := by rw [hgo]; exact hg
    have hu : applySock p.uni ⟨some b, c.port, i.index⟩ i c true = (newSock p.uni ⟨some b, c.port, i.index⟩ i c, .fresh) := by
      unfold applySock; rw [if_neg (by simp [h1]), if_pos rfl]
    have hm : applySock p.mc ⟨groupOf c i b, mcPortOf c, i.index⟩ i c false = (closed p.mc, .failed) := by
      unfold applySock; rw [if_neg (by simp [h2]), if_neg (by decide)]
    have ha : ∃ u, applyPair p c i ⟨some b, true, false⟩ = (⟨closed u, closed p.mc⟩, true, false) := by
      unfold applyPair
      simp only
      rw [if_pos hreal, hm]
      unfold applyUni
      rw [hu]
      exact ⟨_, rfl⟩
    obtain ⟨u, ha⟩ := ha
    unfold settle
    simp only [ha, if_true]
    exact ih ⟨closed u, closed p.mc⟩ rfl rfl

/-- For instance: no permission for port 269, a random port for unicast. -/
example : settle 50 {} ⟨0, 269, some ⟨7, true⟩, 192, false, 1, 0⟩ ⟨3, false⟩ ⟨some ⟨5, false⟩, true, false⟩ = none := by
  decide +kernel

/-- **C170 is false behind a raw socket**: when the configuration goes back to UDP, the socket keeps
the protocol number. It is closed and opened again whenever the configuration is applied, and every
time this is reported as a change, to any depth. -/
theorem C170_raw_counterexample (p : Pair) (c : Cfg) (i : Iface) (b : Addr) (hc : c.proto = 0)
    (hp : p.uni.proto ≠ 0) (hg : c.group = none) (n : Nat) : settle n p c i ⟨some b, true, true⟩ = none := by
  induction n generalizing p with
  | zero => rfl
  | succ n ih =>
    have hgo : groupOf c i b = none := groupOf_none hg
    have hu : applySock p.uni ⟨some b, c.port, i.index⟩ i c true = (newSock p.uni ⟨some b, c.port, i.index⟩ i c, .fresh) := by
      unfold applySock
      rw [if_neg (by intro h; exact hp (h.2.2.2.symm.trans hc)), if_pos rfl]
    have ha : ∃ m, applyPair p c i ⟨some b, true, true⟩ = (⟨newSock p.uni ⟨some b, c.port, i.index⟩ i c, m⟩, true, true) := by
      unfold applyPair
      simp only
      rw [hgo]
      unfold applyUni
      rw [hu]
      exact ⟨_, rfl⟩
    obtain ⟨m, ha⟩ := ha
    unfold settle
    simp only [ha, if_true]
    refine ih _ ?_
    show (if c.proto = 0 then p.uni.proto else c.proto) ≠ 0
    rw [if_pos hc]; exact hp

/-- **C170 is false for the protocol of raw sockets**: the kernel is asked for protocol 0, not for the
configured one. -/
theorem C170_protocol_counterexample (s : PSock) (l : Loc) (i : Iface) (c : Cfg) (hc : c.proto ≠ 0)
    (s' : PSock) (h : applySock s l i c true = (s', .fresh)) : s'.raw = true ∧ s'.kproto ≠ c.proto := by
  unfold applySock at h
  split at h
  · injection h with _ h; cases h
  · rw [if_pos rfl] at h
    injection h with h _
    subst h
    exact ⟨by show (c.proto != 0) = true; simpa using hc, fun e => hc e.symm⟩

/-- **C170 is false for options of open sockets**: if the addresses stay, other values for DSCP, loop
and TTL have no effect. -/
theorem C170_options_counterexample (p : Pair) (c : Cfg) (i : Iface) (b : Addr) (ok1 ok2 : Bool)
    (h1 : OpenAt p.uni b c.port i) (h2 : c.proto = p.uni.proto) (hg : c.group = none) :
    (applyPair p c i ⟨some b, ok1, ok2⟩).1.uni = p.uni ∧ (applyPair p c i ⟨some b, ok1, ok2⟩).2 = (false, true) := by
  have hu : applySock p.uni ⟨some b, c.port, i.index⟩ i c ok1 = (p.uni, .kept) := by
    unfold applySock
    rw [if_pos ⟨h1.1, h1.2.2.symm, h1.2.1.symm, h2⟩]
  unfold applyPair
  simp only
  rw [groupOf_none hg]
  unfold applyUni
  rw [hu]
  exact ⟨rfl, rfl⟩

/-- The configuration may ask for another DSCP there. -/
example : ∃ (p : Pair) (c : Cfg) (i : Iface) (b : Addr), OpenAt p.uni b c.port i ∧ c.proto = p.uni.proto ∧
    c.group = none ∧ p.uni.dscp ≠ c.dscp :=
  ⟨⟨⟨true, ⟨some ⟨5, false⟩, 269, 3⟩, 3, 0, false, 0, 192, none, false⟩, {}⟩, ⟨269, 0, none, 46, false, 1, 0⟩, ⟨3, false⟩,
    ⟨5, false⟩, ⟨rfl, rfl, rfl⟩, rfl, rfl, by decide⟩

/-- **C170 is false for the notification**: if the interface goes down, the sockets are closed, but the
owner is told that nothing changed. -/
theorem C170_silent_counterexample (p : Pair) (c : Cfg) (i : Iface) (ok1 ok2 : Bool) :
    (applyPair p c i ⟨none, ok1, ok2⟩).2.1 = false ∧ (applyPair p c i ⟨none, ok1, ok2⟩).1.uni.opened = false :=
  ⟨rfl, rfl⟩

/-- **C170, the interface.** As long as no configuration had an empty name of the interface, the
listener belongs to the interface of the newest configuration. Missing: behind an empty name, see the
counterexample. -/
theorem C170_interface_partial (n : Nat) (ns : List (Option Nat)) (h : ∀ x ∈ ns, x ≠ none) :
    (listens (some n :: ns)).on = some (some n) := by
  have inv : ∀ l : List (Option Nat), (∀ x ∈ l, x ≠ none) →
      (listens l).stuck = false ∧ ((listens l).on = none ∨ (listens l).on = some (listens l).config) := by
    intro l
    induction l with
    | nil => intro _; exact ⟨rfl, .inl rfl⟩
    | cons x l ih =>
      intro hx
      obtain ⟨h1, h2⟩ := ih (fun y hy => hx y (List.mem_cons_of_mem _ hy))
      have hne := hx x (List.mem_cons_self ..)
      show (listen (listens l) x).stuck = false ∧
        ((listen (listens l) x).on = none ∨ (listen (listens l) x).on = some (listen (listens l) x).config)
      generalize listens l = q at h1 h2
      unfold listen
      split
      · simp only [h1, Bool.false_eq_true, if_false, Bool.false_or]
        cases x with
        | none => exact absurd rfl hne
        | some v => exact ⟨rfl, .inr trivial⟩
      · rename_i hc
        have hc1 : q.config = x := Classical.byContradiction fun hn => hc (.inl hn)
        refine ⟨h1, ?_⟩
        rcases h2 with h2 | h2
        · exact absurd (.inr h2) hc
        · right; show q.on = some x; rw [h2, hc1]
  have h1 := (inv (some n :: ns) (fun x hx => by
    rcases List.mem_cons.mp hx with e | e
    · rw [e]; exact (fun h => nomatch h)
    · exact h x e)).2
  have hcfg : (listens (some n :: ns)).config = some n := by
    show (listen (listens ns) (some n)).config = some n
    unfold listen
    split <;> rfl
  rcases h1 with h1 | h1
  · exfalso
    revert h1
    show (listen (listens ns) (some n)).on = none → False
    unfold listen
    split
    · exact (fun h => nomatch h)
    · rename_i hc
      intro hn
      exact hc (.inr hn)
  · rw [h1, hcfg]

/-- **C170 is false behind an empty name**: the sockets stay on the interface `any`, whatever interface
is configured later. -/
theorem C170_interface_counterexample (ns : List (Option Nat)) :
    (listens (ns ++ [none])).on = some none := by
  have inv : (listens (ns ++ [none])).stuck = true ∧ (listens (ns ++ [none])).on = some none := by
    induction ns with
    | nil => exact ⟨rfl, rfl⟩
    | cons x ns ih =>
      show (listen (listens (ns ++ [none])) x).stuck = true ∧ (listen (listens (ns ++ [none])) x).on = some none
      unfold listen
      split
      · rw [ih.1]; exact ⟨rfl, rfl⟩
      · exact ih
  exact inv.2

end Verif.Packet
