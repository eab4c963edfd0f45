import Verif.Rfc5444.Reconf
/-
C151: the sockets of an interface follow the configuration.
-/
namespace Verif.Rfc5444

/-! ## Specification -/

/-- the latest configuration of the interface -/
def latest : List REv → Cfg
  | [] => {}
  | .iface c :: _ => c
  | _ :: es => latest es

/-- the latest configuration of the protocol: port and IP protocol -/
def latestProto : List REv → Nat × Nat
  | [] => (0, 0)
  | .proto port ip :: _ => (port, ip)
  | _ :: es => latestProto es

/-- socket for a configuration: raw sockets have the IP protocol, others the ports, where the port of the protocol is used for the multicast
socket and, if local ports are fixed, for the unicast socket unless the configuration says something else; the unicast interface has no multicast -/
def wanted (fixed any : Bool) (port ip : Nat) (c : Cfg) : Cfg where
  raw := c.raw
  proto := if c.raw then ip else c.proto
  mport := if c.raw then 0 else if c.mport ≠ 0 then c.mport else port
  port := if any then port else if c.raw then 0 else if c.port ≠ 0 then c.port else if fixed then port else 0
  mc4 := if any then none else c.mc4
  mc6 := if any then none else c.mc6

/-- the protocol has no other port than `P` -/
def OnePort (P : Nat) (es : List REv) : Prop := ∀ port ip, REv.proto port ip ∈ es → port = 0 ∨ port = P

/-! ## Proofs -/

/-- the stored configuration is the latest one up to what was filled in -/
structure Rel (P : Nat) (fixed any : Bool) (c s : Cfg) : Prop where
  raw : s.raw = c.raw
  proto : c.raw = false → s.proto = c.proto
  mport : c.raw = false → s.mport = c.mport ∨ c.mport = 0 ∧ s.mport = P
  port : any = false → c.raw = false → s.port = c.port ∨ c.port = 0 ∧ fixed = true ∧ s.port = P
  mc : any = false → s.mc4 = c.mc4 ∧ s.mc6 = c.mc6

theorem rel_refl (P : Nat) (fixed any : Bool) (c : Cfg) : Rel P fixed any c c := ⟨rfl, fun _ => rfl, fun _ => .inl rfl, fun _ _ => .inl rfl, fun _ => ⟨rfl, rfl⟩⟩

theorem fix_wanted {P port ip : Nat} {fixed any : Bool} {c s : Cfg} (h : Rel P fixed any c s) (hp : port = P) (hP : P ≠ 0) :
    fixUnicast ⟨port, ip, fixed⟩ any (fixOptions ⟨port, ip, fixed⟩ s) = wanted fixed any port ip c := by
  obtain ⟨h1, h2, h3, h4, h5⟩ := h
  subst hp
  obtain ⟨sr, sp, sm, spr, s4, s6⟩ := s
  obtain ⟨cr, cp, cm, cpr, c4, c6⟩ := c
  simp only at h1 h2 h3 h4 h5
  subst h1
  cases sr with
  | true =>
    cases any with
    | true => simp [fixOptions, fixUnicast, wanted]
    | false =>
      obtain ⟨e1, e2⟩ := h5 rfl
      subst e1 e2
      simp [fixOptions, fixUnicast, wanted]
  | false =>
    have e3 := h2 rfl
    subst e3
    have hm : (if sm = 0 then port else sm) = if cm ≠ 0 then cm else port := by
      rcases h3 rfl with e | ⟨e, e'⟩
      · subst e; by_cases h0 : sm = 0 <;> simp [h0]
      · subst e e'; simp
    cases any with
    | true =>
      simp only [fixOptions, fixUnicast, wanted]
      rw [← hm]
      by_cases h0 : sm = 0 <;> by_cases h9 : fixed = true ∧ sp = 0 <;> simp [h0, h9]
    | false =>
      obtain ⟨e1, e2⟩ := h5 rfl
      subst e1 e2
      have hq : (if fixed = true ∧ sp = 0 then port else sp) = if cp ≠ 0 then cp else if fixed = true then port else 0 := by
        rcases h4 rfl rfl with e | ⟨e, e', e''⟩
        · subst e
          by_cases h0 : sp = 0 <;> cases fixed <;> simp [h0]
        · subst e e''
          simp [e', hP]
      simp only [fixOptions, fixUnicast, wanted]
      simp only [Bool.false_eq_true, if_false]
      rw [← hm, ← hq]
      by_cases h0 : sm = 0 <;> by_cases h9 : fixed = true ∧ sp = 0
      · simp [h0, h9]
      · simp [h0, h9]
      · simp [h0, h9]
      · simp [h0, h9]

theorem rel_fix {P port ip : Nat} {fixed any : Bool} {c s : Cfg} (h : Rel P fixed any c s) (hp : port = 0 ∨ port = P) :
    Rel P fixed any c (fixUnicast ⟨port, ip, fixed⟩ any (fixOptions ⟨port, ip, fixed⟩ s)) := by
  obtain ⟨h1, h2, h3, h4, h5⟩ := h
  obtain ⟨sr, sp, sm, spr, s4, s6⟩ := s
  obtain ⟨cr, cp, cm, cpr, c4, c6⟩ := c
  simp only at h1 h2 h3 h4 h5
  subst h1
  cases sr with
  | true =>
    refine ⟨?_, (fun h => nomatch h), (fun h => nomatch h), (fun _ h => nomatch h), ?_⟩
    · cases any <;> simp [fixOptions, fixUnicast]
    · intro ha
      subst ha
      obtain ⟨e1, e2⟩ := h5 rfl
      simp [fixOptions, fixUnicast, e1, e2]
  | false =>
    have e3 := h2 rfl
    have e4 := h3 rfl
    have e5 := h4
    refine ⟨?_, fun _ => ?_, fun _ => ?_, fun ha _ => ?_, fun ha => ?_⟩
    · cases any <;> by_cases h0 : sm = 0 <;> by_cases h9 : fixed = true ∧ sp = 0 <;> simp [fixOptions, fixUnicast, h0, h9]
    · cases any <;> by_cases h0 : sm = 0 <;> by_cases h9 : fixed = true ∧ sp = 0 <;> simp [fixOptions, fixUnicast, h0, h9, e3]
    · have hv : (fixUnicast ⟨port, ip, fixed⟩ any (fixOptions ⟨port, ip, fixed⟩ ⟨false, sp, sm, spr, s4, s6⟩)).mport = if sm = 0 then port else sm := by
        cases any <;> by_cases h0 : sm = 0 <;> by_cases h9 : fixed = true ∧ sp = 0 <;> simp [fixOptions, fixUnicast, h0, h9]
      rw [hv]
      show (if sm = 0 then port else sm) = cm ∨ cm = 0 ∧ (if sm = 0 then port else sm) = P
      by_cases h0 : sm = 0
      · rw [if_pos h0]; omega
      · rw [if_neg h0]; exact e4
    · subst ha
      have e5 := h4 rfl rfl
      have hv : (fixUnicast ⟨port, ip, fixed⟩ false (fixOptions ⟨port, ip, fixed⟩ ⟨false, sp, sm, spr, s4, s6⟩)).port =
          if fixed = true ∧ sp = 0 then port else sp := by
        by_cases h0 : sm = 0 <;> by_cases h9 : fixed = true ∧ sp = 0 <;> simp [fixOptions, fixUnicast, h0, h9]
      rw [hv]
      show (if fixed = true ∧ sp = 0 then port else sp) = cp ∨ cp = 0 ∧ fixed = true ∧ (if fixed = true ∧ sp = 0 then port else sp) = P
      by_cases h0 : fixed = true ∧ sp = 0
      · rw [if_pos h0]
        obtain ⟨f1, f2⟩ := h0
        rcases hp with hp | hp <;> rcases e5 with e5 | ⟨e5, _, e6⟩
        · left; omega
        · left; omega
        · right; exact ⟨by omega, f1, hp⟩
        · right; exact ⟨e5, f1, hp⟩
      · rw [if_neg h0]; exact e5
    · subst ha
      obtain ⟨e1, e2⟩ := h5 rfl
      by_cases h0 : sm = 0 <;> by_cases h9 : fixed = true ∧ sp = 0 <;> simp [fixOptions, fixUnicast, h0, h9, e1, e2]

theorem rrun_proto (fixed any : Bool) (es : List REv) :
    (rrun fixed any es).1 = ⟨(latestProto es).1, (latestProto es).2, fixed⟩ ∧ (rrun fixed any es).2.any = any := by
  induction es with
  | nil => exact ⟨rfl, rfl⟩
  | cons e es ih =>
    obtain ⟨h1, h2⟩ := ih
    have hr : ∀ p (i : Iface) n, (reconfigure p i n).any = i.any := by
      intro p i n
      unfold reconfigure
      simp only
      split <;> rfl
    cases e with
    | proto port ip =>
      show (reconfigureProtocol (rrun fixed any es).1 (rrun fixed any es).2 port ip).1 = ⟨port, ip, fixed⟩ ∧
        (reconfigureProtocol (rrun fixed any es).1 (rrun fixed any es).2 port ip).2.any = any
      unfold reconfigureProtocol
      by_cases hc : port = (rrun fixed any es).1.port ∧ ip = (rrun fixed any es).1.ip
      · rw [if_pos hc]
        obtain ⟨c1, c2⟩ := hc
        rw [h1] at c1 c2
        refine ⟨?_, h2⟩
        rw [h1]
        simp only at c1 c2
        rw [c1, c2]
      · rw [if_neg hc]
        refine ⟨by rw [h1], ?_⟩
        simp only
        split
        · rw [hr]; exact h2
        · exact h2
    | iface c => exact ⟨h1, by show (reconfigure _ _ _).any = any; rw [hr]; exact h2⟩
    | changed =>
      refine ⟨h1, ?_⟩
      show (if (rrun fixed any es).2.applied = none then (rrun fixed any es).2 else reconfigure _ _ none).any = any
      split
      · exact h2
      · rw [hr]; exact h2

/-- what holds after each event -/
def RInv (P : Nat) (fixed any : Bool) (es : List REv) : Prop :=
  Rel P fixed any (latest es) (rrun fixed any es).2.cfg ∧
  ((latestProto es).1 ≠ 0 →
    (rrun fixed any es).2.applied = some (wanted fixed any (latestProto es).1 (latestProto es).2 (latest es)) ∧
    (any = false → (rrun fixed any es).2.t4 = (latest es).mc4 ∧ (rrun fixed any es).2.t6 = (latest es).mc6))

theorem wanted_mc {fixed : Bool} {port ip : Nat} {c : Cfg} : (wanted fixed false port ip c).mc4 = c.mc4 ∧ (wanted fixed false port ip c).mc6 = c.mc6 := ⟨rfl, rfl⟩

/-- applying something that is the latest configuration up to what is filled in -/
theorem reconfigure_inv {P port ip : Nat} {fixed any : Bool} {c : Cfg} {i : Iface} {new : Option Cfg} (hany : i.any = any)
    (h : Rel P fixed any c (new.getD i.cfg)) (hp : port = 0 ∨ port = P) (hn : new = none ∨ new = some c) :
    Rel P fixed any c (reconfigure ⟨port, ip, fixed⟩ i new).cfg ∧ (port ≠ 0 →
      (reconfigure ⟨port, ip, fixed⟩ i new).applied = some (wanted fixed any port ip c) ∧
      (any = false → (reconfigure ⟨port, ip, fixed⟩ i new).t4 = c.mc4 ∧ (reconfigure ⟨port, ip, fixed⟩ i new).t6 = c.mc6)) := by
  have hrel := rel_fix (ip := ip) h hp
  have hcfg : (reconfigure ⟨port, ip, fixed⟩ i new).cfg = fixUnicast ⟨port, ip, fixed⟩ any (fixOptions ⟨port, ip, fixed⟩ (new.getD i.cfg)) := by
    unfold reconfigure
    rw [hany]
    simp only
    split <;> rfl
  rw [hcfg]
  refine ⟨hrel, fun h0 => ?_⟩
  have hw := fix_wanted (ip := ip) h (show port = P by omega) (by omega)
  have e : reconfigure ⟨port, ip, fixed⟩ i new = { i with cfg := wanted fixed any port ip c, applied := some (wanted fixed any port ip c), t4 := (new.getD (wanted fixed any port ip c)).mc4, t6 := (new.getD (wanted fixed any port ip c)).mc6 } := by
    unfold reconfigure
    rw [hany, hw]
    simp only
    rw [if_neg h0]
  rw [e]
  refine ⟨rfl, fun ha => ?_⟩
  subst ha
  rcases hn with rfl | rfl
  · exact ⟨rfl, rfl⟩
  · exact ⟨rfl, rfl⟩

theorem rinv (P : Nat) (fixed any : Bool) (es : List REv) (ho : OnePort P es) : RInv P fixed any es := by
  induction es with
  | nil => exact ⟨rel_refl _ _ _ _, fun h => absurd rfl h⟩
  | cons e es ih =>
    have ht : OnePort P es := fun a b h => ho a b (List.mem_cons_of_mem _ h)
    obtain ⟨I1, I2⟩ := ih ht
    obtain ⟨p1, p2⟩ := rrun_proto fixed any es
    have hport : (latestProto es).1 = 0 ∨ (latestProto es).1 = P := by
      clear ih I1 I2 p1 p2 ho
      induction es with
      | nil => exact .inl rfl
      | cons e es ih =>
        cases e with
        | proto port ip => exact ht port ip List.mem_cons_self
        | iface c => exact ih fun a b h => ht a b (List.mem_cons_of_mem _ h)
        | changed => exact ih fun a b h => ht a b (List.mem_cons_of_mem _ h)
    cases e with
    | proto port ip =>
      have hp := ho port ip List.mem_cons_self
      unfold RInv
      show Rel P fixed any (latest es) (reconfigureProtocol (rrun fixed any es).1 (rrun fixed any es).2 port ip).2.cfg ∧ (port ≠ 0 →
        (reconfigureProtocol (rrun fixed any es).1 (rrun fixed any es).2 port ip).2.applied = some (wanted fixed any port ip (latest es)) ∧
        (any = false → (reconfigureProtocol (rrun fixed any es).1 (rrun fixed any es).2 port ip).2.t4 = _ ∧
          (reconfigureProtocol (rrun fixed any es).1 (rrun fixed any es).2 port ip).2.t6 = _))
      unfold reconfigureProtocol
      rw [p1]
      by_cases hc : port = (latestProto es).1 ∧ ip = (latestProto es).2
      · rw [if_pos (show port = (Proto.mk _ _ fixed).port ∧ ip = (Proto.mk _ _ fixed).ip from hc)]
        obtain ⟨c1, c2⟩ := hc
        rw [c1, c2]
        exact ⟨I1, I2⟩
      · rw [if_neg (show ¬ (port = (Proto.mk _ _ fixed).port ∧ ip = (Proto.mk _ _ fixed).ip) from hc)]
        simp only
        by_cases h0 : port ≠ 0
        · rw [if_pos h0]
          exact reconfigure_inv (i := { (rrun fixed any es).2 with applied := none }) p2 I1 hp (.inl rfl)
        · rw [if_neg h0]
          exact ⟨I1, fun h => absurd h h0⟩
    | iface c =>
      unfold RInv
      show Rel P fixed any c (reconfigure (rrun fixed any es).1 (rrun fixed any es).2 (some c)).cfg ∧ ((latestProto es).1 ≠ 0 →
        (reconfigure (rrun fixed any es).1 (rrun fixed any es).2 (some c)).applied = some (wanted fixed any _ _ c) ∧ (any = false →
        (reconfigure (rrun fixed any es).1 (rrun fixed any es).2 (some c)).t4 = c.mc4 ∧ (reconfigure (rrun fixed any es).1 (rrun fixed any es).2 (some c)).t6 = c.mc6))
      rw [p1]
      exact reconfigure_inv p2 (rel_refl _ _ _ _) hport (.inr rfl)
    | changed =>
      unfold RInv
      show Rel P fixed any (latest es) (if (rrun fixed any es).2.applied = none then (rrun fixed any es).2 else
          reconfigure (rrun fixed any es).1 (rrun fixed any es).2 none).cfg ∧ ((latestProto es).1 ≠ 0 →
        (if (rrun fixed any es).2.applied = none then (rrun fixed any es).2 else
          reconfigure (rrun fixed any es).1 (rrun fixed any es).2 none).applied = some (wanted fixed any _ _ (latest es)) ∧ (any = false →
        (if (rrun fixed any es).2.applied = none then (rrun fixed any es).2 else
          reconfigure (rrun fixed any es).1 (rrun fixed any es).2 none).t4 = _ ∧ (if (rrun fixed any es).2.applied = none then (rrun fixed any es).2 else
          reconfigure (rrun fixed any es).1 (rrun fixed any es).2 none).t6 = _))
      by_cases ha : (rrun fixed any es).2.applied = none
      · rw [if_pos ha]
        exact ⟨I1, I2⟩
      · rw [if_neg ha, p1]
        exact reconfigure_inv p2 I1 hport (.inl rfl)

/-- sockets and multicast targets follow the latest configuration; missing: a change from one port to another, see `C151_port_counterexample`, and
the targets of the unicast interface, see `C151_unicast_counterexample` -/
theorem C151_follows_partial (P : Nat) (fixed any : Bool) (es : List REv) (ho : OnePort P es) (hp : (latestProto es).1 ≠ 0) :
    (rrun fixed any es).2.applied = some (wanted fixed any (latestProto es).1 (latestProto es).2 (latest es)) ∧
    (any = false → (rrun fixed any es).2.t4 = (latest es).mc4 ∧ (rrun fixed any es).2.t6 = (latest es).mc6) :=
  (rinv P fixed any es ho).2 hp

/-- without a port there is no socket -/
theorem C151_no_port (fixed any : Bool) (es : List REv) (hp : (latestProto es).1 = 0) : (rrun fixed any es).2.applied = none := by
  induction es with
  | nil => rfl
  | cons e es ih =>
    obtain ⟨p1, p2⟩ := rrun_proto fixed any es
    cases e with
    | proto port ip =>
      have hp : port = 0 := hp
      subst hp
      show (reconfigureProtocol (rrun fixed any es).1 (rrun fixed any es).2 0 ip).2.applied = none
      unfold reconfigureProtocol
      rw [p1]
      by_cases hc : 0 = (latestProto es).1 ∧ ip = (latestProto es).2
      · rw [if_pos (show 0 = (Proto.mk _ _ fixed).port ∧ ip = (Proto.mk _ _ fixed).ip from hc)]
        exact ih hc.1.symm
      · rw [if_neg (show ¬ (0 = (Proto.mk _ _ fixed).port ∧ ip = (Proto.mk _ _ fixed).ip) from hc)]
        simp
    | iface c =>
      have hp : (latestProto es).1 = 0 := hp
      show (reconfigure (rrun fixed any es).1 (rrun fixed any es).2 (some c)).applied = none
      unfold reconfigure
      rw [p1]
      simp only
      rw [if_pos hp]
      exact ih hp
    | changed =>
      have hp : (latestProto es).1 = 0 := hp
      show (if (rrun fixed any es).2.applied = none then (rrun fixed any es).2 else _).applied = none
      rw [if_pos (ih hp)]
      exact ih hp

example : (rrun true false [.changed, .proto 269 138, .iface { mc4 := some 7 }]).2.applied = some ⟨false, 269, 269, 0, some 7, none⟩ := by decide +kernel

/-- a new port of the protocol is not used: the sockets keep the old one -/
theorem C151_port_counterexample (P Q ip : Nat) (hP : P ≠ 0) (hQ : Q ≠ 0) (hPQ : Q ≠ P) (c : Cfg) (hc : c.raw = false ∧ c.port = 0 ∧ c.mport = 0) :
    let es := [REv.proto Q ip, .proto P ip, .iface c]
    (rrun true false es).2.applied.map (fun a => (a.port, a.mport)) = some (P, P) ∧
    ((wanted true false Q ip (latest es)).port, (wanted true false Q ip (latest es)).mport) = (Q, Q) := by
  obtain ⟨c1, c2, c3⟩ := hc
  have hP' : 0 ≠ P := fun h => hP h.symm
  refine ⟨?_, ?_⟩
  · simp [rrun, reconfigureProtocol, reconfigure, fixOptions, fixUnicast, c1, c2, c3, hP, hQ, hPQ]
  · simp [wanted, latest, c1, c2, c3]

/-- the unicast interface gets multicast targets when it is configured, and loses them at the next change of its addresses -/
theorem C151_unicast_counterexample (P ip g : Nat) (hP : P ≠ 0) (c : Cfg) (hc : c.mc4 = some g) :
    (rrun true true [.iface c, .proto P ip]).2.t4 = some g ∧ (rrun true true [.changed, .iface c, .proto P ip]).2.t4 = none ∧
    (wanted true true P ip c).mc4 = none := by
  refine ⟨?_, ?_, rfl⟩
  · simp [rrun, reconfigureProtocol, reconfigure, hc, hP]
  · simp [rrun, reconfigureProtocol, reconfigure, fixUnicast, hP]

/-- changes of the section of an interface are safe; missing: removal, and values that cannot be converted at first -/
theorem C151_section_partial (es : List SEv) (hr : SEv.removal ∉ es) (hf : es.getLast? ≠ some (.values false)) : sectRun es ≠ none := by
  have key : es ≠ [] → sectRun es = some ⟨true, true⟩ := by
    induction es with
    | nil => exact fun h => absurd rfl h
    | cons e es ih =>
      intro _
      cases e with
      | removal => exact absurd List.mem_cons_self hr
      | values ok =>
        cases es with
        | nil =>
          cases ok with
          | true => rfl
          | false => exact absurd rfl hf
        | cons e' es' =>
          have := ih (fun h => hr (List.mem_cons_of_mem _ h)) (by rwa [List.getLast?_cons_cons] at hf) (by simp)
          show (sectRun (e' :: es')).bind _ = _
          rw [this]
          cases ok <;> rfl
  cases es with
  | nil => exact fun h => nomatch h
  | cons e es => rw [key (by simp)]; exact fun h => nomatch h

/-- removing the section of an interface has undefined behaviour, and so have good values after bad ones -/
theorem C151_section_counterexample (es : List SEv) : sectRun (.removal :: es) = none ∧ sectRun [.values true, .values false] = none := by
  refine ⟨?_, rfl⟩
  show (sectRun es).bind _ = none
  cases sectRun es <;> rfl

end Verif.Rfc5444
