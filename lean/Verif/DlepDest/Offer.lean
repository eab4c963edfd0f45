/-
C202: the address a DLEP router connects to after a peer offer, `_router_process_peer_offer`, src/generic/dlep/ext_base_proto/proto_router.c:255-342, in discovery mode.
-/
namespace Verif.DlepDest.Offer

/-- a connection point TLV as read by `dlep_reader_ipv6_conpoint_tlv` and `dlep_reader_ipv4_conpoint_tlv`, dlep_reader.c:309-386 -/
structure Point where
  addr : Nat
  port : Nat
  tls : Bool
deriving DecidableEq, Repr

/-- the host: the own address whose prefix contains an address (`os_interface_get_prefix_from_dst`), and whether an IPv6 address is link-local -/
structure Host where
  pfx : Nat → Option Nat
  ll : Nat → Bool

/-- local variables: own address, remote address and port chosen so far (`result`, `remote`), and `port`, which is not initialized -/
structure St where
  result : Option (Nat × Nat × Nat) := none
  port : Option Nat := none
deriving DecidableEq, Repr

/-- the connection point is taken if an own prefix contains it, 291-295, 311-315 -/
def take (h : Host) (p : Point) (s : St) : St :=
  match h.pfx p.addr with
  | some a => { s with result := some (a, p.addr, p.port) }
  | none => s

/-- the first loop, 281-298; `none` is a TLV that cannot be read, which ends the processing -/
def loop6 (h : Host) : List (Option Point) → St → Option St
  | [], s => some s
  | none :: _, _ => none
  | some p :: l, s =>
    let s := { s with port := some p.port }
    loop6 h l (if p.tls then s else if h.ll p.addr || s.result.isNone then take h p s else s)

/-- the second loop, 301-318 -/
def loop4 (h : Host) : List (Option Point) → St → Option St
  | [], s => some s
  | e :: l, s =>
    if s.result.isSome then some s
    else
      match e with
      | none => none
      | some p =>
        let s := { s with port := some p.port }
        loop4 h l (if p.tls then s else take h p s)

/-- own address, remote address and port (`none`: never set) of the new connection -/
inductive Out where
  | unsupported
  | internal
  | connect (own remote : Nat) (port : Option Nat)
deriving DecidableEq, Repr

/-- the whole function: the two lists of TLVs and the sender of the offer; the session belongs to the interface (335-338) -/
def offer (h : Host) (p6 p4 : List (Option Point)) (sender : Nat) : Out :=
  match loop6 h p6 {} with
  | none => .unsupported
  | some s =>
    match loop4 h p4 s with
    | none => .unsupported
    | some s =>
      match s.result with
      | some (a, r, port) => .connect a r (some port)
      | none =>
        match h.pfx sender with
        | none => .internal
        | some a => .connect a sender s.port

/-! ### lemmas -/

/-- a point without TLS, in an own prefix -/
def usable (h : Host) (p : Point) : Bool := !p.tls && (h.pfx p.addr).isSome

def triple (h : Host) (p : Point) : Nat × Nat × Nat := ((h.pfx p.addr).getD 0, p.addr, p.port)

theorem take_usable {h : Host} {p : Point} (s : St) (hp : (h.pfx p.addr).isSome = true) : take h p s = { s with result := some (triple h p) } := by
  unfold take triple
  cases e : h.pfx p.addr with
  | none => rw [e] at hp; cases hp
  | some a => rfl

theorem take_not {h : Host} {p : Point} (s : St) (hp : (h.pfx p.addr).isSome = false) : take h p s = s := by
  unfold take
  cases e : h.pfx p.addr with
  | none => rfl
  | some a => rw [e] at hp; cases hp

/-- result of the first loop -/
def pick6 (h : Host) (ps : List Point) (r : Option (Nat × Nat × Nat)) : Option (Nat × Nat × Nat) :=
  match (ps.filter fun p => usable h p && h.ll p.addr).getLast? with
  | some p => some (triple h p)
  | none =>
    match r with
    | some x => some x
    | none => (ps.find? (usable h)).map (triple h)

theorem getLast?_cons' {α : Type} (x : α) (l : List α) : (x :: l).getLast? = some (l.getLast?.getD x) := by
  rw [List.getLast?_cons]

theorem loop6_spec (h : Host) (ps : List Point) (s : St) :
    ∃ s', loop6 h (ps.map some) s = some s' ∧ s'.result = pick6 h ps s.result ∧ s'.port = (ps.getLast?.map (·.port)).or s.port := by
  induction ps generalizing s with
  | nil => exact ⟨s, rfl, by cases hr : s.result <;> simp [pick6], by simp⟩
  | cons p ps ih =>
    simp only [List.map_cons, loop6]
    have key : ∀ t : St, t.port = some p.port → pick6 h ps t.result = pick6 h (p :: ps) s.result →
        ∃ s', loop6 h (ps.map some) t = some s' ∧ s'.result = pick6 h (p :: ps) s.result ∧ s'.port = ((p :: ps).getLast?.map (·.port)).or s.port := by
      intro t ht hp
      obtain ⟨s', h1, h2, h3⟩ := ih t
      refine ⟨s', h1, h2.trans hp, ?_⟩
      rw [h3, ht, List.getLast?_cons]
      cases ps.getLast? <;> simp
    cases htls : p.tls with
    | true =>
      simp only [if_true]
      refine key _ rfl ?_
      simp [pick6, usable, htls]
    | false =>
      simp only [Bool.false_eq_true, if_false]
      cases hpf : (h.pfx p.addr).isSome with
      | false =>
        rw [take_not _ hpf, ite_self]
        refine key _ rfl ?_
        simp [pick6, usable, hpf]
      | true =>
        rw [take_usable _ hpf]
        cases hll : h.ll p.addr with
        | true =>
          simp only [Bool.true_or, if_true]
          refine key _ rfl ?_
          have hf : ((p :: ps).filter fun p => usable h p && h.ll p.addr) = p :: ps.filter fun p => usable h p && h.ll p.addr := by
            rw [List.filter_cons_of_pos]
            simp [usable, htls, hpf, hll]
          unfold pick6
          rw [hf, List.getLast?_cons]
          cases (ps.filter fun p => usable h p && h.ll p.addr).getLast? <;> simp
        | false =>
          have hf : ((p :: ps).filter fun p => usable h p && h.ll p.addr) = ps.filter fun p => usable h p && h.ll p.addr := by
            rw [List.filter_cons_of_neg]
            simp [hll]
          have hu : usable h p = true := by simp [usable, htls, hpf]
          cases hr : s.result with
          | none =>
            rw [hr] at key
            simp only [Option.isNone_none, Bool.or_true, if_true]
            refine key ⟨some (triple h p), some p.port⟩ rfl ?_
            unfold pick6
            rw [hf, List.find?_cons_of_pos hu]
            cases (ps.filter fun p => usable h p && h.ll p.addr).getLast? <;> simp
          | some x =>
            rw [hr] at key
            simp only [Option.isNone_some, Bool.or_false, Bool.false_eq_true, if_false]
            refine key ⟨some x, some p.port⟩ rfl ?_
            unfold pick6
            rw [hf]

theorem loop4_done (h : Host) (l : List (Option Point)) (s : St) (hs : s.result.isSome = true) : loop4 h l s = some s := by
  cases l with
  | nil => rfl
  | cons e l => simp [loop4, hs]

theorem loop4_spec (h : Host) (ps : List Point) (s : St) (hs : s.result = none) :
    ∃ s', loop4 h (ps.map some) s = some s' ∧ s'.result = (ps.find? (usable h)).map (triple h) ∧ (s'.result = none → s'.port = (ps.getLast?.map (·.port)).or s.port) := by
  induction ps generalizing s with
  | nil => exact ⟨s, rfl, by simp [hs], by simp⟩
  | cons p ps ih =>
    simp only [List.map_cons, loop4, hs, Option.isSome_none, Bool.false_eq_true, if_false]
    have skip : usable h p = false → ∃ s', loop4 h (ps.map some) { s with port := some p.port } = some s' ∧ s'.result = ((p :: ps).find? (usable h)).map (triple h) ∧
        (s'.result = none → s'.port = ((p :: ps).getLast?.map (·.port)).or s.port) := by
      intro hu
      obtain ⟨s', h1, h2, h3⟩ := ih { s with port := some p.port } hs
      refine ⟨s', h1, by rw [h2, List.find?_cons_of_neg (by simp [hu])], fun hn => ?_⟩
      rw [h3 hn, List.getLast?_cons]
      cases ps.getLast? <;> simp
    have hst : ({ s with port := some p.port } : St) = { result := none, port := some p.port } := by rw [← hs]
    rw [hst] at skip
    cases htls : p.tls with
    | true =>
      simp only [if_true]
      exact skip (by simp [usable, htls])
    | false =>
      simp only [Bool.false_eq_true, if_false]
      cases hpf : (h.pfx p.addr).isSome with
      | false =>
        rw [take_not _ hpf]
        exact skip (by simp [usable, hpf])
      | true =>
        rw [take_usable _ hpf, loop4_done _ _ _ rfl]
        refine ⟨_, rfl, ?_, fun hn => (nomatch hn)⟩
        rw [List.find?_cons_of_pos (by simp [usable, htls, hpf])]
        rfl

/-! ### C202 -/

/-- the connection point the router should use: the last link-local IPv6 one, otherwise the first IPv6 one, otherwise the first IPv4 one, of those without TLS in an own prefix -/
def best (h : Host) (p6 p4 : List Point) : Option Point :=
  let good := fun p : Point => !p.tls && (h.pfx p.addr).isSome
  ((p6.filter fun p => good p && h.ll p.addr).getLast?.or (p6.find? good)).or (p4.find? good)

/-- C202, the part that holds: if one of the connection points of the offer is usable, the router connects to the best one, from its own address in the same prefix. -/
theorem C202_best_partial (h : Host) (p6 p4 : List Point) (sender : Nat) (p : Point) (hb : best h p6 p4 = some p) :
    ∃ own, h.pfx p.addr = some own ∧ offer h (p6.map some) (p4.map some) sender = .connect own p.addr (some p.port) := by
  have hu : usable h p = true := by
    have hb' := hb
    unfold best at hb'
    simp only [Option.or_eq_some_iff] at hb'
    rcases hb' with (hb' | ⟨_, hb'⟩) | ⟨_, hb'⟩
    · have := (List.mem_filter.1 (List.mem_of_getLast? hb')).2
      simp only [Bool.and_eq_true] at this
      simpa [usable] using this.1
    · simpa [usable] using List.find?_some hb'
    · simpa [usable] using List.find?_some hb'
  have hpf : (h.pfx p.addr).isSome = true := by
    simp only [usable, Bool.and_eq_true] at hu
    exact hu.2
  obtain ⟨own, ho⟩ := Option.isSome_iff_exists.1 hpf
  refine ⟨own, ho, ?_⟩
  obtain ⟨s6, e6, r6, _⟩ := loop6_spec h p6 {}
  unfold offer
  simp only [e6]
  have r6' : s6.result = ((p6.filter fun p => usable h p && h.ll p.addr).getLast?.or (p6.find? (usable h))).map (triple h) := by
    rw [r6]
    unfold pick6
    cases (p6.filter fun p => usable h p && h.ll p.addr).getLast? <;> rfl
  have hb2 : (((p6.filter fun p => usable h p && h.ll p.addr).getLast?.or (p6.find? (usable h))).or (p4.find? (usable h))) = some p := hb
  have ht : triple h p = (own, p.addr, p.port) := by simp [triple, ho]
  cases hx : ((p6.filter fun p => usable h p && h.ll p.addr).getLast?.or (p6.find? (usable h))) with
  | some x =>
    rw [hx] at hb2 r6'
    simp only [Option.some_or, Option.some.injEq] at hb2
    subst hb2
    rw [loop4_done h _ s6 (by rw [r6']; rfl)]
    simp only [r6', Option.map_some, ht]
  | none =>
    rw [hx] at hb2 r6'
    simp only [Option.none_or] at hb2
    obtain ⟨s4, e4, r4, _⟩ := loop4_spec h p4 s6 (by rw [r6']; rfl)
    rw [e4]
    simp only [r4, hb2, Option.map_some, ht]

/-- own addresses 10 and 20, prefixes 100 to 199 and 200 to 299; link-local from 250 -/
def host : Host := ⟨fun a => if 100 ≤ a ∧ a < 200 then some 10 else if 200 ≤ a ∧ a < 300 then some 20 else none, fun a => decide (250 ≤ a)⟩

example : offer host [some ⟨201, 1, false⟩, some ⟨251, 2, false⟩, some ⟨252, 3, true⟩, some ⟨202, 4, false⟩] [some ⟨101, 5, false⟩] 150 = .connect 20 251 (some 2) := by decide +kernel
example : best host [⟨201, 1, false⟩, ⟨251, 2, false⟩, ⟨252, 3, true⟩, ⟨202, 4, false⟩] [⟨101, 5, false⟩] = some ⟨251, 2, false⟩ := by decide +kernel

/-- C202: an IPv6 connection point that cannot be read makes the router reject the offer -/
theorem C202_malformed (h : Host) (p6 : List Point) (rest p4 : List (Option Point)) (sender : Nat) : offer h (p6.map some ++ none :: rest) p4 sender = .unsupported := by
  have : ∀ s, loop6 h (p6.map some ++ none :: rest) s = none := by
    induction p6 with
    | nil => intro s; rfl
    | cons p ps ih => intro s; simp only [List.map_cons, List.cons_append, loop6]; exact ih _
  simp [offer, this]

/-- what the router does without a usable connection point: it connects to the sender, with the port of the last connection point of the offer (an IPv4 one, if there is one) -/
theorem C202_fallback (h : Host) (p6 p4 : List Point) (sender own : Nat) (hs : h.pfx sender = some own) (hb : best h p6 p4 = none) :
    offer h (p6.map some) (p4.map some) sender = .connect own sender ((p4.getLast?.or p6.getLast?).map (·.port)) := by
  obtain ⟨s6, e6, r6, o6⟩ := loop6_spec h p6 {}
  unfold offer
  simp only [e6]
  have r6' : s6.result = ((p6.filter fun p => usable h p && h.ll p.addr).getLast?.or (p6.find? (usable h))).map (triple h) := by
    rw [r6]
    unfold pick6
    cases (p6.filter fun p => usable h p && h.ll p.addr).getLast? <;> rfl
  have hb2 : (((p6.filter fun p => usable h p && h.ll p.addr).getLast?.or (p6.find? (usable h))).or (p4.find? (usable h))) = none := hb
  rw [Option.or_eq_none_iff] at hb2
  rw [hb2.1] at r6'
  obtain ⟨s4, e4, r4, o4⟩ := loop4_spec h p4 s6 r6'
  rw [hb2.2] at r4
  rw [e4]
  simp only [r4, Option.map_none, hs, o4 (by rw [r4]; rfl), o6]
  cases p4.getLast? <;> simp

/-- C202 fails for an offer without connection points: the port of the connection was never set -/
theorem C202_port_counterexample (h : Host) (sender own : Nat) (hs : h.pfx sender = some own) : offer h [] [] sender = .connect own sender none := by
  simp [offer, loop6, loop4, hs]

example : host.pfx 150 = some 10 := rfl

/-- C202 fails for an offer with TLS only: the router opens a connection without TLS, to the port that was offered for TLS -/
theorem C202_tls_counterexample (h : Host) (p : Point) (own : Nat) (hs : h.pfx p.addr = some own) (ht : p.tls = true) : offer h [] [some p] p.addr = .connect own p.addr (some p.port) := by
  simp [offer, loop6, loop4, hs, ht]

example : offer host [] [some ⟨150, 854, true⟩] 150 = .connect 10 150 (some 854) := by decide +kernel

end Verif.DlepDest.Offer
