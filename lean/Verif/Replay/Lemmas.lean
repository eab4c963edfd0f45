import Verif.Replay.Spec

namespace Verif.Replay

theorem startTrigger_fields (c : Cfg) (now : Nat) (n : Node) : (startTrigger c now n).last = n.last ∧ (startTrigger c now n).query = n.query ∧
    (startTrigger c now n).response = n.response := by
  unfold startTrigger
  split <;> exact ⟨rfl, rfl, rfl⟩

/-- what `receive` does to the node of the sender -/
theorem receive_spec (c : Cfg) (now : Nat) (p : Party) (k : Nat) (pkt : Packet) :
    ∃ n', (receive c now p k pkt).1.nodes k = some n' ∧ n'.response = pkt.query ∧ n'.vtime = now + c.vtime ∧
      (((receive c now p k pkt).2 = true ∧ (∃ n, p.nodes k = some n ∧ valid c n pkt.ts pkt.response = true) ∧ n'.last = pkt.ts ∧ n'.query = 0 ∧
          (receive c now p k pkt).1.loc = p.loc) ∨
       ((receive c now p k pkt).2 = false ∧ n'.last = ((p.nodes k).getD Node.zero).last ∧ n'.query = ((p.nodes k).getD Node.zero).query ∧
          (receive c now p k pkt).1.loc = p.loc) ∨
       ((receive c now p k pkt).2 = false ∧ n'.last = ((p.nodes k).getD Node.zero).last ∧ n'.query = p.loc + 1 ∧
          (receive c now p k pkt).1.loc = p.loc + 1)) := by
  unfold receive
  dsimp only
  refine ⟨_, if_pos rfl, ?_⟩
  obtain ⟨h1, h2, h3⟩ := startTrigger_fields c now
    (judge c p.loc { (p.nodes k).getD Node.zero with response := pkt.query } (if (p.nodes k).isNone then 0 else pkt.ts) pkt.response).1
  dsimp only
  rw [h1, h2, h3]
  generalize hm : (p.nodes k).getD Node.zero = m
  generalize ht : (if (p.nodes k).isNone = true then 0 else pkt.ts) = ts
  have hv : valid c { m with response := pkt.query } ts pkt.response = valid c m ts pkt.response := rfl
  unfold judge
  rw [hv]
  by_cases v : valid c m ts pkt.response = true
  · rw [if_pos v]
    refine ⟨rfl, rfl, Or.inl ⟨rfl, ?_, ?_, rfl, rfl⟩⟩
    · rcases hn : p.nodes k with _ | n
      · rw [hn] at hm ht
        subst hm ht
        simp [valid, Node.zero] at v
      · rw [hn] at hm ht
        exact ⟨n, rfl, by rw [show n = m from hm, show pkt.ts = ts from ht]; exact v⟩
    · rcases hn : p.nodes k with _ | n
      · rw [hn] at hm ht
        subst hm ht
        simp [valid, Node.zero] at v
      · rw [hn] at ht
        exact ht.symm
  rw [if_neg v]
  by_cases e : m.last = ts
  · rw [if_pos e]
    exact ⟨rfl, rfl, Or.inr (Or.inl ⟨rfl, rfl, rfl, rfl⟩)⟩
  rw [if_neg e]
  by_cases q : m.query = 0
  · rw [if_pos q]
    exact ⟨rfl, rfl, Or.inr (Or.inr ⟨rfl, rfl, rfl, rfl⟩)⟩
  · rw [if_neg q]
    exact ⟨rfl, rfl, Or.inr (Or.inl ⟨rfl, rfl, rfl, rfl⟩)⟩

/-- `receive` for a known sender -/
theorem receive_known (c : Cfg) (now : Nat) {p : Party} {k : Nat} {n : Node} (pkt : Packet) (h : p.nodes k = some n) :
    receive c now p k pkt = ({ (p.set k (some { startTrigger c now (judge c p.loc { n with response := pkt.query } pkt.ts pkt.response).1 with
      vtime := now + c.vtime })) with loc := (judge c p.loc { n with response := pkt.query } pkt.ts pkt.response).2.1 },
      (judge c p.loc { n with response := pkt.query } pkt.ts pkt.response).2.2) := by
  unfold receive
  rw [h]
  rfl

/-- a packet is processed if it is valid -/
theorem judge_result (c : Cfg) (l : UInt32) (n : Node) (ts r : UInt32) : (judge c l n ts r).2.2 = valid c n ts r := by
  unfold judge
  by_cases v : valid c n ts r = true
  · rw [if_pos v, v]
  · rw [if_neg v]
    have : valid c n ts r = false := by simpa using v
    rw [this]
    split
    · rfl
    · split <;> rfl

/-- `sendTo` for a known neighbor -/
theorem sendTo_known {p : Party} {k : Nat} {n : Node} (h : p.nodes k = some n) :
    sendTo p (some k) = ({ (p.set k (some { n with response := 0 })) with loc := p.loc + 1 }, ⟨p.loc + 1, n.query, n.response⟩) := by
  unfold sendTo
  rw [Option.bind_some, h]
  rfl

theorem receive_other (c : Cfg) (now : Nat) (p : Party) (k j : Nat) (pkt : Packet) (h : j ≠ k) : (receive c now p k pkt).1.nodes j = p.nodes j := by
  show (if j = k then _ else p.nodes j) = _
  rw [if_neg h]

/-- what `sendTo` sends -/
theorem sendTo_spec (p : Party) (k : Option Nat) : (sendTo p k).1.loc = p.loc + 1 ∧ (sendTo p k).2.ts = p.loc + 1 ∧
    (((sendTo p k).2.query = 0 ∧ (sendTo p k).2.response = 0) ∨
      ∃ j n, k = some j ∧ p.nodes j = some n ∧ (sendTo p k).2.query = n.query ∧ (sendTo p k).2.response = n.response) ∧
    ∀ j n', (sendTo p k).1.nodes j = some n' → ∃ n, p.nodes j = some n ∧ n'.last = n.last ∧ n'.query = n.query ∧ (n'.response = n.response ∨ n'.response = 0) ∧
      n'.trigger = n.trigger ∧ n'.vtime = n.vtime := by
  unfold sendTo
  rcases k with _ | k
  · exact ⟨rfl, rfl, Or.inl ⟨rfl, rfl⟩, fun j n h => ⟨n, h, rfl, rfl, Or.inl rfl, rfl, rfl⟩⟩
  rcases hn : p.nodes k with _ | n
  · rw [Option.bind_some, hn, Option.map_none]
    exact ⟨rfl, rfl, Or.inl ⟨rfl, rfl⟩, fun j n h => ⟨n, h, rfl, rfl, Or.inl rfl, rfl, rfl⟩⟩
  · rw [Option.bind_some, hn, Option.map_some]
    dsimp only
    refine ⟨rfl, rfl, Or.inr ⟨k, n, rfl, hn, rfl, rfl⟩, ?_⟩
    intro j n' h
    change (if j = k then _ else p.nodes j) = some n' at h
    by_cases e : j = k
    · rw [if_pos e] at h
      injection h with h
      subst h e
      exact ⟨n, hn, rfl, rfl, Or.inr rfl, rfl, rfl⟩
    · rw [if_neg e] at h
      exact ⟨n', h, rfl, rfl, Or.inl rfl, rfl, rfl⟩

/-- what the signed counters guarantee at any time -/
structure Inv (c : Cfg) (late : Prop) (w : World) : Prop where
  ts : ∀ p ∈ w.fromA, p.ts.toNat ≤ w.a.loc.toNat
  resp : ∀ p ∈ w.fromA, p.response.toNat ≤ w.b.loc.toNat
  query : ∀ p ∈ w.fromB, p.query.toNat ≤ w.b.loc.toNat
  nodeA : ∀ n, w.a.nodes 1 = some n → n.response.toNat ≤ w.b.loc.toNat
  nodeB : ∀ n, w.b.nodes 0 = some n → n.query.toNat ≤ w.b.loc.toNat
  acc : ∀ t ∈ w.accepted, t.toNat ≤ w.a.loc.toNat
  sorted : w.accepted.Pairwise (fun x y => y.toNat < x.toNat)
  pending : ∀ n, w.b.nodes 0 = some n → n.query ≠ 0 → ∀ p ∈ w.fromA, p.response = n.query → ∀ t ∈ w.accepted, t.toNat < p.ts.toNat
  last : ∀ n, w.b.nodes 0 = some n → (∀ t ∈ w.accepted, t.toNat ≤ n.last.toNat) ∨ (n.last = 0 ∧ late)
  fresh : w.b.nodes 0 = none → w.accepted = [] ∨ late
  window : late → c.window.toNat ≤ w.a.loc.toNat ∧ ∀ p ∈ w.fromA, c.window.toNat ≤ p.ts.toNat

theorem succ_toNat {x : UInt32} (h : x.toNat + 1 < 2 ^ 32) : (x + 1).toNat = x.toNat + 1 := by
  rw [UInt32.toNat_add]
  show (x.toNat + 1) % 2 ^ 32 = _
  omega

theorem eq_zero_of {x : UInt32} (h : x.toNat = 0) : x = 0 := UInt32.toNat_inj.mp h

/-- A sends -/
theorem inv_sendA {c : Cfg} {late : Prop} {w w' : World} {u : Bool} (h : Inv c late w) (hs : step c w (.sendA u) = some w') : Inv c late w' := by
  unfold step at hs
  dsimp only at hs
  by_cases hw : w.a.loc.toNat + 1 < 2 ^ 32
  rotate_left
  · rw [if_neg hw] at hs; cases hs
  rw [if_pos hw] at hs
  injection hs with hs
  subst hs
  obtain ⟨h1, h2, h3, h4⟩ := sendTo_spec w.a (if u then some 1 else none)
  have hl := succ_toNat hw
  have hr : (sendTo w.a (if u then some 1 else none)).2.response.toNat ≤ w.b.loc.toNat := by
    rcases h3 with ⟨_, e⟩ | ⟨j, n, hk, hn, _, e⟩
    · rw [e]; exact Nat.zero_le _
    · rw [e]
      have : j = 1 := by cases u <;> simp at hk; exact hk.symm
      subst this
      exact h.nodeA n hn
  constructor
  · intro p hp
    dsimp only at hp ⊢
    rw [h1, hl]
    rcases List.mem_append.mp hp with hp | hp
    · have := h.ts p hp; omega
    · rw [List.mem_singleton.mp hp, h2, hl]; exact Nat.le_refl _
  · intro p hp
    rcases List.mem_append.mp hp with hp | hp
    · exact h.resp p hp
    · rw [List.mem_singleton.mp hp]; exact hr
  · exact h.query
  · intro n hn
    obtain ⟨n0, hn0, _, _, e, _, _⟩ := h4 1 n hn
    rcases e with e | e
    · rw [e]; exact h.nodeA n0 hn0
    · rw [e]; exact Nat.zero_le _
  · exact h.nodeB
  · intro t ht
    dsimp only
    rw [h1, hl]
    have := h.acc t ht
    omega
  · exact h.sorted
  · intro n hn hq p hp he t ht
    rcases List.mem_append.mp hp with hp | hp
    · exact h.pending n hn hq p hp he t ht
    · rw [List.mem_singleton.mp hp, h2, hl]
      have := h.acc t ht
      omega
  · exact h.last
  · exact h.fresh
  · intro l
    obtain ⟨a, b⟩ := h.window l
    refine ⟨by dsimp only; rw [h1, hl]; omega, ?_⟩
    intro p hp
    rcases List.mem_append.mp hp with hp | hp
    · exact b p hp
    · rw [List.mem_singleton.mp hp, h2, hl]; omega

/-- B sends -/
theorem inv_sendB {c : Cfg} {late : Prop} {w w' : World} {u : Bool} (h : Inv c late w) (hs : step c w (.sendB u) = some w') : Inv c late w' := by
  unfold step at hs
  dsimp only at hs
  by_cases hw : w.b.loc.toNat + 1 < 2 ^ 32
  rotate_left
  · rw [if_neg hw] at hs; cases hs
  rw [if_pos hw] at hs
  injection hs with hs
  subst hs
  obtain ⟨h1, h2, h3, h4⟩ := sendTo_spec w.b (if u then some 0 else none)
  have hl := succ_toNat hw
  have hq : (sendTo w.b (if u then some 0 else none)).2.query.toNat ≤ w.b.loc.toNat := by
    rcases h3 with ⟨e, _⟩ | ⟨j, n, hk, hn, e, _⟩
    · rw [e]; exact Nat.zero_le _
    · rw [e]
      have : j = 0 := by cases u <;> simp at hk; exact hk.symm
      subst this
      exact h.nodeB n hn
  have up : ∀ {x : Nat}, x ≤ w.b.loc.toNat → x ≤ (sendTo w.b (if u then some 0 else none)).1.loc.toNat := by
    intro x hx; rw [h1, hl]; omega
  constructor
  · exact h.ts
  · exact fun p hp => up (h.resp p hp)
  · intro p hp
    apply up
    rcases List.mem_append.mp hp with hp | hp
    · exact h.query p hp
    · rw [List.mem_singleton.mp hp]; exact hq
  · exact fun n hn => up (h.nodeA n hn)
  · intro n hn
    obtain ⟨n0, hn0, _, e, _⟩ := h4 0 n hn
    rw [e]
    exact up (h.nodeB n0 hn0)
  · exact h.acc
  · exact h.sorted
  · intro n hn hq p hp he t ht
    obtain ⟨n0, hn0, _, e, _⟩ := h4 0 n hn
    rw [e] at hq he
    exact h.pending n0 hn0 hq p hp he t ht
  · intro n hn
    obtain ⟨n0, hn0, e, _⟩ := h4 0 n hn
    rw [e]
    exact h.last n0 hn0
  · intro hn
    apply h.fresh
    dsimp only at hn
    unfold sendTo at hn
    revert hn
    rcases hx : w.b.nodes 0 with _ | n
    · intro _; rfl
    · cases u
      · intro hn
        change w.b.nodes 0 = none at hn
        rw [hx] at hn; cases hn
      · simp only [if_true, Option.bind_some, hx, Option.map_some]
        intro hn
        cases hn
  · exact h.window

/-- the network delivers to A -/
theorem inv_toA {c : Cfg} {late : Prop} {w w' : World} {now i : Nat} (h : Inv c late w) (hs : step c w (.toA now i) = some w') : Inv c late w' := by
  unfold step at hs
  dsimp only at hs
  rcases hi : w.fromB[i]? with _ | p
  · rw [hi] at hs; cases hs
  rw [hi] at hs
  dsimp only at hs
  by_cases hw : w.a.loc.toNat + 1 < 2 ^ 32
  rotate_left
  · rw [if_neg hw] at hs; cases hs
  rw [if_pos hw] at hs
  injection hs with hs
  subst hs
  have hp := List.mem_of_getElem? hi
  obtain ⟨n', hn', hr, _, hc⟩ := receive_spec c now w.a 1 p
  have hl := succ_toNat hw
  have up : w.a.loc.toNat ≤ (receive c now w.a 1 p).1.loc.toNat := by
    rcases hc with ⟨_, _, _, _, e⟩ | ⟨_, _, _, e⟩ | ⟨_, _, _, e⟩ <;> rw [e] <;> omega
  constructor
  · exact fun q hq => Nat.le_trans (h.ts q hq) up
  · exact h.resp
  · exact h.query
  · intro n hn
    dsimp only at hn
    rw [hn'] at hn
    injection hn with hn
    rw [← hn, hr]
    exact h.query p hp
  · exact h.nodeB
  · exact fun t ht => Nat.le_trans (h.acc t ht) up
  · exact h.sorted
  · exact h.pending
  · exact h.last
  · exact h.fresh
  · exact fun l => ⟨Nat.le_trans (h.window l).1 up, (h.window l).2⟩

/-- the network delivers to B -/
theorem inv_toB {c : Cfg} {late : Prop} {w w' : World} {now i : Nat} (h : Inv c late w) (hs : step c w (.toB now i) = some w') : Inv c late w' := by
  unfold step at hs
  dsimp only at hs
  rcases hi : w.fromA[i]? with _ | p
  · rw [hi] at hs; cases hs
  rw [hi] at hs
  dsimp only at hs
  by_cases hw : w.b.loc.toNat + 1 < 2 ^ 32
  rotate_left
  · rw [if_neg hw] at hs; cases hs
  rw [if_pos hw] at hs
  injection hs with hs
  subst hs
  have hp := List.mem_of_getElem? hi
  obtain ⟨n', hn', _, _, hc⟩ := receive_spec c now w.b 0 p
  have hl := succ_toNat hw
  have up : w.b.loc.toNat ≤ (receive c now w.b 0 p).1.loc.toNat := by
    rcases hc with ⟨_, _, _, _, e⟩ | ⟨_, _, _, e⟩ | ⟨_, _, _, e⟩ <;> rw [e] <;> omega
  have inj : ∀ {n}, (receive c now w.b 0 p).1.nodes 0 = some n → n = n' := by
    intro n hn; rw [hn'] at hn; injection hn with hn; exact hn.symm
  have old : ∀ t ∈ w.accepted, ∀ n, w.b.nodes 0 = some n → valid c n p.ts p.response = true → t.toNat < p.ts.toNat := by
    intro t ht n hn hv
    simp only [valid, Bool.or_eq_true, Bool.and_eq_true, decide_eq_true_eq, beq_iff_eq] at hv
    rcases hv with ⟨h1, h2⟩ | ⟨h1, h2⟩
    · exact h.pending n hn (by intro e; rw [e] at h1; exact absurd h1 (by decide)) p hp h2 t ht
    · rw [UInt32.lt_iff_toNat_lt] at h1 h2
      rcases h.last n hn with hle | ⟨hz, l⟩
      · have := hle t ht; omega
      · have := (h.window l).2 p hp
        rw [hz] at h2
        simp at h2
        omega
  have node0 : ∀ {n}, (w.b.nodes 0).getD Node.zero = n → w.b.nodes 0 = some n ∨ (w.b.nodes 0 = none ∧ n = Node.zero) := by
    intro n e
    rcases hx : w.b.nodes 0 with _ | m
    · rw [hx] at e; exact Or.inr ⟨rfl, e.symm⟩
    · rw [hx] at e; exact Or.inl (by rw [← show m = n from e])
  rcases hc with ⟨e1, ⟨n, hn, hv⟩, e2, e3, e4⟩ | ⟨e1, e2, e3, e4⟩ | ⟨e1, e2, e3, e4⟩
  · rw [e1]
    constructor
    · exact h.ts
    · exact fun q hq => Nat.le_trans (h.resp q hq) up
    · exact fun q hq => Nat.le_trans (h.query q hq) up
    · exact fun q hq => Nat.le_trans (h.nodeA q hq) up
    · intro m hm
      rw [inj hm, e3]; exact Nat.zero_le _
    · intro t ht
      rcases List.mem_cons.mp ht with rfl | ht
      · exact h.ts p hp
      · exact h.acc t ht
    · exact List.pairwise_cons.mpr ⟨fun t ht => old t ht n hn hv, h.sorted⟩
    · intro m hm hq
      rw [inj hm] at hq
      exact absurd e3 hq
    · intro m hm
      left
      intro t ht
      rw [inj hm, e2]
      rcases List.mem_cons.mp ht with rfl | ht
      · exact Nat.le_refl _
      · exact Nat.le_of_lt (old t ht n hn hv)
    · intro hm
      dsimp only at hm
      rw [hn'] at hm; cases hm
    · exact h.window
  · rw [e1]
    constructor
    · exact h.ts
    · exact fun q hq => Nat.le_trans (h.resp q hq) up
    · exact fun q hq => Nat.le_trans (h.query q hq) up
    · exact fun q hq => Nat.le_trans (h.nodeA q hq) up
    · intro m hm
      rw [inj hm, e3]
      rcases node0 rfl with hx | ⟨_, hx⟩
      · exact Nat.le_trans (h.nodeB _ hx) up
      · rw [hx]; exact Nat.zero_le _
    · exact h.acc
    · exact h.sorted
    · intro m hm hq q hq' he t ht
      rw [inj hm, e3] at hq he
      rcases node0 rfl with hx | ⟨_, hx⟩
      · exact h.pending _ hx hq q hq' he t ht
      · rw [hx] at hq; exact absurd rfl hq
    · intro m hm
      rw [inj hm, e2]
      rcases node0 rfl with hx | ⟨hx, hz⟩
      · exact h.last _ hx
      · rcases h.fresh hx with h0 | l
        · left; intro t ht; simp [h0] at ht
        · right; rw [hz]; exact ⟨rfl, l⟩
    · intro hm
      dsimp only at hm
      rw [hn'] at hm; cases hm
    · exact h.window
  · rw [e1]
    constructor
    · exact h.ts
    · exact fun q hq => Nat.le_trans (h.resp q hq) up
    · exact fun q hq => Nat.le_trans (h.query q hq) up
    · exact fun q hq => Nat.le_trans (h.nodeA q hq) up
    · intro m hm
      rw [inj hm, e3]
      dsimp only
      rw [e4]
      exact Nat.le_refl _
    · exact h.acc
    · exact h.sorted
    · intro m hm hq q hq' he t ht
      rw [inj hm, e3] at he
      have := h.resp q hq'
      rw [he, hl] at this
      omega
    · intro m hm
      rw [inj hm, e2]
      rcases node0 rfl with hx | ⟨hx, hz⟩
      · exact h.last _ hx
      · rcases h.fresh hx with h0 | l
        · left; intro t ht; simp [h0] at ht
        · right; rw [hz]; exact ⟨rfl, l⟩
    · intro hm
      dsimp only at hm
      rw [hn'] at hm; cases hm
    · exact h.window

/-- a node forgets the other one -/
theorem inv_expireA {c : Cfg} {late : Prop} {w : World} (h : Inv c late w) : Inv c late { w with a := expire w.a 1 } := by
  refine ⟨h.ts, h.resp, h.query, ?_, h.nodeB, h.acc, h.sorted, h.pending, h.last, h.fresh, h.window⟩
  intro n hn
  have e : (expire w.a 1).nodes 1 = none := by simp [expire, Party.set]
  dsimp only at hn
  rw [e] at hn
  cases hn

theorem inv_expireB {c : Cfg} {late : Prop} {w : World} (h : Inv c late w) (hl : late) : Inv c late { w with b := expire w.b 0 } := by
  have hn : ∀ n, (expire w.b 0).nodes 0 ≠ some n := by
    intro n hn
    have e : (expire w.b 0).nodes 0 = none := by simp [expire, Party.set]
    rw [e] at hn
    cases hn
  refine ⟨h.ts, h.resp, h.query, h.nodeA, ?_, h.acc, h.sorted, ?_, ?_, fun _ => Or.inr hl, h.window⟩
  · exact fun n e => absurd e (hn n)
  · exact fun n e => absurd e (hn n)
  · exact fun n e => absurd e (hn n)

theorem inv_start (c : Cfg) (la lb : UInt32) : Inv c (c.window.toNat ≤ la.toNat) (start la lb) := by
  refine ⟨?_, ?_, ?_, ?_, ?_, ?_, List.Pairwise.nil, ?_, ?_, fun _ => Or.inl rfl, fun h => ⟨h, ?_⟩⟩ <;> intro x hx <;> cases hx

theorem inv_run {c : Cfg} {late : Prop} : ∀ {ops : List Op} {w w' : World}, Inv c late w → (late ∨ Op.expireB ∉ ops) → run c w ops = some w' → Inv c late w'
  | [], w, w', h, _, hr => by injection hr with hr; rw [← hr]; exact h
  | o :: ops, w, w', h, hl, hr => by
    rw [run] at hr
    obtain ⟨w1, hs, hr⟩ := Option.bind_eq_some_iff.mp hr
    refine inv_run (ops := ops) ?_ (hl.imp id (fun x y => x (List.mem_cons_of_mem _ y))) hr
    cases o with
    | sendA u => exact inv_sendA h hs
    | sendB u => exact inv_sendB h hs
    | toA now i => exact inv_toA h hs
    | toB now i => exact inv_toB h hs
    | expireA => injection hs with hs; rw [← hs]; exact inv_expireA h
    | expireB =>
      injection hs with hs; rw [← hs]
      rcases hl with hl | hl
      · exact inv_expireB h hl
      · exact absurd List.mem_cons_self hl

end Verif.Replay
