import Verif.Tc.ReadLemmas

/-! Reception of TC messages. -/
namespace Verif.Tc
open Verif.Netaddr (Netaddr)

/-! ### what has been read -/

theorem lastEntry_append (p : List Address) (a : Address) (x : Netaddr) : lastEntry (p ++ [a]) x = if a.neighbor && decide (a.addr = x) then some a else lastEntry p x := by
  unfold lastEntry
  rw [List.filter_append]
  cases hc : a.neighbor && decide (a.addr = x) with
  | true =>
    rw [List.filter_cons_of_pos (by exact hc), List.filter_nil, List.getLast?_append]
    simp
  | false =>
    rw [List.filter_cons_of_neg (by rw [hc]; simp), List.filter_nil, List.append_nil]
    simp

/-- edges of node `i` with the current sequence number -/
structure ReadE (db : Db) (i : Nat) (ansn : UInt16) (p : List Address) : Prop where
  only : ∀ e ed m, db.edges e = some ed → ed.src = i → ed.virt = false → ed.ansn = ansn → db.nodes ed.dst = some m → ∃ a, lastEntry p m.addr = some a ∧ a.metrics = ed.cost
  all : ∀ x a, lastEntry p x = some a → ∃ e ed m, db.edges e = some ed ∧ ed.src = i ∧ ed.virt = false ∧ ed.ansn = ansn ∧ db.nodes ed.dst = some m ∧ m.addr = x

/-- attachments of node `i` with the current sequence number -/
structure ReadA (db : Db) (i : Nat) (ansn : UInt16) (K : List Key) : Prop where
  only : ∀ t x en, db.atts t = some x → x.src = i → x.ansn = ansn → db.ends x.dst = some en → en.key ∈ K
  all : ∀ k ∈ K, ∃ t x en, db.atts t = some x ∧ x.src = i ∧ x.ansn = ansn ∧ db.ends x.dst = some en ∧ en.key = k

theorem EdgeRead.readE {db db' : Db} {i : Nat} {a : Address} {ansn : UInt16} {p : List Address} (w : WF db) (w' : WF db') (r : EdgeRead db db' i a ansn) (h : ReadE db i ansn p)
    (hnb : a.neighbor = true) (hok : a.enough) (hl : a.costOut.length = DOMAINS) : ReadE db' i ansn (p ++ [a]) := by
  refine ⟨?_, ?_⟩
  · intro e ed m hed hs hv han hm
    rw [lastEntry_append, hnb]
    rcases r.new e ed hed hs hv with ⟨h1, h2⟩ | ⟨m', hm', h1, h2, h3⟩
    · obtain ⟨m0, hm0⟩ := w.edge.dst e ed h1
      obtain ⟨m1, hm1, b1, _⟩ := r.node _ m0 hm0
      rw [hm] at hm1
      injection hm1 with hm1
      rw [← hm1] at b1
      have : a.addr ≠ m.addr := by
        rw [b1]
        exact fun e => h2 m0 hm0 e.symm
      rw [if_neg (by simp [this]), b1]
      exact h.only e ed m0 h1 hs hv han hm0
    · rw [hm] at hm'
      injection hm' with hm'
      rw [if_pos (by simp [hm', h1])]
      exact ⟨a, rfl, (h3 hl).symm⟩
  · intro x b hb
    rw [lastEntry_append, hnb] at hb
    by_cases hx : a.addr = x
    · obtain ⟨e, ed, m, q1, q2, q3, q4, q5, q6⟩ := r.result hok.1 hok.2.1
      exact ⟨e, ed, m, q1, q2, q3, q4, q5, q6.trans hx⟩
    · rw [if_neg (by simp [hx])] at hb
      obtain ⟨e, ed, m, q1, q2, q3, q4, q5, q6⟩ := h.all x b hb
      obtain ⟨m1, hm1, b1, _⟩ := r.node _ m q5
      refine ⟨e, ed, m1, r.keep e ed q1 q2 ?_, q2, q3, q4, hm1, b1.trans q6⟩
      intro m2 hm2 h2
      rw [q5] at hm2
      injection hm2 with hm2
      rw [← hm2, q6] at h2
      exact hx h2.symm

theorem EdgeRead.readA {db db' : Db} {i : Nat} {a : Address} {ansn : UInt16} {K : List Key} (r : EdgeRead db db' i a ansn) (h : ReadA db i ansn K) : ReadA db' i ansn K := by
  refine ⟨?_, ?_⟩
  · rw [r.atts, r.ends]; exact h.only
  · rw [r.atts, r.ends]; exact h.all

theorem AttAdded.readA {db db' : Db} {i : Nat} {key : Key} {ansn : UInt16} {done : Prop} {K : List Key} (w : WF db) (r : AttAdded db db' i key ansn done) (hd : done) (h : ReadA db i ansn K) : ReadA db' i ansn (K ++ [key]) := by
  refine ⟨?_, ?_⟩
  · intro t x en hx hs han hen
    rw [List.mem_append]
    rcases r.new t x hx hs with h1 | ⟨en', h1, h2⟩
    · left
      obtain ⟨e0, he0⟩ := w.att.dst t x h1
      obtain ⟨e1, he1, hk⟩ := r.ends _ e0 he0
      rw [hen] at he1
      injection he1 with he1
      rw [he1, hk]
      exact h.only t x e0 h1 hs han he0
    · right
      rw [hen] at h1
      injection h1 with h1
      rw [h1, h2]
      simp
  · intro k hk
    rw [List.mem_append] at hk
    rcases hk with hk | hk
    · obtain ⟨t, x, en, q1, q2, q3, q4, q5⟩ := h.all k hk
      obtain ⟨y, hy, s1, s2, s3⟩ := r.keep t x q1
      obtain ⟨e1, he1, hk'⟩ := r.ends _ en q4
      refine ⟨t, y, e1, hy, s1.trans q2, ?_, by rw [s2]; exact he1, hk'.trans q5⟩
      rcases s3 with s3 | s3
      · rw [s3]; exact q3
      · exact s3
    · rw [List.mem_singleton] at hk
      rw [hk]
      exact r.result hd

theorem AttAdded.readE {db db' : Db} {i : Nat} {key : Key} {ansn : UInt16} {done : Prop} {p : List Address} (r : AttAdded db db' i key ansn done) (h : ReadE db i ansn p) : ReadE db' i ansn p := by
  refine ⟨?_, ?_⟩
  · intro e ed m hed hs hv han hm
    rw [r.edges] at hed
    obtain ⟨m0, hm0, he⟩ := r.same.get hm
    unfold main at he
    injection he with he _
    rw [he]
    exact h.only e ed m0 hed hs hv han hm0
  · intro x a ha
    obtain ⟨e, ed, m, q1, q2, q3, q4, q5, q6⟩ := h.all x a ha
    obtain ⟨m0, hm0, he⟩ := r.same.put q5
    unfold main at he
    injection he with he _
    exact ⟨e, ed, m0, by rw [r.edges]; exact q1, q2, q3, q4, hm0, by rw [← he]; exact q6⟩

theorem ReadE.skip {db : Db} {i : Nat} {ansn : UInt16} {p : List Address} (h : ReadE db i ansn p) {a : Address} (hnb : a.neighbor = false) : ReadE db i ansn (p ++ [a]) := by
  have : lastEntry (p ++ [a]) = lastEntry p := by
    funext x
    rw [lastEntry_append, hnb]
    rfl
  refine ⟨?_, ?_⟩
  · rw [this]; exact h.only
  · rw [this]; exact h.all

/-! ### one address -/

/-- the node of the message stays -/
def Stays (db db' : Db) (i : Nat) : Prop := ∀ n, db.nodes i = some n → ∃ n', db'.nodes i = some n' ∧ n'.addr = n.addr ∧ n'.ansn = n.ansn ∧ n'.timer = n.timer

theorem Stays.trans {a b c : Db} {i : Nat} (h1 : Stays a b i) (h2 : Stays b c i) : Stays a c i := by
  intro n hn
  obtain ⟨n1, q1, q2, q3, q4⟩ := h1 n hn
  obtain ⟨n2, r1, r2, r3, r4⟩ := h2 n1 q1
  exact ⟨n2, r1, r2.trans q2, r3.trans q3, r4.trans q4⟩

theorem AttAdded.stays {db db' : Db} {i j : Nat} {key : Key} {ansn : UInt16} {done : Prop} (r : AttAdded db db' i key ansn done) : Stays db db' j := by
  intro n hn
  obtain ⟨n', hn', he⟩ := r.same.put hn
  unfold main at he
  injection he with h1 he
  injection he with h2 he
  injection he with _ he
  injection he with h4 _
  exact ⟨n', hn', h1.symm, h2.symm, h4.symm⟩

theorem address_spec {s : St} (w : WF s.db) {i : Nat} {n : Node} (hi : s.node = some i) (hn : s.db.nodes i = some n) (a : Address) (hne : a.neighbor = true → n.addr ≠ a.addr) :
    ∃ s', address s a = some s' ∧ WF s'.db ∧ s'.node = some i ∧ s'.complete = s.complete ∧ Stays s.db s'.db i ∧ (n.timer = true → Sup s.db → Sup s'.db) ∧
      (a.enough → a.costOut.length = DOMAINS → ∀ p, ReadE s.db i n.ansn p → ReadA s.db i n.ansn (p.flatMap Address.prefixes) →
        ReadE s'.db i n.ansn (p ++ [a]) ∧ ReadA s'.db i n.ansn ((p ++ [a]).flatMap Address.prefixes)) := by
  -- first part
  have first : ∃ db1, readNeighbor s.db s.complete i a = some db1 ∧
      WF db1 ∧ Stays s.db db1 i ∧ (n.timer = true → Sup s.db → Sup db1) ∧
      (a.enough → a.costOut.length = DOMAINS → ∀ p K, ReadE s.db i n.ansn p → ReadA s.db i n.ansn K →
        ReadE db1 i n.ansn (p ++ [a]) ∧ ReadA db1 i n.ansn (K ++ if a.routable then [a.key] else [])) := by
    have hnbr : a.neighbor = (match a.nbr with | some v => decide (v &&& 1 ≠ 0) | none => false) := rfl
    have hrt : a.routable = (match a.nbr with | some v => decide (v &&& 1 = 0) && decide (v &&& 2 ≠ 0) | none => false) := rfl
    unfold readNeighbor
    cases hv : a.nbr with
    | none =>
      rw [hv] at hnbr hrt
      refine ⟨s.db, rfl, w, fun n hn => ⟨n, hn, rfl, rfl, rfl⟩, fun _ h => h, fun _ _ p K h1 h2 => ⟨h1.skip hnbr, ?_⟩⟩
      rw [hrt]
      simpa using h2
    | some v =>
      rw [hv] at hnbr hrt
      dsimp only at hnbr hrt ⊢
      by_cases h1 : v &&& 1 ≠ 0
      · rw [if_pos h1]
        have hn1 : a.neighbor = true := by rw [hnbr]; exact decide_eq_true h1
        have hr1 : a.routable = false := by rw [hrt]; simp [h1]
        obtain ⟨db1, e1, w1, s1, r1⟩ := readEdge_spec w hn s.complete a (hne hn1)
        refine ⟨db1, e1, w1, ?_, s1, ?_⟩
        · intro y hy
          obtain ⟨y', q1, q2, q3, _, q4⟩ := r1.node i y hy
          exact ⟨y', q1, q2, q3, q4⟩
        · intro hok hl p K hp hk
          refine ⟨r1.readE w w1 hp hn1 hok hl, ?_⟩
          rw [hr1]
          simpa using r1.readA hk
      · rw [if_neg h1]
        have hn1 : a.neighbor = false := by rw [hnbr]; exact decide_eq_false h1
        by_cases h2 : v &&& 2 ≠ 0
        · rw [if_pos h2]
          have hr1 : a.routable = true := by
            rw [hrt]
            have : v &&& 1 = 0 := by
              by_cases q : v &&& 1 = 0
              · exact q
              · exact absurd q h1
            simp [this, h2]
          obtain ⟨db1, e1, w1, s1, r1⟩ := readRoutable_spec w hn s.complete a
          refine ⟨db1, e1, w1, r1.stays, s1, ?_⟩
          intro hok hl p K hp hk
          refine ⟨(r1.readE hp).skip hn1, ?_⟩
          rw [hr1]
          exact r1.readA w ⟨hok.1, hok.2.2.1⟩ hk
        · rw [if_neg h2]
          have hr1 : a.routable = false := by rw [hrt, decide_eq_false h2]; simp
          refine ⟨s.db, rfl, w, fun n hn => ⟨n, hn, rfl, rfl, rfl⟩, fun _ h => h, fun _ _ p K q1 q2 => ⟨q1.skip hn1, ?_⟩⟩
          rw [hr1]
          simpa using q2
  obtain ⟨db1, e1, w1, st1, su1, p1⟩ := first
  obtain ⟨n1, hn1, b1, b2, b3⟩ := st1 n hn
  unfold address
  rw [hi]
  dsimp only
  rw [e1]
  dsimp only
  cases hg : a.gw with
  | none =>
    dsimp only
    refine ⟨_, rfl, w1, rfl, rfl, st1, su1, ?_⟩
    intro hok hl p hp hk
    obtain ⟨q1, q2⟩ := p1 hok hl p _ hp hk
    refine ⟨q1, ?_⟩
    rw [List.flatMap_append]
    simp only [List.flatMap_cons, List.flatMap_nil, List.append_nil]
    have hpre : a.prefixes = if a.routable then [a.key] else [] := by
      unfold Address.prefixes
      rw [hg]
      simp
    rw [hpre]
    exact q2
  | some g =>
    dsimp only
    obtain ⟨db2, e2, w2, su2, r2⟩ := readGateway_spec w1 hn1 s.complete a g
    rw [e2]
    refine ⟨_, rfl, w2, rfl, rfl, st1.trans r2.stays, fun ht hs => su2 (by rw [b3]; exact ht) (su1 ht hs), ?_⟩
    intro hok hl p hp hk
    obtain ⟨q1, q2⟩ := p1 hok hl p _ hp hk
    rw [b2] at r2
    refine ⟨r2.readE q1, ?_⟩
    have := r2.readA w1 (hok.2.2.2 g hg) q2
    rw [List.flatMap_append]
    simp only [List.flatMap_cons, List.flatMap_nil, List.append_nil]
    have hpre : a.prefixes = (if a.routable then [a.key] else []) ++ [g.key] := by
      unfold Address.prefixes
      rw [hg]
    rw [hpre]
    rw [List.append_assoc] at this
    exact this

theorem addresses_spec {i : Nat} : ∀ (l : List Address) {s : St} {n : Node}, WF s.db → s.node = some i → s.db.nodes i = some n → (∀ a ∈ l, a.neighbor = true → n.addr ≠ a.addr) →
    ∃ s', l.foldlM address s = some s' ∧ WF s'.db ∧ s'.node = some i ∧ s'.complete = s.complete ∧ Stays s.db s'.db i ∧ (n.timer = true → Sup s.db → Sup s'.db) ∧
      ((∀ a ∈ l, a.enough ∧ a.costOut.length = DOMAINS) → ∀ p, ReadE s.db i n.ansn p → ReadA s.db i n.ansn (p.flatMap Address.prefixes) →
        ReadE s'.db i n.ansn (p ++ l) ∧ ReadA s'.db i n.ansn ((p ++ l).flatMap Address.prefixes))
  | [], s, n, w, hi, hn, _ => by
    refine ⟨s, rfl, w, hi, rfl, fun n hn => ⟨n, hn, rfl, rfl, rfl⟩, fun _ h => h, fun _ p h1 h2 => ?_⟩
    rw [List.append_nil]
    exact ⟨h1, h2⟩
  | a :: l, s, n, w, hi, hn, hne => by
    obtain ⟨s1, e1, w1, i1, c1, st1, su1, p1⟩ := address_spec w hi hn a (hne a (by simp))
    obtain ⟨n1, hn1, b1, b2, b3⟩ := st1 n hn
    obtain ⟨s2, e2, w2, i2, c2, st2, su2, p2⟩ := addresses_spec l w1 i1 hn1 (fun a ha h => by rw [b1]; exact hne a (by simp [ha]) h)
    refine ⟨s2, ?_, w2, i2, c2.trans c1, st1.trans st2, fun ht hs => su2 (by rw [b3]; exact ht) (su1 ht hs), ?_⟩
    · rw [List.foldlM_cons, e1]
      exact e2
    · intro hok p hp hk
      obtain ⟨o1, o2⟩ := hok a (by simp)
      obtain ⟨q1, q2⟩ := p1 o1 o2 p hp hk
      rw [b2] at p2
      have := p2 (fun b hb => hok b (by simp [hb])) (p ++ [a]) q1 q2
      rw [List.append_assoc] at this
      exact this

/-! ### the end of a message -/

structure SweptE (db db' : Db) (i : Nat) (l : List Nat) (ansn : UInt16) : Prop where
  keep : ∀ e x, db.edges e = some x → x.src = i → x.ansn = ansn → db'.edges e = some x
  only : ∀ e x, db'.edges e = some x → x.src = i → x.virt = false → db.edges e = some x ∧ (e ∈ l → x.ansn = ansn)
  node : ∀ j x, db'.nodes j = some x → ∃ y, db.nodes j = some y ∧ x.addr = y.addr
  self : Stays db db' i
  att : ∀ a x, x.src = i → (db'.atts a = some x ↔ db.atts a = some x)
  ends : ∀ j y, db'.ends j = some y → ∃ z, db.ends j = some z ∧ z.key = y.key

theorem sweepEdges {i : Nat} {ansn : UInt16} : ∀ (l : List Nat) {db : Db}, WF db → l.Nodup → (∀ e ∈ l, ∃ ed, db.edges e = some ed ∧ ed.src = i) →
    ∃ db', l.foldlM (sweepEdge ansn) db = some db' ∧ WF db' ∧ (Sup db → Sup db') ∧ SweptE db db' i l ansn
  | [], db, w, _, _ => ⟨db, rfl, w, fun h => h, ⟨fun _ _ h _ _ => h, fun e x h _ _ => ⟨h, fun hh => by cases hh⟩, fun j x h => ⟨x, h, rfl⟩, fun n hn => ⟨n, hn, rfl, rfl, rfl⟩,
      fun _ _ _ => Iff.rfl, fun j y h => ⟨y, h, rfl⟩⟩⟩
  | e :: l, db, w, hd, hl => by
    obtain ⟨ed, hed, hs⟩ := hl e (by simp)
    rw [List.nodup_cons] at hd
    by_cases han : ed.ansn = ansn
    · have e1 : sweepEdge ansn db e = some db := by
        unfold sweepEdge
        rw [hed]
        dsimp only
        rw [if_neg (by simp [han])]
      obtain ⟨db2, e2, w2, su2, r2⟩ := sweepEdges (i := i) (ansn := ansn) l w hd.2 (fun e he => hl e (by simp [he]))
      refine ⟨db2, ?_, w2, su2, ⟨r2.keep, ?_, r2.node, r2.self, r2.att, r2.ends⟩⟩
      · rw [List.foldlM_cons, e1]
        exact e2
      · intro e' x hx hs' hv
        obtain ⟨q1, q2⟩ := r2.only e' x hx hs' hv
        refine ⟨q1, ?_⟩
        intro hmem
        rcases List.mem_cons.1 hmem with h1 | h1
        · rw [h1, hed] at q1
          injection q1 with q1
          rw [← q1]; exact han
        · exact q2 h1
    · obtain ⟨db1, e1, w1, r1, su1⟩ := edgeRemove_wf w hed
      have e1' : sweepEdge ansn db e = some db1 := by
        unfold sweepEdge
        rw [hed]
        dsimp only
        rw [if_pos han]
        exact e1
      have hne := w.edge.ne e ed hed
      have hninv : ∀ e' x, db.edges e' = some x → x.src = i → e' ≠ ed.inv := by
        intro e' x hx hxs he
        obtain ⟨inv, hinv, _, i2, _⟩ := w.edge.inv e ed hed
        rw [he, hinv] at hx
        injection hx with hx
        rw [← hx, i2] at hxs
        exact hne (hs.trans hxs.symm)
      have hkeep : ∀ e' x, e' ≠ e → db.edges e' = some x → x.src = i → db1.edges e' = some x := by
        intro e' x h1 hx hxs
        rw [r1.keep e' h1 (hninv e' x hx hxs)]
        exact hx
      have self1 : Stays db db1 i := by
        intro n hn
        obtain ⟨n', q1, q2, q3, _, q5⟩ := r1.self n (by rw [hs]; exact hn)
        exact ⟨n', by rw [← hs]; exact q1, q2, q3, q5⟩
      obtain ⟨db2, e2, w2, su2, r2⟩ := sweepEdges (i := i) (ansn := ansn) l w1 hd.2 (by
        intro e' he'
        obtain ⟨x, hx, hxs⟩ := hl e' (by simp [he'])
        refine ⟨x, hkeep e' x ?_ hx hxs, hxs⟩
        intro h1
        rw [h1] at he'
        exact hd.1 he')
      refine ⟨db2, ?_, w2, fun h => su2 (su1 h), ⟨?_, ?_, ?_, self1.trans r2.self, ?_, ?_⟩⟩
      · rw [List.foldlM_cons, e1']
        exact e2
      · intro e' x hx hxs hxa
        refine r2.keep e' x (hkeep e' x ?_ hx hxs) hxs hxa
        intro h1
        rw [h1, hed] at hx
        injection hx with hx
        rw [← hx] at hxa
        exact han hxa
      · intro e' x hx hxs hv
        obtain ⟨q1, q2⟩ := r2.only e' x hx hxs hv
        obtain ⟨y, hy, _, _, t3, t4⟩ := r1.edge e' x q1
        have hee : e' ≠ e := by
          intro h1
          rw [t3 h1] at hv; cases hv
        have := t4 hee
        subst this
        refine ⟨hy, ?_⟩
        intro hmem
        rcases List.mem_cons.1 hmem with h1 | h1
        · exact absurd h1 hee
        · exact q2 h1
      · intro j x hx
        obtain ⟨y, hy, b1⟩ := r2.node j x hx
        by_cases hj : j = ed.src
        · obtain ⟨n, hn⟩ := w.edge.src e ed hed
          obtain ⟨n', q1, q2, _⟩ := r1.self n hn
          rw [hj, q1] at hy
          injection hy with hy
          rw [hj]
          exact ⟨n, hn, by rw [b1, ← hy]; exact q2⟩
        · obtain ⟨z, hz, k⟩ := r1.node j y hj hy
          exact ⟨z, hz, b1.trans k.addr⟩
      · intro a x hxs
        rw [r2.att a x hxs]
        exact ⟨r1.att a x, fun h => r1.attkeep a x h (by rw [hxs, ← hs]; exact hne)⟩
      · intro j y hy
        obtain ⟨z, hz, k1⟩ := r2.ends j y hy
        obtain ⟨u, hu, k2⟩ := r1.ends j z hz
        exact ⟨u, hu, k2.trans k1⟩

theorem sweepAtts {i : Nat} {ansn : UInt16} : ∀ (l : List Nat) {db : Db}, WF db → l.Nodup → (∀ a ∈ l, ∃ x, db.atts a = some x ∧ x.src = i) →
    ∃ db', l.foldlM (sweepAtt ansn) db = some db' ∧ WF db' ∧ (Sup db → Sup db') ∧ db'.edges = db.edges ∧ Same main db db' ∧
      (∀ b x, db'.atts b = some x ↔ (db.atts b = some x ∧ (b ∈ l → x.ansn = ansn))) ∧ ∀ j y, db'.ends j = some y → ∃ z, db.ends j = some z ∧ z.key = y.key
  | [], db, w, _, _ => ⟨db, rfl, w, fun h => h, rfl, Same.refl _ _, fun b x => ⟨fun h => ⟨h, fun hh => by cases hh⟩, fun h => h.1⟩, fun j y h => ⟨y, h, rfl⟩⟩
  | a :: l, db, w, hd, hl => by
    obtain ⟨at_, hat, hs⟩ := hl a (by simp)
    rw [List.nodup_cons] at hd
    by_cases han : at_.ansn = ansn
    · have e1 : sweepAtt ansn db a = some db := by
        unfold sweepAtt
        rw [hat]
        dsimp only
        rw [if_neg (by simp [han])]
      obtain ⟨db2, e2, w2, su2, g2, s2, a2, x2⟩ := sweepAtts (i := i) (ansn := ansn) l w hd.2 (fun e he => hl e (by simp [he]))
      refine ⟨db2, ?_, w2, su2, g2, s2, ?_, x2⟩
      · rw [List.foldlM_cons, e1]
        exact e2
      · intro b x
        rw [a2]
        constructor
        · rintro ⟨h1, h2⟩
          refine ⟨h1, ?_⟩
          intro hmem
          rcases List.mem_cons.1 hmem with h3 | h3
          · rw [h3, hat] at h1
            injection h1 with h1
            rw [← h1]; exact han
          · exact h2 h3
        · rintro ⟨h1, h2⟩
          exact ⟨h1, fun h3 => h2 (List.mem_cons_of_mem _ h3)⟩
    · obtain ⟨db1, e1, w1, g1, t1, s1, a1, x1⟩ := endpointRemove_spec w hat
      have e1' : sweepAtt ansn db a = some db1 := by
        unfold sweepAtt
        rw [hat]
        dsimp only
        rw [if_pos han]
        exact e1
      obtain ⟨db2, e2, w2, su2, g2, s2, a2, x2⟩ := sweepAtts (i := i) (ansn := ansn) l w1 hd.2 (by
        intro b hb
        obtain ⟨x, hx, hxs⟩ := hl b (by simp [hb])
        refine ⟨x, (a1 b x).2 ⟨?_, hx⟩, hxs⟩
        intro h1
        rw [h1] at hb
        exact hd.1 hb)
      refine ⟨db2, ?_, w2, ?_, g2.trans g1, Same.trans s1 s2, ?_, ?_⟩
      · rw [List.foldlM_cons, e1']
        exact e2
      · intro h
        refine su2 (h.atts g1 s1 ?_)
        intro b x hx
        exact .inl ((a1 b x).1 hx).2
      · intro b x
        rw [a2, a1]
        constructor
        · rintro ⟨⟨h1, h2⟩, h3⟩
          refine ⟨h2, ?_⟩
          intro hmem
          rcases List.mem_cons.1 hmem with h4 | h4
          · exact absurd h4 h1
          · exact h3 h4
        · rintro ⟨h1, h2⟩
          refine ⟨⟨?_, h1⟩, fun h3 => h2 (List.mem_cons_of_mem _ h3)⟩
          intro h3
          have := h2 (by rw [h3]; simp)
          rw [h3, hat] at h1
          injection h1 with h1
          rw [← h1] at this
          exact han this
      · intro j y hy
        obtain ⟨z, hz, k1⟩ := x2 j y hy
        obtain ⟨u, hu, k2⟩ := x1 j z hz
        exact ⟨u, hu, k2.trans k1⟩

theorem finish_spec {s : St} (w : WF s.db) {i : Nat} {n : Node} (hi : s.node = some i) (hn : s.db.nodes i = some n) :
    ∃ s', finish s = some s' ∧ WF s'.db ∧ s'.node = none ∧ (Sup s.db → Sup s'.db) ∧ Stays s.db s'.db i ∧
      ∀ p K, ReadE s.db i n.ansn p → ReadA s.db i n.ansn K →
        (∀ x c, Neighbor s'.db i x c ↔ ∃ a, lastEntry p x = some a ∧ a.metrics = c) ∧ ∀ k, Reaches s'.db i k ↔ k ∈ K := by
  obtain ⟨db1, e1, w1, su1, r1⟩ := sweepEdges (i := i) (ansn := n.ansn) n.edges w (w.edge.nodup i n hn) (fun e he => (w.edge.mem i n e hn).1 he)
  obtain ⟨n1, hn1, b1, b2, b3⟩ := r1.self n hn
  obtain ⟨db2, e2, w2, su2, g2, s2, a2, x2⟩ := sweepAtts (i := i) (ansn := n1.ansn) n1.atts w1 (w1.att.nodup i n1 hn1) (fun a ha => (w1.att.mem i n1 a hn1).1 ha)
  have node2 : ∀ j x, db2.nodes j = some x → ∃ y, s.db.nodes j = some y ∧ x.addr = y.addr := by
    intro j x hx
    obtain ⟨y, hy, he⟩ := s2.get hx
    unfold main at he
    injection he with he _
    obtain ⟨z, hz, k⟩ := r1.node j y hy
    exact ⟨z, hz, he.trans k⟩
  have ends2 : ∀ j x, db2.ends j = some x → ∃ y, s.db.ends j = some y ∧ x.key = y.key := by
    intro j x hx
    obtain ⟨y, hy, k1⟩ := x2 j x hx
    obtain ⟨z, hz, k2⟩ := r1.ends j y hy
    exact ⟨z, hz, k1.symm.trans k2.symm⟩
  unfold finish
  rw [hi]
  dsimp only
  rw [hn]
  dsimp only
  rw [e1]
  dsimp only
  rw [hn1]
  dsimp only
  rw [e2]
  refine ⟨_, rfl, w2, rfl, fun h => su2 (su1 h), r1.self.trans ?_, ?_⟩
  · intro y hy
    obtain ⟨y', hy', he⟩ := s2.put hy
    unfold main at he
    injection he with q1 he
    injection he with q2 he
    injection he with _ he
    injection he with q4 _
    exact ⟨y', hy', q1.symm, q2.symm, q4.symm⟩
  · intro p K hE hA
    constructor
    · intro x c
      constructor
      · rintro ⟨e, ed, m, h1, h2, h3, h4, h5, h6⟩
        have h1 : db2.edges e = some ed := h1
        rw [g2] at h1
        obtain ⟨q1, q2⟩ := r1.only e ed h1 h2 h3
        have q3 := q2 ((w.edge.mem i n e hn).2 ⟨ed, q1, h2⟩)
        obtain ⟨m0, hm0, k⟩ := node2 _ m h5
        obtain ⟨a, q4, q5⟩ := hE.only e ed m0 q1 h2 h3 q3 hm0
        rw [← k, h6] at q4
        exact ⟨a, q4, q5.trans h4⟩
      · rintro ⟨a, ha, hc⟩
        obtain ⟨e, ed, m, q1, q2, q3, q4, q5, q6⟩ := hE.all x a ha
        have k1 := r1.keep e ed q1 q2 q4
        rw [← g2] at k1
        obtain ⟨m2, hm2⟩ := w2.edge.dst e ed k1
        obtain ⟨m0, hm0, k⟩ := node2 _ m2 hm2
        rw [q5] at hm0
        injection hm0 with hm0
        obtain ⟨a', t1, t2⟩ := hE.only e ed m q1 q2 q3 q4 q5
        rw [q6, ha] at t1
        injection t1 with t1
        refine ⟨e, ed, m2, k1, q2, q3, ?_, hm2, by rw [k, ← hm0]; exact q6⟩
        rw [← t2, ← t1, hc]
    · intro k
      constructor
      · rintro ⟨a, x, en, h1, h2, h3, h4⟩
        obtain ⟨q1, q2⟩ := (a2 a x).1 h1
        have q3 := q2 ((w1.att.mem i n1 a hn1).2 ⟨x, q1, h2⟩)
        obtain ⟨en0, he0, k0⟩ := ends2 _ en h3
        rw [← h4, k0]
        exact hA.only a x en0 ((r1.att a x h2).1 q1) h2 (by rw [q3, b2]) he0
      · intro hk
        obtain ⟨t, x, en, q1, q2, q3, q4, q5⟩ := hA.all k hk
        have k1 : db2.atts t = some x := (a2 t x).2 ⟨(r1.att t x q2).2 q1, fun _ => by rw [q3, b2]⟩
        obtain ⟨en2, he2⟩ := w2.att.dst t x k1
        obtain ⟨en0, he0, k0⟩ := ends2 _ en2 he2
        rw [q4] at he0
        injection he0 with he0
        exact ⟨t, x, en2, k1, q2, he2, by rw [k0, ← he0]; exact q5⟩

/-! ### a message -/

theorem stale_self (x : UInt16) : Codec.seqnoIsSmaller x x = false := by
  unfold Codec.seqnoIsSmaller
  simp

/-- beginning of a message with the mandatory TLVs -/
theorem start_spec {s : St} (w : WF s.db) {m : Tc} (hc : m.constraints = true) :
    ∃ s' b, start s m = some (s', b) ∧ WF s'.db ∧ (m.vtime = true → Sup s.db → Sup s'.db) ∧
      (b = true → ∃ i n, s'.node = some i ∧ s'.db.nodes i = some n ∧ n.addr = m.orig ∧ n.ansn = m.ansn ∧ n.timer = m.vtime ∧ s'.complete = m.complete) := by
  unfold start
  rw [hc]
  rw [if_neg (by decide)]
  cases m.pre with
  | false => exact ⟨_, _, rfl, w, fun _ h => h, fun h => by cases h⟩
  | true =>
    rw [if_neg (by decide)]
    cases m.process with
    | false => exact ⟨_, _, rfl, w, fun _ h => h, fun h => by cases h⟩
    | true =>
      rw [if_neg (by decide)]
      obtain ⟨db1, r, e1, w1, su1, n1⟩ := nodeAdd_wf w m.orig m.vtime m.ansn m.ok
      rw [e1]
      cases r with
      | none => exact ⟨_, _, rfl, w1, su1, fun h => by cases h⟩
      | some i =>
        obtain ⟨n, hn, ha, ht⟩ := n1 i rfl
        dsimp only
        rw [hn]
        dsimp only
        split
        · exact ⟨_, _, rfl, w1, su1, fun h => by cases h⟩
        · split
          · exact ⟨_, _, rfl, w1, su1, fun h => by cases h⟩
          · refine ⟨_, _, rfl, w1.setNode hn rfl rfl rfl, ?_, ?_⟩
            · intro hv h
              exact (SupX.setNode (su1 hv h) (fun j hj => hj.elim)).timer (upd_same _ _ _) hv
            · intro _
              exact ⟨i, _, rfl, upd_same _ _ _, ha, rfl, rfl, rfl⟩

theorem receive_wf {s : St} (w : WF s.db) {m : Tc} (hc : m.constraints = true) (hs : m.NotSelf) : ∃ s', receive s m = some s' ∧ WF s'.db ∧ (m.vtime = true → Sup s.db → Sup s'.db) := by
  obtain ⟨s1, b, e1, w1, su1, h1⟩ := start_spec w hc
  unfold receive
  rw [e1]
  cases b with
  | false => exact ⟨s1, rfl, w1, su1⟩
  | true =>
    obtain ⟨i, n, hi, hn, ha, _, ht, _⟩ := h1 rfl
    obtain ⟨s2, e2, w2, i2, _, st2, su2, _⟩ := addresses_spec m.addrs w1 hi hn (fun a h q => by rw [ha]; exact fun e => hs a h q e.symm)
    dsimp only
    rw [e2]
    dsimp only
    cases m.dropped with
    | true => exact ⟨s2, rfl, w2, fun hv h => su2 (ht.trans hv) (su1 hv h)⟩
    | false =>
      rw [if_neg (by decide)]
      obtain ⟨n2, hn2, _⟩ := st2 n hn
      obtain ⟨s3, e3, w3, _, su3, _⟩ := finish_spec w2 i2 hn2
      exact ⟨s3, e3, w3, fun hv h => su3 (su2 (ht.trans hv) (su1 hv h))⟩

theorem follows_iff (a b : UInt16) : Codec.seqnoIsLarger b a = true ↔ Follows a b := by
  have ha := a.toNat_lt
  have hb := b.toNat_lt
  simp only [Codec.seqnoIsLarger, Bool.or_eq_true, Bool.and_eq_true, decide_eq_true_eq, GT.gt, UInt16.lt_iff_toNat_lt]
  unfold Follows
  constructor
  · rintro (⟨h1, h2⟩ | ⟨h1, h2⟩)
    · exact ⟨b.toNat - a.toNat, by omega, by omega, by omega⟩
    · exact ⟨b.toNat + 2 ^ 16 - a.toNat, by omega, by omega, by omega⟩
  · rintro ⟨k, h1, h2, h3⟩
    omega

theorem follows_smaller {a b : UInt16} (h : Follows a b) : Codec.seqnoIsSmaller a b = true ∧ Codec.seqnoIsLarger a b = false := by
  have ha := a.toNat_lt
  have hb := b.toNat_lt
  have hl : Codec.seqnoIsLarger a b = false := by
    cases hc : Codec.seqnoIsLarger a b with
    | false => rfl
    | true =>
      obtain ⟨k, h1, h2, h3⟩ := (follows_iff b a).1 hc
      obtain ⟨j, g1, g2, g3⟩ := h
      omega
  refine ⟨?_, hl⟩
  unfold Codec.seqnoIsSmaller
  rw [hl]
  have : a ≠ b := by
    intro he
    obtain ⟨j, g1, g2, g3⟩ := h
    rw [he] at g3
    omega
  simp [this]

theorem current_accept {a b : UInt16} (h : a = b ∨ Follows b a) : Codec.seqnoIsSmaller a b = false := by
  rcases h with h | h
  · rw [h]; exact stale_self b
  · unfold Codec.seqnoIsSmaller
    rw [(follows_iff b a).2 h]
    simp

/-- a complete message that is current is accepted -/
theorem start_accept {s : St} (w : WF s.db) {m : Tc} (hc : m.constraints = true) (hp : m.pre = true) (hq : m.process = true) (hm : m.complete = true) (hok : m.ok = true) (hcur : Current s.db m) :
    ∃ s1 i n, start s m = some (s1, true) ∧ WF s1.db ∧ s1.node = some i ∧ s1.db.nodes i = some n ∧ n.addr = m.orig ∧ n.ansn = m.ansn ∧ s1.db.edges = s.db.edges ∧ s1.db.atts = s.db.atts ∧ s1.db.ends = s.db.ends ∧
      (s.db.nodes i = none ∨ ∃ n0, s.db.nodes i = some n0 ∧ n0.addr = m.orig) := by
  unfold start
  rw [hc, hp, hq, hm, hok]
  rw [if_neg (by decide), if_neg (by decide), if_neg (by decide)]
  rcases nodeAdd_spec w.tree m.orig m.vtime m.ansn true with ⟨a1, a2⟩ | ⟨i, n, a1, a2, a3⟩
  · rw [a2, if_pos rfl]
    dsimp only
    have hn : (newNode s.db m.orig m.vtime m.ansn).nodes s.db.next = some ⟨m.orig, m.ansn, false, m.vtime, [], []⟩ := upd_same _ _ _
    rw [hn]
    dsimp only
    rw [stale_self, if_neg (by decide), if_neg (by simp)]
    exact ⟨_, _, _, rfl, (w.newNode a1).setNode hn rfl rfl rfl, rfl, upd_same _ _ _, rfl, rfl, rfl, rfl, rfl, .inl (w.fresh.nodes _ (Nat.le_refl _))⟩
  · rw [a3]
    dsimp only
    have hn : (s.db.setNode i { n with ansn := if n.timer then n.ansn else m.ansn, timer := m.vtime }).nodes i = some { n with ansn := if n.timer then n.ansn else m.ansn, timer := m.vtime } := upd_same _ _ _
    rw [hn]
    dsimp only
    have hacc : Codec.seqnoIsSmaller m.ansn (if n.timer then n.ansn else m.ansn) = false := by
      cases ht : n.timer with
      | true => exact current_accept (hcur i n a1 a2 ht)
      | false => exact stale_self _
    rw [hacc, if_neg (by decide), if_neg (by simp)]
    have w2 : WF (s.db.setNode i { n with ansn := if n.timer then n.ansn else m.ansn, timer := m.vtime }) := w.setNode a1 rfl rfl rfl
    exact ⟨_, _, _, rfl, w2.setNode hn rfl rfl rfl, rfl, upd_same _ _ _, a2, rfl, rfl, rfl, rfl, .inr ⟨n, a1, a2⟩⟩

theorem readE_nil {db : Db} {i : Nat} {ansn : UInt16} (h : ∀ e ed, db.edges e = some ed → ed.src = i → ed.virt = false → ed.ansn ≠ ansn) : ReadE db i ansn [] :=
  ⟨fun e ed _ h1 h2 h3 h4 _ => absurd h4 (h e ed h1 h2 h3), fun x a ha => by cases ha⟩

theorem readA_nil {db : Db} {i : Nat} {ansn : UInt16} (h : ∀ e ed, db.atts e = some ed → ed.src = i → ed.ansn ≠ ansn) : ReadA db i ansn [] :=
  ⟨fun e ed _ h1 h2 h4 _ => absurd h4 (h e ed h1 h2), fun x ha => by cases ha⟩

/-! ### histories -/

theorem withNode_wf {db : Db} (w : WF db) (addr : Netaddr) {f : Nat → Node → Option Db} {P : Db → Prop} (h0 : P db) (hf : ∀ i n, db.nodes i = some n → n.addr = addr → ∃ db', f i n = some db' ∧ WF db' ∧ P db') :
    ∃ db', withNode db addr f = some db' ∧ WF db' ∧ P db' := by
  unfold withNode
  rcases nodeGet_spec w.tree addr with ⟨g1, _⟩ | ⟨i, n, g1, g2, g3⟩
  · rw [g1]
    exact ⟨db, rfl, w, h0⟩
  · rw [g1]
    dsimp only
    rw [g2]
    exact hf i n g2 g3

theorem event_wf {s : St} (w : WF s.db) {e : Event} (hp : ∀ m, e = .tc m → m.constraints = true ∧ m.NotSelf) :
    ∃ s', event s e = some s' ∧ WF s'.db ∧ ((∀ m, e = .tc m → m.vtime = true) → Sup s.db → Sup s'.db) := by
  cases e with
  | tc m =>
    obtain ⟨s', e1, w1, su1⟩ := receive_wf w (hp m rfl).1 (hp m rfl).2
    exact ⟨s', e1, w1, fun hv => su1 (hv m rfl)⟩
  | timeout addr =>
    obtain ⟨db', e1, w1, su1⟩ := withNode_wf (P := fun db' => Sup s.db → Sup db') (f := fun i _ => timeout s.db i) w addr (fun h => h) (fun i n hn _ => timeout_wf w hn)
    refine ⟨{ s with db := db' }, ?_, w1, fun _ => su1⟩
    show (withNode s.db addr fun i _ => timeout s.db i).map _ = _
    rw [e1]
    rfl
  | neighborChange old orig ok =>
    obtain ⟨db', e1, w1, su1⟩ := neighborChange_wf w old orig ok
    refine ⟨{ s with db := db' }, ?_, w1, fun _ => su1⟩
    show (neighborChange s.db old orig ok).map _ = _
    rw [e1]
    rfl
  | neighborRemove orig =>
    obtain ⟨db', e1, w1, su1⟩ := neighborRemove_wf w orig
    refine ⟨{ s with db := db' }, ?_, w1, fun _ => su1⟩
    show (neighborRemove s.db orig).map _ = _
    rw [e1]
    rfl

theorem events_wf : ∀ (es : List Event) {s : St}, WF s.db → Plain es → ∃ s', events s es = some s' ∧ WF s'.db ∧ ((∀ m, Event.tc m ∈ es → m.vtime = true) → Sup s.db → Sup s'.db)
  | [], s, w, _ => ⟨s, rfl, w, fun _ h => h⟩
  | e :: es, s, w, hp => by
    obtain ⟨s1, e1, w1, su1⟩ := event_wf w (e := e) (fun m hm => hp m (by rw [hm]; simp))
    obtain ⟨s2, e2, w2, su2⟩ := events_wf es w1 (fun m hm => hp m (List.mem_cons_of_mem _ hm))
    refine ⟨s2, ?_, w2, fun hv h => su2 (fun m hm => hv m (List.mem_cons_of_mem _ hm)) (su1 (fun m hm => hv m (by rw [hm]; simp)) h)⟩
    show (e :: es).foldlM event s = _
    rw [List.foldlM_cons, e1]
    exact e2

/-! ### operations -/

theorem withEdge_wf {db : Db} (w : WF db) (src dst : Netaddr) {f : Nat → Option Db} (hf : ∀ e ed, db.edges e = some ed → ∃ db', f e = some db' ∧ WF db') : ∃ db', withEdge db src dst f = some db' ∧ WF db' := by
  unfold withEdge
  obtain ⟨db', e1, w1, _⟩ := withNode_wf (P := fun _ => True) (f := fun _ n => match find db.edgeKey n.edges dst with
    | none => none
    | some none => some db
    | some (some e) => f e) w src trivial (by
    intro i n hn _
    rcases findEdge_spec w.toWellFormed hn dst with ⟨h1, _⟩ | ⟨e, ed, m, h1, h2, _⟩
    · rw [h1]
      exact ⟨db, rfl, w, trivial⟩
    · rw [h1]
      obtain ⟨db', q1, q2⟩ := hf e ed h2
      exact ⟨db', q1, q2, trivial⟩)
  exact ⟨db', e1, w1⟩

theorem step_wf {db : Db} (w : WF db) {op : Op} (hl : ∀ a b ok okn, op = .edgeAdd a b ok okn → a ≠ b) : ∃ db', step db op = some db' ∧ WF db' := by
  have lift : ∀ {addr : Netaddr} {f : Nat → Node → Option Db}, (∀ i n, db.nodes i = some n → n.addr = addr → ∃ db', f i n = some db' ∧ WF db') → ∃ db', withNode db addr f = some db' ∧ WF db' := by
    intro addr f hf
    obtain ⟨db', e1, w1, _⟩ := withNode_wf (P := fun _ => True) w addr (f := f) trivial (fun i n hn ha => by
      obtain ⟨db', q1, q2⟩ := hf i n hn ha
      exact ⟨db', q1, q2, trivial⟩)
    exact ⟨db', e1, w1⟩
  cases op with
  | nodeAdd addr v ansn ok =>
    obtain ⟨db', r, e1, w1, _⟩ := nodeAdd_wf w addr v ansn ok
    exact ⟨db', by show (nodeAdd db addr v ansn ok).map _ = _; rw [e1]; rfl, w1⟩
  | timeout addr =>
    exact lift fun i n hn _ => by
      obtain ⟨db', q1, q2, _⟩ := timeout_wf w hn
      exact ⟨db', q1, q2⟩
  | nodeRemove addr =>
    exact lift fun i n hn _ => by
      obtain ⟨db', q1, q2, _⟩ := nodeRemove_wf w hn
      exact ⟨db', q1, q2⟩
  | edgeAdd src dst ok okn =>
    exact lift fun i n hn ha => by
      obtain ⟨db', r, e1, w1, _⟩ := edgeAdd_spec w hn (addr := dst) (by rw [ha]; exact hl src dst ok okn rfl) ok okn
      exact ⟨db', by rw [e1]; rfl, w1⟩
  | edgeSet src dst cost ansn =>
    exact withEdge_wf w src dst (by
      intro e ed hed
      rw [hed]
      refine ⟨_, rfl, setEdge_wf w hed rfl rfl rfl ?_⟩
      intro inv hinv
      obtain ⟨inv', h1, _, _, _, h2⟩ := w.edge.inv e ed hed
      rw [hinv] at h1
      injection h1 with h1
      rw [h1]
      exact h2)
  | edgeRemove src dst =>
    exact withEdge_wf w src dst (by
      intro e ed hed
      obtain ⟨db', q1, q2, _⟩ := edgeRemove_wf w hed
      exact ⟨db', q1, q2⟩)
  | endpointAdd node key mesh ok oke =>
    exact lift fun i n hn _ => by
      obtain ⟨db', r, e1, w1, _⟩ := endpointAdd_spec w hn key mesh ok oke
      exact ⟨db', by rw [e1]; rfl, w1⟩
  | endpointRemove node key =>
    exact lift fun i n hn _ => by
      rcases findAtt_spec w.att.core hn key with ⟨h1, _⟩ | ⟨a, at_, h1, h2, _⟩
      · rw [h1]
        exact ⟨db, rfl, w⟩
      · rw [h1]
        obtain ⟨db', q1, q2, _⟩ := endpointRemove_spec w h2
        exact ⟨db', q1, q2⟩
  | neighborChange old orig ok =>
    obtain ⟨db', q1, q2, _⟩ := neighborChange_wf w old orig ok
    exact ⟨db', q1, q2⟩
  | neighborRemove orig =>
    obtain ⟨db', q1, q2, _⟩ := neighborRemove_wf w orig
    exact ⟨db', q1, q2⟩

theorem run_wf : ∀ (ops : List Op) {db : Db}, WF db → (∀ a b ok okn, Op.edgeAdd a b ok okn ∈ ops → a ≠ b) → ∃ db', run db ops = some db' ∧ WF db'
  | [], db, w, _ => ⟨db, rfl, w⟩
  | op :: ops, db, w, hl => by
    obtain ⟨db1, e1, w1⟩ := step_wf w (op := op) (fun a b ok okn h => hl a b ok okn (by rw [h]; simp))
    obtain ⟨db2, e2, w2⟩ := run_wf ops w1 (fun a b ok okn h => hl a b ok okn (List.mem_cons_of_mem _ h))
    refine ⟨db2, ?_, w2⟩
    show (op :: ops).foldlM step db = _
    rw [List.foldlM_cons, e1]
    exact e2

end Verif.Tc
