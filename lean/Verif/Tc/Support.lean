import Verif.Tc.Remove

/-! Every operation keeps the database well-formed and its objects supported. -/
namespace Verif.Tc
open Verif.Netaddr (Netaddr)

/-! ### addition of edges -/

/-- what `olsrv2_tc_edge_add` does -/
structure EdgeAdded (db db' : Db) (src : Nat) (addr : Netaddr) (r : Option Nat) : Prop where
  keep : ∀ e x, db.edges e = some x → r ≠ some e → db'.edges e = some x
  new : ∀ e x, db'.edges e = some x → r = some e ∨ db.edges e = some x ∨ (x.virt = true ∧ x.dst = src)
  result : ∀ e, r = some e → ∃ ed m, db'.edges e = some ed ∧ ed.src = src ∧ ed.virt = false ∧ db'.nodes ed.dst = some m ∧ m.addr = addr ∧ ed.cost = List.replicate DOMAINS INFINITE
  node : ∀ i n, db.nodes i = some n → ∃ n', db'.nodes i = some n' ∧ n'.addr = n.addr ∧ n'.ansn = n.ansn ∧ n'.direct = n.direct ∧ n'.timer = n.timer ∧ n'.atts = n.atts ∧ (n'.edges = n.edges ∨ n'.edges ≠ [])
  fresh : ∀ i n, db'.nodes i = some n → db.nodes i = none → n.edges ≠ []
  atts : db'.atts = db.atts
  ends : db'.ends = db.ends

theorem linked_added {db : Db} (h : WF db) {src dst : Nat} {n m : Node} {addr : Netaddr} (hn : db.nodes src = some n) (hm : db.nodes dst = some m) (hne : src ≠ dst) (ha : m.addr = addr) :
    EdgeAdded db (linked db src dst n m) src addr (some db.next) := by
  refine ⟨?_, ?_, ?_, ?_, ?_, rfl, rfl⟩
  · intro e x hx _
    exact linked_edge_old h.fresh hx
  · intro e x hx
    rcases linked_edge hx with ⟨he, _⟩ | ⟨_, hx⟩ | ⟨_, _, hx⟩
    · exact .inl (by rw [he])
    · exact .inr (.inr ⟨by rw [hx], by rw [hx]⟩)
    · exact .inr (.inl hx)
  · intro e he
    injection he with he
    rw [← he]
    exact ⟨_, _, linked_edge_new, rfl, rfl, linked_dst, ha, rfl⟩
  · intro i y hy
    by_cases h1 : i = src
    · rw [h1]
      rw [h1, hn] at hy
      injection hy with hy
      rw [← hy]
      exact ⟨_, linked_src hne, rfl, rfl, rfl, rfl, rfl, .inr (by simp)⟩
    · by_cases h2 : i = dst
      · rw [h2]
        rw [h2, hm] at hy
        injection hy with hy
        rw [← hy]
        exact ⟨_, linked_dst, rfl, rfl, rfl, rfl, rfl, .inr (by simp)⟩
      · refine ⟨y, ?_, rfl, rfl, rfl, rfl, rfl, .inl rfl⟩
        show upd (upd db.nodes src _) dst _ i = _
        rw [upd_ne _ _ h2, upd_ne _ _ h1]
        exact hy
  · intro i y hy hi
    rcases linked_node hy with ⟨_, hy⟩ | ⟨_, hy⟩ | ⟨_, _, hy⟩
    · rw [hy]; simp
    · rw [hy]; simp
    · rw [hi] at hy; cases hy

theorem linkEdge_num {db db' : Db} {src dst e : Nat} (h : linkEdge db src dst = some (db', some e)) : e = db.next := by
  unfold linkEdge at h
  dsimp only at h
  split at h
  · cases h
  · split at h
    · cases h
    · split at h
      · cases h
      · split at h
        · cases h
        · injection h with h
          injection h with _ h
          injection h with h
          exact h.symm

theorem edgeAdd_spec {db : Db} (h : WF db) {src : Nat} {n : Node} (hn : db.nodes src = some n) {addr : Netaddr} (hne : n.addr ≠ addr) (ok okn : Bool) :
    ∃ db' r, edgeAdd db src addr ok okn = some (db', r) ∧ WF db' ∧ EdgeAdded db db' src addr r ∧ (ok = true → okn = true → r ≠ none) := by
  unfold edgeAdd
  rw [hn]
  dsimp only
  have same : EdgeAdded db db src addr none :=
    ⟨fun _ _ hx _ => hx, fun _ _ hx => .inr (.inl hx), fun _ hr => (by cases hr), fun i x hx => ⟨x, hx, rfl, rfl, rfl, rfl, rfl, .inl rfl⟩, fun i x hx hi => (by rw [hi] at hx; cases hx), rfl, rfl⟩
  rcases findEdge_spec h.toWellFormed hn addr with ⟨h1, h2⟩ | ⟨e, ed, m, h1, h2, h3, h4, h5⟩
  · rw [h1]
    dsimp only
    cases ok with
    | false => exact ⟨db, none, rfl, h, same, by simp⟩
    | true =>
      rw [if_pos rfl]
      rcases nodeGet_spec h.tree addr with ⟨g1, g2⟩ | ⟨dst, m, g1, g2, g3⟩
      · rw [g1]
        dsimp only
        rcases nodeAdd_spec h.tree addr false 0 okn with ⟨_, a2⟩ | ⟨i, y, a1, a2, _⟩
        · rw [a2]
          cases okn with
          | false => exact ⟨db, none, rfl, h, same, by simp⟩
          | true =>
            rw [if_pos rfl]
            dsimp only
            have w := h.newNode (v := false) (ansn := 0) g2
            have hn1 : (newNode db addr false 0).nodes src = some n := newNode_old h.fresh hn
            have hm1 : (newNode db addr false 0).nodes db.next = some ⟨addr, 0, false, false, [], []⟩ := upd_same _ _ _
            have hlt := h.fresh.lt hn
            have hsd : src ≠ db.next := by omega
            have hno : ∀ e ed, (newNode db addr false 0).edges e = some ed → ¬ (ed.src = src ∧ ed.dst = db.next) := by
              rintro e ed hed ⟨_, q⟩
              obtain ⟨y, hy⟩ := h.edge.dst e ed hed
              have := h.fresh.lt hy
              omega
            rw [linkEdge_eq w hn1 hm1 hsd hno]
            refine ⟨_, _, rfl, linked_wf w hn1 hm1 hsd hno, ?_, by simp⟩
            have ad := linked_added (addr := addr) w hn1 hm1 hsd rfl
            refine ⟨fun e x hx => ad.keep e x hx, ad.new, ad.result, ?_, ?_, rfl, rfl⟩
            · intro i y hy
              exact ad.node i y (newNode_old h.fresh hy)
            · intro i y hy hi
              rcases linked_node hy with ⟨_, hy⟩ | ⟨_, hy⟩ | ⟨_, h2, hy⟩
              · rw [hy]; simp
              · rw [hy]; simp
              · rcases newNode_get hy with ⟨hi', _⟩ | ⟨_, hy⟩
                · exact absurd hi' h2
                · rw [hi] at hy; cases hy
        · exact absurd a2 (g2 i y a1)
      · rw [g1]
        dsimp only
        have hsd : src ≠ dst := by
          intro he
          rw [← he, hn] at g2
          injection g2 with g2
          rw [← g2] at g3
          exact hne g3
        have hno : ∀ e ed, db.edges e = some ed → ¬ (ed.src = src ∧ ed.dst = dst) := by
          rintro e ed hed ⟨q1, q2⟩
          exact h2 e ed hed q1 m (by rw [q2]; exact g2) g3
        rw [linkEdge_eq h hn g2 hsd hno]
        exact ⟨_, _, rfl, linked_wf h hn g2 hsd hno, linked_added h hn g2 hsd g3, by simp⟩
  · rw [h1]
    dsimp only
    rw [h2]
    refine ⟨_, _, rfl, setEdge_wf h h2 rfl rfl rfl (by simp), ⟨?_, ?_, ?_, fun i x hx => ⟨x, hx, rfl, rfl, rfl, rfl, rfl, .inl rfl⟩, ?_, rfl, rfl⟩, by simp⟩
    · intro e' x hx hr
      show upd db.edges e _ e' = _
      rw [upd_ne _ _ (fun he => hr (by rw [he]))]
      exact hx
    · intro e' x hx
      have hx : upd db.edges e _ e' = some x := hx
      by_cases he : e' = e
      · exact .inl (by rw [he])
      · rw [upd_ne _ _ he] at hx
        exact .inr (.inl hx)
    · intro e' he
      injection he with he
      rw [← he]
      exact ⟨_, m, upd_same _ _ _, h3, rfl, h4, h5, rfl⟩
    · intro i x hx hi
      have hx : db.nodes i = some x := hx
      rw [hi] at hx; cases hx

/-! ### support -/

/-- support apart from some nodes -/
structure SupX (db : Db) (ex : Nat → Prop) : Prop where
  edge : ∀ e ed, db.edges e = some ed → ed.virt = false → ¬ ex ed.src → ∃ n, db.nodes ed.src = some n ∧ n.timer = true
  att : ∀ a at_, db.atts a = some at_ → ¬ ex at_.src → ∃ n, db.nodes at_.src = some n ∧ n.timer = true
  node : ∀ i n, db.nodes i = some n → ¬ ex i → n.timer = true ∨ n.direct = true ∨ n.edges ≠ []

/-- support of all nodes -/
def Sup (db : Db) : Prop := SupX db fun _ => False

theorem Sup.supported {db : Db} (h : Sup db) (w : WF db) : Supported db := by
  refine ⟨fun e ed hed hv => h.edge e ed hed hv (by simp), fun a at_ hat => h.att a at_ hat (by simp), ?_⟩
  intro i n hn
  rcases h.node i n hn (by simp) with h1 | h1 | h1
  · exact .inl h1
  · exact .inr (.inl h1)
  · cases ht : n.timer with
    | true => exact .inl rfl
    | false =>
      right; right
      cases he : n.edges with
      | nil => exact absurd he h1
      | cons e es =>
        obtain ⟨ed, hed, hs⟩ := (w.edge.mem i n e hn).1 (by rw [he]; simp)
        obtain ⟨inv, hinv, _, i2, i3, i4⟩ := w.edge.inv e ed hed
        refine ⟨ed.inv, inv, hinv, i3.trans hs, ?_⟩
        cases hv : inv.virt with
        | false => rfl
        | true =>
          cases hv2 : ed.virt with
          | true => exact absurd ⟨hv2, hv⟩ i4
          | false =>
            obtain ⟨n', hn', ht'⟩ := h.edge e ed hed hv2 (by simp)
            rw [hs, hn] at hn'
            injection hn' with hn'
            rw [← hn', ht] at ht'
            cases ht'

theorem SupX.mono {db : Db} {p q : Nat → Prop} (h : SupX db p) (hpq : ∀ i, p i → q i) : SupX db q :=
  ⟨fun e ed hed hv hx => h.edge e ed hed hv (fun hp => hx (hpq _ hp)), fun a at_ hat hx => h.att a at_ hat (fun hp => hx (hpq _ hp)),
    fun i n hn hx => h.node i n hn (fun hp => hx (hpq _ hp))⟩

/-- after a change of a node all others are supported -/
theorem SupX.setNode {db : Db} {p : Nat → Prop} (h : SupX db p) {i : Nat} {n' : Node} (hp : ∀ j, p j → j = i) : SupX (db.setNode i n') (fun j => j = i) := by
  have other : ∀ j, j ≠ i → (db.setNode i n').nodes j = db.nodes j := fun j hj => upd_ne _ _ hj
  refine ⟨?_, ?_, ?_⟩
  · intro e ed hed hv hx
    rw [other _ hx]
    exact h.edge e ed hed hv (fun q => hx (hp _ q))
  · intro a at_ hat hx
    rw [other _ hx]
    exact h.att a at_ hat (fun q => hx (hp _ q))
  · intro j x hj hx
    rw [other _ hx] at hj
    exact h.node j x hj (fun q => hx (hp _ q))

/-- a node with validity time is supported -/
theorem SupX.timer {db : Db} {i : Nat} {n : Node} (h : SupX db (fun j => j = i)) (hn : db.nodes i = some n) (ht : n.timer = true) : Sup db := by
  refine ⟨?_, ?_, ?_⟩
  · intro e ed hed hv _
    by_cases hs : ed.src = i
    · exact ⟨n, by rw [hs]; exact hn, ht⟩
    · exact h.edge e ed hed hv hs
  · intro a at_ hat _
    by_cases hs : at_.src = i
    · exact ⟨n, by rw [hs]; exact hn, ht⟩
    · exact h.att a at_ hat hs
  · intro j x hx _
    by_cases hs : j = i
    · rw [hs, hn] at hx
      injection hx with hx
      rw [← hx]
      exact .inl ht
    · exact h.node j x hx hs

theorem nodeRemove_sup {db db' : Db} {i : Nat} {n : Node} (w' : WF db') (h : SupX db (fun j => j = i)) (r : RemovedNode db db' i n) : Sup db' := by
  refine ⟨?_, ?_, ?_⟩
  · intro e x hx hv _
    obtain ⟨y, hy, s1, _, s3, s4⟩ := r.edge e x hx
    by_cases hs : y.src = i
    · rw [s3 hs] at hv; cases hv
    · have := s4 hs
      subst this
      obtain ⟨m, hm, ht⟩ := h.edge e x hy hv hs
      obtain ⟨m', hm'⟩ := w'.edge.src e x hx
      obtain ⟨z, hz, k⟩ := r.node _ m' hs hm'
      rw [hm] at hz
      injection hz with hz
      exact ⟨m', hm', by rw [k.timer, ← hz]; exact ht⟩
  · intro a x hx _
    obtain ⟨h1, h2⟩ := r.att a x hx
    obtain ⟨m, hm, ht⟩ := h.att a x h1 h2
    obtain ⟨m', hm'⟩ := w'.att.src a x hx
    obtain ⟨z, hz, k⟩ := r.node _ m' h2 hm'
    rw [hm] at hz
    injection hz with hz
    exact ⟨m', hm', by rw [k.timer, ← hz]; exact ht⟩
  · intro j x hx _
    by_cases hj : j = i
    · rw [hj] at hx
      obtain ⟨_, _, _, h4⟩ := r.self x hx
      rcases h4 with h4 | h4
      · exact .inr (.inr h4)
      · exact .inr (.inl h4)
    · obtain ⟨y, hy, k⟩ := r.node j x hj hx
      rcases k.edges with ke | ke | ke | ke
      · rcases h.node j y hy hj with q | q | q
        · exact .inl (by rw [k.timer]; exact q)
        · exact .inr (.inl (by rw [k.direct]; exact q))
        · exact .inr (.inr (by rw [ke]; exact q))
      · exact .inr (.inr ke)
      · exact .inl ke
      · exact .inr (.inl ke)

theorem removeEdge_sup {db db' : Db} {e : Nat} {ed : Edge} (w : WF db) (w' : WF db') (h : Sup db) (hed : db.edges e = some ed) (hv : ed.virt = false) (r : RemovedEdge db db' e ed) : Sup db' := by
  obtain ⟨n, hn, ht⟩ := h.edge e ed hed hv (by simp)
  obtain ⟨n', hn', _, _, _, ht'⟩ := r.self n hn
  rw [ht] at ht'
  have back : ∀ j x, db'.nodes j = some x → ∀ y, db.nodes j = some y → x.timer = y.timer := by
    intro j x hx y hy
    by_cases hj : j = ed.src
    · rw [hj, hn] at hy
      rw [hj, hn'] at hx
      injection hx with hx
      injection hy with hy
      rw [← hx, ← hy, ht, ht']
    · obtain ⟨z, hz, k⟩ := r.node j x hj hx
      rw [hy] at hz
      injection hz with hz
      rw [k.timer, hz]
  refine ⟨?_, ?_, ?_⟩
  · intro e' x hx hxv _
    obtain ⟨y, hy, s1, _, s3, s4⟩ := r.edge e' x hx
    have hne : e' ≠ e := by
      intro he
      rw [s3 he] at hxv; cases hxv
    have := s4 hne
    subst this
    obtain ⟨m, hm, ht⟩ := h.edge e' x hy hxv (by simp)
    obtain ⟨m', hm'⟩ := w'.edge.src e' x hx
    exact ⟨m', hm', by rw [back _ _ hm' _ hm]; exact ht⟩
  · intro a x hx _
    obtain ⟨m, hm, ht⟩ := h.att a x (r.att a x hx) (by simp)
    obtain ⟨m', hm'⟩ := w'.att.src a x hx
    exact ⟨m', hm', by rw [back _ _ hm' _ hm]; exact ht⟩
  · intro j x hx _
    by_cases hj : j = ed.src
    · rw [hj, hn'] at hx
      injection hx with hx
      rw [← hx]
      exact .inl ht'
    · obtain ⟨y, hy, k⟩ := r.node j x hj hx
      rcases k.edges with ke | ke | ke | ke
      · rcases h.node j y hy (by simp) with q | q | q
        · exact .inl (by rw [k.timer]; exact q)
        · exact .inr (.inl (by rw [k.direct]; exact q))
        · exact .inr (.inr (by rw [ke]; exact q))
      · exact .inr (.inr ke)
      · exact .inl ke
      · exact .inr (.inl ke)

theorem edgeAdd_sup {db db' : Db} {src : Nat} {n : Node} {addr : Netaddr} {r : Option Nat} (w : WF db) (w' : WF db') (h : Sup db) (hn : db.nodes src = some n) (ht : n.timer = true) (a : EdgeAdded db db' src addr r) : Sup db' := by
  have fwd : ∀ j y, db.nodes j = some y → y.timer = true → ∃ x, db'.nodes j = some x ∧ x.timer = true := by
    intro j y hy hty
    obtain ⟨x, hx, _, _, _, h4, _⟩ := a.node j y hy
    exact ⟨x, hx, by rw [h4]; exact hty⟩
  refine ⟨?_, ?_, ?_⟩
  · intro e x hx hv _
    rcases a.new e x hx with h1 | h1 | h1
    · obtain ⟨ed, m, q1, q2, _⟩ := a.result e h1
      rw [hx] at q1
      injection q1 with q1
      rw [q1, q2]
      exact fwd _ n hn ht
    · obtain ⟨m, hm, hmt⟩ := h.edge e x h1 hv (by simp)
      exact fwd _ m hm hmt
    · rw [h1.1] at hv; cases hv
  · intro b x hx _
    rw [a.atts] at hx
    obtain ⟨m, hm, hmt⟩ := h.att b x hx (by simp)
    exact fwd _ m hm hmt
  · intro j x hx _
    cases hy : db.nodes j with
    | none => exact .inr (.inr (a.fresh j x hx hy))
    | some y =>
      obtain ⟨x', hx', _, _, h3, h4, _, h5⟩ := a.node j y hy
      rw [hx] at hx'
      injection hx' with hx'
      rw [← hx'] at h3 h4 h5
      rcases h5 with h5 | h5
      · rw [h3, h4, h5]
        exact h.node j y hy (by simp)
      · exact .inr (.inr h5)

/-- changes of attachments -/
theorem Sup.atts {db db' : Db} (h : Sup db) (he : db'.edges = db.edges) (hs : Same main db db')
    (ha : ∀ a at_, db'.atts a = some at_ → db.atts a = some at_ ∨ ∃ n, db.nodes at_.src = some n ∧ n.timer = true) : Sup db' := by
  have fwd : ∀ j y, db.nodes j = some y → y.timer = true → ∃ x, db'.nodes j = some x ∧ x.timer = true := by
    intro j y hy hty
    obtain ⟨x, hx, hm⟩ := hs.put hy
    unfold main at hm
    injection hm with _ hm
    injection hm with _ hm
    injection hm with _ hm
    injection hm with hm _
    exact ⟨x, hx, by rw [← hm]; exact hty⟩
  refine ⟨?_, ?_, ?_⟩
  · intro e x hx hv _
    rw [he] at hx
    obtain ⟨m, hm, ht⟩ := h.edge e x hx hv (by simp)
    exact fwd _ m hm ht
  · intro a x hx _
    rcases ha a x hx with h1 | ⟨m, hm, ht⟩
    · obtain ⟨m, hm, ht⟩ := h.att a x h1 (by simp)
      exact fwd _ m hm ht
    · exact fwd _ m hm ht
  · intro j x hx _
    obtain ⟨y, hy, hm⟩ := hs.get hx
    unfold main at hm
    injection hm with _ hm
    injection hm with _ hm
    injection hm with m3 hm
    injection hm with m4 m5
    rw [m3, m4, m5]
    exact h.node j y hy (by simp)

/-- changes of cost and sequence number of edges -/
theorem Sup.setEdge {db : Db} (h : Sup db) {e : Nat} {ed ed' : Edge} (hed : db.edges e = some ed) (h1 : ed'.src = ed.src) (h2 : ed'.virt = ed.virt) : Sup (db.setEdge e ed') := by
  refine ⟨?_, h.att, h.node⟩
  intro e' x hx hv hf
  have hx : upd db.edges e _ e' = some x := hx
  by_cases he : e' = e
  · rw [he, upd_same] at hx
    injection hx with hx
    rw [← hx] at hv
    rw [← hx, h1]
    exact h.edge e ed hed (by rw [← h2]; exact hv) hf
  · rw [upd_ne _ _ he] at hx
    exact h.edge e' x hx hv hf

theorem newNode_sup {db : Db} (h : Sup db) (w : WF db) (addr : Netaddr) (v : Bool) (ansn : UInt16) : SupX (newNode db addr v ansn) (fun j => j = db.next) := by
  refine ⟨?_, ?_, ?_⟩
  · intro e x hx hv _
    obtain ⟨m, hm, ht⟩ := h.edge e x hx hv (by simp)
    exact ⟨m, newNode_old w.fresh hm, ht⟩
  · intro e x hx _
    obtain ⟨m, hm, ht⟩ := h.att e x hx (by simp)
    exact ⟨m, newNode_old w.fresh hm, ht⟩
  · intro i x hx hi
    rcases newNode_get hx with ⟨h1, _⟩ | ⟨_, h1⟩
    · exact absurd h1 hi
    · exact h.node i x h1 (by simp)

/-! ### single operations -/

theorem nodeAdd_wf {db : Db} (w : WF db) (addr : Netaddr) (v : Bool) (ansn : UInt16) (ok : Bool) :
    ∃ db' r, nodeAdd db addr v ansn ok = some (db', r) ∧ WF db' ∧ (v = true → Sup db → Sup db') ∧ (∀ i, r = some i → ∃ n, db'.nodes i = some n ∧ n.addr = addr ∧ n.timer = v) := by
  rcases nodeAdd_spec w.tree addr v ansn ok with ⟨h1, h2⟩ | ⟨i, n, h1, h2, h3⟩
  · rw [h2]
    cases ok with
    | false => exact ⟨db, none, rfl, w, fun _ h => h, fun i hi => by cases hi⟩
    | true =>
      refine ⟨newNode db addr v ansn, some db.next, rfl, w.newNode h1, ?_, ?_⟩
      · intro hv h
        exact (newNode_sup h w addr v ansn).timer (upd_same _ _ _) hv
      · intro i hi
        injection hi with hi
        rw [← hi]
        exact ⟨_, upd_same _ _ _, rfl, rfl⟩
  · rw [h3]
    refine ⟨_, _, rfl, w.setNode h1 rfl rfl rfl, ?_, ?_⟩
    · intro hv h
      exact (SupX.setNode h (fun j hj => hj.elim)).timer (upd_same _ _ _) hv
    · intro j hj
      injection hj with hj
      rw [← hj]
      exact ⟨_, upd_same _ _ _, h2, rfl⟩

theorem timeout_wf {db : Db} (w : WF db) {i : Nat} {n : Node} (hn : db.nodes i = some n) : ∃ db', timeout db i = some db' ∧ WF db' ∧ (Sup db → Sup db') := by
  unfold timeout
  rw [hn]
  dsimp only
  cases n.timer with
  | false => exact ⟨db, rfl, w, fun h => h⟩
  | true =>
    rw [if_pos rfl]
    obtain ⟨db', e1, e2, e3⟩ := nodeRemove_spec (w.setNode hn (n' := { n with timer := false }) rfl rfl rfl) (i := i) (upd_same _ _ _) 0
    exact ⟨db', e1, e2, fun h => nodeRemove_sup e2 (SupX.setNode h (fun j hj => hj.elim)) e3⟩

theorem nodeRemove_wf {db : Db} (w : WF db) {i : Nat} {n : Node} (hn : db.nodes i = some n) : ∃ db', nodeRemove DEPTH db i = some db' ∧ WF db' ∧ (Sup db → Sup db') := by
  obtain ⟨db', e1, e2, e3⟩ := nodeRemove_spec w hn 0
  exact ⟨db', e1, e2, fun h => nodeRemove_sup e2 (SupX.mono h (fun _ => False.elim)) e3⟩

theorem edgeRemove_wf {db : Db} (w : WF db) {e : Nat} {ed : Edge} (hed : db.edges e = some ed) :
    ∃ db', edgeRemove db e = some db' ∧ WF db' ∧ RemovedEdge db db' e ed ∧ (Sup db → Sup db') := by
  obtain ⟨db', e1, e2, e3⟩ := removeEdge_spec w hed 1
  refine ⟨db', e1, e2, e3, ?_⟩
  intro h
  cases hv : ed.virt with
  | true =>
    unfold removeEdgeWith at e1
    rw [hed] at e1
    dsimp only at e1
    rw [if_pos hv] at e1
    injection e1 with e1
    rw [← e1]
    exact h
  | false => exact removeEdge_sup w e2 h hed hv e3

theorem neighborRemove_wf {db : Db} (w : WF db) (orig : Option Netaddr) : ∃ db', neighborRemove db orig = some db' ∧ WF db' ∧ (Sup db → Sup db') := by
  unfold neighborRemove
  cases orig with
  | none => exact ⟨db, rfl, w, fun h => h⟩
  | some addr =>
    dsimp only
    rcases nodeGet_spec w.tree addr with ⟨g1, _⟩ | ⟨i, n, g1, g2, _⟩
    · rw [g1]
      exact ⟨db, rfl, w, fun h => h⟩
    · rw [g1]
      dsimp only
      rw [g2]
      dsimp only
      have w1 := w.setNode g2 (n' := { n with direct := false }) rfl rfl rfl
      cases ht : n.timer with
      | true =>
        rw [if_pos rfl]
        exact ⟨_, rfl, ht ▸ w1, fun h => (SupX.setNode h (fun j hj => hj.elim)).timer (upd_same _ _ _) rfl⟩
      | false =>
        rw [if_neg (by decide)]
        obtain ⟨db', e1, e2, e3⟩ := nodeRemove_spec w1 (i := i) (upd_same _ _ _) 0
        rw [ht] at e1
        exact ⟨db', e1, e2, fun h => nodeRemove_sup e2 (SupX.setNode h (fun j hj => hj.elim)) e3⟩

/-- a node becomes a direct neighbor -/
theorem direct_sup {db : Db} {i : Nat} {n : Node} (hn : db.nodes i = some n) (h : SupX db (fun j => j = i)) (hs : ∀ e ed, db.edges e = some ed → ed.virt = false → ed.src = i → n.timer = true)
    (ha : ∀ a at_, db.atts a = some at_ → at_.src = i → n.timer = true) : Sup (db.setNode i { n with direct := true }) := by
  have other : ∀ j, j ≠ i → (db.setNode i { n with direct := true }).nodes j = db.nodes j := fun j hj => upd_ne _ _ hj
  refine ⟨?_, ?_, ?_⟩
  · intro e ed hed hv _
    by_cases hx : ed.src = i
    · exact ⟨{ n with direct := true }, by rw [hx]; exact upd_same _ _ _, hs e ed hed hv hx⟩
    · rw [other _ hx]
      exact h.edge e ed hed hv hx
  · intro a at_ hat _
    by_cases hx : at_.src = i
    · exact ⟨{ n with direct := true }, by rw [hx]; exact upd_same _ _ _, ha a at_ hat hx⟩
    · rw [other _ hx]
      exact h.att a at_ hat hx
  · intro j x hj _
    by_cases hx : j = i
    · have hj : upd db.nodes i _ j = some x := hj
      rw [hx, upd_same] at hj
      injection hj with hj
      rw [← hj]
      exact .inr (.inl rfl)
    · rw [other _ hx] at hj
      exact h.node j x hj hx

theorem neighborChange_wf {db : Db} (w : WF db) (old orig : Option Netaddr) (ok : Bool) : ∃ db', neighborChange db old orig ok = some db' ∧ WF db' ∧ (Sup db → Sup db') := by
  unfold neighborChange
  by_cases ho : orig = old
  · rw [if_pos ho]
    exact ⟨db, rfl, w, fun h => h⟩
  · rw [if_neg ho]
    obtain ⟨db1, e1, w1, s1⟩ := neighborRemove_wf w orig
    rw [e1]
    dsimp only
    cases orig with
    | none => exact ⟨db1, rfl, w1, s1⟩
    | some addr =>
      dsimp only
      rcases nodeGet_spec w1.tree addr with ⟨g1, g2⟩ | ⟨i, n, g1, g2, _⟩
      · rw [g1]
        dsimp only
        rcases nodeAdd_spec w1.tree addr false 0 ok with ⟨_, a2⟩ | ⟨i, y, a1, a2, _⟩
        · rw [a2]
          cases ok with
          | false => exact ⟨db1, rfl, w1, s1⟩
          | true =>
            rw [if_pos rfl]
            dsimp only
            have hn : (newNode db1 addr false 0).nodes db1.next = some ⟨addr, 0, false, false, [], []⟩ := upd_same _ _ _
            rw [hn]
            refine ⟨_, rfl, (w1.newNode g2).setNode hn rfl rfl rfl, ?_⟩
            intro h
            refine direct_sup hn (newNode_sup (s1 h) w1 addr false 0) ?_ ?_
            · intro e ed hed _ hs
              have hed : db1.edges e = some ed := hed
              obtain ⟨y, hy⟩ := w1.edge.src e ed hed
              have := w1.fresh.lt hy
              omega
            · intro a at_ hat hs
              have hat : db1.atts a = some at_ := hat
              obtain ⟨y, hy⟩ := w1.att.src a at_ hat
              have := w1.fresh.lt hy
              omega
        · exact absurd a2 (g2 i y a1)
      · rw [g1]
        dsimp only
        rw [g2]
        refine ⟨_, rfl, w1.setNode g2 rfl rfl rfl, ?_⟩
        intro h
        have h1 := s1 h
        refine direct_sup g2 (SupX.mono h1 (fun _ => False.elim)) ?_ ?_
        · intro e ed hed hv hs
          obtain ⟨m, hm, ht⟩ := h1.edge e ed hed hv (by simp)
          rw [hs, g2] at hm
          injection hm with hm
          rw [hm]; exact ht
        · intro a at_ hat hs
          obtain ⟨m, hm, ht⟩ := h1.att a at_ hat (by simp)
          rw [hs, g2] at hm
          injection hm with hm
          rw [hm]; exact ht

theorem init_wf : WF Db.init := by
  refine ⟨⟨⟨by simp [Db.init], fun i => by simp [Db.init], fun i j n m h => (by cases h)⟩, ?_, ?_⟩, ?_⟩
  · exact ⟨fun _ _ h => (by cases h), fun _ _ _ h => (by cases h), fun _ _ h => (by cases h), fun _ _ h => (by cases h), fun _ _ h => (by cases h), fun _ _ _ _ h => (by cases h), fun _ _ h => (by cases h)⟩
  · exact ⟨fun _ _ h => (by cases h), fun _ _ _ h => (by cases h), fun _ _ h => (by cases h), fun _ _ _ h => (by cases h), fun _ _ h => (by cases h), fun _ _ h => (by cases h), fun _ _ _ _ h => (by cases h), fun _ _ h => (by cases h),
      by simp [Db.init], fun i => by simp [Db.init], fun _ _ _ _ h => (by cases h)⟩
  · exact ⟨fun _ _ => rfl, fun _ _ => rfl, fun _ _ => rfl, fun _ _ => rfl⟩

theorem init_sup : Sup Db.init := ⟨fun _ _ h => (by cases h), fun _ _ h => (by cases h), fun _ _ h => (by cases h)⟩

end Verif.Tc
