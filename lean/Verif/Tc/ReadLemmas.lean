import Verif.Tc.Support
import Verif.Tc.ReadSpec

/-! Lemmas on the TC reader. -/
namespace Verif.Tc
open Verif.Netaddr (Netaddr)

/-! ### attachments -/

theorem setAtt_wf {db : Db} (h : WF db) {a : Nat} {x x' : Att} (hx : db.atts a = some x) (h1 : x'.src = x.src) (h2 : x'.dst = x.dst) : WF (db.setAtt a x') := by
  have get : ∀ b y, (db.setAtt a x').atts b = some y → ∃ z, db.atts b = some z ∧ y.src = z.src ∧ y.dst = z.dst := by
    intro b y hy
    have hy : upd db.atts a _ b = some y := hy
    by_cases hb : b = a
    · rw [hb, upd_same] at hy
      injection hy with hy
      rw [hb, ← hy]
      exact ⟨x, hx, h1, h2⟩
    · rw [upd_ne _ _ hb] at hy
      exact ⟨y, hy, rfl, rfl⟩
  have put : ∀ b z, db.atts b = some z → ∃ y, (db.setAtt a x').atts b = some y ∧ y.src = z.src ∧ y.dst = z.dst := by
    intro b z hz
    by_cases hb : b = a
    · rw [hb, hx] at hz
      injection hz with hz
      rw [hb, ← hz]
      exact ⟨x', upd_same _ _ _, h1, h2⟩
    · exact ⟨z, by rw [← hz]; exact upd_ne _ _ hb, rfl, rfl⟩
  refine ⟨⟨⟨h.tree.nodup, h.tree.mem, h.tree.addr⟩, ⟨h.edge.nodup, h.edge.mem, h.edge.src, h.edge.dst, h.edge.ne, h.edge.one, h.edge.inv⟩,
    ⟨h.att.nodup, ?_, h.att.enodup, ?_, ?_, ?_, ?_, h.att.used, h.att.tree, h.att.tmem, h.att.key⟩⟩, ⟨h.fresh.nodes, h.fresh.edges, ?_, h.fresh.ends⟩⟩
  · intro i n b hn
    rw [h.att.mem i n b hn]
    constructor
    · rintro ⟨z, hz, hs⟩
      obtain ⟨y, hy, e1, _⟩ := put b z hz
      exact ⟨y, hy, e1.trans hs⟩
    · rintro ⟨y, hy, hs⟩
      obtain ⟨z, hz, e1, _⟩ := get b y hy
      exact ⟨z, hz, e1.symm.trans hs⟩
  · intro i n b hn
    rw [h.att.emem i n b hn]
    constructor
    · rintro ⟨z, hz, hs⟩
      obtain ⟨y, hy, _, e1⟩ := put b z hz
      exact ⟨y, hy, e1.trans hs⟩
    · rintro ⟨y, hy, hs⟩
      obtain ⟨z, hz, _, e1⟩ := get b y hy
      exact ⟨z, hz, e1.symm.trans hs⟩
  · intro b y hy
    obtain ⟨z, hz, e1, _⟩ := get b y hy
    rw [e1]
    exact h.att.src b z hz
  · intro b y hy
    obtain ⟨z, hz, _, e1⟩ := get b y hy
    rw [e1]
    exact h.att.dst b z hz
  · intro b y b' y' hy hy' e1 e2
    obtain ⟨z, hz, f1, f2⟩ := get b y hy
    obtain ⟨z', hz', f1', f2'⟩ := get b' y' hy'
    exact h.att.one b z b' z' hz hz' (by rw [← f1, ← f1', e1]) (by rw [← f2, ← f2', e2])
  · intro i hi
    cases hc : (db.setAtt a x').atts i with
    | none => rfl
    | some y =>
      obtain ⟨z, hz, _⟩ := get i y hc
      have := h.fresh.ltA hz
      have hi : db.next ≤ i := hi
      omega

theorem setAtt_sup {db : Db} (h : Sup db) {a : Nat} {x x' : Att} (hx : db.atts a = some x) (h1 : x'.src = x.src) : Sup (db.setAtt a x') := by
  refine ⟨h.edge, ?_, h.node⟩
  intro b y hy hf
  have hy : upd db.atts a _ b = some y := hy
  by_cases hb : b = a
  · rw [hb, upd_same] at hy
    injection hy with hy
    rw [← hy, h1]
    exact h.att a x hx hf
  · rw [upd_ne _ _ hb] at hy
    exact h.att b y hy hf

/-- the database after an addition to the attachments of node `i` -/
structure AttAdded (db db' : Db) (i : Nat) (key : Key) (ansn : UInt16) (done : Prop) : Prop where
  edges : db'.edges = db.edges
  same : Same main db db'
  ends : ∀ x en, db.ends x = some en → ∃ en', db'.ends x = some en' ∧ en'.key = en.key
  keep : ∀ a x, db.atts a = some x → ∃ y, db'.atts a = some y ∧ y.src = x.src ∧ y.dst = x.dst ∧ (y = x ∨ y.ansn = ansn)
  new : ∀ a x, db'.atts a = some x → x.src = i → db.atts a = some x ∨ ∃ en, db'.ends x.dst = some en ∧ en.key = key
  result : done → ∃ a x en, db'.atts a = some x ∧ x.src = i ∧ x.ansn = ansn ∧ db'.ends x.dst = some en ∧ en.key = key

theorem attAdd_spec {db : Db} (h : WF db) {i : Nat} {n : Node} (hn : db.nodes i = some n) (key : Key) (mesh ok oke : Bool) (f : Att → Att) (hf1 : ∀ x, (f x).src = x.src) (hf2 : ∀ x, (f x).dst = x.dst) (hf3 : ∀ x, (f x).ansn = x.ansn) :
    ∃ db', (match endpointAdd db i key mesh ok oke with
      | none => none
      | some (db, none) => some db
      | some (db, some t) =>
        match db.nodes i, db.atts t with
        | some n, some at_ => some (db.setAtt t (f { at_ with ansn := n.ansn }))
        | _, _ => none) = some db' ∧ WF db' ∧ (n.timer = true → Sup db → Sup db') ∧ AttAdded db db' i key n.ansn (ok = true ∧ oke = true) := by
  obtain ⟨db1, r, e1, w1, g1, s1, a1, a2, a3, x1, hr⟩ := endpointAdd_spec h hn key mesh ok oke
  rw [e1]
  obtain ⟨n1, hn1, hm⟩ := s1.put hn
  injection hm with m1 hm
  injection hm with m2 hm
  injection hm with m3 hm
  injection hm with m4 m5
  have sup1 : n.timer = true → Sup db → Sup db1 := by
    intro ht hs
    refine hs.atts g1 s1 ?_
    intro a at_ hat
    rcases a1 a at_ hat with h1 | ⟨_, h1⟩
    · exact .inl h1
    · exact .inr ⟨n, by rw [h1]; exact hn, ht⟩
  cases r with
  | none =>
    refine ⟨db1, rfl, w1, sup1, ⟨g1, s1, x1, fun a x hx => ⟨x, a2 a x hx, rfl, rfl, .inl rfl⟩, ?_, ?_⟩⟩
    · intro a x hx _
      rcases a1 a x hx with h1 | ⟨h1, _⟩
      · exact .inl h1
      · cases h1
    · rintro ⟨h1, h2⟩
      exact absurd rfl (hr h1 h2)
  | some t =>
    obtain ⟨x, hx, hxs, en, hen, hk⟩ := a3 t rfl
    dsimp only
    rw [hn1, hx]
    have q1 : (f { x with ansn := n1.ansn }).src = x.src := hf1 _
    have q2 : (f { x with ansn := n1.ansn }).dst = x.dst := hf2 _
    have q3 : (f { x with ansn := n1.ansn }).ansn = n1.ansn := hf3 _
    refine ⟨_, rfl, setAtt_wf w1 hx q1 q2, fun ht hs => setAtt_sup (sup1 ht hs) hx q1, ⟨g1, s1, x1, ?_, ?_, ?_⟩⟩
    · intro a y hy
      by_cases ha : a = t
      · rw [ha]
        have := a2 t y (by rw [← ha]; exact hy)
        rw [hx] at this
        injection this with this
        exact ⟨_, upd_same _ _ _, q1.trans (by rw [this]), q2.trans (by rw [this]), .inr (q3.trans m2.symm)⟩
      · exact ⟨y, by rw [← a2 a y hy]; exact upd_ne _ _ ha, rfl, rfl, .inl rfl⟩
    · intro a y hy hys
      have hy : upd db1.atts t _ a = some y := hy
      by_cases ha : a = t
      · rw [ha, upd_same] at hy
        injection hy with hy
        right
        refine ⟨en, ?_, hk⟩
        rw [← hy, q2]
        exact hen
      · rw [upd_ne _ _ ha] at hy
        rcases a1 a y hy with h1 | ⟨h1, _⟩
        · exact .inl h1
        · injection h1 with h1
          exact absurd h1.symm ha
    · intro _
      refine ⟨t, _, en, upd_same _ _ _, q1.trans hxs, q3.trans m2.symm, ?_, hk⟩
      rw [q2]
      exact hen

theorem gwAtt_fields (complete : Bool) (costOut : List Nat) (dist : List (Nat × Nat)) (x : Att) :
    (gwAtt complete costOut dist x).src = x.src ∧ (gwAtt complete costOut dist x).dst = x.dst ∧ (gwAtt complete costOut dist x).ansn = x.ansn := by
  unfold gwAtt
  dsimp only
  have key : ∀ (l : List (Nat × Nat)) (y : Att), (l.foldl (fun at_ d => { at_ with cost := at_.cost.set d.1 (costOut.getD d.1 INFINITE), dist := at_.dist.set d.1 d.2 }) y).src = y.src ∧
      (l.foldl (fun at_ d => { at_ with cost := at_.cost.set d.1 (costOut.getD d.1 INFINITE), dist := at_.dist.set d.1 d.2 }) y).dst = y.dst ∧
      (l.foldl (fun at_ d => { at_ with cost := at_.cost.set d.1 (costOut.getD d.1 INFINITE), dist := at_.dist.set d.1 d.2 }) y).ansn = y.ansn := by
    intro l
    induction l with
    | nil => intro y; exact ⟨rfl, rfl, rfl⟩
    | cons d l ih =>
      intro y
      obtain ⟨h1, h2, h3⟩ := ih { y with cost := y.cost.set d.1 (costOut.getD d.1 INFINITE), dist := y.dist.set d.1 d.2 }
      exact ⟨h1, h2, h3⟩
  obtain ⟨h1, h2, h3⟩ := key dist (if complete = true then { x with cost := List.replicate DOMAINS INFINITE } else x)
  rw [h1, h2, h3]
  cases complete <;> exact ⟨rfl, rfl, rfl⟩

theorem readRoutable_spec {db : Db} (h : WF db) {i : Nat} {n : Node} (hn : db.nodes i = some n) (complete : Bool) (a : Address) :
    ∃ db', readRoutable db complete i a = some db' ∧ WF db' ∧ (n.timer = true → Sup db → Sup db') ∧ AttAdded db db' i a.key n.ansn (a.ok = true ∧ a.oke = true) :=
  attAdd_spec h hn a.key true a.ok a.oke (fun x => { x with cost := newCost complete x.cost a.costOut }) (fun _ => rfl) (fun _ => rfl) (fun _ => rfl)

theorem readGateway_spec {db : Db} (h : WF db) {i : Nat} {n : Node} (hn : db.nodes i = some n) (complete : Bool) (a : Address) (g : Gateway) :
    ∃ db', readGateway db complete i a g = some db' ∧ WF db' ∧ (n.timer = true → Sup db → Sup db') ∧ AttAdded db db' i g.key n.ansn (g.ok = true ∧ g.oke = true) :=
  attAdd_spec h hn g.key false g.ok g.oke (gwAtt complete a.costOut g.dist) (fun x => (gwAtt_fields _ _ _ x).1) (fun x => (gwAtt_fields _ _ _ x).2.1) (fun x => (gwAtt_fields _ _ _ x).2.2)

/-! ### edges -/

theorem newCost_reset (complete : Bool) (l : List Nat) (hl : l.length = DOMAINS) : newCost complete (List.replicate DOMAINS INFINITE) l = l.map fun c => if c ≤ METRIC_MAX then c else INFINITE := by
  unfold newCost
  rw [← hl]
  clear hl
  induction l with
  | nil => rfl
  | cons c l ih =>
    rw [List.length_cons, List.replicate_succ, List.zipWith_cons_cons, List.map_cons, ih]
    cases complete <;> simp

/-- the database after an addition to the edges of node `i` -/
structure EdgeRead (db db' : Db) (i : Nat) (a : Address) (ansn : UInt16) : Prop where
  node : ∀ j y, db.nodes j = some y → ∃ y', db'.nodes j = some y' ∧ y'.addr = y.addr ∧ y'.ansn = y.ansn ∧ y'.direct = y.direct ∧ y'.timer = y.timer
  atts : db'.atts = db.atts
  ends : db'.ends = db.ends
  keep : ∀ e x, db.edges e = some x → x.src = i → (∀ m, db.nodes x.dst = some m → m.addr ≠ a.addr) → db'.edges e = some x
  new : ∀ e x, db'.edges e = some x → x.src = i → x.virt = false →
    (db.edges e = some x ∧ ∀ m, db.nodes x.dst = some m → m.addr ≠ a.addr) ∨ (∃ m, db'.nodes x.dst = some m ∧ m.addr = a.addr ∧ x.ansn = ansn ∧ (a.costOut.length = DOMAINS → x.cost = a.metrics))
  result : a.ok = true → a.okn = true → ∃ e x m, db'.edges e = some x ∧ x.src = i ∧ x.virt = false ∧ x.ansn = ansn ∧ db'.nodes x.dst = some m ∧ m.addr = a.addr

theorem readEdge_spec {db : Db} (h : WF db) {i : Nat} {n : Node} (hn : db.nodes i = some n) (complete : Bool) (a : Address) (hne : n.addr ≠ a.addr) :
    ∃ db', readEdge db complete i a = some db' ∧ WF db' ∧ (n.timer = true → Sup db → Sup db') ∧ EdgeRead db db' i a n.ansn := by
  obtain ⟨db1, r, e1, w1, ad, hr⟩ := edgeAdd_spec h hn hne a.ok a.okn
  unfold readEdge
  rw [e1]
  have node : ∀ j y, db.nodes j = some y → ∃ y', db1.nodes j = some y' ∧ y'.addr = y.addr ∧ y'.ansn = y.ansn ∧ y'.direct = y.direct ∧ y'.timer = y.timer := by
    intro j y hy
    obtain ⟨y', hy', q1, q2, q3, q4, _⟩ := ad.node j y hy
    exact ⟨y', hy', q1, q2, q3, q4⟩
  -- an old edge to the address is the result
  have sup1 : n.timer = true → Sup db → Sup db1 := fun ht hs => edgeAdd_sup h w1 hs hn ht ad
  cases r with
  | none =>
    refine ⟨db1, rfl, w1, sup1, ⟨node, ad.atts, ad.ends, fun e x hx _ _ => ad.keep e x hx (by simp), ?_, fun h1 h2 => absurd rfl (hr h1 h2)⟩⟩
    intro e x hx hs hv
    rcases ad.new e x hx with h1 | h1 | h1
    · cases h1
    · left
      refine ⟨h1, ?_⟩
      intro m hm ha
      -- the lookup would have found the edge
      rcases findEdge_spec h.toWellFormed hn a.addr with ⟨_, f2⟩ | ⟨e', ed, m', f1, f2, _⟩
      · exact f2 e x h1 hs m hm ha
      · unfold edgeAdd at e1
        rw [hn] at e1
        dsimp only at e1
        rw [f1] at e1
        dsimp only at e1
        rw [f2] at e1
        injection e1 with e1
        injection e1 with _ e1
        cases e1
    · rw [h1.1] at hv; cases hv
  | some e =>
    obtain ⟨ed, m, r1, r2, r3, r4, r5, r6⟩ := ad.result e rfl
    obtain ⟨n1, hn1, q1, q2, q3, q4⟩ := node i n hn
    obtain ⟨inv, hinv, i1, i2, i3, i4⟩ := w1.edge.inv e ed r1
    have hee : ed.inv ≠ e := by
      intro he
      rw [he, r1] at hinv
      injection hinv with hinv
      rw [← hinv] at i2
      exact w1.edge.ne e ed r1 i2
    have hinv' : (db1.setEdge e { ed with ansn := n1.ansn, cost := newCost complete ed.cost a.costOut }).edges ed.inv = some inv := by
      show upd db1.edges e _ ed.inv = _
      rw [upd_ne _ _ hee]
      exact hinv
    have w2 : WF (db1.setEdge e { ed with ansn := n1.ansn, cost := newCost complete ed.cost a.costOut }) :=
      setEdge_wf w1 r1 rfl rfl rfl (by rw [r3]; simp)
    have sup2 : n.timer = true → Sup db → Sup (db1.setEdge e { ed with ansn := n1.ansn, cost := newCost complete ed.cost a.costOut }) := fun ht hs => (sup1 ht hs).setEdge r1 rfl rfl
    -- both cases end with a database of this kind
    have fin : ∀ db', WF db' → (n.timer = true → Sup db → Sup db') → db'.nodes = db1.nodes → db'.atts = db1.atts → db'.ends = db1.ends →
        (db'.edges e = some { ed with ansn := n1.ansn, cost := newCost complete ed.cost a.costOut }) → (∀ e', e' ≠ e → e' ≠ ed.inv → db'.edges e' = db1.edges e') →
        (∀ x, db'.edges ed.inv = some x → x.src = ed.dst) → EdgeRead db db' i a n.ansn := by
      intro db' w' _ hnodes hatts hends he hoth hi
      have notinv : ∀ e' x, db'.edges e' = some x → x.src = i → e' ≠ ed.inv := by
        intro e' x hx hs he'
        have := hi x (by rw [← he']; exact hx)
        rw [hs] at this
        exact w1.edge.ne e ed r1 (r2.trans this)
      refine ⟨by rw [hnodes]; exact node, hatts.trans ad.atts, hends.trans ad.ends, ?_, ?_, ?_⟩
      · intro e' x hx hs hm
        have hne' : e' ≠ e := by
          intro heq
          -- then the edge is an old edge to the address
          have hold : db.edges e = some x := by rw [← heq]; exact hx
          obtain ⟨m0, hm0⟩ := h.edge.dst e x hold
          obtain ⟨m1, hm1, b1, _⟩ := node _ m0 hm0
          have hdst : ed.dst = x.dst := by
            -- the edge keeps its destination
            rcases findEdge_spec h.toWellFormed hn a.addr with ⟨f1, _⟩ | ⟨e', ed', m', f1, f2, f3, f4, f5⟩
            · -- the edge is new, so its number is
              exfalso
              have hlt := h.fresh.ltE hold
              unfold edgeAdd at e1
              rw [hn] at e1
              dsimp only at e1
              rw [f1] at e1
              dsimp only at e1
              cases hok : a.ok with
              | false =>
                rw [hok] at e1
                injection e1 with e1
                injection e1 with _ e1
                cases e1
              | true =>
                rw [hok, if_pos rfl] at e1
                rcases nodeGet_spec h.tree a.addr with ⟨g1, g2⟩ | ⟨dst, m2, g1, g2, g3⟩
                · rw [g1] at e1
                  dsimp only at e1
                  rcases nodeAdd_spec h.tree a.addr false 0 a.okn with ⟨_, a2⟩ | ⟨j, y, a1, a2, _⟩
                  · rw [a2] at e1
                    cases hokn : a.okn with
                    | false =>
                      rw [hokn] at e1
                      injection e1 with e1
                      injection e1 with _ e1
                      cases e1
                    | true =>
                      rw [hokn, if_pos rfl] at e1
                      dsimp only at e1
                      have := linkEdge_num e1
                      have hnx : (newNode db a.addr false 0).next = db.next + 1 := rfl
                      omega
                  · exact absurd a2 (g2 j y a1)
                · rw [g1] at e1
                  have := linkEdge_num e1
                  omega
            · unfold edgeAdd at e1
              rw [hn] at e1
              dsimp only at e1
              rw [f1] at e1
              dsimp only at e1
              rw [f2] at e1
              injection e1 with e1
              injection e1 with e1 e2
              injection e2 with e2
              rw [e2, hold] at f2
              injection f2 with f2
              rw [← e1, e2] at r1
              have r1 : upd db.edges e _ e = some ed := r1
              rw [upd_same] at r1
              injection r1 with r1
              rw [← r1, f2]
          rw [hdst, hm1] at r4
          injection r4 with r4
          exact hm m0 hm0 (by rw [← b1, r4]; exact r5)
        have hx1 := ad.keep e' x hx (fun hh => hne' (by injection hh with hh; exact hh.symm))
        have hni : e' ≠ ed.inv := by
          intro heq
          rw [heq, hinv] at hx1
          injection hx1 with hx1
          rw [← hx1, i2] at hs
          exact w1.edge.ne e ed r1 (r2.trans hs.symm)
        rw [hoth e' hne' hni]
        exact hx1
      · intro e' x hx hs hv
        by_cases hee' : e' = e
        · right
          rw [hee', he] at hx
          injection hx with hx
          refine ⟨m, ?_, r5, ?_, ?_⟩
          · rw [← hx, hnodes]; exact r4
          · rw [← hx]; exact q2
          · intro hl
            rw [← hx]
            show newCost complete ed.cost a.costOut = _
            rw [r6, newCost_reset complete _ hl]
            rfl
        · have hni := notinv e' x hx hs
          rw [hoth e' hee' hni] at hx
          rcases ad.new e' x hx with h1 | h1 | h1
          · injection h1 with h1
            exact absurd h1.symm hee'
          · left
            refine ⟨h1, ?_⟩
            intro m0 hm0 ha
            -- there is only one edge to the address
            obtain ⟨m1, hm1, b1, _⟩ := node _ m0 hm0
            have : x.dst = ed.dst := w1.tree.addr _ _ m1 m hm1 r4 (by rw [b1, ha, r5])
            exact hee' (w1.edge.one e' x e ed hx r1 (hs.trans r2.symm) this)
          · rw [h1.1] at hv; cases hv
      · intro _ _
        exact ⟨e, _, m, he, r2, r3, q2, by rw [hnodes]; exact r4, r5⟩
    dsimp only
    rw [hn1, r1]
    dsimp only
    rw [hinv']
    dsimp only
    cases hv : inv.virt with
    | false =>
      rw [if_neg (by decide)]
      refine ⟨_, rfl, w2, sup2, fin _ w2 sup2 rfl rfl rfl (upd_same _ _ _) (fun e' h1 _ => upd_ne _ _ h1) ?_⟩
      intro x hx
      rw [hinv'] at hx
      injection hx with hx
      rw [← hx]
      exact i2
    | true =>
      rw [if_pos rfl]
      have w3 := setEdge_wf w2 hinv' (ed' := { inv with cost := newCost complete inv.cost a.costIn, virt := true }) rfl rfl rfl (by
        intro iv hiv
        rw [i1] at hiv
        have hiv : upd db1.edges e _ e = some iv := hiv
        rw [upd_same] at hiv
        injection hiv with hiv
        rw [← hiv]
        simp [r3])
      have sup3 : n.timer = true → Sup db → Sup _ := fun ht hs => (sup2 ht hs).setEdge hinv' (ed' := { inv with cost := newCost complete inv.cost a.costIn, virt := true }) rfl hv.symm
      refine ⟨_, rfl, ?_, ?_, ?_⟩
      · rw [← hv] at w3
        exact hv ▸ w3
      · exact sup3
      · refine fin _ w3 sup3 rfl rfl rfl ?_ ?_ ?_
        · show upd (upd db1.edges e _) ed.inv _ e = _
          rw [upd_ne _ _ hee.symm, upd_same]
        · intro e' h1 h2
          show upd (upd db1.edges e _) ed.inv _ e' = _
          rw [upd_ne _ _ h2, upd_ne _ _ h1]
        · intro x hx
          have hx : upd (upd db1.edges e _) ed.inv _ ed.inv = some x := hx
          rw [upd_same] at hx
          injection hx with hx
          rw [← hx]
          exact i2

end Verif.Tc
