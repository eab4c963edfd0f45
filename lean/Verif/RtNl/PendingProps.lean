import Verif.RtNl.Pending
/-
C193, C194: answers for requests, notifications about routes.
-/
namespace Verif.RtNl

/-! ## Lemmas -/

/-- invariant: requests are told or wait -/
structure Inv (p : P) : Prop where
  perm : (p.told.map (fun t => (t.1, t.2.1)) ++ p.wait).Perm p.sent
  le : ∀ x ∈ p.sent, x.2 ≤ p.seq
  nodup : (p.sent.map (·.2)).Nodup

theorem inv_start : Inv {} := ⟨.refl _, by simp, by simp⟩

theorem send_inv {p p' : P} (h : Inv p) (id : Nat) (hs : send p id = some p') : Inv p' := by
  unfold send at hs
  split at hs
  · cases hs
  · cases hs
    refine ⟨?_, ?_, ?_⟩
    · simp only [← List.append_assoc]
      exact h.perm.append_right _
    · intro x hx
      simp only [List.mem_append, List.mem_singleton] at hx
      rcases hx with hx | hx
      · have := h.le x hx; simp only; omega
      · rw [hx]; exact Nat.le_refl _
    · simp only [List.map_append, List.map_cons, List.map_nil]
      rw [List.nodup_append]
      refine ⟨h.nodup, by simp, ?_⟩
      intro a ha b hb
      simp only [List.mem_singleton] at hb
      obtain ⟨x, hx, rfl⟩ := List.mem_map.1 ha
      have := h.le x hx
      omega

theorem finish_inv {p : P} (h : Inv p) (x : Nat × Nat) (hx : x ∈ p.wait) (e : Int) : Inv (finish p x e) := by
  refine ⟨?_, h.le, h.nodup⟩
  refine List.Perm.trans ?_ h.perm
  simp only [finish, List.map_append, List.map_cons, List.map_nil, List.append_assoc]
  exact (List.Perm.append_left _ (List.perm_cons_erase hx).symm)

theorem answer_inv {p : P} (h : Inv p) (seq : Nat) (e : Int) : Inv (answer p seq e) := by
  unfold answer
  split
  · exact h
  · rename_i x hf; exact finish_inv h x (List.mem_of_find?_eq_some hf) e

theorem interrupt_inv {p : P} (h : Inv p) (id : Nat) : Inv (interrupt p id) := by
  unfold interrupt
  split
  · exact h
  · rename_i x hf; exact finish_inv h x (List.mem_of_find?_eq_some hf) _

/-- one round of the loop at the first element -/
theorem loop_first (cb : Nat → List Act) (e : Int) (fuel : Nat) (p : P) (x : Nat × Nat) (rest : List (Nat × Nat)) (h : p.wait = x :: rest) :
    loop cb e (fuel + 1) p (some x) = match acts { p with wait := rest, told := p.told ++ [(x.1, x.2, e)] } (cb x.1) with
      | none => .crash
      | some p => loop cb e fuel p rest.head? := by
  have h1 : finish p x e = { p with wait := rest, told := p.told ++ [(x.1, x.2, e)] } := by simp [finish, h]
  simp only [loop, h1]
  rw [if_pos (by rw [h]; exact List.mem_cons_self)]
  have h2 : (p.wait.drop (p.wait.idxOf x + 1)).head? = rest.head? := by simp [h]
  rw [h2]
  cases acts { p with wait := rest, told := p.told ++ [(x.1, x.2, e)] } (cb x.1) <;> rfl

theorem loop_quiet (e : Int) (l : List (Nat × Nat)) : ∀ (fuel : Nat) (p : P), l.length < fuel → p.wait = l →
    loop (fun _ => []) e fuel p l.head? = .ok { p with wait := [], told := p.told ++ l.map fun x => (x.1, x.2, e) } := by
  induction l with
  | nil =>
    intro fuel p _ h
    obtain ⟨w, s, t, g, hd, st⟩ := p
    simp only at h
    subst h
    cases fuel <;> simp [loop]
  | cons x rest ih =>
    intro fuel p hf h
    cases fuel with
    | zero => simp at hf
    | succ fuel =>
      rw [List.head?_cons, loop_first _ _ _ _ _ _ h]
      simp only [acts, List.foldl_nil]
      rw [ih fuel _ (by simp at hf; omega) rfl]
      simp

theorem timeout_inv {p : P} (h : Inv p) (e : Int) : Inv { p with wait := [], told := p.told ++ p.wait.map fun x => (x.1, x.2, e) } := by
  refine ⟨?_, h.le, h.nodup⟩
  simp only [List.map_append, List.map_map, List.append_nil]
  have : (List.map ((fun t : Nat × Nat × Int => (t.1, t.2.1)) ∘ fun x => (x.1, x.2, e)) p.wait) = p.wait := by
    rw [show ((fun t : Nat × Nat × Int => (t.1, t.2.1)) ∘ fun x : Nat × Nat => (x.1, x.2, e)) = id from rfl, List.map_id]
  rw [this]
  exact h.perm

theorem message_same (query : Nat → Option (Nat → Bool)) (p : P) (seq route : Nat) (new : Bool) : (message query p seq route new).wait = p.wait ∧ (message query p seq route new).told = p.told ∧
    (message query p seq route new).sent = p.sent ∧ (message query p seq route new).seq = p.seq := by
  unfold message
  repeat' split
  all_goals exact ⟨rfl, rfl, rfl, rfl⟩

theorem ev_inv {query : Nat → Option (Nat → Bool)} {p p' : P} (h : Inv p) (e : Ev) (he : ev query p e = some p') : Inv p' := by
  cases e with
  | send id => exact send_inv h id he
  | answer seq error => cases he; exact answer_inv h seq error
  | interrupt id => cases he; exact interrupt_inv h id
  | timeout error =>
    simp only [ev, timeout, loop_quiet error p.wait (p.wait.length + 1) p (by omega) rfl] at he
    cases he
    exact timeout_inv h error
  | message seq route new =>
    cases he
    obtain ⟨h1, h2, h3, h4⟩ := message_same query p seq route new
    exact ⟨by rw [h1, h2, h3]; exact h.perm, by rw [h3, h4]; exact h.le, by rw [h3]; exact h.nodup⟩

theorem run_inv {query : Nat → Option (Nat → Bool)} (es : List Ev) : ∀ {p p' : P}, Inv p → run query p es = some p' → Inv p' := by
  induction es with
  | nil => intro p p' h hr; cases hr; exact h
  | cons e es ih =>
    intro p p' h hr
    simp only [run] at hr
    cases he : ev query p e with
    | none => rw [he] at hr; cases hr
    | some q => rw [he] at hr; exact ih (ev_inv h e he) hr

/-- what callbacks do that only make requests -/
theorem acts_sets (l : List Act) (hl : ∀ a ∈ l, ∃ id, a = .set id) : ∀ (p p' : P), acts p l = some p' →
    ∃ new, p'.wait = p.wait ++ new ∧ p'.told = p.told ∧ p.seq ≤ p'.seq ∧ ∀ x ∈ new, p.seq < x.2 := by
  induction l with
  | nil => intro p p' h; cases h; exact ⟨[], by simp, rfl, Nat.le_refl _, by simp⟩
  | cons a l ih =>
    intro p p' h
    obtain ⟨id, rfl⟩ := hl a List.mem_cons_self
    have hn : l.foldl (fun (p : Option P) a => p.bind fun p => act p a) none = none := by
      clear ih hl h
      induction l with
      | nil => rfl
      | cons a l ih => simpa using ih
    have h : l.foldl (fun (p : Option P) a => p.bind fun p => act p a) (send p id) = some p' := h
    cases hs : send p id with
    | none => rw [hs, hn] at h; cases h
    | some q =>
      rw [hs] at h
      obtain ⟨new, h1, h2, h3, h4⟩ := ih (fun a ha => hl a (List.mem_cons_of_mem _ ha)) q p' h
      unfold send at hs
      split at hs
      · cases hs
      · cases hs
        refine ⟨(id, p.seq + 1) :: new, by rw [h1]; simp, h2, by simp only at h3; omega, ?_⟩
        intro x hx
        rcases List.mem_cons.1 hx with hx | hx
        · rw [hx]; simp only; omega
        · have := h4 x hx; simp only at this; omega

theorem loop_sets (cb : Nat → List Act) (hcb : ∀ id, ∀ a ∈ cb id, ∃ id', a = .set id') (e : Int) (s0 : Nat) : ∀ (fuel : Nat) (p p' : P), s0 ≤ p.seq → loop cb e fuel p p.wait.head? = .ok p' →
    ∃ more, p'.told = p.told ++ more ∧ more.filter (fun t => t.2.1 ≤ s0) = (p.wait.filter (fun x => x.2 ≤ s0)).map (fun x => (x.1, x.2, e)) := by
  intro fuel
  induction fuel with
  | zero =>
    intro p p' _ h
    cases hw : p.wait with
    | nil => rw [hw] at h; simp [loop] at h; exact ⟨[], by simp [h]⟩
    | cons x rest => rw [hw] at h; simp [loop] at h
  | succ fuel ih =>
    intro p p' hs h
    cases hw : p.wait with
    | nil => rw [hw] at h; simp [loop] at h; exact ⟨[], by simp [h]⟩
    | cons x rest =>
      rw [hw, List.head?_cons, loop_first _ _ _ _ _ _ hw] at h
      cases ha : acts { p with wait := rest, told := p.told ++ [(x.1, x.2, e)] } (cb x.1) with
      | none => rw [ha] at h; cases h
      | some q =>
        rw [ha] at h
        simp only at h
        obtain ⟨new, h1, h2, h3, h4⟩ := acts_sets _ (hcb x.1) _ _ ha
        simp only at h1 h2 h3 h4
        have hnew : new.filter (fun x => decide (x.2 ≤ s0)) = [] := by
          rw [List.filter_eq_nil_iff]
          intro y hy
          have := h4 y hy
          simp; omega
        have hx : ∀ y : Nat × Nat, ([(y.1, y.2, e)] : List (Nat × Nat × Int)).filter (fun t => decide (t.2.1 ≤ s0)) = ([y].filter (fun x => decide (x.2 ≤ s0))).map (fun x => (x.1, x.2, e)) := by
          intro y; by_cases c : y.2 ≤ s0 <;> simp [c]
        cases rest with
        | nil =>
          cases fuel <;> simp only [List.head?_nil, loop, Res.ok.injEq] at h <;> subst h <;> exact ⟨_, h2, hx x⟩
        | cons y rest =>
          have hh : (y :: rest).head? = q.wait.head? := by rw [h1]; rfl
          rw [hh] at h
          obtain ⟨more, h5, h6⟩ := ih q p' (by omega) h
          refine ⟨(x.1, x.2, e) :: more, by rw [h5, h2]; simp, ?_⟩
          rw [show ((x.1, x.2, e) :: more) = [(x.1, x.2, e)] ++ more from rfl, List.filter_append, hx, h6, h1, List.filter_append, hnew, List.append_nil, ← List.map_append,
            ← List.filter_append]
          rfl

/-! ## C193 -/

/-- every request is answered once or still waits: all requests are, up to the order, the ones answered and the ones that wait, and no two have the same sequence number -/
theorem C193_once (query : Nat → Option (Nat → Bool)) (es : List Ev) (p : P) (h : run query {} es = some p) :
    (p.told.map (fun t => (t.1, t.2.1)) ++ p.wait).Perm p.sent ∧ (p.sent.map (·.2)).Nodup :=
  ⟨(run_inv es inv_start h).perm, (run_inv es inv_start h).nodup⟩

/-- an answer of the kernel reaches the callback of the object that made the request, and only this one; later answers with this number reach no one -/
theorem C193_answer (query : Nat → Option (Nat → Bool)) (es : List Ev) (p : P) (h : run query {} es = some p) (id seq : Nat) (error : Int) (hw : (id, seq) ∈ p.wait) :
    (answer p seq error).told = p.told ++ [(id, seq, error)] ∧ ∀ error', answer (answer p seq error) seq error' = answer p seq error := by
  have hi := run_inv es inv_start h
  have hn : ((p.told.map (fun t => (t.1, t.2.1)) ++ p.wait).map (·.2)).Nodup := (hi.perm.map _).nodup_iff.2 hi.nodup
  rw [List.map_append, List.nodup_append] at hn
  have hn := hn.2.1
  have uniq : ∀ x ∈ p.wait, x.2 = seq → x = (id, seq) := by
    intro x hx hxs
    have : ∀ (l : List (Nat × Nat)), (l.map (·.2)).Nodup → ∀ a ∈ l, ∀ b ∈ l, a.2 = b.2 → a = b := by
      intro l
      induction l with
      | nil => intro _ a ha; cases ha
      | cons c l ih =>
        intro hl a ha b hb hab
        rw [List.map_cons, List.nodup_cons] at hl
        rcases List.mem_cons.1 ha with ea | ha <;> rcases List.mem_cons.1 hb with eb | hb
        · rw [ea, eb]
        · rw [ea] at hab; exact absurd (List.mem_map.2 ⟨b, hb, hab.symm⟩) hl.1
        · rw [eb] at hab; exact absurd (List.mem_map.2 ⟨a, ha, hab⟩) hl.1
        · exact ih hl.2 a ha b hb hab
    exact this _ hn x hx _ hw hxs
  have hf : p.wait.find? (fun x => decide (x.2 = seq)) = some (id, seq) := by
    cases hf : p.wait.find? (fun x => decide (x.2 = seq)) with
    | none => have := List.find?_eq_none.1 hf _ hw; simp at this
    | some x =>
      have h1 := List.mem_of_find?_eq_some hf
      have h2 := List.find?_some hf
      rw [uniq x h1 (of_decide_eq_true h2)]
  have ha : answer p seq error = finish p (id, seq) error := by simp only [answer, hf]
  refine ⟨by rw [ha]; rfl, ?_⟩
  intro error'
  rw [ha]
  have hg : (finish p (id, seq) error).wait.find? (fun x => decide (x.2 = seq)) = none := by
    rw [List.find?_eq_none]
    intro x hx hd
    have hx' : x ∈ p.wait := List.mem_of_mem_erase hx
    have e := uniq x hx' (of_decide_eq_true hd)
    have hnd : p.wait.Nodup := by
      have : ∀ (l : List (Nat × Nat)), (l.map (·.2)).Nodup → l.Nodup := by
        intro l
        induction l with
        | nil => intro _; simp
        | cons c l ih =>
          intro hl
          rw [List.map_cons, List.nodup_cons] at hl
          rw [List.nodup_cons]
          exact ⟨fun hc => hl.1 (List.mem_map.2 ⟨c, hc, rfl⟩), ih hl.2⟩
      exact this _ hn
    rw [e] at hx
    exact hnd.not_mem_erase hx
  simp only [answer, hg]

/-- a timeout ends all requests, if the callbacks make no requests -/
theorem C193_timeout (p : P) (error : Int) : timeout (fun _ => []) error (p.wait.length + 1) p = .ok { p with wait := [], told := p.told ++ p.wait.map fun x => (x.1, x.2, error) } :=
  loop_quiet error p.wait _ p (by omega) rfl

/-- callbacks that make new requests: if the loop ends, the requests that were waiting have been told once, in their order. Missing: the loop does not always
end (`C193_endless_counterexample`), new requests may be told of the timeout (`C193_new_counterexample`), and callbacks that interrupt other requests are excluded
(`C193_interrupt_counterexample`) -/
theorem C193_requests_partial (query : Nat → Option (Nat → Bool)) (es : List Ev) (p : P) (h : run query {} es = some p) (cb : Nat → List Act) (hcb : ∀ id, ∀ a ∈ cb id, ∃ id', a = .set id')
    (error : Int) (fuel : Nat) (p' : P) (ht : timeout cb error fuel p = .ok p') :
    ∃ more, p'.told = p.told ++ more ∧ more.filter (fun t => t.2.1 ≤ p.seq) = p.wait.map (fun x => (x.1, x.2, error)) := by
  obtain ⟨more, h1, h2⟩ := loop_sets cb hcb error p.seq fuel p p' (Nat.le_refl _) ht
  refine ⟨more, h1, ?_⟩
  rw [h2]
  congr 1
  rw [List.filter_eq_self]
  intro x hx
  have hi := run_inv es inv_start h
  exact decide_eq_true (hi.le x (hi.perm.subset (List.mem_append_right _ hx)))

theorem endless (error : Int) : ∀ (fuel : Nat) (p : P) (x y : Nat × Nat), p.wait = [x, y] → x.1 ≠ y.1 → loop (fun id => [.set id]) error fuel p (some x) = .running := by
  intro fuel
  induction fuel with
  | zero => intros; rfl
  | succ fuel ih =>
    intro p x y h hne
    rw [loop_first _ _ _ _ _ _ h]
    have hs : acts { p with wait := [y], told := p.told ++ [(x.1, x.2, error)] } [.set x.1] =
        some { p with wait := [y, (x.1, p.seq + 1)], told := p.told ++ [(x.1, x.2, error)], seq := p.seq + 1, sent := p.sent ++ [(x.1, p.seq + 1)] } := by
      simp [acts, act, send, P.has, Ne.symm hne]
    rw [hs]
    exact ih _ y (x.1, p.seq + 1) rfl (Ne.symm hne)

/-- two objects that repeat their requests after a timeout: the timeout does not end -/
theorem C193_endless_counterexample (error : Int) (fuel : Nat) (p : P) (x y : Nat × Nat) (h : p.wait = [x, y]) (hne : x.1 ≠ y.1) : timeout (fun id => [.set id]) error fuel p = .running := by
  unfold timeout
  rw [h]
  exact endless error fuel p x y h hne

/-- a callback makes a new request (layer2_export.c:383-388 removes a route whose setting failed): the new request is told of the timeout before it is sent -/
theorem C193_new_counterexample : ∃ es p, run (fun _ => none) {} es = some p ∧ p.seq = 2 ∧
    ∃ p', timeout (fun id => if id = 1 then [.set 3] else []) (-1) 9 p = .ok p' ∧ (3, 3, -1) ∈ p'.told ∧ p'.wait = [] :=
  ⟨[.send 1, .send 2], _, rfl, rfl, _, rfl, by decide +kernel, by decide +kernel⟩

/-- a callback interrupts the next request: the loop continues with this object, which is no longer in the tree -/
theorem C193_interrupt_counterexample (error : Int) (fuel : Nat) (p : P) (x y : Nat × Nat) (rest : List (Nat × Nat)) (h : p.wait = x :: y :: rest) (hy : y ∉ rest) (cb : Nat → List Act) (hcb : cb x.1 = [.interrupt y.1]) :
    timeout cb error (fuel + 2) p = .crash := by
  unfold timeout
  rw [h, List.head?_cons, loop_first _ _ _ _ _ _ h, hcb]
  have hf : (y :: rest).find? (fun z => decide (z.1 = y.1)) = some y := by simp
  simp only [acts, List.foldl_cons, List.foldl_nil, Option.bind_some, act, interrupt, hf, List.head?_cons, loop]
  rw [if_neg (by simpa [finish] using hy)]

/-- a second request for an object that waits: the assertion fails -/
theorem C193_twice_counterexample (p : P) (id seq : Nat) (h : (id, seq) ∈ p.wait) : send p id = none := by
  unfold send
  rw [if_pos]
  simp only [P.has, List.any_eq_true, decide_eq_true_eq]
  exact ⟨_, h, rfl⟩

example : run (fun _ => none) {} [.send 4, .send 7, .answer 2 17, .send 7, .interrupt 4, .answer 1 0, .timeout (-1)] =
    some { seq := 3, told := [(7, 2, 17), (4, 1, -1), (7, 3, -1)], sent := [(4, 1), (7, 2), (7, 3)] } := by decide +kernel
example : ∃ p, run (fun _ => none) {} [.send 4, .send 7] = some p ∧ (7, 2) ∈ p.wait ∧ timeout (fun id => if id = 7 then [.set 9] else []) (-1) 5 p = .ok { seq := 3, told := [(4, 1, -1), (7, 2, -1)], wait := [(9, 3)], sent := [(4, 1), (7, 2), (9, 3)] } :=
  ⟨_, rfl, by decide +kernel, by decide +kernel⟩
example : timeout (fun id => [.set id]) (-1) 100 { wait := [(1, 1), (2, 2)], seq := 2 } = .running := by decide +kernel
example : timeout (fun id => if id = 1 then [.interrupt 2] else []) (-1) 100 { wait := [(1, 1), (2, 2)], seq := 2 } = .crash := by decide +kernel

/-! ## C194 -/

/-- answers to a query: the routes that pass the filter reach the query, and nothing else happens -/
theorem C194_query (query : Nat → Option (Nat → Bool)) (p : P) (id seq route : Nat) (new : Bool) (filter : Nat → Bool) (hq : query id = some filter) (h0 : seq ≠ 0)
    (hw : p.wait.find? (fun x => x.2 = seq) = some (id, seq)) :
    message query p seq route new = { p with got := p.got ++ if filter route then [(id, route)] else [] } := by
  unfold message
  rw [if_neg h0, hw]
  simp only [hq]
  split <;> simp

/-- changes of routes: a message that belongs to no waiting request reaches the listeners, once, as what it is -/
theorem C194_change_partial (query : Nat → Option (Nat → Bool)) (p : P) (seq route : Nat) (new : Bool) (h : seq = 0 ∨ ∀ x ∈ p.wait, x.2 ≠ seq) :
    message query p seq route new = { p with heard := p.heard ++ [(route, new)] } := by
  have : (if seq = 0 then none else p.wait.find? (fun x => x.2 = seq)) = none := by
    split
    · rfl
    · rename_i h0
      rw [List.find?_eq_none]
      intro x hx
      have := (h.resolve_left h0) x hx
      simpa using this
  unfold message
  rw [this]

/-- The sequence number of a notification is the one of the program that changed the route. If this program has the sequence number of a waiting request to set a
route, the listeners do not get the notification (nor the one about the route just set). -/
theorem C194_swallowed_counterexample (query : Nat → Option (Nat → Bool)) (p : P) (id seq route : Nat) (new : Bool) (hq : query id = none) (h0 : seq ≠ 0)
    (hw : p.wait.find? (fun x => x.2 = seq) = some (id, seq)) : message query p seq route new = p := by
  unfold message
  rw [if_neg h0, hw]
  simp only [hq]

/-- and if it has the number of a waiting query, a removed route is reported to the query as a route that exists -/
theorem C194_deleted_counterexample (query : Nat → Option (Nat → Bool)) (p : P) (id seq route : Nat) (filter : Nat → Bool) (hq : query id = some filter) (hf : filter route = true) (h0 : seq ≠ 0)
    (hw : p.wait.find? (fun x => x.2 = seq) = some (id, seq)) : (message query p seq route false).got = p.got ++ [(id, route)] ∧ (message query p seq route false).heard = p.heard := by
  rw [C194_query query p id seq route false filter hq h0 hw, if_pos hf]
  exact ⟨rfl, rfl⟩

def sampleQuery : Nat → Option (Nat → Bool) := fun id => if id = 4 then some (· > 10) else none
example : run sampleQuery {} [.send 4, .send 7, .message 1 11 true, .message 1 10 true, .message 0 12 false, .message 2 13 true, .answer 1 0, .message 1 14 true] =
    some { seq := 2, wait := [(7, 2)], told := [(4, 1, 0)], got := [(4, 11)], heard := [(12, false), (14, true)], sent := [(4, 1), (7, 2)] } := by decide +kernel

end Verif.RtNl
