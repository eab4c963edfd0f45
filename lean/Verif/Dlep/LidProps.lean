import Verif.Dlep.Lid
/-
C237: radio and router mean the same destination.
-/
namespace Verif.Dlep.Lid

/-! ### Specification -/

/-- What a radio does with a destination. -/
inductive Act where
  | up (k : Key) | down (k : Key) | update (k : Key)
deriving DecidableEq, Repr

/-- The destination an action is about. -/
def Act.key : Act → Key
  | .up k => k
  | .down k => k
  | .update k => k

/-- The message for an action. -/
def Act.msg : Act → Msg
  | .up k => .up (write k)
  | .down k => .down (write k)
  | .update k => .update (write k)

/-- The destination `k` is up after these actions, the last action first: the last `up` or `down` for `k` was an `up`. -/
def IsUp (k : Key) : List Act → Prop
  | [] => False
  | .up j :: h => j = k ∨ IsUp k h
  | .down j :: h => j ≠ k ∧ IsUp k h
  | .update _ :: h => IsUp k h

/-- The radio takes down only what is up (last action first). -/
def Orderly : List Act → Prop
  | [] => True
  | .down k :: h => IsUp k h ∧ Orderly h
  | _ :: h => Orderly h

/-- The link id of a destination suits a session with link ids of `n` bytes. -/
def Suits (n : Nat) (k : Key) : Prop := k.lid = [] ∨ k.lid.length = n

/-- The answers due to an action. -/
def answers : Act → List Answer
  | .up k => [.upAck k]
  | .down k => [.downAck k]
  | .update _ => []

/-! ### C237 -/

/-- A radio configured for link ids of 1 to 15 bytes: the router uses the same length. -/
theorem C237_length_partial {n : Nat} (h1 : 1 ≤ n) (h2 : n < 16) : processInitAck (writeInitAck n) = some n := by
  unfold writeInitAck
  split
  · rename_i h
    have : n = defaultLid := by omega
    simp [processInitAck, this]
  · have : n % 65536 = n := by omega
    rw [this]
    show (if n > maxLid then none else some n) = some n
    rw [if_neg (by unfold maxLid; omega)]

/-- A radio configured to use no link ids: the router expects four bytes, because 0 is not sent. -/
theorem C237_zero_counterexample : processInitAck (writeInitAck 0) = some 4 := rfl

/-- A length above 16 ends the session, every other is used. -/
theorem C237_limit (l : Nat) : processInitAck (some l) = none ↔ 16 < l := by
  show (if l > maxLid then none else some l) = none ↔ _
  have : maxLid = 16 := rfl
  split <;> simp <;> omega

/-- The radio announces exactly the neighbors whose link id suits its configuration. -/
theorem C237_announced (n : Nat) (k : Key) : announces n k = true ↔ Suits n k := by
  unfold announces Suits
  cases h : k.lid with
  | nil => simp
  | cons a l => simp

/-- Whatever the configured length is, the router reads exactly the key the radio announces. -/
theorem C237_key {n : Nat} (hn : n < 16) {k : Key} (ha : announces n k = true) :
    ∃ len, processInitAck (writeInitAck n) = some len ∧ readKey len (write k) = some k := by
  have hs := (C237_announced n k).1 ha
  obtain ⟨m, l⟩ := k
  rcases Nat.eq_zero_or_pos n with h0 | h0
  · subst h0
    refine ⟨4, rfl, ?_⟩
    have : l = [] := by
      rcases hs with e | e
      · exact e
      · exact List.eq_nil_of_length_eq_zero e
    subst this
    rfl
  · refine ⟨n, C237_length_partial h0 hn, ?_⟩
    cases l with
    | nil => rfl
    | cons a l =>
      have : (a :: l).length = n := by
        rcases hs with e | e
        · cases e
        · exact e
      simp only [write, readKey]
      simp at this
      simp [this, h0]

/-- The key read by the router is the only one with these TLVs: the TLVs of different keys differ. -/
theorem C237_injective {j k : Key} (h : write j = write k) : j = k := by
  obtain ⟨m, l⟩ := j
  obtain ⟨m', l'⟩ := k
  cases l <;> cases l' <;> simp_all [write]

/-- A link id of another length, or no MAC address, ends the session; the neighbors stay. -/
theorem C237_bad (len : Nat) (r : Router) (ha : r.alive = true) (t : Tlvs)
    (hb : t.mac = none ∨ ∃ l, t.lid = some l ∧ l.length ≠ len) (m : Msg)
    (hm : m = .up t ∨ m = .down t ∨ m = .update t) :
    (process len r m).alive = false ∧ (process len r m).neigh = r.neigh ∧ (process len r m).out = r.out := by
  have hr : readKey len t = none := by
    rcases hb with h | ⟨l, h1, h2⟩
    · simp [readKey, h]
    · simp only [readKey, h1]
      cases t.mac with
      | none => rfl
      | some m => simp [h2]
  rcases hm with e | e | e <;> subst e <;> simp [process, ha, hr, Router.terminate]

/-- The step for the induction: the router follows one action. -/
theorem follow {len : Nat} (h : List Act) (a : Act) (r : Router) (ho : Orderly (a :: h))
    (hr : readKey len (write a.key) = some a.key) (hl : r.alive = true) (hn : ∀ k, k ∈ r.neigh ↔ IsUp k h) :
    (process len r a.msg).alive = true ∧ (∀ k, k ∈ (process len r a.msg).neigh ↔ IsUp k (a :: h)) ∧
      (process len r a.msg).out = r.out ++ answers a := by
  cases a with
  | up j =>
    simp only [Act.key] at hr
    simp only [Act.msg, process, hl, hr, IsUp, answers]
    refine ⟨rfl, ?_, rfl⟩
    intro k
    show k ∈ (if r.neigh.contains j then r.neigh else j :: r.neigh) ↔ _
    split
    · rename_i hc
      have hc : j ∈ r.neigh := by simpa using hc
      rw [hn]
      constructor
      · exact Or.inr
      · rintro (e | e)
        · subst e; exact (hn j).1 hc
        · exact e
    · rw [List.mem_cons, hn]
      constructor
      · rintro (e | e)
        · exact Or.inl e.symm
        · exact Or.inr e
      · rintro (e | e)
        · exact Or.inl e.symm
        · exact Or.inr e
  | down j =>
    simp only [Act.key] at hr
    have hu : j ∈ r.neigh := (hn j).2 ho.1
    have hc : r.neigh.contains j = true := by simpa using hu
    simp only [Act.msg, process, hl, hr, hc, IsUp, answers]
    refine ⟨rfl, ?_, rfl⟩
    intro k
    show k ∈ r.neigh.filter (· != j) ↔ _
    rw [List.mem_filter, hn]
    constructor
    · rintro ⟨h1, h2⟩
      exact ⟨fun e => by subst e; simp at h2, h1⟩
    · rintro ⟨h1, h2⟩
      exact ⟨h2, by simpa using fun e => h1 e.symm⟩
  | update j =>
    simp only [Act.key] at hr
    simp only [Act.msg, process, hl, hr, IsUp, answers]
    exact ⟨hl, hn, (List.append_nil _).symm⟩

/-- The router follows the radio: the radio (with any configured length) announces, updates and takes down destinations whose link
id suits, and takes down only what is up. Then the session stays, the layer2 neighbors of the router are
exactly the destinations that are up, and every announcement and removal is acknowledged, in order. -/
theorem C237_follow {n : Nat} (hn : n < 16) (acts : List Act) (ho : Orderly acts.reverse)
    (hs : ∀ a ∈ acts, announces n a.key = true) :
    ∃ len, processInitAck (writeInitAck n) = some len ∧
      (run len {} (acts.map Act.msg)).alive = true ∧
      (∀ k, k ∈ (run len {} (acts.map Act.msg)).neigh ↔ IsUp k acts.reverse) ∧
      (run len {} (acts.map Act.msg)).out = acts.flatMap answers := by
  obtain ⟨len, hlen, -⟩ := C237_key hn (k := ⟨0, []⟩) rfl
  refine ⟨len, hlen, ?_⟩
  have hr : ∀ a ∈ acts, readKey len (write a.key) = some a.key := by
    intro a ha
    obtain ⟨len', h1, h2⟩ := C237_key hn (hs a ha)
    rw [hlen] at h1
    injection h1 with h1
    subst h1
    exact h2
  clear hs hlen
  obtain ⟨h, rfl⟩ : ∃ h, acts = h.reverse := ⟨acts.reverse, by simp⟩
  rw [List.reverse_reverse] at *
  induction h with
  | nil => exact ⟨rfl, fun k => by simp [run, IsUp], rfl⟩
  | cons a h ih =>
    have ho' : Orderly h := by
      cases a with
      | up k => exact ho
      | down k => exact ho.2
      | update k => exact ho
    have hr' : ∀ b ∈ h.reverse, readKey len (write b.key) = some b.key := fun b hb =>
      hr b (by simp at hb ⊢; exact Or.inl hb)
    obtain ⟨i1, i2, i3⟩ := ih ho' hr'
    have hf := follow h a (run len {} (h.reverse.map Act.msg)) ho (hr a (by simp)) i1 i2
    have e : run len {} ((a :: h).reverse.map Act.msg) = process len (run len {} (h.reverse.map Act.msg)) a.msg := by
      simp [run, List.foldl_append]
    rw [e]
    refine ⟨hf.1, hf.2.1, ?_⟩
    rw [hf.2.2, i3]
    simp

/-- A destination that is taken down although it is not up ends the session. -/
theorem C237_unknown (len : Nat) (r : Router) (ha : r.alive = true) (k : Key) (hk : k ∉ r.neigh) :
    (process len r (.down (write k))).alive = false := by
  have hc : r.neigh.contains k = false := by simpa using hk
  have ha' : (!r.alive) = false := by rw [ha]; rfl
  simp only [process, ha']
  cases h : readKey len (write k) with
  | none => simp [Router.terminate]
  | some j =>
    have : j = k := by
      obtain ⟨m, l⟩ := k
      cases l with
      | nil => simp [write, readKey] at h; exact h.symm
      | cons a l =>
        simp only [write, readKey] at h
        simp at h
        exact h.2.symm
    subst this
    simp [hk, Router.terminate]

/-- The link ids the daemon makes itself have four bytes: with every other configured length the radio announces none of
these neighbors. -/
theorem C237_generated_counterexample {n : Nat} (h : n ≠ 4) (mac origin next : Nat) :
    announces n (generated mac origin next) = false := by
  have : (4 != n) = true := by simpa using fun e : 4 = n => h e.symm
  simp [announces, generated]
  omega

/-! ### Examples -/

def k1 : Key := ⟨1, [7, 7]⟩
def k2 : Key := ⟨1, [7, 8]⟩
def k3 : Key := ⟨2, []⟩

example : announces 2 k1 = true ∧ announces 2 k3 = true ∧ announces 3 k1 = false := by decide
example : processInitAck (writeInitAck 2) = some 2 := C237_length_partial (by omega) (by omega)
example : Orderly [Act.down k1, .update k2, .up k3, .up k2, .up k1] := by simp [Orderly, IsUp, k1, k2, k3]
example : run 2 {} ([Act.up k1, .up k2, .up k3, .update k2, .down k1].map Act.msg)
    = ⟨true, [k3, k2], [.upAck k1, .upAck k2, .upAck k3, .downAck k1]⟩ := by decide +kernel
example : (process 2 {} (.up ⟨some 1, some [1, 2, 3]⟩)).alive = false :=
  (C237_bad 2 {} rfl _ (Or.inr ⟨_, rfl, by decide⟩) _ (Or.inl rfl)).1
example : processInitAck (some 17) = none := (C237_limit 17).2 (by omega)
example : announces 2 (generated 5 1 9) = false := C237_generated_counterexample (by omega) 5 1 9

end Verif.Dlep.Lid
