import Verif.Acl.Model
import Verif.Netaddr.Props
import Verif.NetText.Props
/-
C22: access control lists decide by their configured order, lists and default.
-/
namespace Verif.Acl
open Verif.Netaddr
open Verif.NetText

/-! ### Specification -/

/-- an entry covers an address: same family and the bits of the prefix agree -/
def Covers (e addr : Netaddr) : Prop :=
  e.type = addr.type ∧ SamePrefix e.addr addr.addr e.prefixLen.toNat

/-- some entry of a list covers the address -/
def Listed (l : List Netaddr) (addr : Netaddr) : Prop := ∃ e ∈ l, Covers e addr

/-- entries an ACL can contain -/
def Entries (acl : Acl) : Prop :=
  ∀ e, e ∈ acl.accept ∨ e ∈ acl.reject → e.WF ∧ e.prefixLen.toNat ≤ 128

/-- The decision: the first list (in the configured order) that covers the address decides, otherwise
the default. -/
def Accepted (acl : Acl) (addr : Netaddr) : Prop :=
  if acl.rejectFirst then ¬ Listed acl.reject addr ∧ (Listed acl.accept addr ∨ acl.acceptDefault = true)
  else Listed acl.accept addr ∨ (¬ Listed acl.reject addr ∧ acl.acceptDefault = true)

/-! ### Decision -/

theorem isInArray_spec (l : List Netaddr) (addr : Netaddr) (ha : addr.WF)
    (hl : ∀ e ∈ l, e.WF ∧ e.prefixLen.toNat ≤ 128) :
    ∃ r, isInArray l addr = some r ∧ (r = true ↔ Listed l addr) := by
  induction l with
  | nil => exact ⟨false, rfl, by simp [Listed]⟩
  | cons e es ih =>
    obtain ⟨r, h1, h2⟩ := ih (fun x hx => hl x (by simp [hx]))
    obtain ⟨q, q1, q2⟩ := C18_in_subnet e addr (hl e (by simp)).1 ha (hl e (by simp)).2
    have hsplit : Listed (e :: es) addr ↔ Covers e addr ∨ Listed es addr := by
      simp [Listed]
    rw [isInArray, q1]
    cases q with
    | true =>
      exact ⟨true, rfl, by rw [hsplit]; simp only [true_iff]; exact Or.inl (q2.1 rfl)⟩
    | false =>
      refine ⟨r, h1, ?_⟩
      rw [hsplit, h2]
      constructor
      · exact Or.inr
      · rintro (h | h)
        · exact absurd (q2.2 h) (by simp)
        · exact h

/-- **C22** (decision): for all lists, order flags, defaults and addresses the check terminates with
a decision, and accepts exactly as configured. -/
theorem C22_decision (acl : Acl) (addr : Netaddr) (he : Entries acl) (ha : addr.WF) :
    ∃ r, checkAccept acl addr = some r ∧ (r = true ↔ Accepted acl addr) := by
  obtain ⟨x, x1, x2⟩ := isInArray_spec acl.accept addr ha (fun e h => he e (Or.inl h))
  obtain ⟨y, y1, y2⟩ := isInArray_spec acl.reject addr ha (fun e h => he e (Or.inr h))
  unfold checkAccept Accepted
  rw [← x2, ← y2]
  cases hf : acl.rejectFirst <;> cases x <;> cases y <;> cases hd : acl.acceptDefault <;>
    simp [x1, y1]

example : Entries { accept := [⟨[10] ++ List.replicate 15 0, AF_INET, 8⟩], reject := [⟨[10, 1] ++ List.replicate 14 0, AF_INET, 16⟩] } ∧
    checkAccept { accept := [⟨[10] ++ List.replicate 15 0, AF_INET, 8⟩], reject := [⟨[10, 1] ++ List.replicate 14 0, AF_INET, 16⟩], rejectFirst := true }
      ⟨[10, 1, 2, 3] ++ List.replicate 12 0, AF_INET, 32⟩ = some false := by
  constructor
  · intro e h
    simp only [List.mem_cons, List.not_mem_nil, or_false] at h
    rcases h with h | h <;> subst h <;> decide
  · decide +kernel

/-- **C22** (order and duplicates inside a list are irrelevant): ACLs with the same flags whose lists
contain the same entries decide in the same way. -/
theorem C22_order_irrelevant (acl acl' : Acl) (addr : Netaddr) (he : Entries acl) (ha : addr.WF)
    (h1 : ∀ e, e ∈ acl.accept ↔ e ∈ acl'.accept) (h2 : ∀ e, e ∈ acl.reject ↔ e ∈ acl'.reject)
    (h3 : acl.rejectFirst = acl'.rejectFirst) (h4 : acl.acceptDefault = acl'.acceptDefault) :
    checkAccept acl addr = checkAccept acl' addr := by
  have he' : Entries acl' := fun e h => he e (h.imp (h1 e).2 (h2 e).2)
  obtain ⟨r, a1, a2⟩ := C22_decision acl addr he ha
  obtain ⟨r', b1, b2⟩ := C22_decision acl' addr he' ha
  have : Accepted acl addr ↔ Accepted acl' addr := by
    unfold Accepted Listed
    simp only [h1, h2, h3, h4]
  rw [a1, b1]
  congr 1
  rw [Bool.eq_iff_iff, a2, b2, this]

/-- **C22** (copy): the copy of an ACL decides like the original, for every address. -/
theorem C22_copy (acl : Acl) (addr : Netaddr) : checkAccept (copy acl) addr = checkAccept acl addr := by
  have : copy acl = acl := by
    obtain ⟨a, r, f, d⟩ := acl
    simp only [copy, List.take_length]
    cases a <;> cases r <;> simp
  rw [this]

/-! ### Configuration -/

/-- equal up to the case of ASCII letters -/
def SameWord (a b : Txt) : Prop := a.map lowerCase = b.map lowerCase

instance (a b : Txt) : Decidable (SameWord a b) := inferInstanceAs (Decidable (_ = _))

/-- `first_reject` and so on -/
def wFirstReject : Txt := "first_reject".toUTF8.toList
def wFirstAccept : Txt := "first_accept".toUTF8.toList
def wDefaultAccept : Txt := "default_accept".toUTF8.toList
def wDefaultReject : Txt := "default_reject".toUTF8.toList

def isOrderWord (w : Txt) : Bool := decide (SameWord w wFirstReject) || decide (SameWord w wFirstAccept)
def isDefaultWord (w : Txt) : Bool := decide (SameWord w wDefaultAccept) || decide (SameWord w wDefaultReject)
def isEntry (w : Txt) : Bool := !isOrderWord w && !isDefaultWord w
def isReject (w : Txt) : Bool := w.head? == some 45

/-- the address text of an entry: without a leading sign -/
def entryText (w : Txt) : Txt := if w.head? = some 45 ∨ w.head? = some 43 then w.drop 1 else w

/-- What a configuration means: the last order word and the last default word count (without one:
accept first, reject by default); entries with a leading minus are rejected ones, in order; `none`
if an entry is not an address. -/
def meaning (I : Inet6) (ws : List Txt) : Option Acl := do
  let entries := ws.filter isEntry
  let acc ← (entries.filter (fun w => !isReject w)).mapM (fun w => fromString I (entryText w))
  let rej ← (entries.filter isReject).mapM (fun w => fromString I (entryText w))
  return { accept := acc
           reject := rej
           rejectFirst := ((ws.filter isOrderWord).getLast?.map (fun w => decide (SameWord w wFirstReject))).getD false
           acceptDefault := ((ws.filter isDefaultWord).getLast?.map (fun w => decide (SameWord w wDefaultAccept))).getD false }

theorem words_eq : wFirstReject = FIRST_REJECT ∧ wFirstAccept = FIRST_ACCEPT ∧
    wDefaultAccept = DEFAULT_ACCEPT ∧ wDefaultReject = DEFAULT_REJECT := by decide +kernel

/-- the flags after the words, starting from given flags -/
def orderFlag (b : Bool) (ws : List Txt) : Bool :=
  ((ws.filter isOrderWord).getLast?.map (fun w => decide (SameWord w wFirstReject))).getD b
def defaultFlag (b : Bool) (ws : List Txt) : Bool :=
  ((ws.filter isDefaultWord).getLast?.map (fun w => decide (SameWord w wDefaultAccept))).getD b

theorem getLast_cons_map {α β : Type} (f : α → β) (x : α) (l : List α) (b : β) :
    ((x :: l).getLast?.map f).getD b = (l.getLast?.map f).getD (f x) := by
  cases l with
  | nil => simp
  | cons y ys =>
    rw [List.getLast?_cons_cons]
    have : ∃ z, (y :: ys).getLast? = some z := by
      cases h : (y :: ys).getLast? with
      | none => simp at h
      | some z => exact ⟨z, rfl⟩
    obtain ⟨z, hz⟩ := this
    rw [hz]; rfl

theorem orderFlag_cons (b : Bool) (w : Txt) (ws : List Txt) : orderFlag b (w :: ws) =
    if isOrderWord w then orderFlag (decide (SameWord w wFirstReject)) ws else orderFlag b ws := by
  unfold orderFlag
  cases h : isOrderWord w
  · simp [h]
  · simp [h, getLast_cons_map]

theorem defaultFlag_cons (b : Bool) (w : Txt) (ws : List Txt) : defaultFlag b (w :: ws) =
    if isDefaultWord w then defaultFlag (decide (SameWord w wDefaultAccept)) ws else defaultFlag b ws := by
  unfold defaultFlag
  cases h : isDefaultWord w
  · simp [h]
  · simp [h, getLast_cons_map]

theorem orderFlag_twice (b : Bool) (ws : List Txt) : orderFlag (orderFlag b ws) ws = orderFlag b ws := by
  unfold orderFlag
  cases (ws.filter isOrderWord).getLast? <;> rfl

theorem defaultFlag_twice (b : Bool) (ws : List Txt) :
    defaultFlag (defaultFlag b ws) ws = defaultFlag b ws := by
  unfold defaultFlag
  cases (ws.filter isDefaultWord).getLast? <;> rfl

theorem handleKeywords_eq (acl : Acl) (w : Txt) : handleKeywords acl w =
    if isDefaultWord w then some { acl with acceptDefault := decide (SameWord w wDefaultAccept) }
    else if isOrderWord w then some { acl with rejectFirst := decide (SameWord w wFirstReject) }
    else none := by
  obtain ⟨e1, e2, e3, e4⟩ := words_eq
  unfold handleKeywords isDefaultWord isOrderWord
  have z : ∀ n, strcasecmp w n = 0 ↔ SameWord w n := fun n => by
    unfold SameWord
    rw [show lowerCase = toLower from funext lowerCase_eq]
    exact Netaddr.strcasecmp_zero w n
  simp only [z]
  rw [e1, e2, e3, e4]
  have d1 : ∀ {n m : Txt}, SameWord w n → SameWord w m → SameWord n m := by
    intro n m h h'; unfold SameWord at *; rw [← h, h']
  by_cases h1 : SameWord w DEFAULT_ACCEPT
  · simp [h1]
  · by_cases h2 : SameWord w DEFAULT_REJECT
    · simp [h1, h2]
    · by_cases h3 : SameWord w FIRST_ACCEPT
      · have : ¬ SameWord w FIRST_REJECT := fun h => absurd (d1 h3 h) (by decide)
        simp [h1, h2, h3, this]
      · by_cases h4 : SameWord w FIRST_REJECT <;> simp [h1, h2, h3, h4]

theorem order_not_default (w : Txt) (h : isOrderWord w = true) : isDefaultWord w = false := by
  have d1 : ∀ {n m : Txt}, SameWord w n → SameWord w m → SameWord n m := by
    intro n m h h'; unfold SameWord at *; rw [← h, h']
  obtain ⟨e1, e2, e3, e4⟩ := words_eq
  unfold isOrderWord at h
  unfold isDefaultWord
  rw [e1, e2] at h
  rw [e3, e4]
  simp only [Bool.or_eq_true, decide_eq_true_eq] at h
  simp only [Bool.or_eq_false_iff, decide_eq_false_iff_not]
  rcases h with h | h
  · exact ⟨fun k => absurd (d1 h k) (by decide), fun k => absurd (d1 h k) (by decide)⟩
  · exact ⟨fun k => absurd (d1 h k) (by decide), fun k => absurd (d1 h k) (by decide)⟩

theorem countLoop_spec (ws : List Txt) : ∀ (acl : Acl) (na nr : Nat),
    countLoop acl na nr ws =
      ({ acl with rejectFirst := orderFlag acl.rejectFirst ws, acceptDefault := defaultFlag acl.acceptDefault ws },
        na + ((ws.filter isEntry).filter (fun w => !isReject w)).length,
        nr + ((ws.filter isEntry).filter isReject).length) := by
  induction ws with
  | nil => intro acl na nr; simp [countLoop, orderFlag, defaultFlag]
  | cons w ws ih =>
    intro acl na nr
    rw [countLoop, handleKeywords_eq, orderFlag_cons, defaultFlag_cons]
    by_cases hd : isDefaultWord w = true
    · have ho : isOrderWord w = false := by
        cases h : isOrderWord w
        · rfl
        · simp [order_not_default w h] at hd
      simp [hd, ho, ih, isEntry]
    · simp only [Bool.not_eq_true] at hd
      by_cases ho : isOrderWord w = true
      · simp [hd, ho, ih, isEntry]
      · simp only [Bool.not_eq_true] at ho
        by_cases hm : w.head? = some 45
        · simp [hd, ho, hm, ih, isEntry, isReject]; omega
        · simp [hd, ho, hm, ih, isEntry, isReject]; omega

theorem readLoop_spec (I : Inet6) (na nr : Nat) (ws : List Txt) : ∀ (acl : Acl),
    acl.accept.length + ((ws.filter isEntry).filter (fun w => !isReject w)).length ≤ na →
    acl.reject.length + ((ws.filter isEntry).filter isReject).length ≤ nr →
    readLoop I na nr acl ws =
      match ((ws.filter isEntry).filter (fun w => !isReject w)).mapM (fun w => fromString I (entryText w)),
            ((ws.filter isEntry).filter isReject).mapM (fun w => fromString I (entryText w)) with
      | some acc, some rej =>
        .ok { accept := acl.accept ++ acc, reject := acl.reject ++ rej,
              rejectFirst := orderFlag acl.rejectFirst ws, acceptDefault := defaultFlag acl.acceptDefault ws }
      | _, _ => .err := by
  induction ws with
  | nil => intro acl _ _; simp [readLoop, orderFlag, defaultFlag]
  | cons w ws ih =>
    intro acl hna hnr
    rw [readLoop, handleKeywords_eq, orderFlag_cons, defaultFlag_cons]
    by_cases hd : isDefaultWord w = true
    · have ho : isOrderWord w = false := by
        cases h : isOrderWord w
        · rfl
        · simp [order_not_default w h] at hd
      have he : isEntry w = false := by simp [isEntry, hd]
      simp only [List.filter_cons, he, Bool.false_eq_true, if_false] at hna hnr
      simp only [hd, ho, if_true, List.filter_cons, he, Bool.false_eq_true, if_false]
      exact ih _ hna hnr
    · simp only [Bool.not_eq_true] at hd
      by_cases ho : isOrderWord w = true
      · have he : isEntry w = false := by simp [isEntry, ho]
        simp only [List.filter_cons, he, Bool.false_eq_true, if_false] at hna hnr
        simp only [hd, ho, if_true, List.filter_cons, he, Bool.false_eq_true, if_false]
        exact ih _ hna hnr
      · simp only [Bool.not_eq_true] at ho
        have he : isEntry w = true := by simp [isEntry, ho, hd]
        have het : (if w.head? = some 45 ∨ w.head? = some 43 then w.tail else w) = entryText w := by
          unfold entryText; rw [List.drop_one]
        simp only [hd, ho, Bool.false_eq_true, if_false, het]
        by_cases hm : w.head? = some 45
        · have hr : isReject w = true := by simp [isReject, hm]
          simp only [List.filter_cons, he, if_true, hr, Bool.not_true, Bool.false_eq_true, if_false,
            List.length_cons] at hna hnr
          rw [if_pos hm, if_neg (by omega)]
          simp only [List.filter_cons, he, if_true, hr, Bool.not_true, Bool.false_eq_true, if_false,
            List.mapM_cons]
          cases hf : fromString I (entryText w) with
          | none =>
            simp only [Option.bind_eq_bind, Option.bind_none]
            split <;> simp_all
          | some a =>
            simp only
            rw [ih _ (by exact hna) (by simp only [List.length_append, List.length_cons, List.length_nil]; omega)]
            generalize List.mapM (fun w => fromString I (entryText w)) (List.filter (fun w => !isReject w) _) = o1
            generalize List.mapM (fun w => fromString I (entryText w)) (List.filter isReject _) = o2
            cases o1 <;> cases o2 <;> simp
        · have hr : isReject w = false := by simp [isReject, hm]
          simp only [List.filter_cons, he, if_true, hr, Bool.not_false, Bool.false_eq_true, if_false,
            List.length_cons] at hna hnr
          rw [if_neg hm, if_neg (by omega)]
          simp only [List.filter_cons, he, if_true, hr, Bool.not_false, Bool.false_eq_true, if_false,
            List.mapM_cons]
          cases hf : fromString I (entryText w) with
          | none => simp
          | some a =>
            simp only
            rw [ih _ (by simp only [List.length_append, List.length_cons, List.length_nil]; omega) (by exact hnr)]
            generalize List.mapM (fun w => fromString I (entryText w)) (List.filter (fun w => !isReject w) _) = o1
            generalize List.mapM (fun w => fromString I (entryText w)) (List.filter isReject _) = o2
            cases o1 <;> cases o2 <;> simp

/-- **C22** (configuration): for every list of words the ACL read from it is the one the words mean,
an error is reported exactly if some entry is not an address, and the arrays allocated after the
counting pass are never exceeded. -/
theorem C22_configuration (I : Inet6) (ws : List Txt) :
    fromStrarray I ws = match meaning I ws with | some acl => .ok acl | none => .err := by
  unfold fromStrarray
  simp only [countLoop_spec]
  rw [readLoop_spec I _ _ ws _ (by simp) (by simp)]
  simp only [orderFlag_twice, defaultFlag_twice]
  unfold meaning
  simp only
  generalize List.mapM (fun w => fromString I (entryText w)) (List.filter (fun w => !isReject w) _) = o1
  generalize List.mapM (fun w => fromString I (entryText w)) (List.filter isReject _) = o2
  cases o1 <;> cases o2 <;> rfl

example : fromStrarray demo [[45, 49, 48, 46, 49, 46, 48, 46, 48, 47, 49, 54], [65, 110, 121, 52], wFirstReject]
    = .ok { accept := [⟨List.replicate 16 0, AF_INET, 0⟩], reject := [⟨[10, 1] ++ List.replicate 14 0, AF_INET, 16⟩],
            rejectFirst := true } := by decide +kernel

/-- **C22** (a configured ACL never fails): the entries of every ACL read from a configuration are
valid, so `C22_decision` applies. -/
theorem C22_configured_entries (I : Inet6) (hI : I.Sound) (ws : List Txt) (acl : Acl)
    (h : fromStrarray I ws = .ok acl) : Entries acl := by
  have hreg : ∀ (t : Txt) (a : Netaddr), fromString I t = some a → a.WF ∧ a.prefixLen.toNat ≤ 128 := by
    intro t a ha
    rcases C21_parse_regular I hI t a ha with e | ⟨n, h1, h2, h3, h4⟩
    · subst e; decide
    · refine ⟨h2, ?_⟩
      have : n ≤ 16 := by
        unfold familyBytes at h1
        repeat (split at h1; · cases h1; decide)
        cases h1
      omega
  have hmap : ∀ (l : List Txt) (r : List Netaddr), l.mapM (fun w => fromString I (entryText w)) = some r →
      ∀ e ∈ r, ∃ t, fromString I t = some e := by
    intro l
    induction l with
    | nil => intro r hr e he; simp at hr; subst hr; simp at he
    | cons w l ih =>
      intro r hr e he
      simp only [List.mapM_cons, Option.bind_eq_bind, Option.bind_eq_some_iff] at hr
      obtain ⟨a, ha, r', hr', e'⟩ := hr
      cases e'
      rcases List.mem_cons.1 he with h | h
      · exact ⟨_, h ▸ ha⟩
      · exact ih r' hr' e h
  rw [C22_configuration] at h
  cases hm : meaning I ws with
  | none => simp [hm] at h
  | some acl' =>
    simp only [hm, Out.ok.injEq] at h
    subst h
    unfold meaning at hm
    simp only [Option.bind_eq_bind, Option.bind_eq_some_iff] at hm
    obtain ⟨acc, ha, rej, hr, e'⟩ := hm
    cases e'
    intro e he
    rcases he with h | h
    · obtain ⟨t, ht⟩ := hmap _ _ ha e h
      exact hreg t e ht
    · obtain ⟨t, ht⟩ := hmap _ _ hr e h
      exact hreg t e ht

end Verif.Acl
