import Verif.WReg.Steps2
/-!
C223: message creators of the RFC 5444 writer live as long as they are used.
-/

namespace Verif.WReg

/-- Registered objects stay. -/
def Keeps (h h' : Nat → Option Msg) : Prop :=
  ∀ o m, h o = some m → m.reg = true → ∃ m', h' o = some m' ∧ m'.type = m.type ∧ m'.reg = true

theorem Keeps.refl (h : Nat → Option Msg) : Keeps h h := fun _ m hm hr => ⟨m, hm, rfl, hr⟩

theorem Keeps.trans {a b c : Nat → Option Msg} (h : Keeps a b) (h' : Keeps b c) : Keeps a c := by
  intro o m hm hr
  obtain ⟨m1, h1, e1, r1⟩ := h o m hm hr
  obtain ⟨m2, h2, e2, r2⟩ := h' o m1 h1 r1
  exact ⟨m2, h2, e2.trans e1, r2⟩

theorem keeps_put {h : Nat → Option Msg} {o : Nat} {m m' : Msg} (hm : h o = some m) (ht : m'.type = m.type)
    (hr : m.reg = true → m'.reg = true) : Keeps h (put h o (some m')) := by
  intro x y hy hyr
  by_cases e : x = o
  · subst e
    rw [hm] at hy
    cases hy
    exact ⟨m', put_same _ _ _, ht, hr hyr⟩
  · exact ⟨y, by rw [put_other _ _ e]; exact hy, rfl, hyr⟩

theorem keeps_lazyFree {w w' : W} {o : Nat} (h : lazyFree w o = some w') : Keeps w.heap w'.heap := by
  unfold lazyFree at h
  cases hm : w.heap o with
  | none => rw [hm] at h; simp at h
  | some m =>
    rw [hm] at h
    dsimp only at h
    split at h
    · next hc =>
      simp only [Option.some.injEq] at h
      subst h
      intro x y hy hr
      dsimp only
      by_cases e : x = o
      · subst e
        rw [hm] at hy
        cases hy
        simp [hr] at hc
      · exact ⟨y, by rw [put_other _ _ e]; exact hy, rfl, hr⟩
    · simp only [Option.some.injEq] at h
      subst h
      exact Keeps.refl _

theorem keeps_getMessage {w : W} (hf : w.heap w.next = none) (ty : Nat) : Keeps w.heap (getMessage w ty).1.heap := by
  unfold getMessage
  cases w.tree ty with
  | some o => exact Keeps.refl _
  | none =>
    intro x y hy hr
    refine ⟨y, ?_, rfl, hr⟩
    dsimp only
    rw [put_other _ _ (fun e => by rw [e, hf] at hy; simp at hy)]
    exact hy

theorem keeps_registerType {w w' : W} {o : Option Nat} {t : Nat} (h : registerType w o t = some w') : Keeps w.heap w'.heap := by
  unfold registerType at h
  cases ht : w.tin t with
  | some _ => rw [ht] at h; simp at h
  | none =>
    rw [ht] at h
    cases o with
    | none => simp at h; subst h; exact Keeps.refl _
    | some o =>
      cases hm : w.heap o with
      | none => simp [hm] at h
      | some m => simp [hm] at h; subst h; exact keeps_put hm rfl id

theorem keeps_registerTypes {o : Nat} (ts : List Nat) {w w' : W} (h : registerTypes w o ts = some w') : Keeps w.heap w'.heap := by
  induction ts generalizing w with
  | nil => simp [registerTypes] at h; subst h; exact Keeps.refl _
  | cons t ts ih =>
    simp only [registerTypes] at h
    cases h1 : registerType w (some o) t with
    | none => simp [h1] at h
    | some w1 => rw [h1] at h; exact (keeps_registerType h1).trans (ih h)

theorem keeps_unregisterType {w w' : W} {t : Nat} (h : unregisterType w t = some w') : Keeps w.heap w'.heap := by
  unfold unregisterType at h
  cases ht : w.tin t with
  | none => simp [ht] at h; subst h; exact Keeps.refl _
  | some x =>
    cases x with
    | none => simp [ht] at h; subst h; exact Keeps.refl _
    | some o =>
      cases hm : w.heap o with
      | none => simp [ht, hm] at h
      | some m =>
        rw [ht] at h
        dsimp only at h
        rw [hm] at h
        exact Keeps.trans (keeps_put (m' := { m with types := m.types.filter (· ≠ t) }) hm rfl id) (keeps_lazyFree h)

theorem keeps_unregisterTypes (ts : List Nat) {w w' : W} (h : unregisterTypes w ts = some w') : Keeps w.heap w'.heap := by
  induction ts generalizing w with
  | nil => simp [unregisterTypes] at h; subst h; exact Keeps.refl _
  | cons t ts ih =>
    simp only [unregisterTypes] at h
    cases h1 : unregisterType w t with
    | none => simp [h1] at h
    | some w1 => rw [h1] at h; exact (keeps_unregisterType h1).trans (ih h)

theorem keeps_registerProvider {prio : Nat → Int} {w w' : W} {p ty : Nat} {ts : List Nat} (hf : w.heap w.next = none)
    (h : registerProvider prio w p ty ts = some w') : Keeps w.heap w'.heap := by
  unfold registerProvider at h
  dsimp only at h
  cases h1 : registerTypes (getMessage w ty).1 (getMessage w ty).2 ts with
  | none => simp [h1] at h
  | some w1 =>
    rw [h1] at h
    simp only [Option.bind_some] at h
    cases hp : w1.pin p with
    | some _ => rw [hp] at h; simp at h
    | none =>
      cases hm : w1.heap (getMessage w ty).2 with
      | none => rw [hp, hm] at h; simp at h
      | some m =>
        rw [hp, hm] at h
        simp only [Option.some.injEq] at h
        subst h
        exact ((keeps_getMessage hf ty).trans (keeps_registerTypes ts h1)).trans (keeps_put hm rfl id)

theorem keeps_unregisterProvider {w w' : W} {p : Nat} {ts : List Nat} (h : unregisterProvider w p ts = some w') :
    Keeps w.heap w'.heap := by
  unfold unregisterProvider at h
  cases hp : w.pin p with
  | none => simp [hp] at h; subst h; exact Keeps.refl _
  | some o =>
    rw [hp] at h
    dsimp only at h
    cases h1 : unregisterTypes w ts with
    | none => simp [h1] at h
    | some w1 =>
      rw [h1] at h
      simp only [Option.bind_some] at h
      cases hm : w1.heap o with
      | none => simp [hm] at h
      | some m =>
        rw [hm] at h
        exact (keeps_unregisterTypes ts h1).trans
          (Keeps.trans (keeps_put (m' := { m with provs := m.provs.filter (· ≠ p) }) hm rfl id) (keeps_lazyFree h))

theorem Inv.free {prio : Nat → Int} {w : W} {b : Book} {ex : Option Nat} (h : Inv prio w b ex) : w.heap w.next = none := by
  cases e : w.heap w.next with
  | none => rfl
  | some m => exact absurd (h.fresh _ _ e) (Nat.lt_irrefl _)

/-- The users hold the objects of the registered messages. -/
def Held (s : St) (b : Book) : Prop :=
  ∀ ty, (b.reg ty = false → s.held ty = none) ∧
    (b.reg ty = true → ∃ o m, s.held ty = some o ∧ s.w.heap o = some m ∧ m.type = ty ∧ m.reg = true)

theorem Held.keep {s : St} {b : Book} (h : Held s b) {w' : W} (hk : Keeps s.w.heap w'.heap) {b' : Book} (hb : b'.reg = b.reg) :
    Held { s with w := w' } b' := by
  intro ty
  rw [hb]
  refine ⟨(h ty).1, fun hr => ?_⟩
  obtain ⟨o, m, h1, h2, h3, h4⟩ := (h ty).2 hr
  obtain ⟨m', h5, h6, h7⟩ := hk o m h2 h4
  exact ⟨o, m', h1, h5, h6.trans h3, h7⟩

/-- What the registry of a message is: its object, whether it is registered (and so whether a registration fails). -/
theorem registerMessage_inv {prio : Nat → Int} {s : St} {b : Book} (h : Inv prio s.w b none) (hh : Held s b) (ty : Nat) (hty : ty < 256) :
    Inv prio (registerMessage s.w ty).1 { b with reg := setAll b.reg [ty] true } none ∧
      Held ⟨(registerMessage s.w ty).1, keep s.held ty (registerMessage s.w ty).2⟩ { b with reg := setAll b.reg [ty] true } ∧
      ((registerMessage s.w ty).2 ≠ none ↔ b.reg ty = false) := by
  obtain ⟨hg, htr, -, -⟩ := getMessage_inv h ty hty
  have hk := keeps_getMessage h.free ty
  obtain ⟨m, hm, hmt⟩ := hg.tree _ _ htr
  have hreg := hg.reg _ _ hm
  rw [hmt] at hreg
  unfold registerMessage
  dsimp only
  rw [hm]
  dsimp only
  cases hr : m.reg with
  | true =>
    rw [if_pos rfl]
    have e : setAll b.reg [ty] true = b.reg := by
      funext x
      by_cases e : x = ty
      · subst e; simp [setAll, ← hreg, hr]
      · simp [setAll, e]
    rw [e]
    refine ⟨{ hg with used := ?_ }, hh.keep hk rfl, ?_⟩
    · intro x y hy _
      by_cases e : x = (getMessage s.w ty).2
      · subst e; rw [hm] at hy; cases hy; exact .inl hr
      · exact hg.used x y hy (by intro e'; simp at e'; exact e e'.symm)
    · rw [← hreg, hr]; simp
  | false =>
    rw [if_neg (by simp)]
    have h1 := setReg_inv hg (.inr rfl) hm hmt true
    refine ⟨h1, ?_, ?_⟩
    · intro ty'
      by_cases e : ty' = ty
      · subst e
        refine ⟨by simp [setAll], fun _ => ?_⟩
        exact ⟨(getMessage s.w ty').2, { m with reg := true }, put_same _ _ _, put_same _ _ _, hmt, rfl⟩
      · have hk2 : Keeps s.w.heap (put (getMessage s.w ty).1.heap (getMessage s.w ty).2 (some { m with reg := true })) :=
          hk.trans (keeps_put hm rfl (fun _ => rfl))
        have e1 : setAll b.reg [ty] true ty' = b.reg ty' := by simp [setAll, e]
        have e2 : keep s.held ty (some (getMessage s.w ty).2) ty' = s.held ty' := put_other _ _ e
        dsimp only
        rw [e1, e2]
        refine ⟨(hh ty').1, fun hr' => ?_⟩
        obtain ⟨o, m', h1, h2, h3, h4⟩ := (hh ty').2 hr'
        obtain ⟨m'', h5, h6, h7⟩ := hk2 o m' h2 h4
        exact ⟨o, m'', h1, h5, h6.trans h3, h7⟩
    · rw [← hreg, hr]; simp

theorem step_inv {prio : Nat → Int} {s : St} {b : Book} (h : Inv prio s.w b none) (hh : Held s b) (op : Op) (hf : Fair b op) :
    ∃ s', step prio s op = some s' ∧ Inv prio s'.w (b.after op) none ∧ Held s' (b.after op) := by
  cases op with
  | regType t ty =>
    have htn : s.w.tin t = none := by
      cases e : s.w.tin t with
      | none => rfl
      | some x =>
        have hb : b.owner t = none := hf
        cases x with
        | none => have := h.tgen t e; rw [hb] at this; simp at this
        | some o => obtain ⟨_, _, this⟩ := h.tlive t o e; rw [hb] at this; simp at this
    by_cases hc : 0 ≤ ty ∧ ty ≤ 255
    · obtain ⟨hg, htr, htin, -⟩ := getMessage_inv h ty.toNat (by omega)
      obtain ⟨w', hw', hi, -⟩ := registerType_inv hg (.inr rfl) (by rw [htin]; exact htn) htr
      refine ⟨{ s with w := w' }, ?_, ?_, ?_⟩
      · simp only [step, registerAddrType, if_pos hc]
        rw [hw']
        rfl
      · simp only [Book.after, meant, if_pos hc]; exact hi
      · exact hh.keep ((keeps_getMessage h.free _).trans (keeps_registerType hw')) rfl
    · obtain ⟨w', hw', hi, -⟩ := registerGeneric_inv h htn
      refine ⟨{ s with w := w' }, ?_, ?_, ?_⟩
      · simp only [step, registerAddrType, if_neg hc]
        rw [hw']
        rfl
      · simp only [Book.after, meant, if_neg hc]; exact hi
      · exact hh.keep (keeps_registerType hw') rfl
  | unregType t =>
    obtain ⟨w', hw', hi, -⟩ := unregisterType_inv h t
    exact ⟨{ s with w := w' }, by simp [step, hw'], hi, hh.keep (keeps_unregisterType hw') rfl⟩
  | regProv p ty ts =>
    obtain ⟨h1, h2, h3, h4⟩ := hf
    obtain ⟨w', hw', hi, -⟩ := registerProvider_inv h h1 h2 h3 h4
    exact ⟨{ s with w := w' }, by simp [step, hw'], hi, hh.keep (keeps_registerProvider h.free hw') rfl⟩
  | unregProv p ts =>
    obtain ⟨w', hw', hi, -⟩ := unregisterProvider_inv h p ts
    refine ⟨{ s with w := w' }, by simp [step, hw'], ?_, hh.keep (keeps_unregisterProvider hw') ?_⟩
    · simp only [Book.after]; exact hi
    · simp only [Book.after]; split <;> rfl
  | regMsg ty =>
    obtain ⟨h1, h2, -⟩ := registerMessage_inv h hh ty hf
    exact ⟨_, rfl, h1, h2⟩
  | unregMsg ty =>
    cases hr : b.reg ty with
    | false =>
      have e : setAll b.reg [ty] false = b.reg := by
        funext x
        by_cases e : x = ty
        · subst e; simp [setAll, hr]
        · simp [setAll, e]
      refine ⟨s, by simp [step, (hh ty).1 hr], ?_, ?_⟩
      · simp only [Book.after, e]; exact h
      · simp only [Book.after, e]; exact hh
    | true =>
      obtain ⟨o, m, h1, h2, h3, h4⟩ := (hh ty).2 hr
      have hi := setReg_inv h (.inl rfl) h2 h3 false
      obtain ⟨w', hw', hi', -, -, -, -, hoth⟩ := lazyFree_inv hi (put_same _ _ _)
      refine ⟨⟨w', put s.held ty none⟩, ?_, hi', ?_⟩
      · simp only [step, h1, unregisterMessage, h2]
        rw [hw']
        rfl
      · intro ty'
        simp only [Book.after]
        by_cases e : ty' = ty
        · subst e; simp [setAll]
        · rw [put_other _ _ e]
          have e1 : setAll b.reg [ty] false ty' = b.reg ty' := by simp [setAll, e]
          rw [e1]
          refine ⟨(hh ty').1, fun hr' => ?_⟩
          obtain ⟨o', m', k1, k2, k3, k4⟩ := (hh ty').2 hr'
          have ne : o' ≠ o := by
            intro e'
            subst e'
            rw [h2] at k2
            cases k2
            exact e (k3.symm.trans h3)
          refine ⟨o', m', k1, ?_, k3, k4⟩
          rw [hoth o' ne]
          dsimp only
          rw [put_other _ _ ne]
          exact k2
  | setHdr ty cb =>
    cases hr : b.reg ty with
    | false => exact ⟨s, by simp [step, (hh ty).1 hr], h, hh⟩
    | true =>
      obtain ⟨o, m, h1, h2, h3, h4⟩ := (hh ty).2 hr
      refine ⟨{ s with w := { s.w with heap := put s.w.heap o (some { m with hdr := some cb }) } }, ?_, setHdr_inv h h2 (some cb), ?_⟩
      · simp [step, h1, setHeader, h2]
      · exact hh.keep (keeps_put (m' := { m with hdr := some cb }) h2 rfl id) rfl
  | regFwd f => exact ⟨_, rfl, { h with }, hh⟩

theorem run_inv {prio : Nat → Int} (ops : List Op) {s : St} {b : Book} (h : Inv prio s.w b none) (hh : Held s b) (hf : FairAll b ops) :
    ∃ s', run prio s ops = some s' ∧ Inv prio s'.w (b.all ops) none ∧ Held s' (b.all ops) := by
  induction ops generalizing s b with
  | nil => exact ⟨s, rfl, h, hh⟩
  | cons op ops ih =>
    obtain ⟨s1, h1, hi, hh1⟩ := step_inv h hh op hf.1
    obtain ⟨s2, h2, hi2, hh2⟩ := ih hi hh1 hf.2
    exact ⟨s2, by simp [run, h1, h2], hi2, hh2⟩

theorem run_init {prio : Nat → Int} (ops : List Op) (hf : FairAll Book.init ops) :
    ∃ s, run prio St.init ops = some s ∧ Inv prio s.w (Book.init.all ops) none ∧ Held s (Book.init.all ops) :=
  run_inv ops (inv_init prio) (fun _ => ⟨fun _ => rfl, fun h => by simp [Book.init] at h⟩) hf

/-- **C223**: whatever users register and unregister, nothing undefined happens, and a message can be created exactly when it
is in use: registered, or with a TLV type or a content provider of its own. -/
theorem C223_in_use (prio : Nat → Int) (ops : List Op) (hf : FairAll Book.init ops) :
    ∃ s, run prio St.init ops = some s ∧ ∀ ty, create s.w ty ≠ none ↔ (Book.init.all ops).used ty := by
  obtain ⟨s, hs, hi, -⟩ := run_init (prio := prio) ops hf
  refine ⟨s, hs, fun ty => ?_⟩
  constructor
  · intro hc
    unfold create at hc
    cases ht : s.w.tree ty with
    | none => rw [ht] at hc; simp at hc
    | some o =>
      obtain ⟨m, hm, hmt⟩ := hi.tree _ _ ht
      rcases hi.used o m hm (by simp) with hu | hu | hu
      · exact .inl (by rw [← hmt, ← hi.reg o m hm]; exact hu)
      · obtain ⟨t, hmem⟩ := List.exists_mem_of_ne_nil _ hu
        obtain ⟨m', hm', hb⟩ := hi.tlive t o ((hi.types o m hm t).1 hmem)
        rw [hm] at hm'
        cases hm'
        exact .inr (.inl ⟨t, by rw [hb, hmt]⟩)
      · obtain ⟨p, hmem⟩ := List.exists_mem_of_ne_nil _ hu
        rw [(hi.order o m hm).mem, mem_provs, hmt] at hmem
        exact .inr (.inr ⟨p, hmem⟩)
  · intro hu
    have : ∃ o, s.w.tree ty = some o := by
      rcases hu with hu | ⟨t, hu⟩ | ⟨p, hu⟩
      · exact hi.regs ty hu
      · cases e : s.w.tin t with
        | none => rw [hi.tnone t e] at hu; simp at hu
        | some x =>
          cases x with
          | none => rw [hi.tgen t e] at hu; simp at hu
          | some o =>
            obtain ⟨m, hm, hb⟩ := hi.tlive t o e
            rw [hu] at hb
            simp at hb
            exact ⟨o, by rw [hb]; exact hi.heap o m hm⟩
      · obtain ⟨o, -, ho⟩ := hi.prov p ty hu
        exact ⟨o, ho⟩
    obtain ⟨o, ho⟩ := this
    obtain ⟨m, hm, -⟩ := hi.tree _ _ ho
    simp [create, ho, hm]

/-- **C223**: the content providers of a message are called by priority, those of equal priority in the order in which they
were registered. -/
theorem C223_order (prio : Nat → Int) (ops : List Op) (hf : FairAll Book.init ops) (ty : Nat) :
    ∃ s, run prio St.init ops = some s ∧
      ∀ hdr called, create s.w ty = some (hdr, called) → CallOrder prio ((Book.init.all ops).provs ty) called := by
  obtain ⟨s, hs, hi, -⟩ := run_init (prio := prio) ops hf
  refine ⟨s, hs, fun hdr called hc => ?_⟩
  unfold create at hc
  cases ht : s.w.tree ty with
  | none => rw [ht] at hc; simp at hc
  | some o =>
    obtain ⟨m, hm, hmt⟩ := hi.tree _ _ ht
    rw [ht] at hc
    simp [hm] at hc
    obtain ⟨-, rfl⟩ := hc
    rw [← hmt]
    exact hi.order o m hm

/-- **C223**: a message type is registered once at a time: the registration returns an object exactly when the type is not
registered. -/
theorem C223_once (prio : Nat → Int) (ops : List Op) (hf : FairAll Book.init ops) (ty : Nat) (hty : ty < 256) :
    ∃ s, run prio St.init ops = some s ∧
      ((registerMessage s.w ty).2 ≠ none ↔ (Book.init.all ops).reg ty = false) := by
  obtain ⟨s, hs, hi, hh⟩ := run_init (prio := prio) ops hf
  exact ⟨s, hs, (registerMessage_inv hi hh ty hty).2.2⟩

/-- A message with a TLV type, two providers and a registration: still in use when all but the last provider are gone. -/
def sampleOps : List Op :=
  [.regProv 2 7 [11], .regMsg 7, .setHdr 7 5, .regProv 1 7 [], .unregMsg 7, .unregProv 2 [11]]

example : FairAll Book.init sampleOps := by
  simp [sampleOps, FairAll, Fair, Book.after, Book.init, setAll]
example : (run (fun p => if p = 1 then 3 else 9) St.init (sampleOps.take 4)).map (fun s => create s.w 7) = some (some (some 5, [1, 2])) := by decide +kernel
example : (run (fun _ => 0) St.init (sampleOps ++ [.unregProv 1 []])).map (fun s => create s.w 7) = some none := by decide +kernel

/-- What one would expect: a message whose owner has unregistered it is not created any more. It is: if other users still have
content providers (or TLV types) for it, the object stays with all its callbacks, and `rfc5444_writer_create_message` does not look at
`_registered`; so the header callback of the owner (perhaps of an unloaded plugin) is called. For every state with the message
registered and a provider that stays. -/
theorem C223_stale_counterexample (s : St) (ty o : Nat) (m : Msg) (hh : s.held ty = some o) (ht : s.w.tree ty = some o)
    (hm : s.w.heap o = some m) (hp : m.provs ≠ []) (prio : Nat → Int) :
    ∃ s', step prio s (.unregMsg ty) = some s' ∧ s'.held ty = none ∧ create s'.w ty = some (m.hdr, m.provs) := by
  have hc : (!false && m.types.isEmpty && m.provs.isEmpty) = false := by
    cases hpp : m.provs with
    | nil => exact absurd hpp hp
    | cons => simp
  refine ⟨⟨{ s.w with heap := put s.w.heap o (some { m with reg := false }) }, put s.held ty none⟩, ?_, put_same _ _ _, ?_⟩
  · simp only [step, hh, unregisterMessage, hm, lazyFree, put_same]
    rw [hc]
    rfl
  · simp [create, ht]

example : (run (fun _ => 0) St.init sampleOps).map (fun s => (create s.w 7, s.held 7)) = some (some (some 5, [1]), none) := by decide +kernel

/-! ## Cleanup -/

/-- Message creators do not appear. -/
def Shrinks (t t' : Nat → Option Nat) : Prop := ∀ ty, t ty = none → t' ty = none

theorem shrinks_lazyFree {w w' : W} {o : Nat} (h : lazyFree w o = some w') : Shrinks w.tree w'.tree := by
  unfold lazyFree at h
  cases hm : w.heap o with
  | none => rw [hm] at h; simp at h
  | some m =>
    rw [hm] at h
    dsimp only at h
    split at h
    · simp only [Option.some.injEq] at h
      subst h
      intro ty ht
      by_cases e : ty = m.type
      · subst e; exact put_same _ _ _
      · show put w.tree m.type none ty = none
        rw [put_other _ _ e]; exact ht
    · simp only [Option.some.injEq] at h
      subst h
      exact fun _ h => h

theorem shrinks_unregisterTypes (ts : List Nat) {w w' : W} (h : unregisterTypes w ts = some w') : Shrinks w.tree w'.tree := by
  induction ts generalizing w with
  | nil => simp [unregisterTypes] at h; subst h; exact fun _ h => h
  | cons t ts ih =>
    simp only [unregisterTypes] at h
    cases h1 : unregisterType w t with
    | none => simp [h1] at h
    | some w1 =>
      rw [h1] at h
      have : Shrinks w.tree w1.tree := by
        unfold unregisterType at h1
        cases ht : w.tin t with
        | none => simp [ht] at h1; subst h1; exact fun _ h => h
        | some x =>
          cases x with
          | none => simp [ht] at h1; subst h1; exact fun _ h => h
          | some o =>
            cases hm : w.heap o with
            | none => simp [ht, hm] at h1
            | some m =>
              rw [ht] at h1
              dsimp only at h1
              rw [hm] at h1
              have h2 := shrinks_lazyFree h1
              exact h2
      exact fun ty ht => ih h ty (this ty ht)

theorem lazyFree_tin {w w' : W} {o : Nat} (h : lazyFree w o = some w') : w'.tin = w.tin ∧ w'.fwd = w.fwd := by
  unfold lazyFree at h
  cases hm : w.heap o with
  | none => rw [hm] at h; simp at h
  | some m =>
    rw [hm] at h
    dsimp only at h
    split at h <;> (simp only [Option.some.injEq] at h; subst h; exact ⟨rfl, rfl⟩)

theorem unregisterProvider_nil {w w' : W} {p : Nat} (h : unregisterProvider w p [] = some w') :
    Shrinks w.tree w'.tree ∧ w'.tin = w.tin ∧ w'.fwd = w.fwd := by
  unfold unregisterProvider at h
  cases hp : w.pin p with
  | none => simp [hp] at h; subst h; exact ⟨fun _ h => h, rfl, rfl⟩
  | some o =>
    rw [hp] at h
    simp only [unregisterTypes, Option.bind_some] at h
    cases hm : w.heap o with
    | none => simp [hm] at h
    | some m =>
      rw [hm] at h
      have h1 := lazyFree_tin h
      have h2 := shrinks_lazyFree h
      exact ⟨h2, h1.1, h1.2⟩

theorem unregisterProvs_inv {prio : Nat → Int} (ps : List Nat) {w : W} {b : Book} (h : Inv prio w b none) :
    ∃ w' b', unregisterProvs w ps = some w' ∧ Inv prio w' b' none ∧ Keeps w.heap w'.heap ∧ Shrinks w.tree w'.tree ∧ w'.tin = w.tin ∧
      w'.fwd = w.fwd ∧ (∀ p, w'.pin p = if p ∈ ps then none else w.pin p) := by
  induction ps generalizing w b with
  | nil => exact ⟨w, b, rfl, h, Keeps.refl _, fun _ h => h, rfl, rfl, by simp⟩
  | cons p ps ih =>
    obtain ⟨w1, h1, hi1, -, hn1, hp1⟩ := unregisterProvider_inv h p []
    obtain ⟨hs1, ht1, hf1⟩ := unregisterProvider_nil h1
    obtain ⟨w2, b2, h2, hi2, hk2, hs2, ht2, hf2, hp2⟩ := ih hi1
    refine ⟨w2, b2, by simp [unregisterProvs, h1, h2], hi2, (keeps_unregisterProvider h1).trans hk2, fun ty e => hs2 ty (hs1 ty e),
      ht2.trans ht1, hf2.trans hf1, ?_⟩
    intro q
    rw [hp2]
    by_cases e : q = p
    · subst e; by_cases m : q ∈ ps <;> simp [m, hp1]
    · by_cases m : q ∈ ps <;> simp [m, e, hn1 q e]

theorem cleanupMsg_inv {prio : Nat → Int} {w : W} {b : Book} (h : Inv prio w b none) (ty : Nat) :
    ∃ w' b', cleanupMsg w ty = some w' ∧ Inv prio w' b' none ∧ w'.tree ty = none ∧ Shrinks w.tree w'.tree ∧ w'.fwd = w.fwd ∧
      (∀ t, w'.tin t = some none → w.tin t = some none) := by
  unfold cleanupMsg
  cases ht : w.tree ty with
  | none => exact ⟨w, b, rfl, h, ht, fun _ h => h, rfl, fun _ h => h⟩
  | some o =>
    obtain ⟨m, hm, hmt⟩ := h.tree _ _ ht
    dsimp only
    rw [hm]
    dsimp only
    have h0 := setReg_inv h (.inl rfl) hm hmt true
    obtain ⟨w1, b1, e1, hi1, hk1, hs1, ht1, hf1, hp1⟩ := unregisterProvs_inv m.provs h0
    obtain ⟨w2, e2, hi2, hp2, hf2, ht2⟩ := unregisterTypes_inv m.types hi1
    have hk2 := keeps_unregisterTypes m.types e2
    have hs2 := shrinks_unregisterTypes m.types e2
    obtain ⟨m1, hm1, et1, er1⟩ := (hk1.trans hk2) o { m with reg := true } (put_same _ _ _) rfl
    have hprovs : m1.provs = [] := by
      rw [List.eq_nil_iff_forall_not_mem]
      intro p hp
      have := (hi2.pins o m1 hm1 p).1 hp
      rw [hp2, hp1] at this
      split at this
      · simp at this
      · next hn => exact hn ((h.pins o m hm p).2 this)
    have htypes : m1.types = [] := by
      rw [List.eq_nil_iff_forall_not_mem]
      intro t hp
      have := (hi2.types o m1 hm1 t).1 hp
      rw [ht2, ht1] at this
      split at this
      · simp at this
      · next hn => exact hn ((h.types o m hm t).2 this)
    have h3 := setReg_inv hi2 (.inl rfl) hm1 rfl false
    obtain ⟨w3, e3, hi3, -, htin3, hf3, -, -⟩ := lazyFree_inv h3 (put_same _ _ _)
    have hs3 := shrinks_lazyFree e3
    refine ⟨w3, _, ?_, hi3, ?_, fun ty' e => hs3 ty' (hs2 ty' (hs1 ty' e)), ?_, ?_⟩
    · rw [e1]
      simp only [Option.bind_some]
      rw [e2]
      simp only [Option.bind_some, unregisterMessage, hm1]
      exact e3
    · have : lazyFree { w2 with heap := put w2.heap o (some { m1 with reg := false }) } o =
          some { w2 with heap := put (put w2.heap o (some { m1 with reg := false })) o none, tree := put w2.tree m1.type none } := by
        simp [lazyFree, hprovs, htypes]
      rw [this] at e3
      simp only [Option.some.injEq] at e3
      subst e3
      show put w2.tree m1.type none ty = none
      rw [et1]
      show put w2.tree m.type none ty = none
      rw [hmt]
      exact put_same _ _ _
    · rw [hf3]
      show w2.fwd = w.fwd
      rw [hf2, hf1]
    · intro t e
      rw [htin3] at e
      have e' : w2.tin t = some none := e
      rw [ht2, ht1] at e'
      split at e'
      · simp at e'
      · exact e'

theorem cleanupMsgs_inv {prio : Nat → Int} (tys : List Nat) {w : W} {b : Book} (h : Inv prio w b none) :
    ∃ w' b', cleanupMsgs w tys = some w' ∧ Inv prio w' b' none ∧ (∀ ty ∈ tys, w'.tree ty = none) ∧ Shrinks w.tree w'.tree ∧ w'.fwd = w.fwd ∧
      (∀ t, w'.tin t = some none → w.tin t = some none) := by
  induction tys generalizing w b with
  | nil => exact ⟨w, b, rfl, h, by simp, fun _ h => h, rfl, fun _ h => h⟩
  | cons ty tys ih =>
    obtain ⟨w1, b1, e1, hi1, ht1, hs1, hf1, hg1⟩ := cleanupMsg_inv h ty
    obtain ⟨w2, b2, e2, hi2, ht2, hs2, hf2, hg2⟩ := ih hi1
    refine ⟨w2, b2, by simp [cleanupMsgs, e1, e2], hi2, ?_, fun ty' e => hs2 ty' (hs1 ty' e), hf2.trans hf1, fun t e => hg1 t (hg2 t e)⟩
    intro ty' hm
    rcases List.mem_cons.1 hm with rfl | hm
    · exact hs2 _ ht1
    · exact ht2 ty' hm

theorem mem_allTypes {ty : Nat} (h : ty < 256) : ty ∈ allTypes := List.mem_range.2 h

attribute [local irreducible] allTypes

theorem cleanup_eq {w w1 w2 : W} (e1 : unregisterTypes w w.gen = some w1) (e2 : cleanupMsgs { w1 with procs := [] } allTypes = some w2) :
    cleanup w = some w2 := by
  unfold cleanup
  rw [e1, Option.bind_some, e2]

/-- **C223**: the cleanup of the writer, whatever is still registered, does nothing undefined, and leaves no message creator, and no TLV
type or content provider that is linked anywhere. -/
theorem C223_cleanup (prio : Nat → Int) (ops : List Op) (hf : FairAll Book.init ops) :
    ∃ s w', run prio St.init ops = some s ∧ cleanup s.w = some w' ∧
      (∀ ty, create w' ty = none) ∧ (∀ o, w'.heap o = none) ∧ (∀ t, w'.tin t = none) ∧ ∀ p, w'.pin p = none := by
  obtain ⟨s, hs, hi, -⟩ := run_init (prio := prio) ops hf
  obtain ⟨w1, e1, hi1, -, -, ht1⟩ := unregisterTypes_inv s.w.gen hi
  have hi1' : Inv prio { w1 with procs := [] } _ none := { hi1 with }
  obtain ⟨w2, b2, e2, hi2, ht2, -, -, hg2⟩ := cleanupMsgs_inv allTypes hi1'
  have hheap : ∀ o, w2.heap o = none := by
    intro o
    cases e : w2.heap o with
    | none => rfl
    | some m =>
      have h1 := hi2.heap o m e
      rw [ht2 _ (mem_allTypes (hi2.byte o m e))] at h1
      simp at h1
  refine ⟨s, w2, hs, cleanup_eq e1 e2, ?_, hheap, ?_, ?_⟩
  · intro ty
    unfold create
    cases e : w2.tree ty with
    | none => rfl
    | some o => dsimp only; rw [hheap o]; rfl
  · intro t
    cases e : w2.tin t with
    | none => rfl
    | some x =>
      cases x with
      | none =>
        have h1 : w1.tin t = some none := hg2 t e
        rw [ht1] at h1
        split at h1
        · simp at h1
        · next hn => exact absurd ((hi.gen t).2 h1) hn
      | some o =>
        obtain ⟨m, hm, -⟩ := hi2.tlive t o e
        rw [hheap o] at hm
        simp at hm
  · intro p
    cases e : w2.pin p with
    | none => rfl
    | some o =>
      obtain ⟨m, hm⟩ := hi2.plive p o e
      rw [hheap o] at hm
      simp at hm

example : FairAll Book.init [.regType 3 (-1), .regProv 2 7 [11], .regMsg 9] := by
  simp [FairAll, Fair, Book.after, Book.init, setAll, meant]

/-- The cleanup forgets the forward handlers: they stay linked in the tree of the writer. -/
theorem C223_forward_counterexample (prio : Nat → Int) (ops : List Op) (hf : FairAll Book.init ops) :
    ∃ s w', run prio St.init ops = some s ∧ cleanup s.w = some w' ∧ w'.fwd = s.w.fwd := by
  obtain ⟨s, hs, hi, -⟩ := run_init (prio := prio) ops hf
  obtain ⟨w1, e1, hi1, -, hf1, -⟩ := unregisterTypes_inv s.w.gen hi
  have hi1' : Inv prio { w1 with procs := [] } _ none := { hi1 with }
  obtain ⟨w2, b2, e2, -, -, -, hf2, -⟩ := cleanupMsgs_inv allTypes hi1'
  exact ⟨s, w2, hs, cleanup_eq e1 e2, hf2.trans hf1⟩

example : (run (fun _ => 0) St.init [.regFwd 4]).map (·.w.fwd) = some [4] := by decide +kernel

end Verif.WReg
