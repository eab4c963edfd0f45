import Verif.Log.Route
import Verif.Log.FilterProps
/-
C167: the command `route` asks the kernel for what was typed.
-/
namespace Verif.Log.Route
open Str

/-- Words of a command that are parameters: a name and a value shorter than 62 characters, or the
name `ipv6`. -/
inductive Options : List (List UInt8) → List (Key × List UInt8) → Prop where
  | nil : Options [] []
  | flag {w ws os} : Alike w [105, 112, 118, 54] → Options ws os → Options (w :: ws) ((.ipv6, []) :: os)
  | value {w v ws os k n} : (k, n) ∈ keys → k ≠ .ipv6 → Alike w n → v.length < 62 → Options ws os →
      Options (w :: v :: ws) ((k, v) :: os)

/-- The last value of a parameter. -/
def last (k : Key) : List (Key × List UInt8) → Option (List UInt8)
  | [] => none
  | o :: os =>
    match last k os with
    | some v => some v
    | none => if o.1 = k then some o.2 else none

/-- Parameters with addresses. -/
def isAddr : Key → Bool
  | .srcIp | .gw | .dst | .srcPrefix => true
  | _ => false

theorem findKey_some {κ : Type} (ks : List (κ × List UInt8)) (hne : ∀ k ∈ ks, k.2 ≠ [])
    (hd : ∀ a ∈ ks, ∀ b ∈ ks, Alike a.2 b.2 → a.1 = b.1 ∧ a.2 = b.2) {p ws} {w : List UInt8} (hp : Words p (w :: ws))
    {k : κ × List UInt8} (hk : k ∈ ks) (ha : Alike w k.2) :
    ∃ r, findKey ks p = some (k.1, r) ∧ Words r ws ∧ skipBlank r = r := by
  obtain ⟨r, hr⟩ : ∃ r, strHasNextWord p k.2 = some r :=
    Option.isSome_iff_exists.mp ((C55_has_next hp k.2 (hne k hk)).1.mpr ⟨w, ws, rfl, ha⟩)
  refine ⟨r, ?_, (C55_has_next hp k.2 (hne k hk)).2 r hr, has_skipped hr⟩
  unfold findKey
  cases hx : ks.findSome? (fun k => (strHasNextWord p k.2).map fun r => (k.1, r)) with
  | none =>
    rw [List.findSome?_eq_none_iff] at hx
    have := hx k hk
    rw [hr] at this
    cases this
  | some y =>
    obtain ⟨j, hj, hy⟩ := List.exists_of_findSome?_eq_some hx
    rw [Option.map_eq_some_iff] at hy
    obtain ⟨r', h1, rfl⟩ := hy
    obtain ⟨w', rest, he, hal⟩ := (C55_has_next hp j.2 (hne j hj)).1.mp (by rw [h1]; rfl)
    cases he
    obtain ⟨e1, e2⟩ := hd j hj k hk (hal.symm.trans ha)
    rw [e2, hr] at h1
    cases h1
    rw [e1]

theorem keys_ne : ∀ k ∈ keys, k.2 ≠ [] := by decide +kernel
theorem keys_distinct : ∀ a ∈ keys, ∀ b ∈ keys, Alike a.2 b.2 → a.1 = b.1 ∧ a.2 = b.2 := by
  unfold Alike; decide +kernel
theorem cmds_ne : ∀ k ∈ cmds, k.2 ≠ [] := by decide +kernel
theorem cmds_distinct : ∀ a ∈ cmds, ∀ b ∈ cmds, Alike a.2 b.2 → a.1 = b.1 ∧ a.2 = b.2 := by
  unfold Alike; decide +kernel

/-- One parameter after the other. -/
def putAll (e : Env) : List (Key × List UInt8) → Params → Option Params
  | [], r => some r
  | o :: os, r => (put e r o.1 o.2).bind (putAll e os)

theorem params_none (e : Env) (fuel : Nat) (r : Params) : params e fuel none r = some r := by
  cases fuel <;> rfl

theorem copied_skipped {len : Nat} {s s' : List UInt8} (h : (strCpyNextWord len (some s)).2 = some s') : skipBlank s' = s' := by
  unfold strCpyNextWord at h
  simp only at h
  split at h
  · cases h
  · cases h; exact skipBlank_twice _

theorem params_eq (e : Env) {ws os} (h : Options ws os) :
    ∀ (fuel : Nat) (p : List UInt8) (r : Params), Words p ws → skipBlank p = p → ws.length < fuel →
    params e fuel (some p) r = putAll e os r := by
  induction h with
  | nil =>
    intro fuel p r hp hs hf
    cases fuel with
    | zero => omega
    | succ fuel =>
      unfold params
      simp only
      rw [if_pos (words_nil hp hs)]
      rfl
  | @flag w ws os ha _ ih =>
    intro fuel p r hp hs hf
    cases fuel with
    | zero => omega
    | succ fuel =>
      obtain ⟨q, h1, h2, h3⟩ := findKey_some keys keys_ne keys_distinct hp (k := (.ipv6, [105, 112, 118, 54])) (by decide +kernel) ha
      unfold params
      simp only
      rw [if_neg (words_ne hp), h1]
      simp only [List.length_cons] at hf
      simp only [putAll]
      congr 1
      funext r'
      exact ih fuel q r' h2 h3 (by omega)
  | @value w v ws os k n hk hn ha hv _ ih =>
    intro fuel p r hp hs hf
    cases fuel with
    | zero => omega
    | succ fuel =>
      obtain ⟨q, h1, h2, h3⟩ := findKey_some keys keys_ne keys_distinct hp hk ha
      have h4 := C55_copy_next 62 h2 hv
      unfold params
      simp only
      rw [if_neg (words_ne hp), h1]
      simp only [List.length_cons] at hf
      have hbody : ∀ r', params e fuel (strCpyNextWord 62 (some q)).2 r' = putAll e os r' := by
        intro r'
        cases hws : ws with
        | nil =>
          rw [h4.2.1 hws, params_none]
          subst hws
          cases ‹Options [] os›
          rfl
        | cons a t =>
          obtain ⟨s', e1, e2⟩ := h4.2.2 (by rw [hws]; simp)
          rw [e1]
          exact ih fuel s' r' e2 (copied_skipped e1) (by omega)
      simp only [putAll]
      rw [← h4.1]
      cases k with
      | ipv6 => exact absurd rfl hn
      | _ => congr 1; funext r'; exact hbody r'

/-- What a well formed command leads to. -/
theorem request_eq (e : Env) (p c : List UInt8) (ws : List (List UInt8)) (os : List (Key × List UInt8)) (cmd : Cmd) (n : List UInt8)
    (hp : Words p (c :: ws)) (hc : (cmd, n) ∈ cmds) (ha : Alike c n) (ho : Options ws os) :
    request e p = (putAll e os {}).bind fun r => (checked cmd r).map fun r => (cmd, r) := by
  obtain ⟨q, h1, h2, h3⟩ := findKey_some cmds cmds_ne cmds_distinct hp hc ha
  unfold request
  rw [h1]
  simp only
  have := words_length h2
  rw [params_eq e ho _ q {} h2 h3 (by omega)]

/-- All addresses are valid and of one family. -/
def Uniform (e : Env) (f : Fam) (os : List (Key × List UInt8)) : Prop :=
  ∀ o ∈ os, (isAddr o.1 = true → ∃ a, e.addr o.2 = some a ∧ a.fam = f) ∧ (o.1 = .ipv6 → f = .v6)

/-- The address named last, or what it was before. -/
def addrOf (e : Env) (os : List (Key × List UInt8)) (k : Key) (old : Option Addr) : Option Addr :=
  match last k os with
  | some v => e.addr v
  | none => old

/-- The number given last, or what it was before. -/
def numOf (e : Env) (os : List (Key × List UInt8)) (k : Key) (old : Nat) : Nat :=
  match last k os with
  | some v => (e.num v).toNat
  | none => old

/-- The interface named last, or what it was before. -/
def devOf (e : Env) (os : List (Key × List UInt8)) (old : Nat) : Nat :=
  match last .dev os with
  | some v => e.dev v
  | none => old

/-- Some parameter that tells the family. -/
def Tells (os : List (Key × List UInt8)) : Prop := ∃ o ∈ os, isAddr o.1 = true ∨ o.1 = .ipv6

/-- Table and protocol are numbers of one byte. -/
def Bytes (e : Env) (os : List (Key × List UInt8)) : Prop :=
  ∀ o ∈ os, o.1 = .table ∨ o.1 = .proto → 0 ≤ e.num o.2 ∧ e.num o.2 < 256

theorem ip_some {e : Env} {v : List UInt8} {a : Addr} {f : Fam} (h : e.addr v = some a) (hf : a.fam = f) (ho : f ≠ .other) : ip e v = some a := by
  unfold ip
  rw [h]
  simp only
  rw [if_neg (by rw [hf]; exact ho)]

theorem byte_id {i : Int} (h : 0 ≤ i ∧ i < 256) : byte i = i.toNat := by
  unfold byte
  omega

theorem putAll_eq (e : Env) (f : Fam) (hf : f ≠ .other) : ∀ (os : List (Key × List UInt8)) (r : Params),
    Uniform e f os → Bytes e os → (∀ o ∈ os, o.1 ≠ .metric) → (r.fam = none ∨ r.fam = some f) →
    ∃ g, putAll e os r = some { r with fam := g, srcIp := addrOf e os .srcIp r.srcIp, gw := addrOf e os .gw r.gw, dst := addrOf e os .dst r.dst, srcPrefix := addrOf e os .srcPrefix r.srcPrefix, table := numOf e os .table r.table, proto := numOf e os .proto r.proto, dev := devOf e os r.dev } ∧
      (g = some f ∨ (g = none ∧ r.fam = none ∧ ¬ Tells os)) := by
  intro os
  induction os with
  | nil =>
    intro r _ _ _ hr
    refine ⟨r.fam, rfl, ?_⟩
    rcases hr with h | h
    · exact .inr ⟨h, h, by rintro ⟨o, ho, _⟩; cases ho⟩
    · exact .inl h
  | cons o os ih =>
    intro r hu hb hm hr
    have hu' : Uniform e f os := fun x hx => hu x (List.mem_cons_of_mem _ hx)
    have hb' : Bytes e os := fun x hx => hb x (List.mem_cons_of_mem _ hx)
    have hm' : ∀ o ∈ os, o.1 ≠ .metric := fun x hx => hm x (List.mem_cons_of_mem _ hx)
    obtain ⟨k, v⟩ := o
    have hlast : ∀ k', last k' ((k, v) :: os) = match last k' os with | some v => some v | none => if k = k' then some v else none := fun _ => rfl
    have hu0 := hu (k, v) List.mem_cons_self
    have hb0 := hb (k, v) List.mem_cons_self
    cases k with
    | metric => exact absurd rfl (hm _ List.mem_cons_self)
    | srcIp =>
      obtain ⟨a, ha, haf⟩ := hu0.1 rfl
      obtain ⟨g, h1, h2⟩ := ih { r with srcIp := some a, fam := some a.fam } hu' hb' hm' (.inr (by rw [haf]))
      refine ⟨g, ?_, .inl (h2.resolve_right (by rintro ⟨_, h, _⟩; cases h))⟩
      simp only [putAll, put, ip_some ha haf hf, Option.map_some, Option.bind_some, h1, addrOf, numOf, devOf, hlast]
      simp only [reduceCtorEq, if_false, if_true]
      congr 1
      cases last .srcIp os <;> cases last .gw os <;> cases last .dst os <;> cases last .srcPrefix os <;> cases last .table os <;> cases last .proto os <;> cases last .dev os <;> simp [ha]
    | gw =>
      obtain ⟨a, ha, haf⟩ := hu0.1 rfl
      obtain ⟨g, h1, h2⟩ := ih { r with gw := some a, fam := some a.fam } hu' hb' hm' (.inr (by rw [haf]))
      refine ⟨g, ?_, .inl (h2.resolve_right (by rintro ⟨_, h, _⟩; cases h))⟩
      simp only [putAll, put, ip_some ha haf hf, Option.map_some, Option.bind_some, h1, addrOf, numOf, devOf, hlast]
      simp only [reduceCtorEq, if_false, if_true]
      cases last .srcIp os <;> cases last .gw os <;> cases last .dst os <;> cases last .srcPrefix os <;> cases last .table os <;> cases last .proto os <;> cases last .dev os <;> simp [ha]
    | dst =>
      obtain ⟨a, ha, haf⟩ := hu0.1 rfl
      obtain ⟨g, h1, h2⟩ := ih { r with dst := some a, fam := some a.fam } hu' hb' hm' (.inr (by rw [haf]))
      refine ⟨g, ?_, .inl (h2.resolve_right (by rintro ⟨_, h, _⟩; cases h))⟩
      simp only [putAll, put, ip_some ha haf hf, Option.map_some, Option.bind_some, h1, addrOf, numOf, devOf, hlast]
      simp only [reduceCtorEq, if_false, if_true]
      cases last .srcIp os <;> cases last .gw os <;> cases last .dst os <;> cases last .srcPrefix os <;> cases last .table os <;> cases last .proto os <;> cases last .dev os <;> simp [ha]
    | srcPrefix =>
      obtain ⟨a, ha, haf⟩ := hu0.1 rfl
      obtain ⟨g, h1, h2⟩ := ih { r with srcPrefix := some a, fam := some a.fam } hu' hb' hm' (.inr (by rw [haf]))
      refine ⟨g, ?_, .inl (h2.resolve_right (by rintro ⟨_, h, _⟩; cases h))⟩
      simp only [putAll, put, ip_some ha haf hf, Option.map_some, Option.bind_some, h1, addrOf, numOf, devOf, hlast]
      simp only [reduceCtorEq, if_false, if_true]
      cases last .srcIp os <;> cases last .gw os <;> cases last .dst os <;> cases last .srcPrefix os <;> cases last .table os <;> cases last .proto os <;> cases last .dev os <;> simp [ha]
    | table =>
      obtain ⟨g, h1, h2⟩ := ih { r with table := byte (e.num v) } hu' hb' hm' hr
      refine ⟨g, ?_, h2.imp id (fun h => ⟨h.1, h.2.1, fun ⟨x, hx, hk⟩ => ?_⟩)⟩
      · simp only [putAll, put, Option.bind_some, h1, addrOf, numOf, devOf, hlast]
        simp only [reduceCtorEq, if_false, if_true]
        cases last .srcIp os <;> cases last .gw os <;> cases last .dst os <;> cases last .srcPrefix os <;> cases last .table os <;> cases last .proto os <;> cases last .dev os <;> simp [byte_id (hb0 (.inl rfl))]
      · rcases List.mem_cons.mp hx with rfl | hx
        · rcases hk with h | h <;> cases h
        · exact h.2.2 ⟨x, hx, hk⟩
    | proto =>
      obtain ⟨g, h1, h2⟩ := ih { r with proto := byte (e.num v) } hu' hb' hm' hr
      refine ⟨g, ?_, h2.imp id (fun h => ⟨h.1, h.2.1, fun ⟨x, hx, hk⟩ => ?_⟩)⟩
      · simp only [putAll, put, Option.bind_some, h1, addrOf, numOf, devOf, hlast]
        simp only [reduceCtorEq, if_false, if_true]
        cases last .srcIp os <;> cases last .gw os <;> cases last .dst os <;> cases last .srcPrefix os <;> cases last .table os <;> cases last .proto os <;> cases last .dev os <;> simp [byte_id (hb0 (.inr rfl))]
      · rcases List.mem_cons.mp hx with rfl | hx
        · rcases hk with h | h <;> cases h
        · exact h.2.2 ⟨x, hx, hk⟩
    | dev =>
      obtain ⟨g, h1, h2⟩ := ih { r with dev := e.dev v } hu' hb' hm' hr
      refine ⟨g, ?_, h2.imp id (fun h => ⟨h.1, h.2.1, fun ⟨x, hx, hk⟩ => ?_⟩)⟩
      · simp only [putAll, put, Option.bind_some, h1, addrOf, numOf, devOf, hlast]
        simp only [reduceCtorEq, if_false, if_true]
        cases last .srcIp os <;> cases last .gw os <;> cases last .dst os <;> cases last .srcPrefix os <;> cases last .table os <;> cases last .proto os <;> cases last .dev os <;> simp
      · rcases List.mem_cons.mp hx with rfl | hx
        · rcases hk with h | h <;> cases h
        · exact h.2.2 ⟨x, hx, hk⟩
    | ipv6 =>
      have h6 : f = .v6 := hu0.2 rfl
      obtain ⟨g, h1, h2⟩ := ih { r with fam := some .v6 } hu' hb' hm' (.inr (by rw [h6]))
      refine ⟨g, ?_, .inl (h2.resolve_right (by rintro ⟨_, h, _⟩; cases h))⟩
      simp only [putAll, put, Option.bind_some, h1, addrOf, numOf, devOf, hlast]
      simp only [reduceCtorEq, if_false]
      cases last .srcIp os <;> cases last .gw os <;> cases last .dst os <;> cases last .srcPrefix os <;> cases last .table os <;> cases last .proto os <;> cases last .dev os <;> simp

/-! ### C167 -/

theorem addr_mem {k os v} (h : last k os = some v) : (k, v) ∈ os := by
  induction os with
  | nil => cases h
  | cons o os ih =>
    simp only [last] at h
    split at h
    · rename_i x hx
      cases h
      exact List.mem_cons_of_mem _ (ih hx)
    · split at h
      · rename_i hk
        cases h
        rw [← hk]
        exact List.mem_cons_self
      · cases h

theorem addrOf_fam {e : Env} {f : Fam} {os} (hu : Uniform e f os) {k : Key} (hk : isAddr k = true) {a : Addr}
    (h : addrOf e os k none = some a) : a.fam = f := by
  unfold addrOf at h
  split at h
  · rename_i v hv
    obtain ⟨b, hb, hbf⟩ := (hu _ (addr_mem hv)).1 hk
    simp only at hb
    rw [hb] at h
    cases h
    exact hbf
  · cases h

/-- C167, for commands without `metric`, tables and protocols below 256, and addresses of one family
(`f`; IPv4 if none is told): `route add`, `route del` and `route get` ask the kernel for exactly what
was typed, the last value counting if a parameter is repeated. For `add` and `del` a destination and a
known interface are needed. -/
theorem C167_request_partial (e : Env) (f : Fam) (p c : List UInt8) (ws : List (List UInt8)) (os : List (Key × List UInt8))
    (cmd : Cmd) (n : List UInt8) (hp : Words p (c :: ws)) (hc : (cmd, n) ∈ cmds) (ha : Alike c n) (ho : Options ws os)
    (hf : f ≠ .other) (hu : Uniform e f os) (ht : ¬ Tells os → f = .v4) (hb : Bytes e os) (hm : ∀ o ∈ os, o.1 ≠ .metric)
    (hneed : cmd ≠ .get → last .dst os ≠ none ∧ ∃ v, last .dev os = some v ∧ e.dev v ≠ 0) :
    request e p = some (cmd, ⟨some f, addrOf e os .srcIp none, addrOf e os .gw none, addrOf e os .dst none,
      addrOf e os .srcPrefix none, numOf e os .table 0, numOf e os .proto 0, -1, devOf e os 0⟩) := by
  rw [request_eq e p c ws os cmd n hp hc ha ho]
  obtain ⟨g, h1, h2⟩ := putAll_eq e f hf os {} hu hb hm (.inl rfl)
  rw [h1]
  simp only [Option.bind_some]
  have hdev : ¬ (cmd ≠ .get ∧ devOf e os 0 = 0) := by
    rintro ⟨hg, h0⟩
    obtain ⟨_, v, hv, hv0⟩ := hneed hg
    unfold devOf at h0
    rw [hv] at h0
    exact hv0 h0
  have hdst : ¬ (cmd ≠ .get ∧ addrOf e os .dst none = none) := by
    rintro ⟨hg, h0⟩
    cases hl : last .dst os with
    | none => exact (hneed hg).1 hl
    | some v =>
      unfold addrOf at h0
      rw [hl] at h0
      obtain ⟨b, hb, _⟩ := (hu _ (addr_mem hl)).1 rfl
      simp only at hb h0
      rw [hb] at h0
      cases h0
  unfold checked
  simp only
  rw [if_neg hdev, if_neg hdst]
  rcases h2 with rfl | ⟨rfl, _, hnt⟩
  · rw [if_neg]
    · simp
    · rintro (⟨a, h, hne⟩ | ⟨a, h, hne⟩ | ⟨a, h, hne⟩) <;> exact hne (by rw [addrOf_fam hu rfl h])
  · have hno : ∀ k, isAddr k = true → addrOf e os k none = none := by
      intro k hk
      unfold addrOf
      cases hl : last k os with
      | none => rfl
      | some v => exact absurd ⟨_, addr_mem hl, .inl hk⟩ hnt
    rw [if_neg]
    · simp [ht hnt]
    · rintro (⟨a, h, hne⟩ | ⟨a, h, hne⟩ | ⟨a, h, hne⟩)
      · rw [hno _ rfl] at h; cases h
      · rw [hno _ rfl] at h; cases h
      · rw [hno _ rfl] at h; cases h

/-- C167: whatever is typed, a route is only added or removed with destination and interface, and
source address, gateway and destination are of the family of the route. -/
theorem C167_checked (e : Env) (p : List UInt8) (cmd : Cmd) (r : Params) (h : request e p = some (cmd, r)) :
    (cmd ≠ .get → r.dst ≠ none ∧ r.dev ≠ 0) ∧
    ∀ a, r.srcIp = some a ∨ r.gw = some a ∨ r.dst = some a → r.fam = some a.fam := by
  unfold request at h
  split at h
  · cases h
  · simp only [Option.bind_eq_some_iff, Option.map_eq_some_iff] at h
    obtain ⟨q, _, r', hr, he⟩ := h
    cases he
    unfold checked at hr
    split at hr
    · cases hr
    · rename_i h1
      split at hr
      · cases hr
      · rename_i h2
        split at hr
        · cases hr
        · rename_i h3
          cases hr
          simp only [not_and, not_or, not_exists, Classical.not_not] at h1 h2 h3
          split
          · rename_i hf
            refine ⟨fun hg => ⟨h2 hg, h1 hg⟩, fun a ha => ?_⟩
            rcases ha with ha | ha | ha
            · have := h3.1 a ha; rw [hf] at this; cases this
            · have := h3.2.1 a ha; rw [hf] at this; cases this
            · have := h3.2.2 a ha; rw [hf] at this; cases this
          · refine ⟨fun hg => ⟨h2 hg, h1 hg⟩, fun a ha => ?_⟩
            rcases ha with ha | ha | ha
            · exact h3.1 a ha
            · exact h3.2.1 a ha
            · exact h3.2.2 a ha

theorem putAll_bad (e : Env) {os} (h : ∃ o ∈ os, isAddr o.1 = true ∧ ip e o.2 = none) : ∀ r, putAll e os r = none := by
  induction os with
  | nil => obtain ⟨o, ho, _⟩ := h; cases ho
  | cons x os ih =>
    intro r
    obtain ⟨o, ho, h1, h2⟩ := h
    simp only [putAll]
    rcases List.mem_cons.mp ho with rfl | ho
    · obtain ⟨k, v⟩ := o
      simp only at h2
      cases k <;> first | (simp only [put, h2]; rfl) | cases h1
    · cases hx : put e r x.1 x.2 with
      | none => rfl
      | some r' => exact ih ⟨o, ho, h1, h2⟩ r'

/-- C167: a command with something that is no address of IPv4 or IPv6 is refused. -/
theorem C167_refused (e : Env) (p c : List UInt8) (ws : List (List UInt8)) (os : List (Key × List UInt8))
    (cmd : Cmd) (n : List UInt8) (hp : Words p (c :: ws)) (hc : (cmd, n) ∈ cmds) (ha : Alike c n) (ho : Options ws os)
    (hbad : ∃ o ∈ os, isAddr o.1 = true ∧ ∀ a, e.addr o.2 = some a → a.fam = .other) : request e p = none := by
  rw [request_eq e p c ws os cmd n hp hc ha ho, putAll_bad e]
  · rfl
  · obtain ⟨o, h1, h2, h3⟩ := hbad
    refine ⟨o, h1, h2, ?_⟩
    unfold ip
    split
    · rename_i a h; rw [if_pos (h3 a h)]
    · rfl

/-- An environment: `4` is an IPv4 address, `6` an IPv6 address, `e` interface 3, digits are
numbers. -/
def demo : Env where
  addr w := if w = [52] then some ⟨.v4, 4⟩ else if w = [54] then some ⟨.v6, 6⟩ else none
  num w := w.foldl (fun n c => n * 10 + ((c.toNat : Int) - 48)) 0
  dev w := if w = [101] then 3 else 0

/-- `add dst 4 if e table 7`, `get gw x`, `del dst 4`. -/
example :
    request demo [97, 100, 100, 32, 100, 115, 116, 32, 52, 32, 105, 102, 32, 101, 32, 116, 97, 98, 108, 101, 32, 55] =
      some (.add, { fam := some .v4, dst := some ⟨.v4, 4⟩, dev := 3, table := 7 }) ∧
    request demo [103, 101, 116, 32, 103, 119, 32, 120] = none ∧
    request demo [100, 101, 108, 32, 100, 115, 116, 32, 52] = none := by
  decide +kernel

/-- C167 fails for `metric`: `add dst 4 if e metric 7` sets a route without metric in table 7. -/
theorem C167_metric_counterexample :
    request demo [97, 100, 100, 32, 100, 115, 116, 32, 52, 32, 105, 102, 32, 101, 32, 109, 101, 116, 114, 105, 99, 32, 55] =
      some (.add, { fam := some .v4, dst := some ⟨.v4, 4⟩, dev := 3, table := 7, metric := -1 }) ∧
    ∀ (e : Env) (p : List UInt8) (c : Cmd) (r : Params), request e p = some (c, r) → r.metric = -1 := by
  refine ⟨by decide +kernel, fun e p c r h => ?_⟩
  have hput : ∀ r k w r', put e r k w = some r' → r'.metric = r.metric := by
    intro r k w r' h
    cases k <;> simp only [put, Option.map_eq_some_iff, Option.some.injEq] at h <;>
      first | (obtain ⟨a, _, rfl⟩ := h; rfl) | (subst h; rfl)
  have hparams : ∀ fuel ptr r r', params e fuel ptr r = some r' → r'.metric = r.metric := by
    intro fuel
    induction fuel with
    | zero => intro ptr r r' h; cases h; rfl
    | succ fuel ih =>
      intro ptr r r' h
      unfold params at h
      split at h
      · cases h; rfl
      · split at h
        · cases h; rfl
        · split at h
          · cases h
          · simp only [Option.bind_eq_some_iff] at h
            obtain ⟨q, h1, h2⟩ := h
            rw [ih _ _ _ h2, hput _ _ _ _ h1]
          · simp only [Option.bind_eq_some_iff] at h
            obtain ⟨q, h1, h2⟩ := h
            rw [ih _ _ _ h2, hput _ _ _ _ h1]
  unfold request at h
  split at h
  · cases h
  · simp only [Option.bind_eq_some_iff, Option.map_eq_some_iff] at h
    obtain ⟨q, hq, r', hr, he⟩ := h
    cases he
    have h1 := hparams _ _ _ _ hq
    unfold checked at hr
    split at hr
    · cases hr
    · split at hr
      · cases hr
      · split at hr
        · cases hr
        · cases hr
          split <;> exact h1

/-- C167 fails for source prefixes: `get src-prefix 6 dst 4` is not refused, although the prefix is
not of the family of the route. -/
theorem C167_prefix_counterexample :
    request demo [103, 101, 116, 32, 115, 114, 99, 45, 112, 114, 101, 102, 105, 120, 32, 54, 32, 100, 115, 116, 32, 52] =
      some (.get, { fam := some .v4, dst := some ⟨.v4, 4⟩, srcPrefix := some ⟨.v6, 6⟩ }) := by
  decide +kernel

/-- C167 fails for tables from 256 on: `del dst 4 if e table 510` removes the route from table 254,
the main table. -/
theorem C167_table_counterexample :
    request demo [100, 101, 108, 32, 100, 115, 116, 32, 52, 32, 105, 102, 32, 101, 32, 116, 97, 98, 108, 101, 32, 53, 49, 48] =
      some (.del, { fam := some .v4, dst := some ⟨.v4, 4⟩, dev := 3, table := 254 }) := by
  decide +kernel

end Verif.Log.Route
