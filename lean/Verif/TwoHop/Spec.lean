import Verif.TwoHop.Model

/-
What the two-hop addresses of a link shall be.
-/
namespace Verif.TwoHop
open Verif.Codec (MetricField)
open Verif.Hello (Pair receiveHop setT)
open Verif.Nhdp (Map Status)
open Verif.Netaddr (Netaddr)

/-- The entry of the HELLO says something about the address, and it is not an address of this router. -/
def Mentions (m : Msg) (s : Said) (a : Netaddr) : Prop :=
  s.addr = a ∧ (s.link ≠ none ∨ s.other ≠ none) ∧ m.ifOwn a = false ∧ m.own a = false

/-- LINK_STATUS is SYMMETRIC -/
def LinkSym (s : Said) : Prop := ∃ x, s.link = some x ∧ x % 4 = 1

/-- LINK_STATUS or OTHER_NEIGHB is SYMMETRIC -/
def SaysSym (s : Said) : Prop := LinkSym s ∨ ∃ x, s.other = some x ∧ x % 2 = 1

/-- The last entry of the HELLO about the address. -/
def Last (m : Msg) (s : Said) (a : Netaddr) : Prop := ∃ xs ys, m.said = xs ++ s :: ys ∧ Mentions m s a ∧ ∀ y ∈ ys, ¬Mentions m y a

/-- status of the link after some events (newest first) -/
def statusAfter : List Ev → Status
  | [] => .pending
  | .hello m :: _ => m.status
  | .status st :: _ => st
  | _ :: evs => statusAfter evs

/-- the link was symmetric and is not any more -/
def Ends (old new : Status) : Prop := old = .symmetric ∧ new ≠ .symmetric

/-- The event neither mentions the address nor does the link or the address get lost by it; `old`: status of the link before. -/
def Keeps (a : Netaddr) (old : Status) : Ev → Prop
  | .hello m => (∀ s ∈ m.said, ¬Mentions m s a) ∧ a ∉ m.lost ∧ ¬Ends old m.status
  | .status st => ¬Ends old st
  | .unsymmetric => False
  | .time _ => True

/-- The last HELLO which mentioned the address was `m` with entry `s`, which said that it is symmetric; since then the address is not
lost, the link did not cease to be symmetric, and the validity time did not expire. -/
def Since (evs : List Ev) (a : Netaddr) (m : Msg) (s : Said) : Prop :=
  ∃ post pre, evs = post ++ .hello m :: pre ∧ Last m s a ∧ SaysSym s ∧ a ∉ m.lost ∧ ¬Ends (statusAfter pre) m.status ∧
    (∀ p ev q, post = p ++ ev :: q → Keeps a (statusAfter (q ++ .hello m :: pre)) ev) ∧
    ∀ t, Ev.time t ∈ post → setT m.now m.vtime = 0 ∨ t < setT m.now m.vtime

/-- The data of the address are those of the entry. -/
def Reports (doms : List Dom) (m : Msg) (s : Said) (h : Hop) : Prop :=
  (h.same = true ↔ LinkSym s) ∧ h.clock = setT m.now m.vtime ∧
  ∀ (i : Nat) (d : Dom), doms[i]? = some d → d.special = false → h.met[i]? = some (receiveHop ((s.tlvs.filter fun t => t.1 == d.ext).map (·.2)))

end Verif.TwoHop
