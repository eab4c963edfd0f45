import Verif.NhdpIf.Model
/-
Specifications of C145-C147: which neighbors a flooded message reaches, which addresses an interface has.
-/
namespace Verif.NhdpIf
open Verif.Netaddr

/-! ### flooding -/

/-- the message is sent to the IPv4 / IPv6 multicast address of an interface with these links -/
def Sent4 (links : List Link) : Prop := forwardingSelector (some (updateStatus links)) .multicast4 = true
def Sent6 (links : List Link) : Prop := forwardingSelector (some (updateStatus links)) .multicast6 = true

/-- a neighbor with a link `l` gets the message: one of its symmetric links (this one or its partner) has a family which is used -/
def Reached (links : List Link) (l : Link) : Prop :=
  ∃ k ∈ links, k.sym = true ∧ (k = l ∨ l.partner = some k.id) ∧ (k.fam = AF_INET ∧ Sent4 links ∨ k.fam = AF_INET6 ∧ Sent6 links)

/-- a symmetric neighbor which understands only one family / both -/
def Only (links : List Link) (fam : UInt8) : Prop := ∃ l ∈ links, l.sym = true ∧ l.partner = none ∧ l.fam = fam
def Dual (links : List Link) : Prop := ∃ l ∈ links, l.sym = true ∧ l.partner ≠ none ∧ l.fam = AF_INET

/-- symmetric links belong to IPv4 or IPv6 neighbors, the partner of a symmetric link is a symmetric link of the other family on the
interface -/
def Paired (links : List Link) : Prop :=
  ∀ l ∈ links, l.sym = true → (l.fam = AF_INET ∨ l.fam = AF_INET6) ∧
    ∀ p, l.partner = some p → ∃ k ∈ links, k.id = p ∧ k.sym = true ∧ k.partner = some l.id ∧ (k.fam = AF_INET ∨ k.fam = AF_INET6) ∧ k.fam ≠ l.fam

/-! ### addresses -/

/-- an address of the interface which NHDP shall use: the interface is up, packets of its family can be sent, and the filter accepts it -/
def Usable (env : Env) (a : Netaddr) : Prop :=
  env.up = true ∧ a ∈ env.addrs ∧ (a.type = AF_INET → env.loopback = true ∨ env.active4 = true) ∧
    (a.type = AF_INET6 → env.loopback = true ∨ env.active6 = true) ∧ env.accept a = true

/-- what an event tells about an interface -/
inductive News | seen (env : Env) | gone | nothing

def Ev.news (i : Nat) : Ev → News
  | .change j env => if j = i then .seen env else .nothing
  | .settings j env _ _ => if j = i then .seen env else .nothing
  | .remove j => if j = i then .gone else .nothing
  | .wait => .nothing

/-- the last news of the interface told that the address is usable (histories have the newest event first) -/
def Active (i : Nat) (a : Netaddr) : List (Nat × Ev) → Prop
  | [] => False
  | (_, e) :: h =>
    match e.news i with
    | .seen env => Usable env a
    | .gone => False
    | .nothing => Active i a h

/-- the hold time of the interface: the one of the last settings -/
def holdTime (i : Nat) : List (Nat × Ev) → Nat
  | [] => 0
  | (_, .settings j _ o v) :: h => if j = i then (if o = 0 then v else o) else holdTime i h
  | (_, .remove j) :: h => if j = i then 0 else holdTime i h
  | (_, .change _ _) :: h => holdTime i h
  | (_, .wait) :: h => holdTime i h

/-- the address was lost at time `t`, when the hold time was `v`: it was active, then came news without it, and it never came back, nor was the
interface removed -/
def LostAt (i : Nat) (a : Netaddr) (h : List (Nat × Ev)) (t v : Nat) : Prop :=
  ∃ later e env before, h = later ++ (t, e) :: before ∧ e.news i = .seen env ∧ ¬ Usable env a ∧ Active i a before ∧ v = holdTime i before ∧
    ∀ p ∈ later, match p.2.news i with | .seen env => ¬ Usable env a | .gone => False | .nothing => True

/-- time of the newest event -/
def now : List (Nat × Ev) → Nat
  | [] => 0
  | (t, _) :: _ => t

/-- time does not run backwards -/
def Ordered (h : List (Nat × Ev)) : Prop := h.Pairwise fun p q => q.1 ≤ p.1

/-! ### users of interfaces -/

/-- number of registrations of an interface, a removal without registration counts nothing -/
def users (i : Nat) : List RegEv → Nat
  | [] => 0
  | .add j :: h => if j = i then users i h + 1 else users i h
  | .remove j :: h => if j = i then users i h - 1 else users i h
  | _ :: h => users i h

/-- no interface loses its last user while it has links -/
def Tidy (h : List RegEv) : Prop :=
  ∀ later i before r, h = later ++ RegEv.remove i :: before → regRun before = some r → users i before = 1 → ∀ p ∈ r.links, p.2.1 ≠ i

end Verif.NhdpIf
