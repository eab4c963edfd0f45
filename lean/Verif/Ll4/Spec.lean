import Verif.Ll4.Model
/-
What automatic IPv4 link-local addresses are to be, without the functions of the plugin.
-/
namespace Verif.Ll4.Spec
open Verif.Netaddr

/-- the IPv4 address `p.q.r.s` -/
def Octets (a : Netaddr) (p q r s : UInt8) : Prop := a.type = AF_INET ∧ a.addr.take 4 = [p, q, r, s]

/-- an IPv4 link-local address -/
def LinkLocal (a : Netaddr) : Prop := ∃ r s, Octets a 169 254 r s

/-- an address between 169.254.1.0 and 169.254.254.255 -/
def Usable (a : Netaddr) : Prop := ∃ r s, Octets a 169 254 r s ∧ 1 ≤ r ∧ r ≤ 254

/-- both are IPv4 addresses with the same octets -/
def SameV4 (a b : Netaddr) : Prop := a.type = AF_INET ∧ b.type = AF_INET ∧ a.addr.take 4 = b.addr.take 4

/-- the bits of a 32 bit number shifted to the left and to the right -/
def shl (h n : Nat) : Nat := h * 2 ^ n % 2 ^ 32
def shr (h n : Nat) : Nat := h / 2 ^ n

/-- Jenkins' "one at a time" hash of unsigned bytes -/
def oneAtATime (key : List UInt8) : Nat :=
  let body := key.foldl (fun h b =>
    let h := (h + b.toNat) % 2 ^ 32
    let h := (h + shl h 10) % 2 ^ 32
    h ^^^ shr h 6) 0
  let h := (body + shl body 3) % 2 ^ 32
  let h := h ^^^ shr h 11
  (h + shl h 15) % 2 ^ 32

/-- the bytes of an IPv6 or MAC address -/
def octetsOf (a : Netaddr) : List UInt8 := a.addr.take (maxPrefix a / 8)

/-- the neighbor (or two-hop neighbor) has this address, or will get it from its other address -/
def Claims (signed : Bool) (n x : Netaddr) : Prop := SameV4 n x ∨ (n.type ≠ AF_INET ∧ SameV4 (linkLocal (hostPart signed n)) x)

/-- no neighbor and no two-hop neighbor claims the address -/
def Free (w : World) (x : Netaddr) : Prop := ∀ l ∈ w.links, ∀ n ∈ l.addrs ++ l.twohop, ¬ Claims w.signed n x

/-- the structures are complete, addresses are host addresses -/
def Hosts (w : World) : Prop :=
  (∀ a ∈ w.addrs, a.WF ∧ a.Clean ∧ (a.type = AF_INET → a.prefixLen = 32)) ∧
  ∀ l ∈ w.links, ∀ n ∈ l.addrs ++ l.twohop, n.WF ∧ n.Clean ∧ (n.type = AF_INET → n.prefixLen = 32)

/-- the IPv4 addresses of the interface -/
def v4 (w : World) : List Netaddr := w.addrs.filter (·.type = AF_INET)

/-- a kernel that does as requested: the addresses of the interface after a request -/
def kernel (addrs : List Netaddr) : Option Cmd → List Netaddr
  | none => addrs
  | some ⟨true, a⟩ => addrs ++ [{ a with prefixLen := 32 }]
  | some ⟨false, a⟩ => addrs.filter fun b => !(b.type == AF_INET && b.addr.take 4 == a.addr.take 4)

/-- one update of the plugin and the answer of the kernel: state, addresses of the interface, request -/
def round (w : World) (fuel : Nat) (st : State) : Option (State × List Netaddr × Option Cmd) :=
  (update w fuel st).map fun r => (r.1, kernel w.addrs r.2, r.2)

end Verif.Ll4.Spec
