import Verif.Replay.Model

/-!
# Two nodes on a link with a hostile network

`A` and `B` (peer numbers 0 and 1) exchange packets. Everything that was ever sent can be delivered to the other side at any time,
in any order and any number of times; nothing else can be delivered (packets are signed).
-/

namespace Verif.Replay

structure World where
  a : Party
  b : Party
  /-- all packets sent by A, oldest first -/
  fromA : List Packet
  /-- all packets sent by B, oldest first -/
  fromB : List Packet
  /-- the timestamps of the packets of A which B processed, newest first -/
  accepted : List UInt32

inductive Op where
  /-- A (B) sends a packet, to the other side or to all -/
  | sendA (unicast : Bool)
  | sendB (unicast : Bool)
  /-- the network delivers the i-th packet of B to A (of A to B) -/
  | toA (now i : Nat)
  | toB (now i : Nat)
  /-- A (B) forgets the other one -/
  | expireA
  | expireB
deriving DecidableEq, Repr

/-- one event; `none` if it is impossible, or if the counter of a node would wrap around -/
def step (c : Cfg) (w : World) : Op → Option World
  | .sendA u =>
    if w.a.loc.toNat + 1 < 2 ^ 32 then
      let r := sendTo w.a (if u then some 1 else none)
      some { w with a := r.1, fromA := w.fromA ++ [r.2] }
    else none
  | .sendB u =>
    if w.b.loc.toNat + 1 < 2 ^ 32 then
      let r := sendTo w.b (if u then some 0 else none)
      some { w with b := r.1, fromB := w.fromB ++ [r.2] }
    else none
  | .toA now i =>
    match w.fromB[i]? with
    | none => none
    | some p => if w.a.loc.toNat + 1 < 2 ^ 32 then some { w with a := (receive c now w.a 1 p).1 } else none
  | .toB now i =>
    match w.fromA[i]? with
    | none => none
    | some p =>
      if w.b.loc.toNat + 1 < 2 ^ 32 then
        let r := receive c now w.b 0 p
        some { w with b := r.1, accepted := if r.2 then p.ts :: w.accepted else w.accepted }
      else none
  | .expireA => some { w with a := expire w.a 1 }
  | .expireB => some { w with b := expire w.b 0 }

def run (c : Cfg) : World → List Op → Option World
  | w, [] => some w
  | w, o :: ops => (step c w o).bind (fun w => run c w ops)

/-- both nodes have just started, with counters at some positive value -/
def start (la lb : UInt32) : World := ⟨⟨la, fun _ => none⟩, ⟨lb, fun _ => none⟩, [], [], []⟩

end Verif.Replay
