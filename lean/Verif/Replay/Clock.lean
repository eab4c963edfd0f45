import Verif.Replay.Model

/-!
# The timers of the neighbor nodes

One node of the network over time: packets arrive, and the timers fire in the order of their deadlines. Freeing a neighbor
node does not stop its trigger timer (simple_security.c:380-388); the timer then refers to freed memory.
-/

namespace Verif.Replay

structure Clocked where
  now : Nat
  p : Party
  /-- a timer inside freed memory is still running -/
  dangling : Bool

/-- no timer has to fire before time `t` -/
def Quiet (p : Party) (t : Nat) : Prop :=
  ∀ k n, p.nodes k = some n → t ≤ n.vtime ∧ ∀ d, n.trigger = some d → t ≤ d

inductive Tick (c : Cfg) : Clocked → Clocked → Prop where
  /-- a packet arrives, `_cb_timestamp_tlv` -/
  | recv {s : Clocked} {t k : Nat} {pkt : Packet} : s.now ≤ t → Quiet s.p t → Tick c s { s with now := t, p := (receive c t s.p k pkt).1 }
  /-- a packet is sent -/
  | send {s : Clocked} {t : Nat} {k : Option Nat} : s.now ≤ t → Quiet s.p t → Tick c s { s with now := t, p := (sendTo s.p k).1 }
  /-- the trigger timer fires, `_cb_query_trigger`, simple_security.c:394-398: a packet is sent -/
  | trigger {s : Clocked} {t k : Nat} {n : Node} : s.now ≤ t → Quiet s.p t → s.p.nodes k = some n → n.trigger = some t →
      Tick c s { s with now := t, p := (sendTo (s.p.set k (some { n with trigger := none })) (some k)).1 }
  /-- the validity timer fires, `_cb_neighbor_node_timeout` -/
  | timeout {s : Clocked} {k : Nat} {n : Node} : s.now ≤ n.vtime → Quiet s.p n.vtime → s.p.nodes k = some n →
      Tick c s { now := n.vtime, p := expire s.p k, dangling := s.dangling || n.trigger.isSome }

inductive Ticks (c : Cfg) : Clocked → Clocked → Prop where
  | refl {s : Clocked} : Ticks c s s
  | tail {s t u : Clocked} : Ticks c s t → Tick c t u → Ticks c s u

/-- the plugin has just started -/
def Clocked.init (loc : UInt32) : Clocked := ⟨0, ⟨loc, fun _ => none⟩, false⟩

end Verif.Replay
