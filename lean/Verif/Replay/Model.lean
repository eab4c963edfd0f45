/-!
# Replay protection of the simple security plugin

Model of src/crypto/simple_security/simple_security.c: the packet TLVs TIMESTAMP, CHALLENGE QUERY and CHALLENGE RESPONSE,
the node of a neighbor, its two timers and the global counter.

Simplifications:
* A TLV that is not there and a TLV with value 0 are not distinguished (simple_security.c:429-447).
* The pair of source address and interface index of a neighbor is a number (`struct neighbor_key`).
* Running out of memory (simple_security.c:452-460) is left out.
* Timers fire exactly at their deadline (granularity of the scheduler: area Timer).
-/

namespace Verif.Replay

/-- `struct neighbor_node`, simple_security.c:100-124, and the deadlines of its timers -/
structure Node where
  last : UInt32
  query : UInt32
  response : UInt32
  trigger : Option Nat
  vtime : Nat
deriving DecidableEq, Repr

/-- a node with all fields zero, `oonf_class_malloc` in simple_security.c:357 -/
def Node.zero : Node := ⟨0, 0, 0, none, 0⟩

/-- `struct sise_config`, simple_security.c:68-83, without the key -/
structure Cfg where
  window : UInt32
  delay : Nat
  vtime : Nat
deriving DecidableEq, Repr

/-- `_local_timestamp` (simple_security.c:251) and `_timestamp_tree` -/
structure Party where
  loc : UInt32
  nodes : Nat → Option Node

/-- the three packet TLVs, 0 for none -/
structure Packet where
  ts : UInt32
  query : UInt32
  response : UInt32
deriving DecidableEq, Repr

/-- a party with another node for one neighbor -/
def Party.set (p : Party) (k : Nat) (n : Option Node) : Party :=
  { p with nodes := fun j => if j = k then n else p.nodes j }

/-- the condition for a valid packet, simple_security.c:479-480; the addition is one of 32 bit numbers -/
def valid (c : Cfg) (n : Node) (ts response : UInt32) : Bool :=
  (0 < n.query && response == n.query) || (n.last < ts && ts < n.last + c.window)

/-- the three cases of simple_security.c:479-510: the node, the counter, and whether the packet is processed -/
def judge (c : Cfg) (loc : UInt32) (n : Node) (ts response : UInt32) : Node × UInt32 × Bool :=
  if valid c n ts response then
    ({ n with last := ts, query := 0, trigger := if n.response = 0 then none else n.trigger }, loc, true)
  else if n.last = ts then (n, loc, false)
  else if n.query = 0 then ({ n with query := loc + 1 }, loc + 1, false)
  else (n, loc, false)

/-- start of the trigger timer, simple_security.c:512-520 -/
def startTrigger (c : Cfg) (now : Nat) (n : Node) : Node :=
  if (0 < n.query || 0 < n.response) && n.trigger.isNone then
    { n with trigger := some (now + if 0 < n.response then 1 else c.delay) }
  else n

/-- `_cb_timestamp_tlv`, simple_security.c:403-526 -/
def receive (c : Cfg) (now : Nat) (p : Party) (k : Nat) (pkt : Packet) : Party × Bool :=
  /- simple_security.c:449-471: the timestamp of a new node is set to 0 -/
  let ts := if (p.nodes k).isNone then 0 else pkt.ts
  let n := { (p.nodes k).getD Node.zero with response := pkt.query }
  let r := judge c p.loc n ts pkt.response
  ({ (p.set k (some { startTrigger c now r.1 with vtime := now + c.vtime })) with loc := r.2.1 }, r.2.2)

/-- `_cb_addPacketTLVs` and `_cb_finishPacketTLVs`, simple_security.c:545-617: a packet to a neighbor with a node, or
(`none`) to any other destination -/
def sendTo (p : Party) (k : Option Nat) : Party × Packet :=
  match k.bind (fun j => (p.nodes j).map (fun n => (j, n))) with
  | none => ({ p with loc := p.loc + 1 }, ⟨p.loc + 1, 0, 0⟩)
  | some (j, n) => ({ (p.set j (some { n with response := 0 })) with loc := p.loc + 1 }, ⟨p.loc + 1, n.query, n.response⟩)

/-- `_cb_neighbor_node_timeout`, simple_security.c:380-388 -/
def expire (p : Party) (k : Nat) : Party := p.set k none

end Verif.Replay
