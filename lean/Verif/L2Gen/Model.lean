/-
The layer2 generator: /repo/src/generic/layer2_generator/layer2_generator.c:189-281.
-/
namespace Verif.L2Gen

/-- `struct oonf_layer2_neigh_key`, oonf_layer2.h:502-513: MAC address, length of the link id, its first byte (the others stay 0). -/
structure Key where
  mac : Nat
  len : Nat
  id : Nat
deriving DecidableEq, Repr

/-- `oonf_layer2_avlcmp_neigh_key`, oonf_layer2.c:1387-1393: `memcmp` looks at address, length, link id, in this order. -/
def less (a b : Key) : Bool :=
  decide (a.mac < b.mac) ||
    (a.mac == b.mac && (decide (a.len < b.len) || (a.len == b.len && decide (a.id < b.id))))

/-- The tree of neighbors as a binary tree. The balancing of avl.c is the parameter `rebal` of `event`. -/
inductive Tree where
  | leaf
  | node (l : Tree) (k : Key) (r : Tree)
deriving DecidableEq, Repr

/-- The neighbors in the order of the tree. -/
def Tree.toList : Tree → List Key
  | .leaf => []
  | .node l k r => l.toList ++ k :: r.toList

/-- `avl_find`, avl.c: descends by comparing. -/
def find (x : Key) : Tree → Option Key
  | .leaf => none
  | .node l k r => if less x k then find x l else if less k x then find x r else some k

/-- `avl_insert`, avl.c, without balancing; a key that is there is not inserted again. -/
def insert (x : Key) : Tree → Tree
  | .leaf => .node .leaf x .leaf
  | .node l k r =>
    if less x k then .node (insert x l) k r else if less k x then .node l k (insert x r) else .node l k r

/-- The key of a neighbor is overwritten in place, layer2_generator.c:245-247. -/
def rename (x y : Key) : Tree → Tree
  | .leaf => .leaf
  | .node l k r => .node (rename x y l) (if k = x then y else k) (rename x y r)

/-- `active`: the origin is added; `event_counter`; the neighbors of the configured interface. Only the generator uses this interface. -/
structure State where
  active : Bool := false
  counter : Nat := 100
  tree : Tree := .leaf
deriving DecidableEq, Repr

/-- The key `oonf_layer2_neigh_add` looks for, oonf_layer2.h:728-735. -/
def base (mac : Nat) : Key := ⟨mac, 0, 0⟩

/-- `_cb_l2gen_event`, layer2_generator.c:194-254, for the neighbor with address `mac`. Memory does not run out. The values of
interface and neighbor, which are all set to the counter, are left out. -/
def event (rebal : Tree → Tree) (mac : Nat) (s : State) : State :=
  if !s.active then s
  else
    let c := s.counter + 1
    let t := if (find (base mac) s.tree).isSome then s.tree else rebal (insert (base mac) s.tree)
    { s with counter := c, tree := rename (base mac) ⟨mac, 1, c % 256⟩ t }

/-- `_cb_config_changed`, layer2_generator.c:257-281: removing the origin removes all its neighbors (`oonf_layer2_origin_remove`,
oonf_layer2.c:262-275). -/
def config (on : Bool) (s : State) : State :=
  if !s.active && on then { s with active := true }
  else if s.active && !on then { s with active := false, tree := .leaf }
  else s

/-- What can happen. -/
inductive Op where
  | event | config (on : Bool)
deriving DecidableEq, Repr

def step (rebal : Tree → Tree) (mac : Nat) (s : State) : Op → State
  | .event => event rebal mac s
  | .config on => config on s

def run (rebal : Tree → Tree) (mac : Nat) (s : State) (ops : List Op) : State := ops.foldl (step rebal mac) s

end Verif.L2Gen
