/-! # Configured layer2 data

Model of `src/generic/layer2_config/layer2_config.c` on the data of one layer2 network (the database itself is in `Verif.Layer2`). Indexes, keys of
neighbors and addresses are numbers. Neighbor objects, the removal of a network without any data and the events for other plugins are left out. -/

namespace Verif.L2Config

/-- a place in the database of a network: data of the network, address of the local radio, default data of neighbors, data, addresses and
destinations of a neighbor -/
inductive Loc
  | net (i : Nat)
  | peer (a : Nat)
  | dflt (i : Nat)
  | neigh (k i : Nat)
  | ip (k a : Nat)
  | dest (k a : Nat)
  deriving DecidableEq

/-- origins: the three of the plugin (layer2_config.c:239-250) and others -/
inductive Org
  | old
  | conf
  | over
  | other (p : Nat)
  deriving DecidableEq

/-- priorities, oonf_layer2.h:182-190 -/
def Org.prio : Org → Nat
  | .old => 0
  | .conf => 30
  | .over => 50
  | .other p => p

/-- addresses have no value (0) -/
structure Item where
  val : Int
  org : Org
  deriving DecidableEq

abbrev Db := Loc → Option Item

def Db.put (db : Db) (l : Loc) (x : Option Item) : Db := fun l' => if l' = l then x else db l'

/-- one configured entry, `struct l2_config_data` -/
structure Entry where
  loc : Loc
  val : Int
  overwrite : Bool
  deriving DecidableEq

/-- the origin of an entry, layer2_config.c:754-777 and 485-580 -/
def Entry.org (e : Entry) : Org := if e.overwrite then .over else .conf

/-- `oonf_layer2_data_set`, oonf_layer2.c:350-356 -/
def arb (x : Option Item) (v : Int) (o : Org) : Option Item :=
  match x with
  | none => some ⟨v, o⟩
  | some i => if i.org = o ∨ i.org.prio < o.prio then some ⟨v, o⟩ else some i

/-- `_set_if_data`, layer2_config.c:660-694: addresses get the new origin always (oonf_layer2.c:683-710, 1026-1034), destinations never
(oonf_layer2_destination_add) -/
def setOne (db : Db) (e : Entry) : Db :=
  match e.loc with
  | .peer _ | .ip _ _ => db.put e.loc (some ⟨0, e.org⟩)
  | .dest _ _ => match db e.loc with
    | some _ => db
    | none => db.put e.loc (some ⟨0, e.org⟩)
  | _ => db.put e.loc (arb (db e.loc) e.val e.org)

/-- `oonf_layer2_net_relabel` for both origins, layer2_config.c:754-777 -/
def relabel (db : Db) : Db := fun l =>
  match db l with
  | none => none
  | some i => if i.org = .conf ∨ i.org = .over then some ⟨i.val, .old⟩ else some i

/-- `oonf_layer2_net_remove`, oonf_layer2.c: data, addresses and destinations of neighbors, but no addresses of the radio -/
def removeOld (db : Db) : Db := fun l =>
  match db l with
  | none => none
  | some i => match l with
    | .peer _ => some i
    | _ => if i.org = .old then none else some i

/-- `_configure_if_data`, layer2_config.c:754-777 -/
def configure (db : Db) (es : List Entry) : Db := removeOld (es.foldl setOne (relabel db))

/-- `_cb_config_changed`, layer2_config.c:784-850: nothing is done with the database if the section was removed; values that cannot be converted
(the validators accept them, 395-401) are left out -/
def changed (db : Db) (post : Option (List (Option Entry))) : Db :=
  match post with
  | none => db
  | some es => configure db (es.filterMap id)

/-- `_reset_if_data`, layer2_config.c:700-747: only for addresses the origin is compared -/
def reset (db : Db) (e : Entry) : Db :=
  match e.loc with
  | .peer _ | .ip _ _ => match db e.loc with
    | none => db
    | some i => if i.org = e.org then db.put e.loc none else db
  | _ => db.put e.loc none

/-- the telnet commands `l2config add` and `l2config remove`, layer2_config.c:485-580 -/
def telnet (db : Db) (add : Bool) (e : Entry) : Db := if add then setOne db e else reset db e

/-! ## The tree of the interfaces

`_if_data_tree`, as far as trees with at most two nodes need it: `none` as result means that the code goes on with rotations. -/

/-- `struct avl_node`: addresses of nodes are numbers -/
structure Node where
  key : Nat
  left : Option Nat := none
  right : Option Nat := none
  parent : Option Nat := none
  balance : Int := 0
  deriving DecidableEq

/-- the memory and the root of the tree -/
structure Tree where
  node : Nat → Node
  root : Option Nat

def Tree.upd (t : Tree) (n : Nat) (x : Node) : Tree := { t with node := fun m => if m = n then x else t.node m }

/-- `_avl_find_rec`, avl.c:543-566 -/
def findRec (t : Tree) (key : Nat) : Nat → Nat → Nat
  | 0, n => n
  | fuel + 1, n =>
    if key < (t.node n).key then (match (t.node n).left with | none => n | some m => findRec t key fuel m)
    else if (t.node n).key < key then (match (t.node n).right with | none => n | some m => findRec t key fuel m)
    else n

/-- `avl_find` -/
def find (t : Tree) (key : Nat) : Option Nat :=
  match t.root with
  | none => none
  | some r => if (t.node (findRec t key 9 r)).key = key then some (findRec t key 9 r) else none

/-- `avl_insert`: the pointers of the node are cleared before the key is looked for -/
def insert (t : Tree) (n key : Nat) : Option Tree :=
  let t := t.upd n { key := key }
  match t.root with
  | none => some { t with root := some n }
  | some r =>
    let m := findRec t key 9 r
    let x := t.node m
    if x.key = key then some t
    else
      let t := t.upd n { key := key, parent := some m }
      if x.balance = 1 then some (t.upd m { x with balance := 0, left := some n })
      else if x.balance = -1 then some (t.upd m { x with balance := 0, right := some n })
      else if x.parent ≠ none then none
      else if key < x.key then some (t.upd m { x with balance := -1, left := some n })
      else some (t.upd m { x with balance := 1, right := some n })

/-- `avl_remove` of a leaf, or of the root with one child -/
def remove (t : Tree) (n : Nat) : Option Tree :=
  let x := t.node n
  match x.left, x.right with
  | none, none => match x.parent with
    | none => some { t with root := none }
    | some p =>
      let y := t.node p
      if y.parent ≠ none then none
      else if y.left = some n then some (t.upd p { y with left := none, balance := y.balance + 1 })
      else some (t.upd p { y with right := none, balance := y.balance - 1 })
  | some c, none => if x.parent = none then some ({ t with root := some c }.upd c { t.node c with parent := none }) else none
  | none, some c => if x.parent = none then some ({ t with root := some c }.upd c { t.node c with parent := none }) else none
  | some _, some _ => none

/-- the interface `key` is configured: its old data is removed from the tree (layer2_config.c:792-796), the new data (at address `n`) is inserted by
`_add_if_data` (349-355) and again by `_cb_config_changed` (822) -/
def register (t : Tree) (n key : Nat) : Option Tree :=
  (match find t key with
  | none => some t
  | some m => remove t m).bind fun t => (insert t n key).bind fun t => insert t n key

def registerAll : Tree → List (Nat × Nat) → Option Tree
  | t, [] => some t
  | t, (n, key) :: h => (register t n key).bind fun t => registerAll t h

end Verif.L2Config
