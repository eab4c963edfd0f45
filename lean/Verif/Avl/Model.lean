/-
Model of `src/libcommon/avl.c` and of the list functions of `include/oonf/libcommon/list.h` it uses.

A node is an identity (its address) with a key.  The pointers `left`, `right` and `parent` form the
tree `Tree`; a walk along the `parent` pointers is a list of frames (`Frame`), nearest parent first.
That `parent` is the inverse of `left`/`right` is built into this representation.  The linked list of
all nodes is a separate component, changed only by the list functions.
`none` is the access through a NULL pointer.
-/
namespace Verif.Avl

/-- address and key of a `struct avl_node`, avl.h:69-113 -/
structure Nd (κ : Type) where
  id : Nat
  key : κ
deriving DecidableEq, Repr

/-- subtree with the field `balance` -/
inductive Tree (κ : Type)
  | nil
  | node (l : Tree κ) (n : Nd κ) (bal : Int) (r : Tree κ)
deriving DecidableEq, Repr

/-- a parent whose `left` (`isLeft`) or right child is the current position; `other` is its other
child -/
structure Frame (κ : Type) where
  isLeft : Bool
  n : Nd κ
  bal : Int
  other : Tree κ
deriving DecidableEq, Repr

variable {κ : Type}

/-- the subtree of a parent with the given child at the position -/
def Frame.fill (f : Frame κ) (t : Tree κ) : Tree κ :=
  if f.isLeft then .node t f.n f.bal f.other else .node f.other f.n f.bal t

/-- the whole tree -/
def rebuild : List (Frame κ) → Tree κ → Tree κ
  | [], t => t
  | f :: fs, t => rebuild fs (f.fill t)

/-- a node in the linked list with its field `follower` -/
structure Elem (κ : Type) where
  nd : Nd κ
  follower : Bool
deriving DecidableEq, Repr

/-- `struct avl_tree`, avl.h:119-149 -/
structure Avl (κ : Type) where
  root : Tree κ
  list : List (Elem κ)
  count : Nat
  dups : Bool
deriving DecidableEq, Repr

/-- `avl_init`, avl.c:75-82 -/
def init (allowDups : Bool) : Avl κ := ⟨.nil, [], 0, allowDups⟩

/-! ### lookup -/

/-- comparison of a child pointer with NULL -/
def Tree.isNil : Tree κ → Bool
  | .nil => true
  | .node .. => false

/-- result of `_avl_find_rec`: parents, the node with its children and balance, last comparison -/
structure Found (κ : Type) where
  path : List (Frame κ)
  l : Tree κ
  n : Nd κ
  bal : Int
  r : Tree κ
  diff : Int

/-- `_avl_find_rec`, avl.c:343-365, started with the parents `path`; `none` for a NULL pointer -/
def findRec (comp : κ → κ → Int) (key : κ) : Tree κ → List (Frame κ) → Option (Found κ)
  | .nil, _ => none
  | .node l n b r, path =>
    let diff := comp key n.key
    if diff < 0 then
      if !l.isNil then findRec comp key l (⟨true, n, b, r⟩ :: path) else some ⟨path, l, n, b, r, diff⟩
    else if diff > 0 then
      if !r.isNil then findRec comp key r (⟨false, n, b, l⟩ :: path) else some ⟨path, l, n, b, r, diff⟩
    else some ⟨path, l, n, b, r, diff⟩

/-- `avl_find`, avl.c:91-101 -/
def find (comp : κ → κ → Int) (a : Avl κ) (key : κ) : Option (Nd κ) :=
  match findRec comp key a.root [] with
  | none => none
  | some f => if f.diff = 0 then some f.n else none

/-- position of a node in the linked list: elements before it (nearest first), the element, elements
behind it -/
structure Pos (κ : Type) where
  before : List (Elem κ)
  cur : Elem κ
  after : List (Elem κ)

/-- the position of the node with an address -/
def locateList (id : Nat) : List (Elem κ) → List (Elem κ) → Option (Pos κ)
  | _, [] => none
  | before, e :: after => if e.nd.id = id then some ⟨before, e, after⟩ else locateList id (e :: before) after

/-- first loop of `avl_find_lessequal`, avl.c:122-129; `none` is the result NULL.  The loop variable
`diff` is the comparison with the current node. -/
def leLeft (comp : κ → κ → Int) (key : κ) : List (Elem κ) → Elem κ → List (Elem κ) → Option (Pos κ)
  | before, cur, after =>
    if comp key cur.nd.key < 0 then
      match before with
      | [] => none
      | p :: before => leLeft comp key before p (cur :: after)
    else some ⟨before, cur, after⟩

/-- second loop of `avl_find_lessequal`, avl.c:132-141 -/
def leRight (comp : κ → κ → Int) (key : κ) : Elem κ → List (Elem κ) → Elem κ
  | cur, [] => cur
  | cur, nx :: after => if comp key nx.nd.key ≥ 0 then leRight comp key nx after else cur

/-- `avl_find_lessequal`, avl.c:112-143 -/
def findLessEqual (comp : κ → κ → Int) (a : Avl κ) (key : κ) : Option (Nd κ) :=
  match findRec comp key a.root [] with
  | none => none
  | some f =>
    match locateList f.n.id [] a.list with
    | none => none
    | some p =>
      match leLeft comp key p.before p.cur p.after with
      | none => none
      | some p => some (leRight comp key p.cur p.after).nd

/-- first loop of `avl_find_greaterequal`, avl.c:164-171 -/
def geRight (comp : κ → κ → Int) (key : κ) : List (Elem κ) → Elem κ → List (Elem κ) → Option (Pos κ)
  | before, cur, after =>
    if comp key cur.nd.key > 0 then
      match after with
      | [] => none
      | p :: after => geRight comp key (cur :: before) p after
    else some ⟨before, cur, after⟩

/-- second loop of `avl_find_greaterequal`, avl.c:174-183 -/
def geLeft (comp : κ → κ → Int) (key : κ) : Elem κ → List (Elem κ) → Elem κ
  | cur, [] => cur
  | cur, nx :: before => if comp key nx.nd.key ≤ 0 then geLeft comp key nx before else cur

/-- `avl_find_greaterequal`, avl.c:154-185 -/
def findGreaterEqual (comp : κ → κ → Int) (a : Avl κ) (key : κ) : Option (Nd κ) :=
  match findRec comp key a.root [] with
  | none => none
  | some f =>
    match locateList f.n.id [] a.list with
    | none => none
    | some p =>
      match geRight comp key p.before p.cur p.after with
      | none => none
      | some p => some (geLeft comp key p.cur p.before).nd

/-! ### rotations -/

/-- `_avl_rotate_right`, avl.c:372-409, on the subtree at `node` -/
def rotRight : Tree κ → Option (Tree κ)
  | .node (.node ll ln lb lr) n b r =>
    let nb := if lb < 0 then b + 1 - lb else b + 1
    let lb' := if nb > 0 then lb + 1 + nb else lb + 1
    some (.node ll ln lb' (.node lr n nb r))
  | _ => none

/-- `_avl_rotate_left`, avl.c:416-453 -/
def rotLeft : Tree κ → Option (Tree κ)
  | .node l n b (.node rl rn rb rr) =>
    let nb := if rb > 0 then b - 1 - rb else b - 1
    let rb' := if nb < 0 then rb - 1 + nb else rb - 1
    some (.node (.node l n nb rl) rn rb' rr)
  | _ => none

def Tree.balance : Tree κ → Int
  | .nil => 0
  | .node _ _ b _ => b

/-! ### insert -/

/-- `_post_insert`, avl.c:462-507, for the subtree `t` (`node` in the code) with the given parents -/
def postInsert : Tree κ → List (Frame κ) → Option (Tree κ)
  | t, [] => some t
  | t, f :: fs =>
    if f.isLeft then
      let b := f.bal - 1
      let parent := Tree.node t f.n b f.other
      if b = 0 then some (rebuild fs parent)
      else if b = -1 then postInsert parent fs
      else if t.balance = -1 then (rotRight parent).map (rebuild fs)
      else (rotLeft t).bind fun t' => (rotRight (.node t' f.n b f.other)).map (rebuild fs)
    else
      let b := f.bal + 1
      let parent := Tree.node f.other f.n b t
      if b = 0 then some (rebuild fs parent)
      else if b = 1 then postInsert parent fs
      else if t.balance = 1 then (rotLeft parent).map (rebuild fs)
      else (rotRight t).bind fun t' => (rotLeft (.node f.other f.n b t')).map (rebuild fs)

/-- `list_add_before`, list.h:123-126: `new` in front of the node with address `id` -/
def addBefore (id : Nat) (new : Elem κ) : List (Elem κ) → List (Elem κ)
  | [] => []
  | e :: es => if e.nd.id = id then new :: e :: es else e :: addBefore id new es

/-- `list_add_after`, list.h:133-136 -/
def addAfter (id : Nat) (new : Elem κ) : List (Elem κ) → List (Elem κ)
  | [] => []
  | e :: es => if e.nd.id = id then e :: new :: es else e :: addAfter id new es

/-- the loop of `_avl_find_last`, avl.c:196-202: address of the last follower behind `last` -/
def lastFollower : Nat → List (Elem κ) → Nat
  | last, [] => last
  | last, e :: es => if e.follower then lastFollower e.nd.id es else last

/-- `_avl_find_last`, avl.c:193-204 -/
def findLast (id : Nat) (l : List (Elem κ)) : Nat :=
  match locateList id [] l with
  | none => id
  | some p => lastFollower id p.after

/-- outcome of an operation -/
inductive Res (α : Type) | ok (a : α) | exists_ | null
deriving DecidableEq, Repr

/-- increment of the 32 bit counter -/
def inc (n : Nat) : Nat := (n + 1) % 2 ^ 32

/-- `avl_insert`, avl.c:213-282 (`exists_` = return value -1) -/
def insert (comp : κ → κ → Int) (a : Avl κ) (new : Nd κ) : Res (Avl κ) :=
  match findRec comp new.key a.root [] with
  | none => .ok { a with root := .node .nil new 0 .nil, list := ⟨new, false⟩ :: a.list, count := 1 }
  | some f =>
    let diff := comp new.key f.n.key
    if diff = 0 then
      if !a.dups then .exists_
      else .ok { a with list := addAfter f.n.id ⟨new, true⟩ a.list, count := inc a.count }
    else
      let leaf := Tree.node .nil new 0 .nil
      let before := addBefore f.n.id ⟨new, false⟩ a.list
      let behind := addAfter (findLast f.n.id a.list) ⟨new, false⟩ a.list
      if f.bal = 1 then
        .ok { a with list := before, count := inc a.count, root := rebuild f.path (.node leaf f.n 0 f.r) }
      else if f.bal = -1 then
        .ok { a with list := behind, count := inc a.count, root := rebuild f.path (.node f.l f.n 0 leaf) }
      else if diff < 0 then
        match postInsert (.node leaf f.n (-1) f.r) f.path with
        | none => .null
        | some t => .ok { a with list := before, count := inc a.count, root := t }
      else
        match postInsert (.node f.l f.n 1 leaf) f.path with
        | none => .null
        | some t => .ok { a with list := behind, count := inc a.count, root := t }

/-! ### remove -/

/-- `_avl_post_remove`, avl.c:553-612, for a subtree `t` that became one level smaller.  The code of
`_avl_remove_worker` for a leaf (lines 656-712) does the same with the empty subtree. -/
def postRemove : Tree κ → List (Frame κ) → Option (Tree κ)
  | t, [] => some t
  | t, f :: fs =>
    if f.isLeft then
      let b := f.bal + 1
      let parent := Tree.node t f.n b f.other
      if b = 0 then postRemove parent fs
      else if b = 1 then some (rebuild fs parent)
      else if f.other.isNil then none
      else if f.other.balance = 0 then (rotLeft parent).map (rebuild fs)
      else if f.other.balance = 1 then (rotLeft parent).bind fun t' => postRemove t' fs
      else (rotRight f.other).bind fun o => (rotLeft (.node t f.n b o)).bind fun t' => postRemove t' fs
    else
      let b := f.bal - 1
      let parent := Tree.node f.other f.n b t
      if b = 0 then postRemove parent fs
      else if b = -1 then some (rebuild fs parent)
      else if f.other.isNil then none
      else if f.other.balance = 0 then (rotRight parent).map (rebuild fs)
      else if f.other.balance = -1 then (rotRight parent).bind fun t' => postRemove t' fs
      else (rotLeft f.other).bind fun o => (rotRight (.node o f.n b t)).bind fun t' => postRemove t' fs

/-- `_avl_local_min`, avl.c:619-625, with the path walked; `none` if started at NULL -/
def localMin : Tree κ → List (Frame κ) → Option (Found κ)
  | .nil, _ => none
  | .node l n b r, path => if l.isNil then some ⟨path, l, n, b, r, 0⟩ else localMin l (⟨true, n, b, r⟩ :: path)

/-- another node takes over the place (children, parent and balance) of the node with address `id`:
lines 755-776 and 298-325 -/
def replace (id : Nat) (new : Nd κ) : Tree κ → Tree κ
  | .nil => .nil
  | .node l n b r => .node (replace id new l) (if n.id = id then new else n) b (replace id new r)

/-- the first three cases of `_avl_remove_worker` (at most one child), avl.c:643-750 -/
def removeSimple (path : List (Frame κ)) (l r : Tree κ) : Option (Tree κ) :=
  if l.isNil && r.isNil then postRemove .nil path
  else if l.isNil then postRemove r path
  else postRemove l path

/-- `_avl_remove_worker`, avl.c:643-777: the tree without the node `f` -/
def removeWorker (f : Found κ) : Option (Tree κ) :=
  if f.l.isNil || f.r.isNil then removeSimple f.path f.l f.r
  else
    (localMin f.r (⟨false, f.n, f.bal, f.l⟩ :: f.path)).bind fun m =>
      (removeSimple m.path m.l m.r).map (replace f.n.id m.n)

/-- the place of the node with an address in the tree (known to the code by the pointers of the
node) -/
def locateTree (id : Nat) : Tree κ → List (Frame κ) → Option (Found κ)
  | .nil, _ => none
  | .node l n b r, path =>
    if n.id = id then some ⟨path, l, n, b, r, 0⟩
    else
      match locateTree id l (⟨true, n, b, r⟩ :: path) with
      | some f => some f
      | none => locateTree id r (⟨false, n, b, l⟩ :: path)

/-- `list_remove`, list.h:155-159 -/
def listRemove (id : Nat) : List (Elem κ) → List (Elem κ)
  | [] => []
  | e :: es => if e.nd.id = id then es else e :: listRemove id es

/-- the field `follower` of a node is cleared -/
def setLeader (id : Nat) : List (Elem κ) → List (Elem κ)
  | [] => []
  | e :: es => if e.nd.id = id then { e with follower := false } :: es else e :: setLeader id es

/-- decrement of the 32 bit counter -/
def dec (n : Nat) : Nat := (n + 2 ^ 32 - 1) % 2 ^ 32

/-- `avl_remove`, avl.c:289-332, for the node with address `id`; a node that is not in the list is
outside of the model (`null`) -/
def remove (a : Avl κ) (id : Nat) : Res (Avl κ) :=
  match locateList id [] a.list with
  | none => .null
  | some p =>
    if p.cur.follower then
      .ok { a with list := listRemove id a.list, count := dec a.count }
    else
      match (if a.dups then p.after.head?.filter (·.follower) else none) with
      | some next =>
        .ok { a with root := replace id next.nd a.root,
                     list := listRemove id (setLeader next.nd.id a.list), count := dec a.count }
      | none =>
        match (locateTree id a.root []).bind removeWorker with
        | none => .null
        | some t => .ok { a with root := t, list := listRemove id a.list, count := dec a.count }

end Verif.Avl
