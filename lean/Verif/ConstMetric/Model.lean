/-! # Configured link costs

Model of `src/nhdp/constant_metric/constant_metric.c`. Interface names (as `strcasecmp` distinguishes them, at most 15 characters) and addresses are
numbers; `none` instead of an address is AF_UNSPEC, `none` instead of a name is OS_INTERFACE_ANY. -/

namespace Verif.ConstMetric

/-- key of `struct _linkcost`, constant_metric.c:76-88, compared by `_avlcmp_linkcost`, 290-302 -/
structure Key where
  ifname : Option Nat
  neigh : Option Nat
  deriving DecidableEq

/-- the tree of configured costs; a key occurs once -/
abbrev Tree := List (Key × Nat)

/-- `_get_linkcost`, constant_metric.c:225-233 -/
def get (t : Tree) (k : Key) : Option Nat := (t.find? fun x => x.1 = k).map (·.2)

/-- `avl_insert`, constant_metric.c:344: refused if the key is there (the object is lost then) -/
def insert (t : Tree) (k : Key) (c : Nat) : Tree := if (get t k).isSome then t else t ++ [(k, c)]

/-- the loop over the values of an interface, constant_metric.c:333-350: `none` is a value that cannot be converted -/
def insertAll (name : Option Nat) : Tree → List (Option (Option Nat × Nat)) → Tree
  | t, [] => t
  | t, none :: vs => insertAll name t vs
  | t, some (n, c) :: vs => insertAll name (insert t ⟨name, n⟩ c) vs

/-- the tree after `_cb_cfg_changed`, constant_metric.c:307-350, for the section `name` -/
def configure (t : Tree) (name : Option Nat) (vs : List (Option (Option Nat × Nat))) : Tree :=
  insertAll name (t.filter fun x => x.1.ifname ≠ name) vs

/-- a link: its interface, the originator of its neighbor, and the originator of the neighbor of its dualstack partner if there is one; its metric -/
structure Lnk where
  ifname : Nat
  orig : Option Nat
  partner : Option (Option Nat) := none
  metric : Nat
  deriving DecidableEq

/-- the search for the partner, constant_metric.c:259-261 and 265-267 -/
def getPartner (t : Tree) (name : Option Nat) (l : Lnk) : Option Nat :=
  match l.partner with
  | none => none
  | some p => get t ⟨name, p⟩

/-- RFC7181_METRIC_INFINITE, rfc5444.h:66 -/
def INFINITE : Nat := 0xffffff

/-- the body of the loop of `_cb_set_linkcost`, constant_metric.c:247-281: the new metric. All domains use this metric, without postprocessors. -/
def cost (t : Tree) (l : Lnk) : Nat :=
  if l.orig = none then l.metric
  else match get t ⟨some l.ifname, l.orig⟩ with
  | some c => c
  | none => match getPartner t (some l.ifname) l with
    | some c => c
    | none => match get t ⟨none, l.orig⟩ with
      | some c => c
      | none => match getPartner t none l with
        | some c => c
        | none => match get t ⟨some l.ifname, none⟩ with
          | some c => c
          | none => match get t ⟨none, none⟩ with
            | some c => c
            | none => INFINITE

/-- the plugin: the tree, is the timer set, and the links -/
structure World where
  tree : Tree := []
  timer : Bool := false
  links : List Lnk := []
  deriving DecidableEq

/-- what happens: a link is added (constant_metric.c:212-215) or removed, a section changes, the timer fires, and NHDP learns another originator of a
link or of its partner -/
inductive Op
  | link (l : Lnk)
  | drop (i : Nat)
  | conf (name : Option Nat) (vs : List (Option (Option Nat × Nat)))
  | fire
  | learn (i : Nat) (orig : Option Nat) (partner : Option (Option Nat))

def step (w : World) : Op → World
  | .link l => { w with links := w.links ++ [l], timer := true }
  | .drop i => { w with links := w.links.eraseIdx i }
  | .conf name vs => { w with tree := configure w.tree name vs, timer := true }
  | .fire => if w.timer then { w with links := w.links.map fun l => { l with metric := cost w.tree l }, timer := false } else w
  | .learn i o p => { w with links := w.links.modify i fun l => { l with orig := o, partner := p } }

def run (w : World) (ops : List Op) : World := ops.foldl step w

end Verif.ConstMetric
