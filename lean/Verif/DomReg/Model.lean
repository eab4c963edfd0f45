/-!
Model of the algorithms of NHDP domains (nhdp/nhdp/nhdp_domain.c): registration of metrics and MPR algorithms, their choice by the
configuration of a domain, their activation, and the recalculation of MPR sets.

Simplifications: names of algorithms are numbers in the order of the tree (which does not distinguish upper and lower case), so an
algorithm is identified with its name; names fit into the buffers of a domain. Domains are numbers (places in the list); for MPR
algorithms place 0 stands for the flooding domain, which is not in the list of domains.
-/

namespace Verif.DomReg

/-- The text in `metric_name` or `mpr_name`: empty (as allocated), `-`, `*`, the name of the default algorithm (`_no_metric.name`,
`_everyone_mprs.name`), or another name. -/
inductive Name
  | empty | none | any | dflt | alg (h : Nat)
deriving Repr, DecidableEq

/-- What a domain knows of its algorithm: name, pointer (nothing for the default one), willingness. -/
structure Dom where
  name : Name
  use : Option Nat
  will : Nat
deriving Repr, DecidableEq

/-- Calls of the callbacks of an algorithm. -/
inductive Ev
  | enable (h : Nat)
  | disable (h : Nat)
deriving Repr, DecidableEq

/-- The tree of algorithms (in order), their reference counters (`none`: the default one), the domains, and the calls so far. -/
structure R where
  tree : List Nat
  ref : Option Nat → Int
  doms : List Dom
  log : List Ev

def bump (f : Option Nat → Int) (h : Option Nat) (d : Int) : Option Nat → Int := fun x => if x = h then f x + d else f x

/-- `nhdp_domain_init` (nhdp_domain.c:132-152): for MPR algorithms the flooding domain exists from the start, with an empty name. -/
def R.init (flooding : Bool) : R :=
  if flooding then ⟨[], fun x => if x = none then 1 else 0, [⟨.empty, none, 0⟩], []⟩ else ⟨[], fun _ => 0, [], []⟩

/-- `_remove_metric` / `_remove_mpr` (nhdp_domain.c:1221-1229, 1286-1294). The default algorithm has no callbacks. -/
def removeAlg (r : R) (i : Nat) (d : Dom) : R :=
  let ref := bump r.ref d.use (-1)
  { r with
    log := match d.use with
      | some h => if ref (some h) = 0 then r.log ++ [.disable h] else r.log
      | none => r.log
    ref := bump ref none 1
    doms := r.doms.set i { d with name := .none, use := none } }

/-- The name that is looked for: a wildcard is the first algorithm, if there is one (nhdp_domain.c:1192-1194, 1257-1259). -/
def resolve (tree : List Nat) : Name → Name
  | .any => match tree with
    | [] => .any
    | h :: _ => .alg h
  | n => n

/-- The algorithm with this name, nothing (the default one) if there is none (nhdp_domain.c:1197-1200, 1262-1265). -/
def lookup (tree : List Nat) : Name → Option Nat
  | .alg h => if h ∈ tree then some h else none
  | _ => none

/-- `mpr->name`. -/
def nameOf : Option Nat → Name
  | none => .dflt
  | some h => .alg h

/-- The second half of `_apply_metric` / `_apply_mpr` (nhdp_domain.c:1191-1215, 1256-1280). -/
def link (r : R) (i : Nat) (d : Dom) (n : Name) : R :=
  let h := lookup r.tree (resolve r.tree n)
  let ref := bump r.ref d.use (-1)
  { r with
    log := match h with
      | some h => if ref (some h) = 0 then r.log ++ [.enable h] else r.log
      | none => r.log
    ref := bump ref h 1
    doms := r.doms.set i { d with name := nameOf h, use := h } }

/-- `_apply_metric` / `_apply_mpr` (nhdp_domain.c:1178-1216, 1241-1281); a domain that does not exist is left alone. -/
def apply (r : R) (i : Nat) (n : Name) (w : Nat) : R :=
  match r.doms[i]? with
  | none => r
  | some d =>
    let d := { d with will := w }
    let r := { r with doms := r.doms.set i d }
    if d.name = n then r
    else if d.use ≠ none then link (removeAlg r i d) i { d with name := .none, use := none } n
    else link r i d n

/-- `avl_insert`: the algorithm is in the tree once, in order. -/
def insert (h : Nat) : List Nat → List Nat
  | [] => [h]
  | x :: xs => if h < x then h :: x :: xs else x :: insert h xs

/-- `nhdp_domain_metric_add` (nhdp_domain.c:196-230): the tree only; nothing if the name is there already. -/
def addMetric (r : R) (h : Nat) : R := if h ∈ r.tree then r else { r with tree := insert h r.tree }

/-- The loop of `nhdp_domain_mpr_add` over the domains (nhdp_domain.c:266-273). -/
def reapply (r : R) : List Nat → R
  | [] => r
  | i :: is =>
    match r.doms[i]? with
    | none => reapply r is
    | some d => reapply (if d.use = none then apply r i d.name d.will else r) is

/-- `nhdp_domain_mpr_add` (nhdp_domain.c:256-275): the domains in the order of the list, then the flooding domain. -/
def addMpr (r : R) (h : Nat) : R :=
  if h ∈ r.tree then r
  else reapply { r with tree := insert h r.tree } ((List.range r.doms.length).drop 1 ++ [0])

/-- The first domain with an algorithm, from a place on. -/
def firstUser (h : Nat) (doms : List Dom) (start : Nat) : Option (Nat × Dom) :=
  ((doms.zipIdx.drop start).find? (·.1.use = some h)).map fun x => (x.2, x.1)

/-- `nhdp_domain_metric_remove` / `nhdp_domain_mpr_remove` (nhdp_domain.c:236-247, 281-292): the first domain of the list (which does
not have the flooding domain) is reset, then the algorithm leaves the tree. -/
def remove (flooding : Bool) (r : R) (h : Nat) : R :=
  let r := match firstUser h r.doms (if flooding then 1 else 0) with
    | some (i, d) => removeAlg r i d
    | none => r
  { r with tree := r.tree.filter (· ≠ h) }

/-- `nhdp_domain_add` for a new domain (nhdp_domain.c:1091-1132). -/
def newDom (r : R) : R := { r with doms := r.doms ++ [⟨.empty, none, 0⟩], ref := bump r.ref none 1 }

/-- What the configuration and plugins do. -/
inductive Op
  | add (h : Nat)
  | remove (h : Nat)
  | domain
  | configure (i : Nat) (n : Name) (w : Nat)
deriving Repr, DecidableEq

def step (flooding : Bool) (r : R) : Op → R
  | .add h => if flooding then addMpr r h else addMetric r h
  | .remove h => remove flooding r h
  | .domain => newDom r
  | .configure i n w => apply r i n w

def run (flooding : Bool) (r : R) : List Op → R
  | [] => r
  | op :: ops => run flooding (step flooding r op) ops

/-! ## Recalculation of MPR sets -/

/-- A domain: `_mpr_outdated`, and the neighbors (links for flooding) that are MPRs. -/
structure Mpr where
  outdated : Bool
  set : List Bool
deriving Repr, DecidableEq

/-- One domain of `nhdp_domain_recalculate_mpr` with `_recalculate_routing_mpr_set` or `_recalculate_flooding_mpr_set`
(nhdp_domain.c:541-562, 955-1003): the domain and whether the listeners are called; `alg` is the callback of the algorithm. -/
def recalc (alg : List Bool → List Bool) (d : Mpr) : Mpr × Bool :=
  if d.outdated then
    if alg d.set ≠ d.set then (⟨false, alg (alg d.set)⟩, true)
    else (⟨false, alg d.set⟩, false)
  else (d, false)

/-- `nhdp_domain_recalculate_mpr` (nhdp_domain.c:541-562): all domains, the flooding domain at the end; result: the domains, and those for
which the listeners are called, in order. -/
def recalcAll (alg : Nat → List Bool → List Bool) (i : Nat) : List Mpr → List Mpr × List Nat
  | [] => ([], [])
  | d :: ds =>
    let (d, ev) := recalc (alg i) d
    let (ds, evs) := recalcAll alg (i + 1) ds
    (d :: ds, if ev then i :: evs else evs)

/-- `nhdp_domain_delayed_mpr_recalculation` (nhdp_domain.c:570-582): one domain, or all. -/
def delay (which : Option Nat) (ds : List Mpr) : List Mpr :=
  match which with
  | none => ds.map fun d => { d with outdated := true }
  | some i => ds.modify i fun d => { d with outdated := true }

end Verif.DomReg
