/-
Model of the set of locally attached networks, `src/olsrv2/olsrv2/olsrv2_lan.c`.

The AVL tree is a partial function from route keys (`os_routing_avl_cmp_route_key` only returns 0 for equal keys) to entries.
`olsrv2_routing_domain_changed` only requests a recalculation and is left out.
-/
namespace Verif.Olsr

/-- `RFC7181_METRIC_INFINITE`, include/oonf/librfc5444/rfc5444.h:66 -/
def METRIC_INFINITE : Nat := 0xffffff

/-- `struct olsrv2_lan_domaindata`, olsrv2_lan.h:60-69 -/
structure LanData where
  metric : Nat
  dist : Nat
  active : Bool
deriving DecidableEq, Repr

/-- `struct olsrv2_lan_entry`, olsrv2_lan.h:74-86; the four elements of `_domaindata` are indexed by `domain->index` -/
structure Lan where
  data : Fin 4 → LanData
  same : Bool

/-- `_lan_tree` -/
abbrev LanSet (α : Type) := α → Option Lan

/-- new entry (memory of `oonf_class_malloc` is zeroed), olsrv2_lan.c:122-127 -/
def lanNew : Lan := ⟨fun _ => ⟨METRIC_INFINITE, 0, false⟩, true⟩

/-- loop over the domains with `tmp_dist`, olsrv2_lan.c:138-152 -/
def sameLoop : Nat → List LanData → Bool
  | _, [] => true
  | tmp, d :: ds =>
    if d.active then
      if (if tmp = 0 then d.dist else tmp) ≠ d.dist then false
      else sameLoop (if tmp = 0 then d.dist else tmp) ds
    else sameLoop tmp ds

/-- overwrite the data of one domain -/
def Lan.put (e : Lan) (dom : Fin 4) (d : LanData) : Fin 4 → LanData := fun i => if i = dom then d else e.data i

/-- overwrite one entry of the tree -/
def LanSet.put {α : Type} [DecidableEq α] (s : LanSet α) (k : α) (e : Option Lan) : LanSet α := fun j => if j = k then e else s j

/-- the data in the order of the index -/
def dataList (d : Fin 4 → LanData) : List LanData := [d 0, d 1, d 2, d 3]

/-- second half of `olsrv2_lan_add`, olsrv2_lan.c:130-153 -/
def lanUpdate (e : Lan) (dom : Fin 4) (metric dist : Nat) : Lan :=
  ⟨e.put dom ⟨metric, dist, true⟩, sameLoop 0 (dataList (e.put dom ⟨metric, dist, true⟩))⟩

/-- `olsrv2_lan_add`, olsrv2_lan.c:105-155; `ok`: result of `oonf_class_malloc` -/
def lanAdd {α : Type} [DecidableEq α] (s : LanSet α) (dom : Fin 4) (k : α) (metric dist : Nat) (ok : Bool) : LanSet α :=
  match s k with
  | some e => s.put k (some (lanUpdate e dom metric dist))
  | none => if ok then s.put k (some (lanUpdate lanNew dom metric dist)) else s

/-- `olsrv2_lan_remove`, olsrv2_lan.c:162-184 -/
def lanRemove {α : Type} [DecidableEq α] (s : LanSet α) (dom : Fin 4) (k : α) : LanSet α :=
  match s k with
  | none => s
  | some e =>
    if (dataList (e.put dom { e.data dom with active := false })).any (·.active) then
      s.put k (some ⟨e.put dom { e.data dom with active := false }, e.same⟩)
    else s.put k none

/-- calls of the interface -/
inductive LanOp (α : Type)
  | add (dom : Fin 4) (k : α) (metric dist : Nat) (ok : Bool)
  | remove (dom : Fin 4) (k : α)

def lanStep {α : Type} [DecidableEq α] (s : LanSet α) : LanOp α → LanSet α
  | .add dom k metric dist ok => lanAdd s dom k metric dist ok
  | .remove dom k => lanRemove s dom k

/-- a history of calls, beginning with the empty tree of `olsrv2_lan_init`, olsrv2_lan.c:77-82 -/
def lanRun {α : Type} [DecidableEq α] (ops : List (LanOp α)) : LanSet α := ops.foldl lanStep (fun _ => none)

end Verif.Olsr
