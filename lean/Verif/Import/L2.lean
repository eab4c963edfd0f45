import Verif.Import.LanProps
/-
Model of `src/olsrv2/olsrv2_l2import/olsrv2_l2import.c`: addresses of layer-2 neighbors become locally attached networks.
The sections are those of `Verif.Import.Sections` with names of 24 bytes; the plugin is called for every address that is
added to or removed from a layer-2 neighbor (C73 to C75).  Allocations succeed.
-/
namespace Verif.Import
open Verif.Netaddr (Netaddr AF_INET AF_INET6)
open Verif.Olsr (LanSet lanAdd lanRemove)

/-- configuration, olsrv2_l2import.c:98-106 -/
structure L2Cfg where
  domain : Int := -1
  metric : Int := -1
  dist : Nat := 2
deriving DecidableEq, Repr

/-- `struct oonf_layer2_neighbor_address`: address, name of the origin, and the metric of the neighbor in a domain
(`nhdp_domain_get_metric`, `none`: not available, the variable keeps its value 1) -/
structure L2Addr where
  key : Key
  origin : Txt
  metric : Fin 4 → Option Nat := fun _ => none

/-- state: `_l2export_tree`, the addresses of all layer-2 neighbors and the attached networks -/
structure L2State where
  imports : List (Sec L2Cfg)
  addrs : List L2Addr
  lan : LanSet Key

/-- `_is_matching_origin`, olsrv2_l2import.c:233-247 -/
def matchOrigin (origin pattern : Txt) : Bool :=
  if origin = pattern then true
  else if pattern = [] ∨ pattern.getLast? ≠ some 42 then false
  else origin.take (pattern.length - 1) == pattern.take (pattern.length - 1)

/-- `metric`, olsrv2_l2import.c:288-294 and 300-306 -/
def l2Metric (a : L2Addr) (c : L2Cfg) (d : Dom) : Nat := if c.metric < 1 then (a.metric d.index).getD 1 else c.metric.toNat

/-- the domains of a section; `none`: the result of `nhdp_domain_get_by_ext` (nhdp_domain.c:332-341) is a null pointer and is
used, olsrv2_l2import.c:260-261 and 287-296 -/
def l2Doms (doms : List Dom) (c : L2Cfg) : Option (List Dom) :=
  if c.domain ≥ 0 then
    match doms.find? (fun d => (d.ext : Int) == c.domain) with
    | some d => some [d]
    | none => none
  else some doms

/-- one section in `_cb_l2neigh_ip_added`, olsrv2_l2import.c:283-311 -/
def l2AddOne (doms : List Dom) (a : L2Addr) (e : Sec L2Cfg) (s : LanSet Key) : Option (LanSet Key) :=
  if matchOrigin a.origin e.name then
    match l2Doms doms e.val with
    | some ds => some (ds.foldl (fun s d => lanAdd s d.index a.key (l2Metric a e.val d) e.val.dist true) s)
    | none => none
  else some s

/-- `_cb_l2neigh_ip_added`, olsrv2_l2import.c:272-313 -/
def l2Add (doms : List Dom) (a : L2Addr) : List (Sec L2Cfg) → LanSet Key → Option (LanSet Key)
  | [], s => some s
  | e :: es, s =>
    match l2AddOne doms a e s with
    | some s' => l2Add doms a es s'
    | none => none

/-- one section in `_remove_l2neighip_lans`; unlike `olsrv2_lan_add` the function `olsrv2_lan_remove` uses the domain only if
the network exists (olsrv2_lan.c:167-172) -/
def l2RemoveOne (doms : List Dom) (a : L2Addr) (e : Sec L2Cfg) (s : LanSet Key) : Option (LanSet Key) :=
  if matchOrigin a.origin e.name then
    match l2Doms doms e.val with
    | some ds => some (ds.foldl (fun s d => lanRemove s d.index a.key) s)
    | none => match s a.key with
      | none => some s
      | some _ => none
  else some s

/-- `_remove_l2neighip_lans`, olsrv2_l2import.c:249-270 -/
def l2Remove (doms : List Dom) (a : L2Addr) : List (Sec L2Cfg) → LanSet Key → Option (LanSet Key)
  | [], s => some s
  | e :: es, s =>
    match l2RemoveOne doms a e s with
    | some s' => l2Remove doms a es s'
    | none => none

/-- loop of `_destroy_l2export`, olsrv2_l2import.c:219-227, with the remaining sections -/
def l2Destroy (doms : List Dom) (name : Txt) (rest : List (Sec L2Cfg)) : List L2Addr → LanSet Key → Option (LanSet Key)
  | [], s => some s
  | a :: as, s =>
    if a.origin = name then
      match l2Remove doms a rest s with
      | some s' => l2Destroy doms name rest as s'
      | none => none
    else l2Destroy doms name rest as s

/-- events of the plugin -/
inductive L2Ev
  | added (doms : List Dom) (a : L2Addr)
  | removed (doms : List Dom) (a : L2Addr)
  | conf (doms : List Dom) (name : Txt) (post : Option L2Cfg)

/-- name of the object that `_cb_cfg_changed` finds or creates -/
def l2Name (l : List (Sec L2Cfg)) (name : Txt) : Txt :=
  match find l name with
  | some e => e.name
  | none => cut 24 name

/-- a step; `none`: undefined behaviour.  `removed`: the callback runs before the address is taken from the neighbor, one
address of the list with the same key and origin disappears. -/
def l2Step (st : L2State) : L2Ev → Option L2State
  | .added doms a => (l2Add doms a st.imports st.lan).map fun s => { st with addrs := a :: st.addrs, lan := s }
  | .removed doms a =>
    (l2Remove doms a st.imports st.lan).map fun s =>
      { st with addrs := st.addrs.eraseP (fun x => x.key == a.key && x.origin == a.origin), lan := s }
  | .conf _ name (some c) => (configure 24 {} st.imports name (some fun _ => c)).map fun l => { st with imports := l }
  | .conf doms name none =>
    match configure 24 {} st.imports name none with
    | none => none
    | some l => (l2Destroy doms (l2Name st.imports name) l st.addrs st.lan).map fun s => { st with imports := l, lan := s }

end Verif.Import
