import Verif.Import.SectionsProps
import Verif.Acl.Props
import Verif.Olsr.Lan
/-
Model of `src/olsrv2/lan_import/lan_import.c`: routes of the kernel become locally attached networks.

Simplifications: one flag per event says whether memory is available; texts and ACLs are those of the areas Netaddr and Acl;
the interface name of the configuration is the one after `cfg_get_phy_if`; the wildcard query at the end of
`_cb_cfg_changed` leads to further events `route`.
-/
namespace Verif.Import
open Verif.Netaddr (Netaddr isInSubnet AF_INET AF_INET6)
open Verif.Acl (Acl checkAccept)
open Verif.Olsr (LanSet lanAdd lanRemove)

/-- `struct os_route_key`, os_routing.h:95-102 -/
structure Key where
  dst : Netaddr
  src : Netaddr
deriving DecidableEq, Repr

/-- the fields of `struct os_route_parameter` that are used (os_routing.h:107-141) -/
structure Route where
  key : Key
  unicast : Bool := true
  table : Int := 254
  protocol : Int := 3
  metric : Int := 0
  ifIndex : Nat := 0
deriving DecidableEq, Repr

/-- a domain (`struct nhdp_domain`) with its routing parameters (`olsrv2_routing_get_parameters`) -/
structure Dom where
  index : Fin 4
  ext : Nat
  protocol : Int := 100
  table : Int := 254
deriving DecidableEq, Repr

/-- what an event finds outside of the plugin -/
structure World where
  /-- `nhdp_domain_get_list` -/
  doms : List Dom
  /-- result of `if_indextoname` -/
  ifname : Nat → Option Txt := fun _ => none
  /-- content of the uninitialised array `ifname`, lan_import.c:338 -/
  junk : Txt := []
  /-- `flags.mesh` of the interface with an index, `false` for unknown ones -/
  mesh : Nat → Bool := fun _ => false
  /-- memory is available -/
  mem : Bool := true

/-- configuration, `_import_entries`, lan_import.c:146-166 -/
structure Cfg where
  domain : Int := -1
  filter : Acl := { acceptDefault := true }
  prefixLen : Int := -1
  ifname : Txt := []
  table : Int := -1
  protocol : Int := -1
  distance : Int := -1
  metric : Nat := 1
  aging : Nat := 0
deriving DecidableEq, Repr

/-- `struct _imported_lan`, lan_import.c:110-120; `timer`: `_aging_timer` is running -/
structure ImpLan where
  key : Key
  timer : Bool
deriving DecidableEq, Repr

/-- `struct _import_entry` -/
structure Imp where
  cfg : Cfg := {}
  lans : List ImpLan := []
deriving DecidableEq, Repr

/-- state of the plugin and the set of locally attached networks; `orphans`: running timers inside of freed objects, or of
objects that point to a freed `_import_entry` -/
structure State where
  imports : List (Sec Imp)
  lan : LanSet Key
  orphans : Nat

/-- `RFC7181_METRIC_MAX`, rfc5444.h:60 -/
def METRIC_MAX : Nat := 0xffff00

/-- the six prefixes, netaddr.c:82-111 -/
def NEVER : List Netaddr :=
  [⟨[224, 0, 0, 0] ++ List.replicate 12 0, AF_INET, 4⟩, ⟨[169, 254, 0, 0] ++ List.replicate 12 0, AF_INET, 16⟩,
   ⟨[127, 0, 0, 1] ++ List.replicate 12 0, AF_INET, 8⟩, ⟨[0xff] ++ List.replicate 15 0, AF_INET6, 8⟩,
   ⟨[0xfe, 0x80] ++ List.replicate 14 0, AF_INET6, 10⟩, ⟨List.replicate 15 0 ++ [1], AF_INET6, 128⟩]

/-- lan_import.c:346-358 -/
def never (dst : Netaddr) : Bool := NEVER.any fun n => isInSubnet n dst == some true

/-- `_is_allowed_to_import`, lan_import.c:307-327 -/
def allowed (w : World) (r : Route) : Bool :=
  if w.doms.any (fun d => d.protocol == r.protocol && d.table == r.table) then false
  else if w.mesh r.ifIndex then false
  else true

/-- the array `ifname`, lan_import.c:367-370: not written if the index is zero or unknown -/
def nameOf (w : World) (r : Route) : Txt :=
  if r.ifIndex ≠ 0 then (w.ifname r.ifIndex).getD w.junk else w.junk

/-- the checks of one import section, lan_import.c:375-415 -/
def selects (w : World) (r : Route) (c : Cfg) : Bool :=
  if c.prefixLen ≠ -1 ∧ c.prefixLen ≠ r.key.dst.prefixLen.toNat then false
  else if checkAccept c.filter r.key.dst ≠ some true then false
  else if c.table ≠ -1 ∧ c.table ≠ r.table then false
  else if c.protocol ≠ -1 ∧ c.protocol ≠ r.protocol then false
  else if c.distance ≠ -1 ∧ c.distance ≠ r.metric then false
  else if c.ifname ≠ [] ∧ (r.ifIndex = 0 ∨ c.ifname ≠ nameOf w r) then false
  else true

/-- lan_import.c:421-427 -/
def clamp (metric : Int) : Nat := if metric < 1 then 1 else if metric > 255 then 255 else metric.toNat

/-- condition of the loops over domains, lan_import.c:506 and 521 -/
def inDomain (c : Cfg) (d : Dom) : Bool := c.domain == -1 || c.domain == (d.ext : Int)

/-- the domains of an import section -/
def domsOf (w : World) (c : Cfg) : List Dom := w.doms.filter (inDomain c)

def hasLan (i : Imp) (k : Key) : Bool := i.lans.any (·.key == k)

/-- `oonf_timer_set` of the entry with key `k`, lan_import.c:431-433 -/
def startTimer (i : Imp) (k : Key) : Imp :=
  if i.cfg.aging ≠ 0 then { i with lans := i.lans.map fun l => if l.key = k then { l with timer := true } else l } else i

/-- `_add_lan`, lan_import.c:485-514, and the timer, 431-433; the arguments are the section and the attached networks -/
def addLan (w : World) (r : Route) (i : Imp) (s : LanSet Key) : Imp × LanSet Key :=
  if hasLan i r.key then (startTimer i r.key, s)
  else if w.mem then
    (startTimer { i with lans := i.lans ++ [⟨r.key, false⟩] } r.key,
      (domsOf w i.cfg).foldl (fun s d => lanAdd s d.index r.key i.cfg.metric (clamp r.metric) w.mem) s)
  else (i, s)

/-- number of running timers -/
def running (l : List ImpLan) : Nat := (l.filter (·.timer)).length

/-- `_destroy_lan` if the key is found, lan_import.c:437-440 and 516-528; the timer is not stopped, the last component counts
the running timers of the freed objects -/
def destroyLan (w : World) (r : Route) (i : Imp) (s : LanSet Key) : Imp × LanSet Key × Nat :=
  if hasLan i r.key then
    ({ i with lans := i.lans.filter fun l => ¬ l.key = r.key }, (domsOf w i.cfg).foldl (fun s d => lanRemove s d.index r.key) s,
      running (i.lans.filter fun l => l.key = r.key))
  else (i, s, 0)

/-- one section in the loop of `_cb_rt_event`, lan_import.c:372-442 -/
def oneImport (w : World) (r : Route) (set : Bool) (e : Sec Imp) (s : LanSet Key) : Sec Imp × LanSet Key × Nat :=
  if selects w r e.val.cfg then
    if set then ({ e with val := (addLan w r e.val s).1 }, (addLan w r e.val s).2, 0)
    else ({ e with val := (destroyLan w r e.val s).1 }, (destroyLan w r e.val s).2)
  else (e, s, 0)

/-- the loop of `_cb_rt_event` over all sections -/
def allImports (w : World) (r : Route) (set : Bool) : List (Sec Imp) → LanSet Key → List (Sec Imp) × LanSet Key × Nat
  | [], s => ([], s, 0)
  | e :: es, s =>
    ((oneImport w r set e s).1 :: (allImports w r set es (oneImport w r set e s).2.1).1,
      (allImports w r set es (oneImport w r set e s).2.1).2.1,
      (oneImport w r set e s).2.2 + (allImports w r set es (oneImport w r set e s).2.1).2.2)

/-- `_cb_rt_event`, lan_import.c:334-443 -/
def routeEvent (w : World) (r : Route) (set : Bool) (st : State) : State :=
  if never r.key.dst then st
  else if !r.unicast then st
  else if !allowed w r then st
  else
    ⟨(allImports w r set st.imports st.lan).1, (allImports w r set st.imports st.lan).2.1,
      st.orphans + (allImports w r set st.imports st.lan).2.2⟩

/-- one step of aging, lan_import.c:543-549 -/
def age (m : Nat) : Nat := if m ≥ METRIC_MAX / 2 then METRIC_MAX else m * 2

/-- the loop of `_cb_metric_aging`, lan_import.c:540-551: the data of all domains and whether the timer is stopped -/
def ageLoop : List Dom → Olsr.Lan → Olsr.Lan × Bool
  | [], e => (e, false)
  | d :: ds, e =>
    ((ageLoop ds ⟨e.put d.index { e.data d.index with metric := age (e.data d.index).metric }, e.same⟩).1,
      decide ((e.data d.index).metric ≥ METRIC_MAX / 2) ||
      (ageLoop ds ⟨e.put d.index { e.data d.index with metric := age (e.data d.index).metric }, e.same⟩).2)

/-- stop the timer of a key -/
def stopTimer (k : Key) (i : Imp) : Imp := { i with lans := i.lans.map fun l => if l.key = k then { l with timer := false } else l }

/-- the timer of this key is running -/
def timerOf (i : Imp) (k : Key) : Bool := i.lans.any fun l => l.key == k && l.timer

/-- `_cb_metric_aging`, lan_import.c:530-553, for an entry of a section of the tree whose timer is running -/
def fire (w : World) (name : Txt) (k : Key) (st : State) : State :=
  match find st.imports name with
  | none => st
  | some e =>
    if timerOf e.val k then
      match st.lan k with
      | none => st
      | some l =>
        { st with lan := st.lan.put k (some (ageLoop (domsOf w e.val.cfg) l).1), imports := if (ageLoop (domsOf w e.val.cfg) l).2 then change st.imports name (stopTimer k) else st.imports }
    else st

/-- events; `orphan`: a running timer of a freed object elapses -/
inductive Ev
  | route (w : World) (r : Route) (set : Bool)
  | conf (name : Txt) (post : Option Cfg)
  | fire (w : World) (name : Txt) (k : Key)
  | orphan

/-- running timers of a section that is freed by `_destroy_import`, lan_import.c:478-483 -/
def abandoned (l : List (Sec Imp)) (name : Txt) : Nat :=
  match find l name with
  | some e => running e.val.lans
  | none => 0

/-- a step; `none`: undefined behaviour -/
def step (st : State) : Ev → Option State
  | .route w r set => some (routeEvent w r set st)
  | .conf name (some c) =>
    match configure 16 {} st.imports name (some fun i => { i with cfg := c }) with
    | some l => some { st with imports := l }
    | none => none
  | .conf name none =>
    match configure 16 {} st.imports name none with
    | some l => some { st with imports := l, orphans := st.orphans + abandoned st.imports name }
    | none => none
  | .fire w name k => some (fire w name k st)
  | .orphan => if st.orphans = 0 then some st else none

/-- a history, oldest event first -/
def run : State → List Ev → Option State
  | st, [] => some st
  | st, e :: es =>
    match step st e with
    | some st' => run st' es
    | none => none

/-- the state after `_init`, lan_import.c:246-260 -/
def start : State := ⟨[], fun _ => none, 0⟩

end Verif.Import
