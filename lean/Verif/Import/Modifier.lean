import Verif.Import.LanProps
/-
Model of `src/olsrv2/route_modifier/route_modifier.c`: tables, protocols and metrics of calculated routes are overwritten.
The sections are those of `Verif.Import.Sections` with names of 16 bytes.
-/
namespace Verif.Import
open Verif.Netaddr (Netaddr)
open Verif.Acl (Acl checkAccept)

/-- configuration, `_modifier_entries`, route_modifier.c:105-119 -/
structure Mod where
  domain : Int := 0
  filter : Acl := { rejectFirst := true }
  prefixLen : Int := -1
  table : Int := 0
  protocol : Int := 0
  distance : Int := 0
deriving DecidableEq, Repr

/-- the fields of `struct os_route_parameter` that the plugin reads and writes -/
structure Param where
  dst : Netaddr
  table : Int
  protocol : Int
  metric : Int
deriving DecidableEq, Repr

/-- the checks, route_modifier.c:204-217 -/
def fits (m : Mod) (index : Fin 4) (p : Param) : Bool :=
  if (index.val : Int) ≠ m.domain then false
  else if m.prefixLen ≠ -1 ∧ m.prefixLen ≠ p.dst.prefixLen.toNat then false
  else if checkAccept m.filter p.dst ≠ some true then false
  else true

/-- the changes, route_modifier.c:219-234 -/
def apply (m : Mod) (p : Param) : Param :=
  { p with table := if m.table ≠ 0 then m.table else p.table, protocol := if m.protocol ≠ 0 then m.protocol else p.protocol, metric := if m.distance ≠ 0 then m.distance else p.metric }

/-- `_cb_rt_filter`, route_modifier.c:196-238; the result is always `true` -/
def rtFilter : List (Sec Mod) → Fin 4 → Param → Param
  | [], _, p => p
  | e :: es, index, p => if fits e.val index p then apply e.val p else rtFilter es index p

end Verif.Import
