import Verif.Routing.Model

/-
Model of the update of the kernel routes after a calculation (`src/olsrv2/olsrv2/olsrv2_routing.c`), for one domain.

The kernel has at most one route for each key; a request to set a route replaces it.  (Linux identifies a route also by
table and metric, and ignores the source prefix of IPv4 routes, os_routing_linux.c:459.)  A request has its effect when
its answer arrives, and only if the answer is not an error.  `os_routing_interrupt` is not modelled.
-/
namespace Verif.Routing
open Verif.Netaddr (Netaddr)

/-- `struct olsrv2_routing_domain`, olsrv2_routing.h:52-67 -/
structure DomainParams where
  useSrcIp : Bool
  protocol : Nat
  table : Nat
  distance : Nat
deriving DecidableEq, Repr

/-- `struct olsrv2_routing_filter`, olsrv2_routing.h:148-166: the filter gets parameters and the flag `set`, may change
the parameters, and returns its verdict -/
abbrev Filter := Key → Params → Bool → Bool × Params

/-- the loop over the filters, olsrv2_routing.c:1084-1089: the `continue` belongs to this loop -/
def runFilters (fs : List Filter) (k : Key) (set : Bool) (p : Params) : Params :=
  fs.foldl (fun p f => (f k p set).2) p

/-- one entry in `_process_dijkstra_result`, olsrv2_routing.c:1064-1089 -/
def finish (w : Env) (d : DomainParams) (fs : List Filter) (e : Entry) : Entry :=
  let p := { e.p with table := d.table, protocol := d.protocol, metric := d.distance }
  let p := if e.set && d.useSrcIp && decide (e.key.dst.type = AF_INET) then { p with srcIp := some (w.originator AF_INET) } else p
  let set := e.set && !lanBetter w e.key e.cost
  { e with set := set, p := runFilters fs e.key set p }

/-- the test for a change, olsrv2_routing.c:1091 -/
def changed (e : Entry) : Bool := !(e.set && decide (e.old = some e.p))

/-- the address family of the gateway is `AF_UNSPEC` -/
def direct (p : Params) : Bool :=
  match p.gw with
  | none => true
  | some a => decide (a.type = 0)

/-- `_add_route_to_kernel_queue`, olsrv2_routing.c:1015-1045 -/
def addToQueue (q : List Entry) (e : Entry) : List Entry :=
  if e.set then if direct e.p then e :: q else q ++ [e]
  else if direct e.p then q ++ [e] else e :: q

/-- `_process_dijkstra_result`, olsrv2_routing.c:1053-1099: the entries and the kernel queue -/
def processResult (w : Env) (d : DomainParams) (fs : List Filter) (tbl : List Entry) : List Entry × List Entry :=
  let tbl := tbl.map (finish w d fs)
  (tbl, (tbl.filter changed).foldl addToQueue [])

/-- a request to the kernel -/
structure Request where
  key : Key
  set : Bool
  p : Params
deriving DecidableEq, Repr

/-- the tests of the address families in `_routing_set`, os_routing_linux.c:383-402, for `family` equal to the family of
the destination: `os_routing_set` succeeds -/
def sendable (r : Request) : Bool :=
  let fam := fun a : Option Netaddr => match a with
    | none => true
    | some a => decide (a.type = 0) || decide (a.type = r.key.dst.type)
  fam r.p.gw && (!r.set || fam r.p.srcIp)

/-- change the entry of a key -/
def setEntry (k : Key) (f : Entry → Entry) (tbl : List Entry) : List Entry := tbl.map fun e => if e.key = k then f e else e

/-- one entry in `_process_kernel_queue`, olsrv2_routing.c:1109-1131: the entries and the requests sent -/
def sendOne (st : List Entry × List Request) (e : Entry) : List Entry × List Request :=
  if e.inProcessing then st
  else
    let r : Request := ⟨e.key, e.set, e.p⟩
    (setEntry e.key (fun e => { e with inProcessing := true }) st.1, if sendable r then st.2 ++ [r] else st.2)

/-- `_process_kernel_queue`, olsrv2_routing.c:1105-1133 -/
def processQueue (tbl : List Entry) (q : List Entry) : List Entry × List Request := q.foldl sendOne (tbl, [])

/-- routing entries, kernel routes, and requests without answer -/
structure Sys where
  tbl : List Entry
  kernel : Key → Option Params
  pending : List Request

/-- `olsrv2_routing_force_update` for a changed domain, olsrv2_routing.c:340-372 -/
def run (w : Env) (rounds : Nat) (d : DomainParams) (fs : List Filter) (s : Sys) : Sys :=
  let (tbl, q) := processResult w d fs (calculate w rounds s.tbl)
  let (tbl, reqs) := processQueue tbl q
  ⟨tbl, s.kernel, s.pending ++ reqs⟩

def ESRCH : Int := 3
def EEXIST : Int := 17

/-- `_cb_route_finished`, olsrv2_routing.c:1154-1197 -/
def finished (tbl : List Entry) (k : Key) (error : Int) : List Entry :=
  let tbl := setEntry k (fun e => { e with inProcessing := false }) tbl
  match tbl.find? (fun e => e.key = k) with
  | none => tbl
  | some e =>
    if e.set = false ∧ error = ESRCH then tbl.filter fun e => e.key ≠ k
    else if error ≠ 0 then
      if error = -1 then tbl
      else if error = EEXIST ∧ e.set = true then tbl
      else if e.set then tbl.filter fun e => e.key ≠ k
      else setEntry k (fun e => { e with set := true }) tbl
    else if e.set then tbl
    else tbl.filter fun e => e.key ≠ k

/-- the kernel carries out a request -/
def Request.exec (r : Request) (kernel : Key → Option Params) : Key → Option Params :=
  fun k => if k = r.key then (if r.set then some r.p else none) else kernel k

/-- the answer to a request arrives -/
def answer (s : Sys) (r : Request) (error : Int) : Sys :=
  ⟨finished s.tbl r.key error, if error = 0 then r.exec s.kernel else s.kernel, s.pending.erase r⟩

end Verif.Routing
