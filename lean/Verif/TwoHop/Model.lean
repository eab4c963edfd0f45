import Verif.Hello.MetricModel
import Verif.Hello.LinkModel
import Verif.Routing.Model

/-
Model of the two-hop addresses of a link: `_cb_addr_pass2_block` and `_cb_msg_pass2_end` of `src/nhdp/nhdp/nhdp_reader.c`, the functions for
`struct nhdp_l2hop` of `src/nhdp/nhdp/nhdp_db.c`, `nhdp_domain.c` and `include/oonf/nhdp/nhdp/nhdp_db.h`, and what the routing makes of them
(`src/olsrv2/olsrv2/olsrv2_routing.c`).  The domains are the same all the time.  Failing allocations are not modelled.
-/
namespace Verif.TwoHop
open Verif.Codec (MetricField metricInfinite)
open Verif.Hello (Pair hopTlv receiveHop hopSeen setT)
open Verif.Nhdp (Map Status)
open Verif.Netaddr (Netaddr)

/-- `struct nhdp_domain` in the order of `_domain_list`: extension of TLVs, `metric->no_default_handling`, and the metrics
`incoming_2hop_start` and `outgoing_2hop_start`; the index of a domain is its position -/
structure Dom where
  ext : Nat
  special : Bool
  start : Pair

/-- `struct nhdp_l2hop`, nhdp_db.h:274-295: `same_interface`, `_clock` of `_vtime` (0: not running), metrics of the domains -/
structure Hop where
  same : Bool
  clock : Nat
  met : List Pair
deriving DecidableEq

/-- tree `_2hop` of a link -/
abbrev Hops := Map Netaddr Hop

/-- an address of a HELLO with the TLVs LINK_STATUS, OTHER_NEIGHB (`none`: there is none) and the metric TLVs (extension, value) -/
structure Said where
  addr : Netaddr
  link : Option Nat
  other : Option Nat
  tlvs : List (Nat × MetricField)

/-- both metrics are infinite -/
def infinite : Pair := ⟨metricInfinite, metricInfinite⟩

/-- `nhdp_domain_init_l2hop`, nhdp_domain.c:378-398 -/
def newMet (doms : List Dom) : List Pair := doms.map fun d => if d.special then d.start else infinite

/-- nhdp_reader.c:770-777 -/
def clearMet (doms : List Dom) (met : List Pair) : List Pair := List.zipWith (fun d p => if d.special then p else infinite) doms met

/-- one metric TLV, nhdp_reader.c:782-792 with `nhdp_domain_get_by_ext`, nhdp_domain.c:331-341 -/
def tlvMet (doms : List Dom) (met : List Pair) (t : Nat × MetricField) : List Pair :=
  match doms.findIdx? fun d => d.ext == t.1 with
  | none => met
  | some i => if (doms[i]?).any (·.special) then met else met.modify i fun p => hopTlv p t.2

/-- `_process_domainspecific_2hopdata`, nhdp_reader.c:759-796 -/
def setMet (doms : List Dom) (met : List Pair) (tlvs : List (Nat × MetricField)) : List Pair := tlvs.foldl (tlvMet doms) (clearMet doms met)

/-- insertion or change of an address -/
def put (m : Hops) (a : Netaddr) (h : Hop) : Hops := match m.get a with | none => m.add a h | some _ => m.upd a fun _ => h

/-- `_cb_addr_pass2_block`, nhdp_reader.c:833-876: `own`: addresses of this interface and of any interface of this router -/
def block (doms : List Dom) (ifOwn own : Netaddr → Bool) (now vtime : Nat) (m : Hops) (s : Said) : Hops :=
  match hopSeen s.link s.other with
  | none => m
  | some sym =>
    if ifOwn s.addr then m
    else if own s.addr then m
    else if sym then
      let old := (m.get s.addr).getD ⟨false, 0, newMet doms⟩
      put m s.addr ⟨s.link.any fun x => x &&& 3 == 1, setT now vtime, setMet doms old.met s.tlvs⟩
    else m.del s.addr

/-- a HELLO which is received for the link: time, validity time, own addresses, content; `lost`: the addresses of the neighbor which are not in it
any more (nhdp_reader.c:905-911), `status`: the status of the link which is computed in the end -/
structure Msg where
  now : Nat
  vtime : Nat
  ifOwn : Netaddr → Bool
  own : Netaddr → Bool
  said : List Said
  lost : List Netaddr
  status : Status

/-- two-hop addresses and status of a link -/
structure St where
  hops : Hops
  status : Status

/-- a new link, nhdp_db.c:531-573 -/
def St.start : St := ⟨[], .pending⟩

/-- `nhdp_db_link_update_status`, nhdp_db.c:825-839 with `_link_status_not_symmetric_anymore`, nhdp_db.c:984-987 -/
def setStatus (s : St) (st : Status) : St := ⟨if s.status = .symmetric ∧ st ≠ .symmetric then [] else s.hops, st⟩

/-- what happens to a link -/
inductive Ev
  /-- a HELLO -/
  | hello (m : Msg)
  /-- a timer or the hysteresis changes the status -/
  | status (st : Status)
  /-- `nhdp_db_link_set_unsymmetric`, nhdp_db.c:580-601 -/
  | unsymmetric
  /-- timers of two-hop addresses fire, `_cb_l2hop_vtime`, nhdp_db.c:1071-1079 -/
  | time (now : Nat)

/-- the two-hop addresses after the blocks of a HELLO and the removal of lost addresses, nhdp_reader.c:833-876 and 905-927 -/
def received (doms : List Dom) (m : Msg) (h : Hops) : Hops :=
  m.lost.foldl Map.del (m.said.foldl (block doms m.ifOwn m.own m.now m.vtime) h)

def step (doms : List Dom) (s : St) : Ev → St
  | .hello m => setStatus { s with hops := received doms m s.hops } m.status
  | .status st => setStatus s st
  | .unsymmetric => { s with hops := [] }
  | .time now => { s with hops := s.hops.delWhere fun _ h => h.clock != 0 && decide (h.clock ≤ now) }

/-- the events of a link, the newest first -/
def run (doms : List Dom) : List Ev → St
  | [] => .start
  | ev :: evs => step doms (run doms evs) ev

/-! ### Routing -/

/-- what `_handle_nhdp_routes` (olsrv2_routing.c:986-998) sees of a two-hop address in the domain with the index `i`: `nhdp_db_2hop_is_lost`
(nhdp_db.h:591-594) and the outgoing metric -/
def toRouting (i : Nat) (x : Netaddr × Hop) : Verif.Routing.L2hop := ⟨x.1, x.2.clock != 0, (x.2.met.getD i infinite).mout⟩

end Verif.TwoHop
