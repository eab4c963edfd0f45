import Verif.Nhdp.Props
import Verif.Timer.Model

/-
Model of the addresses of neighbors in HELLOs (`src/nhdp/nhdp/nhdp_writer.c`), of what a router concludes from them
(`src/nhdp/nhdp/nhdp_reader.c`), and of the timers of a link.
-/
namespace Verif.Hello
open Verif.Nhdp (Db Status NAddr Addr calculateStatus LinkInfo)

/-! ### TLVs of an address -/

/-- value of the LINK_STATUS TLV, `enum nhdp_link_status` (nhdp_db.h:81-94) and `enum rfc6130_linkstatus_values` (rfc5444_iana.h:279-292) -/
def statusCode : Status → Nat
  | .lost => 0
  | .symmetric => 1
  | .heard => 2
  | .pending => 255

/-- values of the TLVs LINK_STATUS (`none`: there is none) and OTHER_NEIGHB of an address -/
structure AddrTlvs where
  link : Option Nat
  other : Nat
deriving DecidableEq, Repr

/-- `_add_link_address`, nhdp_writer.c:355-386, as far as LINK_STATUS and OTHER_NEIGHB are concerned; `lost`: the lost timer of the
address runs, `sym`: `symmetric > 0` of the neighbor, `link`: status of the link on the interface which has this address -/
def addrTlvs (lost sym : Bool) (link : Option Status) : AddrTlvs :=
  let linkstatus : Nat :=
    if lost then 255
    else
      match link with
      | none => 255
      | some s => if s = .pending then 255 else statusCode s
  let other : Nat := if lost then 0 else if sym && linkstatus != 1 then 1 else 0
  ⟨if linkstatus ≠ 255 then some linkstatus else none, other⟩

/-- `_add_link_address` for an address of the database; `none`: access to an object which does not exist -/
def announce (db : Db) (ifc : Nat) (a : Addr) (na : NAddr) : Option AddrTlvs :=
  match db.neighs.get na.neigh with
  | none => none
  | some n =>
    match db.laddrs.get (ifc, a) with
    | none => some (addrTlvs na.lost (decide (n.sym > 0)) none)
    | some la =>
      match db.links.get la.link with
      | none => none
      | some l => some (addrTlvs na.lost (decide (n.sym > 0)) (some l.status))

/-- end of `_cb_addresstlvs_pass1`, nhdp_reader.c:594-604, for an address of the interface: `some true` is `link_heard`, `some false`
is `link_lost` -/
def ownSeen (t : AddrTlvs) : Option Bool :=
  match t.link with
  | none => none
  | some x => some (x &&& 3 != 0)

/-- second part of `_cb_addr_pass2_block`, nhdp_reader.c:833-876, for an address of somebody else: `some true`: a two-hop address is
added or refreshed, `some false`: it is removed; values of the TLVs, `none`: there is none -/
def hopSeen (link other : Option Nat) : Option Bool :=
  let ls : Nat := match link with | none => 255 | some x => x &&& 3
  let on : Nat := match other with | none => 255 | some x => x &&& 1
  if ls != 255 || on != 255 then some (ls == 1 || on == 1) else none

/-! ### Timers of a link -/

/-- `(int64_t)x` -/
def s64 (x : Nat) : Int := if x < 2 ^ 63 then x else (x : Int) - 2 ^ 64
/-- `(uint64_t)x` -/
def u64 (x : Int) : Nat := (x % 2 ^ 64).toNat

/-- `oonf_timer_set` of a single shot timer without jitter, oonf_timer.h:174-177: the new `_clock` -/
def setT (now rel : Nat) : Nat := if rel = 0 then 0 else Verif.Timer.calcClock now 0 0 rel

/-- `oonf_timer_get_due`, oonf_timer.h:161-164 -/
def due (clock now : Nat) : Int := s64 clock - s64 now

/-- a link, the only one of its neighbor: `_clock` of `sym_time`, `heard_time` and `vtime` (0: not running), `status`, and whether the
address of the neighbor is known and not lost -/
structure Lk where
  sym : Nat
  heard : Nat
  vt : Nat
  status : Status
  ann : Bool
deriving DecidableEq, Repr

/-- what else the status depends on: an address collision or a pending link quality, a lost link quality -/
structure Quality where
  pend : Bool
  lost : Bool
deriving DecidableEq, Repr

def good : Quality := ⟨false, false⟩

/-- `_nhdp_db_link_calculate_status` -/
def statusOf (q : Quality) (sym heard : Nat) : Status :=
  calculateStatus ⟨none, none, none, [], none, none, q.pend, q.lost, decide (sym ≠ 0), decide (heard ≠ 0)⟩

/-- `nhdp_db_link_update_status`, nhdp_db.c:823-857, with the effect on the address of `_link_status_now_symmetric` and
`_link_status_not_symmetric_anymore` (nhdp_db.c:961-998) -/
def upd (l : Lk) (q : Quality) : Lk :=
  let st := statusOf q l.sym l.heard
  { l with
    status := st
    ann := if l.status = .symmetric ∧ st ≠ .symmetric then false else if l.status ≠ .symmetric ∧ st = .symmetric then true else l.ann }

/-- first part of the update of a link: our address in the HELLO, nhdp_reader.c:930-954 -/
def recvSym (now vtime lhold : Nat) (q : Quality) (said : Option Bool) (l : Lk) : Lk :=
  match said with
  | none => l
  | some true => upd { l with sym := setT now vtime } q
  | some false =>
    if l.sym = 0 then l
    else if statusOf q 0 l.heard = .heard then { l with sym := 0, vt := setT now lhold } else { l with sym := 0 }

/-- `t`, nhdp_reader.c:957-960 -/
def heardFor (now vtime : Nat) (l : Lk) : Nat := if l.sym = 0 ∨ u64 (due l.sym now) < vtime then vtime else u64 (due l.sym now)

/-- `t` afterwards, nhdp_reader.c:964-966 -/
def validFor (now vtime lhold : Nat) (l : Lk) : Nat :=
  if l.status ≠ .pending then (heardFor now vtime l + lhold) % 2 ^ 64 else heardFor now vtime l

/-- second part of the update of a link, nhdp_reader.c:957-971 -/
def recvTimes (now vtime lhold : Nat) (l : Lk) : Lk :=
  { l with
    heard := setT now (heardFor now vtime l)
    vt := if l.vt = 0 ∨ s64 (validFor now vtime lhold l) > due l.vt now then setT now (validFor now vtime lhold l) else l.vt }

/-- the address of a neighbor sending a HELLO is not lost (`_pass2_process_localif`, nhdp_reader.c:345-347); a new link has the status
LOST (nhdp_db.c:531-574) -/
def recvAddr : Option Lk → Lk
  | none => ⟨0, 0, 0, .lost, true⟩
  | some l => { l with ann := true }

/-- what a HELLO with validity time `vtime` does to the link, `_cb_msg_pass2_end`, nhdp_reader.c:930-984; `said`: what the HELLO says about
our address; `q`, `q'`: link quality and collisions before and after the originator of the neighbor is updated -/
def recv (now vtime lhold : Nat) (q q' : Quality) (said : Option Bool) (l : Option Lk) : Lk :=
  upd (recvTimes now vtime lhold (recvSym now vtime lhold q said (recvAddr l))) q'

/-- a timer which is due does not run any more -/
def fire (now clock : Nat) : Nat := if clock ≤ now then 0 else clock

/-- the timers are processed at time `now` (`oonf_timer_walk`), nhdp_db.c:1004-1054; the result does not depend on the order of the
timers; `none`: the link has been removed -/
def advance (now : Nat) (q : Quality) : Option Lk → Option Lk
  | none => none
  | some l =>
    if l.vt ≠ 0 ∧ l.vt ≤ now then none
    else if (l.sym ≠ 0 ∧ l.sym ≤ now) ∨ (l.heard ≠ 0 ∧ l.heard ≤ now) then
      some (upd { l with sym := fire now l.sym, heard := fire now l.heard } q)
    else some l

/-- `nhdp_db_link_set_unsymmetric`, nhdp_db.c:579-601 -/
def unsym (l : Lk) : Lk := { l with sym := 0, ann := if l.status = .symmetric then false else l.ann }

/-- what a HELLO of this router says about the neighbor -/
def says : Option Lk → Option Bool
  | none => none
  | some l => ownSeen (addrTlvs (!l.ann) (decide (l.status = .symmetric)) (some l.status))

/-! ### Two routers -/

/-- two routers `a` and `b` with a common medium: the links, the HELLOs sent (time and what they say about the other router), the
times at which the routers received HELLOs of each other -/
structure Sys where
  now : Nat
  a : Option Lk
  b : Option Lk
  sentA : List (Nat × Option Bool)
  sentB : List (Nat × Option Bool)
  recvA : List Nat
  recvB : List Nat

def Sys.start : Sys := ⟨0, none, none, [], [], [], []⟩

/-- events: time passes, a HELLO is sent, a HELLO sent before is received -/
inductive SEv
  | tick (dt : Nat) (qa qb : Quality)
  | sendA
  | sendB
  | recvA (m : Nat × Option Bool) (vtime lhold : Nat) (q q' : Quality)
  | recvB (m : Nat × Option Bool) (vtime lhold : Nat) (q q' : Quality)

def sysStep (s : Sys) : SEv → Sys
  | .tick dt qa qb => { s with now := s.now + dt, a := advance (s.now + dt) qa s.a, b := advance (s.now + dt) qb s.b }
  | .sendA => { s with sentA := (s.now, says s.a) :: s.sentA }
  | .sendB => { s with sentB := (s.now, says s.b) :: s.sentB }
  | .recvA m vtime lhold q q' => { s with a := some (recv s.now vtime lhold q q' m.2 s.a), recvA := s.now :: s.recvA }
  | .recvB m vtime lhold q q' => { s with b := some (recv s.now vtime lhold q q' m.2 s.b), recvB := s.now :: s.recvB }

end Verif.Hello
