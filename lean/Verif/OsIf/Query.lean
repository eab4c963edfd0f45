import Verif.Netlink.Queue
/-
Queries of all links and addresses: /repo/src/base/os_linux/os_interface_linux.c:190-193, 539-581, 836-904, 1322-1388.
-/
namespace Verif.OsIf
open Verif.Netlink

/-- `_link_query_in_progress`, `_address_query_in_progress`, `_trigger_link_query`, `_trigger_address_query` -/
structure Q where
  link : Bool := false
  addr : Bool := false
  tlink : Bool := false
  taddr : Bool := false
deriving DecidableEq, Repr

/-- length of the request: NLMSG_LENGTH of `struct ifinfomsg` and `struct ifaddrmsg` -/
def LINKS : Nat := 32
def ADDRS : Nat := 24

/-- `_query_interface_links`, os_interface_linux.c:836-868: the requests handed over are in the list -/
def queryLinks (q : Q) : Q × List Nat := if q.link || q.addr then (q, []) else ({ q with tlink := false, link := true }, [LINKS])

/-- `_query_interface_addresses`, os_interface_linux.c:874-904 -/
def queryAddrs (q : Q) : Q × List Nat := if q.link || q.addr then (q, []) else ({ q with taddr := false, addr := true }, [ADDRS])

/-- a new interface, os_interface_linux.c:568-577 -/
def newIf (q : Q) : Q × List Nat := queryLinks { q with tlink := true, taddr := true }

/-- `_process_end_of_query`, os_interface_linux.c:1322-1343 -/
def endOf (q : Q) : Q × List Nat :=
  if q.link then
    let q := { q with link := false }
    if q.taddr then queryAddrs q else if q.tlink then queryLinks q else (q, [])
  else
    let q := { q with addr := false }
    if q.tlink then queryLinks q else if q.taddr then queryAddrs q else (q, [])

/-- `_process_bad_end_of_query`, os_interface_linux.c:1349-1358 -/
def badEnd (q : Q) : Q × List Nat := endOf { q with tlink := q.tlink || q.link, taddr := q.taddr || q.addr }

/-- the callbacks of the netlink socket, os_interface_linux.c:1366-1388 -/
def qcb (q : Q) : Call → Q × List Nat
  | .done _ => endOf q
  | .error _ _ => badEnd q
  | .timeout => badEnd q

end Verif.OsIf
