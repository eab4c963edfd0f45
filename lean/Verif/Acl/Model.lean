import Verif.NetText.Model
/-
Model of `src/libcommon/netaddr_acl.c`: access control lists of addresses.
-/
namespace Verif.Acl
open Verif.Netaddr
open Verif.NetText

/-- `struct netaddr_acl`, netaddr_acl.h:75-96; array and counter are one list -/
structure Acl where
  accept : List Netaddr := []
  reject : List Netaddr := []
  rejectFirst : Bool := false
  acceptDefault : Bool := false
deriving DecidableEq, Repr

/-- result of `netaddr_acl_from_strarray`; `ub` is a write behind an allocated array -/
inductive Out | ok (a : Acl) | err | ub
deriving DecidableEq, Repr

/-- the keywords, netaddr_acl.h:61-70 -/
def FIRST_REJECT : Txt := [102, 105, 114, 115, 116, 95, 114, 101, 106, 101, 99, 116]
def FIRST_ACCEPT : Txt := [102, 105, 114, 115, 116, 95, 97, 99, 99, 101, 112, 116]
def DEFAULT_ACCEPT : Txt := [100, 101, 102, 97, 117, 108, 116, 95, 97, 99, 99, 101, 112, 116]
def DEFAULT_REJECT : Txt := [100, 101, 102, 97, 117, 108, 116, 95, 114, 101, 106, 101, 99, 116]

/-- `netaddr_acl_handle_keywords`, netaddr_acl.c:216-236 (`none` = not a keyword) -/
def handleKeywords (acl : Acl) (cmd : Txt) : Option Acl :=
  if strcasecmp cmd DEFAULT_ACCEPT = 0 then some { acl with acceptDefault := true }
  else if strcasecmp cmd DEFAULT_REJECT = 0 then some { acl with acceptDefault := false }
  else if strcasecmp cmd FIRST_ACCEPT = 0 then some { acl with rejectFirst := false }
  else if strcasecmp cmd FIRST_REJECT = 0 then some { acl with rejectFirst := true }
  else none

/-- first loop, netaddr_acl.c:93-104: flags, accept count and reject count -/
def countLoop : Acl → Nat → Nat → List Txt → Acl × Nat × Nat
  | acl, na, nr, [] => (acl, na, nr)
  | acl, na, nr, w :: ws =>
    match handleKeywords acl w with
    | some acl => countLoop acl na nr ws
    | none => if w.head? = some 45 then countLoop acl na (nr + 1) ws else countLoop acl (na + 1) nr ws

/-- second loop, netaddr_acl.c:121-145, with arrays of `na` and `nr` elements -/
def readLoop (I : Inet6) (na nr : Nat) : Acl → List Txt → Out
  | acl, [] => .ok acl
  | acl, w :: ws =>
    match handleKeywords acl w with
    | some acl => readLoop I na nr acl ws
    | none =>
      let addr := if w.head? = some 45 ∨ w.head? = some 43 then w.tail else w
      if w.head? = some 45 then
        if acl.reject.length ≥ nr then .ub
        else
          match fromString I addr with
          | some a => readLoop I na nr { acl with reject := acl.reject ++ [a] } ws
          | none => .err
      else
        if acl.accept.length ≥ na then .ub
        else
          match fromString I addr with
          | some a => readLoop I na nr { acl with accept := acl.accept ++ [a] } ws
          | none => .err

/-- `netaddr_acl_from_strarray`, netaddr_acl.c:82-151.  Allocations succeed. -/
def fromStrarray (I : Inet6) (value : List Txt) : Out :=
  let r := countLoop {} 0 0 value
  readLoop I r.2.1 r.2.2 r.1 value

/-- `_is_in_array`, netaddr_acl.c:245-254 (`none`: read outside of an address) -/
def isInArray : List Netaddr → Netaddr → Option Bool
  | [], _ => some false
  | e :: es, addr =>
    match isInSubnet e addr with
    | none => none
    | some true => some true
    | some false => isInArray es addr

/-- `netaddr_acl_check_accept`, netaddr_acl.c:189-207 -/
def checkAccept (acl : Acl) (addr : Netaddr) : Option Bool := do
  if acl.rejectFirst then
    if (← isInArray acl.reject addr) then return false
  if (← isInArray acl.accept addr) then return true
  if !acl.rejectFirst then
    if (← isInArray acl.reject addr) then return false
  return acl.acceptDefault

/-- `netaddr_acl_copy`, netaddr_acl.c:160-180, for different objects and successful allocations:
the flags and both arrays are copied element by element, arrays with zero elements are not touched
(their pointer is shared with the source, but never used). -/
def copy (src : Acl) : Acl :=
  { accept := if src.accept.length ≠ 0 then src.accept.take src.accept.length else []
    reject := if src.reject.length ≠ 0 then src.reject.take src.reject.length else []
    rejectFirst := src.rejectFirst
    acceptDefault := src.acceptDefault }

end Verif.Acl
