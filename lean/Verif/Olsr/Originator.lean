import Verif.Acl.Model

/-
Model of `src/olsrv2/olsrv2/olsrv2_originator.c` and of the choice of the originator address in
`src/olsrv2/olsrv2/olsrv2.c`.

The tree of former originators is a list of entries.  `netaddr_cmp` results in 0 exactly for equal addresses (C17).  The
validity timer of an entry is modelled by the time when it is due (`none`: not running); it may fire at any time from then
on (C26).  The calls of NHDP (`nhdp_set_originator`, 233) are left out.
-/
namespace Verif.Olsr
open Verif.Netaddr (Netaddr AF_INET AF_INET6 AF_UNSPEC unspec isInSubnet)

/-- `struct olsrv2_originator_set_entry`, olsrv2_originator.h:55-67 -/
structure OrigEntry where
  addr : Netaddr
  due : Option Nat

/-- `_originator_v4`, `_originator_v6`, `_originator_set_tree`, olsrv2_originator.c:76-79; current time in ms -/
structure Orig where
  v4 : Netaddr
  v6 : Netaddr
  old : List OrigEntry
  now : Nat

/-- `olsrv2_originator_init`, olsrv2_originator.c:84-92 -/
def Orig.init (now : Nat) : Orig := ⟨unspec, unspec, [], now⟩

/-- `olsrv2_originator_get_entry`, olsrv2_originator.h:82-87 -/
def getEntry (o : Orig) (a : Netaddr) : Option OrigEntry := o.old.find? fun e => decide (e.addr = a)

/-- `olsrv2_originator_is_local`, olsrv2_originator.c:133-142 -/
def isLocal (o : Orig) (a : Netaddr) : Bool :=
  if o.v4 = a then true
  else if o.v6 = a then true
  else (getEntry o a).isSome

/-- `oonf_timer_set`, oonf_timer.c:191-236: 0 stops the timer, times are 64 bit numbers -/
def timerSet (now time : Nat) : Option Nat := if time = 0 then none else some ((now + time) % 2 ^ 64)

/-- `_remember_removed_originator`, olsrv2_originator.c:176-202; `ok`: the allocation succeeds -/
def remember (o : Orig) (a : Netaddr) (vtime : Nat) (ok : Bool) : Orig :=
  match getEntry o a with
  | some _ => { o with old := o.old.map fun e => if e.addr = a then { e with due := timerSet o.now vtime } else e }
  | none => if ok then { o with old := ⟨a, timerSet o.now vtime⟩ :: o.old } else o

/-- `_remove_originator_entry`, olsrv2_originator.c:253-259 -/
def removeEntry (o : Orig) (a : Netaddr) : Orig := { o with old := o.old.filter fun e => decide (e.addr ≠ a) }

/-- `olsrv2_originator_set` and `_set_originator`, olsrv2_originator.c:151-159, 213-239; `hold`:
`olsrv2_get_old_originator_validity` (olsrv2.h:88-91) -/
def setOriginator (o : Orig) (a : Netaddr) (hold : Nat) (ok : Bool) : Orig :=
  if a.type = AF_INET then
    let o := if o.v4.type ≠ AF_UNSPEC then remember o o.v4 hold ok else o
    removeEntry { o with v4 := a } a
  else if a.type = AF_INET6 then
    let o := if o.v6.type ≠ AF_UNSPEC then remember o o.v6 hold ok else o
    removeEntry { o with v6 := a } a
  else o

/-- `_cb_originator_entry_vtime`, olsrv2_originator.c:245-251: the timer of the entry of `a` fires if it is due -/
def fire (o : Orig) (a : Netaddr) : Orig :=
  match getEntry o a with
  | some ⟨_, some d⟩ => if d ≤ o.now then removeEntry o a else o
  | _ => o

/-- what happens: a new originator is set, time passes, a timer fires -/
inductive OrigEvent
  | set (a : Netaddr) (hold : Nat) (ok : Bool)
  | wait (ms : Nat)
  | fire (a : Netaddr)

/-- one event -/
def origStep (o : Orig) : OrigEvent → Orig
  | .set a hold ok => setOriginator o a hold ok
  | .wait ms => { o with now := o.now + ms }
  | .fire a => Olsr.fire o a

/-- a history -/
def origRun (o : Orig) (es : List OrigEvent) : Orig := es.foldl origStep o

/-! ### choice of the originator -/

/-- `NETADDR_IPV4_LINKLOCAL`, netaddr.c:88 -/
def IPV4_LINKLOCAL : Netaddr := ⟨[169, 254, 0, 0, 0, 0, 0, 0, 0, 0, 0, 0, 0, 0, 0, 0], AF_INET, 16⟩
/-- `NETADDR_IPV6_LINKLOCAL`, netaddr.c:104 -/
def IPV6_LINKLOCAL : Netaddr := ⟨[0xfe, 0x80, 0, 0, 0, 0, 0, 0, 0, 0, 0, 0, 0, 0, 0, 0], AF_INET6, 10⟩

/-- `_get_addr_priority`, olsrv2.c:578-618; `none`: read outside of an address -/
def addrPriority (acl : Acl.Acl) (a : Netaddr) : Option Nat :=
  match Acl.checkAccept acl a with
  | none => none
  | some false => some 0
  | some true =>
    if a.type = AF_INET then (isInSubnet IPV4_LINKLOCAL a).map fun b => if b then 1 else 2
    else if a.type = AF_INET6 then (isInSubnet IPV6_LINKLOCAL a).map fun b => if b then 1 else 2
    else some 0

/-- variables of the loop 647-672 -/
structure Choice where
  oldPrio : Nat
  newPrio : Nat
  best : Netaddr

/-- body of the loop, olsrv2.c:652-670; `x`: interface is loopback, address -/
def chooseStep (acl : Acl.Acl) (af : UInt8) (orig : Netaddr) (c : Choice) (x : Bool × Netaddr) : Option Choice :=
  if x.2.type = af then
    match addrPriority acl x.2 with
    | none => none
    | some p =>
      let p := p * 4
      if p = 0 then some c
      else
        let p := if x.1 then p + 2 else p
        let c := if orig = x.2 then { c with oldPrio := p + 1 } else c
        if p > c.oldPrio ∧ p > c.newPrio then some { c with best := x.2, newPrio := p } else some c
  else some c

/-- `_update_originator`, olsrv2.c:624-678, for the addresses of all interfaces in the order of the loops; the result is the
address that is set, if any -/
def updateOriginator (acl : Acl.Acl) (af : UInt8) (orig : Netaddr) (l : List (Bool × Netaddr)) : Option (Option Netaddr) :=
  match l.foldlM (chooseStep acl af orig) ⟨0, 0, unspec⟩ with
  | none => none
  | some c => some (if c.newPrio > c.oldPrio then some c.best else none)

end Verif.Olsr
