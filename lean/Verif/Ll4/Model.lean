import Verif.Netaddr.Props
/-
Model of `src/nhdp/auto_ll4/auto_ll4.c`: automatic IPv4 link-local addresses of mesh interfaces.

Simplifications: one interface; reference counts of NHDP interfaces are not modelled (C146); `cfg_schema_tobin` succeeds;
`os_interface_address_set` queues a request for the kernel and always succeeds (os_interface_linux.c:438-486).
-/
namespace Verif.Ll4
open Verif.Netaddr

/-- `NETADDR_IPV4_LINKLOCAL`, netaddr.c:88 -/
def LINKLOCAL : Netaddr := ⟨[169, 254] ++ List.replicate 14 0, AF_INET, 16⟩

/-- one byte of the key in `_calculate_host_part`, auto_ll4.c:737-741.  `key` points to `char`: `signed` tells whether this
type is signed. -/
def mix (signed : Bool) (hash : UInt32) (b : UInt8) : UInt32 :=
  let hash := hash + (if signed && decide (128 ≤ b) then b.toUInt32 + 0xffffff00 else b.toUInt32)
  let hash := hash + (hash <<< 10)
  hash ^^^ (hash >>> 6)

/-- auto_ll4.c:742-744 -/
def finalMix (hash : UInt32) : UInt32 :=
  let hash := hash + (hash <<< 3)
  let hash := hash ^^^ (hash >>> 11)
  hash + (hash <<< 15)

/-- `_calculate_host_part`, auto_ll4.c:720-748, before `htons` -/
def hostPart (signed : Bool) (a : Netaddr) : Nat :=
  (finalMix ((a.addr.take (maxPrefix a / 8)).foldl (mix signed) 0)).toNat % (254 * 256) + 256

/-- the two bytes of a number in network byte order -/
def be16 (n : Nat) : List UInt8 := [UInt8.ofNat (n / 256), UInt8.ofNat n]

/-- `netaddr_create_host_bin` with `NETADDR_IPV4_LINKLOCAL`, auto_ll4.c:518 and 564 -/
def linkLocal (n : Nat) : Netaddr :=
  match createHostBin LINKLOCAL (be16 n) with
  | .ok a => a
  | .err a => a
  | .ub => unspec

/-- `_generate_default_address`, auto_ll4.c:545-568 -/
def defaultAddr (signed : Bool) (v6 : Netaddr) : Netaddr :=
  if v6.type = AF_UNSPEC then unspec else linkLocal (hostPart signed v6)

/-- `_is_address_collision`, auto_ll4.c:685-712 -/
def collides (signed : Bool) (mine addr : Netaddr) : Bool :=
  if addr.type = AF_INET then cmp mine addr == 0
  else (mine.addr.drop 2).take 2 == be16 (hostPart signed addr)

/-- addresses of a neighbor and of its neighbors (`_addresses` and `_2hop` of a link) -/
structure Link where
  addrs : List Netaddr
  twohop : List Netaddr
deriving DecidableEq, Repr

/-- `_nhdp_if_has_collision`, auto_ll4.c:652-677 -/
def hasCollision (signed : Bool) (links : List Link) (a : Netaddr) : Bool :=
  if a.type = AF_UNSPEC then true
  else links.any fun l => l.addrs.any (collides signed a) || l.twohop.any (collides signed a)

/-- `netaddr_is_in_subnet(&NETADDR_IPV4_LINKLOCAL, ...)`, auto_ll4.c:602 -/
def isLL (a : Netaddr) : Bool := isInSubnet LINKLOCAL a == some true

/-- the loop of `_get_current_if_ipv4_addresscount`, auto_ll4.c:593-610: counter, address found, `match` -/
def scan (mine : Netaddr) : List Netaddr → Nat × Netaddr × Bool → Nat × Netaddr × Bool
  | [], r => r
  | a :: as, (count, ll, found) =>
    if a.type = AF_INET then
      if !found && isLL a then scan mine as (count + 1, a, cmp a mine == 0)
      else scan mine as (count + 1, ll, found)
    else scan mine as (count, ll, found)

/-- `_get_current_if_ipv4_addresscount`, auto_ll4.c:579-613 -/
def current (mine : Netaddr) (addrs : List Netaddr) : Nat × Netaddr :=
  let r := scan mine addrs (0, unspec, false)
  (r.1, r.2.1)

/-- what the callbacks find outside of the plugin: addresses of the interface (with full prefix length), its IPv6 link-local
address, its flags, the neighbors, and the results of `os_core_get_random` (`none`: it fails) -/
structure World where
  addrs : List Netaddr := []
  v6 : Netaddr := unspec
  loopback : Bool := false
  up : Bool := true
  links : List Link := []
  rnd : Nat → Option Nat
  signed : Bool := true

/-- a request to the kernel: set or remove an address with a prefix length of 16 -/
structure Cmd where
  set : Bool
  addr : Netaddr
deriving DecidableEq, Repr

/-- `struct _nhdp_if_autoll4`, auto_ll4.c:73-97; `alive`: `nhdp_if` is not NULL; `timer`: delay of the running timer; `pending`: `os_addr`
is an element of the list of requests without answer -/
structure State where
  alive : Bool := true
  active : Bool := false
  delay : Nat := 0
  generated : Bool := false
  cmd : Cmd := ⟨false, unspec⟩
  mine : Netaddr := unspec
  timer : Option Nat := none
  pending : Bool := false
deriving DecidableEq, Repr

/-- result of the loop for a free address -/
inductive Pick where
  | found (a : Netaddr)
  | noRandom (a : Netaddr)
  | hang
deriving DecidableEq, Repr

/-- the loop of `_cb_update_timer`, auto_ll4.c:511-519, at most `fuel` rounds -/
def pick (w : World) : Nat → Nat → Netaddr → Pick
  | fuel, i, a =>
    if hasCollision w.signed w.links a then
      match fuel with
      | 0 => .hang
      | fuel + 1 =>
        match w.rnd i with
        | none => .noRandom a
        | some r => pick w fuel (i + 1) (linkLocal (r % (256 * 254) + 256))
    else .found a

/-- `_commit_address`, auto_ll4.c:620-642 -/
def commit (st : State) (a : Netaddr) (set : Bool) : State × Option Cmd :=
  ({ st with cmd := ⟨set, { a with prefixLen := 16 }⟩, generated := set }, some ⟨set, { a with prefixLen := 16 }⟩)

/-- the address the loop begins with, auto_ll4.c:495-509 -/
def begin (w : World) (st : State) (cur : Nat × Netaddr) : Netaddr :=
  let a := if cur.1 = 1 then cur.2 else st.mine
  if a.type = AF_UNSPEC then defaultAddr w.signed w.v6 else a

/-- the end of `_cb_update_timer`, auto_ll4.c:521-537 -/
def conclude (st : State) (cur : Netaddr) : State × Option Cmd :=
  if cmp st.mine cur = 0 then (st, none)
  else if cur.type ≠ AF_UNSPEC then commit st cur false
  else commit st st.mine true

/-- `_cb_update_timer`, auto_ll4.c:442-538; `none`: it does not return within `fuel` rounds of the loop -/
def update (w : World) (fuel : Nat) (st : State) : Option (State × Option Cmd) :=
  if w.loopback || !w.up then some (st, none)
  else
    let cur := current st.mine w.addrs
    if !st.active then
      if st.generated && cur.1 == 1 && cmp cur.2 st.mine == 0 then some (commit st cur.2 false) else some (st, none)
    else if cur.1 > 1 then
      if st.generated && cmp cur.2 st.mine == 0 then some (commit st cur.2 false) else some (st, none)
    else if cur.1 = 1 ∧ cur.2.type = AF_UNSPEC then some (st, none)
    else
      match pick w fuel 0 (begin w st cur) with
      | .found a => some (conclude { st with mine := a } cur.2)
      | .noRandom a => some ({ st with mine := a }, none)
      | .hang => none

/-- answers of the kernel: no error, EEXIST, EADDRNOTAVAIL, another error -/
inductive Ans where
  | ok | exist | notAvail | other
deriving DecidableEq, Repr

/-- what happens -/
inductive Ev where
  /-- `_cb_if_cfg_changed` with a new configuration -/
  | conf (active : Bool) (delay : Nat)
  /-- an address of the interface, a neighbor or a two-hop neighbor appears or disappears -/
  | change
  | fire (w : World) (fuel : Nat)
  | answer (a : Ans)
  /-- `_cb_remove_nhdp_interface`: the interface is removed, or the daemon ends -/
  | remove

/-- `oonf_timer_set`, oonf_timer.c:229-239: zero stops the timer -/
def setTimer (st : State) (t : Nat) : State := { st with timer := if t = 0 then none else some t }

/-- a commit is an element of the list of open requests until it is answered; a second one meanwhile destroys the list
(os_interface_linux.c:481-484 with list.h:115-118) -/
def request (r : State × Option Cmd) : Option (State × Option Cmd) :=
  match r.2 with
  | none => some r
  | some _ => if r.1.pending then none else some ({ r.1 with pending := true }, r.2)

/-- one event: the new state and the request to the kernel; `none`: endless loop or destroyed list.
`_cb_if_cfg_changed`: auto_ll4.c:753-805; `_cb_ifaddr_change`, `_cb_laddr_change`, `_cb_2hop_change`: lines 351-435;
`_cb_address_finished`: lines 319-345; `_cb_remove_nhdp_interface`: lines 283-311. -/
def step (st : State) : Ev → Option (State × Option Cmd)
  | .conf active delay =>
    let st := { st with active := active, delay := delay }
    if !st.generated then some (setTimer st delay, none)
    else if st.timer = none then some (setTimer st 1, none)
    else some (st, none)
  | .change => if st.alive && st.timer.isNone then some (setTimer st 1, none) else some (st, none)
  | .fire w fuel =>
    if st.timer = none then some (st, none)
    else
      let st := { st with timer := none }
      if !st.alive then some (st, none)
      else (update w fuel st).bind request
  | .answer a =>
    if !st.pending then some (st, none)
    else
      let st := { st with pending := false }
      if !st.alive then some (st, none)
      else if (st.cmd.set && (a == .notAvail || a == .other)) || (!st.cmd.set && (a == .exist || a == .other)) then some (setTimer st 1000, none)
      else some (st, none)
  | .remove =>
    if !st.alive then some (st, none)
    else
      let r : State × Option Cmd := if st.active && st.generated then ({ st with cmd := { st.cmd with set := false } }, some { st.cmd with set := false }) else (st, none)
      some ({ r.1 with active := false, timer := none, alive := false, pending := false }, r.2)

/-- a history, newest event first: the state and all requests, newest first -/
def run : List Ev → Option (State × List Cmd)
  | [] => some ({}, [])
  | e :: es =>
    match run es with
    | none => none
    | some (st, cmds) =>
      match step st e with
      | none => none
      | some (st, c) => some (st, c.toList ++ cmds)

end Verif.Ll4
