/-!
# Kernel objects a daemon asks for: link speeds, tunnels, virtual interfaces

Three small users of `ioctl`:

* the ethernet listener, which copies the link speed of every interface into the layer2 database
  (src/generic/eth_listener/eth_listener.c:160-231);
* IP tunnels (src/base/os_linux/os_tunnel_linux.c:155-438, include/oonf/base/os_tunnel.h:66-110);
* virtual (tun/tap) interfaces (src/base/os_linux/os_vif_linux.c:78-176, include/oonf/base/os_vif.h:81-96).

The kernel is part of the trusted environment.  It is modelled by its answers (`Host`) for the ethernet listener and by a list of
existing tunnels for `SIOCADDTUNNEL`/`SIOCDELTUNNEL`.
-/

namespace Verif.OsTun

/-! ## Ethernet listener -/

/-- An origin of layer2 data: its identity and its priority (include/oonf/base/oonf_layer2.h, `struct oonf_layer2_origin`). -/
structure Origin where
  id : Nat
  prio : Nat
deriving DecidableEq, Repr

/-- The origin of the listener, eth_listener.c:128-132: `OONF_LAYER2_ORIGIN_UNRELIABLE` is 20 (oonf_layer2.h). -/
def ethOrigin : Origin := ⟨0, 20⟩

/-- One `struct oonf_layer2_data`: does it have metadata (`_meta`), who wrote it (`_origin`) and the integer.  Both bit rates have
scaling 1 (oonf_layer2.c:91-92), the metadata is therefore only present or absent. -/
structure Entry where
  md : Bool := true
  origin : Option Origin := none
  value : Int := 0
deriving DecidableEq, Repr

/-- The part of `struct oonf_layer2_net` the listener touches: type of the interface and the two default bit rates. -/
structure Net where
  ifType : Nat := 0
  rx : Entry := {}
  tx : Entry := {}
deriving DecidableEq, Repr

/-- The layer2 database by interface name (names are numbers). -/
abbrev Db := Nat → Option Net

/-- `OONF_LAYER2_TYPE_UNDEFINED` and `OONF_LAYER2_TYPE_ETHERNET`, oonf_layer2.h. -/
def typeUndefined : Nat := 0
def typeEthernet : Nat := 2

/-- An interface known to the daemon (`struct os_interface`): name, index and index of its base interface. -/
structure Ifc where
  name : Nat
  index : Nat
  base : Nat
deriving DecidableEq, Repr

/-- The answers of the kernel: `if_indextoname`, the speed of `ETHTOOL_GSET` for an interface name (`none`: ioctl fails; otherwise an
unsigned 32 bit number of Mbit/s), and whether memory for a new layer2 interface can be allocated. -/
structure Host where
  nameOf : Nat → Option Nat
  speed : Nat → Option Nat
  alloc : Nat → Bool

/-- `oonf_layer2_data_set_int64(.., meta = NULL, value, scaling = 1)`, oonf_layer2.c:342-388: abort (`none`) when the entry has no
metadata; written when nobody wrote it, the same origin wrote it, or one with a smaller priority did. -/
def setInt (e : Entry) (o : Origin) (v : Int) : Option Entry :=
  if e.md = false then none
  else match e.origin with
    | none => some ⟨true, some o, v⟩
    | some p => if p = o ∨ p.prio < o.prio then some ⟨true, some o, v⟩ else some e

/-- `oonf_layer2_data_reset`, oonf_layer2.h:985-988: metadata and origin are cleared. -/
def reset (e : Entry) : Entry := { e with md := false, origin := none }

/-- `oonf_layer2_net_add`, oonf_layer2.c:493-536: existing object or a new one with metadata in all entries; `none` if out of memory. -/
def netAdd (h : Host) (db : Db) (n : Nat) : Option Net :=
  match db n with
  | some net => some net
  | none => if h.alloc n then some {} else none

/-- The interface name used in the request, eth_listener.c:185-199. -/
def queryName (h : Host) (i : Ifc) : Option Nat :=
  if i.base ≠ i.index then h.nameOf i.base else some i.name

/-- The speed of an interface if it is known, in bit/s, eth_listener.c:185-213. -/
def queried (h : Host) (i : Ifc) : Option Int :=
  match queryName h i with
  | none => none
  | some n =>
    match h.speed n with
    | none => none
    | some s => if s = 0 ∨ s = 65535 ∨ s = 4294967295 then none else some ((s : Int) * 1000000)

/-- Body of the loop of `_cb_transmission_event`, eth_listener.c:176-229.  `none`: the daemon is aborted by an assertion. -/
def ethOne (h : Host) (db : Db) (i : Ifc) : Option Db :=
  match queried h i with
  | none => some db
  | some v =>
    match netAdd h db i.name with
    | none => some db
    | some net =>
      match setInt net.rx ethOrigin v with
      | none => none
      | some rx =>
        match setInt net.tx ethOrigin v with
        | none => none
        | some tx =>
          let ty := if net.ifType = typeUndefined then typeEthernet else net.ifType
          some fun n => if n = i.name then some ⟨ty, rx, tx⟩ else db n

/-- `_cb_transmission_event`, eth_listener.c:164-231: all interfaces of the tree, one after the other. -/
def ethEvent (h : Host) : Db → List Ifc → Option Db
  | db, [] => some db
  | db, i :: l => match ethOne h db i with
    | none => none
    | some db' => ethEvent h db' l

/-! ## Tunnels -/

/-- The devices behind the tunnels, os_tunnel_linux.c:143-150. -/
inductive Base where
  | tunl0 | sit0 | gre0 | ip6tnl0 | ip6gre0
deriving DecidableEq, Repr

/-- Protocol inside of the tunnel, include/oonf/base/os_tunnel.h:66-71 (a C enum: other numbers are possible). -/
inductive Inner where
  | ipv4 | ipv6 | gre | other
deriving DecidableEq, Repr

/-- Family of an end point. -/
inductive Fam where
  | v4 | v6 | other
deriving DecidableEq, Repr

/-- `struct os_tunnel_parameter`, os_tunnel.h:73-97.  A name is given by its lower case form and its spelling; `link` is the index of
`base_if` (0 if empty); TTL, TOS and flow label are handed to the kernel unchanged and left out. -/
structure Tun where
  fold : Nat
  spelling : Nat
  inner : Inner
  localFam : Fam
  localAddr : Nat
  remoteFam : Fam
  remoteAddr : Nat
  link : Nat
deriving DecidableEq, Repr

/-- What identifies a tunnel for the kernel besides its name. -/
structure Key where
  base : Base
  proto : Inner
  link : Nat
  src : Nat
  dst : Nat
deriving DecidableEq, Repr

/-- A tunnel in the kernel: its name (lower case form, spelling; names in the kernel are case sensitive) and its key. -/
structure KTun where
  fold : Nat
  spelling : Nat
  key : Key
deriving DecidableEq, Repr

/-- Tunnels of the kernel, which devices are up, and what the daemon remembers: the tree of added tunnels (object numbers, ordered by
insertion) and `_tunnel_base_up` (per kind of tunnel, here base device and inner protocol; all IPv4 tunnels are of the kind IP-in-IP). -/
structure St where
  kernel : List KTun := []
  up : Base → Bool := fun _ => false
  tree : List Nat := []
  flag : Base × Inner → Bool := fun _ => false

/-- Answers of the kernel that do not depend on existing tunnels: which protocols a base device accepts; may the daemon change tunnels. -/
structure Perm where
  accepts : Base → Inner → Bool
  allowed : Bool

/-- Errors of `SIOCADDTUNNEL`. -/
inductive Err where
  | refused | exists
deriving DecidableEq, Repr

/-- `SIOCADDTUNNEL`: refused without permission or for a protocol the base device does not know; `EEXIST` if the name or the key is
already used. -/
def kAdd (p : Perm) (k : List KTun) (t : KTun) : Except Err (List KTun) :=
  if p.allowed = false ∨ p.accepts t.key.base t.key.proto = false then .error .refused
  else if k.any (fun x => (x.fold = t.fold ∧ x.spelling = t.spelling) ∨ x.key = t.key) then .error .exists
  else .ok (k ++ [t])

/-- `SIOCDELTUNNEL` on a base device: the tunnel is looked up by its key. -/
def kDel (p : Perm) (k : List KTun) (t : KTun) : Option (List KTun) :=
  if p.allowed = false then none
  else if k.any (fun x => x.key = t.key) then some (k.eraseP fun x => x.key = t.key) else none

/-- Base device of an IPv4 tunnel, os_tunnel_linux.c:284-299: the same for all protocols. -/
def base4 : Inner → Option Base
  | .ipv4 => some .tunl0
  | .ipv6 => some .tunl0
  | .gre => some .tunl0
  | .other => none

/-- Base device of an IPv6 tunnel, os_tunnel_linux.c:361-376. -/
def base6 : Inner → Option Base
  | .ipv4 => some .ip6tnl0
  | .ipv6 => some .ip6tnl0
  | .gre => some .ip6gre0
  | .other => none

/-- The request for a tunnel. -/
def req (t : Tun) (b : Base) : KTun := ⟨t.fold, t.spelling, ⟨b, t.inner, t.link, t.localAddr, t.remoteAddr⟩⟩

/-- `_set_base_tunnel_up`, os_tunnel_linux.c:224-254; all `ioctl`s succeed.  The flag is only set when the device was down. -/
def baseUp (s : St) (b : Base) (i : Inner) : St :=
  if s.flag (b, i) then s
  else if s.up b then s
  else { s with up := fun x => if x = b then true else s.up x, flag := fun x => if x = (b, i) then true else s.flag x }

/-- `_handle_ipv4_tunnel(tunnel, true)`, os_tunnel_linux.c:264-335: an existing tunnel is deleted and the function calls itself again.
Every call deletes a tunnel of the kernel, `fuel` beyond their number is never used up. -/
def add4 (p : Perm) (t : Tun) (b : Base) : Nat → St → St × Bool
  | 0, s => (s, false)
  | f + 1, s => match kAdd p s.kernel (req t b) with
    | .ok k => (baseUp { s with kernel := k } b .ipv4, true)
    | .error .refused => (s, false)
    | .error .exists => match kDel p s.kernel (req t b) with
      | none => (s, false)
      | some k => add4 p t b f { s with kernel := k }

/-- `_handle_ipv6_tunnel(tunnel, true)`, os_tunnel_linux.c:343-407. -/
def add6 (p : Perm) (t : Tun) (b : Base) (s : St) : St × Bool :=
  match kAdd p s.kernel (req t b) with
  | .ok k => (baseUp { s with kernel := k } b t.inner, true)
  | .error _ => (s, false)

/-- Both handlers with `add = false`. -/
def del (p : Perm) (t : Tun) (b : Base) (s : St) : St × Bool :=
  match kDel p s.kernel (req t b) with
  | none => (s, false)
  | some k => ({ s with kernel := k }, true)

/-- `_handle_tunnel`, os_tunnel_linux.c:414-438. -/
def handle (p : Perm) (t : Tun) (add : Bool) (s : St) : St × Bool :=
  if t.localFam ≠ t.remoteFam then (s, false)
  else match t.localFam with
    | .v4 => match base4 t.inner with
      | none => (s, false)
      | some b => if add then add4 p t b (s.kernel.length + 1) s else del p t b s
    | .v6 => match base6 t.inner with
      | none => (s, false)
      | some b => if add then add6 p t b s else del p t b s
    | .other => (s, false)

/-- `avl_insert` into a tree without duplicates ordered by `strcasecmp`: nothing happens if the key is already there; the result is
ignored by the caller. -/
def insert (o : Nat → Tun) (tree : List Nat) (i : Nat) : List Nat :=
  if tree.any (fun j => (o j).fold = (o i).fold) then tree else tree ++ [i]

/-- `os_tunnel_linux_add`, os_tunnel_linux.c:183-203.  `o` gives the objects of the callers. -/
def addTun (o : Nat → Tun) (p : Perm) (i : Nat) (s : St) : St × Bool :=
  if i ∈ s.tree then (s, false)
  else match handle p (o i) true s with
    | (s', true) => ({ s' with tree := insert o s'.tree i }, true)
    | (s', false) => (s', false)

/-- `os_tunnel_linux_remove`, os_tunnel_linux.c:209-223. -/
def removeTun (o : Nat → Tun) (p : Perm) (i : Nat) (s : St) : St × Bool :=
  if i ∈ s.tree then match handle p (o i) false s with
    | (s', true) => ({ s' with tree := s'.tree.erase i }, true)
    | (s', false) => (s', false)
  else (s, false)

/-- `_cleanup`, os_tunnel_linux.c:170-177: every tunnel of the tree is removed (the loop walks over a copy of the tree: it is safe
against the removal of the current element). -/
def cleanupList (o : Nat → Tun) (p : Perm) : List Nat → St → St
  | [], s => s
  | i :: l, s => cleanupList o p l (removeTun o p i s).1

def cleanup (o : Nat → Tun) (p : Perm) (s : St) : St := cleanupList o p s.tree s

/-- A call of the API; the permission may change from call to call. -/
inductive Op where
  | add (i : Nat) (p : Perm)
  | remove (i : Nat) (p : Perm)

def step (o : Nat → Tun) (s : St) : Op → St × Bool
  | .add i p => addTun o p i s
  | .remove i p => removeTun o p i s

/-- State after a list of calls, and what they returned (true: 0). -/
def run (o : Nat → Tun) : St → List Op → St × List Bool
  | s, [] => (s, [])
  | s, op :: l =>
    let (s', b) := step o s op
    let (s'', bs) := run o s' l
    (s'', b :: bs)

/-! ## Virtual interfaces -/

/-- A virtual interface object: is its type known, its `fd` pointer (which socket object, `none`: NULL), is it in the tree. -/
structure Vif where
  typeKnown : Bool
  fd : Option Nat
  added : Bool
deriving DecidableEq, Repr

/-- Socket objects (their file descriptor or −1) and the file descriptors open for virtual interfaces. -/
structure VSt where
  sock : Nat → Option Nat
  opened : List Nat

/-- `os_vif_linux_open`, os_vif_linux.c:107-152, with `newFd` the answer of `open("/dev/net/tun")` and `mode` that of `TUNSETIFF`.  The
object is inserted in the tree but its pointer to the socket is not set.  A second insertion of an object that is already in the tree
damages the tree (`none`). -/
def vifOpen (st : VSt) (sock : Nat) (v : Vif) (newFd : Option Nat) (mode : Bool) : Option (VSt × Vif × Bool) :=
  if v.typeKnown = false then some (st, v, false)
  else match newFd with
    | none => some (st, v, false)
    | some f =>
      if mode = false then some (st, v, false)
      else if v.added then none
      else some (⟨fun x => if x = sock then some f else st.sock x, f :: st.opened⟩, { v with added := true }, true)

/-- `os_vif_linux_close`, os_vif_linux.c:161-167, with `os_fd_close` (include/oonf/base/os_linux/os_fd_linux.h:290-297): undefined
(`none`) if the pointer to the socket is NULL. -/
def vifClose (st : VSt) (v : Vif) : Option (VSt × Vif) :=
  if v.added then match v.fd with
    | none => none
    | some s => some (match st.sock s with
      | none => (st, { v with added := false })
      | some f => (⟨fun x => if x = s then none else st.sock x, st.opened.erase f⟩, { v with added := false }))
  else some (st, v)

end Verif.OsTun
