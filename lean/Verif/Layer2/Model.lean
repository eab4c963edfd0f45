import Verif.Netaddr.Model
import Verif.NetText.Model
import Verif.Str.Model
/-
Model of the layer-2 database, `src/base/oonf_layer2.c` and `include/oonf/base/oonf_layer2.h`.

Originators and metadata are compared by pointer in the code; originators are numbers here, their
priority is a function.  The AVL trees are lists without duplicate keys in arbitrary order (their
ordering is the subject of `Verif/Avl`).  Memory allocation always succeeds.  Events to class
listeners and the interface listener are not modelled.
-/
namespace Verif.Layer2
open Verif.Netaddr

/-- an originator (`const struct oonf_layer2_origin *`) -/
abbrev Oid := Nat

/-- `enum oonf_layer2_data_type`, oonf_layer2.h:214-221 -/
inductive DType | integer | boolean | network
deriving DecidableEq, Repr

/-- `struct oonf_layer2_metadata`, oonf_layer2.h:232-244; `id` stands for the address of the object,
key and unit text are left out -/
structure Meta where
  id : Nat
  type : DType
  scaling : Nat
deriving DecidableEq, Repr

/-- `union oonf_layer2_value`, oonf_layer2.h:223-227.  All writers clear the union before they store
a member, so the bytes of the union are determined by the member written last. -/
inductive Value
  | int (i : Int)
  | bool (b : Bool)
  | net (a : Netaddr)
deriving DecidableEq, Repr

/-- `struct oonf_layer2_data`, oonf_layer2.h:249-258 -/
structure Data where
  value : Value
  meta? : Option Meta
  origin : Option Oid
deriving DecidableEq, Repr

/-- `oonf_layer2_data_has_value`, oonf_layer2.h:831-834 -/
def Data.hasValue (d : Data) : Bool := d.origin.isSome && d.meta?.isSome

/-- `oonf_layer2_data_reset`, oonf_layer2.h:984-988 -/
def Data.reset (d : Data) : Data := { d with meta? := none, origin := none }

/-- `oonf_layer2_data_set`, oonf_layer2.c:341-358: the returned flag and the object; `none` is the
failed assertion of line 347 (no metadata at all) -/
def dataSet (prio : Oid → Nat) (d : Data) (origin : Oid) (m : Option Meta) (input : Value) :
    Option (Bool × Data) :=
  match m.or d.meta? with
  | none => none
  | some m =>
    if d.meta?.isNone || d.origin.isNone || d.origin == some origin ||
        d.origin.any (fun o => decide (prio o < prio origin)) then
      some (decide (d.meta? ≠ some m ∨ d.value ≠ input), ⟨input, some m, some origin⟩)
    else some (false, d)

/-! ### fixed point numbers -/

/-- conversion of an `int64_t` to `uint64_t` -/
def u64 (i : Int) : Nat := (i % 2 ^ 64).toNat

/-- conversion of a `uint64_t` to `int64_t` -/
def s64 (n : Nat) : Int := if n % 2 ^ 64 < 2 ^ 63 then (n % 2 ^ 64 : Nat) else (n % 2 ^ 64 : Nat) - 2 ^ 64

/-- `integer * factor` with a `uint64_t` factor, assigned to an `int64_t`: the arithmetic is unsigned -/
def mulU (i : Int) (factor : Nat) : Int := s64 (u64 i * factor)

/-- `integer / factor` with a `uint64_t` factor, assigned to an `int64_t`: the arithmetic is
unsigned.  `none` is a division by zero. -/
def divU (i : Int) (factor : Nat) : Option Int := if factor = 0 then none else some (s64 (u64 i / factor))

/-- unsigned division of two scaling factors -/
def quot (a b : Nat) : Option Nat := if b = 0 then none else some (a / b)

/-- the conversion in `oonf_layer2_data_set_int64`, oonf_layer2.c:377-385 -/
def scaleIn (m : Meta) (integer : Int) (scaling : Nat) : Option Int :=
  if scaling = 0 then some integer
  else if scaling > m.scaling then (quot scaling m.scaling).bind (divU integer)
  else (quot m.scaling scaling).map (mulU integer)

/-- `oonf_layer2_data_set_int64`, oonf_layer2.c:368-388; `none`: failed assertion or division by
zero -/
def dataSetInt64 (prio : Oid → Nat) (d : Data) (origin : Oid) (m : Option Meta) (integer : Int)
    (scaling : Nat) : Option (Bool × Data) :=
  match m.or d.meta? with
  | none => none
  | some m =>
    match scaleIn m integer scaling with
    | none => none
    | some v => dataSet prio d origin (some m) (.int v)

/-- the conversion in `oonf_layer2_data_read_int64`, oonf_layer2.h:857-865 -/
def scaleOut (m : Meta) (v : Int) (scale : Nat) : Option Int :=
  let scale := if scale = 0 then m.scaling else scale
  if scale > m.scaling then (quot scale m.scaling).map (mulU v)
  else (quot m.scaling scale).bind (divU v)

/-- result of `oonf_layer2_data_read_int64` -/
inductive Read | value (i : Int) | refused | crash
deriving DecidableEq, Repr

/-- `oonf_layer2_data_read_int64`, oonf_layer2.h:851-867 -/
def readInt64 (d : Data) (scale : Nat) : Read :=
  match d.hasValue, d.meta?, d.value with
  | true, some m, .int v =>
    if m.type ≠ .integer then .refused
    else match scaleOut m v scale with
      | some r => .value r
      | none => .crash
  | _, _, _ => .refused

/-! ### comparison -/

/-- `enum oonf_layer2_data_comparator_type`, oonf_layer2.h:263-275 -/
inductive Cmp | eq | ne | lt | le | gt | ge
deriving DecidableEq, Repr

/-- bytes of a `bool` -/
def boolByte (b : Bool) : UInt8 := if b then 1 else 0

/-- the three way result, oonf_layer2.c:404-424 (`none`: values of different members) -/
def threeWay : Value → Value → Option Int
  | .int l, .int r => some (if l > r then 1 else if l < r then -1 else 0)
  | .bool l, .bool r => some (Netaddr.memcmp [boolByte l] [boolByte r])
  | .net l, .net r => some (Netaddr.cmp l r)
  | _, _ => none

/-- `oonf_layer2_data_compare`, oonf_layer2.c:399-442 for two values of the data type -/
def dataCompare (l r : Value) (c : Cmp) : Bool :=
  match threeWay l r with
  | none => false
  | some result =>
    match c with
    | .eq => result == 0
    | .ne => result != 0
    | .lt => decide (result < 0)
    | .le => decide (result ≤ 0)
    | .gt => decide (result > 0)
    | .ge => decide (result ≥ 0)

/-- `_data_comparators`, oonf_layer2.c:145-152 -/
def comparatorText : Cmp → String
  | .eq => "==" | .ne => "!=" | .lt => "<" | .le => "<=" | .gt => ">" | .ge => ">="

/-- `oonf_layer2_data_get_comparator`, oonf_layer2.c:449-460 -/
def getComparator (s : String) : Option Cmp :=
  [Cmp.eq, .ne, .lt, .le, .gt, .ge].find? (fun c => s == comparatorText c)

/-! ### the database -/

/-- `struct oonf_layer2_neigh_key`, oonf_layer2.h:504-513 (`linkId` has 16 bytes) -/
structure Key where
  addr : Netaddr
  lidLen : Nat
  linkId : List UInt8
deriving DecidableEq, Repr

/-- `struct oonf_layer2_neigh`, oonf_layer2.h:533-563: metrics, destinations behind the neighbor and
its IP addresses with their originators.  Next hops, time stamp and modification flags are not
modelled. -/
structure Neigh where
  key : Key
  data : List Data
  dests : List (Netaddr × Oid)
  ips : List (Netaddr × Oid)
deriving DecidableEq, Repr

/-- `struct oonf_layer2_net`, oonf_layer2.h:443-479: metrics of the interface, default metrics of its
neighbors, addresses of the local radio, the neighbors and the index `remote_neighbor_ips` -/
structure Net where
  name : List UInt8
  data : List Data
  neighData : List Data
  peers : List (Netaddr × Oid)
  neighs : List Neigh
  remote : List (Netaddr × Key)
deriving DecidableEq, Repr

/-- the variables `_oonf_layer2_net_tree`, `_oonf_originator_tree` and `_local_peer_ips_tree`,
oonf_layer2.c:186-190; a peer address is recorded with the name of its interface -/
structure Db where
  nets : List Net
  origins : List Oid
  peerIndex : List (Netaddr × List UInt8)
deriving DecidableEq, Repr

/-- `_metadata_net`, oonf_layer2.c:116-136, in the order of the enumeration oonf_layer2.h:280-335 -/
def netMeta : List Meta :=
  ([(.integer, 1), (.integer, 1), (.integer, 1), (.integer, 1), (.integer, 1000),
    (.integer, 1000000000), (.integer, 1000000000), (.integer, 1000000000), (.integer, 1000000000),
    (.integer, 1), (.integer, 1), (.boolean, 0), (.boolean, 0), (.boolean, 0), (.boolean, 0),
    (.boolean, 0)] : List (DType × Nat)).zipIdx.map (fun e => ⟨e.2, e.1.1, e.1.2⟩)

/-- `_metadata_neigh`, oonf_layer2.c:86-113, in the order of the enumeration oonf_layer2.h:353-438;
the `id`s follow those of `netMeta` -/
def neighMeta : List Meta :=
  ([(.integer, 1000), (.integer, 1000), (.integer, 1000), (.integer, 1000)] ++
    List.replicate 17 (.integer, 1) ++
    [(.integer, 1000), (.integer, 1000000), (.integer, 1), (.integer, 1), (.integer, 1)] :
      List (DType × Nat)).zipIdx.map (fun e => ⟨e.2 + 16, e.1.1, e.1.2⟩)

/-- an object that has metadata but no value -/
def blank (m : Meta) : Data := ⟨.int 0, some m, none⟩

/-- size of `l2net->name` without the terminating zero (`IF_NAMESIZE` = 16) -/
def nameMax : Nat := 15

/-- equality of interface names in `_oonf_layer2_net_tree` (`avl_comp_strcasecmp`, line 226) -/
def sameName (a b : List UInt8) : Bool := strcasecmp a b == 0

/-- `oonf_layer2_net_get`, oonf_layer2.h:698-702 -/
def Db.netGet (db : Db) (ifname : List UInt8) : Option Net := db.nets.find? (fun n => sameName n.name ifname)

/-- a network object without information -/
def newNet (name : List UInt8) : Net := ⟨name, netMeta.map blank, neighMeta.map blank, [], [], []⟩

/-- `oonf_layer2_net_add`, oonf_layer2.c:489-536: the database and the object that is returned.  The
stored name is truncated; `avl_insert` (line 511) refuses a name that is already in the tree, and the
object is then returned without being part of the database. -/
def netAdd (db : Db) (ifname : List UInt8) : Db × Net :=
  match db.netGet ifname with
  | some n => (db, n)
  | none =>
    let n := newNet (ifname.take nameMax)
    if db.nets.any (fun x => sameName x.name n.name) then (db, n)
    else ({ db with nets := db.nets ++ [n] }, n)

/-- `oonf_layer2_net_cleanup` (oonf_layer2.c:552-563) and `oonf_layer2_neigh_cleanup`
(oonf_layer2.c:872-877): reset all objects of the originator -/
def cleanup (o : Oid) (ds : List Data) : List Data :=
  ds.map (fun d => if d.origin = some o then d.reset else d)

/-- the returned flag of the same loops -/
def cleanupChanged (o : Oid) (ds : List Data) : Bool := ds.any (fun d => decide (d.origin = some o))

/-- condition of `oonf_layer2_neigh_commit` for removing the object, oonf_layer2.c:932-947 -/
def Neigh.unused (g : Neigh) : Bool := g.dests.isEmpty && g.ips.isEmpty && !g.data.any Data.hasValue

/-- condition of `oonf_layer2_net_commit` for removing the object, oonf_layer2.c:615-634 -/
def Net.unused (n : Net) : Bool :=
  n.neighs.isEmpty && !n.data.any Data.hasValue && !n.neighData.any Data.hasValue

/-- removal of IP addresses of neighbor `k` from the index, oonf_layer2.c:1075 -/
def dropRemote (k : Key) (ips : List (Netaddr × Oid)) (remote : List (Netaddr × Key)) : List (Netaddr × Key) :=
  ips.foldl (fun r e => r.erase (e.1, k)) remote

/-- `_neigh_remove`, oonf_layer2.c:1519-1540 -/
def Net.dropNeigh (n : Net) (k : Key) : Net :=
  match n.neighs.find? (fun g => g.key == k) with
  | none => n
  | some g => { n with neighs := n.neighs.filter (fun g => g.key != k), remote := dropRemote k g.ips n.remote }

/-- replace the neighbor with key `k` -/
def Net.putNeigh (n : Net) (k : Key) (f : Neigh → Neigh) : Net :=
  { n with neighs := n.neighs.map (fun g => if g.key = k then f g else g) }

/-- `oonf_layer2_neigh_get_lid`, oonf_layer2.h:759-763 -/
def Net.neighGet (n : Net) (k : Key) : Option Neigh := n.neighs.find? (fun g => g.key == k)

/-- `oonf_layer2_neigh_commit`, oonf_layer2.c:928-948 -/
def Net.neighCommit (n : Net) (k : Key) : Net :=
  match n.neighGet k with
  | none => n
  | some g => if g.unused then n.dropNeigh k else n

/-- a key of a neighbor without link id, as built by `oonf_layer2_neigh_get` and
`oonf_layer2_neigh_add` (oonf_layer2.h:728-751) -/
def macKey (addr : Netaddr) : Key := ⟨addr, 0, List.replicate 16 0⟩

/-- address families that are allowed in a neighbor key -/
def isMac (a : Netaddr) : Bool := a.type == AF_MAC48 || a.type == AF_EUI64

/-- `oonf_layer2_neigh_add_lid`, oonf_layer2.c:822-858 -/
def Net.neighAdd (n : Net) (k : Key) : Net :=
  if !isMac k.addr then n
  else match n.neighGet k with
    | some _ => n
    | none => { n with neighs := n.neighs ++ [⟨k, neighMeta.map blank, [], []⟩] }

/-- the changes of `oonf_layer2_neigh_remove` to the object itself, oonf_layer2.c:899-914 -/
def Neigh.strip (g : Neigh) (o : Oid) : Neigh :=
  { g with dests := g.dests.filter (fun e => e.2 != o), ips := g.ips.filter (fun e => e.2 != o),
           data := cleanup o g.data }

/-- the variable `changed` of `oonf_layer2_neigh_remove` -/
def Neigh.touched (g : Neigh) (o : Oid) : Bool :=
  g.dests.any (fun e => e.2 == o) || g.ips.any (fun e => e.2 == o) || cleanupChanged o g.data

/-- `oonf_layer2_neigh_remove`, oonf_layer2.c:888-920: the network and the returned flag -/
def Net.neighRemove (n : Net) (k : Key) (o : Oid) : Net × Bool :=
  match n.neighGet k with
  | none => (n, false)
  | some g =>
    let n' := { n.putNeigh k (fun g => g.strip o) with
      remote := dropRemote k (g.ips.filter (fun e => e.2 == o)) n.remote }
    (if g.touched o then n'.neighCommit k else n', g.touched o)

/-- the loop over the neighbors in `oonf_layer2_net_remove`, oonf_layer2.c:589-593 -/
def Net.removeLoop (o : Oid) : List Key → Net × Bool → Net × Bool
  | [], s => s
  | k :: ks, s => Net.removeLoop o ks ((s.1.neighRemove k o).1, s.2 || (s.1.neighRemove k o).2)

/-- `oonf_layer2_net_cleanup` without the neighbors, oonf_layer2.c:552-563 -/
def Net.cleanupOwn (n : Net) (o : Oid) : Net :=
  { n with data := cleanup o n.data, neighData := cleanup o n.neighData }

/-- `oonf_layer2_net_cleanup`, oonf_layer2.c:546-571 -/
def Net.cleanupAll (n : Net) (o : Oid) : Net :=
  { n.cleanupOwn o with neighs := n.neighs.map (fun g => { g with data := cleanup o g.data }) }

/-- `oonf_layer2_net_remove`, oonf_layer2.c:580-603, up to the call of `oonf_layer2_net_commit`: the
changed object, and whether something changed -/
def Net.strip (n : Net) (o : Oid) : Net × Bool :=
  let s := Net.removeLoop o (n.neighs.map (·.key)) (n, false)
  (s.1.cleanupOwn o, s.2 || cleanupChanged o s.1.data || cleanupChanged o s.1.neighData)

/-- change or remove (`none`) the network with the stored name `name` -/
def Db.updNet (db : Db) (name : List UInt8) (f : Net → Option Net) : Db :=
  { db with nets := db.nets.filterMap (fun n => if n.name = name then f n else some n) }

/-- `_net_remove`, oonf_layer2.c:1490-1513: the peer addresses go with the network -/
def Db.dropNet (db : Db) (name : List UInt8) : Db :=
  match db.nets.find? (fun n => n.name == name) with
  | none => db
  | some n =>
    { db with
      nets := db.nets.filter (fun n => n.name != name),
      peerIndex := n.peers.foldl (fun ix e => ix.erase (e.1, name)) db.peerIndex }

/-- `oonf_layer2_net_commit`, oonf_layer2.c:611-636 -/
def Db.netCommit (db : Db) (name : List UInt8) : Db :=
  match db.nets.find? (fun n => n.name == name) with
  | none => db
  | some n => if n.unused then db.dropNet name else db

/-- `oonf_layer2_net_remove`, oonf_layer2.c:580-603 -/
def Db.netRemove (db : Db) (name : List UInt8) (o : Oid) : Db :=
  match db.nets.find? (fun n => n.name == name) with
  | none => db
  | some n =>
    let db' := db.updNet name (fun n => some (n.strip o).1)
    if (n.strip o).2 then db'.netCommit name else db'

/-- `oonf_layer2_origin_add`, oonf_layer2.c:246-255 -/
def Db.originAdd (db : Db) (o : Oid) : Db :=
  { db with origins := if o ∈ db.origins then db.origins else db.origins ++ [o] }

/-- `oonf_layer2_origin_remove`, oonf_layer2.c:261-274 -/
def Db.originRemove (db : Db) (o : Oid) : Db :=
  if o ∉ db.origins then db
  else
    let db' := (db.nets.map (·.name)).foldl (fun db name => db.netRemove name o) db
    { db' with origins := db'.origins.filter (· != o) }

/-- replace originator `old` by `new` in a data object, oonf_layer2.c:653-655 -/
def relabelData (new old : Oid) (d : Data) : Data := if d.origin = some old then { d with origin := some new } else d

/-- replace originator `old` by `new` of an address, oonf_layer2.c:664-668 -/
def relabelAddr (new old : Oid) (e : Netaddr × Oid) : Netaddr × Oid := if e.2 = old then (e.1, new) else e

/-- `oonf_layer2_neigh_relabel`, oonf_layer2.c:956-980 -/
def Neigh.relabel (new old : Oid) (g : Neigh) : Neigh :=
  { g with data := g.data.map (relabelData new old), ips := g.ips.map (relabelAddr new old),
           dests := g.dests.map (relabelAddr new old) }

/-- `oonf_layer2_net_relabel`, oonf_layer2.c:645-673 -/
def Net.relabel (new old : Oid) (n : Net) : Net :=
  { n with data := n.data.map (relabelData new old), neighData := n.neighData.map (relabelData new old),
           peers := n.peers.map (relabelAddr new old), neighs := n.neighs.map (Neigh.relabel new old) }

/-- `oonf_layer2_net_add_ip`, oonf_layer2.c:682-712 -/
def Db.peerAdd (db : Db) (name : List UInt8) (o : Oid) (ip : Netaddr) : Db :=
  match db.nets.find? (fun n => n.name == name) with
  | none => db
  | some n =>
    if n.peers.any (fun e => e.1 == ip) then
      db.updNet name (fun n => some { n with peers := n.peers.map (fun e => if e.1 = ip then (ip, o) else e) })
    else
      { db.updNet name (fun n => some { n with peers := n.peers ++ [(ip, o)] }) with
        peerIndex := db.peerIndex ++ [(ip, name)] }

/-- `oonf_layer2_net_remove_ip`, oonf_layer2.c:720-732 for the object with address `ip` -/
def Db.peerRemove (db : Db) (name : List UInt8) (o : Oid) (ip : Netaddr) : Db :=
  match db.nets.find? (fun n => n.name == name) with
  | none => db
  | some n =>
    if (ip, o) ∈ n.peers then
      { db.updNet name (fun n => some { n with peers := n.peers.filter (fun e => e.1 != ip) }) with
        peerIndex := db.peerIndex.erase (ip, name) }
    else db

/-- `oonf_layer2_neigh_add_ip`, oonf_layer2.c:1025-1058 -/
def Net.ipAdd (n : Net) (k : Key) (o : Oid) (ip : Netaddr) : Net :=
  match n.neighGet k with
  | none => n
  | some g =>
    if g.ips.any (fun e => e.1 == ip) then
      n.putNeigh k (fun g => { g with ips := g.ips.map (fun e => if e.1 = ip then (ip, o) else e) })
    else
      { n.putNeigh k (fun g => { g with ips := g.ips ++ [(ip, o)] }) with remote := n.remote ++ [(ip, k)] }

/-- `oonf_layer2_neigh_remove_ip`, oonf_layer2.c:1066-1078 for the object with address `ip` -/
def Net.ipRemove (n : Net) (k : Key) (o : Oid) (ip : Netaddr) : Net :=
  match n.neighGet k with
  | none => n
  | some g =>
    if (ip, o) ∈ g.ips then
      { n.putNeigh k (fun g => { g with ips := g.ips.filter (fun e => e.1 != ip) }) with
        remote := n.remote.erase (ip, k) }
    else n

/-- `oonf_layer2_destination_add`, oonf_layer2.c:1088-1116: an existing destination keeps its
originator -/
def Net.destAdd (n : Net) (k : Key) (o : Oid) (d : Netaddr) : Net :=
  n.putNeigh k (fun g => if g.dests.any (fun e => e.1 == d) then g else { g with dests := g.dests ++ [(d, o)] })

/-- `oonf_layer2_destination_remove`, oonf_layer2.c:1122-1131 -/
def Net.destRemove (n : Net) (k : Key) (d : Netaddr) : Net :=
  n.putNeigh k (fun g => { g with dests := g.dests.filter (fun e => e.1 != d) })

/-- `oonf_layer2_neigh_query`, oonf_layer2.c:1141-1173 -/
def Db.query (db : Db) (ifname : List UInt8) (mac : Netaddr) (idx : Nat) (getDefault : Bool) : Option Data :=
  match db.netGet ifname with
  | none => none
  | some n =>
    match (n.neighGet (macKey mac)).bind (fun g => g.data[idx]?.filter Data.hasValue) with
    | some d => some d
    | none => if !getDefault then none else n.neighData[idx]?.filter Data.hasValue

/-- `oonf_layer2_neigh_get_data`, oonf_layer2.c:1208-1223 -/
def neighGetData (n : Net) (g : Neigh) (idx : Nat) : Option Data :=
  match g.data[idx]?.filter Data.hasValue with
  | some d => some d
  | none => n.neighData[idx]?.filter Data.hasValue

/-- all neighbor addresses in the order of the loops in lines 750-752 -/
def Db.allIps (db : Db) : List (Netaddr × Key) :=
  db.nets.flatMap (fun n => n.neighs.flatMap (fun g => g.ips.map (fun e => (e.1, g.key))))

/-- one step of the loop of `oonf_layer2_net_get_best_neighbor_match`, oonf_layer2.c:753-756 -/
def matchStep (addr : Netaddr) (s : Option (Netaddr × Key) × Nat) (e : Netaddr × Key) : Option (Netaddr × Key) × Nat :=
  if isInSubnet e.1 addr = some true ∧ e.1.prefixLen.toNat < s.2 then (some e, e.1.prefixLen.toNat) else s

/-- `oonf_layer2_net_get_best_neighbor_match`, oonf_layer2.c:740-761 -/
def Db.bestMatch (db : Db) (addr : Netaddr) : Option (Netaddr × Key) :=
  (db.allIps.foldl (matchStep addr) (none, 256)).1

end Verif.Layer2
