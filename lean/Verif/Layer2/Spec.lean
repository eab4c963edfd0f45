import Verif.Layer2.Model
/-
Specification of the layer-2 database: the facts it holds and who contributed them.
-/
namespace Verif.Layer2
open Verif.Netaddr

/-- the places of a network where information is stored -/
inductive Loc
  /-- metric `i` of the interface -/
  | metric (i : Nat)
  /-- default for metric `i` of the neighbors -/
  | default (i : Nat)
  /-- address of the local radio -/
  | peer (ip : Netaddr)
  /-- metric `i` of a neighbor -/
  | neighMetric (k : Key) (i : Nat)
  /-- IP address of a neighbor -/
  | neighIp (k : Key) (ip : Netaddr)
  /-- address that can be reached through a neighbor -/
  | dest (k : Key) (mac : Netaddr)
deriving DecidableEq

/-- Network `n` holds a fact contributed by originator `o` at a place; `c` is the stored number or
flag with its kind (addresses have none). -/
def Holds (n : Net) (l : Loc) (o : Oid) (c : Option (Meta × Value)) : Prop :=
  match l with
  | .metric i => ∃ m v, n.data[i]? = some ⟨v, some m, some o⟩ ∧ c = some (m, v)
  | .default i => ∃ m v, n.neighData[i]? = some ⟨v, some m, some o⟩ ∧ c = some (m, v)
  | .peer ip => (ip, o) ∈ n.peers ∧ c = none
  | .neighMetric k i => ∃ g ∈ n.neighs, g.key = k ∧ ∃ m v, g.data[i]? = some ⟨v, some m, some o⟩ ∧ c = some (m, v)
  | .neighIp k ip => ∃ g ∈ n.neighs, g.key = k ∧ (ip, o) ∈ g.ips ∧ c = none
  | .dest k mac => ∃ g ∈ n.neighs, g.key = k ∧ (mac, o) ∈ g.dests ∧ c = none

/-- the place is about neighbor `k` -/
def Loc.about (l : Loc) (k : Key) : Prop :=
  match l with
  | .neighMetric k' _ => k' = k
  | .neighIp k' _ => k' = k
  | .dest k' _ => k' = k
  | _ => False

/-- a place other than the addresses of the local radio -/
def Loc.notPeer (l : Loc) : Prop :=
  match l with
  | .peer _ => False
  | _ => True

/-- the database holds a fact about interface `name` -/
def HoldsDb (db : Db) (name : List UInt8) (l : Loc) (o : Oid) (c : Option (Meta × Value)) : Prop :=
  ∃ n ∈ db.nets, n.name = name ∧ Holds n l o c

/-- the database has an object for neighbor `k` of interface `name` -/
def HasNeigh (db : Db) (name : List UInt8) (k : Key) : Prop :=
  ∃ n ∈ db.nets, n.name = name ∧ ∃ g ∈ n.neighs, g.key = k

/-- the database has an object for interface `name` -/
def HasNet (db : Db) (name : List UInt8) : Prop := ∃ n ∈ db.nets, n.name = name

/-- all addresses of the neighbors of a network -/
def neighIps (gs : List Neigh) : List (Netaddr × Key) :=
  gs.flatMap (fun g => g.ips.map (fun e => (e.1, g.key)))

/-- all addresses of local radios -/
def peerIps (ns : List Net) : List (Netaddr × List UInt8) :=
  ns.flatMap (fun n => n.peers.map (fun e => (e.1, n.name)))

/-- consistency of a network: no two neighbors with the same key, no address twice, and the index of
neighbor addresses consists of exactly the addresses of the neighbors -/
structure Net.WF (n : Net) : Prop where
  keys : (n.neighs.map (·.key)).Nodup
  ips : ∀ g ∈ n.neighs, (g.ips.map (·.1)).Nodup
  dests : ∀ g ∈ n.neighs, (g.dests.map (·.1)).Nodup
  peers : (n.peers.map (·.1)).Nodup
  remote : n.remote.Perm (neighIps n.neighs)

/-- consistency of the database -/
structure Db.WF (db : Db) : Prop where
  names : (db.nets.map (·.name)).Nodup
  nets : ∀ n ∈ db.nets, n.WF
  peerIndex : db.peerIndex.Perm (peerIps db.nets)

/-! ### histories -/

/-- the operations of the database; `name` is the stored name of an interface -/
inductive Op
  | netAdd (ifname : List UInt8)
  | neighAdd (name : List UInt8) (k : Key)
  | setMetric (name : List UInt8) (i : Nat) (o : Oid) (m : Option Meta) (v : Value)
  | setDefault (name : List UInt8) (i : Nat) (o : Oid) (m : Option Meta) (v : Value)
  | setNeigh (name : List UInt8) (k : Key) (i : Nat) (o : Oid) (m : Option Meta) (v : Value)
  | peerAdd (name : List UInt8) (o : Oid) (ip : Netaddr)
  | peerRemove (name : List UInt8) (o : Oid) (ip : Netaddr)
  | ipAdd (name : List UInt8) (k : Key) (o : Oid) (ip : Netaddr)
  | ipRemove (name : List UInt8) (k : Key) (o : Oid) (ip : Netaddr)
  | destAdd (name : List UInt8) (k : Key) (o : Oid) (d : Netaddr)
  | destRemove (name : List UInt8) (k : Key) (d : Netaddr)
  | neighCommit (name : List UInt8) (k : Key)
  | neighRemove (name : List UInt8) (k : Key) (o : Oid)
  | netCleanup (name : List UInt8) (o : Oid)
  | netCommit (name : List UInt8)
  | netRemove (name : List UInt8) (o : Oid)
  | relabel (name : List UInt8) (new old : Oid)
  | originAdd (o : Oid)
  | originRemove (o : Oid)

/-- change a network in place -/
def Db.mapNet (db : Db) (name : List UInt8) (f : Net → Net) : Db := db.updNet name (fun n => some (f n))

/-- write one metric of a list; a failed assertion stops the program, the state is then kept -/
def setAt (prio : Oid → Nat) (ds : List Data) (i : Nat) (o : Oid) (m : Option Meta) (v : Value) : List Data :=
  match ds[i]? with
  | none => ds
  | some d =>
    match dataSet prio d o m v with
    | none => ds
    | some r => ds.set i r.2

/-- effect of an operation -/
def step (prio : Oid → Nat) (db : Db) : Op → Db
  | .netAdd ifname => (netAdd db ifname).1
  | .neighAdd name k => db.mapNet name (fun n => n.neighAdd k)
  | .setMetric name i o m v => db.mapNet name (fun n => { n with data := setAt prio n.data i o m v })
  | .setDefault name i o m v => db.mapNet name (fun n => { n with neighData := setAt prio n.neighData i o m v })
  | .setNeigh name k i o m v =>
    db.mapNet name (fun n => n.putNeigh k (fun g => { g with data := setAt prio g.data i o m v }))
  | .peerAdd name o ip => db.peerAdd name o ip
  | .peerRemove name o ip => db.peerRemove name o ip
  | .ipAdd name k o ip => db.mapNet name (fun n => n.ipAdd k o ip)
  | .ipRemove name k o ip => db.mapNet name (fun n => n.ipRemove k o ip)
  | .destAdd name k o d => db.mapNet name (fun n => n.destAdd k o d)
  | .destRemove name k d => db.mapNet name (fun n => n.destRemove k d)
  | .neighCommit name k => db.mapNet name (fun n => n.neighCommit k)
  | .neighRemove name k o => db.mapNet name (fun n => (n.neighRemove k o).1)
  | .netCleanup name o => db.mapNet name (fun n => n.cleanupAll o)
  | .netCommit name => db.netCommit name
  | .netRemove name o => db.netRemove name o
  | .relabel name new old => db.mapNet name (Net.relabel new old)
  | .originAdd o => db.originAdd o
  | .originRemove o => db.originRemove o

/-- the empty database, state after `_init` (oonf_layer2.c:217-233) -/
def Db.empty : Db := ⟨[], [], []⟩

/-- a history of operations -/
def runOps (prio : Oid → Nat) (db : Db) : List Op → Db
  | [] => db
  | op :: ops => runOps prio (step prio db op) ops

end Verif.Layer2
