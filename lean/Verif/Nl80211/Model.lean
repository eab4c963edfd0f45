/-! # Data of wireless interfaces

Model of `src/generic/nl80211_listener`: numbers reported by the kernel, what a series of queries leaves in the layer2 database, the order of the
queries and the set of interfaces. Attributes of netlink messages are parsed already. -/

namespace Verif.Nl80211

/-! ## Numbers -/

/-- `_handle_traffic`, nl80211_get_station_dump.c:236-261: `old` is the value in the database, 0 if there is none (a counter is not negative, and far
below 2^63) -/
def traffic (old low : Nat) : Nat :=
  let v := old / 4294967296 * 4294967296 + low % 4294967296
  if v + 2147483648 < old then v + 4294967296 else v

/-- conversion of a `uint32_t` to `int` -/
def toInt (n : Nat) : Int := if n % 4294967296 < 2147483648 then (n % 4294967296 : Nat) else (n % 4294967296 : Nat) - 4294967296

/-- `_get_bitrate`, nl80211_get_station_dump.c:263-284: the attributes of 32 and 16 bit, if they are there -/
def bitrate (r32 r16 : Option Nat) : Int :=
  match r32 with
  | some r => (1048576 * toInt r).tdiv 10
  | none => match r16 with
    | some r => (1048576 * (r % 65536 : Nat) : Int).tdiv 10
    | none => 0

/-- `_get_bandwidth`, nl80211_get_interface.c:195-217, for the values of `enum nl80211_chan_width` (20_NOHT, 20, 40, 80, 80P80, 160, 5, 10) -/
def bandwidth : Nat → Nat
  | 0 => 20000000
  | 1 => 20000000
  | 2 => 40000000
  | 3 => 80000000
  | 4 => 80000000
  | 5 => 160000000
  | 6 => 5000000
  | 7 => 10000000
  | _ => 0

/-- the rate for multicasts, nl80211_get_interface.c:174-176; both bandwidths together -/
def mcRate (bw : Nat) : Nat := 6000000 * 20000000 / bw

/-- a bit of an octet string -/
def bit (mcs : List Nat) (k : Nat) : Bool := (mcs.getD (k / 8) 0).testBit (k % 8)

/-- a row of the tables `_mcs_table_80211n_20` and `_mcs_table_80211n_40` in 100 kbit/s, long and short guard interval -/
structure Rate where
  lgi : Nat
  sgi : Nat

/-- loop of `_get_max_bitrate`, nl80211_get_wiphy.c:411-434, over the first `n` indexes -/
def maxLoop (rate : Nat → Nat) (mcs : List Nat) : Nat → Nat
  | 0 => 0
  | n + 1 => if bit mcs n && decide (maxLoop rate mcs n < rate n) then rate n else maxLoop rate mcs n

/-- `_get_max_bitrate`, nl80211_get_wiphy.c:379-436: `bw` is the sum of both bandwidths if the first one is known -/
def maxBitrate (t20 t40 : Nat → Rate) (bw : Option Nat) (mcs : List Nat) (sgi20 sgi40 : Bool) : Nat :=
  match bw with
  | none => 0
  | some b =>
    if b = 20000000 then maxLoop (fun k => if sgi20 then (t20 k).sgi else (t20 k).lgi) mcs 77
    else if b = 40000000 then maxLoop (fun k => if sgi40 then (t40 k).sgi else (t40 k).lgi) mcs 77
    else 0

/-- `max_rx` and `max_tx` of `struct nl80211_if` -/
structure Best where
  rx : Nat := 0
  tx : Nat := 0
  deriving DecidableEq

/-- `_process_ht_mcs_array`, nl80211_get_wiphy.c:443-469; `rate` is the result of `_get_max_bitrate` -/
def ht (rate : Nat) (mcs : List Nat) (b : Best) : Best :=
  let supp := mcs.getD 10 0 + mcs.getD 11 0 % 4 * 256
  let tx := 1048576 * rate / 10
  let rx := if supp ≠ 0 then 1048576 * supp else tx
  { rx := if b.rx < rx then rx else b.rx, tx := if b.tx < tx then tx else b.tx }

/-- `_process_vht_mcs_array`, nl80211_get_wiphy.c:476-491: both numbers go to `max_rx` -/
def vht (mcs : List Nat) (b : Best) : Best :=
  let r1 := 1048576 * (mcs.getD 4 0 + mcs.getD 5 0 * 256)
  let b := { b with rx := if b.rx < r1 then r1 else b.rx }
  let r2 := 1048576 * (mcs.getD 6 0 + mcs.getD 7 0 * 256)
  { b with rx := if b.rx < r2 then r2 else b.rx }

/-! ## A series of queries and the layer2 database -/

/-- the two origins of the plugin (nl80211_listener.c:250-260) and others -/
inductive Org
  | data
  | updated
  | other (p : Nat)
  deriving DecidableEq

def Org.prio : Org → Nat
  | .data => 40
  | .updated => 41
  | .other p => p

/-- `struct oonf_layer2_data`: is there metadata, origin and value -/
structure Cell where
  hasMeta : Bool := true
  org : Option Org := none
  val : Int := 0
  deriving DecidableEq

/-- data of the network, default data of neighbors, data of a station -/
inductive Loc
  | net (i : Nat)
  | dflt (i : Nat)
  | sta (m i : Nat)
  deriving DecidableEq

/-- the layer2 network of an interface: its data, the neighbor objects, the destinations behind a neighbor with their origin; and `ifdata_changed` -/
structure Net where
  cell : Loc → Cell := fun _ => {}
  neigh : Nat → Bool := fun _ => false
  dest : Nat → Nat → Option Org := fun _ _ => none
  changed : Bool := false

/-- may an origin write to the cell, oonf_layer2.c:350-351 -/
def Cell.writable (c : Cell) : Bool :=
  match c.hasMeta, c.org with
  | true, some o => decide (o = .updated ∨ o.prio < Org.updated.prio)
  | _, _ => true

/-- `oonf_layer2_data_set`, oonf_layer2.c:341-358, for the origin `updated`: the new cell, and is it a change -/
def setCell (c : Cell) (v : Int) : Cell × Bool :=
  if c.writable then (⟨true, some .updated, v⟩, !c.hasMeta || decide (c.val ≠ v)) else (c, false)

/-- `oonf_layer2_data_reset` of data with the origin `data`, oonf_layer2.h:984-988 -/
def Cell.clean (c : Cell) : Cell := if c.org = some .data then { c with hasMeta := false, org := none } else c

/-- relabelling of a cell -/
def Cell.relabel (c : Cell) : Cell := if c.org = some .updated then { c with org := some .data } else c

def Net.set (n : Net) (l : Loc) (v : Int) : Net := { n with cell := fun l' => if l' = l then (setCell (n.cell l) v).1 else n.cell l' }

/-- what the kernel reports: data of the network or default data (their changes count, nl80211_get_interface.c, nl80211_get_survey.c,
nl80211_finalize_get_wiphy), a destination behind a neighbor, a station with its values. A station without any value is not modelled. The entry for
multicasts is not modelled. -/
inductive Rep
  | net (i : Nat) (v : Int)
  | dflt (i : Nat) (v : Int)
  | mpp (m d : Nat)
  | station (m : Nat) (vs : List (Nat × Int))

/-- processing of a report: `nl80211_change_l2net_data`, `nl80211_change_l2net_neighbor_default`, `nl80211_process_get_mpp_result` with
`nl80211_add_dst`, `nl80211_process_get_station_dump_result` -/
def report (n : Net) : Rep → Net
  | .net i v => { n.set (.net i) v with changed := n.changed || (setCell (n.cell (.net i)) v).2 }
  | .dflt i v => { n.set (.dflt i) v with changed := n.changed || (setCell (n.cell (.dflt i)) v).2 }
  | .mpp m d =>
    if n.neigh m then
      { n with dest := fun m' d' => if m' = m ∧ d' = d then
          (match n.dest m d with
          | none => some .updated
          | some .data => some .updated
          | some o => some o)
        else n.dest m' d' }
    else n
  | .station m vs =>
    let n' := vs.foldl (fun n x => n.set (.sta m x.1) x.2) n
    { n' with
      neigh := fun k => if k = m then true else n'.neigh k
      cell := fun l => match l with
        | .sta k i => if k = m then (n'.cell (.sta k i)).clean else n'.cell (.sta k i)
        | l => n'.cell l }

/-- the number of `OONF_LAYER2_NET_MCS_BY_PROBING` -/
def mcsIdx : Nat := 11

/-- the end of the queries for an interface, `_get_next_query`, nl80211_listener.c:619-631: `oonf_layer2_net_cleanup` and `oonf_layer2_net_relabel`.
Destinations are not cleaned up, neighbors are not committed. -/
def finish (n : Net) : Net :=
  if n.changed then
    let n := n.set (.net mcsIdx) 1
    { n with
      cell := fun l => ((n.cell l).clean).relabel
      dest := fun m d => if n.dest m d = some .updated then some .data else n.dest m d
      changed := false }
  else n

/-- all queries for an interface -/
def round (n : Net) (rs : List Rep) : Net := finish (rs.foldl report n)

/-! ## The order of the queries -/

/-- the plugin: interfaces in the order of the tree, the interface and number of the current query, `_current_query_in_progress`, are family and
multicast group known -/
structure St where
  ifs : List Nat := []
  cur : Option Nat := none
  num : Nat := 0
  busy : Bool := false
  known : Bool := false
  deriving DecidableEq

/-- the interface behind `c`, `avl_next_element_safe` -/
def nextOf (c : Nat) : List Nat → Option Nat
  | [] => none
  | x :: xs => if x = c then xs.head? else nextOf c xs

/-- `_get_next_query`, nl80211_listener.c:600-637. `none`: use of an interface whose memory is free -/
def getNext (s : St) : Option St :=
  if s.ifs = [] then some { s with cur := none }
  else match s.cur with
  | none => some { s with cur := s.ifs.head?, num := 0, busy := true }
  | some c =>
    if c ∉ s.ifs then none
    else if s.num + 1 = 5 then some { s with cur := nextOf c s.ifs, num := 0 }
    else some { s with num := s.num + 1 }

/-- the loop over interfaces that are down, nl80211_listener.c:659-661 (`fuel` for the number of rounds) -/
def skip (up : Nat → Bool) : Nat → St → Option St
  | 0, s => some s
  | fuel + 1, s => match getNext s with
    | none => none
    | some s => match s.cur with
      | none => some s
      | some c => if up c then some s else skip up fuel s

/-- messages to the kernel: for the family, or query `q` for interface `i` -/
inductive Msg
  | family
  | query (i q : Nat)
  deriving DecidableEq

/-- `_trigger_next_netlink_query`, nl80211_listener.c:642-672 -/
def trigger (up : Nat → Bool) (s : St) : Option (St × List Msg) :=
  if s.known = false then
    if s.busy then some ({ s with busy := false }, []) else some ({ s with busy := true }, [.family])
  else match skip up (5 * s.ifs.length + 1) s with
    | none => none
    | some s => match s.cur with
      | none => some ({ s with busy := false }, [])
      | some c => some (s, [.query c s.num])

/-- events: the timer, the end of a query (done, error or timeout), an answer with the family, an answer to the current query, and an interface that
is removed from the configuration -/
inductive Ev
  | timer
  | done
  | family
  | answer
  | remove (i : Nat)

/-- `_cb_transmission_event`, `_cb_nl_done`, `_cb_nl_error` and `_cb_nl_timeout`, `_cb_nl_message`, `_nl80211_if_remove` (nl80211_listener.c:511-516,
550-555, 678-743) -/
def step (up : Nat → Bool) (s : St) : Ev → Option (St × List Msg)
  | .timer => if s.busy then some (s, []) else trigger up s
  | .done => if s.known then trigger up s else some (s, [])
  | .family => some ({ s with known := true }, [])
  | .answer => match s.cur with
    | none => none
    | some c => if c ∈ s.ifs then some (s, []) else none
  | .remove i => some ({ s with ifs := s.ifs.filter (· ≠ i) }, [])

/-- a history of events with all messages -/
def steps (up : Nat → Bool) : St → List Ev → Option (St × List Msg)
  | s, [] => some (s, [])
  | s, e :: es => match step up s e with
    | none => none
    | some (s', m) => match steps up s' es with
      | none => none
      | some (s'', m') => some (s'', m ++ m')

/-! ## The set of interfaces -/

/-- `struct nl80211_if` -/
structure If where
  ifSec : Bool := false
  nlSec : Bool := false
  remove : Bool := false
  deriving DecidableEq

/-- the tree of interfaces, and the list of the section that was applied last -/
structure Tree where
  get : Nat → Option If := fun _ => none
  pre : List Nat := []

def Tree.put (t : Tree) (n : Nat) (x : Option If) : Tree := { t with get := fun m => if m = n then x else t.get m }

/-- `_nl80211_if_add`, nl80211_listener.c:461-505, and the update of the flags -/
def Tree.touch (t : Tree) (n : Nat) (f : If → If) : Tree := t.put n (some (f ((t.get n).getD {})))

/-- changes of the configuration: an interface section is new or removed, a new list of interfaces -/
inductive Cfg
  | add (n : Nat)
  | del (n : Nat)
  | list (l : List Nat)

/-- mark of old interfaces, nl80211_listener.c:763-772 -/
def mark (t : Tree) (n : Nat) : Tree :=
  match t.get n with
  | none => t
  | some x => t.put n (some { x with remove := !x.ifSec, nlSec := false })

/-- removal of those still marked, nl80211_listener.c:787-795 -/
def sweep (t : Tree) (n : Nat) : Tree :=
  match t.get n with
  | none => t
  | some x => if x.remove then t.put n none else t

/-- `_cb_if_config_changed` and `_cb_config_changed`, nl80211_listener.c:521-544 and 748-796 -/
def configure (t : Tree) : Cfg → Tree
  | .add n => t.touch n fun x => { x with ifSec := true }
  | .del n => match t.get n with
    | none => t
    | some x => if x.nlSec then t.put n (some { x with ifSec := false }) else t.put n none
  | .list l =>
    let t1 := t.pre.foldl mark t
    let t2 := l.foldl (fun t n => t.touch n fun x => { x with remove := false, nlSec := true }) t1
    { t.pre.foldl sweep t2 with pre := l }

end Verif.Nl80211
