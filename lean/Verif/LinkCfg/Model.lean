/-! # Configured link data

Model of `src/generic/link_config/link_config.c` on the layer2 data of its interfaces (`oonf_layer2_data_set`, `oonf_layer2_net_cleanup` of
`src/base/oonf_layer2.c`; the database itself is in `Verif.Layer2`). Interfaces and hardware addresses are numbers. Neighbor objects and the events
that are sent to other plugins are left out. -/

namespace Verif.LinkCfg

/-- a data item: on the interface itself (`neighdata`, no address) or of a neighbor; its index -/
structure Key where
  net : Nat
  mac : Option Nat
  idx : Nat
  deriving DecidableEq

/-- the origins of data: the two of this plugin (link_config.c:137-144) and others with their priority -/
inductive Org
  | old
  | cur
  | other (prio : Nat)
  deriving DecidableEq

/-- priority: OONF_LAYER2_ORIGIN_CONFIGURED is 30, oonf_layer2.h:184-189 -/
def Org.prio : Org → Nat
  | .old => 30
  | .cur => 30
  | .other p => p

structure Item where
  val : Int
  org : Org
  deriving DecidableEq

abbrev Db := Key → Option Item

def Db.put (db : Db) (k : Key) (x : Option Item) : Db := fun k' => if k' = k then x else db k'

/-- `oonf_layer2_data_set` with the origin `_l2_origin_current`, oonf_layer2.c:350-356: an item is overwritten if it is empty, of the same origin or
of an origin with lower priority. The configured scaling is that of the metadata. -/
def setData (x : Option Item) (v : Int) : Option Item :=
  match x with
  | none => some ⟨v, .cur⟩
  | some i => if i.org = .cur ∨ i.org.prio < Org.cur.prio then some ⟨v, .cur⟩ else some i

/-- a configured value: the number (`none`: not a number) and the words behind it (`none`: not an address) -/
structure Entry where
  value : Option Int
  words : List (Option Nat)
  deriving DecidableEq

/-- the loop over the addresses, link_config.c:308-324: ends at the first word that is none -/
def macs (net idx : Nat) (v : Int) : Db → List (Option Nat) → Db
  | db, [] => db
  | db, none :: _ => db
  | db, some m :: ws => macs net idx v (db.put ⟨net, some m, idx⟩ (setData (db ⟨net, some m, idx⟩) v)) ws

/-- one value of the list, link_config.c:294-325 -/
def entry (net idx : Nat) (db : Db) (e : Entry) : Db :=
  match e.value with
  | none => db
  | some v => if e.words.isEmpty then db.put ⟨net, none, idx⟩ (setData (db ⟨net, none, idx⟩) v) else macs net idx v db e.words

/-- the entries of a section with their index, in the order of the schema (link_config.c:345-354): `_parse_strarray` for each of them -/
abbrev Section := List (Nat × List Entry)

def parse (net : Nat) (db : Db) (s : Section) : Db := s.foldl (fun db x => x.2.foldl (entry net x.1) db) db

/-- `oonf_layer2_net_cleanup` with `_l2_origin_old`, link_config.c:362, and the loops that give the data its final origin, link_config.c:364-388.
The second of them ends at OONF_LAYER2_NET_COUNT (16). -/
def settle (net : Nat) (db : Db) : Db := fun k =>
  if k.net = net then
    match db k with
    | none => none
    | some i => if i.org = .old then none else if i.org = .cur ∧ (k.mac ≠ none ∨ k.idx < 16) then some ⟨i.val, .old⟩ else some i
  else db k

/-- the schema section of the plugin after the configuration was handled: the section found last, and the name of the section that changed last
(`_handle_named_section_change`, cfg_schema.c:1065-1103) -/
structure St where
  db : Db
  post : Option Section
  name : Nat

/-- the first half of `_cb_config_changed`, link_config.c:345-355 -/
def parsed (s : St) : Db :=
  match s.post with
  | none => s.db
  | some p => parse s.name s.db p

/-- `_cb_config_changed`, link_config.c:333-389; `phy` is `cfg_get_phy_if`. The network of the physical interface exists. -/
def changed (phy : Nat → Nat) (s : St) : St :=
  { s with db := settle (phy s.name) (parsed s) }

/-- one named section is looked at after a change of the configuration, cfg_schema.c:1049-1104: its name, its content afterwards, did it change (or
is it the start) -/
def visit (phy : Nat → Nat) (s : St) (x : Nat × Option Section × Bool) : St :=
  if x.2.2 then changed phy { s with post := x.2.1, name := x.1 } else { s with post := x.2.1 }

/-- all sections -/
def configure (phy : Nat → Nat) (s : St) (l : List (Nat × Option Section × Bool)) : St := l.foldl (visit phy) s

/-- `_cb_delayed_config`, link_config.c:226-230: one second after any change of layer2 data -/
def delayed (phy : Nat → Nat) (s : St) : St := changed phy s

end Verif.LinkCfg
