import Verif.Nhdp.Map

/-
Model of the database of NHDP (`src/nhdp/nhdp/nhdp_db.c`) and of the processing of HELLOs (`src/nhdp/nhdp/nhdp_reader.c`).

Objects are identified by a number which is never used again.  An access to an object which does not exist any more is an access to
freed memory; such an operation has the result `none`.  Not modelled: allocation failures, listeners of class events, domain data
(see `Verif.Domain`), two-hop addresses (only the access to the link they belong to), hysteresis (its result is part of the status
computed in the end), the hold times.
-/
namespace Verif.Nhdp

/-! ### Status of links -/

/-- `enum nhdp_link_status`, nhdp_db.h:81-94 -/
inductive Status
  | pending | lost | symmetric | heard
deriving DecidableEq, Repr

/-- what `_nhdp_db_link_calculate_status` looks at; addresses are numbers, `none`: unspecified.  `localOrig`: originator of this
router for the family of the link, `ifAddr`: address of the remote interface, `neighOrig`: originator of the neighbor,
`ownAddrs`: addresses of the local interface, `ownMac`, `mac`: MAC of local and remote interface -/
structure LinkInfo where
  localOrig : Option Nat
  ifAddr : Option Nat
  neighOrig : Option Nat
  ownAddrs : List (Option Nat)
  ownMac : Option Nat
  mac : Option Nat
  hystPending : Bool
  hystLost : Bool
  symTimer : Bool
  heardTimer : Bool
deriving DecidableEq, Repr

/-- `_nhdp_db_link_calculate_status`, nhdp_db.c:918-955 -/
def calculateStatus (l : LinkInfo) : Status :=
  if l.localOrig ≠ none ∧ (l.localOrig = l.ifAddr ∨ l.localOrig = l.neighOrig) then .pending
  else if l.ifAddr ∈ l.ownAddrs then .pending
  else if l.mac ≠ none ∧ l.ownMac = l.mac then .pending
  else if l.hystPending then .pending
  else if l.hystLost then .lost
  else if l.symTimer then .symmetric
  else if l.heardTimer then .heard
  else .lost

/-! ### Dualstack partners -/

/-- `nhdp_db_neigbor_disconnect_dualstack`, `nhdp_db_link_disconnect_dualstack`, nhdp_db.c:511-516, 812-817; `live`: the objects which
exist, `m`: field `dualstack_partner` -/
def disconnect (live : List Nat) (m : Map Nat Nat) (n : Nat) : Option (Map Nat Nat) :=
  if n ∉ live then none
  else
    match m.get n with
    | none => some m
    | some p => if p ∉ live then none else some ((m.del p).del n)

/-- `neigh->dualstack_partner = partner` -/
def setPartner (m : Map Nat Nat) (n p : Nat) : Map Nat Nat := (m.del n).add n p

/-- one half of `nhdp_db_neighbor_connect_dualstack` -/
def connectHalf (live : List Nat) (m : Map Nat Nat) (a b : Nat) : Option (Map Nat Nat) :=
  if a ∉ live then none
  else if m.get a = some b then some m
  else (disconnect live m a).map fun m => setPartner m a b

/-- `nhdp_db_neighbor_connect_dualstack`, `nhdp_db_link_connect_dualstack`, nhdp_db.c:491-504, 793-806 -/
def connect (live : List Nat) (m : Map Nat Nat) (a b : Nat) : Option (Map Nat Nat) :=
  (connectHalf live m a b).bind fun m => connectHalf live m b a

/-! ### Database -/

abbrev Addr := Nat

/-- `struct nhdp_neighbor`: `originator` (`none`: unspecified), `symmetric`, `_process_count` -/
structure Neigh where
  orig : Option Addr
  sym : Int
  count : Int
deriving DecidableEq, Repr

/-- `struct nhdp_link`: `neigh`, `local_if`, `status`, `_process_count` -/
structure Link where
  neigh : Nat
  ifc : Nat
  status : Status
  count : Int
deriving DecidableEq, Repr

/-- `struct nhdp_naddr`: `neigh`, `_might_be_removed`, whether the lost timer runs -/
structure NAddr where
  neigh : Nat
  mark : Bool
  lost : Bool
deriving DecidableEq, Repr

/-- `struct nhdp_laddr`: `link`, `_might_be_removed` -/
structure LAddr where
  link : Nat
  mark : Bool
deriving DecidableEq, Repr

/-- the database: `_neigh_list`, `_link_list`, `_naddr_tree`, the trees `_link_addresses` of the interfaces (key: interface and address),
the fields `dualstack_partner` of neighbors and links.  The lists and trees in neighbors and links are the objects which
point to them, the originator trees are the neighbors with originator. -/
structure Db where
  neighs : Map Nat Neigh
  links : Map Nat Link
  naddrs : Map Addr NAddr
  laddrs : Map (Nat × Addr) LAddr
  npart : Map Nat Nat
  lpart : Map Nat Nat
  next : Nat
deriving DecidableEq, Repr

def Db.empty : Db := ⟨[], [], [], [], [], [], 0⟩

/-- `nhdp_db_neighbor_add`, nhdp_db.c:199-224 -/
def neighAdd (db : Db) : Db × Nat := ({ db with neighs := db.neighs.add db.next ⟨none, 0, 0⟩, next := db.next + 1 }, db.next)

/-- `nhdp_db_link_add`, nhdp_db.c:531-574; the status is 0 (`NHDP_LINK_LOST`) -/
def linkAdd (db : Db) (n ifc : Nat) : Option (Db × Nat) :=
  match db.neighs.get n with
  | none => none
  | some _ => some ({ db with links := db.links.add db.next ⟨n, ifc, .lost, 0⟩, next := db.next + 1 }, db.next)

/-- `nhdp_db_link_remove`, nhdp_db.c:607-647; the addresses of the link are removed, which needs the neighbor of the link -/
def linkRemove (db : Db) (l : Nat) : Option Db :=
  match db.links.get l with
  | none => none
  | some lnk =>
    match disconnect db.links.keys db.lpart l with
    | none => none
    | some lpart =>
      match db.neighs.get lnk.neigh with
      | none => none
      | some _ =>
        some { db with lpart := lpart, laddrs := db.laddrs.delWhere fun _ a => decide (a.link = l), links := db.links.del l }

/-- loop over the links of a neighbor, nhdp_db.c:252-255 -/
def linksRemove (db : Db) : List Nat → Option Db
  | [] => some db
  | l :: ls => (linkRemove db l).bind fun db => linksRemove db ls

/-- the links of a neighbor (`_links`) -/
def linksOf (db : Db) (n : Nat) : List Nat := db.links.keys.filter fun l => (db.links.get l).any fun x => decide (x.neigh = n)

/-- `nhdp_db_neighbor_remove`, nhdp_db.c:230-285 -/
def neighRemove (db : Db) (n : Nat) : Option Db :=
  match db.neighs.get n with
  | none => none
  | some _ =>
    match disconnect db.neighs.keys db.npart n with
    | none => none
    | some npart =>
      match linksRemove { db with npart := npart } (linksOf db n) with
      | none => none
      | some db => some { db with naddrs := db.naddrs.delWhere fun _ a => decide (a.neigh = n), neighs := db.neighs.del n }

/-- `_link_status_not_symmetric_anymore`, nhdp_db.c:979-998 -/
def notSymmetric (db : Db) (l : Nat) : Option Db :=
  match db.links.get l with
  | none => none
  | some lnk =>
    match db.neighs.get lnk.neigh with
    | none => none
    | some n =>
      some { db with
        neighs := db.neighs.upd lnk.neigh fun x => { x with sym := x.sym - 1 }
        naddrs := if n.sym - 1 = 0 then db.naddrs.updWhere (fun _ a => decide (a.neigh = lnk.neigh)) fun a => { a with lost := true } else db.naddrs }

/-- `_link_status_now_symmetric`, nhdp_db.c:961-973 -/
def nowSymmetric (db : Db) (l : Nat) : Option Db :=
  match db.links.get l with
  | none => none
  | some lnk =>
    match db.neighs.get lnk.neigh with
    | none => none
    | some n =>
      some { db with
        neighs := db.neighs.upd lnk.neigh fun x => { x with sym := x.sym + 1 }
        naddrs := if n.sym + 1 = 1 then db.naddrs.updWhere (fun _ a => decide (a.neigh = lnk.neigh)) fun a => { a with lost := false } else db.naddrs }

/-- `nhdp_db_link_update_status`, nhdp_db.c:823-857; `st`: result of `_nhdp_db_link_calculate_status` (which reads the originator of the
neighbor) -/
def updateStatus (db : Db) (l : Nat) (st : Status) : Option Db :=
  match db.links.get l with
  | none => none
  | some lnk =>
    match db.neighs.get lnk.neigh with
    | none => none
    | some _ =>
      let db := { db with links := db.links.upd l fun x => { x with status := st } }
      if lnk.status = .symmetric ∧ st ≠ .symmetric then notSymmetric db l
      else if lnk.status ≠ .symmetric ∧ st = .symmetric then nowSymmetric db l
      else some db

/-- `nhdp_db_link_set_unsymmetric`, nhdp_db.c:580-601; called when an interface goes down, nhdp_interfaces.c:300-303, 590-595 -/
def setUnsymmetric (db : Db) (l : Nat) : Option Db :=
  match db.links.get l with
  | none => none
  | some lnk => if lnk.status = .symmetric then notSymmetric db l else some db

/-- `_cb_link_vtime`, nhdp_db.c:1004-1026 -/
def linkExpired (db : Db) (l : Nat) : Option Db :=
  match db.links.get l with
  | none => none
  | some lnk =>
    match (if lnk.status = .symmetric then notSymmetric db l else some db) with
    | none => none
    | some db =>
      match linkRemove db l with
      | none => none
      | some db => if linksOf db lnk.neigh = [] then neighRemove db lnk.neigh else some db

/-- `_cb_naddr_vtime`, nhdp_db.c:1061-1069 -/
def naddrExpired (db : Db) (a : Addr) : Db := { db with naddrs := db.naddrs.del a }

/-- `nhdp_db_neighbor_get_by_originator`, nhdp_db.h:427-431 -/
def byOriginator (db : Db) (o : Addr) : Option Nat := db.neighs.findKey fun _ n => decide (n.orig = some o)

/-- `nhdp_interface_link_get_by_originator`, nhdp_interfaces.h:320-324 -/
def linkByOriginator (db : Db) (ifc : Nat) (o : Addr) : Option Nat :=
  db.links.findKey fun _ l => decide (l.ifc = ifc) && (db.neighs.get l.neigh).any fun n => decide (n.orig = some o)

/-- the neighbor which has a new originator up to now, nhdp_db.c:455-465 -/
def holder (db : Db) : Option Addr → Option Nat
  | none => none
  | some o => byOriginator db o

/-- it loses the originator -/
def clearHolder (neighs : Map Nat Neigh) : Option Nat → Map Nat Neigh
  | none => neighs
  | some n2 => neighs.upd n2 fun x => { x with orig := none }

/-- `nhdp_db_neighbor_set_originator`, nhdp_db.c:433-484 -/
def setOriginator (db : Db) (n : Nat) (o : Option Addr) : Option Db :=
  match db.neighs.get n with
  | none => none
  | some x =>
    if x.orig = o then some db
    else
      let neighs := db.neighs.upd n fun x => { x with orig := none }
      let neighs := clearHolder neighs (holder { db with neighs := neighs } o)
      some { db with neighs := neighs.upd n fun x => { x with orig := o } }

/-! ### HELLO -/

/-- an address of a HELLO: LOCAL_IF TLV (`some true`: THIS_IF, `some false`: OTHER_IF), and whether there is a LINK_STATUS or
OTHER_NEIGHB TLV -/
structure Entry where
  addr : Addr
  localIf : Option Bool
  hasLink : Bool
deriving DecidableEq, Repr

/-- a HELLO: interface, source address, originator (`none`: there is none), whether it is an IPv6 address, IPv4 originator TLV, addresses -/
structure Hello where
  ifc : Nat
  src : Addr
  orig : Option Addr
  orig6 : Bool
  origV4 : Option Addr
  entries : List Entry
deriving DecidableEq, Repr

/-- `_current`, nhdp_reader.c:209-229: `neighbor`, `link`, `naddr_conflict`, `laddr_conflict`, `has_thisif`, `originator_in_addrblk` -/
structure Current where
  neigh : Option Nat
  link : Option Nat
  naddrConflict : Bool
  laddrConflict : Bool
  hasThisif : Bool
  origInBlock : Bool
deriving DecidableEq, Repr

/-- end of `_cb_messagetlvs`, nhdp_reader.c:483-489 -/
def resetCounts (db : Db) (ifc : Nat) : Db :=
  { db with
    neighs := db.neighs.updWhere (fun _ _ => true) fun n => { n with count := 0 }
    links := db.links.updWhere (fun _ l => decide (l.ifc = ifc)) fun l => { l with count := 0 } }

/-- first part of `_cb_addresstlvs_pass1`: neighbor address, nhdp_reader.c:546-567 -/
def pass1Neigh (db : Db) (c : Current) (e : Entry) : Option (Db × Current) :=
  if e.localIf = none then some (db, c)
  else
    match db.naddrs.get e.addr with
    | none => some (db, c)
    | some na =>
      match db.neighs.get na.neigh with
      | none => none
      | some _ =>
        some ({ db with neighs := db.neighs.upd na.neigh fun n => { n with count := n.count + 1 } },
          if c.naddrConflict then c
          else if c.neigh = none then { c with neigh := some na.neigh }
          else if c.neigh ≠ some na.neigh then { c with neigh := none, naddrConflict := true }
          else c)

/-- second part: link address, nhdp_reader.c:569-592 -/
def pass1Link (db : Db) (ifc : Nat) (c : Current) (e : Entry) : Option (Db × Current) :=
  if e.localIf ≠ some true then some (db, c)
  else
    match db.laddrs.get (ifc, e.addr) with
    | none => some (db, { c with hasThisif := true })
    | some la =>
      match db.links.get la.link with
      | none => none
      | some _ =>
        let c := { c with hasThisif := true }
        some ({ db with links := db.links.upd la.link fun l => { l with count := l.count + 1 } },
          if c.laddrConflict then c
          else if c.link = none then { c with link := some la.link }
          else if c.link ≠ some la.link then { c with link := none, laddrConflict := true }
          else c)

/-- `_cb_addresstlvs_pass1`, nhdp_reader.c:516-608 -/
def pass1 (db : Db) (h : Hello) (c : Current) (e : Entry) : Option (Db × Current) :=
  let c := if h.orig = some e.addr then { c with origInBlock := true } else c
  (pass1Neigh db c e).bind fun x => pass1Link x.1 h.ifc x.2 e

def pass1All (db : Db) (h : Hello) (c : Current) : List Entry → Option (Db × Current)
  | [] => some (db, c)
  | e :: es => (pass1 db h c e).bind fun x => pass1All x.1 h x.2 es

/-- `_handle_originator`, nhdp_reader.c:354-385 -/
def handleOriginator (db : Db) (c : Current) (o : Addr) : Option (Db × Current) :=
  match byOriginator db o with
  | none => some (db, c)
  | some n =>
    if c.neigh = some n then some (db, c)
    else if c.neigh = none ∧ c.naddrConflict = false then some (db, { c with neigh := some n })
    else
      match db.neighs.get n with
      | none => none
      | some x => if x.count > 0 then some (db, c) else (setOriginator db n none).map fun db => (db, c)

/-- first part of `_pass2_process_localif`: link address, nhdp_reader.c:290-317; `l`: `_current.link` -/
def localifLink (db : Db) (ifc l : Nat) (a : Addr) : Option Db :=
  match db.laddrs.get (ifc, a) with
  | none =>
    match db.links.get l with
    | none => none
    | some lnk =>
      match db.neighs.get lnk.neigh with
      | none => none
      | some _ => some { db with laddrs := db.laddrs.add (lnk.ifc, a) ⟨l, false⟩ }
  | some la =>
    match db.links.get la.link with
    | none => none
    | some old =>
      let db := { db with links := db.links.upd la.link fun x => { x with count := x.count - 1 } }
      let removed :=
        if la.link = l then some db
        else
          match db.links.get l with
          | none => none
          | some new =>
            match db.neighs.get old.neigh, db.neighs.get new.neigh with
            | some _, some _ =>
              let db := { db with laddrs := db.laddrs.upd (ifc, a) fun x => { x with link := l } }
              if old.count - 1 = 0 then linkRemove db la.link else some db
            | _, _ => none
      removed.map fun db => { db with laddrs := db.laddrs.upd (ifc, a) fun x => { x with mark := false } }

/-- second part of `_pass2_process_localif`: neighbor address, nhdp_reader.c:320-347; `n`: `_current.neighbor` -/
def localifNeigh (db : Db) (n : Nat) (a : Addr) : Option Db :=
  match db.naddrs.get a with
  | none =>
    match db.neighs.get n with
    | none => none
    | some _ => some { db with naddrs := db.naddrs.add a ⟨n, false, false⟩ }
  | some na =>
    match db.neighs.get na.neigh with
    | none => none
    | some old =>
      let db := { db with neighs := db.neighs.upd na.neigh fun x => { x with count := x.count - 1 } }
      let removed :=
        if na.neigh = n then some db
        else
          match db.neighs.get n with
          | none => none
          | some _ =>
            let db := { db with naddrs := db.naddrs.upd a fun x => { x with neigh := n } }
            if old.count - 1 = 0 then neighRemove db na.neigh else some db
      removed.map fun db => { db with naddrs := db.naddrs.upd a fun x => { x with mark := false, lost := false } }

/-- `_pass2_process_localif`, nhdp_reader.c:281-349 -/
def processLocalif (db : Db) (ifc l n : Nat) (a : Addr) (thisIf : Bool) : Option Db :=
  (if thisIf then localifLink db ifc l a else some db).bind fun db => localifNeigh db n a

/-- access to `_current.link` and its neighbor -/
def touchLink (db : Db) (l : Nat) : Option Db :=
  match db.links.get l with
  | none => none
  | some lnk => (db.neighs.get lnk.neigh).map fun _ => db

def touchNeigh (db : Db) (n : Nat) : Option Db := (db.neighs.get n).map fun _ => db

/-- connection with the neighbor with the IPv4 originator, nhdp_reader.c:691-696 -/
def dualNeigh (db : Db) (n : Nat) (v4 : Addr) : Option Db :=
  match byOriginator db v4 with
  | none => some db
  | some n2 => (connect db.neighs.keys db.npart n n2).map fun p => { db with npart := p }

/-- connection with the link with the IPv4 originator, nhdp_reader.c:697-702 -/
def dualLink (db : Db) (ifc l : Nat) (v4 : Addr) : Option Db :=
  match linkByOriginator db ifc v4 with
  | none => some db
  | some l2 => (connect db.links.keys db.lpart l l2).map fun p => { db with lpart := p }

/-- handling of dualstack information, nhdp_reader.c:688-711 -/
def dualstack (db : Db) (h : Hello) (l n : Nat) : Option Db :=
  match h.orig with
  | none => some db
  | some _ =>
    match h.origV4 with
    | some v4 => (dualNeigh db n v4).bind fun db => dualLink db h.ifc l v4
    | none =>
      if h.orig6 then
        ((disconnect db.neighs.keys db.npart n).map fun p => { db with npart := p }).bind fun db =>
          (disconnect db.links.keys db.lpart l).map fun p => { db with lpart := p }
      else some db

/-- originator of the HELLO, nhdp_reader.c:625-629 -/
def originatorStep (db : Db) (h : Hello) (c : Current) : Option (Db × Current) :=
  match h.orig with
  | none => some (db, c)
  | some o => if c.origInBlock then some (db, c) else handleOriginator db c o

/-- allocation of the neighbor or marks of its addresses, nhdp_reader.c:632-647; addresses of other families, which are not marked, are
left out -/
def chooseNeigh (db : Db) (c : Current) : Db × Nat :=
  match c.neigh with
  | none => neighAdd db
  | some n => ({ db with naddrs := db.naddrs.updWhere (fun _ a => decide (a.neigh = n)) fun a => { a with mark := true } }, n)

/-- allocation of the link or marks of its addresses, nhdp_reader.c:650-663 -/
def chooseLink (db : Db) (ifc n : Nat) (c : Current) : Option (Db × Nat) :=
  match c.link with
  | none => linkAdd db n ifc
  | some l => some ({ db with laddrs := db.laddrs.updWhere (fun _ a => decide (a.link = l)) fun a => { a with mark := true } }, l)

/-- `_cb_addresstlvs_pass1_end` up to the allocation, nhdp_reader.c:616-663: the database, `_current.link` and `_current.neighbor` -/
def allocate (db : Db) (h : Hello) (c : Current) : Option (Db × Nat × Nat) :=
  match originatorStep db h c with
  | none => none
  | some (db, c) =>
    match chooseLink (chooseNeigh db c).1 h.ifc (chooseNeigh db c).2 c with
    | none => none
    | some (db', l) => some (db', l, (chooseNeigh db c).2)

/-- the rest of `_cb_addresstlvs_pass1_end`, nhdp_reader.c:667-717 -/
def pass1End (db : Db) (h : Hello) (hasThisif : Bool) (l n : Nat) : Option Db :=
  (touchLink db l).bind fun db =>
  (if hasThisif then some db else processLocalif db h.ifc l n h.src true).bind fun db =>
  (touchLink db l).bind fun db => dualstack db h l n

/-- address with or without LOCAL_IF TLV, nhdp_reader.c:819-830 -/
def localifStep (db : Db) (ifc l n : Nat) (e : Entry) : Option Db :=
  match e.localIf with
  | none => some db
  | some thisIf => processLocalif db ifc l n e.addr thisIf

/-- `_cb_addr_pass2_block`, nhdp_reader.c:811-880 -/
def pass2 (db : Db) (ifc l n : Nat) (e : Entry) : Option Db :=
  (localifStep db ifc l n e).bind fun db =>
  if e.hasLink then (touchLink db l).bind fun db => touchNeigh db n else some db

def pass2All (db : Db) (ifc l n : Nat) : List Entry → Option Db
  | [] => some db
  | e :: es => (pass2 db ifc l n e).bind fun db => pass2All db ifc l n es

/-- status update which is not always done -/
def heardStep (db : Db) (l : Nat) (heard : Option Status) : Option Db :=
  match heard with
  | none => some db
  | some s => updateStatus db l s

/-- `_cb_msg_pass2_end`, nhdp_reader.c:888-990; `heard`: first status update (`nhdp_db_link_set_symtime`), `st`: status in the end -/
def pass2End (db : Db) (h : Hello) (heard : Option Status) (st : Status) (l n : Nat) : Option Db :=
  (touchLink db l).bind fun db =>
  (touchNeigh db n).bind fun db =>
  let db := { db with laddrs := db.laddrs.delWhere fun _ a => decide (a.link = l) && a.mark }
  let db := { db with naddrs := db.naddrs.updWhere (fun _ a => decide (a.neigh = n) && a.mark) fun a => { a with lost := true } }
  (heardStep db l heard).bind fun db =>
  (setOriginator db n h.orig).bind fun db =>
  (updateStatus db l st).bind fun db => touchNeigh db n

/-- processing of a HELLO that is not dropped -/
def hello (db : Db) (h : Hello) (heard : Option Status) (st : Status) : Option Db :=
  (pass1All (resetCounts db h.ifc) h ⟨none, none, false, false, false, false⟩ h.entries).bind fun x =>
  (allocate x.1 h x.2).bind fun y =>
  (pass1End y.1 h x.2.hasThisif y.2.1 y.2.2).bind fun db =>
  (pass2All db h.ifc y.2.1 y.2.2 h.entries).bind fun db => pass2End db h heard st y.2.1 y.2.2

/-- `_cleanup_error`, nhdp_reader.c:262-273: a HELLO was dropped while `l` and `n` were the current link and neighbor -/
def cleanup (db : Db) (l n : Nat) : Option Db := (linkRemove db l).bind fun db => neighRemove db n

/-- what happens to the database -/
inductive Ev
  | hello (h : Hello) (heard : Option Status) (st : Status)
  | update (l : Nat) (st : Status)
  | unsym (l : Nat)
  | expire (l : Nat)
  | naddrExpire (a : Addr)
  | dropped (l n : Nat)

def step (db : Db) : Ev → Option Db
  | .hello h heard st => hello db h heard st
  | .update l st => updateStatus db l st
  | .unsym l => setUnsymmetric db l
  | .expire l => linkExpired db l
  | .naddrExpire a => some (naddrExpired db a)
  | .dropped l n => cleanup db l n

end Verif.Nhdp
