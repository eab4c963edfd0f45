import Verif.Nhdp.Model

/-
Specification of the properties of the NHDP database.
-/
namespace Verif.Nhdp

/-- an address of the neighbor is one of ours: the originator of this router is the address of the remote interface or the originator of
the neighbor, an address of the local interface is the address of the remote interface, or the MAC addresses are equal -/
def Collides (l : LinkInfo) : Prop :=
  (l.localOrig ≠ none ∧ (l.ifAddr = l.localOrig ∨ l.neighOrig = l.localOrig)) ∨ (∃ a ∈ l.ownAddrs, a = l.ifAddr) ∨ (l.mac ≠ none ∧ l.mac = l.ownMac)

/-- `l` is a symmetric link of the neighbor `n` -/
def IsSym (db : Db) (n l : Nat) : Prop := ∃ x, db.links.get l = some x ∧ x.neigh = n ∧ x.status = .symmetric

/-- the symmetric links of a neighbor -/
def symLinks (db : Db) (n : Nat) : List Nat :=
  db.links.keys.filter fun l => (db.links.get l).any fun x => decide (x.neigh = n) && decide (x.status = .symmetric)

/-- the addresses of the HELLO do not mix neighbors: a link found by a THIS_IF address and a neighbor found by a LOCAL_IF address belong
together -/
def NoMix (db : Db) (h : Hello) : Prop :=
  ∀ e ∈ h.entries, ∀ f ∈ h.entries, e.localIf = some true → f.localIf ≠ none →
    ∀ la lnk na, db.laddrs.get (h.ifc, e.addr) = some la → db.links.get la.link = some lnk → db.naddrs.get f.addr = some na → lnk.neigh = na.neigh

/-- the THIS_IF addresses of the HELLO belong to at most one link -/
def OneLink (db : Db) (h : Hello) : Prop :=
  ∀ e ∈ h.entries, ∀ f ∈ h.entries, e.localIf = some true → f.localIf = some true →
    ∀ la lb, db.laddrs.get (h.ifc, e.addr) = some la → db.laddrs.get (h.ifc, f.addr) = some lb → la.link = lb.link

/-- the objects of an event exist: timers of removed objects do not fire -/
def Live (db : Db) : Ev → Prop
  | .hello _ _ _ => True
  | .update l _ => db.links.get l ≠ none
  | .unsym l => db.links.get l ≠ none
  | .expire l => db.links.get l ≠ none
  | .naddrExpire _ => True
  | .dropped l n => db.links.get l ≠ none ∧ db.neighs.get n ≠ none

/-- the addresses of HELLOs do not mix neighbors -/
def Sane (db : Db) : Ev → Prop
  | .hello h _ _ => NoMix db h
  | _ => True

/-- HELLOs name at most one link; the interface of a symmetric link does not go down, HELLOs are not dropped halfway -/
def Regular (db : Db) : Ev → Prop
  | .hello h _ _ => NoMix db h ∧ OneLink db h
  | .unsym _ => False
  | .dropped _ _ => False
  | _ => True

/-- the databases which arise from the empty one by events of a kind -/
inductive Reach (P : Db → Ev → Prop) : Db → Prop
  | empty : Reach P Db.empty
  | step {db db' : Db} (ev : Ev) : Reach P db → Live db ev → P db ev → step db ev = some db' → Reach P db'

end Verif.Nhdp
