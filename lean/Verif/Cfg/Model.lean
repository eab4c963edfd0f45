import Verif.Str.Model

/-
Model of the configuration database, `src/libconfig/cfg_db.c` and `include/oonf/libconfig/cfg_db.h`.  Strings are lists of bytes other than
zero.  The trees are represented by lists in the order of the tree (see the `Avl` model), string arrays by lists of strings (see the `Str`
model).  Failing allocations are not modelled.
-/
namespace Verif.Cfg
open Verif.Str (toLower)

abbrev Str := List UInt8

/-- keys are compared with `strcasecmp`, `NULL` is a key (`cfg_avlcmp_keys`, cfg.c:149-162) -/
def fold (k : Option Str) : Option Str := k.map (·.map toLower)

/-- order of `strcasecmp` for strings in lower case -/
def strLt : Str → Str → Bool
  | _, [] => false
  | [], _ :: _ => true
  | a :: as, b :: bs => if a < b then true else if b < a then false else strLt as bs

/-- `cfg_avlcmp_keys(a, b) < 0` for keys in lower case -/
def keyLt : Option Str → Option Str → Bool
  | _, none => false
  | none, some _ => true
  | some a, some b => strLt a b

/-! Trees -/

section
variable {α : Type} (key : α → Option Str)

/-- `avl_find_element` -/
def find (l : List α) (k : Option Str) : Option α := l.find? fun x => fold (key x) == fold k

/-- `avl_insert` of a new key -/
def ins (l : List α) (x : α) : List α :=
  l.takeWhile (fun y => keyLt (fold (key y)) (fold (key x))) ++ x :: l.dropWhile (fun y => keyLt (fold (key y)) (fold (key x)))

/-- change of the element with a key -/
def upd (l : List α) (k : Option Str) (f : α → α) : List α := l.map fun x => if fold (key x) = fold k then f x else x

/-- `avl_remove` of the element with a key -/
def del (l : List α) (k : Option Str) : List α := l.filter fun x => fold (key x) != fold k

end

/-- `struct cfg_entry`, cfg_db.h:109-121 -/
structure Entry where
  name : Str
  vals : List Str
deriving DecidableEq, Repr

/-- `struct cfg_named_section`, cfg_db.h:92-104 -/
structure Named where
  name : Option Str
  entries : List Entry
deriving DecidableEq, Repr

/-- `struct cfg_section_type`, cfg_db.h:75-87 -/
structure SType where
  type : Str
  names : List Named
deriving DecidableEq, Repr

/-- `struct cfg_db`, cfg_db.h:64-70, without the pointer to the schema -/
abbrev Db := List SType

def Entry.key (e : Entry) : Option Str := some e.name
def SType.key (s : SType) : Option Str := some s.type

/-- `cfg_db_find_sectiontype`, cfg_db.h:284-323 -/
def findType (d : Db) (t : Str) : Option SType := find SType.key d (some t)

/-- `cfg_db_find_namedsection`, cfg_db.c:216-226 -/
def findNamed (d : Db) (t : Str) (n : Option Str) : Option Named :=
  match findType d t with
  | none => none
  | some s => find Named.name s.names n

/-- `cfg_db_find_entry`, cfg_db.c:322-333 -/
def findEntry (d : Db) (t : Str) (n : Option Str) (e : Str) : Option Entry :=
  match findNamed d t n with
  | none => none
  | some s => find Entry.key s.entries (some e)

/-- `_cfg_db_add_section`, cfg_db.c:156-186 -/
def addSection (d : Db) (t : Str) (n : Option Str) : Db :=
  match findType d t with
  | none => ins SType.key d ⟨t, ins Named.name [] ⟨n, []⟩⟩
  | some s =>
    match find Named.name s.names n with
    | some _ => d
    | none => upd SType.key d (some t) fun s => { s with names := ins Named.name s.names ⟨n, []⟩ }

/-- change of the entries of a named section -/
def updNamed (d : Db) (t : Str) (n : Option Str) (f : Named → Named) : Db :=
  upd SType.key d (some t) fun s => { s with names := upd Named.name s.names n f }

/-- the values of an entry after a new one was added, cfg_db.c:286-299 -/
def addVal (old : List Str) (v : Str) (append front : Bool) : List Str :=
  let old := if append then old else []
  if front then v :: old else old ++ [v]

/-- cfg_db.c:276-299 -/
def setIn (es : List Entry) (e v : Str) (append front : Bool) : List Entry :=
  match find Entry.key es (some e) with
  | none => ins Entry.key es ⟨e, addVal [] v append front⟩
  | some _ => upd Entry.key es (some e) fun x => { x with vals := addVal x.vals v append front }

/-- `cfg_db_set_entry_ext`, cfg_db.c:265-312 -/
def setEntry (d : Db) (t : Str) (n : Option Str) (e v : Str) (append front : Bool) : Db :=
  updNamed (addSection d t n) t n fun s => { s with entries := setIn s.entries e v append front }

/-- `cfg_db_remove_sectiontype`, cfg_db.c:195-207; the result tells if something was removed (0) or not (-1), here and below -/
def removeType (d : Db) (t : Str) : Db × Bool :=
  match findType d t with
  | none => (d, false)
  | some _ => (del SType.key d (some t), true)

/-- `cfg_db_remove_namedsection`, cfg_db.c:238-250 -/
def removeNamed (d : Db) (t : Str) (n : Option Str) : Db × Bool :=
  match findNamed d t n with
  | none => (d, false)
  | some _ => (upd SType.key d (some t) fun s => { s with names := del Named.name s.names n }, true)

/-- `cfg_db_remove_entry`, cfg_db.c:343-356 -/
def removeEntry (d : Db) (t : Str) (n : Option Str) (e : Str) : Db × Bool :=
  match findEntry d t n e with
  | none => (d, false)
  | some _ => (updNamed d t n fun s => { s with entries := del Entry.key s.entries (some e) }, true)

/-- `cfg_db_remove_element`, cfg_db.c:431-461; values are compared with `strcmp`; an entry with a single value is removed with it -/
def removeElement (d : Db) (t : Str) (n : Option Str) (e v : Str) : Db × Bool :=
  match findEntry d t n e with
  | none => (d, false)
  | some x =>
    if x.vals.length ≤ 1 then
      if x.vals = [v] then ((removeEntry d t n e).1, true) else (d, false)
    else if x.vals.contains v then
      (updNamed d t n fun s => { s with entries := upd Entry.key s.entries (some e) fun y => { y with vals := x.vals.erase v } }, true)
    else (d, false)

/-- is a key wanted, `NULL` stands for all keys -/
def wanted (k : Option Str) (want : Option Str) : Bool := want = none || fold k == fold want

/-- `_cfg_db_append`, cfg_db.c:108-145 -/
def append (dst src : Db) (st sn se : Option Str) : Db :=
  src.foldl (init := dst) fun d s =>
    if wanted s.key st then
      s.names.foldl (init := d) fun d n =>
        if wanted n.name sn then
          n.entries.foldl (init := addSection d s.type n.name) fun d e =>
            if wanted e.key se then e.vals.foldl (init := d) fun d v => setEntry d s.type n.name e.name v true false else d
        else d
    else d

/-- `cfg_db_duplicate`, cfg_db.h:198-209 -/
def duplicate (src : Db) : Db := append [] src none none none

/-- `cfg_db_get_entry_value`, cfg_db.c:367-399; `schema` is the default of a key in the schema if there is one (outer option: is there a
schema with this key, inner option: `NULL` as default) -/
def getValue (schema : Str → Str → Option (Option (List Str))) (d : Db) (t : Str) (n : Option Str) (e : Str) : Option (List Str) :=
  match findEntry d t n e with
  | some x => some x.vals
  | none =>
    match (if n.isSome then findEntry d t none e else none) with
    | some x => some x.vals
    | none =>
      match schema t e with
      | some (some v) => some v
      | _ => none

end Verif.Cfg
