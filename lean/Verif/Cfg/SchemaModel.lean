import Verif.Cfg.Spec

/-
Model of the validation of a database and of the notification about changes, `src/libconfig/cfg_schema.c`.  The validators of entries and
sections are arbitrary functions of what they get.  The messages are not modelled.
-/
namespace Verif.Cfg

/-- `enum cfg_schema_section_mode`, cfg_schema.h:1094-1123 (with the field `def_name` of the section) -/
inductive Mode
  | unnamed
  | named
  | mandatory
  | withDefault (name : Str)
deriving DecidableEq

/-- `struct cfg_schema_entry`, cfg_schema.h:1204-1260: name, callback for the validation, is it a list, default (`none`: value `NULL`, the entry is
mandatory; an empty list as default is `some []`, cfg_schema.c:135-138) -/
structure SEntry where
  name : Str
  check : Option (Str → Bool)
  list : Bool
  dflt : Option (List Str)

/-- `struct cfg_schema_section`, cfg_schema.h:1129-1190; `custom` is the section validator (constant true: there is none) -/
structure SSec where
  type : Str
  mode : Mode
  entries : List SEntry
  custom : Named → Bool

/-- `struct cfg_schema`: the sections in the order of the tree; sections with the same type are in the order in which they were added
(`cfg_schema_add_section`, cfg_schema.c:106-158) -/
abbrev Schema := List SSec

/-- all schema sections of a type, cfg_schema.c:213-230 -/
def secsOf (sch : Schema) (t : Str) : List SSec := sch.filter fun σ => fold (some σ.type) == fold (some t)

/-- all schema entries with a key (`avl_for_each_elements_with_key`); entries of the tree with the same key are in the order of insertion -/
def entriesOf (sch : Schema) (t e : Str) : List SEntry := (secsOf sch t).flatMap fun σ => σ.entries.filter fun s => fold (some s.name) == fold (some e)

/-- the default of a key, cfg_db.c:391-398 -/
def defaultOf (sch : Schema) (t e : Str) : Option (Option (List Str)) := (entriesOf sch t e).head?.map (·.dflt)

/-- the loop over the values of an entry, cfg_schema.c:1005-1023, with the variables `warning` and `do_remove`; the values which are left and
`warning` -/
def valLoop (ok : Str → Bool) (list cleanup : Bool) : Bool → Bool → List Str → List Str × Bool
  | w, _, [] => ([], w)
  | w, rm, v :: vs =>
    let w := w || (!rm && !ok v)
    let r := valLoop ok list cleanup w (rm || !list) vs
    if (w || rm) && cleanup then r else (v :: r.1, r.2)

/-- the loop over the schema entries with the key, cfg_schema.c:996-1029; `none`: the entry was freed by `cfg_db_remove_entry` and is accessed
by the next step of the loop -/
def entryLoop (cleanup : Bool) : List SEntry → List Str → Bool → Option (List Str × Bool)
  | [], vs, w => some (vs, w)
  | s :: ss, vs, w =>
    match s.check with
    | none => entryLoop cleanup ss vs w
    | some ok =>
      if vs = [] then none
      else
        let r := valLoop ok s.list cleanup w false vs
        entryLoop cleanup ss r.1 r.2

/-- `_validate_cfg_entry`, cfg_schema.c:981-1037; an entry without values was removed -/
def checkEntry (ses : List SEntry) (cleanup ignore : Bool) (vs : List Str) : Option (List Str × Bool) :=
  match entryLoop cleanup ses vs false with
  | none => none
  | some r => some (r.1, if ses.isEmpty && !ignore then true else r.2)

/-- the loop over the entries of a section, cfg_schema.c:276-279 -/
def checkEntries (sch : Schema) (t : Str) (cleanup ignore : Bool) : List Entry → Option (List Entry × Bool)
  | [] => some ([], false)
  | e :: es =>
    match checkEntry (entriesOf sch t e.name) cleanup ignore e.vals with
    | none => none
    | some r =>
      match checkEntries sch t cleanup ignore es with
      | none => none
      | some rs => some (if r.1 = [] then rs.1 else ⟨e.name, r.1⟩ :: rs.1, r.2 || rs.2)

/-- cfg_schema.c:239-257: the name is not allowed -/
def badName (σ : SSec) (n : Named) : Bool :=
  match n.name with
  | none => false
  | some x => σ.mode = .unnamed || x.contains 32

/-- cfg_schema.c:236-286 for one section; `err` is the variable `error`; `none` as section: it was removed -/
def checkNamed (sch : Schema) (σ : SSec) (t : Str) (cleanup ignore err : Bool) (n : Named) : Option (Option Named × Bool) :=
  if badName σ n then some (if cleanup then none else some n, true)
  else
    match checkEntries sch t cleanup ignore n.entries with
    | none => none
    | some r => some (some ⟨n.name, r.1⟩, err || r.2 || !σ.custom ⟨n.name, r.1⟩)

/-- `CFG_FOR_ALL_SECTION_NAMES`, cfg_schema.c:235-287 -/
def checkNames (sch : Schema) (σ : SSec) (t : Str) (cleanup ignore : Bool) : List Named → Bool → Option (List Named × Bool)
  | [], err => some ([], err)
  | n :: ns, err =>
    match checkNamed sch σ t cleanup ignore err n with
    | none => none
    | some r =>
      match checkNames sch σ t cleanup ignore ns r.2 with
      | none => none
      | some rs => some (r.1.toList ++ rs.1, rs.2)

/-- the loop over the schema sections of a type, cfg_schema.c:233-288 -/
def checkSecs (sch : Schema) (t : Str) (cleanup ignore : Bool) : List SSec → List Named → Bool → Option (List Named × Bool)
  | [], ns, err => some (ns, err)
  | σ :: σs, ns, err =>
    match checkNames sch σ t cleanup ignore ns err with
    | none => none
    | some r => checkSecs sch t cleanup ignore σs r.1 r.2

/-- the loop over the section types, cfg_schema.c:211-293 -/
def checkTypes (sch : Schema) (cleanup ignore : Bool) : Db → Bool → Option (Db × Bool)
  | [], err => some ([], err)
  | s :: ss, err =>
    if (secsOf sch s.type).isEmpty then
      match checkTypes sch cleanup ignore ss (err || !ignore) with
      | none => none
      | some rs => some (if cleanup && !ignore then rs.1 else s :: rs.1, rs.2)
    else
      match checkSecs sch s.type cleanup ignore (secsOf sch s.type) s.names err with
      | none => none
      | some r =>
        match checkTypes sch cleanup ignore ss r.2 with
        | none => none
        | some rs => some (if cleanup && r.1.isEmpty then rs.1 else ⟨s.type, r.1⟩ :: rs.1, rs.2)

/-- missing section of a type which has to exist, cfg_schema.c:297-310 -/
def sectionMissing (d : Db) (σ : SSec) : Bool :=
  σ.mode == .mandatory &&
    match findType d σ.type with
    | none => true
    | some s =>
      match s.names with
      | [] => true
      | n :: ns => n.name.isNone && ns.isEmpty

/-- missing entry, cfg_schema.c:313-341 -/
def entryMissing (d : Db) (σ : SSec) (e : SEntry) : Bool :=
  match findType d σ.type with
  | none => false
  | some s =>
    e.dflt.isNone &&
    (match find Named.name s.names none with
     | none => true
     | some u => (find Entry.key u.entries (some e.name)).isNone) &&
    s.names.any fun n => n.name.isSome && (find Entry.key n.entries (some e.name)).isNone

/-- `cfg_schema_validate`, cfg_schema.c:191-344, for a database with schema: the database afterwards and the result (true: -1); `none`: access to
freed memory -/
def validate (sch : Schema) (cleanup ignore : Bool) (d : Db) : Option (Db × Bool) :=
  match checkTypes sch cleanup ignore d false with
  | none => none
  | some r => some (r.1, r.2 || sch.any fun σ => sectionMissing r.1 σ || σ.entries.any (entryMissing r.1 σ))

/-! ### Notification about changes -/

/-- a call of a delta handler: name of the section, was it there before, is it there now (pointers `pre` and `post` of the schema section) -/
structure Event where
  name : Option Str
  pre : Bool
  post : Bool
deriving DecidableEq, Repr

/-- `_section_needs_default_named_one`, cfg_schema.c:843-862 -/
def needsDefault (d : Db) (t : Str) : Bool :=
  match findType d t with
  | none => true
  | some s =>
    match s.names with
    | [] => true
    | [n] => n.name.isNone
    | _ => false

/-- is this the name of the default section? cfg_schema.c:1070 -/
def isDefName (σ : SSec) (n : Option Str) : Bool :=
  match σ.mode with
  | .withDefault x => fold (some x) == fold n
  | _ => false

/-- did the value of one of the entries change? cfg_schema.c:1089-1098 -/
def valuesDiffer (sch : Schema) (σ : SSec) (pre post : Db) (n : Option Str) : Bool :=
  σ.entries.any fun e => getValue (defaultOf sch) pre σ.type n e.name != getValue (defaultOf sch) post σ.type n e.name

/-- `_handle_named_section_change`, cfg_schema.c:1049-1104 -/
def namedChange (sch : Schema) (σ : SSec) (pre post : Db) (n : Option Str) (startup preDef postDef : Bool) : List Event :=
  if σ.mode != .unnamed && n.isNone then []
  else
    let a := (findNamed pre σ.type n).isSome || (isDefName σ n && !startup && preDef)
    let b := (findNamed post σ.type n).isSome || (isDefName σ n && postDef)
    if (σ.mode != .unnamed && a != b) || valuesDiffer sch σ pre post n || startup then [⟨n, a, b⟩] else []

/-- the names of the sections of a type -/
def namesOf (d : Db) (t : Str) : List (Option Str) := ((findType d t).map fun s => s.names.map (·.name)).getD []

def defaultMode : Mode → Bool
  | .withDefault _ => true
  | _ => false

/-- the name of the default section -/
def defName : Mode → Option Str
  | .withDefault x => some x
  | _ => none

/-- the body of the loop of `_handle_db_changes` for one handler, cfg_schema.c:900-964 -/
def sectionChanges (sch : Schema) (σ : SSec) (pre post : Db) (startup : Bool) : List Event :=
  let preDef := defaultMode σ.mode && !startup && needsDefault pre σ.type
  let postDef := defaultMode σ.mode && needsDefault post σ.type
  (namesOf post σ.type).flatMap (fun n => namedChange sch σ pre post n startup preDef postDef) ++
  ((namesOf pre σ.type).filter fun n => (findNamed post σ.type n).isNone).flatMap (fun n => namedChange sch σ pre post n startup preDef postDef) ++
  (if startup && σ.mode == .unnamed && (findType pre σ.type).isNone && (findType post σ.type).isNone then
    namedChange sch σ pre post none true preDef postDef else []) ++
  (if preDef != postDef then namedChange sch σ pre post (defName σ.mode) true preDef postDef else [])

/-- `_handle_db_changes`, cfg_schema.c:873-967: the calls for every handler -/
def handleChanges (sch : Schema) (handlers : List SSec) (pre post : Db) (startup : Bool) : List (SSec × List Event) :=
  handlers.map fun σ => (σ, sectionChanges sch σ pre post startup)

end Verif.Cfg
