import Verif.Cfg.SchemaModel

/-
Model of the life of the configuration in a daemon, `src/libcore/oonf_cfg.c`: the raw database which is edited, the work database which is in
use, the binary copy of the section `global`, and the commands apply, rollback and clear.

Abstracted: the binary copy is an arbitrary value the converter gets from a database (`toBin`, `none`: the converter fails); loading and
unloading of plugins is an arbitrary function of it and of what is registered already (`load`), which changes the registered schema sections
and handlers and may fail.  Allocations succeed.  The log is not modelled.
-/
namespace Verif.Cfg

/-- the registered schema sections, and those with a handler in the order of their registration -/
structure World where
  schema : Schema
  handlers : List SSec

/-- what the model does not look into -/
structure Env (G : Type) where
  /-- `cfg_schema_tobin` for the section `global`, oonf_cfg.c:466-468 -/
  toBin : Db → Option G
  /-- `config_global.failfast` -/
  failfast : G → Bool
  /-- `oonf_cfg_load_subsystems`, oonf_cfg.c:234-287; true: 0 is returned -/
  load : G → World → World × Bool

/-- the static variables of oonf_cfg.c:69-78; the field `calls` is the list of all calls of handlers up to now -/
structure Life (G : Type) where
  raw : Db
  /-- `_oonf_raw_db->schema` is set -/
  rawLinked : Bool
  work : Db
  workLinked : Bool
  global : Option G
  world : World
  first : Bool
  reload : Bool
  commit : Bool
  calls : List (SSec × List Event)

variable {G : Type}

/-- `oonf_cfg_init`, oonf_cfg.c:113-159 -/
def lifeInit (w : World) : Life G := ⟨[], true, [], false, none, w, true, false, false, []⟩

/-- `oonf_cfg_update_globalcfg`, oonf_cfg.c:460-474 (a converter which fails may have written part of the copy, which is not modelled) -/
def updateGlobal (env : Env G) (s : Life G) (raw : Bool) : Life G × Bool :=
  match env.toBin (if raw then s.raw else s.work) with
  | none => (s, false)
  | some g => ({ s with global := some g }, true)

/-- `cfg_schema_validate` for a database with or without schema, cfg_schema.c:207-209; true: 0 is returned -/
def validateDb (sch : Schema) (linked cleanup ignore : Bool) (d : Db) : Option (Db × Bool) :=
  if linked then (validate sch cleanup ignore d).map fun r => (r.1, !r.2) else some (d, false)

/-- `cfg_schema_handle_db_changes` and `cfg_schema_handle_db_startup_changes`, cfg_schema.c:376-412, 881-884: the calls of handlers -/
def notify (w : World) (startup preLinked : Bool) (pre post : Db) : List (SSec × List Event) :=
  if startup then handleChanges w.schema w.handlers [] post true
  else if preLinked then handleChanges w.schema w.handlers pre post false
  else []

/-- the part of `oonf_cfg_apply` behind the validation, oonf_cfg.c:370-419; `d` is the work database after cleanup -/
def applyWork (env : Env G) (s : Life G) (d : Db) : Life G × Bool :=
  let s1 := { s with work := d, workLinked := true }
  let u := updateGlobal env s1 false
  if !u.2 then (u.1, false)
  else
    ({ u.1 with
        calls := s.calls ++ notify s.world s.first s.workLinked s.work d
        first := false, reload := false, commit := false
        raw := duplicate d, rawLinked := true }, true)

/-- `oonf_cfg_apply`, oonf_cfg.c:339-426: the state afterwards, true: 0 is returned; `none`: access to freed memory in a validation -/
def apply (env : Env G) (s : Life G) : Option (Life G × Bool) :=
  let u := updateGlobal env s true
  if !u.2 then some (u.1, false)
  else
    match u.1.global with
    | none => some (u.1, false)
    | some g =>
      let l := env.load g u.1.world
      let s2 := { u.1 with world := l.1 }
      if !l.2 then some (s2, false)
      else
        match validateDb s2.world.schema s2.rawLinked false (!env.failfast g) s2.raw with
        | none => none
        | some (_, false) => some (s2, false)
        | some (_, true) =>
          match validateDb s2.world.schema true true false (duplicate s2.raw) with
          | none => none
          | some (d, _) => some (applyWork env s2 d)

/-- `oonf_cfg_rollback`, oonf_cfg.c:432-451 -/
def rollback (s : Life G) : Life G := { s with raw := duplicate s.work, rawLinked := false }

/-- `oonf_cfg_clear_rawdb`, oonf_cfg.c:480-499 -/
def clearRaw (s : Life G) : Life G := { s with raw := [], rawLinked := true }

/-- the changes of the raw database by the command line, by files and by the remote control -/
def edit (s : Life G) (os : List Op) : Life G := { s with raw := run s.raw os }

/-- the reaction of the main loop to the trigger for a commit, oonf_main.c:425-431: false: the loop is left -/
def commitStep (env : Env G) (s : Life G) : Option (Life G × Bool) := if s.commit then apply env s else some (s, true)

end Verif.Cfg
