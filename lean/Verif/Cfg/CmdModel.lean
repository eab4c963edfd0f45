import Verif.Cfg.CompactModel

/-
Model of the configuration commands, `src/libconfig/cfg_cmd.c`, without load, save and schema.  The lines of output are a list of strings, without
headlines and error messages.  Failing allocations are not modelled.
-/
namespace Verif.Cfg.Cmd
open Verif.Cfg Verif.Cfg.Compact

/-- `struct _parsed_argument`, cfg_cmd.c:58-70; `none` is `NULL` -/
structure Arg where
  type : Option Str
  name : Option Str
  key : Option Str
  value : Option Str
deriving DecidableEq, Repr

/-- the longest text of the form `[a-zA-Z_][a-zA-Z_0-9]*` at the beginning (empty if there is none) -/
def ident (s : Str) : Str :=
  match s with
  | [] => []
  | c :: _ => if 48 ≤ c ∧ c ≤ 57 then [] else s.takeWhile isKeyChar

def optional (s : Str) : Option Str := if s = [] then none else some s

/-- the end of the pattern, `(=(.*))?$` -/
def parseValue (a : Arg) : Str → Option Arg
  | [] => some a
  | c :: s => if c = 61 then some { a with value := some s } else none

/-- the pattern behind the first group, `([a-zA-Z_][a-zA-Z_0-9]*)?(=(.*))?$` -/
def parseKey (t n : Option Str) (s : Str) : Option Arg :=
  parseValue ⟨t, n, optional (ident s), none⟩ (s.drop (ident s).length)

/-- `_do_parse_arg`, cfg_cmd.c:550-587, for the pattern of line 552 (`none`: result -1).  A match of the pattern is unique, so it does not matter
which one the library prefers. -/
def parseArg (s : Str) : Option Arg :=
  let id := ident s
  match id, s.drop id.length with
  | _ :: _, 46 :: r => parseKey (some id) none r
  | _ :: _, 91 :: r =>
    match r.dropWhile (· != 93) with
    | 93 :: 46 :: r' => parseKey (some id) (some (r.takeWhile (· != 93))) r'
    | _ => none
  | _, _ => parseKey none none s

/-- result of a command: 0 or -1, with the database and the output, or a violated assertion -/
inductive Res
  | ok (d : Db) (out : List Str)
  | error (d : Db)
  | abort
deriving DecidableEq

/-- `cfg_cmd_handle_set`, cfg_cmd.c:84-130.  `NULL` as section type violates the assertion at cfg_db.c:162, `NULL` as key the one at
cfg_db.c:572. -/
def set (d : Db) (arg : Str) : Res :=
  match parseArg arg with
  | none => .error d
  | some a =>
    match a.value with
    | some v =>
      match a.type, a.key with
      | some t, some k => .ok (setEntry d t a.name k v true true) []
      | _, _ => .abort
    | none =>
      match a.key with
      | some _ => .error d
      | none =>
        match a.type with
        | some t => .ok (addSection d t a.name) []
        | none => .abort

/-- `cfg_cmd_handle_remove`, cfg_cmd.c:140-192.  Nothing is found if the section type is `NULL`. -/
def remove (d : Db) (arg : Str) : Res :=
  match parseArg arg with
  | none => .error d
  | some a =>
    match a.value with
    | some _ => .error d
    | none =>
      match a.key with
      | some k =>
        match a.type with
        | none => .error d
        | some t =>
          let r := removeEntry d t a.name k
          if r.2 then .ok r.1 [] else .error r.1
      | none =>
        match a.type with
        | none => .ok d []
        | some t =>
          let r := match a.name with
            | some x => removeNamed d t (some x)
            | none => (d, true)
          if !r.2 then .error r.1
          else
            let r := removeType r.1 t
            if r.2 then .ok r.1 [] else .error r.1

/-- `cfg_cmd_handle_get`, cfg_cmd.c:202-285 -/
def get (d : Db) (arg : Str) : Res :=
  if arg = [] then .ok d (d.map (·.type))
  else
    match parseArg arg with
    | none => .error d
    | some a =>
      match a.value with
      | some _ => .error d
      | none =>
        match a.type with
        | none => .error d
        | some t =>
          match a.key with
          | some k =>
            match findEntry d t a.name k with
            | none => .error d
            | some e => .ok d e.vals
          | none =>
            let byName : Res :=
              match findNamed d t a.name with
              | none => .error d
              | some n => .ok d (n.entries.map (·.name))
            match a.name with
            | some _ => byName
            | none =>
              match findType d t with
              | none => .error d
              | some s =>
                match s.names with
                | [] => .error d
                | n :: ns => if n.name.isSome then .ok d ((n :: ns).map fun n => n.name.getD []) else byName

/-- `cfg_cmd_handle_query`, cfg_cmd.c:295-341; for an empty argument the result is 0 with an error message, cfg_cmd.c:304-307 -/
def query (schema : Str → Str → Option (Option (List Str))) (d : Db) (arg : Str) : Res :=
  if arg = [] then .ok d []
  else
    match parseArg arg with
    | none => .error d
    | some a =>
      match a.key, a.value with
      | some k, none =>
        match a.type with
        | none => .error d
        | some t =>
          match getValue schema d t a.name k with
          | some vs => .ok d vs
          | none => .error d
      | _, _ => .error d

end Verif.Cfg.Cmd
