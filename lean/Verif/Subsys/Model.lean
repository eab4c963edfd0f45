import Verif.Str.Model

/-
Model of the plugin loader `src/libcore/oonf_subsystem.c` with the functions of `src/libcore/oonf_cfg.c` which call it, and of the
command of `src/generic/plugin_controller/plugin_controller.c`.  A plugin is one `struct oonf_subsystem`.
-/
namespace Verif.Subsys
open Verif.Str (toLower)

abbrev Name := List UInt8

/-- names are compared by `strcasecmp` (`avl_comp_strcasecmp`, oonf_subsystem.c:373): equal if their lower case versions are equal -/
def fold (n : Name) : Name := n.map toLower

/-- `struct oonf_subsystem`, oonf_subsystem.h:78-158; the callbacks are represented by `Env` (init) and by events; `dyn`:
`_dlhandle` is set; `hasShutdown`: there is a callback `initiate_shutdown`; `gone`: the library was closed -/
structure Plugin where
  name : Name
  deps : List Name
  canCleanup : Bool := true
  hasShutdown : Bool := false
  dyn : Bool := false
  inited : Bool := false
  marked : Bool := false
  unloadBegun : Bool := false
  gone : Bool := false
deriving DecidableEq, Repr

def Plugin.key (p : Plugin) : Name := fold p.name

/-- calls of the callbacks: `init` (with its result), `cleanup`; a plugin without the callback counts as if it had an empty one -/
inductive Ev
  | start (name : Name) (deps : List Name) (ok : Bool)
  | stop (name : Name)
deriving DecidableEq, Repr

/-- `oonf_plugin_tree` in its order, the calls of callbacks so far (newest first), the plugins with sections in `_oonf_schema` -/
structure St where
  tree : List Plugin
  evs : List Ev
  schema : List Name
deriving DecidableEq, Repr

def St.start : St := ⟨[], [], []⟩

/-- `oonf_subsystem_get`, oonf_subsystem.h:201-206 -/
def get (t : List Plugin) (n : Name) : Option Plugin := t.find? fun p => p.key == fold n

/-- a change of one plugin -/
def modify (t : List Plugin) (n : Name) (f : Plugin → Plugin) : List Plugin := t.map fun p => if p.key = fold n then f p else p

/-- order of the tree -/
def lt : Name → Name → Bool
  | _, [] => false
  | [], _ :: _ => true
  | a :: as, b :: bs => if a < b then true else if b < a then false else lt as bs

/-- `avl_insert` -/
def insert (t : List Plugin) (p : Plugin) : List Plugin :=
  t.takeWhile (fun q => lt q.key p.key) ++ p :: t.dropWhile (fun q => lt q.key p.key)

/-- `oonf_subsystem_hook`, oonf_subsystem.c:235-248; the plugin has just been loaded (or is static) -/
def hook (s : St) (p : Plugin) : St :=
  if (get s.tree p.name).isSome then s
  else { s with tree := insert s.tree { p with inited := false, marked := false, unloadBegun := false, gone := false, dyn := false } }

/-- `oonf_subsystem_load`, oonf_subsystem.c:294-322; `file`: the plugin in the library which is found under this name, if any.  The
result tells if a plugin is returned. -/
def load (s : St) (lib : Name) (file : Option Plugin) : St × Bool :=
  if (get s.tree lib).isSome then (s, true)
  else
    match file with
    | none => (s, false)
    | some p =>
      let s' := hook s p
      if (get s'.tree lib).isSome then ({ s' with tree := modify s'.tree lib fun q => { q with dyn := true } }, true)
      else if (get s.tree p.name).isSome then (s', false)
      else ({ s' with tree := modify s'.tree p.name fun q => { q with gone := true } }, false)

/-- `oonf_cfg_load_subsystem`, oonf_cfg.c:294-309: a new plugin is configured (`oonf_subsystem_configure`, oonf_subsystem.c:154-186) -/
def cfgLoad (s : St) (lib : Name) (file : Option Plugin) : St × Bool :=
  if (get s.tree lib).isSome then (s, true)
  else
    let r := load s lib file
    if r.2 then ({ r.1 with schema := fold lib :: r.1.schema }, true) else r

/-- results of the operating system and of the callbacks: can the library be loaded again, does `init` succeed? -/
structure Env where
  dlopen : Name → Bool
  init : Name → Bool

/-- results of `_init_plugin`: 0, -1, 1 -/
inductive Res
  | ok
  | failed
  | circular
deriving DecidableEq, Repr

/-- loop over the dependencies, oonf_subsystem.c:394-416; `f` is `_init_plugin` -/
def initDeps (f : St → Name → Option (St × Res)) : St → List Name → Option (St × Res)
  | s, [] => some (s, .ok)
  | s, d :: ds =>
    match get s.tree d with
    | none => some (s, .failed)
    | some q =>
      if q.marked then some (s, .circular)
      else
        match f s d with
        | none => none
        | some (s', .ok) => initDeps f s' ds
        | some (s', r) => some (s', r)

def setMark (s : St) (n : Name) (b : Bool) : St := { s with tree := modify s.tree n fun p => { p with marked := b } }

/-- end of `_init_plugin`, oonf_subsystem.c:418-441 -/
def startPlugin (env : Env) (s : St) (p : Plugin) : St × Res :=
  if p.dyn && !env.dlopen p.name then (s, .failed)
  else if env.init p.name then
    ({ s with tree := modify s.tree p.name fun q => { q with inited := true }, evs := .start p.name p.deps true :: s.evs }, .ok)
  else ({ s with evs := .start p.name p.deps false :: s.evs }, .failed)

/-- `_init_plugin`, oonf_subsystem.c:380-442; the number limits the depth of the recursion, `none`: it is exceeded -/
def initPlugin (env : Env) : Nat → St → Name → Option (St × Res)
  | 0, _, _ => none
  | k + 1, s, n =>
    match get s.tree n with
    | none => none
    | some p =>
      if p.inited then some (s, .ok)
      else
        match initDeps (initPlugin env k) (setMark s n true) p.deps with
        | none => none
        | some (s', .ok) => some (startPlugin env (setMark s' n false) p)
        | some (s', r) => some (s', r)

/-- `oonf_subsystem_call_init`, oonf_subsystem.c:329-333 -/
def callInit (env : Env) (s : St) (n : Name) : Option (St × Res) := initPlugin env (s.tree.length + 2) s n

/-- the calls of `_cleanup_plugin` in the loops of oonf_subsystem.c:454-462: one for every dependency which is (`strcmp`) the name -/
def rdeps (t : List Plugin) (n : Name) : List Name := t.flatMap fun r => (r.deps.filter fun d => d = n).map fun _ => r.name

/-- several calls one after the other -/
def each (f : St → Name → Option St) : St → List Name → Option St
  | s, [] => some s
  | s, r :: rs =>
    match f s r with
    | none => none
    | some s' => each f s' rs

/-- `_cleanup_plugin`, oonf_subsystem.c:444-469; the number limits the depth of the recursion, `none`: it is exceeded -/
def cleanupPlugin : Nat → St → Name → Option St
  | 0, _, _ => none
  | k + 1, s, n =>
    match get s.tree n with
    | none => none
    | some p =>
      if p.inited then
        match each (cleanupPlugin k) s (rdeps s.tree p.name) with
        | none => none
        | some s' => some { s' with tree := modify s'.tree n fun q => { q with inited := false }, evs := .stop p.name :: s'.evs }
      else some s

def remove (t : List Plugin) (n : Name) : List Plugin := t.filter fun p => p.key != fold n

/-- `_unload_plugin`, oonf_subsystem.c:478-501; the result tells if the plugin was removed -/
def unloadPlugin (s : St) (n : Name) (final : Bool) : Option (St × Bool) :=
  match get s.tree n with
  | none => none
  | some p =>
    if !p.canCleanup && !final then some (s, false)
    else
      match (if p.inited then cleanupPlugin (s.tree.length + 1) s n else some s) with
      | none => none
      | some s' => some ({ s' with tree := remove s'.tree n }, true)

/-- `oonf_subsystem_unload`, oonf_subsystem.c:353-359 -/
def unload (s : St) (n : Name) : Option (St × Bool) :=
  match get s.tree n with
  | none => none
  | some p => if p.hasShutdown && !p.unloadBegun then some (s, false) else unloadPlugin s n false

/-- `oonf_subsystem_initiate_unload`, oonf_subsystem.c:339-345 -/
def initiateUnload (s : St) (n : Name) : St :=
  { s with tree := modify s.tree n fun p => if p.hasShutdown then { p with unloadBegun := true } else p }

/-- `oonf_subsystem_cleanup`, oonf_subsystem.c:136-145: the names of the plugins in the order of the tree -/
def cleanupAll (s : St) : Option St := each (fun s n => (unloadPlugin s n true).map (·.1)) s (s.tree.map (·.name))

/-- what the program can do with plugins (`oonf_cfg_load_subsystems` and `oonf_cfg_initplugins`, oonf_cfg.c:236-287 and 326-333, consist of
such operations); operations on plugins which are not in the tree do nothing -/
inductive Op
  | hook (p : Plugin)
  | load (lib : Name) (file : Option Plugin)
  | cfgLoad (lib : Name) (file : Option Plugin)
  | init (env : Env) (n : Name)
  | initiateUnload (n : Name)
  | unload (n : Name)

/-- one operation; `none`: recursion without end -/
def step (s : St) : Op → Option St
  | .hook p => some (Subsys.hook s p)
  | .load lib file => some (Subsys.load s lib file).1
  | .cfgLoad lib file => some (Subsys.cfgLoad s lib file).1
  | .init env n => if (get s.tree n).isSome then (callInit env s n).map (·.1) else some s
  | .initiateUnload n => some (Subsys.initiateUnload s n)
  | .unload n => if (get s.tree n).isSome then (Subsys.unload s n).map (·.1) else some s

/-- several operations -/
def run (s : St) : List Op → Option St
  | [] => some s
  | o :: os => match step s o with | none => none | some s' => run s' os

/-! ### Names of libraries -/

/-- position of the last `c`, `strrchr` -/
def strrchr (l : List UInt8) (c : UInt8) : Option Nat :=
  match l.reverse.findIdx? (· == c) with
  | none => none
  | some i => some (l.length - 1 - i)

/-- `str_startswith_nocase`, string.h:147-150 -/
def startsWith (l p : List UInt8) : Bool := fold (l.take p.length) == fold p

/-- `str_endswith_nocase`, string.h:174-182 -/
def endsWith (l p : List UInt8) : Bool := l.length > p.length && fold (l.drop (l.length - p.length)) == fold p

/-- `oonf_subsystem_extract_name`, oonf_subsystem.c:256-287; `pre`, `post`: prefix and postfix of libraries, "liboonf_" and ".so" on Linux
(oonf_libdata.c.in:49-50); the buffer has 32 bytes and is zeroed; sizes are unsigned 64 bit numbers.
`none`: more is copied than fits into the buffer. -/
def extractName (pre post libname : List UInt8) : Option Name :=
  let path : Nat :=
    match strrchr libname 47 with
    | some i => i
    | none => match strrchr libname 92 with | some i => i | none => 0
  let start : Nat := if startsWith (libname.drop path) pre then path + pre.length else path
  let stop : Int := if endsWith (libname.drop start) post then (libname.length : Int) - pre.length else libname.length
  if (stop - start + 1) % 2 ^ 64 ≤ 32 then
    if (stop - start) % 2 ^ 64 ≤ 32 then some ((libname.drop start).take (stop - start).toNat) else none
  else some []

/-! ### Telnet command -/

/-- what the command `plugin` does -/
inductive Action
  | list
  | usage
  | alreadyLoaded
  | load (n : Name)
  | unknownPlugin
  | unload (n : Name)
  | unknownCommand
deriving DecidableEq, Repr

/-- `isspace` in the C locale -/
def isSpace (c : UInt8) : Bool := c == 32 || (9 ≤ c && c ≤ 13)

/-- `_cb_telnet_plugin`, plugin_controller.c:142-200 -/
def command (t : List Plugin) (parameter : Option (List UInt8)) : Action :=
  match parameter with
  | none => .list
  | some par =>
    if fold par = fold "list".toUTF8.toList then .list
    else
      match par.dropWhile (· != 32) with
      | [] => .usage
      | rest =>
        let n := rest.dropWhile isSpace
        if Verif.Str.strHasNextWord par "load".toUTF8.toList = none then
          if (get t n).isSome then .alreadyLoaded else .load n
        else if get t n = none then .unknownPlugin
        else if Verif.Str.strHasNextWord par "unload".toUTF8.toList = none then .unload n
        else .unknownCommand

end Verif.Subsys
