import Verif.Netaddr.Props
/-
Model of the configuration sections of three plugins, which store one object per section name in a tree:
`src/olsrv2/lan_import/lan_import.c` (names of 16 bytes), `src/olsrv2/route_modifier/route_modifier.c` (16 bytes) and
`src/olsrv2/olsrv2_l2import/olsrv2_l2import.c` (24 bytes).

Simplifications: allocations and `cfg_schema_tobin` succeed.  The tree (`avl_comp_strcasecmp`, no duplicates) is the list of
its elements in order (C23 to C25).
-/
namespace Verif.Import
open Verif.Netaddr (strcasecmp)

abbrev Txt := List UInt8

/-- an object of the tree: `struct _import_entry`, lan_import.c:72-108, `struct _routemodifier`, route_modifier.c:69-93,
`struct _l2export_data`, olsrv2_l2import.c:66-81 -/
structure Sec (α : Type) where
  name : Txt
  val : α
deriving DecidableEq, Repr

/-- `avl_find_element`, lan_import.c:454, route_modifier.c:249, olsrv2_l2import.c:188 -/
def find {α : Type} (l : List (Sec α)) (name : Txt) : Option (Sec α) := l.find? (fun e => strcasecmp e.name name == 0)

/-- `avl_insert`; `none`: the name is already there and the result `-1` is ignored, lan_import.c:467 -/
def insert {α : Type} (e : Sec α) : List (Sec α) → Option (List (Sec α))
  | [] => some [e]
  | x :: xs =>
    if strcasecmp e.name x.name < 0 then some (e :: x :: xs)
    else if strcasecmp e.name x.name = 0 then none
    else (insert e xs).map (x :: ·)

/-- `strscpy` into an array of `size` bytes, lan_import.c:465 -/
def cut (size : Nat) (name : Txt) : Txt := name.take (size - 1)

/-- change the value of the object with this name -/
def change {α : Type} (l : List (Sec α)) (name : Txt) (f : α → α) : List (Sec α) :=
  l.map fun e => if strcasecmp e.name name = 0 then { e with val := f e.val } else e

/-- `avl_remove` of the object with this name -/
def drop {α : Type} (l : List (Sec α)) (name : Txt) : List (Sec α) := l.filter fun e => ¬ strcasecmp e.name name = 0

/-- `_cb_cfg_changed` with `_get_import` and `_destroy_import`, lan_import.c:450-483 and 578-617 (the same in
route_modifier.c:245-307 and olsrv2_l2import.c:184-231 and 323-353).  `post`: the new configuration, `none` for a removed section.  The result
`none`: `avl_remove` of an object that is not part of the tree follows null pointers (avl.c:331). -/
def configure {α : Type} (size : Nat) (fresh : α) (l : List (Sec α)) (name : Txt) (post : Option (α → α)) : Option (List (Sec α)) :=
  match find l name with
  | some _ =>
    match post with
    | some f => some (change l name f)
    | none => some (drop l name)
  | none =>
    match insert ⟨cut size name, fresh⟩ l with
    | some l' =>
      match post with
      | some f => some (change l' (cut size name) f)
      | none => some l
    | none =>
      match post with
      | some _ => some l
      | none => none

/-- a history of configuration changes, oldest first -/
def configureAll {α : Type} (size : Nat) (fresh : α) : List (Sec α) → List (Txt × Option (α → α)) → Option (List (Sec α))
  | l, [] => some l
  | l, c :: cs =>
    match configure size fresh l c.1 c.2 with
    | some l' => configureAll size fresh l' cs
    | none => none

end Verif.Import
