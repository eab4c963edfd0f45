import Verif.Str.Model
/-
Subcommands of the info plugins: /repo/src/base/oonf_viewer.c:109-135, 179-349.
-/
namespace Verif.Viewer

open Verif.Str (strHasNextWord)

/-- Text without its terminating zero. -/
abbrev Txt := List UInt8

/-- The local variables of `oonf_viewer_call_subcommands`, oonf_viewer.c:237-240. -/
structure Flags where
  head : Bool := false
  json : Bool := false
  raw : Bool := false
  data : Bool := false
deriving DecidableEq, Repr

/-- The cascade of oonf_viewer.c:242-263 in its order, with the words of oonf_viewer.h:61-79
(head, json, raw, jsonraw, data, dataraw). -/
def formats : List (Txt × Flags) :=
  [([104, 101, 97, 100], { head := true }),
   ([106, 115, 111, 110], { json := true }),
   ([114, 97, 119], { raw := true }),
   ([106, 115, 111, 110, 114, 97, 119], { json := true, raw := true }),
   ([100, 97, 116, 97], { json := true, data := true }),
   ([100, 97, 116, 97, 114, 97, 119], { json := true, raw := true, data := true })]

/-- The first word of the cascade which is the next word of the parameter. -/
def tryFormats (p : Txt) : List (Txt × Flags) → Option (Flags × Txt)
  | [] => none
  | (n, f) :: r =>
    match strHasNextWord p n with
    | some s => some (f, s)
    | none => tryFormats p r

/-- oonf_viewer.c:242-266: flags and the text behind the format. -/
def parseFormat (p : Txt) : Flags × Txt := (tryFormats p formats).getD ({}, p)

/-- The loop of oonf_viewer.c:268-269: the first template whose name is the next word. -/
def findTemplate (next : Txt) (i : Nat) : List Txt → Option (Nat × Txt)
  | [] => none
  | n :: r =>
    match strHasNextWord next n with
    | some s => some (i, s)
    | none => findTemplate next (i + 1) r

/-- A template that is shown: its number, the flags, the custom format of its lines (`none`: the default), which
JSON does not use (`oonf_viewer_output_prepare`, oonf_viewer.c:109-135). -/
structure Shown where
  index : Nat
  flags : Flags
  format : Option Txt
deriving DecidableEq, Repr

/-- What `oonf_viewer_output_prepare` does with the format. -/
def prepare (f : Flags) (s : Txt) : Option Txt := if f.json then none else if s = [] then none else some s

/-- `oonf_viewer_call_subcommands`, oonf_viewer.c:232-290: what is shown and the result. `cb` is the result of the
callback of each template; for a headline the callback is not called. A parameter that is NULL is no word at all
(`str_hasnextword` returns NULL for it). -/
def callSub (param : Option Txt) (names : List Txt) (cb : Nat → Int) : Option Shown × Int :=
  match param with
  | none => (none, 1)
  | some p =>
    match findTemplate (parseFormat p).2 0 names with
    | some (i, s) =>
      (some ⟨i, (parseFormat p).1, prepare (parseFormat p).1 s⟩, if (parseFormat p).1.head then 0 else cb i)
    | none => (none, 1)

/-- What `oonf_viewer_telnet_handler` prints, in order. `unknownNull` is the message about an unknown parameter with
NULL for `%s`, which is undefined behaviour (glibc prints "(null)"). -/
inductive Line where
  | needsParameter
  | shown (s : Shown)
  | unknown (p : Txt)
  | unknownNull
deriving DecidableEq, Repr

/-- `oonf_viewer_telnet_handler`, oonf_viewer.c:303-324: the lines and whether the result is an internal error. -/
def handler (param : Option Txt) (names : List Txt) (cb : Nat → Int) : List Line × Bool :=
  let first := if param = none ∨ param = some [] then [Line.needsParameter] else []
  let r := callSub param names cb
  let mid := match r.1 with | some s => [Line.shown s] | none => []
  if r.2 = 0 then (first ++ mid, false)
  else if r.2 < 0 then (first ++ mid, true)
  else (first ++ mid ++ [match param with | some p => Line.unknown p | none => Line.unknownNull], false)

/-- What `oonf_viewer_print_help` prints: the list of subcommands, the keys of one, or that there is none. -/
inductive Help where
  | overview
  | keys (index : Nat)
  | unknown (p : Txt)
deriving DecidableEq, Repr

/-- The loop of `oonf_viewer_print_help`, oonf_viewer.c:199-215: compared with `strcmp`. -/
def findHelp (p : Txt) (i : Nat) : List Txt → Option Nat
  | [] => none
  | n :: r => if p = n then some i else findHelp p (i + 1) r

/-- `oonf_viewer_print_help`, oonf_viewer.c:179-218. -/
def printHelp (param : Option Txt) (names : List Txt) : Help :=
  match param with
  | none => .overview
  | some p =>
    if p = [] then .overview
    else match findHelp p 0 names with
      | some i => .keys i
      | none => .unknown p

/-- `oonf_viewer_telnet_help`, oonf_viewer.c:335-349: the help about command `cmd`. -/
def telnetHelp (cmd : Txt) (param : Option Txt) (names : List Txt) : Help :=
  printHelp (param.bind (fun p => strHasNextWord p cmd)) names

end Verif.Viewer
