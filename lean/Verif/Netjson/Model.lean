import Verif.Str.Model
/-
The command netjsoninfo: /repo/src/olsrv2/netjsoninfo/netjsoninfo.c:930-1014.
-/
namespace Verif.Netjson

open Verif.Str (strHasNextWord strSkipNextWord)

/-- Text without its terminating zero. -/
abbrev Txt := List UInt8

/-- What is printed: graphs and routes with their filter (`none`: no filter), domains, the error object with the text it
quotes. A graph or routes may be several JSON objects, which are not looked at here. -/
inductive Obj where
  | graph (filter : Option Txt)
  | route (filter : Option Txt)
  | domain
  | error (p : Txt)
deriving DecidableEq, Repr

/-- `JSON_NAME_FILTER` and the others, netjsoninfo.c:71-80. -/
def filterName : Txt := [102, 105, 108, 116, 101, 114]
def graphName : Txt := [103, 114, 97, 112, 104]
def routeName : Txt := [114, 111, 117, 116, 101]
def domainName : Txt := [100, 111, 109, 97, 105, 110]

/-- `_handle_netjson_object`, netjsoninfo.c:931-948: the object, the text that is returned (`none`: NULL), the error. -/
def handleObject (p : Txt) (filter : Bool) : List Obj × Option Txt × Bool :=
  match strHasNextWord p graphName with
  | some s => ([.graph (if filter then some s else none)], some s, false)
  | none =>
    match strHasNextWord p routeName with
    | some s => ([.route (if filter then some s else none)], some s, false)
    | none =>
      match (if filter then none else strHasNextWord p domainName) with
      | some s => ([.domain], some s, false)
      | none => ([], strSkipNextWord p, true)

/-- `_handle_filter`, netjsoninfo.c:951-958. -/
def handleFilter (p : Txt) : List Obj :=
  (handleObject p true).1 ++ (if (handleObject p true).2.2 then [.error p] else [])

/-- The loop of `_handle_collection`, netjsoninfo.c:970-973, with at most `fuel` turns; `none`: not finished. -/
def loop : Nat → Option Txt → Option (List Obj × Bool)
  | 0, _ => none
  | fuel + 1, next =>
    match next with
    | none => some ([], false)
    | some p =>
      if p = [] then some ([], false)
      else
        (loop fuel (handleObject p false).2.1).map
          (fun r => ((handleObject p false).1 ++ r.1, (handleObject p false).2.2 || r.2))

/-- The output of the command. `nothing`: no JSON at all. -/
inductive Out where
  | nothing
  | plain (os : List Obj)
  | collection (os : List Obj)
deriving DecidableEq, Repr

/-- `_cb_netjsoninfo` with `_handle_collection`, netjsoninfo.c:961-981, 989-1014, when there is memory;
`none`: not finished after `fuel` turns of the loop. -/
def command (fuel : Nat) (param : Option Txt) : Option Out :=
  match param with
  | none => some .nothing
  | some p =>
    if p = [] then some .nothing
    else
      match strHasNextWord p filterName with
      | some s => some (.plain (handleFilter s))
      | none => (loop fuel (some p)).map (fun r => .collection (r.1 ++ if r.2 then [.error p] else []))

end Verif.Netjson
