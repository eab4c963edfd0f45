/-
Settings of the kernel for mesh interfaces: /repo/src/base/os_linux/os_interface_linux.c:305-370, 539-830, 1451-1503.

IPv6 is supported, the kernel is newer than 2.6.31, and the proc files of all interfaces exist and can be read and written. A proc file is one
character; 0 stands for "nothing".
-/
namespace Verif.OsIf

/-- `_os_linux_writeToFile`, os_interface_linux.c:787-830: new contents of the file and of `*old` -/
def writeFile (cur old value : Nat) : Nat × Nat :=
  if value = 0 then (cur, old) else (value, if cur ≠ value then cur else old)

/-- the global files (ip_forward for IPv4 and IPv6, send_redirects, rp_filter), or the values kept for them -/
structure Glob where
  fwd4 : Nat
  fwd6 : Nat
  redirect : Nat
  spoof : Nat
deriving DecidableEq, Repr

/-- `_activate_if_routing`, os_interface_linux.c:726-751 -/
def activate (g o : Glob) : Glob × Glob :=
  let a := writeFile g.fwd4 o.fwd4 49
  let b := writeFile g.fwd6 o.fwd6 49
  let c := writeFile g.redirect o.redirect 48
  let d := writeFile g.spoof o.spoof 48
  (⟨a.1, b.1, c.1, d.1⟩, ⟨a.2, b.2, c.2, d.2⟩)

/-- `_deactivate_if_routing`, os_interface_linux.c:757-776 -/
def deactivate (g o : Glob) : Glob :=
  ⟨(writeFile g.fwd4 0 o.fwd4).1, (writeFile g.fwd6 0 o.fwd6).1, (writeFile g.redirect 0 o.redirect).1, (writeFile g.spoof 0 o.spoof).1⟩

/-- `struct os_interface`: flags `loopback`, `any`, `mesh`, `up`; numbers of listeners; `mesh_counter`, `ignore_mesh`, `configured`, kept values -/
structure If where
  loopback : Bool := false
  any : Bool := false
  mesh : Bool := false
  up : Bool := false
  meshL : Nat := 0
  plainL : Nat := 0
  counter : Int := 0
  ignore : Bool := false
  configured : Bool := false
  oRedirect : Nat := 0
  oSpoof : Nat := 0
deriving DecidableEq, Repr

/-- the tracked interfaces, the two files of each interface, the global files, the values kept for them, `_mesh_count` -/
structure World where
  ifs : Nat → Option If
  files : Nat → Nat × Nat
  glob : Glob
  orig : Glob
  count : Int

def set {α : Type} (f : Nat → α) (n : Nat) (x : α) : Nat → α := fun m => if m = n then x else f m

/-- the interface `any` -/
def ANY : Nat := 0

/-- `_refresh_mesh` in `_init_mesh` with `keep`, os_interface_linux.c:646-675 -/
def refresh (w : World) (n : Nat) (i : If) (keep : Bool) : World :=
  if i.loopback || i.any then { w with ifs := set w.ifs n (some i) }
  else if !i.mesh then { w with ifs := set w.ifs n (some i) }
  else
    let r := writeFile (w.files n).1 i.oRedirect 48
    let s := writeFile (w.files n).2 i.oSpoof 48
    { w with files := set w.files n (r.1, s.1), ifs := set w.ifs n (some (if keep then { i with oRedirect := r.2, oSpoof := s.2 } else i)) }

/-- `_init_mesh`, os_interface_linux.c:622-643 -/
def initMesh (w : World) (n : Nat) (i : If) : World :=
  if i.loopback || i.any then { w with ifs := set w.ifs n (some i) }
  else if i.mesh then { w with ifs := set w.ifs n (some i) }
  else
    let g := if w.count + 1 = 1 then activate w.glob w.orig else (w.glob, w.orig)
    refresh { w with count := w.count + 1, glob := g.1, orig := g.2 } n { i with mesh := true } true

/-- `_cleanup_mesh`, os_interface_linux.c:682-720; `flags.mesh` stays as it is -/
def cleanupMesh (w : World) (n : Nat) (i : If) : World :=
  if i.loopback || i.any then w
  else if !i.mesh then w
  else { w with files := set w.files n ((writeFile (w.files n).1 0 i.oRedirect).1, (writeFile (w.files n).2 0 i.oSpoof).1), count := w.count - 1, glob := if w.count - 1 = 0 then deactivate w.glob w.orig else w.glob }

/-- `_add_interface`, os_interface_linux.c:539-581 -/
def getIf (w : World) (n : Nat) : If := (w.ifs n).getD { any := n == ANY, up := n == ANY }

/-- `_remove_interface`, os_interface_linux.c:588-615 -/
def removeIf (w : World) (n : Nat) (i : If) : World :=
  if i.meshL + i.plainL ≠ 0 ∨ i.configured then { w with ifs := set w.ifs n (some i) }
  else
    let w := if i.mesh then cleanupMesh w n i else w
    { w with ifs := set w.ifs n none }

/-- `os_interface_linux_add`, os_interface_linux.c:306-339 -/
def add (w : World) (n : Nat) (mesh : Bool) : World :=
  let i := getIf w n
  if mesh then
    let i := { i with meshL := i.meshL + 1 }
    if n = ANY then { w with ifs := set w.ifs n (some i) }
    else
      let w := if i.counter = 0 ∧ i.ignore = false then initMesh w n i else { w with ifs := set w.ifs n (some i) }
      { w with ifs := set w.ifs n ((w.ifs n).map fun i => { i with counter := i.counter + 1 }) }
  else { w with ifs := set w.ifs n (some { i with plainL := i.plainL + 1 }) }

/-- `os_interface_linux_remove`, os_interface_linux.c:346-370, for a listener that is there -/
def remove (w : World) (n : Nat) (mesh : Bool) : World :=
  match w.ifs n with
  | none => w
  | some i =>
    if mesh then
      if i.meshL = 0 then w
      else
        let i := { i with counter := i.counter - 1 }
        let w := if i.counter = 0 then cleanupMesh w n i else w
        removeIf w n { i with meshL := i.meshL - 1 }
    else if i.plainL = 0 then w
    else removeIf w n { i with plainL := i.plainL - 1 }

/-- flags in `_link_parse_nlmsg`, os_interface_linux.c:963-987 -/
def link (w : World) (n : Nat) (up loopback : Bool) : World :=
  match w.ifs n with
  | none => w
  | some i =>
    let j := { i with up := up, loopback := loopback }
    if i.up = false ∧ up = true ∧ j.mesh = true ∧ j.ignore = false then refresh w n j false else { w with ifs := set w.ifs n (some j) }

/-- `_cb_cfg_changed`, os_interface_linux.c:1451-1503: `none` for a section that was removed, which has the default `ignore_mesh = false` -/
def cfg (w : World) (n : Nat) (post : Option Bool) : World :=
  match post with
  | none =>
    match w.ifs n with
    | none => w
    | some i =>
      let i := { i with ignore := false, configured := false }
      let w := if i.counter > 0 then cleanupMesh w n i else w
      removeIf w n i
  | some ign =>
    let i := { getIf w n with ignore := ign, configured := true }
    if ign = true ∨ i.counter = 0 then { cleanupMesh w n i with ifs := set w.ifs n (some i) } else initMesh w n i

inductive Op where
  | add (n : Nat) (mesh : Bool)
  | remove (n : Nat) (mesh : Bool)
  | link (n : Nat) (up loopback : Bool)
  | cfg (n : Nat) (post : Option Bool)
deriving DecidableEq, Repr

def op (w : World) : Op → World
  | .add n m => add w n m
  | .remove n m => remove w n m
  | .link n u l => link w n u l
  | .cfg n p => cfg w n p

end Verif.OsIf
