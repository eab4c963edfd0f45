/-!
# Probing of neighbors

`src/nhdp/neighbor_probing/neighbor_probing.c`.
-/

namespace Verif.Probing

/-- what is known of a layer2 network: OONF_LAYER2_NET_MCS_BY_PROBING (if it is set), `if_dlep`, and if the type is wireless -/
structure Net where
  flag : Option Bool
  dlep : Bool
  wireless : Bool
deriving DecidableEq, Repr

/-- `_check_if_type`, neighbor_probing.c:240-258, with `probe_dlep` -/
def checkIf (probeDlep : Bool) (n : Net) : Bool :=
  match n.flag with
  | some v => v
  | none => if n.dlep then probeDlep else n.wireless

/-- `struct _probing_link_data`, neighbor_probing.c:84-100; the target is an address -/
structure Lnk where
  last : Nat := 0
  tx : Nat := 0
  target : Option Nat := none
deriving DecidableEq, Repr

/-- what a round finds for a link: the layer2 network of its interface (if there is one), is it symmetric, has its layer2 neighbor a receive bitrate
and a number of sent frames, this number, and its interface address (`none`: AF_UNSPEC) -/
structure Obs where
  net : Option Net
  sym : Bool
  data : Bool
  tx : Nat
  addr : Option Nat
deriving DecidableEq, Repr

/-- the tests of neighbor_probing.c:288-312 -/
def eligible (probeDlep : Bool) (o : Obs) : Bool :=
  match o.net with
  | none => false
  | some n => checkIf probeDlep n && o.sym && o.data

/-- the points of the best link so far, neighbor_probing.c:281 -/
def bp (b : Option (Nat × Nat)) : Nat := match b with | some b => b.2 | none => 0

/-- the loop over all links, neighbor_probing.c:284-341, in the order of interfaces and links: the links with their new data, and the number and points
of the best one. Clock values do not decrease, so the difference of the times is not negative. -/
def scan (probeDlep : Bool) (now : Nat) : Nat → Option (Nat × Nat) → List (Lnk × Obs) → List Lnk × Option (Nat × Nat)
  | _, best, [] => ([], best)
  | i, best, (l, o) :: rest =>
    if eligible probeDlep o then
      if l.tx ≠ o.tx then
        let r := scan probeDlep now (i + 1) best rest
        ({ l with tx := o.tx, last := now } :: r.1, r.2)
      else
        let points := now - l.last
        let r := scan probeDlep now (i + 1) (if points > bp best then some (i, points) else best) rest
        ({ l with tx := o.tx } :: r.1, r.2)
    else
      let r := scan probeDlep now (i + 1) best rest
      (l :: r.1, r.2)

/-- the chosen link, neighbor_probing.c:343-356: its new data -/
def chosen (now : Nat) (addr : Option Nat) (l : Lnk) : Lnk :=
  { l with last := now, target := match l.target with | none => addr | some a => some a }

/-- `_cb_probe_link`, neighbor_probing.c:265-357: the new data of the links, the chosen link, and the address the probe is sent to -/
def probe (probeDlep : Bool) (now : Nat) (ls : List (Lnk × Obs)) : List Lnk × Option Nat × Option Nat :=
  let r := scan probeDlep now 0 none ls
  match r.2 with
  | none => (r.1, none, none)
  | some (i, _) =>
    let addr := (ls[i]?.bind fun x => x.2.addr)
    let ls' := r.1.modify i (chosen now addr)
    (ls', some i, ls'[i]?.bind fun l => l.target)

/-- rounds: the time and what is found for each link; the result is the list of chosen links -/
def rounds (probeDlep : Bool) : List Lnk → List (Nat × List Obs) → List (Option Nat)
  | _, [] => []
  | ls, (now, os) :: rest =>
    let r := probe probeDlep now (ls.zip os)
    r.2.1 :: rounds probeDlep r.1 rest

end Verif.Probing
