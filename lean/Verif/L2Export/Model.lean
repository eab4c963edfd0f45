/-
Export of layer2 addresses into the routing table of the kernel: src/generic/layer2_export/layer2_export.c.

Only one routing key (an IP address of layer2 neighbors) is looked at; the keys only meet in the trees, which keep them apart. The requests for routes (os_routing_linux.c,
C191-C193) are a queue: the kernel answers the requests in their order. Parameters of `os_routing_set` that do not depend on neighbor or configuration (family, type, key) are left
out; `os_routing_set` succeeds, because the gateway is of the family of the address or unspecified.
-/
namespace Verif.L2Export

/-- `_is_matching_origin`, layer2_export.c:289-302, for the bytes of the strings before the zero; `*` is 42 -/
def matching (name pattern : List UInt8) : Bool :=
  if name = pattern then true
  else if pattern.getLast? ≠ some 42 then false
  else name.take (pattern.length - 1) = pattern.take (pattern.length - 1)

/-- `strscpy(mod->originator, name, sizeof(mod->originator))`, layer2_export.c:254: 15 bytes and the zero -/
def kept (name : List UInt8) : List UInt8 := name.take 15

/-- `fib_distance`, `fib_table`, `fib_protocol`, layer2_export.c:68-74, 134-141 -/
structure Cfg where
  distance : Nat
  table : Nat
  protocol : Nat
deriving DecidableEq, Repr

/-- parameters of a route: gateway and interface of the neighbor, metric, table (`unsigned char`) and protocol, layer2_export.c:443-450 -/
structure Par where
  via : Nat
  metric : Nat
  table : Nat
  protocol : Nat
deriving DecidableEq, Repr

def par (via : Nat) (c : Cfg) : Par := ⟨via, c.distance, c.table % 256, c.protocol % 256⟩

/-- states of an object in the tree of an export section, layer2_export.c:84-99 -/
inductive Status where
  | nothing | adding | added
deriving DecidableEq, Repr

/-- `struct _l2export_route` in `route_tree` -/
structure Obj where
  status : Status
  p : Par
deriving DecidableEq, Repr

/-- a request: for an object of which section, setting or removing, parameters; is there an object that waits for the answer -/
structure Req where
  exp : Nat
  set : Bool
  p : Par
  live : Bool
deriving DecidableEq, Repr

/-- sections with matching pattern, in the order of the tree; their objects for the key; the objects that are being removed (`true`: in `_removal_tree`); requests without answer;
the routes of the kernel for the key -/
structure St where
  exps : List (Nat × Cfg) := []
  cur : List (Nat × Obj) := []
  rem : List Bool := []
  queue : List Req := []
  kernel : List Par := []
deriving DecidableEq, Repr

def setObj (l : List (Nat × Obj)) (e : Nat) (o : Obj) : List (Nat × Obj) := (e, o) :: l.filter (·.1 ≠ e)
def delObj (l : List (Nat × Obj)) (e : Nat) : List (Nat × Obj) := l.filter (·.1 ≠ e)

/-- `os_routing_interrupt` for the request of an object in state ADDING: its answer will be ignored -/
def forget (q : List Req) (e : Nat) : List Req := q.map fun r => if r.exp = e ∧ r.set = true then { r with live := false } else r

/-- `_destroy_route`, layer2_export.c:340-375, for an object in the tree of a section. ADDING: the interrupt calls `_cb_route_finished` with error -1, which comes back with ADDED,
383-409. ADDED: the key may be in `_removal_tree` already, then `avl_insert` fails. -/
def destroy (s : St) (e : Nat) (o : Obj) : St :=
  match o.status with
  | .nothing => { s with cur := delObj s.cur e }
  | .adding => { s with cur := delObj s.cur e, rem := s.rem ++ [s.rem.isEmpty], queue := forget s.queue e ++ [⟨e, false, o.p, true⟩] }
  | .added => { s with cur := delObj s.cur e, rem := s.rem ++ [s.rem.isEmpty], queue := s.queue ++ [⟨e, false, o.p, true⟩] }

/-- a section in `_cb_l2neigh_ip_added`, layer2_export.c:428-459; `none`: the assertion in `os_routing_linux_set` fails -/
def add1 (via : Nat) (s : Option St) (x : Nat × Cfg) : Option St :=
  s.bind fun s =>
    if (s.cur.lookup x.1).any (·.status = .adding) then none
    else some { s with cur := setObj s.cur x.1 ⟨.adding, par via x.2⟩, queue := s.queue ++ [⟨x.1, true, par via x.2, true⟩] }

/-- a section in `_cb_l2neigh_ip_removed`, layer2_export.c:475-487 -/
def remove1 (s : St) (x : Nat × Cfg) : St :=
  match s.cur.lookup x.1 with
  | none => s
  | some o => destroy s x.1 o

/-- what the kernel does with a request: NLM_F_REPLACE replaces the route with the same metric and table -/
def effect (k : List Par) (r : Req) : List Par :=
  if r.set then r.p :: k.filter (fun q => ¬ (q.metric = r.p.metric ∧ q.table = r.p.table)) else k.filter (fun q => ¬ (q.metric = r.p.metric ∧ q.table = r.p.table ∧ q.via = r.p.via))

/-- `_cb_route_finished`, layer2_export.c:383-409, after the kernel answered the first request: `ok` or with an error; `none`: `avl_remove` of an object that is not in the tree -/
def answer (s : St) (ok : Bool) : Option St :=
  match s.queue with
  | [] => some s
  | r :: q =>
    let s := { s with queue := q, kernel := if ok then effect s.kernel r else s.kernel }
    if r.live = false then some s
    else if r.set then
      match s.cur.lookup r.exp with
      | none => some s
      | some o => some (if ok then { s with cur := setObj s.cur r.exp { o with status := .added } } else destroy s r.exp { o with status := .added })
    else match s.rem with
      | true :: rem => some { s with rem := rem }
      | _ => none

/-- `_cb_cfg_changed`, layer2_export.c:493-518: a new or changed section -/
def section' (s : St) (e : Nat) (c : Cfg) : St := { s with exps := if s.exps.any (·.1 = e) then s.exps.map (fun x => if x.1 = e then (e, c) else x) else s.exps ++ [(e, c)] }

/-- a removed section, `_destroy_l2export`, layer2_export.c:269-280 -/
def noSection (s : St) (e : Nat) : St :=
  let s := match s.cur.lookup e with
    | none => s
    | some o => destroy s e o
  { s with exps := s.exps.filter (·.1 ≠ e) }

/-- histories; the events of addresses name the neighbor -/
inductive Ev where
  | add (neigh via : Nat)
  | remove (neigh : Nat)
  | answer (ok : Bool)
  | cfg (e : Nat) (c : Cfg)
  | nocfg (e : Nat)
deriving DecidableEq, Repr

def step (s : St) : Ev → Option St
  | .add _ via => s.exps.foldl (add1 via) (some s)
  | .remove _ => some (s.exps.foldl remove1 s)
  | .answer ok => answer s ok
  | .cfg e c => some (section' s e c)
  | .nocfg e => some (noSection s e)

def run (s : St) : List Ev → Option St
  | [] => some s
  | e :: es => (step s e).bind fun s => run s es

end Verif.L2Export
