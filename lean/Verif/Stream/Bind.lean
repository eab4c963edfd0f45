/-
Model of the configuration of the two TCP server sockets of a service
(src/base/oonf_stream_socket.c:480-600) and of the choice of the address to
bind to (src/base/os_generic/os_interface_generic.c:26-222).
-/
import Verif.Acl.Model
namespace Verif.Stream
open Verif.Netaddr Verif.Acl

/-- `struct os_interface` as far as it matters here: up, index, link-local
IPv6 address (`NETADDR_UNSPEC` if there is none) and the addresses in the
order of the tree. -/
structure Iface where
  up : Bool
  index : Nat
  linklocal : Netaddr
  addrs : List Netaddr
deriving DecidableEq, Repr

/-- `_get_fixed_prefix` (os_interface_generic.c:113-148). -/
def fixedPrefix (af : UInt8) (f : Acl) : Option Netaddr :=
  if f.reject.length > 0 then none
  else match f.accept with
    | [a] =>
      if a.prefixLen.toNat ≠ maxPrefix a then none
      else if a.type = af then some a else none
    | [a, b] =>
      if a.prefixLen.toNat ≠ maxPrefix a then none
      else if a.type = b.type then none
      else if b.prefixLen.toNat ≠ maxPrefix b then none
      else if b.type = af then some b
      else if a.type = af then some a else none
    | _ => none

/-- `_get_exact_match_bindaddress` (os_interface_generic.c:159-189) for one
interface. -/
def exactOn (af : UInt8) (f : Acl) (i : Iface) : Option Netaddr :=
  f.accept.find? (fun a => a.prefixLen.toNat == afMaxPrefix af && i.addrs.any (fun x => cmp x a == 0))

/-- `_get_matching_bindaddress` (os_interface_generic.c:200-222) for one
interface; `none` outside: read behind an address. -/
def matchingOn (af : UInt8) (f : Acl) : List Netaddr → Option (Option Netaddr)
  | [] => some none
  | x :: xs =>
    if x.type ≠ af then matchingOn af f xs
    else match checkAccept f x with
      | none => none
      | some true => some (some x)
      | some false => matchingOn af f xs

/-- The same over all interfaces (os_interface_generic.c:164-172, 204-212). -/
def matchingAll (af : UInt8) (f : Acl) : List Iface → Option (Option Netaddr)
  | [] => some none
  | i :: is =>
    match matchingOn af f i.addrs with
    | none => none
    | some (some x) => some (some x)
    | some none => matchingAll af f is

/-- `os_interface_generic_get_bindaddress` (os_interface_generic.c:26-44):
`on` is the interface the service is bound to, `none` for all interfaces. -/
def bindAddress (af : UInt8) (f : Acl) (all : List Iface) (on : Option Iface) : Option (Option Netaddr) :=
  match on with
  | none =>
    match fixedPrefix af f with
    | some a => some (some a)
    | none =>
      match all.findSome? (exactOn af f) with
      | some a => some (some a)
      | none => matchingAll af f all
  | some i =>
    match exactOn af f i with
    | some a => some (some a)
    | none => matchingOn af f i.addrs

/-- The choice of the address in `_apply_managed_socket`
(oonf_stream_socket.c:516-528). -/
def choose (af : UInt8) (f : Acl) (all : List Iface) (on : Option Iface) : Option (Option Netaddr) :=
  match on with
  | none => bindAddress af f all none
  | some i =>
    if ¬ i.up then some none
    else if i.linklocal.type = af then
      match checkAccept f i.linklocal with
      | none => none
      | some true => some (some i.linklocal)
      | some false => bindAddress af f all (some i)
    else bindAddress af f all (some i)

/-- One server socket: the address it is bound to (`none`: not in service)
and the ACL of clients it was configured with (`config.acl`, a pointer). -/
structure Server where
  bound : Option Socket
  acl : Option Acl
deriving DecidableEq, Repr

/-- A service: `struct oonf_stream_managed` with `config.acl` and the
configured ACLs and port. -/
structure Managed where
  v4 : Server
  v6 : Server
  /-- `managed->config.acl` -/
  acl : Option Acl
  /-- `_managed_config.acl` -/
  clients : Acl
  bindto : Acl
  port : Nat
deriving DecidableEq, Repr

/-- What `_apply_managed_socket` did to a socket. -/
inductive Act where
  | kept | removed | rebound | failed
deriving DecidableEq, Repr

/-- The scope of the address (oonf_stream_socket.c:533). -/
def scopeOf : Option Iface → Nat
  | none => 0
  | some i => i.index

/-- `_apply_managed_socket` (oonf_stream_socket.c:508-560).  `addOk`: the
system calls of `oonf_stream_add` succeed.  `none`: read behind an address. -/
def applySocket (af : UInt8) (m : Managed) (v : Server) (all : List Iface) (on : Option Iface) (addOk : Bool) :
    Option (Server × Act) :=
  match choose af m.bindto all on with
  | none => none
  | some none => some ({ v with bound := none }, .removed)
  | some (some a) =>
    match socketInit a m.port (scopeOf on) with
    | none => some (v, .failed)
    | some s =>
      if v.bound = some s then some ({ v with acl := m.acl }, .kept)
      else if addOk then some (⟨some s, m.acl⟩, .rebound)
      else some (⟨none, m.acl⟩, .failed)

/-- `oonf_stream_apply_managed` (oonf_stream_socket.c:362-393) with
`oonf_stream_copy_managed_config` (439-450) and `_apply_managed` (480-499),
IPv6 being supported: the access list of the clients is copied to
`_managed_config`, and nowhere else. -/
def applyManaged (m : Managed) (clients bindto : Acl) (port : Nat) (all : List Iface) (on : Option Iface)
    (ok4 ok6 : Bool) : Option Managed :=
  let m := { m with clients := copy clients, bindto := copy bindto, port := port }
  match applySocket AF_INET m m.v4 all on ok4 with
  | none => none
  | some (v4, .failed) => some { m with v4 := v4 }
  | some (v4, _) =>
    let m := { m with v4 := v4 }
    match applySocket AF_INET6 m m.v6 all on ok6 with
    | none => none
    | some (v6, _) => some { m with v6 := v6 }

/-- `_cb_parse_request` (oonf_stream_socket.c:566-597): may this client
connect? -/
def admits (v : Server) (remote : Netaddr) : Option Bool :=
  match v.acl with
  | none => some true
  | some acl => checkAccept acl remote

/-- A service before its first configuration: the HTTP server, the telnet
server and the DLEP radio leave `config.acl` zero
(src/base/oonf_http.c:158-172, src/base/oonf_telnet.c:152-167,
src/generic/dlep/radio/dlep_radio_interface.c:190-200), and no other code
assigns it. -/
def newService : Managed :=
  { v4 := ⟨none, none⟩, v6 := ⟨none, none⟩, acl := none, clients := {}, bindto := {}, port := 0 }

/-- One configuration of a service, with the state of the system. -/
structure Conf where
  clients : Acl
  bindto : Acl
  port : Nat
  all : List Iface
  on : Option Iface
  ok4 : Bool
  ok6 : Bool

/-- A sequence of configurations, newest first. -/
def configured : List Conf → Option Managed
  | [] => some newService
  | c :: cs =>
    match configured cs with
    | none => none
    | some m => applyManaged m c.clients c.bindto c.port c.all c.on c.ok4 c.ok6

end Verif.Stream
