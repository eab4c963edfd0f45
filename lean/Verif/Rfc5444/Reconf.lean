/-
Model of the configuration of interfaces in `src/base/oonf_rfc5444.c`.
-/
namespace Verif.Rfc5444

/-- `struct oonf_packet_managed_config`, include/oonf/base/oonf_packet_socket.h:152-200, without access lists, `dscp`, ttl and names -/
structure Cfg where
  raw : Bool := false
  port : Nat := 0
  mport : Nat := 0
  proto : Nat := 0
  mc4 : Option Nat := none
  mc6 : Option Nat := none
deriving DecidableEq, Repr

/-- port, IP protocol and `fixed_local_port` of the protocol -/
structure Proto where
  port : Nat := 0
  ip : Nat := 0
  fixed : Bool
deriving DecidableEq, Repr

/-- an interface: is it the one for unicast (`RFC5444_UNICAST_INTERFACE`), `_socket_config`, configuration of the managed socket (`none`: none
since the socket was added), destinations of `multicast4` and `multicast6` -/
structure Iface where
  any : Bool
  cfg : Cfg := {}
  applied : Option Cfg := none
  t4 : Option Nat := none
  t6 : Option Nat := none
deriving DecidableEq, Repr

/-- fixed configuration options, oonf_rfc5444.c:702-716 -/
def fixOptions (p : Proto) (c : Cfg) : Cfg :=
  if c.raw then { c with port := 0, mport := 0, proto := p.ip }
  else
    let c := if c.mport = 0 then { c with mport := p.port } else c
    if p.fixed ∧ c.port = 0 then { c with port := p.port } else c

/-- the unicast interface, oonf_rfc5444.c:721-728 -/
def fixUnicast (p : Proto) (any : Bool) (c : Cfg) : Cfg := if any then { c with mc4 := none, mc6 := none, port := p.port } else c

/-- `oonf_rfc5444_reconfigure_interface`, oonf_rfc5444.c:681-786; targets can be created.  The pointer `config` is the argument, or the stored
configuration if there is none. -/
def reconfigure (p : Proto) (i : Iface) (new : Option Cfg) : Iface :=
  let stored := fixUnicast p i.any (fixOptions p (new.getD i.cfg))
  let config := new.getD stored
  if p.port = 0 then { i with cfg := stored }
  else { i with cfg := stored, applied := some stored, t4 := config.mc4, t6 := config.mc6 }

/-- `oonf_rfc5444_reconfigure_protocol`, oonf_rfc5444.c:519-542, with one interface -/
def reconfigureProtocol (p : Proto) (i : Iface) (port ip : Nat) : Proto × Iface :=
  if port = p.port ∧ ip = p.ip then (p, i)
  else
    let p := { p with port, ip }
    let i := { i with applied := none }
    (p, if port ≠ 0 then reconfigure p i none else i)

/-- configuration events: section of the protocol, section of the interface, change of addresses -/
inductive REv
  | proto (port ip : Nat)
  | iface (c : Cfg)
  | changed
deriving DecidableEq, Repr

/-- all events, newest first; `changed`: `_cb_interface_changed`, oonf_rfc5444.c:1440-1450, which needs an applied configuration -/
def rrun (fixed any : Bool) : List REv → Proto × Iface
  | [] => ({ fixed }, { any })
  | .proto port ip :: es => let (p, i) := rrun fixed any es; reconfigureProtocol p i port ip
  | .iface c :: es => let (p, i) := rrun fixed any es; (p, reconfigure p i (some c))
  | .changed :: es => let (p, i) := rrun fixed any es; (p, if i.applied = none then i else reconfigure p i none)

/-! ## Section of an interface -/

/-- a change of the section: new values (can they be converted?) or removal -/
inductive SEv
  | values (ok : Bool)
  | removal
deriving DecidableEq, Repr

/-- did the section exist, does the interface exist -/
structure Sect where
  pre : Bool := false
  has : Bool := false
deriving DecidableEq, Repr

/-- `_cb_cfg_interface_changed`, oonf_rfc5444.c:1391-1433; `none`: undefined behaviour.  Removal frees pointers of the uninitialised `config`;
values for a section that existed are applied to the interface without looking whether there is one. -/
def sectStep (s : Sect) : SEv → Option Sect
  | .removal => none
  | .values ok =>
    if ok then
      if s.pre then (if s.has then some ⟨true, true⟩ else none) else some ⟨true, true⟩
    else some ⟨true, s.has⟩

/-- all changes, newest first -/
def sectRun : List SEv → Option Sect
  | [] => some {}
  | e :: es => (sectRun es).bind fun s => sectStep s e

end Verif.Rfc5444
