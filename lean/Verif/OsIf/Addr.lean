/-
Addresses of network interfaces: /repo/src/base/os_linux/os_interface_linux.c:1019-1246.

A `struct netaddr` (include/oonf/libcommon/netaddr.h:103-112) is its 16 bytes read as one number (an IPv4 address takes the first four of
them), its type and its prefix length. Memory does not run out.
-/
namespace Verif.OsIf

inductive Fam where
  | v4 | v6
deriving DecidableEq, Repr

structure NA where
  bytes : Nat
  fam : Fam
  plen : Nat
deriving DecidableEq, Repr

/-- the value of AF_INET and AF_INET6, only their order matters -/
def Fam.num : Fam → Nat
  | .v4 => 2
  | .v6 => 10

/-- `avl_comp_netaddr` < 0: `memcmp` of the structures, avl_comp.c:139-143 -/
def NA.lt (a b : NA) : Bool :=
  a.bytes < b.bytes || (a.bytes == b.bytes && (a.fam.num < b.fam.num || (a.fam == b.fam && a.plen < b.plen)))

/-- `netaddr_is_in_subnet` for a host address: the first `n` bits are those of the 128 bit number `p` -/
def inNet (f : Fam) (p n : Nat) (a : NA) : Bool := a.fam == f && a.bytes >>> (128 - n) == p >>> (128 - n)

/-- the four tests of `_update_address_shortcuts`, os_interface_linux.c:1038-1046, with the prefixes in netaddr.c:82-108 -/
def ll4 (a : NA) : Bool := inNet .v4 (0xa9fe <<< 112) 16 a
def ll6 (a : NA) : Bool := inNet .v6 (0xfe80 <<< 112) 10 a
def routable4 (a : NA) : Bool := !ll4 a && a.fam == .v4 && !inNet .v4 (0x7f000001 <<< 96) 8 a && !inNet .v4 (0xe0 <<< 120) 4 a
def routable6 (a : NA) : Bool := !ll6 a && a.fam == .v6 && (inNet .v6 (0xfc <<< 120) 7 a || inNet .v6 (0x20 <<< 120) 3 a)

/-- `struct os_interface`: the keys of the two trees in their order, and the shortcuts (`none`: NETADDR_UNSPEC), which point to
addresses of the tree; `_addr_initialized` -/
structure Addrs where
  addresses : List NA := []
  peers : List NA := []
  v4 : Option NA := none
  v6 : Option NA := none
  linklocal4 : Option NA := none
  linklocal6 : Option NA := none
  init : Bool := false
deriving DecidableEq, Repr

/-- the insertion of a key that is not in the tree, see C23 -/
def insert (a : NA) : List NA → List NA
  | [] => [a]
  | b :: l => if a.lt b then a :: b :: l else b :: insert a l

/-- `_add_address`, os_interface_linux.c:1072-1104 -/
def addTo (l : List NA) (a : NA) : List NA := if a ∈ l then l else insert a l

/-- `_remove_address`, os_interface_linux.c:1113-1131 -/
def removeFrom (l : List NA) (a : NA) : List NA := l.erase a

/-- one round of the loop in `_update_address_shortcuts`, os_interface_linux.c:1036-1062: a shortcut that is set stays -/
def look (s : Addrs) (a : NA) : Addrs :=
  { s with v4 := if s.v4 = none ∧ routable4 a then some a else s.v4
           v6 := if s.v6 = none ∧ routable6 a then some a else s.v6
           linklocal4 := if s.linklocal4 = none ∧ ll4 a then some a else s.linklocal4
           linklocal6 := if s.linklocal6 = none ∧ ll6 a then some a else s.linklocal6 }

/-- `_update_address_shortcuts`, os_interface_linux.c:1019-1063 -/
def shortcuts (s : Addrs) : Addrs :=
  s.addresses.foldl look { s with v4 := none, v6 := none, linklocal4 := none, linklocal6 := none }

/-- attributes of a message; the address has the prefix length of the message -/
inductive Attr where
  | address (a : NA)
  | locl (a : NA)
  | other
deriving DecidableEq, Repr

/-- one round of the loop over the attributes, os_interface_linux.c:1162-1181: `ifa_local`, `ifa_address` -/
def attr (p : Option NA × Option NA) : Attr → Option NA × Option NA
  | .address a => (if p.1 = none then some a else p.1, some a)
  | .locl a => (some a, if p.2 = none then some a else p.2)
  | .other => p

/-- a message: RTM_NEWADDR or RTM_DELADDR, attributes -/
structure Msg where
  new : Bool
  attrs : List Attr
deriving DecidableEq, Repr

/-- `_address_parse_nlmsg`, os_interface_linux.c:1139-1212 -/
def parse (s : Addrs) (m : Msg) : Addrs :=
  let p := m.attrs.foldl attr (none, none)
  let s := match p.1 with
    | none => s
    | some a => shortcuts { s with addresses := if m.new then addTo s.addresses a else removeFrom s.addresses a, init := true }
  match p.2 with
  | none => s
  | some b => if p.1 = some b then s else { s with peers := if m.new then addTo s.peers b else removeFrom s.peers b, init := true }

/-- `_cb_rtnetlink_message`, os_interface_linux.c:1219-1246, for the interface `name`; `resolved` is the answer of `if_indextoname` for
the index in the message at the time the message is handled -/
def message {α : Type} [DecidableEq α] (name : α) (s : Addrs) (x : Option α × Msg) : Addrs :=
  if x.1 = some name then parse s x.2 else s

/-! ### the MAC address -/

/-- `netaddr_from_binary(&addr, data, len, AF_MAC48)`, netaddr.c:162-200: 16 bytes of memory are cleared, then all bytes of the attribute are
copied there. `none`: beyond the end of the array. -/
def macOf (data : List UInt8) : Option (List UInt8) :=
  if data.length ≤ 16 then some (data ++ List.replicate (16 - data.length) 0) else none

end Verif.OsIf
