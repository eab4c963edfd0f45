/-
Model of `src/libcommon/netaddr.c` and `include/oonf/libcommon/netaddr.h` (binary part) and of the
comparators in `src/libcommon/avl_comp.c`.
-/
namespace Verif.Netaddr

/-- `struct netaddr`, netaddr.h:104-113.  `addr` has 16 bytes (`Netaddr.WF`). -/
structure Netaddr where
  addr : List UInt8
  type : UInt8
  prefixLen : UInt8
deriving DecidableEq, Repr

/-- the array `_addr` has 16 elements -/
def Netaddr.WF (a : Netaddr) : Prop := a.addr.length = 16

instance (a : Netaddr) : Decidable a.WF := inferInstanceAs (Decidable (_ = _))

/-- address families; the OONF ones are `AF_MAX + 1..3` (netaddr.h:66-76) with `AF_MAX = 46`
(the value of the installed C library; only the inequality of the constants matters) -/
def AF_UNSPEC : UInt8 := 0
def AF_INET : UInt8 := 2
def AF_INET6 : UInt8 := 10
def AF_MAC48 : UInt8 := 47
def AF_EUI64 : UInt8 := 48
def AF_UUID : UInt8 := 49

/-- `netaddr_get_af_maxprefix`, netaddr.c:875-892 -/
def afMaxPrefix (t : UInt8) : Nat :=
  if t = AF_INET then 32 else if t = AF_INET6 then 128 else if t = AF_MAC48 then 48
  else if t = AF_EUI64 then 64 else 0

/-- `netaddr_get_maxprefix`, netaddr.h:258-261 -/
def maxPrefix (a : Netaddr) : Nat := afMaxPrefix a.type

/-- `NETADDR_UNSPEC` (netaddr.c:67), also the result of `netaddr_invalidate` (netaddr.h:220-223) -/
def unspec : Netaddr := ⟨List.replicate 16 0, AF_UNSPEC, 0⟩

/-! ### binary conversion -/

/-- result of a function that may fail (`err`, with the changed object) or run into an access
outside of an object (`ub`) -/
inductive Out (α : Type) | ok (a : α) | err (a : α) | ub
deriving DecidableEq, Repr

/-- copy into the 16 byte array; `none` if it does not fit -/
def store (bytes : List UInt8) : Option (List UInt8) :=
  if bytes.length ≤ 16 then some (bytes ++ List.replicate (16 - bytes.length) 0) else none

/-- `netaddr_from_binary_prefix`, netaddr.c:162-200 (`binary` has `len` bytes).  `len << 3` is
stored in an 8 bit variable. -/
def fromBinaryPrefix (binary : List UInt8) (addrType prefixLen : UInt8) : Out Netaddr :=
  let len := binary.length
  let type :=
    if addrType ≠ 0 then addrType
    else if len = 4 then AF_INET else if len = 6 then AF_MAC48 else if len = 8 then AF_EUI64
    else if len = 16 then AF_INET6 else AF_UNSPEC
  let len' :=
    if addrType = 0 ∧ len ≠ 4 ∧ len ≠ 6 ∧ len ≠ 8 ∧ len ≠ 16 ∧ len > 16 then 16 else len
  let p : UInt8 := if prefixLen = 255 then UInt8.ofNat (len' <<< 3) else prefixLen
  match store (binary.take len') with
  | none => .ub
  | some bytes => if type = AF_UNSPEC then .err ⟨bytes, type, p⟩ else .ok ⟨bytes, type, p⟩

/-- `netaddr_to_binary`, netaddr.c:209-221: bytes written to a buffer of `len` bytes -/
def toBinary (src : Netaddr) (len : Nat) : Option (List UInt8) :=
  let addrLen := maxPrefix src >>> 3
  if addrLen = 0 ∨ len < addrLen then none else some (src.addr.take addrLen)

/-- the fields of `union netaddr_socket` that are used: family, address, port (host byte order) and
scope -/
structure Socket where
  family : Nat
  addr : List UInt8
  port : Nat
  scope : Nat
deriving DecidableEq, Repr

/-- `netaddr_from_socket`, netaddr.c:230-250 -/
def fromSocket (s : Socket) : Option Netaddr :=
  if s.family = 2 then some ⟨s.addr.take 4 ++ List.replicate 12 0, AF_INET, 32⟩
  else if s.family = 10 then some ⟨s.addr.take 16, AF_INET6, 128⟩
  else none

/-- `netaddr_socket_init`, netaddr.c:470-494 -/
def socketInit (a : Netaddr) (port scope : Nat) : Option Socket :=
  if a.type = AF_INET then some ⟨2, a.addr.take 4, port % 65536, 0⟩
  else if a.type = AF_INET6 then some ⟨10, a.addr.take 16, port % 65536, scope⟩
  else none

/-- `netaddr_socket_get_port`, netaddr.c:501-510 -/
def socketGetPort (s : Socket) : Nat := if s.family = 2 ∨ s.family = 10 then s.port else 0

/-- `memcmp` of two blocks of the same size: sign of the first difference -/
def memcmp : List UInt8 → List UInt8 → Int
  | a :: as, b :: bs => if a < b then -1 else if b < a then 1 else memcmp as bs
  | _, _ => 0

/-- `netaddr_cmp`, netaddr.h:375-378 (also `avl_comp_netaddr`, avl_comp.c:138-143): the structure
consists of 18 bytes without padding -/
def cmp (a b : Netaddr) : Int :=
  memcmp (a.addr ++ [a.type, a.prefixLen]) (b.addr ++ [b.type, b.prefixLen])

/-- `netaddr_cmp_to_socket`, netaddr.c:789-811 -/
def cmpToSocket (a : Netaddr) (s : Socket) : Int :=
  let result : Int := (a.type.toNat : Int) - s.family
  if result ≠ 0 then result
  else
    let result :=
      if a.type = AF_INET then memcmp (a.addr.take 4) (s.addr.take 4)
      else if a.type = AF_INET6 then memcmp (a.addr.take 16) (s.addr.take 16)
      else 0
    if result ≠ 0 then result
    else (a.prefixLen.toNat : Int) - (if a.type = AF_INET then 32 else 128)

/-- `netaddr_isequal_binary`, netaddr.c:822-836 -/
def isEqualBinary (a : Netaddr) (bin : List UInt8) (af : Nat) (prefixLen : UInt8) : Bool :=
  if a.type.toNat ≠ af ∨ a.prefixLen ≠ prefixLen then false
  else
    let addrLen := maxPrefix a >>> 3
    if addrLen ≠ bin.length then false
    else memcmp (a.addr.take addrLen) bin == 0

/-! ### prefixes -/

/-- `_binary_is_in_subnet`, netaddr.c:1211-1232; `none` is a read outside of one of the arrays.
Bytes are promoted to `int` before the shift. -/
def binaryIsInSubnet (subnet : Netaddr) (bin : List UInt8) : Option Bool :=
  let byteLength := subnet.prefixLen.toNat / 8
  let bitLength := subnet.prefixLen.toNat % 8
  if byteLength > 16 ∨ byteLength > bin.length then none
  else if subnet.addr.take byteLength ≠ bin.take byteLength then some false
  else if bitLength ≠ 0 then
    match subnet.addr[byteLength]?, bin[byteLength]? with
    | some x, some y => some (x.toNat >>> (8 - bitLength) == y.toNat >>> (8 - bitLength))
    | _, _ => none
  else some true

/-- `netaddr_binary_is_in_subnet`, netaddr.c:846-852 -/
def netaddrBinaryIsInSubnet (subnet : Netaddr) (bin : List UInt8) (af : UInt8) : Option Bool :=
  if subnet.type ≠ af ∨ maxPrefix subnet ≠ bin.length * 8 then some false
  else binaryIsInSubnet subnet bin

/-- `netaddr_is_in_subnet`, netaddr.c:861-867 -/
def isInSubnet (subnet addr : Netaddr) : Option Bool :=
  if subnet.type ≠ addr.type then some false
  else binaryIsInSubnet subnet addr.addr

/-- the table `MASK`, netaddr.c:434 -/
def MASK : List UInt8 := [0, 0x80, 0xc0, 0xe0, 0xf0, 0xf8, 0xfc, 0xfe]

/-- `netaddr_truncate`, netaddr.c:432-460.  All 16 bytes of the target are written, so the result
does not depend on whether source and target are the same object. -/
def truncate (src : Netaddr) : Option Netaddr :=
  let bytePrefix := src.prefixLen.toNat / 8
  let bitPrefix := src.prefixLen.toNat % 8
  if bytePrefix > 16 then none
  else if bitPrefix ≠ 0 then
    match src.addr[bytePrefix]? with
    | none => none
    | some x =>
      some { src with addr := src.addr.take bytePrefix ++ [x &&& MASK.getD bitPrefix 0]
                ++ List.replicate (16 - (bytePrefix + 1)) 0 }
  else some { src with addr := src.addr.take bytePrefix ++ List.replicate (16 - bytePrefix) 0 }

/-- `netaddr_create_host_bin`, netaddr.c:312-357 (`number` has `num_length` bytes).  A network with
a prefix longer than its family allows is outside of the model (`ub`). -/
def createHostBin (netmask : Netaddr) (number : List UInt8) : Out Netaddr :=
  let max := maxPrefix netmask
  let host : Netaddr := { netmask with prefixLen := UInt8.ofNat max }
  if max = 0 then .err host
  else if max = netmask.prefixLen.toNat ∨ number.length = 0 then .ok host
  else if netmask.prefixLen.toNat > max then .ub
  else
    let p := netmask.prefixLen.toNat
    let hostPartLength := (max - p + 7) / 8
    let numLength := number.length
    if hostPartLength > numLength then
      let hostIndex := max / 8 - numLength
      .ok { host with
        addr := host.addr.take hostIndex ++ number ++ host.addr.drop (hostIndex + numLength) }
    else
      let hostIndex := p / 8
      let numberIndex := numLength - hostPartLength
      if p % 8 ≠ 0 then
        match host.addr[hostIndex]?, number[numberIndex]? with
        | some h, some n =>
          let mask := UInt8.ofNat (255 >>> (p % 8))
          let b := (h &&& ~~~mask) ||| (n &&& mask)
          let rest := number.drop (numberIndex + 1)
          .ok { host with
            addr := host.addr.take hostIndex ++ [b] ++ rest
              ++ host.addr.drop (hostIndex + 1 + rest.length) }
        | _, _ => .ub
      else
        let rest := number.drop numberIndex
        .ok { host with
          addr := host.addr.take hostIndex ++ rest ++ host.addr.drop (hostIndex + rest.length) }

/-- prefix length stored for one byte of the mask (netaddr.c:393-421): `some` number of bits -/
def maskByte (b : UInt8) : Option Nat :=
  if b = 255 then some 8 else if b = 254 then some 7 else if b = 252 then some 6
  else if b = 248 then some 5 else if b = 240 then some 4 else if b = 224 then some 3
  else if b = 192 then some 2 else if b = 128 then some 1 else if b = 0 then some 0 else none

/-- the loop of `netaddr_create_prefix`, netaddr.c:388-423: prefix length and success.  Line 395
increments the loop variable a second time.  The address bytes written by the loop are not
modelled. -/
def prefixLoop (netmask : List UInt8) (maxlen : Nat) : Nat → Nat → Nat → Option Nat
  | 0, _, plen => some plen
  | fuel + 1, len, plen =>
    if len < maxlen then
      match maskByte (netmask.getD len 0) with
      | none => none
      | some k => if k = 8 then prefixLoop netmask maxlen fuel (len + 2) (plen + 8) else some (plen + k)
    else some plen

/-- `netaddr_create_prefix`, netaddr.c:368-425: the resulting prefix length (`none` = error) -/
def createPrefixLen (host netmask : Netaddr) : Option Nat :=
  if host.type ≠ netmask.type ∨ host.type = AF_UNSPEC then none
  else prefixLoop netmask.addr (afMaxPrefix host.type / 8) 17 0 0

/-- the loop of `_subnetmask_to_prefixlen`, netaddr.c:1191-1197; first argument is `len + 1` -/
def subnetLoop (v4 : Nat) : Nat → Nat → Int
  | 0, _ => -1
  | n + 1, shift => if v4 = shift then n else subnetLoop v4 n (shift * 2 % 2 ^ 32)

/-- `_subnetmask_to_prefixlen`, netaddr.c:1179-1201, behind the text conversion (`v4` in host byte
order) -/
def subnetmaskToPrefixlen (v4 : Nat) : Int := subnetLoop v4 32 (2 ^ 32 - 1)

/-! ### other helpers of netaddr.h -/

/-- `netaddr_embed_ipv4_compatible`, netaddr.h:314-320 -/
def embedIpv4 (src : Netaddr) : Netaddr :=
  ⟨List.replicate 12 0 ++ src.addr.take 4, AF_INET6, src.prefixLen + 96⟩

/-- `netaddr_extract_ipv4_compatible`, netaddr.h:327-333 -/
def extractIpv4 (src : Netaddr) : Netaddr :=
  ⟨(src.addr.drop 12).take 4 ++ List.replicate 12 0, AF_INET, src.prefixLen - 96⟩

/-! ### comparators for tree keys, avl_comp.c -/

/-- `avl_comp_uint32`, `avl_comp_int32`, `avl_comp_uint16`, `avl_comp_uint8`, avl_comp.c:58-130 -/
def compInt (u1 u2 : Int) : Int := if u1 > u2 then 1 else if u2 > u1 then -1 else 0

/-- `tolower` in the C locale -/
def toLower (c : UInt8) : UInt8 := if 65 ≤ c ∧ c ≤ 90 then c + 32 else c

/-- `strcasecmp` (used by `avl_comp_strcasecmp`, avl_comp.c:165-168); the arguments are the texts
without the terminating zero -/
def strcasecmp : List UInt8 → List UInt8 → Int
  | [], [] => 0
  | [], _ :: _ => -1
  | _ :: _, [] => 1
  | a :: as, b :: bs =>
    if toLower a < toLower b then -1 else if toLower b < toLower a then 1 else strcasecmp as bs

end Verif.Netaddr
