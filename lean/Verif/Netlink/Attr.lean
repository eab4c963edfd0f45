/-
Attributes of netlink messages and messages in a buffer: src/base/os_linux/os_system_linux.c:430-465,
include/oonf/base/os_linux/os_system_linux.h:155-167, and the macros of <linux/rtnetlink.h> used to read them.

Simplifications: numbers are stored with the least significant byte first; the field `nlmsg_len` of a message under construction
is the length of the list of its bytes; the buffers of the callers are filled with zeros (`memset`).
-/
namespace Verif.Netlink

/-- `NLMSG_ALIGN`, `RTA_ALIGN` -/
def align (n : Nat) : Nat := (n + 3) / 4 * 4

/-- a 16 bit number in memory -/
def le16 (n : Nat) : List UInt8 := [UInt8.ofNat n, UInt8.ofNat (n / 256)]

/-- the 16 bit number in memory -/
def rd16 : List UInt8 → Nat
  | a :: b :: _ => a.toNat + 256 * b.toNat
  | _ => 0

/-- `UIO_MAXIOV` -/
def MAXIOV : Nat := 1024

/-- `os_system_linux_netlink_addreq`, os_system_linux.c:439-465; `none`: -1, message unchanged -/
def addreq (msg : List UInt8) (type : Nat) (data : List UInt8) : Option (List UInt8) :=
  if align msg.length + (4 + data.length) > MAXIOV then none
  else some (msg ++ List.replicate (align msg.length - msg.length) 0 ++ le16 (4 + data.length) ++ le16 type ++ data)

/-- several attributes, one after the other; the callers give up at the first failure -/
def addAll (msg : List UInt8) : List (Nat × List UInt8) → Option (List UInt8)
  | [] => some msg
  | a :: as => (addreq msg a.1 a.2).bind fun m => addAll m as

/-- the loop with `RTA_OK` and `RTA_NEXT`, for example os_interface_linux.c:985 and 1162 -/
def attrs : Nat → List UInt8 → List (Nat × List UInt8)
  | 0, _ => []
  | fuel + 1, bytes =>
    if 4 ≤ bytes.length ∧ 4 ≤ rd16 bytes ∧ rd16 bytes ≤ bytes.length then
      (rd16 (bytes.drop 2), (bytes.take (rd16 bytes)).drop 4) :: attrs fuel (bytes.drop (align (rd16 bytes)))
    else []

/-- attributes of the payload of a message -/
def readAttrs (bytes : List UInt8) : List (Nat × List UInt8) := attrs bytes.length bytes

/-- the 32 bit number in memory -/
def rd32 : List UInt8 → Nat
  | a :: b :: c :: d :: _ => a.toNat + 256 * b.toNat + 65536 * c.toNat + 16777216 * d.toNat
  | _ => 0

/-- messages collected for one `sendmsg`: `abuf_memcpy(&nl->out, nl_hdr, nl_hdr->nlmsg_len)`, os_system_linux.c:377 -/
def collect (msgs : List (List UInt8)) : List UInt8 := msgs.flatten

/-- what is read from a buffer: the loop with `NLMSG_OK` and `NLMSG_NEXT`, os_system_linux.c:653. The kernel (`netlink_rcv_skb`) reads the
buffers it gets in the same way. -/
def messages : Nat → List UInt8 → List (List UInt8)
  | 0, _ => []
  | fuel + 1, bytes =>
    if 16 ≤ bytes.length ∧ 16 ≤ rd32 bytes ∧ rd32 bytes ≤ bytes.length then
      bytes.take (rd32 bytes) :: messages fuel (bytes.drop (align (rd32 bytes)))
    else []

end Verif.Netlink
