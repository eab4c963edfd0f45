/-
UDP sockets: sending with a backlog, receiving.
/repo/src/base/oonf_packet_socket.c.
-/
namespace Verif.Packet

abbrev Bytes := List UInt8

/-- `union netaddr_socket` as memory, netaddr.h:118-130: 128 bytes. -/
abbrev Remote := { b : Bytes // b.length = 128 }

/-- A datagram and where it is to go. -/
structure Dgram where
  remote : Remote
  data : Bytes
deriving DecidableEq

/-- What `sendto` does with a datagram, as far as oonf_packet_socket.c looks at it: it is on its
way (the result is its length); EINTR, EAGAIN or EWOULDBLOCK; EPERM; another error. -/
inductive Ans where
  | ok | again | perm | err
deriving DecidableEq, Repr

/-- A socket: `out`, whether write events are asked for, and what happened to the outside: the
datagrams `sendto` accepted. -/
structure Sock where
  out : Bytes := []
  want : Bool := false
  wire : List Dgram := []
deriving DecidableEq

/-- The two bytes of the length on a little endian machine, `abuf_append_uint16`
(autobuf.h:155-158) of a `size_t`. -/
def le16 (n : Nat) : Bytes := [UInt8.ofNat (n % 256), UInt8.ofNat (n / 256 % 256)]

/-- The entry of a datagram in the backlog, oonf_packet_socket.c:236-243. -/
def entry (d : Dgram) : Bytes := d.remote.val ++ (le16 d.data.length ++ d.data)

/-- `oonf_packet_send`, oonf_packet_socket.c:208-248: the new state, and whether 0 is returned.
`ans` is used if there is no backlog. `stale` is what `errno` says if `sendto` succeeds, which
matters because a result of 0 is taken for an error. Memory does not run out. -/
def send (s : Sock) (d : Dgram) (ans stale : Ans) : Sock × Bool :=
  let queue (s : Sock) : Sock × Bool := ({ s with out := s.out ++ entry d, want := true }, true)
  let failed (s : Sock) (errno : Ans) : Sock × Bool := if errno = .again then queue s else (s, false)
  if s.out = [] then
    match ans with
    | .ok =>
      let s := { s with wire := s.wire ++ [d] }
      if d.data.length > 0 then (s, true) else failed s stale
    | e => failed s e
  else queue s

/-- What becomes of the first entry in the backlog. -/
inductive Gone where
  | sent | lost
deriving DecidableEq, Repr

/-- The part of `_cb_packet_event` for write events, oonf_packet_socket.c:807-847: the new state and,
if an entry was removed, what became of it. `none`: access outside of the buffer. -/
def writable (s : Sock) (ans : Ans) : Option (Sock × Option (Dgram × Gone)) :=
  if s.out = [] then some ({ s with want := false }, none)
  else if h : (s.out.take 128).length = 128 then
    match s.out.drop 128 with
    | a :: b :: rest =>
      let length := a.toNat + 256 * b.toNat
      if rest.length < length then none
      else
        let d : Dgram := ⟨⟨s.out.take 128, h⟩, rest.take length⟩
        if ans = .again then some (s, none)
        else
          let out := rest.drop length
          let want := if out = [] then false else s.want
          if ans = .ok then some ({ s with out, want, wire := s.wire ++ [d] }, some (d, .sent))
          else some ({ s with out, want }, some (d, .lost))
    | _ => none
  else none

/-- What happens to a socket. -/
inductive Op where
  | send (d : Dgram) (ans stale : Ans)
  | writable (ans : Ans)

/-- A history, newest first: the socket, the datagrams for which `oonf_packet_send` returned 0, and
those which left the backlog because of an error. -/
structure World where
  sock : Sock := {}
  accepted : List Dgram := []
  lost : List Dgram := []

/-- One event. -/
def step (w : World) : Op → Option World
  | .send d ans stale =>
    let r := send w.sock d ans stale
    some { w with sock := r.1, accepted := if r.2 then w.accepted ++ [d] else w.accepted }
  | .writable ans =>
    match writable w.sock ans with
    | none => none
    | some (s, some (d, .lost)) => some { w with sock := s, lost := w.lost ++ [d] }
    | some (s, _) => some { w with sock := s }

/-- All events. -/
def run : List Op → Option World
  | [] => some {}
  | o :: ops => (run ops).bind fun w => step w o

/-! ## Receiving -/

/-- What the owner of the socket gets. -/
inductive Got where
  | nothing
  | data (b : Bytes)
  /-- length (as `size_t`) and place outside of what was received -/
  | wild
deriving DecidableEq, Repr

/-- A socket for receiving: size of the buffer, address family of the local address, and
`protocol`, which is not 0 if the socket once was a raw socket. -/
structure In where
  cap : Nat
  v4 : Bool
  raw : Bool
deriving DecidableEq, Repr

/-- `os_fd_linux_skip_rawsocket_prefix`, os_fd_linux.c:151-165, for IPv4. -/
def header (b : Bytes) : Nat := (b.headD 0 &&& 15).toNat * 4

/-- The part of `_cb_packet_event` for read events, oonf_packet_socket.c:772-805, for a datagram
that has arrived; the kernel cuts it to the size of the buffer minus one. The access control list
`_managed_config.acl` and the source of the datagram are not looked at, so `accepted` (what the
list says about the source) is not used. -/
def receive (i : In) (accepted : Bool) (d : Bytes) : Got :=
  let _ := accepted
  let b := d.take (i.cap - 1)
  if b = [] then .nothing
  else if i.raw && i.v4 then
    if b.length < header b then .wild else .data (b.drop (header b))
  else .data b

end Verif.Packet
