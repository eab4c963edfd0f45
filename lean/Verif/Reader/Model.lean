/-
Model of the RFC 5444 packet parser `src/librfc5444/rfc5444_reader.c`
(built with DISALLOW_CONSUMER_CONTEXT_DROP false, DEBUG_CLEANUP false, rfc5444_api_config.h:50-56).

A pair of pointers `*ptr`, `eob` is the list of the bytes between them.  Pointers into the received
buffer that are kept (TLV values, address parts, prefix lengths) are the bytes they point at.
Undefined behaviour is the outcome `ub`.  Loops get a number of iterations; running out of it is the
outcome `ub loop`, which stands for a loop that does not end.
Allocation results come from an arbitrary function of the number of the allocation.
Callbacks of consumers are an arbitrary function of the complete history of callbacks so far
(`Env.resp`), see `Resp` for what they can do.
Not modelled: `copy_value` of consumer entries, conversion of addresses to `struct netaddr` (area
Netaddr), stale `single_value` of a TLV without value, memory release.
-/
namespace Verif.Reader

abbrev Bytes := List UInt8

/-- kinds of undefined behaviour: read outside of the buffer, write outside of an array, division by zero,
endless loop -/
inductive Ub | read | copy | div | loop
deriving DecidableEq, Repr

/-- outcome of a parser function: a value, an error code (`enum rfc5444_result`, rfc5444_context.h:58-145)
or undefined behaviour -/
inductive R (α : Type) | ok (a : α) | err (code : Int) | ub (u : Ub)
deriving DecidableEq, Repr

/-- rfc5444_context.h:58-145 -/
def DROP_PACKET : Int := 5
def DROP_MESSAGE : Int := 4
def DROP_MSG_BUT_FORWARD : Int := 3
def DROP_ADDRESS : Int := 2
def DROP_TLV : Int := 1
def OKAY : Int := 0
def UNSUPPORTED_VERSION : Int := -1
def END_OF_BUFFER : Int := -2
def BAD_TLV_IDXFLAGS : Int := -3
def BAD_TLV_VALUEFLAGS : Int := -4
def BAD_TLV_LENGTH : Int := -5
def OUT_OF_MEMORY : Int := -6
def EMPTY_ADDRBLOCK : Int := -7
def BAD_MSG_TAILFLAGS : Int := -8
def BAD_MSG_PREFIXFLAGS : Int := -9
def TOO_LARGE : Int := -16
def BAD_ADDR_HEAD_LENGTH : Int := -18
def BAD_ADDR_TAIL_LENGTH : Int := -19
def BAD_TLV_INDEX : Int := -20

/-- `*ptr` (up to `eob`) and the variable `result` of a parser function -/
structure S where
  rest : Bytes
  res : Int
deriving DecidableEq, Repr

/-- `_rfc5444_get_u8`, rfc5444_reader.c:392-406 -/
def getU8 (s : S) : UInt8 × S :=
  if s.res ≠ OKAY then (0, s)
  else
    match s.rest with
    | [] => (0, { s with res := END_OF_BUFFER })
    | b :: r => (b, { s with rest := r })

/-- `_rfc5444_get_u16`, rfc5444_reader.c:417-420.  (C leaves the order of the two calls open; it is the
one used by the compiler from left to right.) -/
def getU16 (s : S) : Nat × S :=
  let (a, s) := getU8 s
  let (b, s) := getU8 s
  (a.toNat * 256 + b.toNat, s)

/-- `struct rfc5444_reader_tlvblock_entry`, rfc5444_reader.h:68-115; `id` is the position of the TLV in its
block, `value` are the bytes at `_value`, `drop` the indices set in `int_drop_tlv` -/
structure Tlv where
  id : Nat
  type : UInt8
  flags : UInt8
  ext : UInt8
  length : Nat
  index1 : UInt8
  index2 : UInt8
  value : Bytes
  multi : Bool
  drop : List Nat
deriving DecidableEq, Repr

/-- `_calc_tlvblock_intorder`, rfc5444_reader.c:354-357 -/
def Tlv.order (t : Tlv) : Nat := t.type.toNat * 256 + t.ext.toNat

/-- the index fields of a TLV, rfc5444_reader.c:469-487: (index1, index2), or `none` for illegal flags -/
def parseIndex (flags : UInt8) (addrCount : UInt8) (s : S) : Option (UInt8 × UInt8 × S) :=
  let masked := flags &&& 0x60
  if masked = 0 then some (0, addrCount - 1, s)
  else if masked = 0x40 then
    let (i, s) := getU8 s
    some (i, i, s)
  else if masked = 0x20 then
    let (i, s) := getU8 s
    let (j, s) := getU8 s
    some (i, j, s)
  else none

/-- the length field of a TLV, rfc5444_reader.c:495-509, `none` for illegal flags -/
def parseLength (flags : UInt8) (s : S) : Option (Nat × S) :=
  let masked := flags &&& 0x18
  if masked = 0 then some (0, s)
  else if masked = 0x10 then
    let (l, s) := getU8 s
    some (l.toNat, s)
  else if masked = 0x18 then some (getU16 s)
  else none

/-- handling of a value, rfc5444_reader.c:524-545: the final length and multivalue flag -/
def tlvValue (flags index1 index2 : UInt8) (length : Nat) : R (Nat × Bool) :=
  let multi := decide (flags &&& 0x04 ≠ 0)
  if length = 0 then .ok (0, multi)
  else
    let count := index2 - index1 + 1
    let multi := if count = 1 then false else multi
    if multi = false then .ok (length, false)
    else if count = 0 then .ub .div
    else if length % count.toNat ≠ 0 then .err BAD_TLV_LENGTH
    else .ok (length / count.toNat, true)

/-- `_parse_tlv`, rfc5444_reader.c:446-546 -/
def parseTlv (id : Nat) (rest : Bytes) (addrCount : UInt8) : R (Tlv × Bytes) :=
  let s : S := ⟨rest, OKAY⟩
  let (type, s) := getU8 s
  let (flags, s) := getU8 s
  let (ext, s) := if flags &&& 0x80 ≠ 0 then getU8 s else (0, s)
  match parseIndex flags addrCount s with
  | none => .err BAD_TLV_IDXFLAGS
  | some (index1, index2, s) =>
    if addrCount > 0 ∧ (index1 ≥ addrCount ∨ index2 ≥ addrCount) then .err BAD_TLV_INDEX
    else
      match parseLength flags s with
      | none => .err BAD_TLV_VALUEFLAGS
      | some (length, s) =>
        if length > s.rest.length then .err END_OF_BUFFER
        else if s.res ≠ OKAY then .err s.res
        else
          match tlvValue flags index1 index2 length with
          | .ub u => .ub u
          | .err e => .err e
          | .ok (len, multi) =>
            .ok (⟨id, type, flags, ext, len, index1, index2, s.rest.take length, multi, []⟩, s.rest.drop length)

/-- insertion into the tree of TLVs, sorted by order, behind entries with the same order (the AVL tree of
area Avl with duplicates; rfc5444_reader.c:599-600) -/
def insertTlv (t : Tlv) : List Tlv → List Tlv
  | [] => [t]
  | u :: us => if u.order ≤ t.order then u :: insertTlv t us else t :: u :: us

/-- the loop of `_parse_tlvblock`, rfc5444_reader.c:579-602: TLVs are parsed up to `eob`, the loop ends when
at most `stop` bytes (those behind the block) are left.  `k` counts allocations. -/
def tlvLoop (mem : Nat → Bool) (addrCount : UInt8) (stop : Nat) : Nat → Nat → Nat → Bytes → List Tlv → R (List Tlv × Bytes × Nat)
  | 0, _, _, _, _ => .ub .loop
  | n + 1, k, id, rest, tlvs =>
    if rest.length ≤ stop then .ok (tlvs, rest, k)
    else
      match parseTlv id rest addrCount with
      | .ub u => .ub u
      | .err e => .err e
      | .ok (t, rest) =>
        if mem k = false then .err OUT_OF_MEMORY
        else tlvLoop mem addrCount stop n (k + 1) (id + 1) rest (insertTlv t tlvs)

/-- `_parse_tlvblock`, rfc5444_reader.c:559-609 (memory is released after an error) -/
def parseTlvblock (mem : Nat → Bool) (k : Nat) (rest : Bytes) (addrCount : UInt8) : R (List Tlv × Bytes × Nat) :=
  let (len, s) := getU16 ⟨rest, OKAY⟩
  if 2 + len > rest.length then .err END_OF_BUFFER
  else tlvLoop mem addrCount (rest.length - (2 + len)) (rest.length + 1) k 0 s.rest []

/-- `struct rfc5444_reader_addrblock_entry`, rfc5444_reader.h:207-249; `mid` are the bytes at `mid_src`,
`prefixes` those at `prefixes`, `size` is `addr_block_size`, `drop` the indices set in `dropAddr`, `tlvs`
the corresponding TLV block -/
structure Block where
  num : UInt8
  midStart : UInt8
  midLen : UInt8
  addr : Bytes
  mid : Bytes
  plen : UInt8
  prefixes : Option Bytes
  size : Nat
  tlvs : List Tlv
  tlvSize : Nat
  drop : List Nat
deriving DecidableEq, Repr

/-- `memcpy(&addr[off], src, src.length)` into an array of 16 bytes -/
def copyTo (addr : Bytes) (off : Nat) (src : Bytes) : Option Bytes :=
  if off + src.length ≤ 16 then some (addr.take off ++ src ++ addr.drop (off + src.length)) else none

/-- the head of an address block, rfc5444_reader.c:831-847: (mid_start, mid_len, addr, rest) -/
def parseHead (flags addrLen : UInt8) (s : S) : R (UInt8 × UInt8 × Bytes × S) :=
  let addr := List.replicate 16 0
  if flags &&& 0x80 ≠ 0 then
    let (h, s) := getU8 s
    if h < 1 ∨ h ≥ 16 ∨ h ≥ addrLen then .err BAD_ADDR_HEAD_LENGTH
    else if s.rest.length < h.toNat then .err END_OF_BUFFER
    else
      match copyTo addr 0 (s.rest.take h.toNat) with
      | none => .ub .copy
      | some addr => .ok (h, addrLen - h, addr, { s with rest := s.rest.drop h.toNat })
  else .ok (0, addrLen, addr, s)

/-- the tail of an address block, rfc5444_reader.c:850-871: (mid_len, addr, rest) -/
def parseTail (flags addrLen midLen : UInt8) (addr : Bytes) (s : S) : R (UInt8 × Bytes × S) :=
  let masked := flags &&& 0x60
  if masked = 0x20 then
    let (t, s) := getU8 s
    .ok (midLen - t, addr, s)
  else if masked = 0x40 then
    let (t, s) := getU8 s
    if t < 1 ∨ t ≥ 16 ∨ t ≥ addrLen then .err BAD_ADDR_TAIL_LENGTH
    else if s.rest.length < t.toNat then .err END_OF_BUFFER
    else
      match copyTo addr (addrLen.toNat - t.toNat) (s.rest.take t.toNat) with
      | none => .ub .copy
      | some addr => .ok (midLen - t, addr, { s with rest := s.rest.drop t.toNat })
  else if masked ≠ 0 then .err BAD_MSG_TAILFLAGS
  else .ok (midLen, addr, s)

/-- the prefix lengths of an address block, rfc5444_reader.c:881-899: (prefixlen, prefixes, rest).  With a
single prefix length the byte at `*ptr` is read before the check against the end of the message; `more`
tells whether there are bytes of the packet behind the message. -/
def parsePrefix (more : Bool) (flags addrLen num : UInt8) (rest : Bytes) : R (UInt8 × Option Bytes × Bytes) :=
  let masked := flags &&& 0x18
  if masked = 0 then .ok (addrLen * 8, none, rest)
  else if masked = 0x10 then
    match rest with
    | [] => if more then .err END_OF_BUFFER else .ub .read
    | p :: rest => .ok (p, none, rest)
  else if masked = 0x08 then
    if rest.length < num.toNat then .err END_OF_BUFFER
    else .ok (0, some (rest.take num.toNat), rest.drop num.toNat)
  else .err BAD_MSG_PREFIXFLAGS

/-- `_parse_addrblock`, rfc5444_reader.c:807-905 -/
def parseAddrblock (more : Bool) (rest : Bytes) (addrLen : UInt8) : R (Block × Bytes) :=
  let s : S := ⟨rest, OKAY⟩
  let (num, s) := getU8 s
  if num = 0 then .err EMPTY_ADDRBLOCK
  else
    let (flags, s) := getU8 s
    match parseHead flags addrLen s with
    | .ub u => .ub u
    | .err e => .err e
    | .ok (midStart, midLen, addr, s) =>
      match parseTail flags addrLen midLen addr s with
      | .ub u => .ub u
      | .err e => .err e
      | .ok (midLen, addr, s) =>
        let n := midLen.toNat * num.toNat
        if s.rest.length < n then .err END_OF_BUFFER
        else
          match parsePrefix more flags addrLen num (s.rest.drop n) with
          | .ub u => .ub u
          | .err e => .err e
          | .ok (plen, prefixes, rest') =>
            if s.res ≠ OKAY then .err s.res
            else .ok (⟨num, midStart, midLen, addr, s.rest.take n, plen, prefixes, rest.length - rest'.length, [], 0, []⟩, rest')

/-- header of a message, fields of `struct rfc5444_reader_tlvblock_context`, rfc5444_reader.h:150-190;
`orig` are the bytes of the originator -/
structure Hdr where
  type : UInt8
  flags : UInt8
  addrLen : UInt8
  size : Nat
  orig : Option Bytes
  hoplimit : Option UInt8
  hopcount : Option UInt8
  seqno : Option Nat
deriving DecidableEq, Repr

/-- the loop over address blocks of `_handle_message`, rfc5444_reader.c:1147-1176 -/
def blockLoop (mem : Nat → Bool) (more : Bool) (addrLen : UInt8) : Nat → Nat → Bytes → List Block → R (List Block × Nat)
  | 0, _, _, _ => .ub .loop
  | n + 1, k, rest, blocks =>
    if rest = [] then .ok (blocks, k)
    else if mem k = false then .err OUT_OF_MEMORY
    else
      match parseAddrblock more rest addrLen with
      | .ub u => .ub u
      | .err e => .err e
      | .ok (b, rest1) =>
        match parseTlvblock mem (k + 1) rest1 b.num with
        | .ub u => .ub u
        | .err e => .err e
        | .ok (tlvs, rest2, k) =>
          blockLoop mem more addrLen n k rest2 (blocks ++ [{ b with tlvs := tlvs, tlvSize := rest1.length - rest2.length }])

/-- optional fields of the message header behind the size, rfc5444_reader.c:1108-1130; the result is the
header and the rest -/
def parseFields (type flags : UInt8) (size : Nat) (s : S) : R (Hdr × S) :=
  let addrLen := (flags &&& 0x0f) + 1
  let orig : R (Option Bytes × S) :=
    if flags &&& 0x80 ≠ 0 then
      if s.rest.length < addrLen.toNat then .err END_OF_BUFFER
      else .ok (some (s.rest.take addrLen.toNat), { s with rest := s.rest.drop addrLen.toNat })
    else .ok (none, s)
  match orig with
  | .ub u => .ub u
  | .err e => .err e
  | .ok (orig, s) =>
    let (hoplimit, s) := if flags &&& 0x40 ≠ 0 then (fun r => (some r.1, r.2)) (getU8 s) else (none, s)
    let (hopcount, s) := if flags &&& 0x20 ≠ 0 then (fun r => (some r.1, r.2)) (getU8 s) else (none, s)
    let (seqno, s) := if flags &&& 0x10 ≠ 0 then (fun r => (some r.1, r.2)) (getU16 s) else (none, s)
    .ok (⟨type, flags, addrLen, size, orig, hoplimit, hopcount, seqno⟩, s)

/-- header of a message, rfc5444_reader.c:1095-1137 -/
def parseHeader (start : Bytes) : R (Hdr × S) :=
  let s : S := ⟨start, OKAY⟩
  let (type, s) := getU8 s
  let (flags, s) := getU8 s
  let (size, s) := getU16 s
  match parseFields type flags size s with
  | .ub u => .ub u
  | .err e => .err e
  | .ok (h, s) =>
    if size > start.length then .err END_OF_BUFFER
    else if s.res ≠ OKAY then .err s.res
    else .ok (h, s)

/-- a parsed message: header, message TLVs, address blocks -/
structure Msg where
  hdr : Hdr
  tlvs : List Tlv
  blocks : List Block
deriving DecidableEq, Repr

/-- the parsing part of `_handle_message`, rfc5444_reader.c:1095-1176; the rest of the message is limited by
its size field, a size field below the size of the header leaves nothing -/
def parseMessage (mem : Nat → Bool) (k : Nat) (start : Bytes) : R (Msg × Nat) :=
  match parseHeader start with
  | .ub u => .ub u
  | .err e => .err e
  | .ok (h, s) =>
    let used := start.length - s.rest.length
    let body := s.rest.take (h.size - used)
    match parseTlvblock mem k body 0 with
    | .ub u => .ub u
    | .err e => .err e
    | .ok (tlvs, rest, k) =>
      match blockLoop mem (decide (h.size < start.length)) h.addrLen (rest.length + 1) k rest [] with
      | .ub u => .ub u
      | .err e => .err e
      | .ok (blocks, k) => .ok (⟨h, tlvs, blocks⟩, k)

/-! ### consumers -/

/-- `struct rfc5444_reader_tlvblock_consumer_entry`, rfc5444_reader.h:254-298 -/
structure Entry where
  mandatory : Bool
  type : UInt8
  ext : UInt8
  matchExt : Bool
  minLen : Nat
  maxLen : Nat
  matchLen : Bool
deriving DecidableEq, Repr

/-- `struct rfc5444_reader_tlvblock_consumer`, rfc5444_reader.h:303-371: `hasX` tells whether a callback is
set; `entries` is the sorted list of entries -/
structure Consumer where
  id : Nat
  order : Int
  dflt : Bool
  msgId : UInt8
  addrblock : Bool
  entries : List Entry
  hasStart : Bool
  hasEnd : Bool
  hasTlv : Bool
  hasBlock : Bool
  hasFailed : Bool
deriving DecidableEq, Repr

/-- what a callback is called for: the packet, a message (number within the packet), an address of a
message (number of the block, index; bytes and prefix length) -/
inductive Ctx
  | pkt
  | msg (m : Nat)
  | addr (m blk idx : Nat) (bytes : Bytes) (plen : UInt8)
deriving DecidableEq, Repr

/-- kinds of callbacks: begin, end (with drop flag), TLV (with value at `single_value`), TLV block
without / with failed constraints (TLVs matched by the entries), and the call of `forward_message` -/
inductive Kind
  | start
  | fin (dropped : Bool)
  | tlv (t : Tlv) (value : Bytes)
  | block (m : List (List Tlv))
  | failed (m : List (List Tlv))
  | forward (h : Hdr) (bytes : Bytes)
deriving DecidableEq, Repr

/-- effect of a callback: its result, whether it calls `rfc5444_reader_prevent_forwarding`
(rfc5444_reader.h:431-434), and the numbers of the consumer entries whose field `drop` is set afterwards.
The result is a member of `enum rfc5444_result`, the largest is `RFC5444_DROP_PACKET`. -/
structure Resp where
  res : Int
  noFwd : Bool
  drops : List Nat
  le : res ≤ DROP_PACKET
deriving DecidableEq, Repr

/-- a call of a callback of consumer `cid` and its effect -/
structure Event where
  cid : Nat
  ctx : Ctx
  kind : Kind
  r : Resp
deriving DecidableEq, Repr

/-- surroundings of the parser: callbacks, allocation, whether `forward_message` is set -/
structure Env where
  resp : List Event → Nat → Ctx → Kind → Resp
  mem : Nat → Bool
  hasForward : Bool

/-- history of callbacks (newest first) and `_do_not_forward` -/
structure St where
  log : List Event
  noFwd : Bool

/-- a callback -/
def call (env : Env) (st : St) (cid : Nat) (ctx : Ctx) (kind : Kind) : Resp × St :=
  let r := env.resp st.log cid ctx kind
  (r, ⟨⟨cid, ctx, kind, r⟩ :: st.log, r.noFwd || st.noFwd⟩)

/-- `_compare_tlvtypes`, rfc5444_reader.c:365-381 -/
def compareTypes (t : Option Tlv) (e : Option Entry) : Int :=
  match e, t with
  | none, none => 0
  | none, some _ => -1
  | some _, none => 1
  | some e, some t =>
    if e.matchExt then (t.order : Int) - ((e.type.toNat * 256 + e.ext.toNat : Nat) : Int)
    else (t.type.toNat : Int) - (e.type.toNat : Int)

/-- does a TLV apply to an index, rfc5444_reader.c:656-659 -/
def indexMatch (t : Tlv) (idx : Nat) : Bool :=
  !t.drop.contains idx && decide (t.index1.toNat ≤ idx) && decide (idx ≤ t.index2.toNat)

/-- the bytes a consumer finds at `single_value`, rfc5444_reader.c:532-536 and 667-673 -/
def valueAt (t : Tlv) (idx : Nat) : Bytes :=
  if t.multi then (t.value.drop ((idx - t.index1.toNat) * t.length)).take t.length else t.value.take t.length

/-- `bitmap256_set` of the TLV with a number -/
def dropTlv (tid idx : Nat) (l : List Tlv) : List Tlv :=
  l.map fun t => if t.id = tid then { t with drop := idx :: t.drop } else t

/-- variables of the loop of `_schedule_tlvblock`: TLVs behind and in front of `tlv`, matches of the
entries before (with the numbers of the entries), entries from `cons_entry` on, matches of `cons_entry`,
`constraints_failed` -/
structure Loop where
  before : List Tlv
  tlvs : List Tlv
  done : List (List Tlv)
  entries : List Entry
  cur : List Tlv
  failed : Bool

/-- result of the TLV callback of one iteration, rfc5444_reader.c:676-697: (match, drop the TLV, abort) -/
def tlvCall (env : Env) (c : Consumer) (ctx : Ctx) (idx : Nat) (t : Option Tlv) (m : Bool) (st : St) :
    Bool × Bool × Int × St :=
  match t with
  | none => (m, false, OKAY, st)
  | some t =>
    if indexMatch t idx && c.hasTlv then
      let (r, st) := call env st c.id ctx (.tlv t (valueAt t idx))
      if r.res = DROP_TLV then (false, true, OKAY, st) else (m, false, r.res, st)
    else (m, false, OKAY, st)

/-- is the current entry mandatory -/
def mandatory (l : Loop) : Bool :=
  match l.entries with
  | e :: _ => e.mandatory
  | [] => false

/-- the TLV is too short or too long for the current entry, rfc5444_reader.c:701-704 -/
def badLength (l : Loop) : Bool :=
  match l.tlvs, l.entries with
  | t :: _, e :: _ => e.matchLen && (decide (t.length < e.minLen) || decide (t.length > e.maxLen))
  | _, _ => false

/-- handling of a match, rfc5444_reader.c:696-732; `m` is `match` -/
def takeMatch (m : Bool) (l : Loop) : Loop :=
  if compareTypes l.tlvs.head? l.entries.head? ≥ 0 then
    { l with failed := l.failed || (mandatory l && !m) || (m && badLength l),
             cur := if m then l.cur ++ l.tlvs.head?.toList else l.cur }
  else l

/-- step to the next TLV, rfc5444_reader.c:733-741; the current one keeps its drop mark -/
def nextTlv (idx : Nat) (d : Bool) (l : Loop) : Loop :=
  match l.tlvs with
  | [] => l
  | t :: ts =>
    let t' := if d then { t with drop := idx :: t.drop } else t
    if compareTypes l.tlvs.head? l.entries.head? ≤ 0 then { l with before := l.before ++ [t'], tlvs := ts }
    else { l with tlvs := t' :: ts }

/-- step to the next entry, rfc5444_reader.c:742-753 -/
def nextEntry (m : Bool) (l : Loop) : Loop :=
  if compareTypes l.tlvs.head? l.entries.head? > 0 then
    { l with failed := l.failed || (mandatory l && !m), done := l.done ++ [l.cur], cur := [], entries := l.entries.tail }
  else l

/-- the part of an iteration behind the TLV callback, rfc5444_reader.c:696-753; `m` is `match`, `d` tells
whether the TLV was just dropped -/
def advance (idx : Nat) (m d : Bool) (l : Loop) : Loop := nextEntry m (nextTlv idx d (takeMatch m l))

/-- `match` before the TLV callback, rfc5444_reader.c:660-663 -/
def isMatch (idx : Nat) (l : Loop) : Bool :=
  match l.tlvs, l.entries with
  | t :: _, e :: _ => indexMatch t idx && decide (compareTypes (some t) (some e) = 0)
  | _, _ => false

/-- the loop of `_schedule_tlvblock`, rfc5444_reader.c:650-754; the result is the result of a TLV callback
that ends the processing, the TLVs, and the state of the constraints and matches -/
def schedLoop (env : Env) (c : Consumer) (ctx : Ctx) (idx : Nat) : Nat → Loop → St → R (Int × Loop × St)
  | 0, _, _ => .ub .loop
  | n + 1, l, st =>
    if l.tlvs = [] ∧ l.entries = [] then .ok (OKAY, l, st)
    else
      let (m, d, res, st) := tlvCall env c ctx idx l.tlvs.head? (isMatch idx l) st
      if res ≠ OKAY then .ok (res, l, st)
      else schedLoop env c ctx idx n (advance idx m d l) st

/-- TLVs dropped by a TLV block callback, rfc5444_reader.c:777-788: for each entry with a match and the
flag `drop` the first match -/
def blockDrops (drops : List Nat) (idx : Nat) : Nat → List (List Tlv) → List Tlv → List Tlv
  | _, [], tlvs => tlvs
  | i, m :: ms, tlvs =>
    blockDrops drops idx (i + 1) ms
      (match m with
       | t :: _ => if drops.contains i then dropTlv t.id idx tlvs else tlvs
       | [] => tlvs)

/-- `_schedule_tlvblock`, rfc5444_reader.c:622-795: (result, TLVs with drop marks, state) -/
def scheduleTlvblock (env : Env) (c : Consumer) (ctx : Ctx) (tlvs : List Tlv) (idx : Nat) (st : St) :
    R (Int × List Tlv × St) :=
  match schedLoop env c ctx idx (tlvs.length + c.entries.length + 1) ⟨[], tlvs, [], c.entries, [], false⟩ st with
  | .ub u => .ub u
  | .err e => .err e
  | .ok (res, l, st) =>
    let all := l.before ++ l.tlvs
    if res ≠ OKAY then .ok (res, all, st)
    else
      let kind := if c.hasBlock && !l.failed then some (Kind.block l.done)
        else if c.hasFailed && l.failed then some (.failed l.done) else none
      match kind with
      | none => .ok (OKAY, all, st)
      | some kind =>
        let (r, st) := call env st c.id ctx kind
        if r.res = DROP_TLV then .ok (OKAY, blockDrops r.drops idx 0 l.done all, st)
        else .ok (r.res, all, st)

/-- start callback, rfc5444_reader.c:921-929 and 992-1000 -/
def startCall (env : Env) (c : Consumer) (ctx : Ctx) (st : St) : Int × St :=
  if c.hasStart then
    let (r, st) := call env st c.id ctx .start
    (r.res, st)
  else (OKAY, st)

/-- start callback and, if its result is OKAY, the TLV block, rfc5444_reader.c:921-936 and 992-1005 -/
def bodyCall (env : Env) (c : Consumer) (ctx : Ctx) (tlvs : List Tlv) (idx : Nat) (st : St) : R (Int × List Tlv × St) :=
  let (res, st) := startCall env c ctx st
  if res = OKAY then scheduleTlvblock env c ctx tlvs idx st else .ok (res, tlvs, st)

/-- `schedule_msgtlv_consumer`, rfc5444_reader.c:915-938 -/
def msgtlvConsumer (env : Env) (m : Nat) (c : Consumer) (tlvs : List Tlv) (st : St) : R (Int × List Tlv × St) :=
  bodyCall env c (.msg m) tlvs 0 st

/-- end callback of an address, rfc5444_reader.c:1003-1011 -/
def addrEnd (env : Env) (c : Consumer) (ctx : Ctx) (res : Int) (st : St) : Int × St :=
  if c.hasEnd then
    let (r, st) := call env st c.id ctx (.fin (res ≠ OKAY))
    (if r.res > res then r.res else res, st)
  else (res, st)

/-- prefix length of an address, rfc5444_reader.c:978-983 -/
def plenOf (b : Block) (i : Nat) : Option UInt8 :=
  match b.prefixes with
  | some p => p[i]?
  | none => some b.plen

/-- callbacks for an address, rfc5444_reader.c:991-1028: (result, block, state) -/
def addrCalls (env : Env) (c : Consumer) (ctx : Ctx) (i : Nat) (b : Block) (st : St) : R (Int × Block × St) :=
  match bodyCall env c ctx b.tlvs i st with
  | .ub u => .ub u
  | .err e => .err e
  | .ok (res, tlvs, st) =>
    let (res, st) := addrEnd env c ctx res st
    if res = DROP_ADDRESS then .ok (OKAY, { b with tlvs := tlvs, drop := i :: b.drop }, st)
    else .ok (res, { b with tlvs := tlvs }, st)

/-- one iteration of the inner loop of `schedule_msgaddr_consumer`, rfc5444_reader.c:966-1028: (result,
block, state) -/
def addrStep (env : Env) (m : Nat) (addrLen : UInt8) (c : Consumer) (blk : Nat) (b : Block) (i : Nat) (st : St) :
    R (Int × Block × St) :=
  if b.drop.contains i then .ok (OKAY, b, st)
  else
    match copyTo b.addr b.midStart.toNat ((b.mid.drop (b.midLen.toNat * i)).take b.midLen.toNat) with
    | none => .ub .copy
    | some a =>
      match plenOf b i with
      | none => .ub .read
      | some plen => addrCalls env c (.addr m blk i (a.take addrLen.toNat) plen) i { b with addr := a } st

/-- the inner loop of `schedule_msgaddr_consumer` from index `i` on for `n` addresses, rfc5444_reader.c:966-1024 -/
def addrLoop (env : Env) (m : Nat) (addrLen : UInt8) (c : Consumer) (blk : Nat) : Nat → Nat → Block → St → R (Int × Block × St)
  | 0, _, b, st => .ok (OKAY, b, st)
  | n + 1, i, b, st =>
    match addrStep env m addrLen c blk b i st with
    | .ub u => .ub u
    | .err e => .err e
    | .ok (res, b, st) => if res ≠ OKAY then .ok (res, b, st) else addrLoop env m addrLen c blk n (i + 1) b st

/-- `schedule_msgaddr_consumer`, rfc5444_reader.c:947-1031, from block number `blk` on: (result, blocks,
state) -/
def msgaddrConsumer (env : Env) (m : Nat) (addrLen : UInt8) (c : Consumer) : Nat → List Block → St → R (Int × List Block × St)
  | _, [], st => .ok (OKAY, [], st)
  | blk, b :: bs, st =>
    match addrLoop env m addrLen c blk b.num.toNat 0 b st with
    | .ub u => .ub u
    | .err e => .err e
    | .ok (res, b, st) =>
      if res ≠ OKAY then .ok (res, b :: bs, st)
      else
        match msgaddrConsumer env m addrLen c (blk + 1) bs st with
        | .ub u => .ub u
        | .err e => .err e
        | .ok (res, bs, st) => .ok (res, b :: bs, st)

/-- `schedule_end_message_cbs`, rfc5444_reader.c:1041-1062; `cs` are the message consumers for this message
type from `same_order[1]` back to `same_order[0]` -/
def endCbs (env : Env) (m : Nat) : List Consumer → Int → St → Int × St
  | [], res, st => (res, st)
  | c :: cs, res, st =>
    if c.hasEnd then
      let (r, st) := call env st c.id (.msg m) (.fin (res ≠ OKAY))
      endCbs env m cs (if r.res > res then r.res else res) st
    else endCbs env m cs res st

/-- end callbacks when the next consumer has a higher order, rfc5444_reader.c:1191-1201: (result, consumers
of the same order, state) -/
def orderStep (env : Env) (m : Nat) (c : Consumer) : List Consumer → St → Int × List Consumer × St
  | [], st => (OKAY, [], st)
  | last :: same, st =>
    if c.order > last.order then
      let (res, st) := endCbs env m (last :: same) OKAY st
      (res, [], st)
    else (OKAY, last :: same, st)

/-- the loop over message consumers, rfc5444_reader.c:1183-1239; `same` are the message consumers from
`same_order[0]` to `same_order[1]`, last one first.  Message TLVs and address blocks keep their drop
marks from consumer to consumer. -/
def consLoop (env : Env) (m : Nat) (h : Hdr) : List Consumer → List Consumer → List Tlv → List Block → St → R (Int × St)
  | [], same, _, _, st => .ok (endCbs env m same OKAY st)
  | c :: cs, same, tlvs, blocks, st =>
    if ¬ c.dflt ∧ c.msgId ≠ h.type then consLoop env m h cs same tlvs blocks st
    else
      let (res, same, st) := orderStep env m c same st
      if res ≠ OKAY then .ok (res, st)
      else if c.addrblock then
        match msgaddrConsumer env m h.addrLen c 0 blocks st with
        | .ub u => .ub u
        | .err e => .err e
        | .ok (res, blocks, st) =>
          if res ≠ OKAY then .ok (endCbs env m same res st) else consLoop env m h cs same tlvs blocks st
      else
        match msgtlvConsumer env m c tlvs st with
        | .ub u => .ub u
        | .err e => .err e
        | .ok (res, tlvs, st) =>
          if res ≠ OKAY then .ok (endCbs env m (c :: same) res st) else consLoop env m h cs (c :: same) tlvs blocks st

/-- number used for the call of `forward_message` in the history -/
def FORWARD : Nat := 0

/-- message forwarding, rfc5444_reader.c:1247-1260 -/
def forward (env : Env) (m : Nat) (h : Hdr) (bytes : Bytes) (res : Int) (st : St) : St :=
  if (res = OKAY ∨ res = DROP_MSG_BUT_FORWARD) ∧ st.noFwd = false ∧ env.hasForward = true then
    match h.hoplimit with
    | some l => if l > 1 then (call env st FORWARD (.msg m) (.forward h bytes)).2 else st
    | none => st
  else st

/-- `_handle_message`, rfc5444_reader.c:1073-1278: (result, rest of the packet, allocations, state).  After a
parse error the rest is not used any more. -/
def handleMessage (env : Env) (cs : List Consumer) (m k : Nat) (start : Bytes) (st : St) : R (Int × Bytes × Nat × St) :=
  let st := { st with noFwd := false }
  match parseMessage env.mem k start with
  | .ub u => .ub u
  | .err e => .ok (e, [], k, st)
  | .ok (msg, k) =>
    match consLoop env m msg.hdr cs [] msg.tlvs msg.blocks st with
    | .ub u => .ub u
    | .err e => .err e
    | .ok (res, st) =>
      let st := forward env m msg.hdr (start.take msg.hdr.size) res st
      let res := if res > OKAY ∧ res ≠ DROP_PACKET then OKAY else res
      .ok (res, start.drop msg.hdr.size, k, st)

/-- the loop over messages, rfc5444_reader.c:212-215: (result, number of messages handled, state) -/
def msgLoop (env : Env) (cs : List Consumer) : Nat → Nat → Nat → Bytes → St → R (Int × Nat × St)
  | 0, _, _, _, _ => .ub .loop
  | n + 1, m, k, rest, st =>
    if rest = [] then .ok (OKAY, m, st)
    else
      match handleMessage env cs m k rest st with
      | .ub u => .ub u
      | .err e => .err e
      | .ok (res, rest, k, st) => if res ≠ OKAY then .ok (res, m + 1, st) else msgLoop env cs n (m + 1) k rest st

/-- packet consumers, rfc5444_reader.c:183-210: (result, consumers started (last first), state) -/
def pktLoop (env : Env) (hasTlv : Bool) : List Consumer → List Consumer → List Tlv → St → R (Int × List Consumer × St)
  | [], started, _, st => .ok (OKAY, started, st)
  | c :: cs, started, tlvs, st =>
    let (res, st) := startCall env c .pkt st
    if res ≠ OKAY then .ok (res, c :: started, st)
    else if hasTlv && (c.hasTlv || c.hasBlock) then
      match scheduleTlvblock env c .pkt tlvs 0 st with
      | .ub u => .ub u
      | .err e => .err e
      | .ok (res, tlvs, st) =>
        if res ≠ OKAY then .ok (res, c :: started, st) else pktLoop env hasTlv cs (c :: started) tlvs st
    else pktLoop env hasTlv cs (c :: started) tlvs st

/-- end callbacks of packet consumers, rfc5444_reader.c:221-228 -/
def pktEnd (env : Env) (res : Int) : List Consumer → St → St
  | [], st => st
  | c :: cs, st => pktEnd env res cs (if c.hasEnd then (call env st c.id .pkt (.fin (res ≠ OKAY))).2 else st)

/-- header and TLVs of a packet, rfc5444_reader.c:145-177: (version and flags byte, TLVs, rest, allocations) -/
def parsePacket (mem : Nat → Bool) (buf : Bytes) : R (UInt8 × List Tlv × Bytes × Nat) :=
  let (first, s) := getU8 ⟨buf, OKAY⟩
  if first.toNat / 16 ≠ 0 then .err UNSUPPORTED_VERSION
  else
    let s := if first &&& 0x08 ≠ 0 then (getU16 s).2 else s
    if s.res ≠ OKAY then .err s.res
    else if first &&& 0x04 ≠ 0 then
      match parseTlvblock mem 0 s.rest 0 with
      | .ub u => .ub u
      | .err e => .err e
      | .ok (tlvs, rest, k) => .ok (first, tlvs, rest, k)
    else .ok (first, [], s.rest, 0)

/-- `rfc5444_reader_handle_packet`, rfc5444_reader.c:133-238; `pc`, `mc` are the sorted packet and message
consumers; the result is the return value and the history of callbacks -/
def handlePacket (env : Env) (pc mc : List Consumer) (buf : Bytes) : R (Int × List Event) :=
  if buf.length > 65535 then .ok (TOO_LARGE, [])
  else
    match parsePacket env.mem buf with
    | .ub u => .ub u
    | .err e => .ok (e, [])
    | .ok (first, tlvs, rest, k) =>
      match pktLoop env (first &&& 0x04 ≠ 0) pc [] tlvs ⟨[], false⟩ with
      | .ub u => .ub u
      | .err e => .err e
      | .ok (res, started, st) =>
        let r : R (Int × Nat × St) := if res ≠ OKAY then .ok (res, 0, st) else msgLoop env mc (rest.length + 1) 0 k rest st
        match r with
        | .ub u => .ub u
        | .err e => .err e
        | .ok (res, _, st) =>
          let st := pktEnd env res started st
          .ok (if res = DROP_PACKET then OKAY else res, st.log)

end Verif.Reader
