import Verif.Writer.Model

/-
Model of the address compression and of the generation of address blocks with their TLVs
(`src/librfc5444/rfc5444_msg_generator.c:273-397, 807-1362`).

The addresses of a message fragment (`current_list`) are a list, a pointer to an address of the fragment is its
position.  All addresses of a fragment have consecutive `index` values, so differences of indices are differences of
positions.  `none` is undefined behaviour (a read behind an array, a null pointer).
-/
namespace Verif.Writer
open Verif.Reader (Bytes)

/-- `struct rfc5444_writer_addrtlv`, rfc5444_writer.h:97-131; a TLV type (`struct rfc5444_writer_tlvtype`) is identified
by its type and extension: two registered types with the same numbers are not modelled -/
structure ATlv where
  type : UInt8
  ext : UInt8
  value : Bytes
deriving DecidableEq, Repr

/-- `_full_type`, rfc5444_writer.h:215 -/
def ATlv.full (t : ATlv) : Nat := t.type.toNat * 256 + t.ext.toNat

/-- `struct rfc5444_writer_address`, rfc5444_writer.h:137-180: the address with its prefix length, and the TLVs in the
order of `_addrtlv_tree` -/
structure WAddr where
  addr : Addr
  tlvs : List ATlv
deriving DecidableEq, Repr

/-- `struct _rfc5444_internal_addr_compress_session`, rfc5444_msg_generator.c:66-81 -/
structure Acs where
  ptr : Option Nat
  total : Int
  current : Int
  multi : Bool
  closed : Bool

/-- `_block_start`, `_block_multiple_prefixlen` and `_block_headlen` of an address, rfc5444_writer.h:159-168 -/
structure Info where
  start : Option Nat
  multi : Bool
  head : Nat
deriving DecidableEq, Repr

/-- the compression session: the array `acs`, `_tlvblock_count` and `_tlvblock_multi` of every TLV type (by full type
and head length), `same_prefixlen`, and the block data of the addresses -/
structure Sess where
  acs : Nat → Acs
  tlvs : Nat → Nat → Nat × Bool
  same : Nat
  info : Nat → Info

/-- start of a fragment, rfc5444_msg_generator.c:297-312 -/
def Sess.start (info : Nat → Info) : Sess := ⟨fun _ => ⟨none, 0, 0, false, false⟩, fun _ _ => (0, false), 1, info⟩

/-- addresses that were not part of a fragment yet (allocated with zeros) -/
def fresh : Nat → Info := fun _ => ⟨none, false, 0⟩

/-- the search for the smallest total size, rfc5444_msg_generator.c:816-824: (best, size) -/
def findBest (acs : Nat → Acs) (addrLen ch : Nat) : Nat × Int :=
  (List.range' (ch + 1) (addrLen - (ch + 1))).foldl (fun b i => if (acs i).total < b.2 then (i, (acs i).total) else b) (ch, (acs ch).total)

/-- `_close_addrblock`, rfc5444_msg_generator.c:807-838, for the address at position `j`; `acs` has 16 entries -/
def close (addrLen : Nat) (s : Sess) (j ch : Nat) : Option Sess :=
  if ch > addrLen then some s
  else if ch ≥ 16 then none
  else
    let (best, size) := findBest s.acs addrLen ch
    let a := s.acs best
    let new : Info := if a.closed = false ∨ (s.info j).start = none then ⟨a.ptr, a.multi, best⟩ else s.info j
    some { s with
      info := fun i => if i = j then new else s.info i
      acs := fun i => if ch < i ∧ i < addrLen then { s.acs i with total := size } else s.acs i }

/-- number of equal bytes at the start, rfc5444_msg_generator.c:901-905 -/
def commonHead : Nat → Bytes → Bytes → Nat
  | n + 1, x :: xs, y :: ys => if x = y then commonHead n xs ys + 1 else 0
  | _, _, _ => 0

/-- `last_tlv`, rfc5444_msg_generator.c:928 -/
def lastTlv (prev : Option WAddr) (t : ATlv) : Option ATlv :=
  match prev with
  | none => none
  | some p => p.tlvs.find? fun l => l.full = t.full

/-- `_same_length`, rfc5444_msg_generator.c:924-933 -/
def sameLength (prev : Option WAddr) (t : ATlv) : Bool :=
  match lastTlv prev t with
  | none => false
  | some l => l.value.length = t.value.length

/-- `_same_value`, rfc5444_msg_generator.c:924-933 -/
def sameValue (prev : Option WAddr) (t : ATlv) : Bool :=
  match lastTlv prev t with
  | none => false
  | some l => decide (l.value.length = t.value.length) && decide (t.value = l.value)

/-- cost of a TLV, rfc5444_msg_generator.c:973-993 -/
def tlvCost (t : ATlv) : Int :=
  2 + (if t.ext > 0 then 1 else 0) + 2 + (if t.value.length > 255 then 1 else 0) + (if t.value.length > 0 then 1 else 0) + t.value.length

/-- what a TLV adds to `continue_cost`, rfc5444_msg_generator.c:998-1015; `count` and `multi` are `_tlvblock_count` and
`_tlvblock_multi` of the type -/
def tlvContinue (prev : Option WAddr) (closed : Bool) (cm : Nat × Bool) (t : ATlv) : Int :=
  if closed || !sameLength prev t then tlvCost t
  else if cm.2 then t.value.length
  else if !sameValue prev t then t.value.length * cm.1
  else 0

/-- cost of a new address block, rfc5444_msg_generator.c:946-950, 967 and 996 -/
def newCost (addrLen i : Nat) (cur : WAddr) : Int :=
  2 + (if i > 0 then 1 else 0) + addrLen + (if cur.addr.plen.toNat ≠ addrLen * 8 then 1 else 0) + 2 + (cur.tlvs.map tlvCost).sum

/-- cost of continuing the block, rfc5444_msg_generator.c:952-964 and 999-1015 -/
def continueCost (addrLen k same : Nat) (prev : Option WAddr) (cur : WAddr) (tlvs : Nat → Nat → Nat × Bool) (i : Nat) (a : Acs) (closed : Bool) : Int :=
  (if closed then 0 else addrLen - i + (if a.multi then 1 else if same = 1 then (a.ptr.getD 0 : Int) - k + 1 else 0)) +
  (cur.tlvs.map fun t => tlvContinue prev closed (tlvs t.full i) t).sum

/-- the new entry of `acs` for head length `i` (`a` the old one, `last` is `acs[addrlen - 1].total`),
rfc5444_msg_generator.c:937-1044; the second component is the final value of `closed` -/
def level (addrLen k ch same : Nat) (prev : Option WAddr) (cur : WAddr) (tlvs : Nat → Nat → Nat × Bool) (last : Int) (i : Nat) (a : Acs) : Acs × Bool :=
  let closed := prev.isNone || decide (ch < i)
  let cost := continueCost addrLen k same prev cur tlvs i a closed
  let closed' := closed || decide (a.total + cost > last + newCost addrLen i cur)
  let flag := if prev.isSome then closed' else a.closed
  if closed' then (⟨some k, last, newCost addrLen i cur, false, flag⟩, closed')
  else (⟨a.ptr, a.total, cost, if !a.multi && same = 1 then true else a.multi, flag⟩, closed')

/-- update of `_tlvblock_count` and `_tlvblock_multi` for a TLV, rfc5444_msg_generator.c:1047-1060 -/
def updateTlv (prev : Option WAddr) (addrLen : Nat) (closed : Nat → Bool) (tlvs : Nat → Nat → Nat × Bool) (t : ATlv) : Nat → Nat → Nat × Bool :=
  fun ty i =>
    if ty = t.full ∧ i < addrLen then
      if closed i || !sameLength prev t then (1, false)
      else ((tlvs ty i).1 + 1, if !sameValue prev t then true else (tlvs ty i).2)
    else tlvs ty i

/-- `_compress_address`, rfc5444_msg_generator.c:851-1066, for the address `cur` at position `k` -/
def compress (addrLen k : Nat) (prev : Option WAddr) (cur : WAddr) (s : Sess) : Option Sess :=
  let same := match prev with
    | none => s.same
    | some p => if p.addr.plen = cur.addr.plen then s.same + 1 else 1
  let ch := match prev with
    | none => 0
    | some p => commonHead addrLen p.addr.bytes cur.addr.bytes
  match (match prev with | none => some s | some _ => close addrLen s (k - 1) ch) with
  | none => none
  | some s =>
    let last := (s.acs (addrLen - 1)).total
    let new := fun i => level addrLen k ch same prev cur s.tlvs last i (s.acs i)
    some { s with
      acs := fun i => if i < addrLen then (new i).1 else s.acs i
      tlvs := cur.tlvs.foldl (updateTlv prev addrLen fun i => (new i).2) s.tlvs
      same := same }

/-- the search for a compression that fits, rfc5444_msg_generator.c:324-339 (`best_head != -1`) -/
def fits (addrLen : Nat) (max : Int) (k : Nat) (s : Sess) : Bool :=
  (List.range addrLen).any fun i =>
    decide ((s.acs i).total + (s.acs i).current < max + 1) && decide ((k : Int) - (s.acs i).ptr.getD 0 ≤ 254)

/-- the costs of the address become part of the total, rfc5444_msg_generator.c:369-376 -/
def accept (addrLen : Nat) (s : Sess) : Sess :=
  { s with acs := fun i => if i < addrLen then { s.acs i with total := (s.acs i).total + (s.acs i).current } else s.acs i }

/-- addresses are added to the fragment while they fit, rfc5444_msg_generator.c:317-388: number of addresses of the
fragment, and whether there was one too many -/
def feed (addrLen : Nat) (max : Int) : Nat → Option WAddr → List WAddr → Sess → Option (Nat × Bool × Sess)
  | k, _, [], s => some (k, false, s)
  | k, prev, a :: as, s =>
    match compress addrLen k prev a s with
    | none => none
    | some s => if fits addrLen max k s then feed addrLen max (k + 1) (some a) as (accept addrLen s) else some (k, true, s)

/-- an address block: first and last address, `_block_multiple_prefixlen`, `_block_headlen` -/
structure Blk where
  first : Nat
  last : Nat
  multi : Bool
  head : Nat
deriving DecidableEq, Repr

/-- the loop that generates the forward pointers, rfc5444_msg_generator.c:1456-1472, from the block that ends with
address `j`; `n` bounds the number of iterations -/
def walk (info : Nat → Info) : Nat → Nat → Option (List Blk)
  | 0, _ => none
  | n + 1, j =>
    match (info j).start with
    | none => none
    | some p =>
      if p = 0 then some [⟨0, j, (info j).multi, (info j).head⟩]
      else if p > j then none
      else (walk info n (p - 1)).map (· ++ [⟨p, j, (info j).multi, (info j).head⟩])

/-! ### address TLVs -/

/-- `_current_tlv_list` and `_same_value` of a TLV type: TLVs of the addresses `first`..`last` -/
structure Run where
  type : UInt8
  ext : UInt8
  first : Nat
  last : Nat
  values : List Bytes
  same : Bool
deriving DecidableEq, Repr

/-- `_write_addresstlv`, rfc5444_msg_generator.c:1068-1136, in a block of `n` addresses -/
def writeRun (n : Nat) (r : Run) : Bytes :=
  let len := (r.values.headD []).length
  let total := if r.same then len else len * (r.last - r.first + 1) % 65536
  let all := r.first = 0 ∧ r.last = n - 1
  let flags : UInt8 := (if r.ext ≠ 0 then 0x80 else 0) ||| (if all then 0 else if r.first = r.last then 0x40 else 0x20) |||
    (if r.same then 0 else 0x04) ||| (if total > 255 then 0x08 else 0) ||| (if total > 0 then 0x10 else 0)
  [r.type, flags] ++ (if r.ext ≠ 0 then [r.ext] else []) ++
  (if all then [] else if r.first = r.last then [lo r.first] else [lo r.first, lo r.last]) ++
  (if total > 255 then [hi total] else []) ++ (if total > 0 then [lo total] else []) ++
  (if len > 0 then if r.same then r.values.headD [] else r.values.flatten else [])

/-- one TLV in `_write_addresstlvs`, rfc5444_msg_generator.c:1168-1195, of the address at position `j` of the block:
the active types and the finished runs -/
def addTlv (prev : Option WAddr) (j : Nat) : List Run → ATlv → List Run × List Run
  | [], t => ([⟨t.type, t.ext, j, j, [t.value], true⟩], [])
  | r :: rs, t =>
    if r.type = t.type ∧ r.ext = t.ext then
      if r.last + 1 ≠ j ∨ (r.values.getLastD []).length ≠ t.value.length then (⟨t.type, t.ext, j, j, [t.value], true⟩ :: rs, [r])
      else (⟨r.type, r.ext, r.first, j, r.values ++ [t.value], r.same && sameValue prev t⟩ :: rs, [])
    else
      let (rs, done) := addTlv prev j rs t
      (r :: rs, done)

/-- all TLVs of an address -/
def addTlvs (prev : Option WAddr) (j : Nat) : List ATlv → List Run × List Run → List Run × List Run
  | [], st => st
  | t :: ts, (active, done) =>
    let (active, d) := addTlv prev j active t
    addTlvs prev j ts (active, done ++ d)

/-- the loop over the addresses of a block, rfc5444_msg_generator.c:1165-1199; `prev` is the address before in the
fragment (used for `_same_value`) -/
def collect : Option WAddr → Nat → List WAddr → List Run × List Run → List Run × List Run
  | _, _, [], st => st
  | prev, j, a :: as, st => collect (some a) (j + 1) as (addTlvs prev j a.tlvs st)

/-- `_write_addresstlvs`, rfc5444_msg_generator.c:1148-1205: the TLVs in the order they are written -/
def runs (prev : Option WAddr) (as : List WAddr) : List Run :=
  let (active, done) := collect prev 0 as ([], [])
  done ++ active

/-- address block with its TLV block, rfc5444_msg_generator.c:1247-1353 -/
def writeBlk (addrLen : Nat) (as : List WAddr) (b : Blk) : Bytes :=
  let blk := (as.drop b.first).take (b.last - b.first + 1)
  let prev := if b.first = 0 then none else as[b.first - 1]?
  let tlvs := (runs prev blk).flatMap (writeRun blk.length)
  writeBlock addrLen b.head b.multi (blk.map WAddr.addr) ++ [hi tlvs.length, lo tlvs.length] ++ tlvs

/-- the address blocks of a fragment with the addresses `as`, rfc5444_msg_generator.c:353, 392 and 1455-1474; `s` is
the session when the fragment ends -/
def writeFragment (addrLen : Nat) (as : List WAddr) (s : Sess) : Option Bytes :=
  match as.length with
  | 0 => some []
  | n + 1 =>
    match close addrLen s n 0 with
    | none => none
    | some s =>
      match walk s.info (n + 1) n with
      | none => none
      | some bs => some (bs.flatMap (writeBlk addrLen as))

end Verif.Writer
