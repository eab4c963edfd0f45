/-
Model of `src/libcommon/autobuf.c`.
The page size returned by `getpagesize()` is a parameter `P`.
Every function takes a flag `mem` telling whether `realloc` succeeds.
-/
namespace Verif.Autobuf

/-- `struct autobuf`, include/oonf/libcommon/autobuf.h: `mem` is the allocated block (its real size
is `mem.length`), `total` the size the code believes in. -/
structure Buf where
  mem : List UInt8
  len : Nat
  total : Nat
  error : Bool
deriving DecidableEq, Repr

/-- result of an operation; `ub` is an access outside the allocated block -/
inductive Out | ok (b : Buf) | err (b : Buf) | ub
deriving DecidableEq, Repr

/-- `ROUND_UP_TO_POWER_OF_2`, autobuf.c:66-69; the bit mask `& ~(pow2 - 1)` on a power of two is
written as rounding down to a multiple -/
def roundUp (val P : Nat) : Nat := (val + P - 1) / P * P

/-- writing `data` at `off`; `none` if it would leave the block -/
def writeAt (block : List UInt8) (off : Nat) (data : List UInt8) : Option (List UInt8) :=
  if off + data.length ≤ block.length then
    some (block.take off ++ data ++ block.drop (off + data.length))
  else none

/-- `abuf_init`, autobuf.c:81-92 (successful) -/
def init (P : Nat) : Buf := ⟨List.replicate P 0, 0, P, false⟩

/-- `_autobuf_enlarge`, autobuf.c:368-392.  `realloc` keeps the old bytes; the bytes from the old
`total` on are zeroed (line 388). -/
def enlarge (P : Nat) (mem : Bool) (b : Buf) (newSize : Nat) : Bool × Buf :=
  let newSize := newSize + 1
  if newSize > b.total then
    let r := roundUp (newSize + 1) P
    if !mem then (false, { b with error := true })
    else (true, { b with
      mem := (b.mem.take b.total) ++ List.replicate (r - b.total) 0
      total := r })
  else (true, b)

/-- `abuf_puts`, autobuf.c:161-175: `strcpy` writes the text and its terminating zero -/
def puts (P : Nat) (mem : Bool) (b : Buf) (s : List UInt8) : Out :=
  let (ok, b) := enlarge P mem b (b.len + s.length + 1)
  if !ok then .err b
  else
    match writeAt b.mem b.len (s ++ [0]) with
    | none => .ub
    | some m => .ok { b with mem := m, len := b.len + s.length }

/-- `abuf_memcpy`, autobuf.c:220-235 -/
def memcpy (P : Nat) (mem : Bool) (b : Buf) (p : List UInt8) : Out :=
  if p.length = 0 then .ok b
  else
    let (ok, b) := enlarge P mem b (b.len + p.length)
    if !ok then .err b
    else
      match writeAt b.mem b.len p with
      | none => .ub
      | some m =>
        match writeAt m (b.len + p.length) [0] with
        | none => .ub
        | some m => .ok { b with mem := m, len := b.len + p.length }

/-- `abuf_memcpy_prepend`, autobuf.c:244-260 -/
def prepend (P : Nat) (mem : Bool) (b : Buf) (p : List UInt8) : Out :=
  if p.length = 0 then .ok b
  else
    let (ok, b) := enlarge P mem b (b.len + p.length)
    if !ok then .err b
    else
      if b.mem.length < b.len then .ub
      else
        match writeAt b.mem p.length (b.mem.take b.len) with
        | none => .ub
        | some m =>
          match writeAt m 0 p with
          | none => .ub
          | some m =>
            match writeAt m (b.len + p.length) [0] with
            | none => .ub
            | some m => .ok { b with mem := m, len := b.len + p.length }

/-- `abuf_pull`, autobuf.c:268-299.  Pulling more than is stored makes the `memmove` size wrap
around (undefined behaviour).  Line 286 reduces `_total` even if `realloc` fails. -/
def pull (P : Nat) (mem : Bool) (b : Buf) (n : Nat) : Out :=
  if n = 0 then .ok b
  else if b.len < n then .ub
  else
    match writeAt b.mem 0 ((b.mem.drop n).take (b.len - n)) with
    | none => .ub
    | some m =>
      let b := { b with mem := m, len := b.len - n }
      if b.len + P > b.total then .ok b
      else
        let total := b.total - P
        let newsize := if total < P then P else total
        if mem then .ok { b with mem := b.mem.take newsize, total := newsize }
        else .ok { b with total := total }

/-- `vsnprintf(buf + off, size, ...)` of a text `s`: writes at most `size - 1` bytes and a zero -/
def vsnprintf (block : List UInt8) (off size : Nat) (s : List UInt8) : Option (List UInt8) :=
  if size = 0 then some block else writeAt block off (s.take (size - 1) ++ [0])

/-- `_vappendf`, autobuf.c:404-431, for a format whose output is the text `s` -/
def appendf (P : Nat) (mem : Bool) (b : Buf) (s : List UInt8) : Out :=
  match vsnprintf b.mem b.len (b.total - b.len) s with
  | none => .ub
  | some m =>
    let b := { b with mem := m }
    let minSize := b.len + s.length
    if minSize ≥ b.total then
      let (ok, b) := enlarge P mem b minSize
      if !ok then
        match writeAt b.mem b.len [0] with
        | none => .ub
        | some m => .err { b with mem := m }
      else
        match vsnprintf b.mem b.len (b.total - b.len) s with
        | none => .ub
        | some m => .ok { b with mem := m, len := minSize }
    else .ok { b with len := minSize }

end Verif.Autobuf
