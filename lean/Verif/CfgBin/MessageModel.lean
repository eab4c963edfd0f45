import Verif.Autobuf.Model
/-
Model of `cfg_append_printable_line`, `src/libconfig/cfg.c:91-121`.
-/
namespace Verif.CfgBin
open Verif.Autobuf (Buf Out appendf memcpy)

/-- the loop, cfg.c:113-118: `n` is `abuf_getlen(autobuf) - len`; `none` if the pointer leaves the
block -/
def maskLoop : Nat → List UInt8 → Nat → Option (List UInt8)
  | n, mem, ptr =>
    match mem[ptr]? with
    | none => none
    | some c =>
      if c = 0 then some mem
      else
        match n with
        | 0 => some mem
        | n + 1 => maskLoop n (if c < 32 || c == 127 || c == 255 then mem.set ptr 46 else mem) (ptr + 1)

/-- `cfg_append_printable_line`, cfg.c:91-121, for a format whose output is the text `s`; `m1`, `m2`
tell whether allocations for the text and for the line end succeed.  The pointer `_value` is computed
before the text is appended (line 101): if the buffer has been reallocated by then, its use is
undefined. -/
def appendLine (P : Nat) (m1 m2 : Bool) (b : Buf) (s : List UInt8) : Out :=
  match appendf P m1 b s with
  | .ub => .ub
  | .err b => .err b
  | .ok b1 =>
    if b1.total ≠ b.total then .ub
    else
      match maskLoop (b1.len - b.len) b1.mem b.len with
      | none => .ub
      | some mem => memcpy P m2 { b1 with mem := mem } [10]

end Verif.CfgBin
