/-!
# Selection of configuration loaders, system clock without monotonic source

Model of `src/libconfig/cfg_io.c` (`_find_io`), the comparator `avl_comp_cfgio` of `src/libconfig/cfg.c` and of the functions of
`src/base/os_linux/os_clock_linux.c` and `src/base/oonf_clock.c` that read the time.  Strings are lists of bytes without the final zero.
-/

namespace Verif.CfgIo

abbrev Txt := List UInt8

/-- `tolower` of the C locale -/
def lower (c : UInt8) : UInt8 := if 65 ≤ c ∧ c ≤ 90 then c + 32 else c

/-- `strcasecmp` of the C library -/
def casecmp : Txt → Txt → Int
  | [], [] => 0
  | [], _ :: _ => -1
  | _ :: _, [] => 1
  | a :: x, b :: y => if (lower a).toNat < (lower b).toNat then -1 else if (lower b).toNat < (lower a).toNat then 1 else casecmp x y

/-- `strncasecmp` of the C library -/
def ncasecmp : Nat → Txt → Txt → Int
  | 0, _, _ => 0
  | _ + 1, [], [] => 0
  | _ + 1, [], _ :: _ => -1
  | _ + 1, _ :: _, [] => 1
  | n + 1, a :: x, b :: y =>
    if (lower a).toNat < (lower b).toNat then -1 else if (lower b).toNat < (lower a).toNat then 1 else ncasecmp n x y

/-- `strstr(url, CFG_IO_URL_SPLITTER)` as an offset; the splitter is `://` (cfg.h:63). -/
def splitter : Txt → Option Nat
  | [] => none
  | c :: l => if (c :: l).take 3 = [58, 47, 47] then some 0 else (splitter l).map (· + 1)

/-- `avl_comp_cfgio`, cfg.c:237-260 -/
def cmpIo (a b : Txt) : Int :=
  match splitter a, splitter b with
  | none, none => casecmp a b
  | some n, none => ncasecmp n a b
  | none, some n => ncasecmp n a b
  | some n, some k => ncasecmp (if k > n then k else n) a b

/-- The registry `io_tree`: a search tree with the names of the handlers.  How it is kept balanced is the subject of C23-C25. -/
inductive Tree where
  | leaf
  | node (l : Tree) (name : Txt) (r : Tree)
deriving DecidableEq, Repr

/-- `avl_find`, avl.c:91-101 -/
def Tree.find : Tree → Txt → Option Txt
  | .leaf, _ => none
  | .node l k r, u => if cmpIo u k = 0 then some k else if cmpIo u k < 0 then l.find u else r.find u

/-- `avl_first_element`, avl.h:244-245: the list head itself for an empty tree (`none`). -/
def Tree.first : Tree → Option Txt
  | .leaf => none
  | .node .leaf k _ => some k
  | .node (.node l x r) _ _ => (Tree.node l x r).first

inductive Sel where
  /-- this handler is called with this parameter -/
  | use (name param : Txt)
  | error
  /-- memory that is no handler is used as one -/
  | ub
deriving DecidableEq, Repr

/-- `_find_io`, cfg_io.c:160-195; `dflt`: `instance->default_io`. -/
def findIo (t : Tree) (dflt : Option Txt) (url : Txt) : Sel :=
  match splitter url with
  | some 0 => .error
  | some (n + 1) =>
    match t.find url with
    | some h => .use h (url.drop (n + 1 + 3))
    | none => .error
  | none =>
    match dflt with
    | some d =>
      match t.find d with
      | some h => .use h url
      | none => .error
    | none =>
      match t.first with
      | some h => .use h url
      | none => .ub

/-! ## Clock -/

/-- The static variables of `os_clock_linux_gettime64` -/
structure Clk where
  offset : Int := 0
  last : Int := 0
deriving DecidableEq, Repr

/-- `os_clock_linux_gettime64` without monotonic source, os_clock_linux.c:137-153: new variables and milliseconds; `sec`, `usec`: the
answer of `gettimeofday`. -/
def wall (c : Clk) (sec usec : Int) : Clk × Int :=
  let s := sec + c.offset
  let last := if c.last = 0 then s else c.last
  let jump : Bool := s < last || s > last + 60
  let s' := if jump then last else s
  let offset := if jump then c.offset + (last - s) else c.offset
  (⟨offset, s'⟩, 1000 * s' + usec / 1000)

/-- The same for a list of answers. -/
def walls : Clk → List (Int × Int) → List Int
  | _, [] => []
  | c, (s, u) :: l => (wall c s u).2 :: walls (wall c s u).1 l

/-- `os_clock_linux_gettime64` with monotonic source, os_clock_linux.c:124-135 -/
def mono (sec nsec : Nat) : Nat := 1000 * sec + nsec / 1000000

/-- `os_clock_linux_gettime64_ns`, os_clock_linux.c:94-111 -/
def monoNs (sec nsec : Nat) : Nat := 1000000000 * sec + nsec

/-- `oonf_clock_update`, oonf_clock.c:106-117: 64 bit difference to the time of the start -/
def sinceStart (start now : Nat) : Nat := (now + 2 ^ 64 - start) % 2 ^ 64

end Verif.CfgIo
