/-
Model of the memory classes `src/base/oonf_class.c` (one class and its extensions).

Memory blocks are identified by their address; `blk` is the size a block was allocated with, `mem` the
bytes of the blocks.  `calloc` is a parameter: it hands out an address or fails.  Undefined behaviour
(access behind the end of a block) is the outcome `none`.
Not modelled: logging, key strings, events, the tree of classes (a class is in it or not).
-/
namespace Verif.Class

/-- `sizeof(struct list_entity)` on a 64 bit system: two pointers, list.h:60-66 -/
def entity : Nat := 16

/-- `x++` and `x--` of the 32 bit counters -/
def inc32 (n : Nat) : Nat := (n + 1) % 2 ^ 32
def dec32 (n : Nat) : Nat := if n = 0 then 2 ^ 32 - 1 else n - 1

/-- `_roundup`, oonf_class.c:364-370 (`size_t` arithmetic) -/
def roundup (size : Nat) : Nat := ((size + entity - 1) % 2 ^ 64) / entity * entity

/-- `struct oonf_class`, oonf_class.h:82-125: lists are lists of addresses / extension numbers; `inTree`
tells whether `_node` is hooked into the tree of classes -/
structure Cls where
  size : Nat
  minFree : Nat
  total : Nat
  free : List Nat
  exts : List Nat
  freeSize : Nat
  usage : Nat
  allocated : Nat
  recycled : Nat
  inTree : Bool

/-- `struct oonf_class_extension`, oonf_class.h:134-168 -/
structure Ext where
  size : Nat
  offset : Nat
deriving Repr

/-- class, extensions and memory.  `live` (blocks handed out and not freed) and `nalloc` (blocks ever
requested from the system) are not part of the code, they are used to state properties. -/
structure W where
  cls : Cls
  ext : Nat → Ext
  mem : Nat → Nat → UInt8
  blk : Nat → Nat
  live : List Nat
  nalloc : Nat

def setExt (w : W) (e : Nat) (x : Ext) : Nat → Ext := fun i => if i = e then x else w.ext i

/-- `oonf_class_add`, oonf_class.c:113-132, for a class that is not added -/
def add (w : W) : W :=
  { w with cls := { w.cls with total := roundup w.cls.size, inTree := true, free := [], exts := [] } }

/-- `_free_freelist`, oonf_class.c:376-386 -/
def freeFreelist (c : Cls) : Cls := { c with free := [], freeSize := 0 }

/-- `oonf_class_is_extension_registered`, oonf_class.h:253-256 -/
def registered (w : W) (e : Nat) : Bool := w.cls.exts.contains e

/-- `oonf_class_extension_remove`, oonf_class.c:303-308 -/
def extensionRemove (w : W) (e : Nat) : W :=
  if registered w e then
    { w with cls := { w.cls with exts := w.cls.exts.erase e }, ext := setExt w e { w.ext e with offset := 0 } }
  else w

/-- `oonf_class_remove`, oonf_class.c:138-154 -/
def remove (w : W) : W :=
  let w := { w with cls := freeFreelist { w.cls with inTree := false } }
  w.cls.exts.foldl extensionRemove w

/-- `oonf_class_malloc`, oonf_class.c:161-209.  `fresh` is the result of `calloc`. -/
def malloc (w : W) (fresh : Option Nat) : Option (W × Option Nat) :=
  let c := w.cls
  match c.free with
  | [] =>
    match fresh with
    | none => some (w, none)
    | some p =>
      some ({ w with
        cls := { c with allocated := inc32 c.allocated, usage := inc32 c.usage },
        mem := fun b i => if b = p then 0 else w.mem b i,
        blk := fun b => if b = p then c.total else w.blk b,
        live := p :: w.live, nalloc := w.nalloc + 1 }, some p)
  | p :: rest =>
    if w.blk p < c.total then none  -- memset behind the end of the block
    else
      some ({ w with
        cls := { c with free := rest, freeSize := dec32 c.freeSize,
                        recycled := inc32 c.recycled, usage := inc32 c.usage },
        mem := fun b i => if b = p ∧ i < c.total then 0 else w.mem b i,
        live := p :: w.live }, some p)

/-- `oonf_class_free`, oonf_class.c:216-248.  A block in the free list has its first bytes overwritten by
the list pointers (here by 255). -/
def free (w : W) (p : Nat) : Option W :=
  let c := w.cls
  if c.freeSize < c.minFree ∨ c.freeSize < c.usage / 10 then
    if w.blk p < entity then none   -- list pointers behind the end of the block
    else
      some { w with
        cls := { c with free := c.free ++ [p], freeSize := inc32 c.freeSize,
                        usage := dec32 c.usage },
        mem := fun b i => if b = p ∧ i < entity then 255 else w.mem b i,
        live := w.live.erase p }
  else
    some { w with cls := { c with usage := dec32 c.usage }, live := w.live.erase p }

/-- `oonf_class_extension_add`, oonf_class.c:256-296, for an extension naming this class; the result is the
return value -/
def extensionAdd (w : W) (e : Nat) : W × Int :=
  if registered w e then (w, 0)
  else if ¬ w.cls.inTree then (w, -1)
  else if w.cls.allocated ≠ 0 ∧ (w.ext e).size > 0 then (w, -1)
  else
    let c := { w.cls with exts := w.cls.exts ++ [e] }
    if (w.ext e).size > 0 then
      let c := freeFreelist c
      ({ w with cls := { c with total := roundup (c.total + (w.ext e).size) },
                ext := setExt w e { w.ext e with offset := c.total } }, 0)
    else ({ w with cls := c }, 0)

/-- `oonf_class_get_extension`, oonf_class.h:236-239: address of the extension inside a block -/
def getExtension (w : W) (e p : Nat) : Nat := p + (w.ext e).offset

end Verif.Class
