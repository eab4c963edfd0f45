/-
Model of `src/base/oonf_duplicate_set.c`.
Sequence numbers are `uint64_t` values, i.e. natural numbers below `2^64`.
-/
namespace Verif.DupSet

/-- `enum oonf_dupset_type`, include/oonf/base/oonf_duplicate_set.h:150-163 -/
inductive Kind | b8 | b16 | b32 | b64
deriving DecidableEq, Repr

/-- `enum oonf_duplicate_result`, oonf_duplicate_set.h:72-91 -/
inductive Result | tooOld | duplicate | new | current | newest | first
deriving DecidableEq, Repr

/-- `oonf_duplicate_is_new`, oonf_duplicate_set.h:181-184 -/
def isNew (r : Result) : Bool := r == .new || r == .newest || r == .first

/-- `OONF_DUPSET_MAXIMUM_TOO_OLD`, oonf_duplicate_set.h:66 -/
def maximumTooOld : Nat := 8

/-- `_mask_values`, oonf_duplicate_set.c:106-111; `oonf_duplicate_set_add` (139-148) leaves the
mask zero for 64 bit sets. -/
def Kind.mask : Kind → Nat
  | .b8 => 255 | .b16 => 65535 | .b32 => 4294967295 | .b64 => 0

/-- `set->_offset`, oonf_duplicate_set.c:145 -/
def Kind.offset (k : Kind) : Nat := k.mask + 1
/-- `set->_limit`, oonf_duplicate_set.c:146 -/
def Kind.limit (k : Kind) : Nat := k.mask / 2

/-- conversion `(int64_t)` of a `uint64_t` value -/
def toInt64 (n : Nat) : Int := if n < 2 ^ 63 then (n : Int) else (n : Int) - 2 ^ 64

/-- `_seqno_difference`, oonf_duplicate_set.c:271-287 -/
def seqnoDifference (k : Kind) (s1 s2 : Nat) : Int :=
  let diff := (s1 + (2 ^ 64 - s2)) % 2 ^ 64
  if k.mask ≠ 0 then
    let reldiff := diff &&& k.mask
    if reldiff > k.limit then (reldiff : Int) - k.offset else reldiff
  else toInt64 diff

/-- `struct oonf_duplicate_entry`, oonf_duplicate_set.h:124-148 without key and tree links.
`vtime` is the value the validity timer was last (re)started with. -/
structure Entry where
  history : Nat
  current : Nat
  tooOld : Nat
  vtime : Nat
deriving DecidableEq, Repr

/-- `_test`, oonf_duplicate_set.c:300-356.  The 16 bit counter `too_old_count` is reset at 9 and
cannot wrap.  `1 << 31` (an `int` shift) is taken as `2^31` as gcc/clang define it. -/
def test (k : Kind) (e : Entry) (seqno : Nat) (set : Bool) : Result × Entry :=
  if seqno = e.current then (.current, e)
  else
    let diff := seqnoDifference k seqno e.current
    if diff < -31 then
      let e := { e with tooOld := e.tooOld + 1 }
      if e.tooOld > maximumTooOld then
        (.newest, { e with history := 1, tooOld := 0, current := seqno })
      else (.tooOld, e)
    else
      let e := { e with tooOld := 0 }
      if diff ≤ 0 then
        let bitmask := 1 <<< (-diff).toNat
        if e.history &&& bitmask ≠ 0 then (.duplicate, e)
        else if set then (.new, { e with history := e.history ||| bitmask })
        else (.new, e)
      else if set then
        let history :=
          if diff ≥ 32 then 1 else (e.history <<< diff.toNat) % 2 ^ 64 ||| 1
        (.newest, { e with current := seqno, history := history })
      else (.newest, e)

/-- `struct oonf_duplicate_entry_key`, oonf_duplicate_set.h:113-119 (address as opaque bytes) -/
structure Key where
  addr : List Nat
  msgType : Nat
deriving DecidableEq, Repr

/-- A duplicate set: the tree of entries as a finite map (the AVL tree is modelled in
`Verif.Avl`). -/
abbrev Set := Key → Option Entry

/-- update of one key -/
def Set.put (s : Set) (k : Key) (v : Option Entry) : Set := fun k' => if k' = k then v else s k'

/-- `oonf_duplicate_entry_add`, oonf_duplicate_set.c:176-229 (allocation succeeds). -/
def entryAdd (kind : Kind) (s : Set) (key : Key) (seqno vtime : Nat) : Result × Set :=
  let (result, e) :=
    match s key with
    | none => (Result.first, { history := 1, current := seqno, tooOld := 0, vtime := vtime : Entry })
    | some e => test kind e seqno true
  let e := if isNew result then { e with vtime := vtime } else e
  (result, s.put key (some e))

/-- `oonf_duplicate_test`, oonf_duplicate_set.c:242-269. -/
def entryTest (kind : Kind) (s : Set) (key : Key) (seqno : Nat) : Result × Set :=
  match s key with
  | none => (.first, s)
  | some e =>
    let (result, e) := test kind e seqno false
    (result, s.put key (some e))

/-- `_cb_vtime` / `_remove_duplicate_entry`, oonf_duplicate_set.c:392-416. -/
def expire (s : Set) (key : Key) : Set := s.put key none

end Verif.DupSet
