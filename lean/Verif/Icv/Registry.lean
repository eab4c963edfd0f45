/-!
# Providers of hash and encryption functions and the signatures which use them

Model of rfc7182_add_hash/_remove_hash/_add_crypt/_remove_crypt (src/crypto/rfc7182_provider/rfc7182_provider.c:
150-216) with the listeners of src/crypto/rfc5444_signature/rfc5444_signature.c:133-141,185-217,704-777.

Simplifications:
* An algorithm is identified by its type; a type is added only if it is not there and removed only if it is
  there (the trees do not allow duplicates, rfc7182_provider.c:117-118).
* `rfc7182_get_hash`/`rfc7182_get_crypt` (rfc5444_signature.c:205-206) are defined in a header which is not part
  of the repository; they are taken to be look-ups in the two trees.
* `getSignSize` of the encryption functions is left out (it is missing for the identity function,
  rfc7182_provider.c:92-95, which therefore cannot be used for signatures).
-/

namespace Verif.Icv.Reg

/-- what a pointer points to: a `struct rfc7182_hash` or a `struct rfc7182_crypt` of some type -/
inductive Obj where
  | hash (t : UInt8)
  | crypt (t : UInt8)
deriving DecidableEq, Repr

/-- `struct rfc5444_signature`: identity, configured types, the two pointers, and whether the postprocessor is
registered at the writer -/
structure Sig where
  id : Nat
  hashT : UInt8
  cryptT : UInt8
  hash : Option Obj
  crypt : Option Obj
  reg : Bool
deriving DecidableEq, Repr

/-- `_hash_functions`, `_crypt_functions` and `_sig_tree` -/
structure St where
  hashes : List UInt8
  crypts : List UInt8
  sigs : List Sig
deriving DecidableEq, Repr

/-- `_handle_postprocessor`, rfc5444_signature.c:764-777 -/
def handle (s : Sig) : Sig :=
  if !s.reg && s.hash.isSome && s.crypt.isSome then { s with reg := true }
  else if s.reg && (s.hash.isNone || s.crypt.isNone) then { s with reg := false }
  else s

/-- `_cb_hash_added`, rfc5444_signature.c:703-715: compares the type of whatever it is called with, which is the
first field of both kinds of objects -/
def hashAdded (t : UInt8) (o : Obj) (s : Sig) : Sig :=
  if s.hashT = t ∧ s.hash = none then handle { s with hash := some o } else s

/-- `_cb_hash_removed`, rfc5444_signature.c:717-729 -/
def hashRemoved (t : UInt8) (s : Sig) : Sig :=
  if s.hashT = t ∧ s.hash ≠ none then handle { s with hash := none } else s

/-- `_cb_crypt_removed`, rfc5444_signature.c:745-757 -/
def cryptRemoved (t : UInt8) (s : Sig) : Sig :=
  if s.cryptT = t ∧ s.crypt ≠ none then handle { s with crypt := none } else s

inductive Op where
  | addHash (t : UInt8)
  | removeHash (t : UInt8)
  | addCrypt (t : UInt8)
  | removeCrypt (t : UInt8)
  | addSig (id : Nat) (hashT cryptT : UInt8)
  | removeSig (id : Nat)
deriving DecidableEq, Repr

def step (st : St) : Op → St
  /- rfc7182_add_hash, rfc7182_provider.c:150-158 -/
  | .addHash t => if t ∈ st.hashes then st else { st with hashes := t :: st.hashes, sigs := st.sigs.map (hashAdded t (.hash t)) }
  /- rfc7182_remove_hash, rfc7182_provider.c:164-168 -/
  | .removeHash t => if t ∈ st.hashes then { st with hashes := st.hashes.filter (· ≠ t), sigs := st.sigs.map (hashRemoved t) } else st
  /- rfc7182_add_crypt, rfc7182_provider.c:189-207: the event is fired for `_hash_class` -/
  | .addCrypt t => if t ∈ st.crypts then st else { st with crypts := t :: st.crypts, sigs := st.sigs.map (hashAdded t (.crypt t)) }
  /- rfc7182_remove_crypt, rfc7182_provider.c:213-217 -/
  | .removeCrypt t => if t ∈ st.crypts then { st with crypts := st.crypts.filter (· ≠ t), sigs := st.sigs.map (cryptRemoved t) } else st
  /- rfc5444_sig_add, rfc5444_signature.c:184-209 -/
  | .addSig id h c =>
    let s : Sig := ⟨id, h, c, if h ∈ st.hashes then some (.hash h) else none, if c ∈ st.crypts then some (.crypt c) else none, false⟩
    { st with sigs := handle s :: st.sigs }
  /- rfc5444_sig_remove, rfc5444_signature.c:215-219 -/
  | .removeSig id => { st with sigs := st.sigs.filter (fun s => s.id ≠ id) }

def run (ops : List Op) : St := ops.foldl step ⟨[], [], []⟩

end Verif.Icv.Reg
