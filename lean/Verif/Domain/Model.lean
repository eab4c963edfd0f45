import Verif.Olsr.Content

/-
Model of parts of `src/nhdp/nhdp/nhdp_domain.c`: TLVs for MPR selection and willingness, recalculation of the metric of a neighbor.
Domains and the list of domains are those of `Verif.Olsr.Content`.
-/
namespace Verif.Domain
open Verif.Olsr (Domain getByExt processMprtypes)

/-! ### MPR and willingness TLVs -/

/-- `NHDP_MAXIMUM_DOMAINS`: size of the buffers, nhdp_writer.c:250, 349 -/
def SIZE : Nat := 4

/-- body of the loop of `nhdp_domain_encode_mpr_tlvvalue`, nhdp_domain.c:800-815; buffer and `len`, `none`: return with 0 -/
def mprStep (isMpr : Nat → Bool) (s : Option (List Nat × Nat)) (d : Domain) : Option (List Nat × Nat) :=
  match s with
  | none => none
  | some (buf, len) =>
    let bit := (d.index + 1) % 8
    let byte := (d.index + 1) / 8
    if byte ≥ SIZE then none
    else some (if isMpr d.index then buf.set byte (buf.getD byte 0 ||| 1 <<< bit) else buf, if byte + 1 > len then byte + 1 else len)

/-- `nhdp_domain_encode_mpr_tlvvalue`, nhdp_domain.c:786-820; `flood`: `neigh_is_flooding_mpr` of the link, `isMpr`:
`neigh_is_mpr` of the neighbor by index of the domain; the bytes of the value, empty in case of an error -/
def encodeMpr (doms : List Domain) (flood : Bool) (isMpr : Nat → Bool) : List Nat :=
  match doms.foldl (mprStep isMpr) (some ((List.replicate SIZE 0).set 0 (if flood then 1 else 0), 0)) with
  | none => []
  | some (buf, len) => buf.take len

/-- set an element of `_domaindata` -/
def put {β : Type} (f : Nat → β) (i : Nat) (v : β) : Nat → β := fun j => if j = i then v else f j

/-- loop of `nhdp_domain_process_mpr_tlv`, nhdp_domain.c:652-669; `i`: position in `mprtypes` -/
def mprLoop (doms : List Domain) (value : List Nat) : Nat → List Nat → (Nat → Bool) → Nat → Bool
  | _, [], f => f
  | i, x :: xs, f =>
    match getByExt doms x with
    | none => mprLoop doms value (i + 1) xs f
    | some d =>
      if (i + 1) / 8 ≥ value.length then mprLoop doms value (i + 1) xs f
      else mprLoop doms value (i + 1) xs (put f d.index ((value.getD ((i + 1) / 8) 0 &&& 1 <<< ((i + 1) % 8)) != 0))

/-- reset of `local_is_mpr` for the known domains, nhdp_domain.c:640-642 -/
def clear (doms : List Domain) (f : Nat → Bool) : Nat → Bool := doms.foldl (fun f d => put f d.index false) f

/-- `nhdp_domain_process_mpr_tlv` without the last part, nhdp_domain.c:631-669: `local_is_flooding_mpr` and `local_is_mpr`;
the value has at least one byte (nhdp_reader.c:207-211) -/
def processMpr (doms : List Domain) (mprtypes : List Nat) (tlv : Option (List Nat)) (f : Nat → Bool) : Bool × (Nat → Bool) :=
  match tlv with
  | none => (false, clear doms f)
  | some value => ((value.getD 0 0 &&& 1) != 0, mprLoop doms value 0 mprtypes (clear doms f))

/-- body of the loop of `nhdp_domain_encode_willingness_tlvvalue`, nhdp_domain.c:841-863; `none`: return with -1 -/
def willStep (will : Nat → Nat) (s : Option (List Nat × Nat)) (d : Domain) : Option (List Nat × Nat) :=
  match s with
  | none => none
  | some (buf, len) =>
    let idx := (d.index + 1) / 2
    if idx ≥ SIZE then none
    else
      let value := will d.index &&& 15
      let value := if d.index % 2 = 0 then (value <<< 4) % 256 else value
      some (buf.set idx (buf.getD idx 0 ||| value), if idx + 1 > len then idx + 1 else len)

/-- `nhdp_domain_encode_willingness_tlvvalue`, nhdp_domain.c:828-866; `flood`, `will`: `local_willingness` (8 bit) of flooding
domain and domains -/
def encodeWill (doms : List Domain) (flood : Nat) (will : Nat → Nat) : Option (List Nat) :=
  match doms.foldl (willStep will) (some ((List.replicate SIZE 0).set 0 flood, 0)) with
  | none => none
  | some (buf, len) => some (buf.take len)

/-- loop of `nhdp_domain_process_willingness_tlv`, nhdp_domain.c:712-737 -/
def willLoop (doms : List Domain) (value : List Nat) : Nat → List Nat → (Nat → Nat) → Nat → Nat
  | _, [], f => f
  | i, x :: xs, f =>
    match getByExt doms x with
    | none => willLoop doms value (i + 1) xs f
    | some d =>
      if (i + 1) / 2 ≥ value.length then willLoop doms value (i + 1) xs f
      else
        willLoop doms value (i + 1) xs
          (put f d.index (if d.index % 2 = 0 then value.getD ((i + 1) / 2) 0 >>> 4 else value.getD ((i + 1) / 2) 0 &&& 15))

/-- `nhdp_domain_process_willingness_tlv` and `nhdp_domain_store_willingness`, nhdp_domain.c:693-753: willingness for flooding and by
index of the domain; `RFC7181_WILLINGNESS_NEVER` is 0 -/
def processWill (doms : List Domain) (mprtypes : List Nat) (tlv : Option (List Nat)) : Nat × (Nat → Nat) :=
  match tlv with
  | none => (0, fun _ => 0)
  | some value => (value.getD 0 0 &&& 15, willLoop doms value 0 mprtypes fun _ => 0)

/-! ### Selection as MPR -/

/-- what is used of the state: for each neighbor (by number) `local_is_mpr`, and `_node_is_selected_as_mpr` -/
structure Sel where
  neighs : List (Nat × (Nat → Bool))
  selected : Bool

/-- events: HELLO with our address and MPR TLV (or none), a new neighbor, a removed neighbor (nhdp_db.c:242-285) -/
inductive SelEvent
  | hello (n : Nat) (mprtypes : Bool) (tlv : Option (List Nat))
  | add (n : Nat)
  | remove (n : Nat)

/-- the last part of `nhdp_domain_process_mpr_tlv`, nhdp_domain.c:671-681 -/
def anySelected (doms : List Domain) (neighs : List (Nat × (Nat → Bool))) : Bool := doms.any fun d => neighs.any fun n => n.2 d.index

/-- one event; `nhdp_domain_process_mpr_tlv` returns early without a TLV (nhdp_domain.c:644-646) -/
def selStep (doms : List Domain) (s : Sel) : SelEvent → Sel
  | .hello n mprtypes tlv =>
    let neighs := s.neighs.map fun x => if x.1 = n then (x.1, (processMpr doms (processMprtypes doms mprtypes) tlv x.2).2) else x
    ⟨neighs, match tlv with | none => s.selected | some _ => anySelected doms neighs⟩
  | .add n => { s with neighs := s.neighs ++ [(n, fun _ => false)] }
  | .remove n => { s with neighs := s.neighs.filter fun x => x.1 ≠ n }

def selRun (doms : List Domain) (s : Sel) (es : List SelEvent) : Sel := es.foldl (selStep doms) s

/-! ### Neighbor metric -/

/-- `RFC7181_METRIC_INFINITE`, rfc5444.h:66 -/
def INFINITE : Nat := 0xffffff

/-- link of a neighbor in one domain: number of the link, `status == NHDP_LINK_SYMMETRIC`, `metric.in`, `metric.out`, and for its two-hop
neighbors `metric.out` and `_last_used_outgoing_metric` -/
structure LinkM where
  id : Nat
  sym : Bool
  min : Nat
  mout : Nat
  twohop : List (Nat × Nat)
deriving DecidableEq, Repr

/-- `struct nhdp_neighbor_domaindata`: `metric.in`, `metric.out`, `best_out_link`, `best_out_link_metric` -/
structure NeighM where
  min : Nat
  mout : Nat
  best : Option LinkM
  bestMetric : Nat
deriving DecidableEq, Repr

/-- one link, nhdp_domain.c:1033-1062 -/
def linkStep (s : NeighM × Bool) (l : LinkM) : NeighM × Bool :=
  if !l.sym then s
  else
    let n := if l.mout < s.1.mout then { s.1 with mout := l.mout, best := some l } else s.1
    let n := if l.min < n.min then { n with min := l.min } else n
    (n, s.2 || l.twohop.any fun t => t.1 != t.2)

/-- `_recalculate_neighbor_metric`, nhdp_domain.c:1005-1076 (`best_link_ifindex` left out): new data, new links
(`_last_used_outgoing_metric`), result -/
def recalculate (n : NeighM) (links : List LinkM) : NeighM × List LinkM × Bool :=
  let r := links.foldl linkStep ({ n with min := INFINITE, mout := INFINITE, best := none }, false)
  let links := links.map fun l => if l.sym then { l with twohop := l.twohop.map fun t => (t.1, t.1) } else l
  match r.1.best with
  | none => (r.1, links, r.2)
  | some l => ({ r.1 with bestMetric := l.mout }, links, r.2 || r.1.bestMetric != l.mout)

end Verif.Domain
