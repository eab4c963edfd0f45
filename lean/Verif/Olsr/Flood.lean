import Verif.Olsr.Originator
import Verif.DupSet.Model

/-
Model of the decision whether a received TC message is forwarded and processed: `olsrv2_mpr_shall_process`,
`olsrv2_mpr_shall_forwarding` (`src/olsrv2/olsrv2/olsrv2.c`), `_cb_messagetlvs` (`olsrv2_reader.c`) and the end of
`_handle_message` (`rfc5444_reader.c`).

The TC reader is the only consumer of TC messages.  The content of the topology database is left out (see `Verif.Tc`); it
only decides between the results OKAY and DROP_MSG_BUT_FORWARD, which makes no difference here.
-/
namespace Verif.Olsr
open Verif.Netaddr (Netaddr)
open Verif.DupSet (Key isNew entryAdd)

/-- what is used of a received message: flags and values of the header (`struct rfc5444_reader_tlvblock_context`,
rfc5444_reader.h:118-220), the result of the check of the mandatory message TLVs (`constraints_failed`,
rfc5444_reader.c:664-760, for the consumer entries olsrv2_reader.c:124-151), the extension of CONT_SEQ_NUM, the decoded
validity time, and whether the address family is active on the interface (`oonf_rfc5444_is_interface_active`) -/
structure Tc where
  hasOrig : Bool
  hasHopcount : Bool
  hasHoplimit : Bool
  hasSeqno : Bool
  orig : Netaddr
  hoplimit : Nat
  seqno : Nat
  constraints : Bool
  ext : Nat
  vtime : Nat
  active : Bool

/-- what is used of a NHDP link: `local_is_flooding_mpr`, `neigh->symmetric` and `dualstack_partner->neigh->symmetric` -/
structure Link where
  floodingMpr : Bool
  symmetric : Nat
  partner : Option Nat

/-- `_protocol->input`: interface (with the links NHDP knows for a source address, `none`: not an interface of NHDP) and
source address -/
structure Input where
  iface : Option (Bool × Option (Netaddr → Option Link))
  src : Option Netaddr

/-- `RFC7181_MSGTYPE_TC` -/
def MSGTYPE_TC : Nat := 1

/-- `_set_entry_key`/key of the duplicate sets, oonf_duplicate_set.c:176-200 -/
def dupKey (a : Netaddr) : Key := ⟨a.addr.map UInt8.toNat ++ [a.type.toNat, a.prefixLen.toNat], MSGTYPE_TC⟩

/-- duplicate sets (16 bit numbers, oonf_rfc5444.c) and originators -/
structure Flood where
  forwarded : DupSet.Set
  processed : DupSet.Set
  orig : Orig

/-- `olsrv2_mpr_shall_process`, olsrv2.c:389-416; `hold`: `f_hold_time` -/
def shallProcess (st : Flood) (m : Tc) (hold : Nat) : Bool × Flood :=
  if !m.hasOrig || !m.hasSeqno then (false, st)
  else
    let (r, s) := entryAdd .b16 st.processed (dupKey m.orig) m.seqno (m.vtime + hold)
    (isNew r, { st with processed := s })

/-- `olsrv2_mpr_shall_forwarding` behind the duplicate check, olsrv2.c:475-518 -/
def fromSelector (m : Tc) (links : Option (Netaddr → Option Link)) (src : Netaddr) : Bool :=
  match links with
  | none => false
  | some f =>
    match f src with
    | none => false
    | some l =>
      if m.orig.type = src.type then l.floodingMpr && decide (l.symmetric > 0)
      else
        match l.partner with
        | some sym => l.floodingMpr && decide (sym > 0)
        | none => false

/-- `olsrv2_mpr_shall_forwarding`, olsrv2.c:426-519 -/
def shallForward (st : Flood) (m : Tc) (i : Input) (hold : Nat) : Bool × Flood :=
  if !m.hasOrig || !m.hasSeqno then (false, st)
  else
    match i.iface with
    | none => (false, st)
    | some (unicast, links) =>
      match i.src with
      | none => (false, st)
      | some src =>
        if unicast then (false, st)
        else
          let (r, s) := entryAdd .b16 st.forwarded (dupKey m.orig) m.seqno (m.vtime + hold)
          if isNew r then (fromSelector m links src, { st with forwarded := s })
          else (false, { st with forwarded := s })

/-- result of `_cb_messagetlvs` as far as it matters here -/
structure Verdict where
  dropped : Bool
  noForward : Bool
  processed : Bool

/-- `_cb_messagetlvs` up to the duplicate checks, olsrv2_reader.c:213-301 -/
def messageTlvs (st : Flood) (m : Tc) (i : Input) (hold : Nat) : Verdict × Flood :=
  if !m.hasOrig || !m.hasHopcount || !m.hasHoplimit || !m.hasSeqno then (⟨true, false, false⟩, st)
  else if isLocal st.orig m.orig then (⟨true, false, false⟩, st)
  else if !m.active then (⟨true, false, false⟩, st)
  else if m.ext ≠ 0 ∧ m.ext ≠ 1 then (⟨true, false, false⟩, st)
  else
    let (f, st) := shallForward st m i hold
    let (p, st) := shallProcess st m hold
    (⟨false, !f, p⟩, st)

/-- what was done with a message -/
structure Done where
  forwarded : Bool
  processed : Bool

/-- one received TC message: `_schedule_tlvblock`, rfc5444_reader.c:757-771, and the end of `_handle_message`, 1247-1260 -/
def receive (st : Flood) (m : Tc) (i : Input) (hold : Nat) : Done × Flood :=
  let (v, st) := if m.constraints then messageTlvs st m i hold else (⟨false, false, false⟩, st)
  (⟨!v.dropped && !v.noForward && m.hasHoplimit && decide (m.hoplimit > 1), v.processed⟩, st)

/-- what happens -/
inductive FloodEvent
  | receive (m : Tc) (i : Input)
  | own (e : OrigEvent)
  | expireForwarded (k : Key)
  | expireProcessed (k : Key)

/-- one event -/
def floodStep (hold : Nat) (st : Flood) : FloodEvent → Flood
  | .receive m i => (receive st m i hold).2
  | .own e => { st with orig := origStep st.orig e }
  | .expireForwarded k => { st with forwarded := DupSet.expire st.forwarded k }
  | .expireProcessed k => { st with processed := DupSet.expire st.processed k }

/-- a history -/
def floodRun (hold : Nat) (st : Flood) (es : List FloodEvent) : Flood := es.foldl (floodStep hold) st

end Verif.Olsr
