import Verif.RtNl.Model
import Verif.Netlink.Props
/-
C191, C192: messages for routes and filters.
-/
namespace Verif.RtNl
open Verif.Netlink

/-! ## Specification -/

/-- a proper address, or none -/
def Proper (a : NA) : Prop :=
  (a = ⟨0, List.replicate 16 0, 0⟩) ∨ (a.fam = 2 ∧ a.addr.length = 16 ∧ a.addr.drop 4 = List.replicate 12 0 ∧ a.plen ≤ 32) ∨
    (a.fam = 10 ∧ a.addr.length = 16 ∧ a.plen ≤ 128)

/-- a single host, or none -/
def Host (a : NA) : Prop := Proper a ∧ (a.fam = 2 → a.plen = 32) ∧ (a.fam = 10 → a.plen = 128)

/-- none, or of the family -/
def Of (F : Nat) (a : NA) : Prop := a.fam = 0 ∨ a.fam = F

/-- a proper route of an address family: the numbers fit into their fields -/
structure Good (F : Nat) (r : Rt) : Prop where
  fam : F = 2 ∨ F = 10
  family : r.family = 0 ∨ r.family = F
  known : r.dst.fam = F ∨ r.gw.fam = F ∨ r.family = F ∨ F = 2
  dst : Proper r.dst ∧ Of F r.dst
  src : Proper r.src ∧ Of F r.src
  gw : Host r.gw ∧ Of F r.gw
  srcIp : Host r.srcIp ∧ Of F r.srcIp
  type : r.type < 10
  metric : r.metric < 4294967296
  table : r.table < 256
  protocol : r.protocol < 256
  ifIndex : r.ifIndex < 4294967296

/-- what the kernel should be told about a route -/
def meant (F : Nat) (r : Rt) : Rt :=
  { r with
    family := F
    type := if r.type = 0 then 1 else r.type
    dst := if r.dst.fam = 0 then ⟨F, List.replicate 16 0, 0⟩ else r.dst
    src := if r.src.fam = 10 ∧ r.src.plen ≠ 0 then r.src else ⟨0, List.replicate 16 0, 0⟩
    gw := if r.gw.fam = 0 ∧ r.dst.fam = 2 ∧ r.dst.plen = 32 then r.dst else r.gw }

/-! ## Lemmas -/

theorem addAll_some (as : List (Nat × List UInt8)) : ∀ (msg : List UInt8), msg.length + (as.map fun a => 7 + a.2.length).sum ≤ 1024 → ∃ m, addAll msg as = some m := by
  induction as with
  | nil => intro msg _; exact ⟨msg, rfl⟩
  | cons a as ih =>
    intro msg h
    simp only [List.map_cons, List.sum_cons] at h
    have h1 := align_lt msg.length
    have h2 := align_ge msg.length
    have h3 : ¬ align msg.length + (4 + a.2.length) > MAXIOV := by simp only [MAXIOV]; omega
    simp only [addAll, addreq, if_neg h3, Option.bind_some]
    apply ih
    simp only [List.length_append, List.length_replicate, le16, List.length_cons, List.length_nil]
    omega

theorem fold_opt {β} (f : β → Nat × List UInt8 → β) (s : β) (c : Bool) (t : Nat) (d : List UInt8) : (opt c t d).foldl f s = if c then f s (t, d) else s := by
  cases c <;> rfl

theorem rd32_le32 (n : Nat) (h : n < 4294967296) : rd32 (le32 n) = n := by
  simp only [le32, rd32, UInt8.toNat_ofNat']
  omega

theorem opt_sum (c : Bool) (t : Nat) (d : List UInt8) (n : Nat) (h : d.length ≤ n) : ((opt c t d).map fun a => 7 + a.2.length).sum ≤ 7 + n := by
  cases c <;> simp [opt] <;> omega

theorem binary_length (a : NA) : (binary a).length ≤ 16 := by
  unfold binary maxplen
  simp only [List.length_take]
  split
  · omega
  · split <;> omega

theorem rtmsg_length (r : Rt) (f s : Nat) : (zeros 16 ++ rtmsg r f s).length = 28 := by
  simp [zeros, rtmsg, le32]

theorem attributes_sum (r : Rt) : ((attributes r).map fun a => 7 + a.2.length).sum ≤ 114 := by
  simp only [attributes, List.map_append, List.sum_append]
  have h1 := opt_sum (r.srcIp.fam ≠ 0) 7 _ _ (binary_length r.srcIp)
  have h2 := opt_sum (r.gw.fam ≠ 0) 5 _ _ (binary_length r.gw)
  have h3 := opt_sum (r.dst.fam ≠ 0) 1 _ _ (binary_length r.dst)
  have h4 := opt_sum (specific r) 2 _ _ (binary_length r.src)
  have h5 := opt_sum (r.metric ≠ NOMETRIC) 6 (le32 r.metric) 4 (by simp [le32])
  have h6 := opt_sum (r.ifIndex ≠ 0) 4 (le32 r.ifIndex) 4 (by simp [le32])
  omega

theorem build_some (r : Rt) (f s : Nat) : ∃ m, addAll (zeros 16 ++ rtmsg r f s) (attributes r) = some m := by
  apply addAll_some
  rw [rtmsg_length]
  have := attributes_sum r
  omega

theorem opt_types (c : Bool) (t : Nat) (d : List UInt8) (ht : t < 65536) : ∀ a ∈ opt c t d, a.1 < 65536 := by
  cases c <;> simp [opt] <;> omega

theorem attributes_types (r : Rt) : ∀ a ∈ attributes r, a.1 < 65536 := by
  intro a ha
  simp only [attributes, List.mem_append] at ha
  rcases ha with ((((ha | ha) | ha) | ha) | ha) | ha <;> exact opt_types _ _ _ (by omega) a ha

/-- the message consists of header and attributes -/
theorem build_read (r : Rt) (f s : Nat) (m : List UInt8) (h : addAll (zeros 16 ++ rtmsg r f s) (attributes r) = some m) :
    readAttrs (m.drop 28) = attributes r ∧ ∃ t, m = zeros 16 ++ rtmsg r f s ++ t := by
  constructor
  · have := C182_attributes _ _ m (attributes_types r) h
    rw [rtmsg_length] at this
    exact this
  · obtain ⟨pad, _, _, h3, _⟩ := addAll_bytes _ _ _ h
    exact ⟨_, by rw [h3, List.append_assoc]⟩

theorem fromBinary_binary (a : NA) (p : Nat) (hp : Proper a) (h0 : a.fam ≠ 0) (h : p = 255 ∧ (a.fam = 2 → a.plen = 32) ∧ (a.fam = 10 → a.plen = 128) ∨ p = a.plen) :
    fromBinary (binary a) a.fam p = some a := by
  obtain ⟨fam, addr, plen⟩ := a
  rcases hp with hp | ⟨h1, h2, h3, h4⟩ | ⟨h1, h2, h4⟩
  · cases hp; exact absurd rfl h0
  · simp only at h1 h2 h3 h4 h
    subst h1
    have hl : (List.take 4 addr).length = 4 := by simp [h2]
    have e : List.take 4 addr ++ List.replicate 12 0 = addr := by rw [← h3, List.take_append_drop]
    have hb : binary ⟨2, addr, plen⟩ = List.take 4 addr := by simp [binary, maxplen, INET]
    simp only [hb, fromBinary, hl, zeros]
    rw [if_neg (by omega)]
    have hpl : (if p = 255 then 4 * 8 else p) = plen := by
      rcases h with ⟨h5, h6, _⟩ | h5
      · rw [if_pos h5, h6 rfl]
      · rw [if_neg (by omega), h5]
    rw [hpl]
    exact congrArg some (by rw [NA.mk.injEq]; exact ⟨rfl, e, rfl⟩)
  · simp only at h1 h2 h4 h
    subst h1
    have hl : (List.take 16 addr).length = 16 := by simp [h2]
    have e : List.take 16 addr ++ List.replicate 0 0 = addr := by
      rw [List.replicate_zero, List.append_nil, ← h2, List.take_length]
    have hb : binary ⟨10, addr, plen⟩ = List.take 16 addr := by simp [binary, maxplen, INET, INET6]
    simp only [hb, fromBinary, hl, zeros]
    rw [if_neg (by omega)]
    have hpl : (if p = 255 then 16 * 8 else p) = plen := by
      rcases h with ⟨h5, _, h6⟩ | h5
      · rw [if_pos h5, h6 rfl]
      · rw [if_neg (by omega), h5]
    rw [hpl]
    exact congrArg some (by rw [NA.mk.injEq]; exact ⟨rfl, e, rfl⟩)

theorem family_good {F : Nat} {r : Rt} (h : Good F r) : family r = some F := by
  have h1 := h.family; have h2 := h.known; have h3 := h.dst.2; have h4 := h.gw.2; have h5 := h.srcIp.2; have h6 := h.fam
  unfold Of at h3 h4 h5
  have hF : F ≠ 0 := by omega
  unfold family
  simp only [INET]
  by_cases a : r.dst.fam = 0
  · by_cases b : r.gw.fam = 0
    · by_cases c : r.srcIp.fam = 0
      · by_cases d : r.family = 0
        · have : F = 2 := by omega
          simp [a, b, c, d, this]
        · have : r.family = F := by omega
          simp [a, b, c, this, hF]
      · have c : r.srcIp.fam = F := by omega
        rcases h1 with d | d <;> simp [a, b, c, d, hF]
    · have b : r.gw.fam = F := by omega
      rcases h5 with c | c <;> rcases h1 with d | d <;> simp [a, b, c, d, hF]
  · have a : r.dst.fam = F := by omega
    rcases h4 with b | b <;> rcases h5 with c | c <;> simp [a, b, c, hF]

theorem proper_plen {a : NA} (h : Proper a) : a.plen < 256 := by
  rcases h with h | h | h
  · rw [h]; decide
  · omega
  · omega

theorem type_round (t : Nat) (h : t < 10) : typeOf (((types.lookup t).getD 1) % 256) = some (if t = 0 then 1 else t) := by
  have : ∀ t : Fin 10, typeOf (((types.lookup t.val).getD 1) % 256) = some (if t.val = 0 then 1 else t.val) := by decide +kernel
  exact this ⟨t, h⟩

theorem proper_none {a : NA} (h : Proper a) (h0 : a.fam = 0) : a = none' := by
  rcases h with h | h | h
  · exact h
  · omega
  · omega

section steps
variable {F d s : Nat} {r r0 : Rt}

theorem step7 (h : Good F r) (h0 : r0.srcIp = none') :
    (if decide (r.srcIp.fam ≠ 0) = true then parseAttr F d s (some r0) (7, binary r.srcIp) else some r0) = some { r0 with srcIp := r.srcIp } := by
  have hp := h.srcIp
  by_cases c : r.srcIp.fam = 0
  · rw [if_neg (by simp [c]), proper_none hp.1.1 c, ← h0]
  · have e : F = r.srcIp.fam := by have := hp.2; unfold Of at this; omega
    rw [if_pos (by simp [c])]
    subst e
    simp [parseAttr, fromBinary_binary r.srcIp 255 hp.1.1 c (.inl ⟨rfl, hp.1.2⟩)]

theorem step5 (h : Good F r) (h0 : r0.gw = none') :
    (if decide (r.gw.fam ≠ 0) = true then parseAttr F d s (some r0) (5, binary r.gw) else some r0) = some { r0 with gw := r.gw } := by
  have hp := h.gw
  by_cases c : r.gw.fam = 0
  · rw [if_neg (by simp [c]), proper_none hp.1.1 c, ← h0]
  · have e : F = r.gw.fam := by have := hp.2; unfold Of at this; omega
    rw [if_pos (by simp [c])]
    subst e
    simp [parseAttr, fromBinary_binary r.gw 255 hp.1.1 c (.inl ⟨rfl, hp.1.2⟩)]

theorem step1 (h : Good F r) (h0 : r0.dst = none') :
    (if decide (r.dst.fam ≠ 0) = true then parseAttr F (if r.dst.fam ≠ 0 then r.dst.plen else 0) s (some r0) (1, binary r.dst) else some r0) = some { r0 with dst := r.dst } := by
  have hp := h.dst
  by_cases c : r.dst.fam = 0
  · rw [if_neg (by simp [c]), proper_none hp.1 c, ← h0]
  · have e : F = r.dst.fam := by have := hp.2; unfold Of at this; omega
    rw [if_pos (by simp [c]), if_pos c]
    subst e
    simp [parseAttr, fromBinary_binary r.dst _ hp.1 c (.inr rfl)]

theorem step2 (h : Good F r) (h0 : r0.src = none') :
    (if specific r = true then parseAttr F d (if specific r = true then r.src.plen else 0) (some r0) (2, binary r.src) else some r0) =
      some { r0 with src := if r.src.fam = 10 ∧ r.src.plen ≠ 0 then r.src else ⟨0, List.replicate 16 0, 0⟩ } := by
  have hp := h.src
  by_cases c : r.src.fam = 10 ∧ r.src.plen ≠ 0
  · have hs : specific r = true := by simp [specific, INET6, c.1, c.2]
    have e : F = r.src.fam := by have := hp.2; unfold Of at this; omega
    rw [if_pos hs, if_pos hs, if_pos c]
    subst e
    simp [parseAttr, fromBinary_binary r.src _ hp.1 (by omega) (.inr rfl)]
  · have hs : ¬ specific r = true := by intro h; simp only [specific, INET6, Bool.and_eq_true, decide_eq_true_eq] at h; exact c ⟨of_decide_eq_true h.1, h.2⟩
    rw [if_neg hs, if_neg c]
    change some r0 = some { r0 with src := none' }
    rw [← h0]

theorem step6 (h : Good F r) (h0 : r0.metric = NOMETRIC) :
    (if decide (r.metric ≠ NOMETRIC) = true then parseAttr F d s (some r0) (6, le32 r.metric) else some r0) = some { r0 with metric := r.metric } := by
  by_cases c : r.metric = NOMETRIC
  · rw [if_neg (by simp [c]), c, ← h0]
  · rw [if_pos (by simp [c])]
    simp [parseAttr, rd32_le32 _ h.metric]

theorem step4 (h : Good F r) (h0 : r0.ifIndex = 0) :
    (if decide (r.ifIndex ≠ 0) = true then parseAttr F d s (some r0) (4, le32 r.ifIndex) else some r0) = some { r0 with ifIndex := r.ifIndex } := by
  by_cases c : r.ifIndex = 0
  · rw [if_neg (by simp [c]), c, ← h0]
  · rw [if_pos (by simp [c])]
    simp [parseAttr, rd32_le32 _ h.ifIndex]

end steps

/-- what is read from a message, with the gateway of the message -/
def plain (F : Nat) (r : Rt) : Rt := { r with family := F, type := if r.type = 0 then 1 else r.type, dst := if r.dst.fam = 0 then ⟨F, List.replicate 16 0, 0⟩ else r.dst, src := if r.src.fam = 10 ∧ r.src.plen ≠ 0 then r.src else ⟨0, List.replicate 16 0, 0⟩ }

/-- what is read from a message -/
theorem parse_build {F : Nat} {r : Rt} (h : Good F r) (s : Nat) : ∃ m, build r s = some m ∧ byte m 22 = s % 256 ∧
    parse m = .route (plain F r) := by
  obtain ⟨m, hm⟩ := build_some r F s
  obtain ⟨hr, t, ht⟩ := build_read r F s m hm
  refine ⟨m, by simp only [build, family_good h, Option.bind_some, hm], by rw [ht]; simp [byte, zeros, rtmsg, List.replicate], ?_⟩
  have hF : F = 2 ∨ F = 10 := h.fam
  have b16 : byte m 16 = F := by rw [ht]; simp [byte, zeros, rtmsg, List.replicate]; omega
  have b17 : byte m 17 = if r.dst.fam ≠ 0 then r.dst.plen else 0 := by
    rw [ht]; simp [byte, zeros, rtmsg, List.replicate]
    have := proper_plen h.dst.1
    split <;> omega
  have b18 : byte m 18 = if specific r then r.src.plen else 0 := by
    rw [ht]; simp [byte, zeros, rtmsg, List.replicate]
    have := proper_plen h.src.1
    split <;> omega
  have b20 : byte m 20 = r.table := by rw [ht]; simp [byte, zeros, rtmsg, List.replicate]; have := h.table; omega
  have b21 : byte m 21 = r.protocol := by rw [ht]; simp [byte, zeros, rtmsg, List.replicate]; have := h.protocol; omega
  have b23 : byte m 23 = ((types.lookup r.type).getD 1) % 256 := by rw [ht]; simp [byte, zeros, rtmsg, List.replicate]
  have b24 : rd32 (m.drop 24) / 512 % 2 = 0 := by
    rw [ht]
    by_cases hg : r.gw.fam = 0 <;> simp [zeros, rtmsg, List.replicate, le32, rd32, hg]
  unfold parse
  rw [b24, if_neg (by omega), b16, if_neg (by simp only [INET, INET6]; omega), b23, type_round _ h.type]
  simp only [hr, attributes, List.foldl_append, fold_opt, b17, b18, b20, b21]
  rw [step7 h rfl, step5 h rfl, step1 h rfl, step2 h rfl, step6 h rfl, step4 h rfl]
  simp only [defaultDst, plain]
  by_cases c : r.dst.fam = 0
  · simp [c, any, zeros]
  · simp [c]

theorem withGateway_good {F : Nat} {r : Rt} (h : Good F r) : Good F (withGateway r) := by
  unfold withGateway
  split
  · rename_i c
    have hd : r.dst.fam = 2 := c.2.1
    have hf : F = 2 := by have := h.dst.2; unfold Of at this; omega
    exact { h with gw := ⟨⟨h.dst.1, fun _ => c.2.2, fun e => absurd (hd.symm.trans e) (by decide)⟩, h.dst.2⟩, known := .inr (.inr (.inr hf)) }
  · exact h

theorem forRemoval_good {F : Nat} {r : Rt} (h : Good F r) (similar : Bool) : Good F (forRemoval r similar) :=
  { h with srcIp := ⟨⟨.inl rfl, fun e => absurd e (by simp [forRemoval, none']), fun e => absurd e (by simp [forRemoval, none'])⟩, .inl rfl⟩, protocol := by simp [forRemoval], ifIndex := by have := h.ifIndex; simp only [forRemoval]; split <;> omega }

theorem withGateway_meant (F : Nat) (r : Rt) : plain F (withGateway r) = meant F r := by
  by_cases c : r.gw.fam = 0 ∧ r.dst.fam = 2 ∧ r.dst.plen = 32
  · have : withGateway r = { r with gw := r.dst } := if_pos c
    rw [this]
    simp only [plain, meant, if_pos c]
  · have : withGateway r = r := if_neg c
    rw [this]
    simp only [plain, meant, if_neg c]

/-! ## C191 -/

/-- setting a route: the kernel is told to create or replace (NLM_F_REQUEST, NLM_F_CREATE, NLM_F_REPLACE) exactly this route -/
theorem C191_set {F : Nat} {r : Rt} (h : Good F r) (similar : Bool) : ∃ m, request r true similar = some m ∧ m.type = 24 ∧ m.flags = 1 + 0x400 + 0x100 ∧
    byte m.bytes 22 = 0 ∧ parse m.bytes = .route (meant F r) := by
  obtain ⟨b, h1, h2, h3⟩ := parse_build (withGateway_good h) 0
  refine ⟨⟨24, 0x501, b⟩, by simp [request, h1], rfl, rfl, h2, ?_⟩
  rw [h3, withGateway_meant]

/-- removing a route: the message names the same destination, source prefix, gateway, metric and table; the protocol and the address for
local packets are left open, with `similar` also the interface and (255 is "nowhere") the scope -/
theorem C191_remove {F : Nat} {r : Rt} (h : Good F r) (similar : Bool) : ∃ m, request r false similar = some m ∧ m.type = 25 ∧ m.flags = 1 ∧
    byte m.bytes 22 = (if similar then 255 else 0) ∧
    parse m.bytes = .route { meant F r with protocol := 0, srcIp := ⟨0, List.replicate 16 0, 0⟩, ifIndex := if similar then 0 else r.ifIndex } := by
  obtain ⟨b, h1, h2, h3⟩ := parse_build (withGateway_good (forRemoval_good h similar)) (if similar then 255 else 0)
  refine ⟨⟨25, 1, b⟩, by simp [request, h1], rfl, rfl, ?_, ?_⟩
  · rw [h2]; cases similar <;> rfl
  · rw [h3, withGateway_meant]; rfl

/-- the numbers of `RTN_UNICAST` to `RTN_NAT` in linux/rtnetlink.h: unicast 1, local 2, broadcast 3, blackhole 6, multicast 5,
unreachable 7, prohibit 8, throw 9, nat 10; a route without type is unicast -/
def kernelType : Nat → Nat
  | 2 => 2
  | 3 => 3
  | 4 => 5
  | 5 => 9
  | 6 => 7
  | 7 => 8
  | 8 => 6
  | 9 => 10
  | _ => 1

/-- the numbers of linux/rtnetlink.h are used: the type of the route, RTA_DST (1), RTA_SRC (2), RTA_OIF (4), RTA_GATEWAY (5),
RTA_PRIORITY (6) and RTA_PREFSRC (7), each with its data and only if it is known; RTNH_F_ONLINK is set if there is a gateway -/
theorem C191_numbers {r : Rt} {s : Nat} {m : List UInt8} (h : build r s = some m) : byte m 23 = kernelType r.type ∧
    rd32 (m.drop 24) = (if r.gw.fam = 0 then 0 else 4) ∧
    (∀ t d, (t, d) ∈ readAttrs (m.drop 28) ↔ t = 1 ∧ r.dst.fam ≠ 0 ∧ d = binary r.dst ∨ t = 2 ∧ (r.src.fam = 10 ∧ r.src.plen ≠ 0) ∧ d = binary r.src ∨
      t = 4 ∧ r.ifIndex ≠ 0 ∧ d = le32 r.ifIndex ∨ t = 5 ∧ r.gw.fam ≠ 0 ∧ d = binary r.gw ∨ t = 6 ∧ r.metric ≠ 4294967295 ∧ d = le32 r.metric ∨
      t = 7 ∧ r.srcIp.fam ≠ 0 ∧ d = binary r.srcIp) := by
  obtain ⟨f, _, hm⟩ := Option.bind_eq_some_iff.1 h
  obtain ⟨hr, t, ht⟩ := build_read r f s m hm
  refine ⟨?_, ?_, ?_⟩
  · have b23 : byte m 23 = ((types.lookup r.type).getD 1) % 256 := by rw [ht]; simp [byte, zeros, rtmsg, List.replicate]
    rw [b23]
    by_cases c : r.type < 10
    · have : ∀ t : Fin 10, ((types.lookup t.val).getD 1) % 256 = kernelType t.val := by decide +kernel
      exact this ⟨r.type, c⟩
    · have e : types.lookup r.type = none := by
        rw [List.lookup_eq_none_iff]
        intro x hx
        simp only [types, List.mem_cons, List.not_mem_nil, or_false] at hx
        rcases hx with rfl | rfl | rfl | rfl | rfl | rfl | rfl | rfl | rfl <;> simp <;> omega
      rw [e]
      unfold kernelType
      split <;> first | rfl | (exfalso; omega)
  · rw [ht]
    by_cases hg : r.gw.fam = 0 <;> simp [zeros, rtmsg, List.replicate, le32, rd32, hg]
  · intro t d
    rw [hr]
    have ho : ∀ c n x, (t, d) ∈ opt c n x ↔ c = true ∧ t = n ∧ d = x := by intro c n x; cases c <;> simp [opt]
    clear h hm hr ht
    have hs : specific r = true ↔ r.src.fam = 10 ∧ r.src.plen ≠ 0 := by unfold specific INET6; rw [Bool.and_eq_true, decide_eq_true_iff, decide_eq_true_iff]
    have hp : (decide (r.metric ≠ NOMETRIC)) = true ↔ r.metric ≠ 4294967295 := by rw [decide_eq_true_iff]; exact Iff.rfl
    simp only [attributes, List.mem_append, ho, hs, hp, decide_eq_true_iff]
    constructor
    · rintro (((((⟨a, b, c⟩ | ⟨a, b, c⟩) | ⟨a, b, c⟩) | ⟨a, b, c⟩) | ⟨a, b, c⟩) | ⟨a, b, c⟩)
      · exact .inr (.inr (.inr (.inr (.inr ⟨b, a, c⟩))))
      · exact .inr (.inr (.inr (.inl ⟨b, a, c⟩)))
      · exact .inl ⟨b, a, c⟩
      · exact .inr (.inl ⟨b, a, c⟩)
      · exact .inr (.inr (.inr (.inr (.inl ⟨b, a, c⟩))))
      · exact .inr (.inr (.inl ⟨b, a, c⟩))
    · rintro (⟨a, b, c⟩ | ⟨a, b, c⟩ | ⟨a, b, c⟩ | ⟨a, b, c⟩ | ⟨a, b, c⟩ | ⟨a, b, c⟩)
      · exact .inl (.inl (.inl (.inr ⟨b, a, c⟩)))
      · exact .inl (.inl (.inr ⟨b, a, c⟩))
      · exact .inr ⟨b, a, c⟩
      · exact .inl (.inl (.inl (.inl (.inr ⟨b, a, c⟩))))
      · exact .inl (.inr ⟨b, a, c⟩)
      · exact .inl (.inl (.inl (.inl (.inl ⟨b, a, c⟩))))

example : ∃ m, build { type := 7, dst := ⟨2, [10, 0, 0, 0] ++ zeros 12, 8⟩, gw := ⟨2, [192, 168, 0, 1] ++ zeros 12, 32⟩, metric := 3 } 0 = some m ∧
    byte m 23 = 8 ∧ (5, [192, 168, 0, 1]) ∈ readAttrs (m.drop 28) := ⟨_, rfl, by decide +kernel, by decide +kernel⟩

/-- addresses of different families are refused, and nothing else is: there is always room for the attributes -/
theorem C191_refused (r : Rt) (set similar : Bool) : request r set similar = none ↔
    ∃ a ∈ [if r.dst.fam ≠ 0 then r.dst.fam else r.family, r.gw.fam] ++ (if set then [r.srcIp.fam] else []),
    ∃ b ∈ [if r.dst.fam ≠ 0 then r.dst.fam else r.family, r.gw.fam] ++ (if set then [r.srcIp.fam] else []), a ≠ 0 ∧ b ≠ 0 ∧ a ≠ b := by
  have hb : ∀ r s, build r s = none ↔ family r = none := by
    intro r s
    unfold build
    cases hf : family r with
    | none => simp
    | some f => obtain ⟨m, hm⟩ := build_some r f s; simp [hm]
  have hfam : ∀ r : Rt, family r = none ↔ ∃ a ∈ [if r.dst.fam ≠ 0 then r.dst.fam else r.family, r.gw.fam, r.srcIp.fam], ∃ b ∈ [if r.dst.fam ≠ 0 then r.dst.fam else r.family, r.gw.fam, r.srcIp.fam], a ≠ 0 ∧ b ≠ 0 ∧ a ≠ b := by
    intro r
    unfold family
    generalize (if r.dst.fam ≠ 0 then r.dst.fam else r.family) = x
    by_cases b : r.gw.fam = 0
    · by_cases c : r.srcIp.fam = 0
      · simp [b, c]
      · by_cases d : x = 0
        · simp [b, c, d]
        · by_cases e : x = r.srcIp.fam
          · simp [b, ← e]
          · simp [b, c, d, e]
    · by_cases d : x = 0
      · by_cases c : r.srcIp.fam = 0
        · simp [b, c, d]
        · by_cases e : r.gw.fam = r.srcIp.fam
          · simp [b, d, ← e]
          · simp [b, c, d, e]
      · by_cases e : x = r.gw.fam
        · by_cases c : r.srcIp.fam = 0
          · simp [c, d, ← e]
          · by_cases g : x = r.srcIp.fam
            · simp [← e, ← g, d]
            · simp [← e, d, c, g]
        · simp [b, d, e]
  have hg : ∀ r : Rt, family (withGateway r) = none ↔ family r = none := by
    intro r
    rw [hfam, hfam]
    unfold withGateway
    split
    · rename_i c
      have : r.dst.fam ≠ 0 := by have := c.2.1; simp only [INET] at this; omega
      simp [c.1, this]
    · exact Iff.rfl
  cases set with
  | true => simp only [request, if_true, Option.map_eq_none_iff, hb, hg, hfam]; rfl
  | false =>
    simp only [request, Bool.false_eq_true, if_false, Option.map_eq_none_iff, hb, hg, hfam]
    by_cases d : r.dst.fam = 0 <;> simp [forRemoval, none', d]

/-- a source prefix of an IPv4 route is left out: a route for packets from some sources becomes a route for all -/
theorem C191_source_counterexample (r : Rt) (set similar : Bool) (h : r.src.fam = 2) : request r set similar = request { r with src := ⟨0, List.replicate 16 0, 0⟩ } set similar := by
  have hb : ∀ (r : Rt) s, r.src.fam = 2 → build r s = build { r with src := ⟨0, List.replicate 16 0, 0⟩ } s := by
    intro r s h
    have h1 : specific r = false := by simp [specific, h, INET6]
    have h2 : specific { r with src := ⟨0, List.replicate 16 0, 0⟩ } = false := by simp [specific, INET6]
    unfold build attributes rtmsg
    rw [h1, h2]
    rfl
  have hw : ∀ r : Rt, withGateway { r with src := ⟨0, List.replicate 16 0, 0⟩ } = { withGateway r with src := ⟨0, List.replicate 16 0, 0⟩ } := by
    intro r; unfold withGateway; simp only; split <;> rfl
  have hs : ∀ r : Rt, (withGateway r).src = r.src := by intro r; unfold withGateway; split <;> rfl
  cases set with
  | true => simp only [request, if_true]; rw [hb _ _ (by rw [hs]; exact h), hw]
  | false =>
    simp only [request, Bool.false_eq_true, if_false]
    rw [hb _ _ (by rw [hs]; exact h), ← hw]
    rfl

/-- an IPv6 source prefix for an IPv4 destination is not refused: the message of family 2 has a source with 16 bytes -/
theorem C191_mixed_counterexample : ∃ r : Rt, r.dst.fam = 2 ∧ r.src.fam = 10 ∧ ∃ m, request r true true = some m ∧ byte m.bytes 16 = 2 ∧
    (2, r.src.addr) ∈ readAttrs (m.bytes.drop 28) ∧ r.src.addr.length = 16 :=
  ⟨{ dst := ⟨2, [10, 0, 0, 0] ++ zeros 12, 8⟩, src := ⟨10, 0x20 :: zeros 15, 64⟩ }, rfl, rfl, _, rfl, by decide +kernel, by decide +kernel, by decide +kernel⟩

def sample : Rt := { type := 0, dst := ⟨2, [10, 0, 0, 7] ++ zeros 12, 32⟩, srcIp := ⟨2, [10, 0, 0, 1] ++ zeros 12, 32⟩, metric := 2, table := 254, protocol := 100, ifIndex := 3 }
example : Good 2 sample where
  fam := .inl rfl
  family := .inl rfl
  known := .inl rfl
  dst := ⟨.inr (.inl (by decide)), .inr rfl⟩
  src := ⟨.inl rfl, .inl rfl⟩
  gw := ⟨⟨.inl rfl, by decide, by decide⟩, .inl rfl⟩
  srcIp := ⟨⟨.inr (.inl (by decide)), by decide, by decide⟩, .inr rfl⟩
  type := by decide
  metric := by decide
  table := by decide
  protocol := by decide
  ifIndex := by decide
example : (request sample true true).map (fun m => parse m.bytes) = some (.route { sample with family := 2, type := 1, gw := sample.dst }) := by decide +kernel
example : (request sample false true).map (fun m => parse m.bytes) = some (.route { sample with family := 2, type := 1, gw := sample.dst, protocol := 0, srcIp := none', ifIndex := 0 }) := by decide +kernel
example : request { sample with gw := ⟨10, zeros 16, 128⟩ } true true = none := by decide +kernel

/-! ## C192 -/

/-- a route passes a filter if it has every value that the filter gives; with a metric and a source prefix a filter may also ask for -/
theorem C192_filter (f r : Rt) : matches' f r = true ↔
    (f.family = 0 ∨ r.family = f.family) ∧ (f.type = 0 ∨ r.type = f.type) ∧ (f.dst.fam = 0 ∨ r.dst = f.dst) ∧ (f.src.fam = 0 ∨ r.src = f.src) ∧ (f.gw.fam = 0 ∨ r.gw = f.gw) ∧
    (f.srcIp.fam = 0 ∨ r.srcIp = f.srcIp) ∧ (f.metric = 4294967295 ∨ r.metric = f.metric) ∧ (f.table = 0 ∨ r.table = f.table) ∧ (f.protocol = 0 ∨ r.protocol = f.protocol) ∧
    (f.ifIndex = 0 ∨ r.ifIndex = f.ifIndex) := by
  unfold matches' NOMETRIC
  have key : ∀ (c : Prop) [Decidable c] (b : Bool), (if c then false else b) = true ↔ ¬ c ∧ b = true := by
    intro c _ b; by_cases h : c <;> simp [h]
  simp only [key, Bool.or_eq_true, decide_eq_true_eq]
  have e : ∀ (p : Prop) {α : Type} (a b : α), ¬ (¬ p ∧ a ≠ b) ↔ (p ∨ b = a) := by
    intro p α a b
    constructor
    · intro h
      by_cases hp : p
      · exact .inl hp
      · exact .inr (Classical.byContradiction fun hn => h ⟨hp, fun x => hn x.symm⟩)
    · rintro (h | h) ⟨h1, h2⟩
      · exact h1 h
      · exact h2 h.symm
  simp only [ne_eq] at e ⊢
  simp only [e]
  constructor
  · rintro ⟨h1, h2, h3, h4, h5, h6, h7, h8, h9, h10⟩
    exact ⟨h1, h3, h5, h6, h4, h2, h7, h8, h9, h10.imp id Eq.symm⟩
  · rintro ⟨h1, h3, h5, h6, h4, h2, h7, h8, h9, h10⟩
    exact ⟨h1, h2, h3, h4, h5, h6, h7, h8, h9, h10.imp id Eq.symm⟩

/-- a filter for a route finds this route in the answer of the kernel, provided its gateway and source prefix are not rewritten -/
theorem C192_own {F : Nat} {r : Rt} (h : Good F r) (m : Msg) (hm : request r true true = some m)
    (ht : r.type ≠ 0) (hd : r.dst.fam ≠ 0) (hs : r.src.fam ≠ 0 → r.src.fam = 10 ∧ r.src.plen ≠ 0) (hg : r.gw.fam ≠ 0) : ∃ k, parse m.bytes = .route k ∧ matches' r k = true := by
  obtain ⟨m', h1, _, _, _, h5⟩ := C191_set h true
  rw [hm] at h1
  cases h1
  refine ⟨_, h5, ?_⟩
  rw [C192_filter]
  refine ⟨?_, .inr ?_, .inr ?_, ?_, .inr ?_, .inr rfl, .inr rfl, .inr rfl, .inr rfl, .inr rfl⟩
  · exact h.family.imp id Eq.symm
  · simp [meant, ht]
  · simp [meant, hd]
  · by_cases c : r.src.fam = 0
    · exact .inl c
    · right; simp [meant, hs c]
  · simp [meant, hg]

/-- the wildcard route of `os_routing_linux_init_wildcard_route` passes all routes -/
theorem C192_wildcard (r : Rt) : matches' {} r = true := by
  rw [C192_filter]
  exact ⟨.inl rfl, .inl rfl, .inl rfl, .inl rfl, .inl rfl, .inl rfl, .inl rfl, .inl rfl, .inl rfl, .inl rfl⟩

/-- a filter with the key of a route without source prefix, as made by `os_routing_init_sourcespec_prefix` (the source is 0/0 there), finds no
route without source prefix in the answers of the kernel: these are parsed with an unspecified source -/
theorem C192_anysource_counterexample {F : Nat} {r : Rt} (h : Good F r) (hs : r.src.plen = 0) (m : Msg) (hm : request r true true = some m) (f : Rt) (hf : f.src = ⟨F, List.replicate 16 0, 0⟩)
    (k : Rt) (hk : parse m.bytes = .route k) : matches' f k = false := by
  obtain ⟨m', h1, _, _, _, h5⟩ := C191_set h true
  rw [hm] at h1
  cases h1
  rw [h5] at hk
  cases hk
  apply Bool.eq_false_iff.2
  rw [ne_eq, C192_filter]
  rintro ⟨_, _, _, h6, _⟩
  rw [hf] at h6
  have := h.fam
  rcases h6 with h6 | h6
  · simp only at h6; omega
  · simp [meant, hs] at h6; omega

def other : Rt := { sample with type := 1, gw := sample.dst }
example : matches' { dst := sample.dst, table := 254 } { other with family := 2 } = true ∧ matches' { dst := sample.dst, table := 253 } { other with family := 2 } = false := by decide +kernel
example : (request sample true true).map (fun m => match parse m.bytes with | .route k => matches' { dst := sample.dst, src := ⟨2, zeros 16, 0⟩ } k | _ => true) = some false := by decide +kernel
example : (request other true true).map (fun m => match parse m.bytes with | .route k => matches' other k | _ => false) = some true := by decide +kernel

end Verif.RtNl
