import Verif.Writer.Target
import Verif.Writer.Message

/-! The buffer of TLVs and the packets of a target. -/
namespace Verif.Writer
open Verif.Reader (Bytes)

/-- `n` bytes from position `i` -/
def slice (b : Bytes) (i n : Nat) : Bytes := (b.drop i).take n

theorem slice_length {b : Bytes} {i n : Nat} (h : i + n ≤ b.length) : (slice b i n).length = n := by
  unfold slice
  rw [List.length_take, List.length_drop]
  omega

theorem slice_add (b : Bytes) (i n m : Nat) : slice b i (n + m) = slice b i n ++ slice b (i + n) m := by
  unfold slice
  rw [List.take_add, List.drop_drop]

theorem slice_zero (b : Bytes) (i : Nat) : slice b i 0 = [] := by simp [slice]

theorem store_ok {b src : Bytes} {off : Nat} (h : off + src.length ≤ b.length) : ∃ b', store b off src = some b' := by
  unfold store
  rw [if_pos h]
  exact ⟨_, rfl⟩

theorem store_spec {b b' src : Bytes} {off : Nat} (h : store b off src = some b') :
    b'.length = b.length ∧ slice b' off src.length = src ∧
    (∀ i n, i + n ≤ off → slice b' i n = slice b i n) ∧ (∀ i n, off + src.length ≤ i → slice b' i n = slice b i n) := by
  unfold store at h
  split at h
  · rename_i hl
    cases h
    refine ⟨?_, ?_, ?_, ?_⟩
    · simp only [List.length_append, List.length_take, List.length_drop]
      omega
    · unfold slice
      rw [List.append_assoc, List.drop_append_of_le_length (by rw [List.length_take]; omega), List.drop_eq_nil_of_le (by rw [List.length_take]; omega),
        List.nil_append, List.take_left]
    · intro i n hi
      unfold slice
      rw [List.append_assoc, List.drop_append_of_le_length (by rw [List.length_take]; omega),
        List.take_append_of_le_length (by rw [List.length_drop, List.length_take]; omega), List.drop_take, List.take_take]
      congr 1
      omega
    · intro i n hi
      unfold slice
      have h1 : (b.take off ++ src).length = off + src.length := by
        rw [List.length_append, List.length_take]
        omega
      rw [List.drop_append, h1, List.drop_eq_nil_of_le (by omega), List.nil_append, List.drop_drop]
      congr 2
      omega
  · cases h

theorem encTlvs_append (a b : List ATlv) : writeMsgTlvs (a ++ b) = writeMsgTlvs a ++ writeMsgTlvs b := by
  simp [writeMsgTlvs, List.flatMap_append]

theorem encTlvs_one (t : ATlv) : writeMsgTlvs [t] = writeTlv t.type t.ext 0 255 t.value := by
  simp [writeMsgTlvs]

/-- a buffer with the TLVs `as` added and `ss` set -/
structure DInv (d : Data) (as ss : List ATlv) : Prop where
  buf : d.buffer.length = d.max
  fits : d.header + d.added + d.allocated ≤ d.max
  set_le : d.set ≤ d.allocated
  added : d.added = (writeMsgTlvs as).length
  set : d.set = (writeMsgTlvs ss).length
  content : slice d.buffer d.header (d.added + d.set) = writeMsgTlvs (as ++ ss)

/-- TLVs added: in the buffer, or refused without any change -/
theorem add_spec {d : Data} {as : List ATlv} (h : DInv d as []) (t : ATlv) :
    ∃ r d', add d t.type t.ext t.value = some (r, d') ∧ d'.header = d.header ∧ d'.max = d.max ∧ d'.allocated = d.allocated ∧
      ((r = OKAY ∧ DInv d' (as ++ [t]) []) ∨ (r = MTU_TOO_SMALL ∧ d' = d)) := by
  unfold add
  dsimp only
  split
  · exact ⟨_, _, rfl, rfl, rfl, rfl, .inr ⟨rfl, rfl⟩⟩
  · rename_i hs
    have hw := writeTlv_length t.type t.ext t.value
    rw [← hw] at hs
    have hbuf := h.buf
    obtain ⟨b', hb⟩ := store_ok (b := d.buffer) (src := writeTlv t.type t.ext 0 255 t.value) (off := d.header + d.added) (by omega)
    rw [hb]
    obtain ⟨s1, s2, s3, s4⟩ := store_spec hb
    refine ⟨_, _, rfl, rfl, rfl, rfl, .inl ⟨rfl, ?_⟩⟩
    have hset : d.set = 0 := by
      have := h.set
      simpa [writeMsgTlvs] using this
    refine ⟨by show b'.length = d.max; omega, ?_, h.set_le, ?_, h.set, ?_⟩
    · show d.header + (d.added + calcTlvSize _ _) + d.allocated ≤ d.max
      rw [← hw]
      omega
    · show d.added + calcTlvSize _ _ = _
      rw [encTlvs_append, List.length_append, encTlvs_one, hw, ← h.added]
    · show slice b' d.header (d.added + calcTlvSize _ _ + d.set) = _
      have hc := h.content
      rw [hset, Nat.add_zero, List.append_nil] at hc
      rw [← hw, hset, Nat.add_zero, slice_add, s3 _ _ (by omega), hc, s2, List.append_nil, encTlvs_append, encTlvs_one]

theorem allocate_spec {d : Data} {as : List ATlv} (h : DInv d as []) (e : Bool) (n : Nat) :
    (allocate d e n).2.header = d.header ∧ (allocate d e n).2.max = d.max ∧ DInv (allocate d e n).2 as [] := by
  unfold allocate
  dsimp only
  split
  · exact ⟨rfl, rfl, h⟩
  · refine ⟨rfl, rfl, h.buf, ?_, ?_, h.added, h.set, h.content⟩
    · show d.header + d.added + (d.allocated + calcTlvSize e n) ≤ d.max
      omega
    · show d.set ≤ d.allocated + calcTlvSize e n
      have := h.set_le
      omega

/-- TLVs set: in the buffer behind the others, or refused; the bytes behind the reserved space do not change -/
theorem set_spec {d : Data} {as ss : List ATlv} (h : DInv d as ss) (t : ATlv) :
    ∃ r d', setTlv d t.type t.ext t.value = some (r, d') ∧ d'.header = d.header ∧ d'.max = d.max ∧ d'.allocated = d.allocated ∧ d'.added = d.added ∧
      (∀ n, slice d'.buffer (d.header + d.added + d.allocated) n = slice d.buffer (d.header + d.added + d.allocated) n) ∧
      ((r = OKAY ∧ DInv d' as (ss ++ [t])) ∨ (r = MTU_TOO_SMALL ∧ d' = d)) := by
  unfold setTlv
  dsimp only
  split
  · exact ⟨_, _, rfl, rfl, rfl, rfl, rfl, fun _ => rfl, .inr ⟨rfl, rfl⟩⟩
  · rename_i hs
    have hw := writeTlv_length t.type t.ext t.value
    rw [← hw] at hs
    have hbuf := h.buf
    have hle := h.set_le
    have hf := h.fits
    obtain ⟨b', hb⟩ := store_ok (b := d.buffer) (src := writeTlv t.type t.ext 0 255 t.value) (off := d.header + d.added + d.set) (by omega)
    rw [hb]
    obtain ⟨s1, s2, s3, s4⟩ := store_spec hb
    refine ⟨_, _, rfl, rfl, rfl, rfl, rfl, fun n => s4 _ _ (by omega), .inl ⟨rfl, ?_⟩⟩
    refine ⟨by show b'.length = d.max; omega, hf, ?_, h.added, ?_, ?_⟩
    · show d.set + calcTlvSize _ _ ≤ d.allocated
      rw [← hw]
      omega
    · show d.set + calcTlvSize _ _ = _
      rw [encTlvs_append, List.length_append, encTlvs_one, hw, ← h.set]
    · show slice b' d.header (d.added + (d.set + calcTlvSize _ _)) = _
      have hc := h.content
      rw [← hw, ← Nat.add_assoc, slice_add, s3 _ _ (by omega), hc, ← Nat.add_assoc, s2, ← List.append_assoc, encTlvs_append (as ++ ss), encTlvs_one]

theorem setTlvs_spec : ∀ (l : List (UInt8 × UInt8 × Bytes)) {d : Data} {as ss : List ATlv}, DInv d as ss →
    ∃ d' ss', setTlvs d l = some d' ∧ d'.header = d.header ∧ d'.max = d.max ∧ d'.allocated = d.allocated ∧ d'.added = d.added ∧
      (∀ n, slice d'.buffer (d.header + d.added + d.allocated) n = slice d.buffer (d.header + d.added + d.allocated) n) ∧ DInv d' as ss'
  | [], d, as, ss, h => ⟨d, ss, rfl, rfl, rfl, rfl, rfl, fun _ => rfl, h⟩
  | (ty, e, v) :: l, d, as, ss, h => by
    obtain ⟨r, d', h1, h2, h3, h4, h5, h6, h7⟩ := set_spec h ⟨ty, e, v⟩
    unfold setTlvs
    rw [h1]
    dsimp only
    rcases h7 with ⟨_, h7⟩ | ⟨_, rfl⟩
    · obtain ⟨d'', ss', g1, g2, g3, g4, g5, g6, g7⟩ := setTlvs_spec l h7
      refine ⟨d'', ss', g1, by rw [g2, h2], by rw [g3, h3], by rw [g4, h4], by rw [g5, h5], fun n => ?_, g7⟩
      rw [h2, h4, h5] at g6
      rw [g6, h6]
    · exact setTlvs_spec l h

theorem requests_spec : ∀ (l : List PktReq) {d : Data} {as : List ATlv}, DInv d as [] →
    ∃ d' as', requests d l = some d' ∧ d'.header = d.header ∧ d'.max = d.max ∧ DInv d' as' []
  | [], d, as, h => ⟨d, as, rfl, rfl, rfl, h⟩
  | .add ty e v :: l, d, as, h => by
    obtain ⟨r, d', h1, h2, h3, _, h4⟩ := add_spec h ⟨ty, e, v⟩
    have h1' : add d ty e v = some (r, d') := h1
    unfold requests request
    dsimp only
    rw [h1']
    dsimp only [Option.map_some]
    rcases h4 with ⟨_, h4⟩ | ⟨_, rfl⟩
    · obtain ⟨d'', as', g1, g2, g3, g4⟩ := requests_spec l h4
      exact ⟨d'', as', g1, by rw [g2, h2], by rw [g3, h3], g4⟩
    · exact requests_spec l h
  | .alloc e n :: l, d, as, h => by
    obtain ⟨h2, h3, h4⟩ := allocate_spec h e n
    unfold requests request
    dsimp only
    obtain ⟨d'', as', g1, g2, g3, g4⟩ := requests_spec l h4
    exact ⟨d'', as', g1, by rw [g2, h2], by rw [g3, h3], g4⟩

/-- without reservations nothing is allocated -/
theorem requests_alloc : ∀ (l : List PktReq) {d d' : Data}, (∀ r ∈ l, ∃ ty e v, r = .add ty e v) → requests d l = some d' → d'.allocated = d.allocated
  | [], d, d', _, h => by cases h; rfl
  | r :: l, d, d', hl, h => by
    obtain ⟨ty, e, v, rfl⟩ := hl r List.mem_cons_self
    unfold requests request at h
    dsimp only at h
    cases ha : add d ty e v with
    | none => rw [ha] at h; cases h
    | some x =>
      obtain ⟨c, d1⟩ := x
      rw [ha] at h
      dsimp only [Option.map_some] at h
      rw [requests_alloc l (fun r hr => hl r (List.mem_cons_of_mem _ hr)) h]
      unfold add at ha
      dsimp only at ha
      split at ha
      · cases ha; rfl
      · split at ha
        · cases ha
        · cases ha; rfl

/-! ### packets -/

/-- the bytes of a packet -/
def packetBytes (seqno : Option Nat) (tlvs : List ATlv) (msgs : Bytes) : Bytes :=
  pktHeader seqno (writeMsgTlvs tlvs).length ++ writeMsgTlvs tlvs ++ msgs

/-- a target with the bytes `q` queued -/
structure TInv (t : Target) (q : Bytes) : Prop where
  buf : t.pkt.buffer.length = t.size
  max : t.pkt.max = t.size
  msgs : t.msgs = q.length
  flushed : t.flushed = true → q = []
  header : t.flushed = false → t.pkt.header = if t.hasSeqno then 5 else 3
  tlvs : t.flushed = false → ∃ as, DInv t.pkt as []
  fits : t.flushed = false → t.pkt.header + t.pkt.added + t.pkt.allocated + t.msgs ≤ t.size
  content : t.flushed = false → slice t.pkt.buffer (t.pkt.header + t.pkt.added + t.pkt.allocated) t.msgs = q

theorem begin_spec {t : Target} (h : TInv t []) (hs : 5 ≤ t.size) (b : Begin) :
    ∃ t', beginPacket t b = some t' ∧ TInv t' [] ∧ t'.flushed = false ∧ t'.size = t.size ∧
      ((∀ r ∈ b.tlvs, ∃ ty e v, r = .add ty e v) → t'.pkt.allocated = 0) := by
  unfold beginPacket
  have hd : DInv { init t.pkt t.size with header := if b.seqno then 5 else 3 } [] [] := by
    refine ⟨h.buf, ?_, Nat.le_refl _, rfl, rfl, ?_⟩
    · show (if b.seqno then 5 else 3) + 0 + 0 ≤ t.size
      split <;> omega
    · show slice _ _ (0 + 0) = _
      exact slice_zero _ _
  obtain ⟨d', as', g1, g2, g3, g4⟩ := requests_spec b.tlvs hd
  rw [g1]
  refine ⟨_, rfl, ?_, rfl, rfl, ?_⟩
  · have hm : t.msgs = 0 := by simpa using h.msgs
    have g2' : d'.header = if b.seqno then 5 else 3 := g2
    have g3' : d'.max = t.size := g3
    refine ⟨by show d'.buffer.length = t.size; rw [g4.buf, g3'], g3', h.msgs, fun _ => rfl, fun _ => g2', fun _ => ⟨as', g4⟩, fun _ => ?_, fun _ => ?_⟩
    · show d'.header + d'.added + d'.allocated + t.msgs ≤ t.size
      have := g4.fits
      omega
    · show slice d'.buffer _ t.msgs = []
      rw [hm]
      exact slice_zero _ _
  · intro hr
    have := requests_alloc b.tlvs hr g1
    exact this

theorem pktHeader_length (s : Option Nat) (n : Nat) : (pktHeader s n).length = 1 + (if s.isSome then 2 else 0) + (if n > 0 then 2 else 0) := by
  unfold pktHeader seqBytes
  cases s <;> by_cases h : n > 0 <;> simp [h]

theorem finish_ok {t : Target} {q : Bytes} (h : TInv t q) (hf : t.flushed = false) (f : Finish) :
    ∃ t' p, finishPacket t f = some (t', p) ∧ TInv t' [] ∧ t'.flushed = true ∧ t'.size = t.size ∧ p.length ≤ t.size ∧
      ∃ tlvs, p = packetBytes (if t.hasSeqno then some f.seqno else none) tlvs q := by
  obtain ⟨as, hd⟩ := h.tlvs hf
  obtain ⟨d', ss, g1, g2, g3, g4, g5, g6, g7⟩ := setTlvs_spec f.tlvs hd
  have hh := h.header hf
  have hfit := h.fits hf
  have hc := h.content hf
  have hbuf := g7.buf
  rw [g3, h.max] at hbuf
  have hset := g7.set_le
  have hlen := pktHeader_length (if t.hasSeqno then some f.seqno else none) (d'.added + d'.set)
  have hsome : (if t.hasSeqno then some f.seqno else none).isSome = t.hasSeqno := by cases t.hasSeqno <;> rfl
  rw [hsome] at hlen
  have hle : (pktHeader (if t.hasSeqno then some f.seqno else none) (d'.added + d'.set)).length ≤ d'.header := by
    rw [hlen, g2, hh]
    cases t.hasSeqno <;> simp <;> split <;> omega
  unfold finishPacket
  rw [g1]
  dsimp only
  rw [← hlen]
  generalize hp : pktHeader (if t.hasSeqno then some f.seqno else none) (d'.added + d'.set) = ph at *
  obtain ⟨b1, hb1⟩ := store_ok (b := d'.buffer) (src := ph) (off := 0) (by omega)
  rw [hb1]
  dsimp only
  obtain ⟨s1, s2, s3, s4⟩ := store_spec hb1
  rw [g4] at *
  rw [if_neg (by omega)]
  have hq : slice b1 (d'.header + d'.added + t.pkt.allocated) t.msgs = q := by
    rw [s4 _ _ (by omega), g2, g5, g6, hc]
  have hq' : (b1.drop (d'.header + d'.added + t.pkt.allocated)).take t.msgs = q := hq
  rw [hq']
  have hm := h.msgs
  obtain ⟨b2, hb2⟩ := store_ok (b := b1) (src := q) (off := ph.length + d'.added + d'.set) (by omega)
  rw [hb2]
  obtain ⟨r1, r2, r3, r4⟩ := store_spec hb2
  refine ⟨_, _, rfl, ?_, rfl, rfl, ?_, as ++ ss, ?_⟩
  · refine ⟨by show b2.length = t.size; omega, by show d'.max = t.size; rw [g3, h.max], rfl, fun _ => rfl, fun h => ?_, fun h => ?_, fun h => ?_, fun h => ?_⟩ <;> cases h
  · rw [List.length_take]
    omega
  · have htl : (writeMsgTlvs (as ++ ss)).length = d'.added + d'.set := by
      rw [encTlvs_append, List.length_append, ← g7.added, ← g7.set]
    unfold packetBytes
    rw [htl, hp]
    have hsl : b2.take (ph.length + d'.added + d'.set + t.msgs) = slice b2 0 (ph.length + (d'.added + d'.set) + q.length) := by
      unfold slice
      rw [List.drop_zero, hm, Nat.add_assoc ph.length]
    rw [hsl, slice_add, slice_add]
    simp only [Nat.zero_add]
    rw [r3 0 ph.length (by omega), ← Nat.add_assoc ph.length, r2, r3 ph.length _ (by omega), s2]
    congr 2
    by_cases h0 : d'.added + d'.set = 0
    · rw [h0, slice_zero]
      exact (List.length_eq_zero_iff.1 (by omega)).symm
    · have : ph.length = d'.header := by
        rw [hlen, if_pos (show d'.added + d'.set > 0 by omega), g2, hh]
        cases t.hasSeqno <;> rfl
      rw [s4 _ _ (by omega), this, g7.content]

theorem append_ok {t : Target} {q m : Bytes} (h : TInv t q) (hf : t.flushed = false)
    (hfit : t.pkt.header + t.pkt.added + t.pkt.allocated + t.msgs + m.length ≤ t.size) :
    ∃ t', append t m = some t' ∧ TInv t' (q ++ m) ∧ t'.flushed = false ∧ t'.size = t.size ∧ t'.pkt.allocated = t.pkt.allocated := by
  have hb := h.buf
  obtain ⟨b', hb'⟩ := store_ok (b := t.pkt.buffer) (src := m) (off := t.pkt.header + t.pkt.added + t.pkt.allocated + t.msgs) (by omega)
  unfold append
  rw [hb']
  obtain ⟨s1, s2, s3, s4⟩ := store_spec hb'
  have hm := h.msgs
  refine ⟨_, rfl, ⟨by show b'.length = t.size; omega, h.max, by simp [hm], fun h' => ?_, fun _ => h.header hf, fun _ => ?_, fun _ => ?_, fun _ => ?_⟩, hf, rfl, rfl⟩
  · have h'' : t.flushed = true := h'
    rw [hf] at h''
    cases h''
  · obtain ⟨as, hd⟩ := h.tlvs hf
    have hset := hd.set_le
    refine ⟨as, by show b'.length = _; rw [s1]; exact hd.buf, hd.fits, hd.set_le, hd.added, hd.set, ?_⟩
    show slice b' t.pkt.header (t.pkt.added + t.pkt.set) = _
    rw [s3 _ _ (by omega), hd.content]
  · show t.pkt.header + t.pkt.added + t.pkt.allocated + (t.msgs + m.length) ≤ t.size
    omega
  · show slice b' (t.pkt.header + t.pkt.added + t.pkt.allocated) (t.msgs + m.length) = q ++ m
    rw [slice_add, s3 _ _ (by omega), h.content hf, s2]

/-! ### histories -/

theorem change_length (f : UInt8 → UInt8) (b : Bytes) (i : Option Nat) : (change f b i).length = b.length := by
  cases i <;> simp [change]

theorem forwardMsg_length {m m' : Bytes} (h : forwardMsg m = some m') : m'.length = m.length := by
  unfold forwardMsg at h
  dsimp only at h
  by_cases hs : expired m (hopFields m).1 = true
  · rw [if_pos hs] at h
    cases h
  · rw [if_neg hs] at h
    cases h
    rw [change_length, change_length, List.length_set, List.length_set]

/-- what happens to a target: a message is generated, a message is forwarded, the packet is flushed -/
inductive Ev
  | generate (m : Bytes) (b b' : Begin) (f : Finish)
  | forward (m : Bytes) (b : Begin) (f : Finish)
  | flush (force : Bool) (b : Begin) (f : Finish)

/-- an event, and the messages accepted by it -/
def step (t : Target) : Ev → Option (Target × List Bytes × List Bytes)
  | .generate m b b' f => (addMessage t m b b' f).map fun r => (r.1, r.2, [m])
  | .forward m b f => (forward t m b f).map fun r => (r.2.1, r.2.2, if r.1 = OKAY then (forwardMsg m).toList else [])
  | .flush force b f => (flush t force b f).map fun r => (r.1, r.2, [])

/-- a history: the target, the packets sent, the messages accepted -/
def runEvents : Target → List Ev → Option (Target × List Bytes × List Bytes)
  | t, [] => some (t, [], [])
  | t, e :: es =>
    match step t e with
    | none => none
    | some (t, sent, acc) => (runEvents t es).map fun r => (r.1, sent ++ r.2.1, acc ++ r.2.2)

/-- packets with the payloads `qs` -/
inductive Packets (size : Nat) : List Bytes → Bytes → Prop
  | nil : Packets size [] []
  | cons {p : Bytes} {ps : List Bytes} {q qs : Bytes} (seqno : Option Nat) (tlvs : List ATlv) :
    p = packetBytes seqno tlvs q → p.length ≤ size → Packets size ps qs → Packets size (p :: ps) (q ++ qs)

theorem Packets.one {size : Nat} {p q : Bytes} {seqno : Option Nat} {tlvs : List ATlv} (h : p = packetBytes seqno tlvs q) (hl : p.length ≤ size) :
    Packets size [p] q := by
  have := Packets.cons seqno tlvs h hl (Packets.nil (size := size))
  simpa using this

theorem Packets.append {size : Nat} {ps qs : List Bytes} {p q : Bytes} (h : Packets size ps p) (h' : Packets size qs q) : Packets size (ps ++ qs) (p ++ q) := by
  induction h with
  | nil => exact h'
  | cons s t h1 h2 _ ih =>
    rw [List.append_assoc]
    exact .cons s t h1 h2 ih

/-- no reservations -/
def Begin.plain (b : Begin) : Prop := ∀ r ∈ b.tlvs, ∃ ty e v, r = .add ty e v

/-- the requests need at most this many bytes -/
def PktReq.size : PktReq → Nat
  | .add _ e v => calcTlvSize (e ≠ 0) v.length
  | .alloc e n => calcTlvSize e n

def Begin.size (b : Begin) : Nat := 5 + (b.tlvs.map PktReq.size).sum

theorem requests_size : ∀ (l : List PktReq) {d d' : Data}, requests d l = some d' →
    d'.header = d.header ∧ d'.added + d'.allocated ≤ d.added + d.allocated + (l.map PktReq.size).sum
  | [], d, d', h => by cases h; exact ⟨rfl, by simp⟩
  | .add ty e v :: l, d, d', h => by
    unfold requests request at h
    dsimp only at h
    cases ha : add d ty e v with
    | none => rw [ha] at h; cases h
    | some x =>
      obtain ⟨c, d1⟩ := x
      rw [ha] at h
      dsimp only [Option.map_some] at h
      obtain ⟨h1, h2⟩ := requests_size l h
      have : d1.header = d.header ∧ d1.added + d1.allocated ≤ d.added + d.allocated + calcTlvSize (e ≠ 0) v.length := by
        unfold add at ha
        dsimp only at ha
        split at ha
        · cases ha
          exact ⟨rfl, by omega⟩
        · split at ha
          · cases ha
          · cases ha
            refine ⟨rfl, ?_⟩
            show d.added + calcTlvSize _ _ + d.allocated ≤ _
            omega
      refine ⟨by omega, ?_⟩
      rw [List.map_cons, List.sum_cons]
      show _ ≤ _ + (calcTlvSize (e ≠ 0) v.length + _)
      omega
  | .alloc e n :: l, d, d', h => by
    unfold requests request at h
    dsimp only at h
    obtain ⟨h1, h2⟩ := requests_size l h
    have : (allocate d e n).2.header = d.header ∧ (allocate d e n).2.added + (allocate d e n).2.allocated ≤ d.added + d.allocated + calcTlvSize e n := by
      unfold allocate
      dsimp only
      split
      · exact ⟨rfl, by show d.added + d.allocated ≤ _; omega⟩
      · refine ⟨rfl, ?_⟩
        show d.added + (d.allocated + calcTlvSize _ _) ≤ _
        omega
    refine ⟨by omega, ?_⟩
    rw [List.map_cons, List.sum_cons]
    show _ ≤ _ + (calcTlvSize e n + _)
    omega

theorem begin_size {t t' : Target} {b : Begin} (h : beginPacket t b = some t') : t'.pkt.header + t'.pkt.added + t'.pkt.allocated ≤ b.size := by
  unfold beginPacket at h
  split at h
  · cases h
  · rename_i d hd
    cases h
    obtain ⟨h1, h2⟩ := requests_size b.tlvs hd
    show d.header + d.added + d.allocated ≤ _
    have h1' : d.header = if b.seqno then 5 else 3 := h1
    have h2' : d.added + d.allocated ≤ 0 + 0 + (b.tlvs.map PktReq.size).sum := h2
    unfold Begin.size
    split at h1' <;> omega

/-- what is required of an event: generated messages fit into an empty packet; `plain`: no reservations -/
def Ev.Ok (size : Nat) (plain : Bool) : Ev → Prop
  | .generate m b b' _ => plain = true ∧ b.plain ∧ b'.plain ∧ b.size + m.length ≤ size ∧ b'.size + m.length ≤ size
  | .forward m b _ => (plain = true → b.plain) ∧ m.length ≤ MAX_MESSAGE_SIZE
  | .flush _ b _ => plain = true → b.plain

/-- invariant of a history -/
structure HInv (t : Target) (plain : Bool) (q : Bytes) : Prop where
  inv : TInv t q
  plain : plain = true → t.flushed = false → t.pkt.allocated = 0

theorem step_spec {t : Target} {plain : Bool} {q : Bytes} (h : HInv t plain q) (hs : 5 ≤ t.size) {e : Ev} (he : e.Ok t.size plain) :
    ∃ t' sent acc q' done, step t e = some (t', sent, acc) ∧ HInv t' plain q' ∧ t'.size = t.size ∧ Packets t.size sent done ∧ done ++ q' = q ++ acc.flatten := by
  cases e with
  | flush force b f =>
    unfold step flush
    dsimp only
    cases hf : t.flushed with
    | true =>
      have hq : q = [] := h.inv.flushed hf
      subst hq
      rw [if_pos rfl]
      cases force with
      | false =>
        exact ⟨t, [], [], [], [], rfl, h, rfl, .nil, rfl⟩
      | true =>
        rw [if_pos rfl]
        obtain ⟨t1, b1, b2, b3, b4, b5⟩ := begin_spec h.inv hs b
        rw [b1]
        dsimp only
        obtain ⟨t2, p, f1, f2, f3, f4, f5, tl, f6⟩ := finish_ok b2 b3 f
        rw [f1]
        refine ⟨t2, [p], [], [], [], rfl, ⟨f2, fun _ hc => ?_⟩, by rw [f4, b4], ?_, rfl⟩
        · rw [f3] at hc; cases hc
        · exact Packets.one f6 (by omega)
    | false =>
      rw [if_neg (by decide)]
      obtain ⟨t2, p, f1, f2, f3, f4, f5, tl, f6⟩ := finish_ok h.inv hf f
      rw [f1]
      refine ⟨t2, [p], [], [], q, rfl, ⟨f2, fun _ hc => ?_⟩, f4, Packets.one f6 f5, rfl⟩
      rw [f3] at hc; cases hc
  | generate m b b' f =>
    obtain ⟨hp, hb, hb', hl, hl'⟩ := he
    subst hp
    unfold step addMessage
    dsimp only
    have h0 : ∃ t0, (if t.flushed = true then beginPacket t b else some t) = some t0 ∧ HInv t0 true q ∧ t0.flushed = false ∧ t0.size = t.size := by
      cases hf : t.flushed with
      | true =>
        rw [if_pos rfl]
        have hq : q = [] := h.inv.flushed hf
        subst hq
        obtain ⟨t1, b1, b2, b3, b4, b5⟩ := begin_spec h.inv hs b
        exact ⟨t1, b1, ⟨b2, fun _ _ => b5 hb⟩, b3, b4⟩
      | false =>
        rw [if_neg (by decide)]
        exact ⟨t, rfl, h, hf, rfl⟩
    obtain ⟨t0, e0, i0, f0, s0⟩ := h0
    rw [e0]
    dsimp only
    have hal := i0.plain rfl f0
    obtain ⟨as, hd⟩ := i0.inv.tlvs f0
    have hset : t0.pkt.set = 0 := by have := hd.set_le; omega
    have hmx := i0.inv.max
    split
    · rename_i hover
      obtain ⟨t2, p, f1, f2, f3, f4, f5, tl, f6⟩ := finish_ok i0.inv f0 f
      rw [f1]
      dsimp only
      obtain ⟨t3, b1, b2, b3, b4, b5⟩ := begin_spec f2 (by omega) b'
      rw [b1]
      dsimp only
      have hsz := begin_size b1
      have hm : t3.msgs = 0 := by simpa using b2.msgs
      obtain ⟨t4, a1, a2, a3, a4, a5⟩ := append_ok b2 b3 (m := m) (by omega)
      rw [a1]
      refine ⟨t4, [p], [m], m, q, rfl, ⟨by simpa using a2, fun _ _ => by rw [a5]; exact b5 hb'⟩, by omega, Packets.one f6 (by omega), by simp⟩
    · rename_i hover
      obtain ⟨t4, a1, a2, a3, a4, a5⟩ := append_ok i0.inv f0 (m := m) (by omega)
      rw [a1]
      exact ⟨t4, [], [m], q ++ m, [], rfl, ⟨a2, fun _ _ => by rw [a5]; exact hal⟩, by omega, .nil, by simp⟩
  | forward m b f =>
    unfold step forward makeRoom
    dsimp only
    have h0 : ∃ t0 sent q' done, (if (!t.flushed && decide (m.length > room t)) = true then (finishPacket t f).map fun r => (r.1, [r.2]) else some (t, [])) = some (t0, sent) ∧
        HInv t0 plain q' ∧ t0.size = t.size ∧ Packets t.size sent done ∧ done ++ q' = q := by
      split
      · rename_i hc
        have hf : t.flushed = false := by
          cases hh : t.flushed with
          | true => rw [hh] at hc; simp at hc
          | false => rfl
        obtain ⟨t2, p, f1, f2, f3, f4, f5, tl, f6⟩ := finish_ok h.inv hf f
        rw [f1]
        refine ⟨t2, [p], [], q, rfl, ⟨f2, fun _ hc => ?_⟩, f4, Packets.one f6 f5, by simp⟩
        rw [f3] at hc; cases hc
      · exact ⟨t, [], q, [], rfl, h, rfl, .nil, rfl⟩
    obtain ⟨t0, sent, q', done, e0, i0, s0, p0, d0⟩ := h0
    rw [e0]
    dsimp only
    have h1 : ∃ t1, (if t0.flushed = true then beginPacket t0 b else some t0) = some t1 ∧ HInv t1 plain q' ∧ t1.flushed = false ∧ t1.size = t.size := by
      cases hf : t0.flushed with
      | true =>
        rw [if_pos rfl]
        have hq : q' = [] := i0.inv.flushed hf
        subst hq
        obtain ⟨t1, b1, b2, b3, b4, b5⟩ := begin_spec i0.inv (by omega) b
        exact ⟨t1, b1, ⟨b2, fun hp _ => b5 (he.1 hp)⟩, b3, by omega⟩
      | false =>
        rw [if_neg (by decide)]
        exact ⟨t0, rfl, i0, hf, s0⟩
    obtain ⟨t1, e1, i1, f1, s1⟩ := h1
    rw [e1]
    dsimp only
    by_cases hr : m.length ≤ room t1
    · rw [decide_eq_true hr]
      dsimp only
      rw [if_neg (by have := he.2; omega)]
      cases hm : forwardMsg m with
      | none => exact ⟨t1, sent, [], q', done, rfl, i1, s1, p0, by simp [d0]⟩
      | some m' =>
        dsimp only
        have hl := forwardMsg_length hm
        have hfit := i1.inv.fits f1
        have hmx := i1.inv.max
        unfold room at hr
        obtain ⟨t4, a1, a2, a3, a4, a5⟩ := append_ok i1.inv f1 (m := m') (by omega)
        rw [a1]
        exact ⟨t4, sent, [m'], q' ++ m', done, rfl, ⟨a2, fun hp _ => by rw [a5]; exact i1.plain hp f1⟩, by omega, p0, by simp [← d0]⟩
    · rw [decide_eq_false hr]
      exact ⟨t1, sent, [], q', done, rfl, i1, s1, p0, by simp [d0]⟩

theorem events_spec : ∀ (es : List Ev) {t : Target} {plain : Bool} {q : Bytes}, HInv t plain q → 5 ≤ t.size → (∀ e ∈ es, e.Ok t.size plain) →
    ∃ t' sent acc q' done, runEvents t es = some (t', sent, acc) ∧ HInv t' plain q' ∧ t'.size = t.size ∧ Packets t.size sent done ∧ done ++ q' = q ++ acc.flatten
  | [], t, plain, q, h, _, _ => ⟨t, [], [], q, [], rfl, h, rfl, .nil, by simp⟩
  | e :: es, t, plain, q, h, hs, he => by
    obtain ⟨t1, s1, a1, q1, d1, h1, h2, h3, h4, h5⟩ := step_spec h hs (he e List.mem_cons_self)
    obtain ⟨t2, s2, a2, q2, d2, g1, g2, g3, g4, g5⟩ := events_spec es h2 (by omega) (by
      intro e' he'
      rw [h3]
      exact he e' (List.mem_cons_of_mem _ he'))
    unfold runEvents
    rw [h1]
    dsimp only
    rw [g1]
    refine ⟨t2, s1 ++ s2, a1 ++ a2, q2, d1 ++ d2, rfl, g2, by omega, h4.append (by rw [← h3]; exact g4), ?_⟩
    rw [List.append_assoc, g5, ← List.append_assoc, h5, List.flatten_append, List.append_assoc]

theorem new_inv (buffer : Bytes) (plain : Bool) : HInv (Target.new buffer) plain [] := by
  refine ⟨⟨rfl, rfl, rfl, fun _ => rfl, fun h => ?_, fun h => ?_, fun h => ?_, fun h => ?_⟩, fun _ h => ?_⟩ <;> cases h

end Verif.Writer
