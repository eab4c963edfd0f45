import Verif.Dlep.TlvsLemmas
import Verif.Dlep.SessionLemmas
import Verif.Dlep.Props

/-! # C139, C140: written signals and the values of TLVs -/

namespace Verif.Dlep

open Spec Verif.Netaddr

/-! ### C139: signals -/

/-- several calls of `dlep_writer_add_tlv` -/
def addAll (w : Writer) : List Item → Option Writer
  | [] => some w
  | i :: l => (addTlv w i.1 i.2 i.2.length).bind fun w => addAll w l

theorem addAll_out (items : List Item) : ∀ w : Writer, (∀ i ∈ items, i.1 < 65536 ∧ i.2.length < 65536) →
    addAll w items = some { w with out := w.out ++ encode items } := by
  induction items with
  | nil => intro w _; simp [addAll, encode]
  | cons i l ih =>
    intro w h
    have hi := h i (by simp)
    simp only [addAll]
    rw [addTlv_one w hi.1 hi.2]
    simp only [Option.bind_some]
    rw [ih _ fun x hx => h x (by simp [hx])]
    simp [encode_cons]

theorem finish_out (w : Writer) (t : Nat) (ht : t < 65536) (b : Bytes) (hb : b.length < 65536) :
    let w1 := startSignal w t
    finishSignal { w1 with out := w1.out ++ b } = ({ w1 with out := w.out ++ (be16 t ++ be16 b.length ++ b) }, true) := by
  simp only [startSignal, finishSignal, Nat.mod_eq_of_lt ht]
  have hl : (w.out ++ be16 t ++ [0, 0] ++ b).length - w.out.length = 4 + b.length := by
    simp only [List.length_append, be16_length, List.length_cons, List.length_nil]; omega
  rw [hl, if_neg (by omega)]
  have e1 : (w.out ++ be16 t ++ [0, 0] ++ b).take (w.out.length + 2) = w.out ++ be16 t := by
    rw [List.append_assoc, List.take_append_of_le_length (by simp [be16_length])]
    exact List.take_of_length_le (by simp [be16_length])
  have e2 : (w.out ++ be16 t ++ [0, 0] ++ b).drop (w.out.length + 4) = b := by
    have : w.out.length + 4 = (w.out ++ be16 t ++ [0, 0]).length := by simp [be16_length]
    rw [this, List.drop_left]
  rw [e1, e2]
  have : (4 + b.length - 4) % 65536 = b.length := by omega
  rw [this]
  simp

theorem frames_one {t : Nat} {p : Bytes} (ht : t < 65536) (hp : p.length < 65536) :
    Frames (be16 t ++ be16 p.length ++ p) [(t, p)] [] := by
  have := Frames.cons ht hp (.rest (s := []) (.inl (by simp)))
  simpa using this

/-- A signal with TLVs which fit into 65535 bytes is written as one message behind what the buffer held before: the
receiver of the stream finds exactly this message. -/
theorem C139_signal (w : Writer) (t : Nat) (ht : t < 65536) (items : List Item)
    (hi : ∀ i ∈ items, i.1 < 65536 ∧ i.2.length < 65536) (hl : (encode items).length < 65536) :
    ∃ w1 w2, addAll (startSignal w t) items = some w1 ∧ finishSignal w1 = (w2, true) ∧
      ∃ m, w2.out = w.out ++ m ∧ Frames m [(t, encode items)] [] := by
  refine ⟨_, _, addAll_out items _ hi, finish_out w t ht _ hl, _, rfl, ?_⟩
  exact frames_one ht hl

/-- If a parser knows the TLVs of the message, it finds exactly the written values. -/
theorem C139_received (w : Writer) (t : Nat) (ht : t < 65536) (items : List Item) (p : Parser)
    (hw : p.maxCount ≤ p.alloc) (nd : ((tableOf p).map Prod.fst).Nodup) (hi : ∀ i ∈ items, Allowed (tableOf p) i)
    (hl : (encode items).length < 65536) :
    ∃ w1 w2 m payload q, addAll (startSignal w t) items = some w1 ∧ finishSignal w1 = (w2, true) ∧
      w2.out = w.out ++ m ∧ Frames m [(t, payload)] [] ∧
      parseStream (fun _ => true) payload payload.length p = .ok q ∧
      ∀ type, (valuesOf q type).map (bytesOf payload) = (Spec.valuesOf items type).map some := by
  obtain ⟨w1, w2, h1, h2, m, h3, h4⟩ := C139_signal w t ht items (fun i h => ⟨(hi i h).1, (hi i h).2.1⟩) hl
  have ha : (encode items).take (encode items).length = encode items := List.take_length
  obtain ⟨q, hq⟩ := (C136_accepts (encode items) (encode items).length p hw nd (Nat.le_refl _) hl).mpr ⟨items, ha, hi⟩
  exact ⟨w1, w2, m, encode items, q, h1, h2, h3, h4, hq,
    C136_values _ _ _ p q hw nd (Nat.le_refl _) hl hq items ha hi⟩

example : (addAll (startSignal ⟨[9], 0, 0⟩ 3) [(1, [5, 6]), (7, [])]).map finishSignal =
    some (⟨[9, 0, 3, 0, 10, 0, 1, 0, 2, 5, 6, 0, 7, 0, 0], 3, 1⟩, true) := by
  decide +kernel

example : ∀ i ∈ [((1 : Nat), ([5, 6] : Bytes)), (7, [])], Allowed (tableOf sampleParser) i := by
  intro i h
  simp only [List.mem_cons, List.not_mem_nil, or_false] at h
  rcases h with rfl | rfl
  · exact ⟨by decide, by decide, (1, 1, 4), by decide, by decide⟩
  · exact ⟨by decide, by decide, (7, 0, 65535), by decide, by decide⟩

theorem frames_items (items : List Item) (hi : ∀ i ∈ items, i.1 < 65536 ∧ i.2.length < 65536) :
    Frames (encode items) items [] := by
  induction items with
  | nil => exact .rest (.inl (by simp [encode]))
  | cons i l ih =>
    have h := hi i (by simp)
    have := Frames.cons h.1 h.2 (ih fun x hx => hi x (by simp [hx]))
    rw [encode_cons, one]
    exact this

/-- A signal which is too long is reported as an error, but its bytes stay in the buffer: the peer reads an empty
message of this type, and every TLV as a message of its own. -/
theorem C139_oversize_counterexample (w : Writer) (t : Nat) (ht : t < 65536) (items : List Item)
    (hi : ∀ i ∈ items, i.1 < 65536 ∧ i.2.length < 65536) (hl : 65535 < (encode items).length) :
    ∃ w1, addAll (startSignal w t) items = some w1 ∧ finishSignal w1 = (w1, false) ∧
      ∃ m, w1.out = w.out ++ m ∧ Frames m ((t, []) :: items) [] := by
  refine ⟨_, addAll_out items _ hi, ?_, be16 t ++ [0, 0] ++ encode items, ?_, ?_⟩
  · unfold finishSignal
    refine if_pos ?_
    simp only [startSignal, List.length_append, be16_length, List.length_cons, List.length_nil]
    omega
  · simp [startSignal, Nat.mod_eq_of_lt ht]
  · have := Frames.cons (p := []) ht (by simp) (frames_items items hi)
    simpa [be16] using this

example : 65535 < (encode [(1, List.replicate 65535 0)]).length := by
  rw [encode, List.flatMap_cons, List.length_append, one_length]
  simp only [List.length_replicate]
  omega

/-! ### C140: values -/

/-- The heartbeat interval arrives, if it is less than 2^32 milliseconds. -/
theorem C140_heartbeat_partial (w : Writer) (interval : Nat) (h : interval < 2 ^ 32) :
    ∃ v, addHeartbeat w interval = some { w with out := w.out ++ one (5, v) } ∧ v.length = 4 ∧
      readHeartbeat v = .ok interval := by
  refine ⟨_, addTlv_eq w (by decide) (by decide) (beN_length _ _), beN_length _ _, ?_⟩
  simp only [readHeartbeat]
  rw [cut_all (beN_length _ _)]
  simp only
  rw [beNum_beN]
  congr 1
  omega

/-- A longer interval is shortened: 2^32 milliseconds are announced as 0. -/
theorem C140_heartbeat_counterexample (w : Writer) :
    ∃ v, addHeartbeat w (2 ^ 32) = some { w with out := w.out ++ one (5, v) } ∧ readHeartbeat v = .ok 0 := by
  refine ⟨_, addTlv_eq w (by decide) (by decide) (beN_length _ _), by decide +kernel⟩

/-- The length of link ids arrives. -/
theorem C140_lid_length (w : Writer) (n : Nat) (h : n < 2 ^ 16) :
    ∃ v, addLidLength w n = some { w with out := w.out ++ one (22, v) } ∧ v.length = 2 ∧ readLidLength v = .ok n := by
  refine ⟨_, addTlv_eq w (by decide) (by decide) (beN_length _ _), beN_length _ _, ?_⟩
  simp only [readLidLength]
  rw [cut_all (beN_length _ _)]
  simp only
  rw [beNum_beN]
  congr 1
  omega

example : (addLidLength ⟨[], 0, 0⟩ 300).map Writer.out = some [0, 22, 0, 2, 1, 44] := by decide +kernel

/-- A link id arrives; what the table allows fits into the array of the key. -/
theorem C140_lid (w : Writer) (lid : Bytes) (h : 1 ≤ lid.length ∧ lid.length ≤ 16) :
    addLid w lid = some { w with out := w.out ++ one (21, lid) } ∧ readLid lid = .ok lid := by
  refine ⟨addTlv_one w (by decide) (by omega), ?_⟩
  exact if_pos h.2

example : (1 : Nat) ≤ ([1, 2, 3] : Bytes).length ∧ ([1, 2, 3] : Bytes).length ≤ 16 := by decide

/-- A 64-bit number arrives … -/
theorem C140_uint64 (w : Writer) (n t : Nat) (h : n < 2 ^ 64) (ht : t < 65536) :
    ∃ v, addUint64 w n t = some { w with out := w.out ++ one (t, v) } ∧ v.length = 8 ∧ readUint64 v = .ok n := by
  refine ⟨_, addTlv_eq w ht (by decide) (beN_length _ _), beN_length _ _, ?_⟩
  simp only [readUint64]
  rw [cut_all (beN_length _ _)]
  simp only
  rw [beNum_beN]
  congr 1
  omega

example : (addUint64 ⟨[], 0, 0⟩ 513 12).map Writer.out = some [0, 12, 0, 8, 0, 0, 0, 0, 0, 0, 2, 1] := by decide +kernel

/-- … a signed one does not: 1 is read as 2^32, -1 as -2^32. -/
theorem C140_int64_counterexample (w : Writer) (t : Nat) (ht : t < 65536) :
    (∃ v, addInt64 w 1 t = some { w with out := w.out ++ one (t, v) } ∧ readInt64 v = .ok (2 ^ 32)) ∧
    (∃ v, addInt64 w (-1) t = some { w with out := w.out ++ one (t, v) } ∧ readInt64 v = .ok (-2 ^ 32)) :=
  ⟨⟨_, addTlv_eq w ht (by decide) (by decide +kernel), by decide +kernel⟩,
    ⟨_, addTlv_eq w ht (by decide) (by decide +kernel), by decide +kernel⟩⟩

/-- the numbers which fit into a signed number of `length` bytes -/
def Fits (length : Nat) (x : Int) : Prop := -(2 : Int) ^ (8 * length - 1) ≤ x ∧ x < 2 ^ (8 * length - 1)

/-- A metric arrives exactly if it fits into the signed number of the TLV. -/
theorem C140_metric (w : Writer) (t length : Nat) (x : Int) (ht : t < 65536)
    (hl : length = 1 ∨ length = 2 ∨ length = 4 ∨ length = 8) :
    ∃ v, addMetric w t length x = some { w with out := w.out ++ one (t, v) } ∧ v.length = length ∧
      (readMetric v = .ok x ↔ Fits length x) := by
  have hm : ∀ k : Nat, (k = 8 ∨ k = 4 ∨ k = 2 ∨ k = 1) → ∀ n : Nat, readMetric (beN k n) = .ok (signed k (n % 256 ^ k)) := by
    intro k hk n
    simp only [readMetric, beN_length]
    rw [if_pos hk, beNum_beN]
  refine ⟨beN length (x % (256 : Int) ^ length).toNat, ?_, beN_length _ _, ?_⟩
  · simp only [addMetric]
    rw [if_pos (by omega)]
    exact addTlv_eq w ht (by omega) (beN_length _ _)
  · rw [hm length (by omega)]
    simp only [R.ok.injEq, signed, Fits]
    rcases hl with rfl | rfl | rfl | rfl <;> simp only [Nat.reducePow, Int.reducePow, Nat.reduceMul, Nat.reduceSub] <;>
      split <;> omega

example : Fits 1 100 ∧ ¬ Fits 1 200 ∧ (addMetric ⟨[], 0, 0⟩ 18 1 200).map Writer.out = some [0, 18, 0, 1, 200] ∧
    readMetric [200] = .ok (-56) := by
  refine ⟨⟨by decide, by decide⟩, fun h => absurd h.2 (by decide), by decide +kernel, by decide +kernel⟩

/-- A metric TLV of any length which a table may allow is read without touching other memory, and a length other
than 1, 2, 4 and 8 is an error. -/
theorem C140_metric_read (v : Bytes) : readMetric v ≠ .fault ∧
    (readMetric v = .err ↔ v.length ≠ 1 ∧ v.length ≠ 2 ∧ v.length ≠ 4 ∧ v.length ≠ 8) := by
  simp only [readMetric]
  split
  · rename_i h
    exact ⟨nofun, by simp only [reduceCtorEq, false_iff]; omega⟩
  · rename_i h
    exact ⟨nofun, by simp only [true_iff]; omega⟩

/-- A status with its text arrives; a text which is too long for the buffer of the reader is cut, with a zero byte at
the end. -/
theorem C140_status (w : Writer) (status : Nat) (text : Bytes) (textLength : Nat) (hs : status < 256)
    (ht : text.length ≤ 65534) (hl : 0 < textLength) :
    ∃ v, addStatus w status text = some { w with out := w.out ++ one (1, v) } ∧ 1 ≤ v.length ∧ v.length ≤ 65535 ∧
      readStatus v textLength = .ok (status, some (text.take (textLength - 1) ++ [0])) := by
  have hb : status.toUInt8.toNat = status := by simp only [Nat.toUInt8, UInt8.toNat_ofNat']; omega
  refine ⟨status.toUInt8 :: text, ?_, by simp, by simp; omega, ?_⟩
  · simp only [addStatus]
    rw [if_neg (by omega)]
    exact addTlv2_one w (by decide) (by omega)
  · simp only [readStatus, hb, List.length_cons]
    cases text with
    | nil =>
      rw [if_neg (by simp), if_pos (by omega)]
      simp
    | cons x l =>
      rw [if_pos ⟨by simp, hl⟩]
      split
      · rename_i hc
        rw [List.take_of_length_le (by simp), List.take_of_length_le (by simp at hc ⊢; omega)]
      · rfl

example : readStatus [128, 65, 66, 67] 3 = .ok (128, some [65, 66, 0]) := by decide +kernel

/-- The writer refuses a text which does not fit into the TLV; reading never writes behind the buffer for the text. -/
theorem C140_status_limits (w : Writer) (status : Nat) (text : Bytes) (h : 65534 < text.length) (v : Bytes)
    (textLength : Nat) (hv : 1 ≤ v.length) : addStatus w status text = none ∧
    ∃ s t, readStatus v textLength = .ok (s, t) ∧ ∀ b, t = some b → b.length ≤ textLength := by
  refine ⟨by simp only [addStatus]; rw [if_pos h], ?_⟩
  cases v with
  | nil => simp at hv
  | cons s t =>
    simp only [readStatus]
    split
    · rename_i hc
      split
      · rename_i hd
        refine ⟨_, _, rfl, ?_⟩
        rintro b ⟨⟩
        simp at hd ⊢
        omega
      · refine ⟨_, _, rfl, ?_⟩
        rintro b ⟨⟩
        simp
        omega
    · split
      · refine ⟨_, _, rfl, ?_⟩
        rintro b ⟨⟩
        simp
        omega
      · exact ⟨_, _, rfl, nofun⟩

/-- A peer type with a text arrives, if the buffer of the reader has a place more than it needs. -/
theorem C140_peer_type_partial (w : Writer) (text : Bytes) (secured : Bool) (textLength : Nat)
    (ht : 1 ≤ text.length ∧ text.length ≤ 254) (hl : text.length + 1 < textLength) :
    ∃ v, addPeerType w text secured = some { w with out := w.out ++ one (4, v) } ∧ 1 ≤ v.length ∧ v.length ≤ 255 ∧
      readPeerType v textLength = .ok (secured, some (text ++ [0])) := by
  refine ⟨(if secured then 1 else 0) :: text, ?_, by simp, by simp; omega, ?_⟩
  · exact addTlv2_one w (by decide) (by omega)
  · simp only [readPeerType, List.length_cons]
    rw [if_pos ⟨by omega, by omega⟩, if_pos (by omega), List.take_of_length_le (by simp)]
    cases secured <;> simp

example : readPeerType [1, 65, 66] 4 = .ok (true, some [65, 66, 0]) := by decide +kernel

/-- A text which fits exactly loses its last letter, a buffer of one byte leads to a copy of almost all of the
memory, and without a text nothing is written into the buffer: the caller prints what was there before.  A text of
more than 254 letters is written, although no receiver accepts the TLV. -/
theorem C140_peer_type_counterexample (f : UInt8) (text : Bytes) (n : Nat) :
    (1 ≤ text.length → readPeerType (f :: text) (text.length + 1) =
      .ok (f &&& 1 ≠ 0, some (text.take (text.length - 1) ++ [0]))) ∧
    (1 ≤ text.length → readPeerType (f :: text) 1 = .fault) ∧
    readPeerType [f] n = .ok (f &&& 1 ≠ 0, none) ∧
    ∀ w : Writer, 254 < text.length → text.length < 65535 → ∃ v, addPeerType w text true =
      some { w with out := w.out ++ one (4, v) } ∧ 255 < v.length := by
  refine ⟨?_, ?_, ?_, ?_⟩
  · intro h
    simp only [readPeerType, List.length_cons]
    rw [if_pos ⟨by omega, by omega⟩, if_neg (by omega), if_neg (by omega)]
    rfl
  · intro h
    simp only [readPeerType, List.length_cons]
    rw [if_pos ⟨by omega, by omega⟩, if_neg (by omega), if_pos (by omega)]
  · simp [readPeerType]
  · intro w h h'
    exact ⟨1 :: text, addTlv2_one w (by decide) (by omega), by simp; omega⟩

/-- an address as every function of the library creates it: the bytes of its family, zero behind them -/
def Canonical (a : Netaddr) : Prop :=
  ∃ b : Bytes, b.length = maxPrefix a / 8 ∧ a.addr = b ++ List.replicate (16 - b.length) 0

theorem canonical_binary {a : Netaddr} (h : Canonical a) {n k : Nat} (hm : maxPrefix a / 8 = n) (h0 : 0 < n)
    (hk : n ≤ k) : ∃ b : Bytes, b.length = n ∧ a.addr = b ++ List.replicate (16 - n) 0 ∧ toBinary a k = some b := by
  obtain ⟨b, h1, h2⟩ := h
  have hs : maxPrefix a >>> 3 = n := by rw [Nat.shiftRight_eq_div_pow]; omega
  refine ⟨b, by omega, by rw [h2, h1, hm], ?_⟩
  simp only [toBinary, hs]
  rw [if_neg (by omega), h2, List.take_append_of_le_length (by omega), List.take_of_length_le (by omega)]

theorem from_binary {b : Bytes} {af p : UInt8} (hb : b.length ≤ 16) (haf : af ≠ 0) :
    fromBinaryPrefix b af p =
      .ok ⟨b ++ List.replicate (16 - b.length) 0, af, if p = 255 then UInt8.ofNat (b.length <<< 3) else p⟩ := by
  simp only [fromBinaryPrefix]
  rw [if_pos haf, if_neg (fun c => haf c.1), List.take_of_length_le (Nat.le_refl _), store_short hb]
  simp only
  rw [if_neg (show ¬ af = AF_UNSPEC from haf)]

/-- A MAC address of 6 or 8 bytes arrives. -/
theorem C140_mac (w : Writer) (mac : Netaddr) (hc : Canonical mac)
    (ht : (mac.type = AF_MAC48 ∧ mac.prefixLen = 48) ∨ (mac.type = AF_EUI64 ∧ mac.prefixLen = 64)) :
    ∃ v, addMac w mac = some { w with out := w.out ++ one (7, v) } ∧ 6 ≤ v.length ∧ v.length ≤ 8 ∧
      readMac v = .ok mac := by
  have key : ∀ n : Nat, maxPrefix mac / 8 = n → (n = 6 ∧ mac.type = AF_MAC48 ∧ mac.prefixLen = 48) ∨
      (n = 8 ∧ mac.type = AF_EUI64 ∧ mac.prefixLen = 64) → ∃ v, addMac w mac =
      some { w with out := w.out ++ one (7, v) } ∧ 6 ≤ v.length ∧ v.length ≤ 8 ∧ readMac v = .ok mac := by
    intro n hm hn
    obtain ⟨b, h1, h2, h3⟩ := canonical_binary hc (k := 8) hm (by omega) (by omega)
    have hs : maxPrefix mac >>> 3 = n := by rw [Nat.shiftRight_eq_div_pow]; omega
    refine ⟨b, ?_, by omega, by omega, ?_⟩
    · simp only [addMac]
      rw [if_pos (by rcases hn with h | h <;> simp [h]), h3, hs]
      exact addTlv_eq w (by decide) (by omega) h1
    · obtain ⟨addr, type, p⟩ := mac
      simp only at h2 hn
      simp only [readMac, fromBinaryPrefix, h1]
      rcases hn with ⟨rfl, rfl, rfl⟩ | ⟨rfl, rfl, rfl⟩
      · simp only [Nat.reduceEqDiff, if_false, if_true, ne_eq, not_true]
        rw [if_neg (by simp), List.take_of_length_le (by omega), store_short (by omega), h1, h2]
        simp [ofOut, AF_UNSPEC, AF_MAC48]
      · simp only [Nat.reduceEqDiff, if_false, if_true, ne_eq, not_true]
        rw [if_neg (by simp), List.take_of_length_le (by omega), store_short (by omega), h1, h2]
        simp [ofOut, AF_UNSPEC, AF_EUI64]
  rcases ht with ⟨h1, h2⟩ | ⟨h1, h2⟩
  · exact key 6 (by rw [maxPrefix, h1]; rfl) (.inl ⟨rfl, h1, h2⟩)
  · exact key 8 (by rw [maxPrefix, h1]; rfl) (.inr ⟨rfl, h1, h2⟩)

example : Canonical ⟨[2, 0, 0, 0, 0, 1, 0, 0, 0, 0, 0, 0, 0, 0, 0, 0], AF_MAC48, 48⟩ :=
  ⟨[2, 0, 0, 0, 0, 1], by decide +kernel, by decide +kernel⟩

/-- The table of the base protocol also lets a value of 7 bytes pass: it is an error of the reader. -/
theorem C140_mac_read (v : Bytes) (h : 6 ≤ v.length ∧ v.length ≤ 8) : readMac v ≠ .fault ∧
    (readMac v = .err ↔ v.length = 7) := by
  simp only [readMac, fromBinaryPrefix]
  have hl : v.length = 6 ∨ v.length = 7 ∨ v.length = 8 := by omega
  rcases hl with h | h | h <;> simp only [h, Nat.reduceEqDiff, if_false, if_true, ne_eq, not_true, not_false_eq_true] <;>
    (rw [if_neg (by simp), List.take_of_length_le (by omega), store_short (by omega)]) <;>
    simp [ofOut, AF_UNSPEC, AF_EUI64, AF_MAC48]

/-- the TLV for an address or a subnet -/
def ipType (ip : Netaddr) : Nat :=
  if ip.type = AF_INET then (if ip.prefixLen = 32 then 8 else 10) else (if ip.prefixLen = 128 then 9 else 11)

/-- the length which the table demands for the TLV (dlep ext_base_ip/ip.c:135-141) -/
def ipLength (type : Nat) : Nat := if type = 8 then 5 else if type = 9 then 17 else if type = 10 then 6 else 18

/-- An IP address or prefix, and whether it is added or removed, arrives. -/
theorem C140_ip (w : Writer) (ip : Netaddr) (add : Bool) (hc : Canonical ip)
    (ht : (ip.type = AF_INET ∧ ip.prefixLen ≤ 32) ∨ (ip.type = AF_INET6 ∧ ip.prefixLen ≤ 128)) :
    ∃ v, addIp w ip add = some { w with out := w.out ++ one (ipType ip, v) } ∧ v.length = ipLength (ipType ip) ∧
      readIp (ipType ip) v = .ok (ip, add) := by
  obtain ⟨addr, type, p⟩ := ip
  have hf : ((if add then (1 : UInt8) else 0) &&& 1 = 1) = (add = true) := by cases add <;> simp
  rcases ht with ⟨h1, h2⟩ | ⟨h1, h2⟩ <;> simp only at h1 h2 <;> subst h1
  · obtain ⟨b, b1, b2, b3⟩ := canonical_binary hc (n := 4) (k := 16) (show afMaxPrefix AF_INET / 8 = 4 by decide) (by decide) (by decide)
    simp only at b2
    have hlen : ∀ f : UInt8, (f :: b ++ [p]).length = 6 := by intro f; simp [b1]
    by_cases hp : p = 32
    · subst hp
      refine ⟨(if add then 1 else 0) :: b, ?_, ?_, ?_⟩
      · simp only [addIp, if_true, b3, Option.bind_some, ipType, ne_eq, not_true, if_false]
        rw [addTlv_take w (by decide) (by decide) (by rw [hlen]; decide)]
        have : ((if add then (1 : UInt8) else 0) :: b ++ [32]).take 5 = (if add then 1 else 0) :: b := by
          rw [List.take_append_of_le_length (by simp [b1]), List.take_of_length_le (by simp [b1])]
        rw [this]
      · simp [ipType, ipLength, b1]
      · have hcut : ∀ f : UInt8, cut (f :: b) 1 4 = some b := by
          intro f
          simp only [cut, List.length_cons, b1]
          rw [if_pos (by omega), List.drop_one, List.tail_cons, List.take_of_length_le (by omega)]
        simp only [readIp, ipType, if_true, hcut, List.getElem?_cons_zero]
        rw [from_binary (by omega) (by decide), b1, ← b2]
        simp [hf]
    · have hq : p ≠ 255 := by intro c; subst c; exact absurd h2 (by decide)
      refine ⟨(if add then 1 else 0) :: b ++ [p], ?_, ?_, ?_⟩
      · simp only [addIp, if_true, b3, Option.bind_some, ipType, ne_eq, hp, not_false_eq_true, if_false]
        exact addTlv_eq w (by decide) (by decide) (hlen _)
      · simp [ipType, ipLength, b1, hp]
      · have hcut : ∀ f : UInt8, cut (f :: b ++ [p]) 1 4 = some b := by
          intro f
          simp only [cut, hlen]
          rw [if_pos (by omega), List.cons_append, List.drop_one, List.tail_cons,
            List.take_append_of_le_length (by omega), List.take_of_length_le (by omega)]
        have h5 : ∀ f : UInt8, (f :: b ++ [p])[5]? = some p := by
          intro f
          rw [List.getElem?_append_right (by simp [b1])]
          simp [b1]
        have h0 : ∀ f : UInt8, (f :: b ++ [p])[0]? = some f := by intro f; simp
        simp only [readIp, ipType, if_true, hp, if_false, hcut, h5, h0, Nat.reduceEqDiff]
        rw [from_binary (by omega) (by decide), b1, ← b2, if_neg hq]
        simp [hf]
  · obtain ⟨b, b1, b2, b3⟩ := canonical_binary hc (n := 16) (k := 16) (show afMaxPrefix AF_INET6 / 8 = 16 by decide) (by decide) (by decide)
    simp only at b2
    have h64 : AF_INET6 ≠ AF_INET := by decide
    have hlen : ∀ f : UInt8, (f :: b ++ [p]).length = 18 := by intro f; simp [b1]
    by_cases hp : p = 128
    · subst hp
      refine ⟨(if add then 1 else 0) :: b, ?_, ?_, ?_⟩
      · simp only [addIp, if_true, b3, Option.bind_some, ipType, ne_eq, not_true, if_false, h64]
        rw [addTlv_take w (by decide) (by decide) (by rw [hlen]; decide)]
        have : ((if add then (1 : UInt8) else 0) :: b ++ [128]).take 17 = (if add then 1 else 0) :: b := by
          rw [List.take_append_of_le_length (by simp [b1]), List.take_of_length_le (by simp [b1])]
        rw [this]
      · simp [ipType, ipLength, b1, h64]
      · have hcut : ∀ f : UInt8, cut (f :: b) 1 16 = some b := by
          intro f
          simp only [cut, List.length_cons, b1]
          rw [if_pos (by omega), List.drop_one, List.tail_cons, List.take_of_length_le (by omega)]
        simp only [readIp, ipType, if_true, hcut, List.getElem?_cons_zero, h64, if_false, Nat.reduceEqDiff]
        rw [from_binary (by omega) (by decide), b1, ← b2]
        simp [hf]
    · have hq : p ≠ 255 := by intro c; subst c; exact absurd h2 (by decide)
      refine ⟨(if add then 1 else 0) :: b ++ [p], ?_, ?_, ?_⟩
      · simp only [addIp, if_true, b3, Option.bind_some, ipType, ne_eq, hp, not_false_eq_true, if_false, h64]
        exact addTlv_eq w (by decide) (by decide) (hlen _)
      · simp [ipType, ipLength, b1, hp, h64]
      · have hcut : ∀ f : UInt8, cut (f :: b ++ [p]) 1 16 = some b := by
          intro f
          simp only [cut, hlen]
          rw [if_pos (by omega), List.cons_append, List.drop_one, List.tail_cons,
            List.take_append_of_le_length (by omega), List.take_of_length_le (by omega)]
        have h5 : ∀ f : UInt8, (f :: b ++ [p])[17]? = some p := by
          intro f
          rw [List.getElem?_append_right (by simp [b1])]
          simp [b1]
        have h0 : ∀ f : UInt8, (f :: b ++ [p])[0]? = some f := by intro f; simp
        simp only [readIp, ipType, if_true, hp, if_false, hcut, h5, h0, h64, Nat.reduceEqDiff]
        rw [from_binary (by omega) (by decide), b1, ← b2, if_neg hq]
        simp [hf]

example : Canonical ⟨[10, 1, 0, 0, 0, 0, 0, 0, 0, 0, 0, 0, 0, 0, 0, 0], AF_INET, 16⟩ ∧
    (addIp ⟨[], 0, 0⟩ ⟨[10, 1, 0, 0, 0, 0, 0, 0, 0, 0, 0, 0, 0, 0, 0, 0], AF_INET, 16⟩ true).map Writer.out =
      some [0, 10, 0, 6, 1, 10, 1, 0, 0, 16] :=
  ⟨⟨[10, 1, 0, 0], by decide +kernel, by decide +kernel⟩, by decide +kernel⟩

/-- The readers stay inside of a value of the length which the table demands. -/
theorem C140_ip_read (type : Nat) (v : Bytes) (ht : type = 8 ∨ type = 9 ∨ type = 10 ∨ type = 11)
    (hl : v.length = ipLength type) : ∃ ip add, readIp type v = .ok (ip, add) := by
  have h0 : ∃ f, v[0]? = some f := by
    cases v with
    | nil => rcases ht with rfl | rfl | rfl | rfl <;> simp [ipLength] at hl
    | cons f _ => exact ⟨f, rfl⟩
  obtain ⟨f, hf⟩ := h0
  have hcut : ∀ n, 1 + n ≤ v.length → ∃ b : Bytes, b.length = n ∧ cut v 1 n = some b := by
    intro n h
    refine ⟨(v.drop 1).take n, by simp; omega, by simp only [cut]; rw [if_pos h]⟩
  have hk : ∀ k, k < v.length → ∃ p, v[k]? = some p := fun k h => ⟨v[k], by simp [h]⟩
  rcases ht with rfl | rfl | rfl | rfl <;> simp only [ipLength, Nat.reduceEqDiff, if_true, if_false] at hl
  · obtain ⟨b, b1, b2⟩ := hcut 4 (by omega)
    simp only [readIp, if_true, hf, b2]
    rw [from_binary (by omega) (by decide)]
    exact ⟨_, _, rfl⟩
  · obtain ⟨b, b1, b2⟩ := hcut 16 (by omega)
    simp only [readIp, if_true, hf, b2, Nat.reduceEqDiff, if_false]
    rw [from_binary (by omega) (by decide)]
    exact ⟨_, _, rfl⟩
  · obtain ⟨b, b1, b2⟩ := hcut 4 (by omega)
    obtain ⟨p, hp⟩ := hk 5 (by omega)
    simp only [readIp, if_true, hf, b2, hp, Nat.reduceEqDiff, if_false]
    rw [from_binary (by omega) (by decide)]
    exact ⟨_, _, rfl⟩
  · obtain ⟨b, b1, b2⟩ := hcut 16 (by omega)
    obtain ⟨p, hp⟩ := hk 17 (by omega)
    simp only [readIp, if_true, hf, b2, hp, Nat.reduceEqDiff, if_false]
    rw [from_binary (by omega) (by decide)]
    exact ⟨_, _, rfl⟩

example : ([1, 10, 0, 0, 1] : Bytes).length = ipLength 8 := rfl

/-- The prefix length of a subnet is not checked: every number up to 254 is taken over, for IPv4 too (255 becomes the
length of the address). -/
theorem C140_prefix_counterexample (f a b c d p : UInt8) (hp : 32 < p) (hq : p ≠ 255) :
    ∃ ip add, readIp 10 [f, a, b, c, d, p] = .ok (ip, add) ∧ ip.type = AF_INET ∧ 32 < ip.prefixLen := by
  have hcut : cut [f, a, b, c, d, p] 1 4 = some [a, b, c, d] := rfl
  simp only [readIp, Nat.reduceEqDiff, if_true, if_false, hcut, List.getElem?_cons_zero, List.getElem?_cons_succ]
  rw [from_binary (by simp) (by decide)]
  refine ⟨_, _, rfl, rfl, ?_⟩
  simp only
  rw [if_neg hq]
  exact hp

/-- A connection point arrives with address, port and flag. -/
theorem C140_conpoint (w : Writer) (v6 : Bool) (addr : Netaddr) (port : Nat) (tls : Bool) (hc : Canonical addr)
    (ht : addr.type = if v6 then AF_INET6 else AF_INET) (hm : addr.prefixLen = if v6 then 128 else 32)
    (hp : port < 65536) :
    ∃ v, addConpoint w v6 addr port tls = some { w with out := w.out ++ one (if v6 then 3 else 2, v) } ∧
      v.length = (if v6 then 19 else 7) ∧ readConpoint v6 v = .ok (addr, port, tls) := by
  obtain ⟨bytes, type, p⟩ := addr
  simp only at ht hm
  subst ht hm
  have hf : ((if tls then (1 : UInt8) else 0) &&& 1 = 1) = (tls = true) := by cases tls <;> simp
  have hn : beNum (beN 2 port) = port := by rw [beNum_beN]; omega
  cases v6 with
  | false =>
    obtain ⟨b, b1, b2, b3⟩ := canonical_binary hc (n := 4) (k := 7) (show afMaxPrefix AF_INET / 8 = 4 by decide) (by decide) (by decide)
    simp only at b2
    simp only [Bool.false_eq_true, if_false] at *
    have hlen : ∀ f : UInt8, (f :: b ++ beN 2 port).length = 7 := by intro f; simp [b1, beN_length]
    refine ⟨_, ?_, hlen (if tls then 1 else 0), ?_⟩
    · simp only [addConpoint, Bool.false_eq_true, if_false, ne_eq, not_true, b3, Option.bind_some]
      exact addTlv_eq w (by decide) (by decide) (hlen _)
    · have hcut : ∀ f : UInt8, cut (f :: b ++ beN 2 port) 1 4 = some b := by
        intro f
        simp only [cut, hlen]
        rw [if_pos (by omega), List.cons_append, List.drop_one, List.tail_cons,
          List.take_append_of_le_length (by omega), List.take_of_length_le (by omega)]
      have hcp : ∀ f : UInt8, cut (f :: b ++ beN 2 port) 5 2 = some (beN 2 port) := by
        intro f
        simp only [cut, hlen]
        have : (f :: b).length = 5 := by simp [b1]
        rw [if_pos (by omega), ← this, List.drop_left, List.take_of_length_le (by simp [beN_length])]
      have h0 : ∀ f : UInt8, (f :: b ++ beN 2 port)[0]? = some f := by intro f; simp
      simp only [readConpoint, hlen, Bool.false_eq_true, if_false, hcut, hcp, h0, Nat.reduceAdd, Nat.reduceEqDiff, ne_eq,
        not_true, not_false_eq_true, and_false, if_true, Option.map_some, hn]
      rw [from_binary (by omega) (by decide), b1, ← b2]
      simp [hf]
  | true =>
    obtain ⟨b, b1, b2, b3⟩ := canonical_binary hc (n := 16) (k := 19) (show afMaxPrefix AF_INET6 / 8 = 16 by decide) (by decide) (by decide)
    simp only at b2
    simp only [if_true] at *
    have hlen : ∀ f : UInt8, (f :: b ++ beN 2 port).length = 19 := by intro f; simp [b1, beN_length]
    refine ⟨_, ?_, hlen (if tls then 1 else 0), ?_⟩
    · simp only [addConpoint, if_true, ne_eq, not_true, if_false, b3, Option.bind_some]
      exact addTlv_eq w (by decide) (by decide) (hlen _)
    · have hcut : ∀ f : UInt8, cut (f :: b ++ beN 2 port) 1 16 = some b := by
        intro f
        simp only [cut, hlen]
        rw [if_pos (by omega), List.cons_append, List.drop_one, List.tail_cons,
          List.take_append_of_le_length (by omega), List.take_of_length_le (by omega)]
      have hcp : ∀ f : UInt8, cut (f :: b ++ beN 2 port) 17 2 = some (beN 2 port) := by
        intro f
        simp only [cut, hlen]
        have : (f :: b).length = 17 := by simp [b1]
        rw [if_pos (by omega), ← this, List.drop_left, List.take_of_length_le (by simp [beN_length])]
      have h0 : ∀ f : UInt8, (f :: b ++ beN 2 port)[0]? = some f := by intro f; simp
      simp only [readConpoint, hlen, if_false, hcut, hcp, h0, Nat.reduceAdd, Nat.reduceEqDiff, ne_eq,
        not_true, not_false_eq_true, and_false, if_true, Option.map_some, hn]
      rw [from_binary (by omega) (by decide), b1, ← b2]
      simp [hf]

example : readConpoint false [1, 10, 0, 0, 1, 3, 86] =
    .ok (⟨[10, 0, 0, 1, 0, 0, 0, 0, 0, 0, 0, 0, 0, 0, 0, 0], AF_INET, 32⟩, 854, true) := by decide +kernel

/-- The readers stay inside of the value; the short form of a connection point has the standard port. -/
theorem C140_conpoint_read (v6 : Bool) (v : Bytes) : readConpoint v6 v ≠ .fault ∧
    (v.length = 1 + (if v6 then 16 else 4) → ∃ a t, readConpoint v6 v = .ok (a, 854, t)) := by
  have h0 : 0 < v.length → ∃ f, v[0]? = some f := fun h => ⟨v[0], by simp [h]⟩
  have hcut : ∀ o n, o + n ≤ v.length → ∃ b : Bytes, b.length = n ∧ cut v o n = some b := by
    intro o n h
    refine ⟨(v.drop o).take n, by simp; omega, by simp only [cut]; rw [if_pos h]⟩
  have haf : (if v6 = true then AF_INET6 else AF_INET) ≠ 0 := by cases v6 <;> decide
  have h16 : (if v6 = true then 16 else 4) ≤ 16 := by cases v6 <;> decide
  simp only [readConpoint]
  generalize (if v6 = true then 16 else 4) = n at *
  generalize (if v6 = true then AF_INET6 else AF_INET) = af at *
  by_cases h1 : v.length = 1 + n
  · rw [if_neg (by omega), if_neg (by omega)]
    obtain ⟨f, hf⟩ := h0 (by omega)
    obtain ⟨b, b1, b2⟩ := hcut 1 n (by omega)
    simp only [hf, b2]
    rw [from_binary (by omega) haf]
    exact ⟨nofun, fun _ => ⟨_, _, rfl⟩⟩
  · refine ⟨?_, fun h => absurd h h1⟩
    by_cases h3 : v.length = 3 + n
    · rw [if_neg (by omega), if_pos h3]
      obtain ⟨f, hf⟩ := h0 (by omega)
      obtain ⟨b, b1, b2⟩ := hcut 1 n (by omega)
      obtain ⟨c, _, c2⟩ := hcut (1 + n) 2 (by omega)
      simp only [hf, b2, c2, Option.map_some]
      rw [from_binary (by omega) haf]
      exact nofun
    · rw [if_pos ⟨h1, h3⟩]
      exact nofun

end Verif.Dlep
