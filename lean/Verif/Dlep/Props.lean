import Verif.Dlep.Lemmas

/-! # C136: the parser of DLEP TLVs -/

namespace Verif.Dlep

open Spec

/-- Every run of the parser ends with the verdict which the stream deserves, or with "out of memory" if an
allocation failed.  In particular it never touches memory outside of the stream or of the array of values. -/
theorem C136_parse (mem : Nat → Bool) (buffer : Bytes) (length : Nat) (p : Parser) (hw : p.maxCount ≤ p.alloc)
    (nd : ((tableOf p).map Prod.fst).Nodup) (hlb : length ≤ buffer.length) (hs : length < 65536) :
    ∃ items v, Verdict (tableOf p) (buffer.take length) items v ∧
      ((∃ q, parseStream mem buffer length p = Outcome.of v q) ∨
        ∃ n q, mem n = false ∧ parseStream mem buffer length p = .err .outOfMemory q) := by
  obtain ⟨items, v, hv⟩ := exists_verdict (tableOf p) (buffer.take length)
  refine ⟨items, v, hv, ?_⟩
  rcases parse_verdict (mem := mem) hw nd hlb hs hv with ⟨n, q, h, _, _, he⟩ | ⟨q, _, he⟩
  · exact .inr ⟨n, q, h, he⟩
  · exact .inl ⟨q, he⟩

/-- a table with two types: 1 (one to four bytes) and 7 (any length) -/
def sampleParser : Parser := newParser [⟨1, 1, 4, none, none⟩, ⟨7, 0, 65535, none, none⟩]

example : sampleParser.maxCount ≤ sampleParser.alloc ∧ ((tableOf sampleParser).map Prod.fst).Nodup := by
  decide +kernel

/-- As long as memory is available, exactly the concatenations of allowed items are accepted. -/
theorem C136_accepts (buffer : Bytes) (length : Nat) (p : Parser) (hw : p.maxCount ≤ p.alloc)
    (nd : ((tableOf p).map Prod.fst).Nodup) (hlb : length ≤ buffer.length) (hs : length < 65536) :
    (∃ q, parseStream (fun _ => true) buffer length p = .ok q) ↔
      ∃ items, buffer.take length = encode items ∧ ∀ i ∈ items, Allowed (tableOf p) i := by
  constructor
  · rintro ⟨q, hq⟩
    obtain ⟨items, v, hv⟩ := exists_verdict (tableOf p) (buffer.take length)
    rcases parse_verdict (mem := fun _ => true) hw nd hlb hs hv with ⟨n, _, h, _⟩ | ⟨r, _, he⟩
    · exact nomatch h
    · cases hv with
      | good h a => exact ⟨items, h, a⟩
      | _ => rw [hq] at he; exact nomatch he
  · rintro ⟨items, h, a⟩
    rcases parse_verdict (mem := fun _ => true) hw nd hlb hs (.good h a) with ⟨n, _, h, _⟩ | ⟨r, _, he⟩
    · exact nomatch h
    · exact ⟨r, he⟩

example : ((parseStream (fun _ => true) [0, 1, 0, 2, 9, 8, 0, 7, 0, 0, 0, 1, 0, 1, 5] 15 sampleParser).get?.map fun q =>
    (valuesOf q 1).map (bytesOf [0, 1, 0, 2, 9, 8, 0, 7, 0, 0, 0, 1, 0, 1, 5])) = some [some [9, 8], some [5]] := by
  decide +kernel

/-- As long as memory is available, each kind of error is reported exactly for the streams which have it. -/
theorem C136_errors (buffer : Bytes) (length : Nat) (p : Parser) (hw : p.maxCount ≤ p.alloc)
    (nd : ((tableOf p).map Prod.fst).Nodup) (hlb : length ≤ buffer.length) (hs : length < 65536) (e : PErr) :
    (∃ q, parseStream (fun _ => true) buffer length p = .err e q) ↔
      ∃ items, Verdict (tableOf p) (buffer.take length) items (some e) := by
  constructor
  · rintro ⟨q, hq⟩
    obtain ⟨items, v, hv⟩ := exists_verdict (tableOf p) (buffer.take length)
    rcases parse_verdict (mem := fun _ => true) hw nd hlb hs hv with ⟨n, _, h, _⟩ | ⟨r, _, he⟩
    · exact nomatch h
    · rw [hq] at he
      cases v with
      | none => exact nomatch he
      | some e' =>
        simp only [Outcome.of, Outcome.err.injEq] at he
        exact ⟨items, he.1 ▸ hv⟩
  · rintro ⟨items, hv⟩
    rcases parse_verdict (mem := fun _ => true) hw nd hlb hs hv with ⟨n, _, h, _⟩ | ⟨r, _, he⟩
    · exact nomatch h
    · exact ⟨r, he⟩

example : (parseStream (fun _ => true) [0, 1, 0, 5, 1, 2, 3, 4, 5] 9 sampleParser matches .err .illegalLength _) ∧
    (parseStream (fun _ => true) [0, 2, 0, 1, 1] 5 sampleParser matches .err .unsupported _) ∧
    (parseStream (fun _ => true) [0, 1, 0, 2, 1] 5 sampleParser matches .err .incompleteTlv _) ∧
    (parseStream (fun _ => true) [0, 7, 0, 0, 1] 5 sampleParser matches .err .incompleteHeader _) := by
  decide +kernel

/-- After an accepted stream, the chain of each type delivers exactly the values of this type, in the order of the
stream. -/
theorem C136_values (mem : Nat → Bool) (buffer : Bytes) (length : Nat) (p q : Parser) (hw : p.maxCount ≤ p.alloc)
    (nd : ((tableOf p).map Prod.fst).Nodup) (hlb : length ≤ buffer.length) (hs : length < 65536)
    (hq : parseStream mem buffer length p = .ok q) (items : List Item) (h : buffer.take length = encode items)
    (a : ∀ i ∈ items, Allowed (tableOf p) i) (type : Nat) :
    (valuesOf q type).map (bytesOf buffer) = (Spec.valuesOf items type).map some := by
  rcases parse_verdict (mem := mem) hw nd hlb hs (.good h a) with ⟨n, _, _, _, _, he⟩ | ⟨r, hr, he⟩
  · rw [hq] at he; exact nomatch he
  · rw [hq] at he
    simp only [Outcome.of, Outcome.ok.injEq] at he
    subst he
    exact values_inv type hr a

/-- The bytes determine the items, so "the values of the stream" are well defined. -/
theorem C136_unambiguous (a b : List Item) (ha : ∀ i ∈ a, i.1 < 65536 ∧ i.2.length < 65536)
    (hb : ∀ i ∈ b, i.1 < 65536 ∧ i.2.length < 65536) (h : encode a = encode b) : a = b := encode_inj a b ha hb h

/-- a session parses one stream after the other; `none`: an access outside of memory -/
def session (p : Parser) : List ((Nat → Bool) × Bytes) → Option Parser
  | [] => some p
  | (mem, s) :: l =>
    match parseStream mem s s.length p with
    | .ok q => session q l
    | .err _ q => session q l
    | .fault => none

/-- However many streams a session has parsed, with whatever contents and whatever failures of the allocation, no
access is outside of memory and the table of allowed TLVs stays the same. -/
theorem C136_session (tlvs : List Tlv) (nd : (tlvs.map Tlv.id).Nodup) (streams : List ((Nat → Bool) × Bytes))
    (hs : ∀ s ∈ streams, s.2.length < 65536) :
    ∃ q, session (newParser tlvs) streams = some q ∧ tableOf q = tlvs.map fun t => (t.id, t.min, t.max) := by
  have key : ∀ (streams : List ((Nat → Bool) × Bytes)) (p : Parser), (∀ s ∈ streams, s.2.length < 65536) →
      p.maxCount ≤ p.alloc → ((tableOf p).map Prod.fst).Nodup → ∃ q, session p streams = some q ∧ tableOf q = tableOf p := by
    intro streams
    induction streams with
    | nil => intro p _ _ _; exact ⟨p, rfl, rfl⟩
    | cons s l ih =>
      intro p hs hw nd
      obtain ⟨mem, b⟩ := s
      obtain ⟨items, v, hv⟩ := exists_verdict (tableOf p) (b.take b.length)
      have hl : ∀ s ∈ l, s.2.length < 65536 := fun x hx => hs x (by simp [hx])
      rcases parse_verdict (mem := mem) hw nd (Nat.le_refl _) (hs (mem, b) (by simp)) hv with
        ⟨n, q, _, h2, h3, he⟩ | ⟨q, hq, he⟩
      · obtain ⟨r, h4, h5⟩ := ih q hl h2 (by rw [h3]; exact nd)
        refine ⟨r, ?_, h5.trans h3⟩
        simp only [session, he]
        exact h4
      · obtain ⟨r, h4, h5⟩ := ih q hl hq.cap.2 (by rw [hq.tab]; exact nd)
        refine ⟨r, ?_, h5.trans hq.tab⟩
        simp only [session, he]
        cases v <;> exact h4
  have := key streams (newParser tlvs) hs (Nat.zero_le _) (by simpa [tableOf, newParser, List.map_map, Function.comp_def] using nd)
  simpa [tableOf, newParser] using this

example : ((session sampleParser [(fun _ => false, [0, 7, 0, 0]), (fun _ => true, [0, 7, 0, 0, 0, 7])]).map fun q =>
    q.values.length) = some 1 := by
  decide +kernel

end Verif.Dlep
