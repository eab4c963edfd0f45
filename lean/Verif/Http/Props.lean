import Verif.Http.UriLemmas

namespace Verif.Http
open Verif.Netaddr (strcasecmp toLower)

/-! ### C118 -/

/-- C118: what a well formed request says is what the server finds, with either kind of end of line, for up to 16 header fields; the data
behind the header is not touched. -/
theorem C118_round_trip (cr : Bool) (m : Message) (w : WellFormed m) (body : Txt) (h16 : m.fields.length ≤ 16) :
    ∃ mem h, parseHeader (wire cr m ++ body) = some (mem, h) ∧ cstr mem 0 = m.method ∧ cstr mem h.uri = m.uri ∧ cstr mem h.version = m.version ∧
        headerFields mem h = (m.fields.map fun f => (f.1, f.2.2)) ∧ mem.length = (wire cr m ++ body).length ∧ mem.drop (wire cr m).length = body := by
  have := parse_wire cr m w body
  rwa [if_pos h16] at this

/-- C118: requests with more than 16 fields are refused with "400 Bad Request". -/
theorem C118_limit (odd : Txt → UInt8) (tree : List Handler) (junk : Txt) (cr : Bool) (m : Message) (w : WellFormed m) (body : Txt) (h16 : 16 < m.fields.length) :
    (receive odd tree junk (wire cr m ++ body)).2 = .error 400 := by
  have := parse_wire cr m w body
  rw [if_neg (by omega)] at this
  have he := headerEnd_wire cr m w body
  unfold receive
  cases h : headerEnd (wire cr m ++ body) with
  | none => rw [h] at he; cases he
  | some fh => dsimp only; rw [this]

/-- GET /a HTTP/1.0, Host: b -/
def sample : Message := ⟨GET, [47, 97], http10, [([72, 111, 115, 116], [32], [98])]⟩

theorem sample_ok : WellFormed sample := by
  refine ⟨?_, ?_, ?_, ?_⟩
  · intro c hc; revert c; decide
  · intro c hc; revert c; decide
  · intro c hc; revert c; decide
  · intro f hf
    have : f = ([72, 111, 115, 116], [32], [98]) := by simpa [sample] using hf
    subst this
    refine ⟨?_, ?_, ?_, by decide, by decide⟩
    · intro c hc; revert c; decide
    · intro c hc; revert c; decide
    · intro c hc; revert c; decide

example : WellFormed sample ∧ sample.fields.length ≤ 16 ∧ (parseHeader (wire true sample ++ [1, 2, 3])).map (fun p => headerFields p.1 p.2) = some [([72, 111, 115, 116], [98])] :=
  ⟨sample_ok, by decide, by decide +kernel⟩
example : ∃ m, WellFormed m ∧ 16 < m.fields.length :=
  ⟨⟨[], [], [], List.replicate 17 ([], [], [])⟩, ⟨fun _ h => (nomatch h), fun _ h => (nomatch h), fun _ h => (nomatch h), fun f hf => by
    rw [(List.mem_replicate.mp hf).2]
    exact ⟨fun _ h => (nomatch h), fun _ h => (nomatch h), fun _ h => (nomatch h), by decide, by decide⟩⟩, by decide⟩

/-- C118: names of header fields are compared with upper and lower case, against RFC 7230 3.2: the same request with "content-length" is refused
although the one with "Content-Length" is answered. -/
theorem C118_case_counterexample (odd : Txt → UInt8) (junk : Txt) : ∃ tree : List Handler, ∃ m m' : Message, WellFormed m ∧ WellFormed m' ∧
    m' = { m with fields := m.fields.map fun f => (f.1.map toLower, f.2) } ∧
    (∃ h r, (receive odd tree junk (wire true m)).2 = .call h r) ∧ (receive odd tree junk (wire true m')).2 = .error 400 := by
  refine ⟨[⟨[47], [], true, false⟩], ⟨POST, [47], http10, [(contentLength, [], [48])]⟩, _, ?_, ?_, rfl, ?_, ?_⟩
  · refine ⟨?_, ?_, ?_, ?_⟩
    · intro c hc; revert c; decide
    · intro c hc; revert c; decide
    · intro c hc; revert c; decide
    · intro f hf
      have : f = (contentLength, [], [48]) := by simpa using hf
      subst this
      refine ⟨?_, ?_, ?_, by decide, by decide⟩
      · intro c hc; revert c; decide
      · intro c hc; revert c; decide
      · intro c hc; revert c; decide
  · refine ⟨?_, ?_, ?_, ?_⟩
    · intro c hc; revert c; decide
    · intro c hc; revert c; decide
    · intro c hc; revert c; decide
    · intro f hf
      have : f = (contentLength.map toLower, [], [48]) := by simpa using hf
      subst this
      refine ⟨?_, ?_, ?_, by decide, by decide⟩
      · intro c hc; revert c; decide
      · intro c hc; revert c; decide
      · intro c hc; revert c; decide
  · exact ⟨_, _, rfl⟩
  · rfl

/-! ### C119 -/

/-- C119: percent-decoding is the inverse of every encoding, and never makes a text longer. -/
theorem C119_decode (odd : Txt → UInt8) (t s : Txt) (h : Encodes t s) : decode odd s = t ∧ t.length ≤ s.length :=
  ⟨decode_encodes odd h, by have := decode_length odd s; rwa [decode_encodes odd h] at this⟩

example : Encodes [47, 97, 32, 98] [47, 37, 54, 49, 37, 50, 48, 98] :=
  .plain (by decide) (.pct (a := 6) (b := 1) (.inl (by decide)) (.inl (by decide)) (by decide) (.pct (a := 2) (b := 0) (.inl (by decide)) (.inl (by decide)) (by decide)
    (.plain (by decide) .nil)))

/-- C119: the URI the handlers see is the decoded one without the fragment, whatever was in the memory before. -/
theorem C119_uri (odd : Txt → UInt8) (t s junk : Txt) (fragment : Option Txt) (h : Encodes t s) (ht : (0 : UInt8) ∉ t) (h0 : (0 : UInt8) ∉ s) (h35 : (35 : UInt8) ∉ s) :
    cstr (prepareUri odd (s ++ (match fragment with | none => [] | some f => 35 :: f)) junk) 0 = t := by
  cases fragment with
  | none => simp only [List.append_nil]; rw [prepare_plain odd s junk h0 h35, decode_encodes odd h, cstr_zero _ _ ht]
  | some f => simp only; rw [prepare_fragment odd s f junk h0 h35, decode_encodes odd h, cstr_zero _ _ ht]

/-- C119: a byte zero (%00), and a "%" without hexadecimal digit behind it, end the URI: what follows is ignored. -/
theorem C119_counterexample (odd : Txt → UInt8) (t s post junk : Txt) (x y : UInt8) (h : Encodes t s) (ht : (0 : UInt8) ∉ t)
    (h0 : (0 : UInt8) ∉ s ++ 37 :: x :: y :: post) (h35 : (35 : UInt8) ∉ s ++ 37 :: x :: y :: post)
    (hx : (x = 48 ∧ y = 48) ∨ ((∀ n, ¬Digit x n) ∧ IsoNum.isSpace x = false ∧ x ≠ 43 ∧ x ≠ 45)) :
    cstr (prepareUri odd (s ++ 37 :: x :: y :: post) junk) 0 = t := by
  have hz : sscanfHex odd x y post = 0 := by
    rcases hx with ⟨rfl, rfl⟩ | ⟨h1, h2, h3, h4⟩
    · rfl
    · unfold sscanfHex; rw [hexVal_none h1]; simp [h2, h3, h4]
  rw [prepare_plain odd _ junk h0 h35, decode_append odd h, decode_pct, hz, List.append_assoc, List.cons_append, cstr_zero _ _ ht]

example : ∃ x : UInt8, (∀ n, ¬Digit x n) ∧ IsoNum.isSpace x = false ∧ x ≠ 43 ∧ x ≠ 45 := by
  refine ⟨122, ?_, by decide, by decide, by decide⟩
  intro n h
  have e : (122 : UInt8).toNat = 122 := rfl
  simp only [Digit, e] at h
  omega

/-! ### C120 -/

/-- C120: a query string is split into its parameters, the first eight of them. -/
theorem C120_split (ps : List (Txt × Txt)) (h : ∀ p, p ∈ ps → Param p) : parseQuery (query ps) = ps.take 8 := parseQuery_query ps h

example : parseQuery (query [([97], [49]), ([98], [])]) = [([97], [49]), ([98], [])] := by decide +kernel

/-- C120: the lookup returns the value of the first parameter with the name. -/
theorem C120_lookup (pre post : List (Txt × Txt)) (n v : Txt) (h : ∀ p, p ∈ pre → p.1 ≠ n) : lookupValue (pre ++ (n, v) :: post) n = some v := by
  induction pre with
  | nil => simp [lookupValue]
  | cons p pre ih =>
    have := ih fun q hq => h q (List.mem_cons_of_mem _ hq)
    unfold lookupValue at this ⊢
    rw [List.cons_append, List.find?_cons_of_neg (by simpa using h p List.mem_cons_self)]
    exact this

theorem C120_lookup_none (ps : List (Txt × Txt)) (n : Txt) (h : ∀ p, p ∈ ps → p.1 ≠ n) : lookupValue ps n = none := by
  unfold lookupValue
  rw [List.find?_eq_none.mpr (fun p hp => by simpa using h p hp)]
  rfl

/-- the two versions which are accepted -/
theorem version_ok {v : Txt} (h : v = http10 ∨ v = http11) : ¬(v ≠ http10 ∧ v ≠ http11) := by
  rintro ⟨a, b⟩
  rcases h with h | h
  · exact a h
  · exact b h

theorem receive_wire (odd : Txt → UInt8) (tree : List Handler) (junk : Txt) (cr : Bool) (m : Message) (w : WellFormed m) (body : Txt) (h16 : m.fields.length ≤ 16) :
    ∃ fh mem h, headerEnd (wire cr m ++ body) = some fh ∧ receive odd tree junk (wire cr m ++ body) = (mem, request odd tree junk fh mem h) ∧
      cstr mem 0 = m.method ∧ cstr mem h.uri = m.uri ∧ cstr mem h.version = m.version ∧
        headerFields mem h = (m.fields.map fun f => (f.1, f.2.2)) ∧ mem.length = (wire cr m ++ body).length ∧ mem.drop (wire cr m).length = body := by
  obtain ⟨mem, h, h1, h2⟩ := C118_round_trip cr m w body h16
  have he := headerEnd_wire cr m w body
  cases hh : headerEnd (wire cr m ++ body) with
  | none => rw [hh] at he; cases he
  | some fh =>
    refine ⟨fh, mem, h, rfl, ?_, h2⟩
    unfold receive
    rw [hh]
    dsimp only
    rw [h1]

/-- GET requests after the header -/
theorem request_get (odd : Txt → UInt8) (tree : List Handler) (junk : Txt) (fh : Nat) (mem : Txt) (h : Head) (hm : cstr mem 0 = GET)
    (hv : cstr mem h.version = http10 ∨ cstr mem h.version = http11) (hu : (cstr mem h.uri).length < 256) :
    request odd tree junk fh mem h =
      match cut 63 (prepareUri odd (cstr mem h.uri) junk) with
      | (_, none) => serve tree ⟨GET, prepareUri odd (cstr mem h.uri) junk, headerFields mem h, []⟩
      | (u', some q) =>
        serve tree ⟨GET, u'.take q ++ queryBytes maxParams (splitAmp (cstr u' q)) ++ u'.drop (q + (cstr u' q).length), headerFields mem h, parseQuery (cstr u' q)⟩ := by
  unfold request
  dsimp only
  rw [if_neg (version_ok hv), if_neg (show ¬(cstr mem h.uri).length ≥ maxUri by unfold maxUri; omega), hm, if_neg (by decide), if_pos rfl]
  rcases cut 63 (prepareUri odd (cstr mem h.uri) junk) with ⟨u', _ | q⟩ <;> rfl

/-- C120 (`_partial`): a GET request whose decoded URI is a path, "?" and a query gets these parameters, and the path is what the handler is
chosen with.  Missing: parameters with "&", "=" or "#" in encoded form, see `C120_get_counterexample`. -/
theorem C120_get_partial (odd : Txt → UInt8) (tree : List Handler) (junk body : Txt) (cr : Bool) (m : Message) (w : WellFormed m) (h16 : m.fields.length ≤ 16)
    (hm : m.method = GET) (hv : m.version = http10 ∨ m.version = http11) (hu : m.uri.length < 256)
    (path : Txt) (ps : List (Txt × Txt)) (hp : Free [0, 63] path) (hps : ∀ p, p ∈ ps → Param p)
    (henc : Encodes (path ++ 63 :: query ps) m.uri) (h35 : (35 : UInt8) ∉ m.uri) :
    ∃ r, (receive odd tree junk (wire cr m ++ body)).2 = serve tree r ∧ cstr r.uri 0 = path ∧ r.params = ps.take 8 ∧ r.method = GET ∧
      r.flds = m.fields.map fun f => (f.1, f.2.2) := by
  obtain ⟨fh, mem, h, _, h1, h2, h3, h4, h5, _, _⟩ := receive_wire odd tree junk cr m w body h16
  have hq0 := query_nonul ps hps
  have hu0 : (0 : UInt8) ∉ m.uri := free_not w.uri (by simp)
  rw [h1]
  dsimp only
  rw [request_get odd tree junk fh mem h (by rw [h2, hm]) (by rw [h4]; exact hv) (by rw [h3]; exact hu), h3, prepare_plain odd _ _ hu0 h35, decode_encodes odd henc, h5]
  rw [show ∀ x : Txt, path ++ 63 :: query ps ++ 0 :: x = path ++ 63 :: (query ps ++ 0 :: x) by simp, cut_some 63 _ _ (by decide) (free_not hp (by simp)) (free_not hp (by simp))]
  dsimp only
  have hc : ∀ x : Txt, cstr (path ++ 0 :: (query ps ++ 0 :: x)) (path.length + 1) = query ps := fun x => by
    have := cstr_at (path ++ [0]) (query ps) x hq0
    simpa using this
  rw [hc]
  refine ⟨_, rfl, ?_, parseQuery_query ps hps, rfl, rfl⟩
  dsimp only
  rw [show path.length + 1 = (path ++ [0]).length by simp, show ∀ x : Txt, path ++ 0 :: (query ps ++ 0 :: x) = (path ++ [0]) ++ (query ps ++ 0 :: x) by simp, List.take_left]
  rw [show ∀ a b : Txt, path ++ [0] ++ a ++ b = path ++ 0 :: (a ++ b) by simp]
  exact cstr_zero _ _ (free_not hp (by simp))

/-- GET /?a=%31 -/
example : ∃ m : Message, WellFormed m ∧ m.method = GET ∧ m.version = http10 ∧ Encodes ([47] ++ 63 :: query [([97], [49])]) m.uri ∧ (35 : UInt8) ∉ m.uri := by
  refine ⟨⟨GET, [47, 63, 97, 61, 37, 51, 49], http10, []⟩, ⟨?_, ?_, ?_, fun _ h => (nomatch h)⟩, rfl, rfl, ?_, by decide⟩
  · intro c hc; revert c; decide
  · intro c hc; revert c; decide
  · intro c hc; revert c; decide
  · exact .plain (by decide) (.plain (by decide) (.plain (by decide) (.plain (by decide)
      (.pct (a := 3) (b := 1) (.inl (by decide)) (.inl (by decide)) (by decide) .nil))))

/-- C120: the URI is decoded before it is split: "GET /?a=1%26b=2" has one parameter with the value "1&b=2", but two are delivered. -/
theorem C120_get_counterexample (odd : Txt → UInt8) (junk : Txt) : ∃ h r,
    (receive odd [⟨[47], [], true, false⟩] junk (wire true ⟨GET, [47, 63, 97, 61, 49, 37, 50, 54, 98, 61, 50], http10, []⟩)).2 = .call h r ∧
    r.params = [([97], [49]), ([98], [50])] := ⟨_, _, rfl, rfl⟩

/-- C120: parameters of POST requests are not decoded at all: "a=%31" has the value "%31". -/
theorem C120_post_counterexample (odd : Txt → UInt8) (junk : Txt) : ∃ h r,
    (receive odd [⟨[47], [], true, false⟩] junk (wire true ⟨POST, [47], http10, [(contentLength, [], [53])]⟩ ++ [97, 61, 37, 51, 49])).2 = .call h r ∧
    r.params = [([97], [37, 51, 49])] := ⟨_, _, rfl, rfl⟩

end Verif.Http
