import Verif.Http.SiteProps
import Verif.IsoNum.Lemmas

namespace Verif.Http
open Verif.Netaddr (strcasecmp toLower)

/-! ### C123 -/

/-- C123 (`_partial`): if the decoded URI starts with "/www/", the opened path is the rest of it, is not absolute, and ".." is at most its last
component.  Missing: the last component, and URIs without the "/" at the end, see the counterexamples. -/
theorem C123_partial (uri path p : Txt) (hu : cstr uri 0 = www ++ path) (ho : openFile uri = some p) :
    p = path ∧ path.head? ≠ some 47 ∧ ∀ a b, path = a ++ ([46, 46] ++ 47 :: b) → ¬(a = [] ∨ a.getLast? = some 47) := by
  have h5 : cstr uri 5 = path := by
    have e : ∀ (n : Nat) (l : Txt), n ≤ (l.takeWhile (· != 0)).length → (l.drop n).takeWhile (· != 0) = (l.takeWhile (· != 0)).drop n := by
      intro n
      induction n with
      | zero => intro l _; rfl
      | succ n ih =>
        intro l hl
        cases l with
        | nil => rfl
        | cons c l =>
          by_cases hc : (c != 0) = true
          · rw [List.takeWhile_cons_of_pos (p := fun x : UInt8 => x != 0) hc] at hl ⊢
            simp only [List.length_cons] at hl
            rw [List.drop_succ_cons, List.drop_succ_cons]
            exact ih l (by omega)
          · rw [List.takeWhile_cons_of_neg (p := fun x : UInt8 => x != 0) hc] at hl
            simp at hl
    unfold cstr at hu ⊢
    rw [List.drop_zero] at hu
    rw [e 5 uri (by rw [hu]; simp [www]), hu]
    rfl
  unfold openFile at ho
  by_cases h1 : (strstr dotdot (cstr uri 0)).isSome = true
  · rw [if_pos h1] at ho; cases ho
  · rw [if_neg h1, h5] at ho
    by_cases h2 : path.head? = some 47
    · rw [if_pos h2] at ho; cases ho
    · rw [if_neg h2] at ho
      cases ho
      refine ⟨rfl, h2, ?_⟩
      rintro a b hab hq
      apply h1
      rw [hu]
      rcases hq with rfl | hq
      · have := strstr_some_of dotdot [47, 119, 119, 119] b
        rw [hab]; exact this
      · obtain ⟨a', ha'⟩ := List.getLast?_eq_some_iff.mp hq
        have := strstr_some_of dotdot (www ++ a') b
        rw [hab, ha']
        simpa [dotdot] using this

example : openFile (www ++ [97, 46, 46, 47, 98]) = some [97, 46, 46, 47, 98] ∧ openFile (www ++ [97, 47, 46, 46, 47, 98]) = none ∧ openFile (www ++ [47, 97]) = none := by
  decide +kernel

/-- C123: ".." is opened: the directory above the one for files. -/
theorem C123_parent_counterexample : openFile (www ++ [46, 46] ++ [0]) = some [46, 46] := by decide +kernel

/-- "/www" -/
def wwwNoSlash : Txt := [47, 119, 119, 119]

theorem www_handler : siteHandler [telnetHandler, fileHandler] wwwNoSlash = some fileHandler := by decide +kernel

theorem serve_www (tail : Txt) (flds : List (Txt × Txt)) : serve [telnetHandler, fileHandler] ⟨GET, wwwNoSlash ++ 0 :: tail, flds, []⟩ =
    .call fileHandler ⟨GET, wwwNoSlash ++ 0 :: tail, flds, []⟩ := by
  unfold serve
  dsimp only
  rw [cstr_zero _ _ (by decide), www_handler]
  rfl

theorem openFile_www (p tail : Txt) (h0 : (0 : UInt8) ∉ p) (hp : p.head? ≠ some 47) : openFile (wwwNoSlash ++ 0 :: (p ++ 0 :: tail)) = some p := by
  unfold openFile
  rw [cstr_zero _ _ (by decide), if_neg (by decide)]
  have : cstr (wwwNoSlash ++ 0 :: (p ++ 0 :: tail)) 5 = p := cstr_at (wwwNoSlash ++ [0]) p tail h0
  rw [this, if_neg hp]

/-- C123: every file of the machine can be read: for the URI "/www#p" the path p is opened relative to the directory for files, with any number
of "..", e.g. "../../../etc/passwd". -/
theorem C123_traversal_counterexample (odd : Txt → UInt8) (junk p : Txt) (hp : Free [0, 10, 13, 32] p) (hl : p.length < 251) (habs : p.head? ≠ some 47) :
    ∃ r, (receive odd [telnetHandler, fileHandler] junk (wire true ⟨GET, wwwNoSlash ++ 35 :: p, http10, []⟩)).2 = .call fileHandler r ∧ openFile r.uri = some p := by
  have w : WellFormed ⟨GET, wwwNoSlash ++ 35 :: p, http10, []⟩ := by
    refine ⟨?_, ?_, ?_, fun _ h => (nomatch h)⟩
    · intro c (hc : c ∈ GET); revert c; decide
    · intro c hc
      rcases List.mem_append.mp hc with hc' | hc
      · clear hc; revert c; decide
      · rcases List.mem_cons.mp hc with rfl | hc
        · decide
        · exact hp c hc
    · intro c (hc : c ∈ http10); revert c; decide
  obtain ⟨fh, mem, h, _, h1, h2, h3, h4, h5, _, _⟩ := receive_wire odd [telnetHandler, fileHandler] junk true _ w [] (Nat.zero_le _)
  rw [List.append_nil] at h1
  dsimp only at h2 h3 h4
  rw [h1]
  dsimp only
  rw [request_get odd _ junk fh mem h h2 (.inl h4) (by rw [h3]; simp [wwwNoSlash]; omega), h3, prepare_fragment odd _ _ _ (by decide) (by decide)]
  have hd : decode odd wwwNoSlash = wwwNoSlash := decode_encodes odd (.plain (by decide) (.plain (by decide) (.plain (by decide) (.plain (by decide) .nil))))
  rw [hd]
  have hdrop : (wwwNoSlash ++ 0 :: (p ++ 0 :: junk)).drop (wwwNoSlash.length + 1) = p ++ 0 :: junk := rfl
  rw [hdrop, cut_none _ _ (by rw [cstr_zero _ _ (by decide)]; decide)]
  exact ⟨_, serve_www _ _, openFile_www p junk (free_not hp (by simp)) habs⟩

/-- "../x" -/
example : Free [0, 10, 13, 32] [46, 46, 47, 120] ∧ ([46, 46, 47, 120] : Txt).head? ≠ some 47 := ⟨fun c hc => by revert c; decide, by decide⟩

/-- C123: for "/www" the path is what happens to be in the memory. -/
theorem C123_uninitialised_counterexample (odd : Txt → UInt8) (p junk : Txt) (h0 : (0 : UInt8) ∉ p) (habs : p.head? ≠ some 47) :
    ∃ r, (receive odd [telnetHandler, fileHandler] (p ++ 0 :: junk) (wire true ⟨GET, wwwNoSlash, http10, []⟩)).2 = .call fileHandler r ∧ openFile r.uri = some p := by
  have w : WellFormed ⟨GET, wwwNoSlash, http10, []⟩ := by
    refine ⟨?_, ?_, ?_, fun _ h => (nomatch h)⟩
    · intro c hc; revert c; decide
    · intro c hc; revert c; decide
    · intro c hc; revert c; decide
  obtain ⟨fh, mem, h, _, h1, h2, h3, h4, h5, _, _⟩ := receive_wire odd [telnetHandler, fileHandler] (p ++ 0 :: junk) true _ w [] (Nat.zero_le _)
  rw [List.append_nil] at h1
  dsimp only at h2 h3 h4
  rw [h1]
  dsimp only
  rw [request_get odd _ _ fh mem h h2 (.inl h4) (by rw [h3]; decide), h3, prepare_plain odd _ _ (by decide) (by decide)]
  have hd : decode odd wwwNoSlash = wwwNoSlash := decode_encodes odd (.plain (by decide) (.plain (by decide) (.plain (by decide) (.plain (by decide) .nil))))
  rw [hd]
  have hdrop : (wwwNoSlash ++ 0 :: (p ++ 0 :: junk)).drop (wwwNoSlash.length + 1) = p ++ 0 :: junk := rfl
  rw [hdrop, cut_none _ _ (by rw [cstr_zero _ _ (by decide)]; decide)]
  exact ⟨_, serve_www _ _, openFile_www p junk h0 habs⟩

/-! ### C124 -/

/-- the empty line which ends a header, before any zero -/
def HasEnd (mem : Txt) : Prop := ∃ a e b, mem = a ++ (e ++ b) ∧ (0 : UInt8) ∉ a ∧ (e = [13, 10, 13, 10] ∨ e = [10, 10])

theorem takeWhile_split (t : Txt) : t = t.takeWhile (· != 0) ∨ ∃ post, t = t.takeWhile (· != 0) ++ 0 :: post := by
  induction t with
  | nil => exact .inl rfl
  | cons c t ih =>
    by_cases hc : c = 0
    · subst hc; exact .inr ⟨t, rfl⟩
    · rw [List.takeWhile_cons_of_pos (by simpa using hc)]
      rcases ih with h | ⟨p, h⟩
      · left; rw [← h]
      · right; exact ⟨p, by rw [List.cons_append, ← h]⟩

theorem takeWhile_nonul (t : Txt) : (0 : UInt8) ∉ t.takeWhile (· != 0) := by
  intro h
  have := List.all_takeWhile (p := fun c : UInt8 => c != 0) (l := t)
  rw [List.all_eq_true] at this
  exact absurd (this 0 h) (by decide)

theorem strstr_cstr {pat mem : Txt} (h : (strstr pat (cstr mem 0)).isSome) : ∃ a b, mem = a ++ (pat ++ b) ∧ (0 : UInt8) ∉ a := by
  cases hs : strstr pat (cstr mem 0) with
  | none => rw [hs] at h; cases h
  | some i =>
    obtain ⟨a, b, e, _⟩ := strstr_inv hs
    have hc : cstr mem 0 = mem.takeWhile (· != 0) := by unfold cstr; rw [List.drop_zero]
    have h0 : (0 : UInt8) ∉ a := fun q => takeWhile_nonul mem (by rw [← hc, e]; simp [q])
    rcases takeWhile_split mem with h | ⟨post, h⟩
    · exact ⟨a, b, by rw [h, ← hc, e], h0⟩
    · exact ⟨a, b ++ 0 :: post, by rw [h, ← hc, e]; simp, h0⟩

theorem headerEnd_none_iff (mem : Txt) : headerEnd mem = none ↔ ¬HasEnd mem := by
  have hc : cstr mem 0 = mem.takeWhile (· != 0) := by unfold cstr; rw [List.drop_zero]
  have key : ∀ a e b, mem = a ++ (e ++ b) → (0 : UInt8) ∉ a → (0 : UInt8) ∉ e → (strstr e (cstr mem 0)).isSome := by
    rintro a e b rfl ha he
    rw [cstr_append _ _ ha, cstr_append _ _ he]
    exact strstr_some_of _ _ _
  constructor
  · rintro hn ⟨a, e, b, hm, ha, he⟩
    unfold headerEnd at hn
    rcases he with rfl | rfl
    · have := key a _ b hm ha (by decide)
      cases hs : strstr [13, 10, 13, 10] (cstr mem 0) with
      | none => rw [hs] at this; cases this
      | some i => rw [hs] at hn; cases hn
    · have := key a _ b hm ha (by decide)
      cases hs : strstr [13, 10, 13, 10] (cstr mem 0) with
      | some i => rw [hs] at hn; cases hn
      | none =>
        rw [hs] at hn
        dsimp only at hn
        rw [Option.map_eq_none_iff] at hn
        rw [hn] at this; cases this
  · intro hn
    unfold headerEnd
    cases hs : strstr [13, 10, 13, 10] (cstr mem 0) with
    | some i =>
      obtain ⟨a, b, h1, h2⟩ := strstr_cstr (pat := [13, 10, 13, 10]) (mem := mem) (by rw [hs]; rfl)
      exact absurd ⟨a, _, b, h1, h2, .inl rfl⟩ hn
    | none =>
      dsimp only
      cases hs2 : strstr [10, 10] (cstr mem 0) with
      | none => rfl
      | some i =>
        obtain ⟨a, b, h1, h2⟩ := strstr_cstr (pat := [10, 10]) (mem := mem) (by rw [hs2]; rfl)
        exact absurd ⟨a, _, b, h1, h2, .inr rfl⟩ hn

theorem firstLine_zero (uri ver : Option Nat) (pos : Nat) (s l : Txt) (u v : Option Nat) (rest : Txt) (h : firstLine uri ver pos s = some (l, u, v, rest)) : (0 : UInt8) ∈ l := by
  have key : ∀ (x : UInt8) (o : Option (Txt × Option Nat × Option Nat × Txt)), (∀ l u v r, o = some (l, u, v, r) → (0 : UInt8) ∈ l) →
      o.map (fun r => (x :: r.1, r.2)) = some (l, u, v, rest) → (0 : UInt8) ∈ l := by
    intro x o hi h
    rcases o with _ | ⟨l', u', v', r'⟩
    · cases h
    · cases h
      exact List.mem_cons_of_mem _ (hi _ _ _ _ rfl)
  induction s generalizing uri ver pos l u v rest with
  | nil => cases h
  | cons c s ih =>
    cases s with
    | nil => cases h
    | cons d s =>
      rw [firstLine] at h
      by_cases h1 : c = 32 ∧ ver = none
      · rw [if_pos h1] at h
        exact key _ _ (fun l u v r e => ih _ _ _ _ _ _ _ e (fun x o hi h => by
          rcases o with _ | ⟨l', u', v', r'⟩
          · cases h
          · cases h; exact List.mem_cons_of_mem _ (hi _ _ _ _ rfl))) h
      · rw [if_neg h1] at h
        by_cases h2 : c = 13
        · rw [if_pos h2] at h
          exact key _ _ (fun l u v r e => ih _ _ _ _ _ _ _ e (fun x o hi h => by
            rcases o with _ | ⟨l', u', v', r'⟩
            · cases h
            · cases h; exact List.mem_cons_of_mem _ (hi _ _ _ _ rfl))) h
        · rw [if_neg h2] at h
          by_cases h3 : c = 10
          · rw [if_pos h3] at h; cases h; simp
          · rw [if_neg h3] at h
            exact key _ _ (fun l u v r e => ih _ _ _ _ _ _ _ e (fun x o hi h => by
              rcases o with _ | ⟨l', u', v', r'⟩
              · cases h
              · cases h; exact List.mem_cons_of_mem _ (hi _ _ _ _ rfl))) h

theorem parse_zero {mem mem' : Txt} {h : Head} (e : parseHeader mem = some (mem', h)) : (0 : UInt8) ∈ mem' := by
  unfold parseHeader at e
  cases hf : firstLine none none 0 mem with
  | none => rw [hf] at e; cases e
  | some q =>
    obtain ⟨l, u, v, rest⟩ := q
    rw [hf] at e
    have hz := firstLine_zero _ _ _ _ _ _ _ _ hf
    dsimp only at e
    cases u with
    | none => cases e
    | some u =>
      cases v with
      | none => cases e
      | some v =>
        dsimp only at e
        cases hk : fields maxHeaders l.length rest with
        | none => rw [hk] at e; cases e
        | some k =>
          rw [hk] at e
          cases e
          simp [hz]

theorem post_no_end (tail : Txt) : ¬HasEnd (POST ++ 0 :: tail) := by
  rw [← headerEnd_none_iff]
  unfold headerEnd
  rw [cstr_zero _ _ (by decide)]
  decide +kernel

theorem session_stuck (odd : Txt → UInt8) (tree : List Handler) (junk tail : Txt) (bs : List Txt) :
    session odd tree junk (POST ++ 0 :: tail) bs = .wait ∨ session odd tree junk (POST ++ 0 :: tail) bs = .error 413 := by
  induction bs generalizing tail with
  | nil => exact .inl rfl
  | cons b bs ih =>
    rw [session]
    by_cases hl : (POST ++ 0 :: tail ++ b).length > 65536
    · rw [if_pos hl]; exact .inr rfl
    · rw [if_neg hl, show POST ++ 0 :: tail ++ b = POST ++ 0 :: (tail ++ b) by simp]
      have : receive odd tree junk (POST ++ 0 :: (tail ++ b)) = (POST ++ 0 :: (tail ++ b), .wait) := by
        unfold receive
        rw [(headerEnd_none_iff _).mpr (post_no_end _)]
      rw [this]
      exact ih _

/-- C124: a POST request whose body did not arrive together with the header is never answered: once the server has seen the header and waits
for the body, it waits until the connection is closed or the input is too long, whatever arrives. -/
theorem C124_stuck_counterexample (odd : Txt → UInt8) (tree : List Handler) (junk mem mem' : Txt) (hend : HasEnd mem) (hw : receive odd tree junk mem = (mem', .wait)) (bs : List Txt) :
    session odd tree junk mem' bs = .wait ∨ session odd tree junk mem' bs = .error 413 := by
  unfold receive at hw
  cases he : headerEnd mem with
  | none => exact absurd hend ((headerEnd_none_iff mem).mp he)
  | some fh =>
    rw [he] at hw
    dsimp only at hw
    cases hp : parseHeader mem with
    | none => rw [hp] at hw; cases hw
    | some q =>
      obtain ⟨m1, h⟩ := q
      rw [hp] at hw
      dsimp only at hw
      have h1 : m1 = mem' := congrArg Prod.fst hw
      have h2 : request odd tree junk fh m1 h = .wait := congrArg Prod.snd hw
      subst h1
      have hpost : cstr m1 0 = POST := by
        rcases request_serve odd tree junk fh m1 h with ⟨c, e⟩ | ⟨_, e⟩ | ⟨r, e⟩
        · rw [e] at h2; cases h2
        · exact e
        · rw [e] at h2
          unfold serve at h2
          split at h2
          · cases h2
          · split at h2
            · cases h2
            · split at h2
              · cases h2
              · split at h2 <;> cases h2
      have hz := parse_zero hp
      have hc : cstr m1 0 = m1.takeWhile (· != 0) := by unfold cstr; rw [List.drop_zero]
      rcases takeWhile_split m1 with e | ⟨post, e⟩
      · rw [e] at hz; exact absurd hz (takeWhile_nonul m1)
      · rw [← hc, hpost] at e
        rw [e]
        exact session_stuck odd tree junk post bs

/-- a POST request with content length 200 of which only the header has arrived -/
def slowPost : Txt := wire true ⟨POST, [47], http10, [(contentLength, [32], [50, 48, 48])]⟩
example : HasEnd slowPost ∧ (receive (fun _ => 0) [site [47]] [] slowPost).2 = .wait :=
  ⟨⟨slowPost.take 36, [13, 10, 13, 10], [], by decide +kernel, by decide +kernel, .inl rfl⟩, by decide +kernel⟩

/-- C124: the length of the body is compared with the length of the whole request, so a request is answered although its body is not
complete: here 1 of 5 bytes has arrived. -/
theorem C124_early_counterexample : ∃ h r, (receive (fun _ => 0) [site [47]] [] (wire true ⟨POST, [47], http10, [(contentLength, [32], [53])]⟩ ++ [97])).2 = .call h r ∧
    r.params = [([97], [])] := ⟨_, _, rfl, rfl⟩

/-- C124: with line feeds only, a body with an empty line is cut: the parameters are looked for behind it. -/
theorem C124_body_counterexample : ∃ h r, (receive (fun _ => 0) [site [47]] [] (wire false ⟨POST, [47], http10, [(contentLength, [32], [56])]⟩ ++ [97, 61, 13, 10, 13, 10, 98])).2 = .call h r ∧
    r.params = [([98], [])] := ⟨_, _, rfl, rfl⟩

theorem strstr_line (t : Txt) (c : UInt8) (rest : Txt) (h : (13 : UInt8) ∉ t) (hc : c ≠ 13) :
    strstr [13, 10, 13, 10] (t ++ 13 :: 10 :: c :: rest) = (strstr [13, 10, 13, 10] (c :: rest)).map (· + (t.length + 2)) := by
  induction t with
  | nil =>
    have e1 : ([13, 10, 13, 10] : Txt).isPrefixOf (13 :: 10 :: c :: rest) = false := by
      simp only [List.isPrefixOf, beq_self_eq_true, Bool.true_and, Bool.and_eq_false_iff]
      exact .inl (by simpa using fun h => hc h.symm)
    have e2 : ([13, 10, 13, 10] : Txt).isPrefixOf (10 :: c :: rest) = false := rfl
    rw [List.nil_append, strstr, if_neg (by simp [e1]), strstr, if_neg (by simp [e2])]
    cases strstr [13, 10, 13, 10] (c :: rest) <;> rfl
  | cons x t ih =>
    have hx : x ≠ 13 := fun q => h (q ▸ List.mem_cons_self)
    have e1 : ([13, 10, 13, 10] : Txt).isPrefixOf (x :: (t ++ 13 :: 10 :: c :: rest)) = false := by
      simp only [List.isPrefixOf, Bool.and_eq_false_iff]
      exact .inl (by simpa using fun h => hx h.symm)
    rw [List.cons_append, strstr, if_neg (by simp [e1]), ih (fun q => h (List.mem_cons_of_mem _ q))]
    cases strstr [13, 10, 13, 10] (c :: rest) with
    | none => rfl
    | some i => simp [Nat.add_assoc]

theorem strstr_last (t rest : Txt) (h : (13 : UInt8) ∉ t) : strstr [13, 10, 13, 10] (t ++ 13 :: 10 :: 13 :: 10 :: rest) = some t.length := by
  induction t with
  | nil => simp [strstr, List.isPrefixOf]
  | cons x t ih =>
    have hx : x ≠ 13 := fun q => h (q ▸ List.mem_cons_self)
    have e1 : ([13, 10, 13, 10] : Txt).isPrefixOf (x :: (t ++ 13 :: 10 :: 13 :: 10 :: rest)) = false := by
      simp only [List.isPrefixOf, Bool.and_eq_false_iff]
      exact .inl (by simpa using fun h => hx h.symm)
    rw [List.cons_append, strstr, if_neg (by simp [e1]), ih (fun q => h (List.mem_cons_of_mem _ q))]
    rfl

theorem strstr_fields (t : Txt) (h : (13 : UInt8) ∉ t) (fs : List (Txt × Txt × Txt)) (hf : ∀ f, f ∈ fs → Field f) (rest : Txt) :
    strstr [13, 10, 13, 10] (t ++ (eol true ++ (fieldLines true fs ++ (eol true ++ rest)))) = some (t.length + (fieldLines true fs).length) := by
  induction fs generalizing t with
  | nil => simpa [fieldLines, eol] using strstr_last t rest h
  | cons f fs ih =>
    obtain ⟨hn, hb, hv, _⟩ := hf f List.mem_cons_self
    have hb0 : (13 : UInt8) ∉ f.2.1 := fun h => by rcases hb 13 h with h | h <;> exact absurd h (by decide)
    have h1 : (13 : UInt8) ∉ f.1 := free_not hn (by simp)
    have h2 : (13 : UInt8) ∉ f.2.2 := free_not hv (by simp)
    have hi := ih (f.1 ++ 58 :: (f.2.1 ++ f.2.2)) (by simp only [List.mem_append, List.mem_cons, not_or]; exact ⟨h1, by decide, hb0, h2⟩)
      (fun g hg => hf g (List.mem_cons_of_mem _ hg))
    have e : t ++ (eol true ++ (fieldLines true (f :: fs) ++ (eol true ++ rest))) =
        t ++ 13 :: 10 :: ((f.1 ++ 58 :: (f.2.1 ++ f.2.2)) ++ (eol true ++ (fieldLines true fs ++ (eol true ++ rest)))) := by
      simp [fieldLines, eol]
    rw [e]
    generalize hg : (f.1 ++ 58 :: (f.2.1 ++ f.2.2)) ++ (eol true ++ (fieldLines true fs ++ (eol true ++ rest))) = z at hi ⊢
    cases z with
    | nil => exact absurd (congrArg List.length hg) (by simp)
    | cons c z =>
      have hc : c ≠ 13 := by
        rintro rfl
        cases hn1 : f.1 with
        | nil => rw [hn1] at hg; cases hg
        | cons y n => rw [hn1] at hg h1; cases hg; exact h1 List.mem_cons_self
      rw [strstr_line t c z h hc, hi]
      simp [fieldLines, eol]
      omega

theorem headerEnd_crlf (m : Message) (w : WellFormed m) (body : Txt) : headerEnd (wire true m ++ body) = some (wire true m).length := by
  have h1 : (13 : UInt8) ∉ m.method := free_not w.method (by simp)
  have h2 : (13 : UInt8) ∉ m.uri := free_not w.uri (by simp)
  have h3 : (13 : UInt8) ∉ m.version := free_not w.version (by simp)
  unfold headerEnd
  rw [cstr_append _ _ (free_wire true m w)]
  have e : wire true m ++ cstr body 0 = (m.method ++ 32 :: (m.uri ++ 32 :: m.version)) ++ (eol true ++ (fieldLines true m.fields ++ (eol true ++ cstr body 0))) := by
    simp [wire]
  rw [e, strstr_fields _ (by simp only [List.mem_append, List.mem_cons, not_or]; exact ⟨h1, by decide, h2, by decide, h3⟩) _ w.fields]
  simp [wire, eol]
  omega

/-- C124 (`_partial`): a POST request with lines ended by carriage return and line feed which arrives as a whole gets the parameters of its
body, and the handler is chosen with its decoded URI.  Missing: bodies which arrive later, and other ends of line, see the counterexamples. -/
theorem C124_post_partial (odd : Txt → UInt8) (tree : List Handler) (junk : Txt) (m : Message) (w : WellFormed m) (h16 : m.fields.length ≤ 16)
    (hm : m.method = POST) (hv : m.version = http10 ∨ m.version = http11) (hu : m.uri.length < 256)
    (t : Txt) (henc : Encodes t m.uri) (ht : (0 : UInt8) ∉ t) (h35 : (35 : UInt8) ∉ m.uri) (ps : List (Txt × Txt)) (hps : ∀ p, p ∈ ps → Param p)
    (pre post : List (Txt × Txt × Txt)) (b digits : Txt) (hf : m.fields = pre ++ (contentLength, b, digits) :: post) (hpre : ∀ f, f ∈ pre → f.1 ≠ contentLength)
    (hd : digits ≠ []) (hdig : ∀ c, c ∈ digits → IsoNum.isDigit c = true) (hval : IsoNum.decVal digits = (query ps).length) (hsmall : (query ps).length < 2 ^ 64) :
    ∃ r, (receive odd tree junk (wire true m ++ query ps)).2 = serve tree r ∧ cstr r.uri 0 = t ∧ r.params = ps.take 8 ∧ r.method = POST ∧
      r.flds = m.fields.map fun f => (f.1, f.2.2) := by
  obtain ⟨fh, mem, h, h0, h1, h2, h3, h4, h5, h6, h7⟩ := receive_wire odd tree junk true m w (query ps) h16
  rw [headerEnd_crlf m w] at h0
  cases h0
  have hu0 : (0 : UInt8) ∉ m.uri := free_not w.uri (by simp)
  rw [h1]
  dsimp only
  unfold request
  dsimp only
  rw [if_neg (version_ok (by rw [h4]; exact hv)), if_neg (show ¬(cstr mem h.uri).length ≥ maxUri by rw [h3]; unfold maxUri; omega), h2, hm, if_pos rfl, h5]
  have hl : lookupValue (m.fields.map fun f => (f.1, f.2.2)) contentLength = some digits := by
    rw [hf, List.map_append, List.map_cons]
    refine C120_lookup _ _ _ _ ?_
    intro p hp
    obtain ⟨f, hf, rfl⟩ := List.mem_map.mp hp
    exact hpre f hf
  rw [hl]
  dsimp only
  have hs : strtoul digits = (query ps).length := by
    unfold strtoul
    have := IsoNum.strtoull_digits digits [] hd hdig (fun _ h => nomatch h)
    rw [List.append_nil] at this
    rw [this, hval, if_neg (by unfold IsoNum.W; omega)]
    rfl
  rw [if_neg (by rw [hs, h6]; simp)]
  refine ⟨_, rfl, ?_, ?_, rfl, rfl⟩
  · dsimp only
    rw [h3, prepare_plain odd _ _ hu0 h35, decode_encodes odd henc, cstr_zero _ _ ht]
  · dsimp only
    have : cstr mem (wire true m).length = query ps := by
      have hc : cstr mem (wire true m).length = cstr (mem.drop (wire true m).length) 0 := by unfold cstr; rw [List.drop_zero]
      rw [hc, h7, cstr_all _ (query_nonul ps hps)]
    rw [this]
    exact parseQuery_query ps hps

example : ∃ h r, (receive (fun _ => 0) [site [47]] [] (wire true ⟨POST, [47], http10, [(contentLength, [32], [51])]⟩ ++ query [([97], [49])])).2 = .call h r ∧
    r.params = [([97], [49])] := ⟨_, _, rfl, rfl⟩

/-! ### C125 -/

theorem HasEnd.append {x : Txt} (h : HasEnd x) (y : Txt) : HasEnd (x ++ y) := by
  obtain ⟨a, e, b, hx, ha, he⟩ := h
  exact ⟨a, e, b ++ y, by rw [hx]; simp, ha, he⟩

/-- C125: as long as the end of the header has not arrived, it does not matter in which pieces the data arrives. -/
theorem C125_pieces (odd : Txt → UInt8) (tree : List Handler) (junk mem : Txt) (bs : List Txt) (b : Txt) (more : List Txt)
    (hno : ¬HasEnd (mem ++ bs.flatten)) : session odd tree junk mem (bs ++ b :: more) = session odd tree junk mem ((bs.flatten ++ b) :: more) := by
  induction bs generalizing mem with
  | nil => rfl
  | cons x bs ih =>
    have hn : ¬HasEnd (mem ++ x) := fun h => hno (by
      have := h.append bs.flatten
      simpa using this)
    have hi := ih (mem ++ x) (by simpa using hno)
    rw [List.cons_append, session]
    by_cases hl : (mem ++ x).length > 65536
    · rw [if_pos hl]
      rw [session, if_pos (by simp at hl ⊢; omega)]
    · rw [if_neg hl]
      have : receive odd tree junk (mem ++ x) = (mem ++ x, .wait) := by
        unfold receive
        rw [(headerEnd_none_iff _).mpr hn]
      rw [this]
      dsimp only
      rw [hi, session, session]
      simp only [List.flatten_cons, List.append_assoc]

/-- C125: so a request without body gets the same answer however it is cut into pieces (up to 64 KiB). -/
theorem C125_get (odd : Txt → UInt8) (tree : List Handler) (junk : Txt) (bs : List Txt) (b : Txt) (hno : ¬HasEnd bs.flatten) (hl : (bs.flatten ++ b).length ≤ 65536) :
    session odd tree junk [] (bs ++ [b]) = (receive odd tree junk (bs.flatten ++ b)).2 := by
  rw [C125_pieces odd tree junk [] bs b [] (by simpa using hno), session, if_neg (by rw [List.nil_append]; omega), List.nil_append]
  rcases receive odd tree junk (bs.flatten ++ b) with ⟨m, a⟩
  cases a <;> rfl

example : ¬HasEnd ([[71, 69], [84, 32]] : List Txt).flatten := by
  rw [← headerEnd_none_iff]; decide +kernel

/-! ### C126 -/

/-- text of a command with its parameter -/
def Command (t : Txt) (c : Txt × Txt) : Prop := (32 : UInt8) ∉ c.1 ∧ ((t = c.1 ∧ c.2 = []) ∨ t = c.1 ++ 32 :: c.2)

/-- texts of a list of commands -/
inductive Commands : List Txt → List (Txt × Txt) → Prop
  | nil : Commands [] []
  | cons {t : Txt} {c : Txt × Txt} {ts : List Txt} {cs : List (Txt × Txt)} : Command t c → Commands ts cs → Commands (t :: ts) (c :: cs)

theorem splitCommand_of {t : Txt} {c : Txt × Txt} (h : Command t c) : splitCommand t = c := by
  obtain ⟨h1, h2⟩ := h
  have hall : ∀ x ∈ c.1, (x != 32) = true := fun x hx => by simp; rintro rfl; exact h1 hx
  unfold splitCommand
  rcases h2 with ⟨rfl, h2⟩ | rfl
  · have e1 : c.1.takeWhile (· != 32) = c.1 := by
      have := List.takeWhile_append_of_pos (l₂ := []) hall
      simpa using this
    have e2 : c.1.dropWhile (· != 32) = [] := by
      have := List.dropWhile_append_of_pos (l₂ := []) hall
      simpa using this
    rw [e1, e2]
    obtain ⟨a, b⟩ := c
    simp_all
  · rw [List.takeWhile_append_of_pos hall, List.dropWhile_append_of_pos hall]
    simp

theorem splitSlash_text (t s : Txt) (h : (47 : UInt8) ∉ t) : splitSlash (t ++ 47 :: s) = t :: splitSlash s := by
  induction t with
  | nil => simp [splitSlash]
  | cons c t ih =>
    have hc : c ≠ 47 := fun q => h (q ▸ List.mem_cons_self)
    rw [List.cons_append, splitSlash, if_neg hc, ih (fun q => h (List.mem_cons_of_mem _ q))]

theorem splitSlash_joined (ps : List Txt) (hne : ps ≠ []) (h : ∀ p, p ∈ ps → (47 : UInt8) ∉ p) : splitSlash (joined 47 ps) = ps := by
  induction ps with
  | nil => exact absurd rfl hne
  | cons p ps ih =>
    cases ps with
    | nil =>
      have hp := h p List.mem_cons_self
      clear h ih hne
      rw [joined]
      induction p with
      | nil => rfl
      | cons c t ih =>
        have hc : c ≠ 47 := fun q => hp (q ▸ List.mem_cons_self)
        rw [splitSlash, if_neg hc, ih (fun q => hp (List.mem_cons_of_mem _ q))]
    | cons q ps =>
      rw [joined, splitSlash_text _ _ (h p List.mem_cons_self), ih (by simp) (fun r hr => h r (List.mem_cons_of_mem _ hr))]
      simp

theorem telnetLoop_ok (exec : List (Txt × Txt) → Txt × Txt → Telnet) (ts : List Txt) (past : List (Txt × Txt))
    (hok : ∀ pre c post, ts.map splitCommand = pre ++ c :: post → exec (past ++ pre) c = .ok) (rest : List Txt) :
    telnetLoop exec past (ts ++ rest) = telnetLoop exec (past ++ ts.map splitCommand) rest := by
  induction ts generalizing past with
  | nil => simp
  | cons t ts ih =>
    have h1 : exec past (splitCommand t) = .ok := by simpa using hok [] _ _ rfl
    rw [List.cons_append, telnetLoop, h1]
    dsimp only
    rw [ih (past ++ [splitCommand t]) (fun pre c post e => by
      have := hok (splitCommand t :: pre) c post (by rw [List.map_cons, e]; rfl)
      simpa using this)]
    simp

/-- C126: the URI "/telnet/" followed by commands separated by "/" executes them in this order, with their parameters; all of them if all
succeed. -/
theorem C126_all (exec : List (Txt × Txt) → Txt × Txt → Telnet) (ts : List Txt) (cs : List (Txt × Txt)) (junk : Txt) (hne : ts ≠ [])
    (hcmd : Commands ts cs) (hfree : ∀ t, t ∈ ts → Free [0, 47] t)
    (hok : ∀ pre c post, cs = pre ++ c :: post → exec pre c = .ok) :
    telnet exec (telnetHandler.site ++ joined 47 ts ++ 0 :: junk) = (cs, 200) := by
  have hmap : ts.map splitCommand = cs := by
    clear hne hfree hok
    induction hcmd with
    | nil => rfl
    | cons h _ ih => rw [List.map_cons, splitCommand_of h, ih]
  have h0 : (0 : UInt8) ∉ joined 47 ts := by
    clear hcmd hok hmap hne
    induction ts with
    | nil => simp [joined]
    | cons t ts ih =>
      have ht : (0 : UInt8) ∉ t := free_not (hfree t List.mem_cons_self) (by simp)
      have hi := ih fun q hq => hfree q (List.mem_cons_of_mem _ hq)
      cases ts with
      | nil => simpa [joined] using ht
      | cons q ts =>
        rw [joined]
        · simp only [List.mem_append, List.mem_cons, not_or]; exact ⟨ht, by decide, hi⟩
        · simp
  unfold telnet
  have hc : cstr (telnetHandler.site ++ joined 47 ts ++ 0 :: junk) 8 = joined 47 ts := by
    rw [List.append_assoc]; exact cstr_at telnetHandler.site _ _ h0
  rw [hc, splitSlash_joined ts hne (fun t ht => free_not (hfree t ht) (by simp))]
  have := telnetLoop_ok exec ts [] (by rw [hmap]; simpa using hok) []
  rw [List.append_nil] at this
  rw [this, hmap]
  simp [telnetLoop]

/-- C126: the first command which fails is the last one executed, and the answer says so. -/
theorem C126_first_failure (exec : List (Txt × Txt) → Txt × Txt → Telnet) (ts : List Txt) (cs : List (Txt × Txt)) (junk : Txt)
    (hcmd : Commands ts cs) (hfree : ∀ t, t ∈ ts → Free [0, 47] t) (pre : List (Txt × Txt)) (c : Txt × Txt) (post : List (Txt × Txt))
    (hcs : cs = pre ++ c :: post) (hok : ∀ p d q, pre = p ++ d :: q → exec p d = .ok) (hbad : exec pre c ≠ .ok) :
    telnet exec (telnetHandler.site ++ joined 47 ts ++ 0 :: junk) = (pre ++ [c], if exec pre c = .unknown then 404 else 400) := by
  have hmap : ts.map splitCommand = cs := by
    clear hfree
    clear hcs
    induction hcmd with
    | nil => rfl
    | cons h _ ih => rw [List.map_cons, splitCommand_of h, ih]
  have hne : ts ≠ [] := by rintro rfl; rw [← hmap] at hcs; simp at hcs
  have h0 : (0 : UInt8) ∉ joined 47 ts := by
    clear hcmd hok hmap hne
    induction ts with
    | nil => simp [joined]
    | cons t ts ih =>
      have ht : (0 : UInt8) ∉ t := free_not (hfree t List.mem_cons_self) (by simp)
      have hi := ih fun q hq => hfree q (List.mem_cons_of_mem _ hq)
      cases ts with
      | nil => simpa [joined] using ht
      | cons q ts =>
        rw [joined]
        · simp only [List.mem_append, List.mem_cons, not_or]; exact ⟨ht, by decide, hi⟩
        · simp
  unfold telnet
  have hc : cstr (telnetHandler.site ++ joined 47 ts ++ 0 :: junk) 8 = joined 47 ts := by
    rw [List.append_assoc]; exact cstr_at telnetHandler.site _ _ h0
  rw [hc, splitSlash_joined ts hne (fun t ht => free_not (hfree t ht) (by simp))]
  obtain ⟨t1, t2, hts, hm1, hm2⟩ := List.map_eq_append_iff.mp (hmap.trans hcs)
  obtain ⟨t3, t4, ht2, hm3, hm4⟩ := List.map_eq_cons_iff.mp hm2
  have := telnetLoop_ok exec t1 [] (by rw [hm1]; simpa using hok) t2
  rw [hts, this, hm1, ht2, List.nil_append, telnetLoop, hm3]
  cases he : exec pre c with
  | ok => exact absurd he hbad
  | unknown => rfl
  | failed => rfl

/-- "/telnet/a b/c" -/
example : Commands [[97, 32, 98], [99]] [([97], [98]), ([99], [])] :=
  .cons ⟨by decide, .inr rfl⟩ (.cons ⟨by decide, .inl ⟨rfl, rfl⟩⟩ .nil)

/-- C126: for the URI "/telnet" the commands are taken from what happens to be in the memory behind it, which is the fragment of the URI if
there is one. -/
theorem C126_counterexample (exec : List (Txt × Txt) → Txt × Txt → Telnet) (odd : Txt → UInt8) (frag junk : Txt) (hf : (0 : UInt8) ∉ frag) :
    telnet exec (prepareUri odd ([47, 116, 101, 108, 110, 101, 116] ++ 35 :: frag) junk) = telnetLoop exec [] (splitSlash frag) := by
  rw [prepare_fragment odd _ _ _ (by decide) (by decide)]
  have hd : decode odd [47, 116, 101, 108, 110, 101, 116] = [47, 116, 101, 108, 110, 101, 116] :=
    decode_encodes odd (.plain (by decide) (.plain (by decide) (.plain (by decide) (.plain (by decide) (.plain (by decide) (.plain (by decide) (.plain (by decide) .nil)))))))
  rw [hd]
  unfold telnet
  have : cstr ([47, 116, 101, 108, 110, 101, 116] ++ 0 :: ([47, 116, 101, 108, 110, 101, 116] ++ 0 :: (frag ++ 0 :: junk)).drop
      (([47, 116, 101, 108, 110, 101, 116] : Txt).length + 1)) 8 = frag := cstr_at [47, 116, 101, 108, 110, 101, 116, 0] frag junk hf
  rw [this]

end Verif.Http
