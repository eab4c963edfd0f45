import Verif.Http.Props

namespace Verif.Http
open Verif.Netaddr (strcasecmp toLower)

/-! ### C121 -/

/-- C121: a handler which is found is one of the registered ones and responsible for the URI. -/
theorem C121_sound (tree : List Handler) (uri : Txt) (h : Handler) (hh : siteHandler tree uri = some h) : h ∈ tree ∧ Covers h.site uri := by
  unfold siteHandler at hh
  cases h1 : tree.find? fun h => strcasecmp h.site uri == 0 with
  | some g =>
    rw [h1] at hh
    cases hh
    have := List.find?_some h1
    simp only [beq_iff_eq] at this
    exact ⟨List.mem_of_find?_eq_some h1, .inl ((Netaddr.strcasecmp_zero _ _).mp this)⟩
  | none =>
    rw [h1] at hh
    dsimp only at hh
    cases h2 : ((tree.filter fun h => strcasecmp h.site uri ≤ 0).getLast?).filter fun h => h.directory && sameStart h.site uri h.site.length with
    | some g =>
      rw [h2] at hh
      cases hh
      obtain ⟨h3, h4⟩ := Option.filter_eq_some_iff.mp h2
      have hm := (List.mem_filter.mp (List.mem_of_getLast? h3)).1
      simp only [Bool.and_eq_true, Handler.directory, beq_iff_eq] at h4
      exact ⟨hm, .inr (.inl ⟨h4.1, (sameStart_iff _ _).mp h4.2⟩)⟩
    | none =>
      rw [h2] at hh
      dsimp only at hh
      obtain ⟨h3, h4⟩ := Option.filter_eq_some_iff.mp hh
      refine ⟨List.mem_of_find?_eq_some h3, .inr (.inr ?_)⟩
      simp only [Bool.and_eq_true, beq_iff_eq] at h4
      refine ⟨h.site.take uri.length, ?_, ?_⟩
      · rw [← h4.2, List.take_append_drop]
      · have := h4.1
        unfold sameStart at this
        rw [List.take_length, beq_iff_eq] at this
        exact this

/-- C121: a handler registered for exactly this URI (apart from upper and lower case) is preferred. -/
theorem C121_exact (tree : List Handler) (uri : Txt) (g : Handler) (hg : g ∈ tree) (hs : Same g.site uri) :
    ∃ h, siteHandler tree uri = some h ∧ Same h.site uri := by
  unfold siteHandler
  cases h1 : tree.find? fun h => strcasecmp h.site uri == 0 with
  | some h =>
    have := List.find?_some h1
    simp only [beq_iff_eq] at this
    exact ⟨h, rfl, (Netaddr.strcasecmp_zero _ _).mp this⟩
  | none =>
    have := List.find?_eq_none.mp h1 g hg
    simp [(Netaddr.strcasecmp_zero _ _).mpr hs] at this

/-- the tree is in the order of the sites, every site is there once -/
def Ordered (tree : List Handler) : Prop := tree.Pairwise fun a b => strcasecmp a.site b.site < 0

theorem le_getLast {α : Type} {R : α → α → Prop} {l : List α} (h : l.Pairwise R) {a b : α} (ha : a ∈ l) (hb : l.getLast? = some b) : a = b ∨ R a b := by
  induction l with
  | nil => cases ha
  | cons x l ih =>
    cases l with
    | nil =>
      simp only [List.getLast?_singleton, Option.some.injEq] at hb
      simp only [List.mem_singleton] at ha
      exact .inl (ha.trans hb)
    | cons y l =>
      rw [List.getLast?_cons_cons] at hb
      obtain ⟨h1, h2⟩ := List.pairwise_cons.mp h
      rcases List.mem_cons.mp ha with rfl | ha
      · exact .inr (h1 b (List.mem_of_getLast? hb))
      · exact ih h2 ha hb

theorem find_le {α : Type} {R : α → α → Prop} {l : List α} (h : l.Pairwise R) (p : α → Bool) {a b : α} (ha : a ∈ l) (hp : p a = true) (hb : l.find? p = some b) :
    a = b ∨ R b a := by
  induction l with
  | nil => cases ha
  | cons x l ih =>
    obtain ⟨h1, h2⟩ := List.pairwise_cons.mp h
    by_cases hx : p x = true
    · rw [List.find?_cons_of_pos hx] at hb
      cases hb
      rcases List.mem_cons.mp ha with rfl | ha
      · exact .inl rfl
      · exact .inr (h1 a ha)
    · rw [List.find?_cons_of_neg hx] at hb
      rcases List.mem_cons.mp ha with rfl | ha
      · exact absurd hp hx
      · exact ih h2 ha hb

/-- C121 (`_partial`): the handler of a directory answers for everything in it if no other handler is registered below the directory.
Missing: directories with other handlers below, see `C121_hidden_counterexample`. -/
theorem C121_directory_partial (tree : List Handler) (ho : Ordered tree) (uri : Txt) (h : Handler) (hm : h ∈ tree) (hd : h.site.getLast? = some 47)
    (hs : StartsWith h.site uri) (hother : ∀ g, g ∈ tree → g ≠ h → ¬StartsWith h.site g.site) : siteHandler tree uri = some h := by
  have hb : ∀ g, g ∈ tree → strcasecmp h.site g.site ≤ 0 → strcasecmp g.site uri ≤ 0 → g = h := fun g hg h1 h2 => by
    by_cases e : g = h
    · exact e
    · exact absurd (between _ _ _ h1 h2 hs) (hother g hg e)
  have hle := startsWith_le _ _ hs
  unfold siteHandler
  cases h1 : tree.find? fun h => strcasecmp h.site uri == 0 with
  | some g =>
    have e := List.find?_some h1
    simp only [beq_iff_eq] at e
    have hg := List.mem_of_find?_eq_some h1
    have : strcasecmp h.site g.site ≤ 0 := by
      have e2 := (Netaddr.strcasecmp_zero _ _).mp e
      obtain ⟨a, b, hu, hsa⟩ := hs
      refine startsWith_le _ _ ?_
      refine ⟨g.site.take a.length, g.site.drop a.length, (List.take_append_drop _ _).symm, ?_⟩
      unfold Same
      rw [List.map_take, e2, hu, List.map_append, List.take_left' (by simp)]
      exact hsa
    rw [hb g hg this (by omega)]
  | none =>
    dsimp only
    have hmem : h ∈ tree.filter fun h => decide (strcasecmp h.site uri ≤ 0) := List.mem_filter.mpr ⟨hm, by simpa using hle⟩
    cases h2 : (tree.filter fun h => decide (strcasecmp h.site uri ≤ 0)).getLast? with
    | none => rw [List.getLast?_eq_none_iff.mp h2] at hmem; cases hmem
    | some l =>
      have hl := List.mem_filter.mp (List.mem_of_getLast? h2)
      have hlh : l = h := by
        rcases le_getLast (ho.filter _) hmem h2 with e | e
        · exact e.symm
        · exact hb l hl.1 (by omega) (by simpa using hl.2)
      subst hlh
      rw [Option.filter_some_pos (by simp [Handler.directory, hd, (sameStart_iff _ _).mpr hs])]

/-- C121 (`_partial`): a directory is also found without its last "/" if no other site starts with the URI, and the URI is in no other
directory of the list. -/
theorem C121_slash_partial (tree : List Handler) (ho : Ordered tree) (uri : Txt) (h : Handler) (hm : h ∈ tree) (hs : ∃ a, h.site = a ++ [47] ∧ Same a uri)
    (hother : ∀ g, g ∈ tree → g ≠ h → ¬StartsWith uri g.site) (hdir : ∀ g, g ∈ tree → g.site.getLast? = some 47 → ¬StartsWith g.site uri) :
    siteHandler tree uri = some h := by
  obtain ⟨a, ha, hsame⟩ := hs
  have hst : StartsWith uri h.site := ⟨a, [47], ha, hsame.symm⟩
  have hal : a.length = uri.length := by simpa using congrArg List.length hsame
  unfold siteHandler
  cases h1 : tree.find? fun h => strcasecmp h.site uri == 0 with
  | some g =>
    have e := List.find?_some h1
    simp only [beq_iff_eq] at e
    have e2 := (Netaddr.strcasecmp_zero _ _).mp e
    have hg := List.mem_of_find?_eq_some h1
    have : g = h := by
      by_cases q : g = h
      · exact q
      · exact absurd ⟨g.site, [], by simp, e2.symm⟩ (hother g hg q)
    rw [this]
  | none =>
    dsimp only
    have hnone : ((tree.filter fun h => decide (strcasecmp h.site uri ≤ 0)).getLast?).filter (fun h => h.directory && sameStart h.site uri h.site.length) = none := by
      rw [Option.filter_eq_none_iff]
      intro g hg
      have hgt := (List.mem_filter.mp (List.mem_of_getLast? hg)).1
      intro hc
      simp only [Bool.and_eq_true, Handler.directory, beq_iff_eq] at hc
      exact hdir g hgt hc.1 ((sameStart_iff _ _).mp hc.2)
    rw [hnone]
    dsimp only
    have hge : strcasecmp h.site uri ≥ 0 := by
      have := startsWith_le _ _ hst
      have sw := Netaddr.strcasecmp_swap uri h.site
      omega
    cases h2 : tree.find? fun h => decide (strcasecmp h.site uri ≥ 0) with
    | none => exact absurd (List.find?_eq_none.mp h2 h hm) (by simpa using hge)
    | some g =>
      have hg := List.mem_of_find?_eq_some h2
      have hgu := List.find?_some h2
      simp only [decide_eq_true_eq] at hgu
      have hgh : g = h := by
        rcases find_le ho (fun h => decide (strcasecmp h.site uri ≥ 0)) hm (by simpa using hge) h2 with e | e
        · exact e.symm
        · by_cases q : g = h
          · exact q
          · have sw := Netaddr.strcasecmp_swap uri g.site
            exact absurd (between uri g.site h.site (by omega) (by omega) hst) (hother g hg q)
      subst hgh
      rw [Option.filter_some_pos]
      simp only [Bool.and_eq_true, beq_iff_eq]
      refine ⟨(sameStart_rev _ _).mpr hst, ?_⟩
      rw [ha, ← hal, List.drop_left]

def site (s : Txt) : Handler := ⟨s, [], true, false⟩

/-- "/" with "/a" -/
example : Ordered [site [47, 97, 47]] ∧ StartsWith (site [47, 97, 47]).site [47, 97, 47, 98] ∧ siteHandler [site [47, 97, 47]] [47, 97, 47, 98] = some (site [47, 97, 47]) :=
  ⟨List.pairwise_singleton _ _, ⟨[47, 97, 47], [98], rfl, rfl⟩, by decide +kernel⟩
example : siteHandler [site [47, 97, 47]] [47, 65] = some (site [47, 97, 47]) := by decide +kernel

/-- C121: a handler below a directory hides the directory for everything behind it: with "/a/" and "/a/b", nobody answers for "/a/c". -/
theorem C121_hidden_counterexample : Ordered [site [47, 97, 47], site [47, 97, 47, 98]] ∧ Covers (site [47, 97, 47]).site [47, 97, 47, 99] ∧
    siteHandler [site [47, 97, 47], site [47, 97, 47, 98]] [47, 97, 47, 99] = none := by
  refine ⟨?_, .inr (.inl ⟨rfl, [47, 97, 47], [99], rfl, rfl⟩), by decide +kernel⟩
  unfold Ordered
  decide +kernel

/-- C121: with "/a-b" and "/a/" nobody answers for "/a". -/
theorem C121_slash_counterexample : Ordered [site [47, 97, 45, 98], site [47, 97, 47]] ∧ Covers (site [47, 97, 47]).site [47, 97] ∧
    siteHandler [site [47, 97, 45, 98], site [47, 97, 47]] [47, 97] = none := by
  refine ⟨?_, .inr (.inr ⟨[47, 97], rfl, rfl⟩), by decide +kernel⟩
  unfold Ordered
  decide +kernel

/-! ### C122 -/

theorem serve_call {tree : List Handler} {r r' : Request} {h : Handler} (e : serve tree r = .call h r') :
    r' = r ∧ siteHandler tree (cstr r.uri 0) = some h ∧ h.content = false ∧ h.accepts = true ∧ (h.auth = [] ∨ authOkay h r.flds = true) := by
  unfold serve at e
  cases h1 : siteHandler tree (cstr r.uri 0) with
  | none => rw [h1] at e; cases e
  | some g =>
    rw [h1] at e
    dsimp only at e
    cases hc : g.content
    · rw [hc, if_neg (by decide)] at e
      cases ha : g.accepts
      · rw [ha, if_pos (by decide)] at e; cases e
      · rw [ha, if_neg (by decide)] at e
        by_cases hau : g.auth ≠ [] ∧ authOkay g r.flds = false
        · rw [if_pos hau] at e; cases e
        · rw [if_neg hau] at e
          cases e
          refine ⟨rfl, rfl, hc, ha, ?_⟩
          by_cases q : h.auth = []
          · exact .inl q
          · refine .inr ?_
            cases h2 : authOkay h r.flds
            · exact absurd ⟨q, h2⟩ hau
            · rfl
    · rw [hc, if_pos rfl] at e; cases e

theorem request_serve (odd : Txt → UInt8) (tree : List Handler) (junk : Txt) (fh : Nat) (mem : Txt) (h : Head) :
    (∃ c, request odd tree junk fh mem h = .error c) ∨ (request odd tree junk fh mem h = .wait ∧ cstr mem 0 = POST) ∨
      ∃ r, request odd tree junk fh mem h = serve tree r := by
  unfold request
  dsimp only
  by_cases hv : cstr mem h.version ≠ http10 ∧ cstr mem h.version ≠ http11
  · rw [if_pos hv]; exact .inl ⟨_, rfl⟩
  rw [if_neg hv]
  by_cases hu : (cstr mem h.uri).length ≥ maxUri
  · rw [if_pos hu]; exact .inl ⟨_, rfl⟩
  rw [if_neg hu]
  by_cases hp : cstr mem 0 = POST
  · rw [if_pos hp]
    cases lookupValue (headerFields mem h) contentLength with
    | none => exact .inl ⟨_, rfl⟩
    | some cl =>
      dsimp only
      by_cases hl : strtoul cl > mem.length
      · rw [if_pos hl]; exact .inr (.inl ⟨rfl, hp⟩)
      · rw [if_neg hl]; exact .inr (.inr ⟨_, rfl⟩)
  rw [if_neg hp]
  by_cases hg : cstr mem 0 = GET
  · rw [if_pos hg]
    rcases cut 63 (prepareUri odd (cstr mem h.uri) junk) with ⟨u', _ | q⟩ <;> exact .inr (.inr ⟨_, rfl⟩)
  · rw [if_neg hg]; exact .inl ⟨_, rfl⟩

theorem receive_serve (odd : Txt → UInt8) (tree : List Handler) (junk mem : Txt) :
    (∃ c, (receive odd tree junk mem).2 = .error c) ∨ (receive odd tree junk mem).2 = .wait ∨ ∃ r, (receive odd tree junk mem).2 = serve tree r := by
  unfold receive
  cases headerEnd mem with
  | none => exact .inr (.inl rfl)
  | some fh =>
    dsimp only
    cases parseHeader mem with
    | none => exact .inl ⟨_, rfl⟩
    | some q =>
      dsimp only
      rcases request_serve odd tree junk fh q.1 q.2 with h | h | h
      · exact .inl h
      · exact .inr (.inl h.1)
      · exact .inr (.inr h)

/-- an "Authorization" value for the credentials: the word "Basic", blanks, and the credentials -/
def Basic (value cred : Txt) : Prop :=
  ∃ b1 w b2, value = b1 ++ w ++ b2 ++ cred ∧ (∀ c, c ∈ b1 ++ b2 → c = 32 ∨ c = 9) ∧ w.map Str.toLower = ([66, 97, 115, 105, 99] : Txt).map Str.toLower

theorem hasWordLoop_spec (ws bs ws' bs' : List UInt8) (h : Str.hasWordLoop ws bs = (ws', bs')) : ∃ w v, ws = w ++ ws' ∧ bs = v ++ bs' ∧ v.map Str.toLower = w.map Str.toLower := by
  induction ws generalizing bs with
  | nil => rw [show Str.hasWordLoop [] bs = ([], bs) by cases bs <;> rfl] at h; cases h; exact ⟨[], [], rfl, rfl, rfl⟩
  | cons x ws ih =>
    cases bs with
    | nil => rw [show Str.hasWordLoop (x :: ws) [] = (x :: ws, []) from rfl] at h; cases h; exact ⟨[], [], rfl, rfl, rfl⟩
    | cons y bs =>
      rw [Str.hasWordLoop] at h
      by_cases hc : (!Str.isBlank y && Str.toLower x == Str.toLower y) = true
      · rw [if_pos hc] at h
        obtain ⟨w, v, h1, h2, h3⟩ := ih bs h
        simp only [Bool.and_eq_true, beq_iff_eq] at hc
        exact ⟨x :: w, y :: v, by rw [h1]; rfl, by rw [h2]; rfl, by simp [h3, hc.2]⟩
      · rw [if_neg hc] at h; cases h; exact ⟨[], [], rfl, rfl, rfl⟩

theorem skipBlank_spec (s : List UInt8) : ∃ b, s = b ++ Str.skipBlank s ∧ ∀ c, c ∈ b → c = 32 ∨ c = 9 := by
  refine ⟨s.takeWhile Str.isBlank, List.takeWhile_append_dropWhile.symm, ?_⟩
  intro c hc
  have := List.all_takeWhile (p := Str.isBlank) (l := s)
  rw [List.all_eq_true] at this
  have := this c hc
  simpa [Str.isBlank] using this

theorem hasNextWord_basic (value cred : Txt) (h : Str.strHasNextWord value [66, 97, 115, 105, 99] = some cred) : Basic value cred := by
  obtain ⟨b1, hb1, hbl1⟩ := skipBlank_spec value
  unfold Str.strHasNextWord at h
  rcases hw : Str.hasWordLoop [66, 97, 115, 105, 99] (Str.skipBlank value) with ⟨ws', bs'⟩
  rw [hw] at h
  dsimp only at h
  obtain ⟨w, v, h1, h2, h3⟩ := hasWordLoop_spec _ _ _ _ hw
  cases ws' with
  | cons x y => cases bs' <;> cases h
  | nil =>
    rw [List.append_nil] at h1
    cases bs' with
    | nil =>
      cases h
      refine ⟨b1, v, [], ?_, by simpa using hbl1, by rw [h3, ← h1]⟩
      rw [List.append_nil] at h2
      simp [← h2, ← hb1]
    | cons c cs =>
      dsimp only at h
      by_cases hc : Str.isBlank c = true
      · rw [if_pos hc] at h
        obtain ⟨b2, hb2, hbl2⟩ := skipBlank_spec (c :: cs)
        have hcred := Option.some.inj h
        refine ⟨b1, v, b2, ?_, ?_, by rw [h3, ← h1]⟩
        · rw [← hcred, List.append_assoc, ← hb2, List.append_assoc, ← h2]; exact hb1
        · intro d hd
          rcases List.mem_append.mp hd with hd | hd
          · exact hbl1 d hd
          · exact hbl2 d hd
      · rw [if_neg hc] at h; cases h

/-- C122: the callback of a handler is only called for clients the access control list of the handler accepts, and, if there are credentials,
with one of them in the first "Authorization" field. -/
theorem C122_access (odd : Txt → UInt8) (tree : List Handler) (junk mem : Txt) (h : Handler) (r : Request) (hc : (receive odd tree junk mem).2 = .call h r) :
    h ∈ tree ∧ h.accepts = true ∧ (h.auth = [] ∨ ∃ pre name value post cred, r.flds = pre ++ (name, value) :: post ∧
      name = [65, 117, 116, 104, 111, 114, 105, 122, 97, 116, 105, 111, 110] ∧ (∀ p, p ∈ pre → p.1 ≠ name) ∧ Basic value cred ∧ cred ∈ h.auth) := by
  rcases receive_serve odd tree junk mem with ⟨c, e⟩ | e | ⟨r', e⟩
  · rw [e] at hc; cases hc
  · rw [e] at hc; cases hc
  · rw [e] at hc
    obtain ⟨rfl, h1, _, h3, h4⟩ := serve_call hc
    refine ⟨(C121_sound _ _ _ h1).1, h3, ?_⟩
    rcases h4 with h4 | h4
    · exact .inl h4
    · refine .inr ?_
      unfold authOkay lookupValue at h4
      cases hf : r.flds.find? fun p => p.1 == [65, 117, 116, 104, 111, 114, 105, 122, 97, 116, 105, 111, 110] with
      | none => rw [hf] at h4; cases h4
      | some p =>
        rw [hf] at h4
        dsimp only [Option.map_some] at h4
        cases hw : Str.strHasNextWord p.2 [66, 97, 115, 105, 99] with
        | none => rw [hw] at h4; cases h4
        | some cred =>
          rw [hw] at h4
          dsimp only at h4
          obtain ⟨x, hx, hxe⟩ := List.any_eq_true.mp h4
          simp only [beq_iff_eq] at hxe
          subst hxe
          obtain ⟨hp, pre, post, he, hpre⟩ := List.find?_eq_some_iff_append.mp hf
          refine ⟨pre, p.1, p.2, post, x, he, by simpa using hp, ?_, hasNextWord_basic _ _ hw, hx⟩
          intro q hq
          have hp' : p.1 = [65, 117, 116, 104, 111, 114, 105, 122, 97, 116, 105, 111, 110] := by simpa using hp
          rw [hp']
          simpa using hpre q hq

/-- a request with credentials is served, without it is refused, and a client which is not accepted is refused -/
example :
    (match (receive (fun _ => 0) [⟨[47], [[120]], true, false⟩] [] (wire true ⟨GET, [47], http10,
      [([65, 117, 116, 104, 111, 114, 105, 122, 97, 116, 105, 111, 110], [32], [66, 97, 115, 105, 99, 32, 120])]⟩)).2 with | .call _ _ => true | _ => false) = true ∧
    (receive (fun _ => 0) [⟨[47], [[120]], true, false⟩] [] (wire true ⟨GET, [47], http10, []⟩)).2 = .error 401 ∧
    (receive (fun _ => 0) [⟨[47], [], false, false⟩] [] (wire true ⟨GET, [47], http10, []⟩)).2 = .error 403 := by decide +kernel

/-- C122: static content is delivered to everyone, whatever the access control list and the credentials of its handler are. -/
theorem C122_content_counterexample (tree : List Handler) (r : Request) (h : Handler) (hs : siteHandler tree (cstr r.uri 0) = some h) (hc : h.content = true) :
    serve tree r = .content h := by
  unfold serve
  rw [hs]
  dsimp only
  rw [if_pos hc]

example (odd : Txt → UInt8) (junk : Txt) :
    (receive odd [⟨[47], [[120]], false, true⟩] junk (wire true ⟨GET, [47], http10, []⟩)).2 = .content ⟨[47], [[120]], false, true⟩ := rfl

end Verif.Http
