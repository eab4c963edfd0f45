import Verif.Http.Props

namespace Verif.Http

theorem firstLine_length {uri ver : Option Nat} {pos : Nat} {s l rest : Txt} {u v : Option Nat} (h : firstLine uri ver pos s = some (l, u, v, rest))
    (hu : ∀ o, uri = some o → o ≤ pos) (hv : ∀ o, ver = some o → o ≤ pos) :
    l.length + rest.length = s.length ∧ rest ≠ [] ∧ (∀ o, u = some o → o < pos + l.length) ∧ (∀ o, v = some o → o < pos + l.length) := by
  fun_induction firstLine uri ver pos s generalizing l u v rest with
  | case1 uri ver pos c d s hc ih =>
    rcases hf : firstLine (if uri = none then some (pos + 1) else uri) (if uri = none then ver else some (pos + 1)) (pos + 1) (d :: s) with _ | ⟨l', u', v', r'⟩
    · rw [hf] at h; cases h
    · rw [hf] at h
      cases h
      obtain ⟨h1, h2, h3, h4⟩ := ih hf (fun o ho => by
        split at ho
        · cases ho; omega
        · have := hu o ho; omega) (fun o ho => by
        split at ho
        · have := hv o ho; omega
        · cases ho; omega)
      refine ⟨by simp at h1 ⊢; omega, h2, ?_, ?_⟩
      · intro o ho; have := h3 o ho; simp; omega
      · intro o ho; have := h4 o ho; simp; omega
  | case2 uri ver pos d s hc ih =>
    rcases hf : firstLine uri ver (pos + 1) (d :: s) with _ | ⟨l', u', v', r'⟩
    · rw [hf] at h; cases h
    · rw [hf] at h
      cases h
      obtain ⟨h1, h2, h3, h4⟩ := ih hf (fun o ho => by have := hu o ho; omega) (fun o ho => by have := hv o ho; omega)
      refine ⟨by simp at h1 ⊢; omega, h2, ?_, ?_⟩
      · intro o ho; have := h3 o ho; simp; omega
      · intro o ho; have := h4 o ho; simp; omega
  | case3 uri ver pos d s hc =>
    cases h
    refine ⟨by simp; omega, by simp, ?_, ?_⟩
    · intro o ho; have := hu o ho; simp; omega
    · intro o ho; have := hv o ho; simp; omega
  | case4 uri ver pos c d s h1 h2 h3 ih =>
    rcases hf : firstLine uri ver (pos + 1) (d :: s) with _ | ⟨l', u', v', r'⟩
    · rw [hf] at h; cases h
    · rw [hf] at h
      cases h
      obtain ⟨h1, h2, h3, h4⟩ := ih hf (fun o ho => by have := hu o ho; omega) (fun o ho => by have := hv o ho; omega)
      refine ⟨by simp at h1 ⊢; omega, h2, ?_, ?_⟩
      · intro o ho; have := h3 o ho; simp; omega
      · intro o ho; have := h4 o ho; simp; omega
  | case5 => cases h

theorem fieldName_length {s n rest : Txt} (h : fieldName s = some (n, rest)) : n.length + rest.length = s.length ∧ 0 < n.length := by
  induction s generalizing n rest with
  | nil => cases h
  | cons c s ih =>
    rw [fieldName] at h
    have key : ∀ x : UInt8, (fieldName s).map (fun r => (x :: r.1, r.2)) = some (n, rest) → n.length + rest.length = (c :: s).length ∧ 0 < n.length := by
      intro x h
      rcases hf : fieldName s with _ | ⟨n', r'⟩
      · rw [hf] at h; cases h
      · rw [hf] at h
        cases h
        have := ih hf
        refine ⟨?_, by simp⟩
        simp; omega
    by_cases h1 : c = 58
    · rw [if_pos h1] at h; cases h; refine ⟨?_, by simp⟩; simp; omega
    · rw [if_neg h1] at h
      by_cases h2 : c = 32 ∨ c = 9
      · rw [if_pos h2] at h; exact key _ h
      · rw [if_neg h2] at h
        by_cases h3 : c = 10 ∨ c = 13
        · rw [if_pos h3] at h; cases h
        · rw [if_neg h3] at h; exact key _ h

theorem fieldValue_length {val : Option Nat} {pos : Nat} {s v rest : Txt} {o : Nat} (h : fieldValue val pos s = some (v, o, rest)) (hv : ∀ p, val = some p → p ≤ pos) :
    v.length + rest.length = s.length ∧ rest ≠ [] ∧ o < pos + v.length := by
  induction hn : s.length using Nat.strongRecOn generalizing s val pos v o rest with
  | _ n ih =>
    subst hn
    match s with
    | [] => rw [fieldValue.eq_def] at h; cases h
    | [c] => rw [fieldValue.eq_def] at h; cases h
    | c :: d :: s =>
      rw [fieldValue.eq_def] at h
      dsimp only at h
      generalize hval : (if val = none ∧ ¬(c = 32 ∨ c = 9) then some pos else val) = val' at h
      have hv' : ∀ p, val' = some p → p ≤ pos := by
        intro p hp
        rw [← hval] at hp
        by_cases q : val = none ∧ ¬(c = 32 ∨ c = 9)
        · rw [if_pos q] at hp; cases hp; omega
        · rw [if_neg q] at hp; exact hv p hp
      have hget : val'.getD pos ≤ pos := by
        rcases val' with _ | p
        · exact Nat.le_refl _
        · exact hv' p rfl
      have key : ∀ (w s' : Txt) (k : Nat), w.length = k → s'.length + k = (c :: d :: s).length → 0 < k →
          (fieldValue val' (pos + k) s').map (fun r => (w ++ r.1, r.2)) = some (v, o, rest) → v.length + rest.length = (c :: d :: s).length ∧ rest ≠ [] ∧ o < pos + v.length := by
        intro w s' k hw hs hk e
        rcases hf : fieldValue val' (pos + k) s' with _ | ⟨v', o', r'⟩
        · rw [hf] at e; cases e
        · rw [hf] at e
          cases e
          obtain ⟨h1, h2, h3⟩ := ih s'.length (by omega) hf (fun p hp => by have := hv' p hp; omega) rfl
          refine ⟨?_, h2, ?_⟩
          · simp only [List.length_append]; omega
          · simp only [List.length_append]; omega
      by_cases h10 : c = 10
      · rw [if_pos h10] at h
        by_cases hb : d = 32 ∨ d = 9
        · rw [if_pos hb] at h; exact key [32, 32] s 2 rfl (by simp) (by omega) h
        · rw [if_neg hb] at h; cases h; exact ⟨by simp; omega, by simp, by simp; omega⟩
      · rw [if_neg h10] at h
        by_cases h13 : c = 13
        · rw [if_pos h13] at h
          by_cases hd : d = 10
          · rw [if_pos hd] at h
            cases s with
            | nil => cases h
            | cons e s =>
              dsimp only at h
              by_cases hb : e = 32 ∨ e = 9
              · rw [if_pos hb] at h; exact key [32, 32, 32] s 3 rfl (by simp) (by omega) h
              · rw [if_neg hb] at h; cases h; exact ⟨by simp; omega, by simp, by simp; omega⟩
          · rw [if_neg hd] at h; exact key [c] (d :: s) 1 rfl (by simp) (by omega) h
        · rw [if_neg h13] at h; exact key [c] (d :: s) 1 rfl (by simp) (by omega) h

theorem fields_length {k pos : Nat} {s b rest : Txt} {offs : List (Nat × Nat)} (h : fields k pos s = some (b, offs, rest)) :
    b.length + rest.length = s.length ∧ offs.length ≤ k ∧ ∀ p, p ∈ offs → p.1 < pos + b.length ∧ p.2 < pos + b.length := by
  induction k generalizing pos s b offs rest with
  | zero =>
    rw [fields] at h
    by_cases he : endOfHeader s = true
    · rw [if_pos he] at h; cases h; exact ⟨by simp, by simp, fun _ q => nomatch q⟩
    · rw [if_neg he] at h; cases h
  | succ k ih =>
    by_cases he : endOfHeader s = true
    · rw [fields_end _ _ _ he] at h; cases h; exact ⟨by simp, by simp, fun _ q => nomatch q⟩
    · rw [fields_step _ _ _ (by simpa using he)] at h
      rcases hn : fieldName s with _ | ⟨n, r1⟩
      · rw [hn] at h; cases h
      · rw [hn] at h
        dsimp only at h
        rcases hv : fieldValue none (pos + n.length) r1 with _ | ⟨v, o, r2⟩
        · rw [hv] at h; cases h
        · rw [hv] at h
          dsimp only at h
          rcases hf : fields k (pos + n.length + v.length) r2 with _ | ⟨b', offs', r3⟩
          · rw [hf] at h; cases h
          · rw [hf] at h
            cases h
            have l1 := fieldName_length hn
            obtain ⟨l2, _, l3⟩ := fieldValue_length hv (fun _ q => nomatch q)
            obtain ⟨l4, l5, l6⟩ := ih hf
            refine ⟨by simp only [List.length_append]; omega, by simp only [List.length_cons]; omega, ?_⟩
            intro p hp
            rcases List.mem_cons.mp hp with rfl | hp
            · simp only [List.length_append]
              omega
            · have := l6 p hp
              simp only [List.length_append]; omega

/-- C118: whatever arrives, the parser stays inside the buffer: the buffer keeps its length, every offset it hands out (URI, version, names and
values of at most 16 fields) is inside. -/
theorem C118_inside (mem mem' : Txt) (h : Head) (e : parseHeader mem = some (mem', h)) :
    mem'.length = mem.length ∧ h.uri < mem.length ∧ h.version < mem.length ∧ h.fields.length ≤ 16 ∧ ∀ p, p ∈ h.fields → p.1 < mem.length ∧ p.2 < mem.length := by
  unfold parseHeader at e
  rcases hf : firstLine none none 0 mem with _ | ⟨l, u, v, rest⟩
  · rw [hf] at e; cases e
  · rw [hf] at e
    dsimp only at e
    obtain ⟨l1, l2, l3, l4⟩ := firstLine_length hf (fun _ q => nomatch q) (fun _ q => nomatch q)
    rcases u with _ | u
    · cases e
    rcases v with _ | v
    · cases e
    dsimp only at e
    rcases hk : fields maxHeaders l.length rest with _ | ⟨b, offs, r⟩
    · rw [hk] at e; cases e
    · rw [hk] at e
      cases e
      obtain ⟨m1, m2, m3⟩ := fields_length hk
      have a1 := l3 u rfl
      have a2 := l4 v rfl
      refine ⟨by simp only [List.length_append]; omega, by dsimp only; omega, by dsimp only; omega, m2, ?_⟩
      intro p hp
      have := m3 p hp
      omega

example : (parseHeader [71, 32, 47, 32, 72, 10, 120, 58, 10, 10]).isSome = true := by decide +kernel

/-- C118: a carriage return which is not followed by a line feed does not end the header; such a request is
refused. -/
theorem C118_bare_cr (cr : Bool) (m : Message) (w : WellFormed m) (c : UInt8) (hc : c ≠ 10) (rest : Txt) :
    parseHeader (m.method ++ 32 :: (m.uri ++ 32 :: (m.version ++ (eol cr ++ 13 :: c :: rest)))) = none := by
  have he : endOfHeader (13 :: c :: rest) = false := by
    unfold endOfHeader
    split
    · next h => simp at h
    · next h => simp at h; exact absurd h.1 hc
    · rfl
  have hf : fieldName (13 :: c :: rest) = none := by
    rw [fieldName, if_neg (by decide), if_neg (by decide), if_pos (by decide)]
  unfold parseHeader
  rw [firstLine_wire cr m w 13 (c :: rest)]
  dsimp only
  rw [show maxHeaders = 15 + 1 from rfl, fields, he, hf]
  rfl

example : parseHeader ([71, 69, 84] ++ 32 :: ([47] ++ 32 :: ([49] ++ (eol true ++ 13 :: 65 :: [])))) = none := by decide +kernel

end Verif.Http
