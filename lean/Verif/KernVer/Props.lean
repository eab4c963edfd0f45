import Verif.KernVer.Model
/-
C235: the running kernel is compared with the required version.
-/
namespace Verif.KernVer

/-! ### Specification -/

/-- The decimal value of a text of digits: each digit counts with its power of ten. -/
def value : List Char → Nat
  | [] => 0
  | c :: cs => (c.toNat - '0'.toNat) * 10 ^ cs.length + value cs

/-- A component of a version: at least one digit, only digits, value below 2^31. -/
structure Component (ds : List Char) : Prop where
  some : ds ≠ []
  digits : ∀ c ∈ ds, '0'.toNat ≤ c.toNat ∧ c.toNat ≤ '9'.toNat
  small : value ds < 2 ^ 31

/-- The text does not begin with one of these characters. -/
def NotBegin (p : Char → Prop) (s : List Char) : Prop := ∀ c r, s = c :: r → ¬ p c

/-- A character which continues a number. -/
def Digit (c : Char) : Prop := '0'.toNat ≤ c.toNat ∧ c.toNat ≤ '9'.toNat

/-- Version `a.b.c` is not older than `x.y.z`. -/
def AtLeast (a b c x y z : Nat) : Prop :=
  x < a ∨ (x = a ∧ (y < b ∨ (y = b ∧ z ≤ c)))

/-! ### Lemmas -/

theorem readDigits_aux (ds : List Char) : ∀ n, ds.foldl (fun n c => 10 * n + (c.toNat - 48)) n
    = n * 10 ^ ds.length + value ds := by
  induction ds with
  | nil => intro n; simp [value]
  | cons c cs ih =>
    intro n
    have h0 : '0'.toNat = 48 := rfl
    simp only [List.foldl_cons, ih, List.length_cons, value, h0, Nat.pow_succ, Nat.add_mul]
    rw [Nat.mul_comm 10 n, Nat.mul_assoc, Nat.mul_comm 10 (10 ^ cs.length)]
    omega

theorem readDigits_eq (ds : List Char) : readDigits ds = value ds := by
  rw [readDigits, readDigits_aux]; omega

theorem isDigit_iff (c : Char) : isDigit c = true ↔ Digit c := by
  have h0 : '0'.toNat = 48 := rfl
  have h9 : '9'.toNat = 57 := rfl
  simp [isDigit, Digit, h0, h9]

theorem digit_cases {c : Char} (h : isDigit c = true) : isSpace c = false ∧ c ≠ '-' ∧ c ≠ '+' := by
  have hd : 48 ≤ c.toNat ∧ c.toNat ≤ 57 := by simpa [isDigit] using h
  refine ⟨?_, ?_, ?_⟩
  · have : ∀ x : Char, x.toNat < 48 → c ≠ x := fun x hx e => by subst e; omega
    have h1 := this ' ' (by decide)
    have h2 := this '\t' (by decide)
    have h3 := this '\n' (by decide)
    have h4 := this '\r' (by decide)
    have h5 : c.toNat ≠ 11 := by omega
    have h6 : c.toNat ≠ 12 := by omega
    simp [isSpace, h1, h2, h3, h4, h5, h6]
  · intro e; subst e; exact absurd hd.1 (by decide)
  · intro e; subst e; exact absurd hd.1 (by decide)

theorem span_digits (ds s : List Char) (hd : ∀ c ∈ ds, isDigit c = true)
    (hs : ∀ c r, s = c :: r → isDigit c = false) :
    (ds ++ s).takeWhile isDigit = ds ∧ (ds ++ s).dropWhile isDigit = s := by
  induction ds with
  | nil =>
    cases s with
    | nil => simp
    | cons c r => simp [hs c r rfl]
  | cons c cs ih =>
    have := ih (fun x hx => hd x (List.mem_cons_of_mem _ hx))
    simp [hd c (List.mem_cons_self ..), this.1, this.2]

theorem strtol_component {ds s : List Char} (h : Component ds) (hs : NotBegin Digit s) :
    strtol (ds ++ s) = ((value ds : Int), s) := by
  have hd : ∀ c ∈ ds, isDigit c = true := fun c hc => (isDigit_iff c).2 (h.digits c hc)
  have hs' : ∀ c r, s = c :: r → isDigit c = false := fun c r e => by
    have := hs c r e
    cases hb : isDigit c with
    | false => rfl
    | true => exact absurd ((isDigit_iff c).1 hb) this
  have hsp := span_digits ds s hd hs'
  have hn : sign ((ds ++ s).dropWhile isSpace) = (false, ds ++ s) := by
    cases hds : ds with
    | nil => exact absurd hds h.some
    | cons c cs =>
      have hc := digit_cases (hd c (by rw [hds]; exact List.mem_cons_self ..))
      rw [List.cons_append, List.dropWhile_cons, if_neg (by simp [hc.1])]
      rw [sign]
      · intro r e; injection e with e1; exact hc.2.1 e1
      · intro r e; injection e with e1; exact hc.2.2 e1
  have hne : ds.isEmpty = false := by
    cases hds : ds with
    | nil => exact absurd hds h.some
    | cons c cs => rfl
  have hsmall := h.small
  rw [strtol, hn]
  simp only [hsp.1, hsp.2, hne, readDigits_eq]
  refine Prod.ext ?_ rfl
  show min ((value ds : Int)) (2 ^ 63 - 1) = _
  omega

theorem toInt_small {n : Nat} (h : n < 2 ^ 31) : toInt (n : Int) = n := by
  rw [toInt]; omega

theorem notBegin_dot (s : List Char) : NotBegin Digit ('.' :: s) := by
  intro c r e
  injection e with e1
  subst e1
  intro h
  exact absurd h.1 (by decide)

/-! ### C235 -/

/-- A release `a.b.c` followed by anything that does not continue the number: the answer is whether
`a.b.c` is at least the required version. -/
theorem C235_three {a b c s : List Char} (ha : Component a) (hb : Component b) (hc : Component c)
    (hs : NotBegin Digit s) (x y z : Nat) :
    isMinimal (some (a ++ '.' :: (b ++ '.' :: (c ++ s)))) x y z = true
      ↔ AtLeast (value a) (value b) (value c) x y z := by
  have h1 := strtol_component ha (notBegin_dot (b ++ '.' :: (c ++ s)))
  have h2 := strtol_component hb (notBegin_dot (c ++ s))
  have h3 := strtol_component hc hs
  simp only [isMinimal, h1, h2, h3, toInt_small ha.small, toInt_small hb.small, toInt_small hc.small,
    AtLeast]
  split
  · simp; omega
  · split
    · simp; omega
    · split
      · simp; omega
      · split
        · simp; omega
        · simp; omega

/-- A release `a.b` without third number (Debian: `3.11-2-amd64`): the answer is right, except that
the required version `a.b.0` is denied. What is missing from the full claim is this case. -/
theorem C235_two_partial {a b s : List Char} (ha : Component a) (hb : Component b)
    (hs : NotBegin (fun c => Digit c ∨ c = '.') s) (x y z : Nat)
    (h : ¬ (x = value a ∧ y = value b ∧ z = 0)) :
    isMinimal (some (a ++ '.' :: (b ++ s))) x y z = true
      ↔ AtLeast (value a) (value b) 0 x y z := by
  have h1 := strtol_component ha (notBegin_dot (b ++ s))
  have h2 := strtol_component hb (s := s) (fun c r e hd => hs c r e (Or.inl hd))
  simp only [isMinimal, h1, h2, toInt_small ha.small, toInt_small hb.small, AtLeast]
  split
  · simp; omega
  · split
    · simp; omega
    · split
      · simp; omega
      · split
        · simp; omega
        · split
          · rename_i r
            exact absurd (Or.inr rfl) (hs '.' r rfl)
          · simp; omega

/-- A kernel with the release `3.11-2-amd64` is denied to be a 3.11.0, and source specific routing
is taken for unsupported. -/
theorem C235_two_counterexample :
    isMinimal (some "3.11-2-amd64".toList) 3 11 0 = false ∧
      supportsSourceSpecific (some "3.11-2-amd64".toList) false = false ∧
      AtLeast 3 11 0 3 11 0 := by
  refine ⟨by decide +kernel, by decide +kernel, ?_⟩
  simp [AtLeast]

/-- If the version of the kernel cannot be determined, it counts as too old. -/
theorem C235_unknown (x y z : Int) : isMinimal none x y z = false := rfl

/-- A newer kernel never supports less: if the answer for one requirement is yes, it is yes for every
older requirement. -/
theorem C235_monotone {a b c s : List Char} (ha : Component a) (hb : Component b) (hc : Component c)
    (hs : NotBegin Digit s) {x y z x' y' z' : Nat} (h : AtLeast x y z x' y' z')
    (hy : isMinimal (some (a ++ '.' :: (b ++ '.' :: (c ++ s)))) x y z = true) :
    isMinimal (some (a ++ '.' :: (b ++ '.' :: (c ++ s)))) x' y' z' = true := by
  rw [C235_three ha hb hc hs] at hy ⊢
  simp only [AtLeast] at *
  omega

/-- Source specific routing: for IPv6 from 3.11.0 on, for IPv4 never. -/
theorem C235_source_specific {a b c s : List Char} (ha : Component a) (hb : Component b)
    (hc : Component c) (hs : NotBegin Digit s) (ipv4 : Bool) :
    supportsSourceSpecific (some (a ++ '.' :: (b ++ '.' :: (c ++ s)))) ipv4 = true
      ↔ ipv4 = false ∧ AtLeast (value a) (value b) (value c) 3 11 0 := by
  cases ipv4 with
  | true => simp [supportsSourceSpecific]
  | false =>
    have := C235_three ha hb hc hs 3 11 0
    simpa [supportsSourceSpecific] using this

/-! ### Examples -/

theorem comp_six : Component "6".toList := ⟨by decide, by decide, by decide⟩
theorem comp_eighteen : Component "18".toList := ⟨by decide, by decide, by decide⟩
theorem comp_fourtyfour : Component "44".toList := ⟨by decide, by decide, by decide⟩

/-- `6.18.44-fc`: it is at least a 6.9.200, but not a 6.18.45. -/
example : isMinimal (some "6.18.44-fc".toList) 6 9 200 = true ∧
    isMinimal (some "6.18.44-fc".toList) 6 18 45 = false := by
  have hs : NotBegin Digit "-fc".toList := by
    intro c r e
    have : c = '-' := by injection e with e1; exact e1.symm
    subst this
    intro h
    exact absurd h.1 (by decide)
  have h := C235_three comp_six comp_eighteen comp_fourtyfour hs
  have e1 : value "6".toList = 6 := by decide
  have e2 : value "18".toList = 18 := by decide
  have e3 : value "44".toList = 44 := by decide
  rw [e1, e2, e3] at h
  refine ⟨(h 6 9 200).2 (by unfold AtLeast; omega), ?_⟩
  have hn : ¬ isMinimal (some "6.18.44-fc".toList) 6 18 45 = true :=
    fun hy => by have := (h 6 18 45).1 hy; unfold AtLeast at this; omega
  simpa using hn

/-- `6.18-rc`: the requirement 6.18.1 is denied. -/
example : isMinimal (some "6.18-rc".toList) 6 18 1 = false ∧
    isMinimal (some "6.18-rc".toList) 6 17 3 = true := by decide +kernel

end Verif.KernVer
