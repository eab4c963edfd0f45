import Verif.Http.Model

/-
Specification for C118 – C126, independent of the functions of the model: what a well formed request looks like.
-/
namespace Verif.Http

/-- no byte of the text is in the list -/
def Free (bad : List UInt8) (t : Txt) : Prop := ∀ c, c ∈ t → c ∉ bad

/-- a HTTP request: method, URI, version, and fields with name, blanks before the value, and value -/
structure Message where
  method : Txt
  uri : Txt
  version : Txt
  fields : List (Txt × Txt × Txt)
deriving DecidableEq, Repr

/-- the tokens have no blanks, ends of line or zeros; names no colons; values do not start with a blank -/
def Field (f : Txt × Txt × Txt) : Prop :=
  Free [0, 9, 10, 13, 32, 58] f.1 ∧ (∀ c, c ∈ f.2.1 → c = 32 ∨ c = 9) ∧ Free [0, 10, 13] f.2.2 ∧ f.2.2.head? ≠ some 32 ∧ f.2.2.head? ≠ some 9

structure WellFormed (m : Message) : Prop where
  method : Free [0, 10, 13, 32] m.method
  uri : Free [0, 10, 13, 32] m.uri
  version : Free [0, 10, 13, 32] m.version
  fields : ∀ f, f ∈ m.fields → Field f

/-- lines end with carriage return and line feed, or only with line feed -/
def eol (cr : Bool) : Txt := if cr then [13, 10] else [10]

def fieldLines (cr : Bool) : List (Txt × Txt × Txt) → Txt
  | [] => []
  | f :: fs => f.1 ++ 58 :: (f.2.1 ++ (f.2.2 ++ (eol cr ++ fieldLines cr fs)))

/-- the header of the request on the wire -/
def wire (cr : Bool) (m : Message) : Txt :=
  m.method ++ 32 :: (m.uri ++ 32 :: (m.version ++ (eol cr ++ (fieldLines cr m.fields ++ eol cr))))

/-- hexadecimal digits -/
def Digit (c : UInt8) (n : Nat) : Prop :=
  (48 ≤ c.toNat ∧ c.toNat ≤ 57 ∧ n = c.toNat - 48) ∨ (65 ≤ c.toNat ∧ c.toNat ≤ 70 ∧ n = c.toNat - 55) ∨ (97 ≤ c.toNat ∧ c.toNat ≤ 102 ∧ n = c.toNat - 87)

/-- `s` is an encoding of the text `t`: some bytes (every "%" among them) are written with two hexadecimal digits -/
inductive Encodes : Txt → Txt → Prop
  | nil : Encodes [] []
  | plain {c : UInt8} {t s : Txt} : c ≠ 37 → Encodes t s → Encodes (c :: t) (c :: s)
  | pct {c x y : UInt8} {a b : Nat} {t s : Txt} : Digit x a → Digit y b → c.toNat = 16 * a + b → Encodes t s → Encodes (c :: t) (37 :: x :: y :: s)

/-- texts with a separator between them -/
def joined (sep : UInt8) : List Txt → Txt
  | [] => []
  | [p] => p
  | p :: ps => p ++ sep :: joined sep ps

/-- a query: name=value&name=value -/
def query (ps : List (Txt × Txt)) : Txt := joined 38 (ps.map fun p => p.1 ++ 61 :: p.2)

/-- names are not empty and have no separators, values have no "&" -/
def Param (p : Txt × Txt) : Prop := p.1 ≠ [] ∧ Free [0, 38, 61] p.1 ∧ Free [0, 38] p.2

/-- two texts are equal apart from upper and lower case letters -/
def Same (a b : Txt) : Prop := a.map Netaddr.toLower = b.map Netaddr.toLower

/-- a site is responsible for a URI: it is the URI, or a directory in which the URI is, or the URI is the directory without the last "/" -/
def Covers (site uri : Txt) : Prop :=
  Same site uri ∨ (site.getLast? = some 47 ∧ ∃ a b, uri = a ++ b ∧ Same site a) ∨ ∃ a, site = a ++ [47] ∧ Same a uri

/-- the components of a path -/
def Component (c path : Txt) : Prop := ∃ a b, path = a ++ c ++ b ∧ 47 ∉ c ∧ (a = [] ∨ a.getLast? = some 47) ∧ (b = [] ∨ b.head? = some 47)

end Verif.Http
