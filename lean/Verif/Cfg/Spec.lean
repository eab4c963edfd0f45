import Verif.Cfg.Model

/-
What can be observed of a configuration database: the sections which exist and the values of entries.
-/
namespace Verif.Cfg

/-- keys which differ only in upper and lower case are the same -/
abbrev Same (a b : Option Str) : Prop := fold a = fold b

/-- is there a section with this type and name? -/
def has (d : Db) (t : Str) (n : Option Str) : Bool := (findNamed d t n).isSome

/-- the values of an entry -/
def vals (d : Db) (t : Str) (n : Option Str) (e : Str) : Option (List Str) := (findEntry d t n e).map (·.vals)

/-- the same section -/
abbrev SameSec (t : Str) (n : Option Str) (t' : Str) (n' : Option Str) : Prop := Same (some t) (some t') ∧ Same n n'

/-- the same entry -/
abbrev SameEntry (t : Str) (n : Option Str) (e : Str) (t' : Str) (n' : Option Str) (e' : Str) : Prop :=
  Same (some t) (some t') ∧ Same n n' ∧ Same (some e) (some e')

/-- both databases contain the same sections and values -/
def Equal (d d' : Db) : Prop := (∀ t n, has d t n = has d' t n) ∧ ∀ t n e, vals d t n e = vals d' t n e

/-- every key occurs once, there are no entries without value -/
structure Wf (d : Db) : Prop where
  types : (d.map fun s => fold s.key).Nodup
  names : ∀ s ∈ d, (s.names.map fun n => fold n.name).Nodup
  entries : ∀ s ∈ d, ∀ n ∈ s.names, (n.entries.map fun e => fold e.key).Nodup
  vals : ∀ s ∈ d, ∀ n ∈ s.names, ∀ e ∈ n.entries, e.vals ≠ []

/-- operations of the programming interface -/
inductive Op
  | addSection (t : Str) (n : Option Str)
  | setEntry (t : Str) (n : Option Str) (e v : Str) (append front : Bool)
  | removeType (t : Str)
  | removeNamed (t : Str) (n : Option Str)
  | removeEntry (t : Str) (n : Option Str) (e : Str)
  | removeElement (t : Str) (n : Option Str) (e v : Str)

def step (d : Db) : Op → Db
  | .addSection t n => Cfg.addSection d t n
  | .setEntry t n e v a f => Cfg.setEntry d t n e v a f
  | .removeType t => (Cfg.removeType d t).1
  | .removeNamed t n => (Cfg.removeNamed d t n).1
  | .removeEntry t n e => (Cfg.removeEntry d t n e).1
  | .removeElement t n e v => (Cfg.removeElement d t n e v).1

def run (d : Db) (os : List Op) : Db := os.foldl step d

end Verif.Cfg
