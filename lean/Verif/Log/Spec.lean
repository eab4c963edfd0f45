import Verif.Log.Model
/-
What logging promises, without its masks and loops.
-/
namespace Verif.Log.Spec

/-- A mask names a severity for a source. -/
def has (m : Mask) (src : Nat) (s : Sev) : Bool := (m src).getLsbD s.val

/-- Who names a severity for a source, or for all sources, wants this severity and all higher ones
of the source. -/
def wants (m : Mask) (src : Nat) (sev : Sev) : Bool :=
  (List.finRange 4).any fun s => decide (s ≤ sev) && (has m src s || has m 0 s)

/-- The registered handlers after a history (newest event first): number, mask, whether the handler
is a telnet console. -/
def registered : List Op → List (Nat × Mask × Bool)
  | [] => []
  | .add id m c :: ops => registered ops ++ [(id, m, c)]
  | .remove id :: ops => (registered ops).filter fun r => r.1 ≠ id
  | .change id m :: ops => (registered ops).map fun r => if r.1 = id then (r.1, m, r.2.2) else r
  | .emit _ :: ops => registered ops

/-- Who gets a message. -/
def receivers (ops : List Op) (m : Msg) : List Nat :=
  ((registered ops).filter fun r => wants r.2.1 m.src m.sev).map (·.1)

/-- Number of warnings of a source in a history. -/
def warned (src : Nat) : List Op → Nat
  | [] => 0
  | .emit m :: ops => (if m.sev = 2 ∧ m.src = src then 1 else 0) + warned src ops
  | _ :: ops => warned src ops

/-- Writing a message cannot cause another one: no consoles, or nobody wants the debug messages of
the sockets. -/
def Calm (fd : Nat) (ops : List Op) : Prop :=
  (∀ r ∈ registered ops, r.2.2 = false) ∨ (∀ r ∈ registered ops, wants r.2.1 fd 0 = false)

/-- The name of a source is in a list of names, upper and lower case being the same. -/
def Listed (names : List Name) (l : List Name) (src : Nat) : Prop :=
  ∃ n ∈ l, ∃ k, names[src]? = some k ∧ n.map Str.toLower = k.map Str.toLower

end Verif.Log.Spec
