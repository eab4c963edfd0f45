import Verif.DlepDest.Model

/-
What a router learns from the messages of a radio, and what it should learn.
-/
namespace Verif.DlepDest

/-- the destinations a reader of the messages knows: DESTINATION_UP tells of one, DESTINATION_DOWN takes it back -/
def tell (f : Key → Bool) : Msg → Key → Bool
  | .up k => fun j => if j = k then true else f j
  | .down k => fun j => if j = k then false else f j
  | _ => f

def told (l : List Msg) : Key → Bool := l.foldl tell fun _ => false

/-- the destinations a session should report: direct neighbors with `send_neighbors`, proxied destinations with `send_proxied` -/
def Reported (c : Cfg) (db : Db) (k : Key) : Prop :=
  (c.neighbors = true ∧ (k, none) ∈ db) ∨ (c.proxied = true ∧ ∃ n d, (n, some d) ∈ db ∧ k = ⟨d, n.lid⟩)

/-- no two entries of the database have the same key -/
def Unshared (db : Db) : Prop := (db.map ekey).Nodup

/-- the link ids of the database are allowed in the session -/
def LidOk (c : Cfg) (db : Db) : Prop := ∀ e ∈ db, e.1.lid = [] ∨ e.1.lid.length = c.lidLen

/-- events without timeouts and lost sessions -/
def Calm : Ev → Prop
  | .timeout _ _ => False
  | .lost _ _ => False
  | _ => True

/-- states a new radio reaches with calm events, while no two entries share their key and all link ids are allowed -/
inductive Reach : Radio → Prop where
  | start : Reach {}
  | step {r r' : Radio} (e : Ev) : Reach r → step r e = some r' → Calm e → Unshared r'.db →
      (∀ s ∈ r'.sessions, LidOk s.cfg r'.db) → Reach r'

end Verif.DlepDest
