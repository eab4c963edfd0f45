import Verif.Telnet.Line
/-
What the telnet console promises, without its functions: which commands a stream of input asks
for, what a proper order of begun and ended continuous commands is.
-/
namespace Verif.Telnet.Spec

/-- The pieces of a text between the bytes `c`. -/
def split (c : Nat) : Bytes → List Bytes
  | [] => [[]]
  | b :: s =>
    match split c s with
    | [] => [[b]]
    | w :: ws => if b = c then [] :: w :: ws else (b :: w) :: ws

/-- The complete lines of a text. -/
def lines (s : Bytes) : List Bytes := (split 10 s).dropLast

/-- A line as a string: without the carriage return at its end, up to the first NUL. -/
def text (l : Bytes) : Bytes :=
  (if l.getLast? = some 13 then l.dropLast else l).takeWhile (· ≠ 0)

/-- The commands in a line: several ones separated by slashes if it begins with a slash. -/
def commands : Bytes → List Bytes
  | 47 :: s => split 47 s
  | s => [s]

/-- What a command asks for: its first word with the rest as parameter, help for the word if the
rest is `help`, nothing if it begins with a blank. -/
def asks (c : Bytes) : Option (Bytes × Option Bytes) :=
  let w := c.takeWhile (· ≠ 32)
  if w = [] then none
  else if w.length = c.length then some (w, none)
  else if c.drop (w.length + 1) = [104, 101, 108, 112] then some ([104, 101, 108, 112], some w)
  else some (w, some (c.drop (w.length + 1)))

/-- Everything a stream of input asks for. -/
def requests (s : Bytes) : List (Bytes × Option Bytes) :=
  (lines s).flatMap fun l => (commands (text l)).filterMap asks

/-- The first word of a text. -/
def word (s : Bytes) : Bytes := s.takeWhile (· ≠ 32)

/-- The requests among the events. -/
def asked (log : List Ev) : List (Bytes × Option Bytes) :=
  log.filterMap fun
    | .req c p => some (c, p)
    | _ => none

/-- The input in a history (newest operation first). -/
def input : List Op → Bytes
  | [] => []
  | .feed bs :: ops => input ops ++ bs
  | _ :: ops => input ops

/-- A proper order of events, and the continuous command running at its end: one begins only when
none is running, only the running one is ended, and nothing is asked for while one is running. -/
inductive Proper : List Ev → Option Nat → Prop where
  | nil : Proper [] none
  | req {l c p} : Proper l none → Proper (l ++ [.req c p]) none
  | ran {l x n} : Proper l x → Proper (l ++ [.ran n]) x
  | began {l k} : Proper l none → .began k ∉ l → Proper (l ++ [.began k]) (some k)
  | ended {l k} : Proper l (some k) → Proper (l ++ [.ended k]) none

/-- All commands that go on with their output look whether another one does already. -/
def Guarded (e : Env) : Prop := ∀ c ∈ e.cmds, c.act ≠ .ext false

/-- A client may use the command with that name. -/
def Allowed (e : Env) (remote : Nat) (name : Bytes) : Prop :=
  ∃ c ∈ e.cmds, c.name = name ∧ ∀ f, c.acl = some f → f remote = true

/-- Decimal digits of a number. -/
def decimal (n : Nat) : Bytes := if n < 10 then [48 + n] else decimal (n / 10) ++ [48 + n % 10]

end Verif.Telnet.Spec
