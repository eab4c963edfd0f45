import Verif.Telnet.Word
/-
Telnet sessions: command lines, commands, continuous commands.
Source: `/repo/src/base/oonf_telnet.c`.

Simplifications: memory never runs out (`abuf_has_failed` is false, `strdup` succeeds).  The output
is a list of pieces instead of bytes.  Handlers of other modules are described by what they answer
(`Reply`), the n-th started handler gets the n-th answer of an arbitrary `world`, so that the
theorems hold for every behaviour of them.  The TCP side (events, limits, time) is the subject of
`Verif.Stream`; input that arrives while a session is quitting is not looked at by it (C153).
-/
namespace Verif.Telnet

/-- `enum oonf_telnet_result` (`oonf_telnet.h:62-82`). -/
inductive Result where
  | active | continuous | internal | quit | unknown
  deriving DecidableEq, Repr

/-- Handlers of the commands: the ones of `oonf_telnet.c:117-124` and those of other modules.
`ext true` looks at `stop_handler` before it starts to produce output continuously (as
`remotecontrol.c:363-367` does), `ext false` does not (as `remotecontrol.c:665-676`). -/
inductive Act where
  | quit | help | echo | timeout | rep | ext (guarded : Bool)
  deriving DecidableEq, Repr

/-- `struct oonf_telnet_command` (`oonf_telnet.h:164-193`): the name, which clients its access list
accepts (`none`: no list; the list itself is the subject of C22) and the handler. -/
structure Cmd where
  name : Bytes
  acl : Option (Nat → Bool)
  act : Act

/-- Pieces of output: the texts of `oonf_telnet.c`, and bytes written by handlers. -/
inductive Out where
  | prompt | nl
  | unknown (cmd : Bytes) | failed (cmd : Bytes)
  | noHelp (par : Bytes) | helpFor (name : Bytes) | listed (name : Bytes) | frame
  | stacked | missing | interval
  | bytes (b : Bytes)
  deriving DecidableEq, Repr

/-- What the handler of another module does: its result, its output, and whether it installs a
stop handler to go on with its output. -/
structure Reply where
  res : Result
  out : List Bytes
  starts : Bool

/-- The stop handler installed in a session (`oonf_telnet.h:134`): the one of `repeat` or one of
another module, for the command with the given number. -/
inductive Stop where
  | rep (k : Nat) | ext (k : Nat)
  deriving DecidableEq, Repr

/-- The timer of `repeat` with the command of `stop_data` (`oonf_telnet.c:720-739`). -/
structure Repeat where
  cmd : Bytes
  par : Option Bytes
  msec : Nat
  deriving DecidableEq, Repr

/-- What can be seen of a session: a command asked for by a line of input, a handler called, a
continuous command begun, its stop handler called. -/
inductive Ev where
  | req (cmd : Bytes) (par : Option Bytes)
  | ran (name : Bytes)
  | began (k : Nat) | ended (k : Nat)
  deriving DecidableEq, Repr

/-- `struct oonf_telnet_data` (`oonf_telnet.h:108-144`), output and events.  `next` numbers the
calls of handlers of other modules and of `repeat`. -/
structure Data where
  remote : Nat
  echo : Bool := true
  timeout : Nat := 120000
  stop : Option Stop := none
  timer : Option Repeat := none
  next : Nat := 0
  out : List Out := []
  log : List Ev := []

/-- What a session depends on: the commands in the order of the tree, and the answers of the
handlers of other modules. -/
structure Env where
  cmds : List Cmd
  world : Nat → Reply

/-- `strchr` with the byte replaced by a NUL: the string before the first `c`, and the string
behind it if there is one (`oonf_telnet.c:440-450`). -/
def cutAt (c : Nat) : Bytes → Bytes × Option Bytes
  | [] => ([], none)
  | b :: s => if b = c then ([], some s) else
    let r := cutAt c s
    (b :: r.1, r.2)

/-- The C string at the beginning of a buffer. -/
def cstr (b : Bytes) : Bytes := (cutAt 0 b).1

/-- `isspace` in the C locale. -/
def isSpace (b : Nat) : Bool := b = 32 || (9 ≤ b && b ≤ 13)

/-- Value of the decimal digits at the beginning, with what came before. -/
def digits (acc : Nat) : Bytes → Nat
  | [] => acc
  | b :: s => if 48 ≤ b ∧ b ≤ 57 then digits (acc * 10 + (b - 48)) s else acc

/-- Sign and value of a number in the text, as the functions of the C library read it. -/
def number (s : Bytes) : Bool × Nat :=
  match s.dropWhile isSpace with
  | 45 :: r => (true, digits 0 r)
  | 43 :: r => (false, digits 0 r)
  | r => (false, digits 0 r)

/-- `(uint32_t)strtoul(s, NULL, 10) * 1000` in `uint32_t` (`oonf_telnet.c:640`); `unsigned long`
has 64 bits and values beyond it are replaced by the largest one. -/
def timeoutOf (s : Bytes) : Nat :=
  let n := number s
  let v := if n.2 ≥ 2 ^ 64 then 2 ^ 64 - 1 else if n.1 then (2 ^ 64 - n.2) % 2 ^ 64 else n.2
  (v % 2 ^ 32 * 1000) % 2 ^ 32

/-- `atoi(s)` (`oonf_telnet.c:712`) as the GNU C library computes it: `strtol`, which stops at the
limits of 64 bits, and the lower 32 bits of the result. -/
def atoi (s : Bytes) : Int :=
  let n := number s
  let v : Int := if n.1 then (if n.2 ≥ 2 ^ 63 then -(2 ^ 63) else -(n.2 : Int))
    else (if n.2 ≥ 2 ^ 63 then 2 ^ 63 - 1 else (n.2 : Int))
  let w := v % 2 ^ 32
  if w < 2 ^ 31 then w else w - 2 ^ 32

/-- `avl_find_element(&_telnet_cmd_tree, name, ...)` (`oonf_telnet.c:526`): the command the
comparator calls equal (finding elements in the tree is the subject of C23). -/
def lookup (cmds : List Cmd) (name : Bytes) : Option Cmd :=
  cmds.find? fun c => (cmpWord name c.name).1 = 0

/-- `_check_telnet_command_acl` (`oonf_telnet.c:550-566`). -/
def accepted (remote : Nat) (c : Cmd) : Bool :=
  match c.acl with
  | none => true
  | some f => f remote

/-- The command found, if the client may use it (`oonf_telnet.c:526-532`, `590-597`). -/
def permitted (cmds : List Cmd) (remote : Nat) (name : Bytes) : Option Cmd :=
  match lookup cmds name with
  | some c => if accepted remote c then some c else none
  | none => none

/-- `_call_stop_handler` (`oonf_telnet.c:366-382`); the one of `repeat` is
`_cb_telnet_repeat_stophandler` (lines 649-659), which stops the timer. -/
def callStop (d : Data) : Data :=
  match d.stop with
  | none => d
  | some (.rep k) => { d with stop := none, timer := none, log := d.log ++ [.ended k] }
  | some (.ext k) => { d with stop := none, log := d.log ++ [.ended k] }

/-- `_cb_telnet_help` (`oonf_telnet.c:584-621`). -/
def help (e : Env) (d : Data) (par : Option Bytes) : Data :=
  match par with
  | some (b :: p) =>
    match permitted e.cmds d.remote (b :: p) with
    | none => { d with out := d.out ++ [.noHelp (b :: p)] }
    | some c => { d with out := d.out ++ [.helpFor c.name] }
  | _ => { d with out := d.out ++ [.frame] ++ ((e.cmds.filter (accepted d.remote)).map fun c => .listed c.name) ++ [.frame] }

/-- A handler of another module. -/
def external (e : Env) (d : Data) (guarded : Bool) : Data × Result :=
  if guarded ∧ d.stop ≠ none then ({ d with out := d.out ++ [.stacked] }, .active)
  else
    let r := e.world d.next
    let out := d.out ++ r.out.map .bytes
    if r.starts then
      ({ d with out := out, stop := some (.ext d.next), next := d.next + 1, log := d.log ++ [.began d.next] }, .continuous)
    else ({ d with out := out, next := d.next + 1 }, r.res)

/-- The handlers except `repeat` with no stop handler installed: `_cb_telnet_quit` (lines 573-576),
`_cb_telnet_help`, `_cb_telnet_echo` (lines 628-634), `_cb_telnet_timeout` (lines 641-650), the
beginning of `_cb_telnet_repeat` (lines 697-700) and those of other modules. -/
def perform (e : Env) (d : Data) (a : Act) (par : Option Bytes) : Data × Result :=
  match a with
  | .quit => (d, .quit)
  | .help => (help e d par, .active)
  | .echo => ({ d with out := d.out ++ [.bytes (par.getD [] ++ [10])] }, .active)
  | .timeout => ({ d with timeout := (par.map timeoutOf).getD 0 }, .active)
  | .rep => ({ d with out := d.out ++ [.stacked] }, .active)
  | .ext g => external e d g

/-- `_telnet_handle_command` (`oonf_telnet.c:520-539`) for a command called while a stop handler is
installed, and for all commands but `repeat`. -/
def handleSimple (e : Env) (d : Data) (cmd : Bytes) (par : Option Bytes) : Data × Result :=
  match permitted e.cmds d.remote cmd with
  | none => (d, .unknown)
  | some c => perform e { d with log := d.log ++ [.ran c.name] } c.act par

/-- `_cb_telnet_repeat` behind the test for a stop handler (`oonf_telnet.c:702-747`). -/
def doRepeat (e : Env) (d : Data) (par : Option Bytes) : Data × Result :=
  match par with
  | none => ({ d with out := d.out ++ [.missing] }, .active)
  | some p =>
    match (cutAt 32 p).2 with
    | none => ({ d with out := d.out ++ [.missing] }, .active)
    | some rest =>
      if atoi p < 1 then ({ d with out := d.out ++ [.interval] }, .active)
      else
        let cut := cutAt 32 rest
        let d1 := { d with timer := some ⟨cut.1, cut.2, 1000 * (atoi p).toNat⟩, stop := some (.rep d.next), next := d.next + 1, log := d.log ++ [.began d.next] }
        let r := handleSimple e d1 cut.1 cut.2
        (if r.2 = .active then r.1 else callStop r.1, .continuous)

/-- `_telnet_handle_command` (`oonf_telnet.c:520-539`). -/
def handle (e : Env) (d : Data) (cmd : Bytes) (par : Option Bytes) : Data × Result :=
  match permitted e.cmds d.remote cmd with
  | none => (d, .unknown)
  | some c =>
    if c.act = .rep ∧ d.stop = none then doRepeat e { d with log := d.log ++ [.ran c.name] } par
    else perform e { d with log := d.log ++ [.ran c.name] } c.act par

/-- The text `help`. -/
def helpWord : Bytes := [104, 101, 108, 112]

/-- Command and parameter of a piece of a line, `oonf_telnet.c:447-467`: cut at the first blank,
and exchanged if the parameter is `help`. -/
def request (piece : Bytes) : Bytes × Option Bytes :=
  let r := cutAt 32 piece
  if r.2 = some helpWord then (helpWord, some r.1) else r

/-- The answer to the result of a command (`oonf_telnet.c:474-495`): `len` is the length of the
output before the command, `cmd` its text. -/
def report (chain : Bool) (len : Nat) (cmd : Bytes) (d : Data) (r : Result) : Data :=
  let d := match r with
    | .active => d
    | .continuous => { d with echo := false }
    | .unknown => { d with out := d.out.take len ++ [.unknown cmd] }
    | _ => { d with out := d.out.take len ++ [.failed cmd] }
  if !chain && d.echo then { d with out := d.out ++ [.nl] } else d

/-- One command of a line (`oonf_telnet.c:437-497`); the flag tells that the session ends. -/
def runPiece (e : Env) (chain : Bool) (d : Data) (piece : Bytes) : Data × Bool :=
  let d1 := callStop d
  let cmd := (cutAt 32 piece).1
  if cmd = [] then (d1, false)
  else
    let q := request piece
    let r := handle e { d1 with log := d1.log ++ [.req q.1 q.2] } q.1 q.2
    if r.2 = .quit then (r.1, true)
    else (report chain d.out.length cmd r.1 r.2, false)

/-- The parts of a chain of commands (`oonf_telnet.c:440-445`, `497`). -/
def parts : Nat → Bytes → List Bytes
  | 0, s => [s]
  | n + 1, s =>
    let r := cutAt 47 s
    match r.2 with
    | none => [r.1]
    | some rest => r.1 :: parts n rest

/-- The loop over the commands of a line (`oonf_telnet.c:436-498`). -/
def runPieces (e : Env) (chain : Bool) (d : Data) : List Bytes → Data × Bool
  | [] => (d, false)
  | p :: ps =>
    let r := runPiece e chain d p
    if r.2 then r else runPieces e chain r.1 ps

/-- A line of input without its end (`oonf_telnet.c:428-498`): the new data, whether a command
ended the session, whether it was a chain. -/
def runLine (e : Env) (d : Data) (line : Bytes) : Data × Bool × Bool :=
  match line with
  | 47 :: s => let r := runPieces e true d (parts s.length s); (r.1, r.2, true)
  | s => let r := runPieces e false d [s]; (r.1, r.2, false)

/-- The line before its end, without a carriage return (`oonf_telnet.c:410-417`). -/
def stripCr (line : Bytes) : Bytes := if line.getLast? = some 13 then line.dropLast else line

/-- What the commands leave of a line that is not removed from the buffer: the first blank has
become a NUL (`oonf_telnet.c:447-450`). -/
def scar (b : Bytes) : Bytes :=
  let r := cutAt 32 (cstr b)
  if r.2.isSome then b.set r.1.length 0 else b

/-- Result of the loop over the input: the rest of the input, the data, whether the session is to
end, whether a line was handled. -/
structure Done where
  inb : Bytes
  d : Data
  quit : Bool
  worked : Bool

/-- The loop of `_cb_telnet_receive_data` (`oonf_telnet.c:405-508`), at most `fuel` rounds of it;
`none` if that was not enough.  `active` tells whether the session is active (otherwise the other
side has closed the connection and a line without end is handled, too; it is not removed from the
buffer, lines 500-503). -/
def loop (e : Env) (active : Bool) : Nat → Bytes → Data → Bool → Option Done
  | 0, inb, d, worked =>
    if inb = [] ∨ ((cutAt 10 inb).2 = none ∧ active) then some ⟨inb, d, false, worked⟩ else none
  | n + 1, inb, d, worked =>
    if inb = [] ∨ ((cutAt 10 inb).2 = none ∧ active) then some ⟨inb, d, false, worked⟩
    else
      match (cutAt 10 inb).2 with
      | none =>
        let x := runLine e d (cstr inb)
        if x.2.1 ∨ x.2.2 then some ⟨inb, x.1, true, true⟩ else loop e active n (scar inb) x.1 true
      | some rest =>
        let x := runLine e d (cstr (stripCr (cutAt 10 inb).1))
        if x.2.1 then some ⟨inb, x.1, true, true⟩
        else if x.2.2 then some ⟨rest, x.1, true, true⟩
        else loop e active n rest x.1 true

/-- A telnet session: state of the TCP session (active or about to end), input not handled yet,
the idle time after which it is ended (0: never), whether its memory has been given back. -/
structure Sess where
  d : Data
  inb : Bytes := []
  active : Bool := true
  limit : Nat
  closed : Bool := false

/-- `_cb_telnet_init` (`oonf_telnet.c:309-323`); the TCP session has been given the configured
timeout (`oonf_stream_socket.c:660-663`). -/
def start (remote cfg : Nat) : Sess := { d := { remote := remote }, limit := cfg }

/-- Outcome of an operation: it returns, it does not return within the given number of rounds, or
it uses memory given back before. -/
inductive Outcome where
  | ok (s : Sess) | hung | freed

/-- The end of `_cb_telnet_receive_data` (`oonf_telnet.c:503-518`); the state becomes the returned
one.  The prompt is printed in an active session only. -/
def conclude (s : Sess) (active : Bool) (r : Done) : Sess :=
  if r.quit then { s with d := r.d, inb := r.inb, active := false }
  else
    let d := if r.worked ∧ active ∧ r.d.echo then { r.d with out := r.d.out ++ [.prompt] } else r.d
    { s with d := d, inb := r.inb, limit := r.d.timeout, active := true }

/-- Input arrives in an active session (`_cb_telnet_receive_data`, called from
`oonf_stream_socket.c:793-795`). -/
def feed (e : Env) (s : Sess) (bs : Bytes) : Outcome :=
  if s.closed then .freed
  else if ¬ s.active then .ok s
  else
    match loop e true (s.inb ++ bs).length (s.inb ++ bs) s.d false with
    | none => .hung
    | some r => .ok (conclude s true r)

/-- The other side closes the connection (`oonf_stream_socket.c:781-787`): the callback is called
with the state of a session to be ended, its result becomes the state. -/
def eof (e : Env) (s : Sess) (fuel : Nat) : Outcome :=
  if s.closed then .freed
  else if ¬ s.active then .ok s
  else
    match loop e false fuel s.inb s.d false with
    | none => .hung
    | some r => .ok (conclude s false r)

/-- `_cb_telnet_repeat_timer` (`oonf_telnet.c:665-683`). -/
def tick (e : Env) (s : Sess) : Outcome :=
  match s.d.timer with
  | none => .ok s
  | some t =>
    if s.closed then .freed
    else
      let r := handle e s.d t.cmd t.par
      .ok { s with d := if r.2 = .active then r.1 else callStop r.1 }

/-- `oonf_telnet_stop` (`oonf_telnet.c:226-234`), called by a handler whose continuous output is
complete. -/
def halt (s : Sess) (prompt : Bool) : Outcome :=
  if s.closed then .freed
  else
    let d := callStop s.d
    .ok { s with d := { d with echo := true, out := if prompt then d.out ++ [.prompt] else d.out } }

/-- `_cb_telnet_cleanup` (`oonf_telnet.c:329-349`); the session is given back afterwards. -/
def close (s : Sess) : Outcome :=
  if s.closed then .freed
  else .ok { s with d := { callStop s.d with echo := true }, active := false, closed := true }

/-- What can happen to a session. -/
inductive Op where
  | feed (bs : Bytes) | eof (fuel : Nat) | tick | halt (prompt : Bool) | close

/-- One operation. -/
def step (e : Env) (s : Sess) : Op → Outcome
  | .feed bs => feed e s bs
  | .eof n => eof e s n
  | .tick => tick e s
  | .halt p => halt s p
  | .close => close s

/-- The outcome of a history (newest operation first). -/
def run (e : Env) (remote cfg : Nat) : List Op → Outcome
  | [] => .ok (start remote cfg)
  | op :: ops =>
    match run e remote cfg ops with
    | .ok s => step e s op
    | x => x

/-- `oonf_telnet_execute` (`oonf_telnet.c:244-275`) with a session on the stack: the data when it
returns, and the result. -/
def execute (e : Env) (remote : Nat) (cmd : Bytes) (par : Option Bytes) : Data × Result :=
  let r := handle e { remote := remote, echo := false, timeout := 0 } cmd par
  (callStop r.1, r.2)

end Verif.Telnet
