import Verif.Str.Model
/-
Logging: masks, registered handlers, delivery of messages, configuration, sources.
/repo/src/libcore/oonf_logging.c, /repo/src/libcore/oonf_logging_cfg.c,
/repo/include/oonf/libcore/oonf_logging.h.
-/
namespace Verif.Log

/-- Severities in ascending order: debug, info, warning, assert; `enum oonf_log_severity`,
oonf_logging.h:62-71. -/
abbrev Sev := Fin 4

/-- The bit of a severity, oonf_logging.h:65-70. -/
def bit (s : Sev) : BitVec 8 := 1#8 <<< s.val

/-- A mask: one byte for each of the 128 sources, oonf_logging.h:74-93. Source 0 is `LOG_ALL`,
source 1 `LOG_MAIN`. -/
abbrev Mask := Nat → BitVec 8

/-- `oonf_log_mask_clear`, oonf_logging.h:422-425: warnings and assertions of all sources. -/
def clear : Mask := fun _ => 12#8

/-- `oonf_log_mask_set`, oonf_logging.h:443-446. -/
def set (m : Mask) (src : Nat) (sev : Sev) : Mask := fun i => if i = src then m i ||| bit sev else m i

/-- `oonf_log_mask_reset`, oonf_logging.h:454-457. -/
def reset (m : Mask) (src : Nat) (sev : Sev) : Mask := fun i => if i = src then m i &&& ~~~ bit sev else m i

/-- `oonf_log_mask_test`, oonf_logging.h:466-469. -/
def test (m : Mask) (src : Nat) (sev : Sev) : Bool := m src &&& bit sev != 0#8

/-- A message: severity, source, text. The buffer of the text includes time and place, which are
not modelled; the text is just told apart from others by a number. -/
structure Msg where
  sev : Sev
  src : Nat
  text : Nat
deriving DecidableEq, Repr

/-- `struct oonf_log_handler_entry`, oonf_logging.h:351-371. `console` stands for the handler
`_cb_print_log` of a running telnet session, remotecontrol.c:298-308, which writes the text and
then asks the scheduler for write events; all others (`oonf_log_stderr`, `oonf_log_file`,
`oonf_log_syslog`) only write the text. -/
structure Handler where
  id : Nat
  user : Mask
  proc : Mask
  console : Bool

/-- Registered handlers, `log_global_mask`, the one shared text buffer `_logbuffer`, what the
handlers have written so far, and `_log_warnings`; oonf_logging.c:60-93. -/
structure State where
  hs : List Handler
  glob : Mask
  buf : Option Msg
  out : List (Nat × Option Msg)
  warnings : Nat → Nat

/-- Severities from lower to higher level, oonf_logging.c:316-317 (shifts of a `uint8_t`). -/
def spread (m : BitVec 8) : BitVec 8 :=
  let m := m ||| (m <<< 1)
  m ||| (m <<< 2)

/-- The mask calculated for a handler, oonf_logging.c:309-328. -/
def processed (u : Mask) : Mask := fun src => spread (u src ||| u 0)

/-- `oonf_log_updatemask`, oonf_logging.c:298-335. -/
def update (st : State) : State :=
  let hs := st.hs.map fun h => { h with proc := processed h.user }
  { st with hs, glob := fun src => hs.foldl (fun g h => g ||| h.proc src) (clear src) }

/-- `oonf_log_init`, oonf_logging.c:100-147; the list of handlers is empty, the global mask has the
severities from `def_severity` on. -/
def init (sev : Sev) : State where
  hs := []
  glob := fun _ => (List.finRange 4).foldl (fun m s => if sev ≤ s then m ||| bit s else m) 0#8
  buf := none
  out := []
  warnings := fun _ => 0

/-- `oonf_log_addhandler`, oonf_logging.c:175-178. -/
def add (st : State) (h : Handler) : State := update { st with hs := st.hs ++ [h] }

/-- `oonf_log_removehandler`, oonf_logging.c:185-188. -/
def remove (st : State) (id : Nat) : State := update { st with hs := st.hs.filter fun h => h.id ≠ id }

/-- A new mask for a handler followed by `oonf_log_updatemask`, as in `oonf_logcfg_apply`,
oonf_logging_cfg.c:171-173 and 233. -/
def change (st : State) (id : Nat) (m : Mask) : State :=
  update { st with hs := st.hs.map fun h => if h.id = id then { h with user := m } else h }

/-- What becomes of a message: the new state, a dereferenced NULL pointer, or recursion deeper than
the given depth. -/
inductive Outcome where
  | ok (st : State)
  | null
  | deep

/-- The message of `os_fd_linux_event_socket_modify`, os_fd_linux.c:138; `fd` is the logging source
of the subsystem. -/
def modified (fd : Nat) : Msg := ⟨0, fd, 0⟩

/-- The loop over the handlers, oonf_logging.c:417-421: who has the bit of the message in its
processed mask writes the contents of the buffer. A console handler then calls
`oonf_telnet_flush_session` (oonf_telnet.h:232-240), which arrives at
`os_fd_linux_event_socket_modify` and its debug message `nest`. -/
def each (fd : Nat) (nest : State → Outcome) (m : Msg) : List Handler → State → Outcome
  | [], st => .ok st
  | h :: hs, st =>
    if test h.proc m.src m.sev then
      let st := { st with out := st.out ++ [(h.id, st.buf)] }
      if h.console && test st.glob (modified fd).src (modified fd).sev then
        match nest st with
        | .ok st => each fd nest m hs st
        | o => o
      else each fd nest m hs st
    else each fd nest m hs st

/-- Counters of warnings, oonf_logging.c:382-386. -/
def count (m : Msg) (w : Nat → Nat) : Nat → Nat :=
  if m.sev = 2 then
    let w := fun i => if i = m.src then (w i + 1) % 2 ^ 32 else w i
    fun i => if i = 0 then (w i + 1) % 2 ^ 32 else w i
  else w

/-- `oonf_log`, oonf_logging.c:372-424, up to a depth of recursion. The text is generated in the
shared buffer; without handlers `oonf_log_stderr(NULL, ..)` reads `entry->custom`
(oonf_logging.c:434). Simplification: the buffer does not move when it grows. -/
def log (fd : Nat) : Nat → State → Msg → Outcome
  | 0, _, _ => .deep
  | n + 1, st, m =>
    let st := { st with buf := some m, warnings := count m st.warnings }
    if st.hs = [] then .null else each fd (fun st => log fd n st (modified fd)) m st.hs st

/-- `_OONF_LOG`, oonf_logging.h:172-178 (without `abort` after a failed assertion). -/
def emit (fd n : Nat) (st : State) (m : Msg) : Outcome :=
  if test st.glob m.src m.sev then log fd n st m else .ok st

/-- What can happen to the logging system. -/
inductive Op where
  | add (id : Nat) (m : Mask) (console : Bool)
  | remove (id : Nat)
  | change (id : Nat) (m : Mask)
  | emit (m : Msg)

/-- One step; new handlers come with an unused processed mask (`calloc`, static memory). -/
def step (fd n : Nat) (st : State) : Op → Outcome
  | .add id m console => .ok (Log.add st ⟨id, m, fun _ => 0#8, console⟩)
  | .remove id => .ok (Log.remove st id)
  | .change id m => .ok (Log.change st id m)
  | .emit m => Log.emit fd n st m

/-- A history, newest event first, after `oonf_log_init`. -/
def run (fd n : Nat) (sev : Sev) : List Op → Outcome
  | [] => .ok (init sev)
  | o :: ops =>
    match run fd n sev ops with
    | .ok st => step fd n st o
    | x => x

/-! ## Sources -/

abbrev Name := List UInt8

/-- `LOG_SOURCE_NAMES` after `oonf_log_init`, oonf_logging.c:72-85 and 107: all, main, logging,
config, plugins, subsystems. -/
def core : List Name :=
  [[97, 108, 108], [109, 97, 105, 110], [108, 111, 103, 103, 105, 110, 103], [99, 111, 110, 102, 105, 103],
   [112, 108, 117, 103, 105, 110, 115], [115, 117, 98, 115, 121, 115, 116, 101, 109, 115]]

/-- `oonf_log_register_source`, oonf_logging.c:195-225 (`strdup` does not fail): the names and the
index for the caller. -/
def register (names : List Name) (n : Name) : List Name × Nat :=
  match names.findIdx? (· == n) with
  | some i => (names, i)
  | none => if names.length = 128 then (names, 1) else (names ++ [n], names.length)

/-! ## Configuration -/

/-- `strcasecmp(a, b) == 0`. -/
def same (a b : Name) : Bool := a.map Str.toLower == b.map Str.toLower

/-- The section `log`, oonf_logging_cfg.c:85-97. -/
structure Cfg where
  debug : List Name
  info : List Name
  stderr : Bool
  syslog : Bool
  file : Option Name

/-- `_apply_log_setting`, oonf_logging_cfg.c:297-311, for one severity. -/
def setting (names : List Name) (sev : Sev) (l : List Name) (m : Mask) : Mask :=
  l.foldl (fun m n => (List.range names.length).foldl (fun m i =>
    match names[i]? with
    | some k => if same n k then set m i sev else m
    | none => m) m) m

/-- The mask of a configuration, oonf_logging_cfg.c:162-169. -/
def maskOf (names : List Name) (c : Cfg) : Mask := setting names 0 c.debug (setting names 1 c.info clear)

/-- The three handlers of the configuration: whether they are added, and the file that is open. -/
structure Targets where
  stderr : Bool
  syslog : Bool
  file : Option Name
deriving DecidableEq, Repr

/-- Handlers of `oonf_logcfg_apply`, oonf_logging_cfg.c:175-241; `opens` says which files can be
opened. The result is true if the file could not be opened. -/
def targets (opens : Name → Bool) (fork : Bool) (c : Cfg) (t : Targets) : Targets × Bool :=
  let (file, wanted, failed) : Option Name × Bool × Bool :=
    match c.file, t.file with
    | some f, none => if opens f then (some f, true, false) else (none, false, true)
    | some _, some g => (some g, true, false)
    | none, _ => (none, false, false)
  let stderr := c.stderr || !(c.syslog || wanted)
  let syslog := if fork then c.syslog || !wanted else c.syslog
  (⟨stderr, syslog, file⟩, failed)

/-- `oonf_logcfg_cleanup`, oonf_logging_cfg.c:129-147. -/
def noTargets : Targets := ⟨false, false, none⟩

end Verif.Log
