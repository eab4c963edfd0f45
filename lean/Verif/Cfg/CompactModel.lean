import Verif.Cfg.Spec

/-
Model of the configuration file format, `src/generic/cfg_compact/cfg_compact.c`: serialization of a database and parsing of a file.  Reading and
writing of files, messages and failing allocations are not modelled.  The buffer is the content of the file with the zero byte behind it; access
behind this byte is `fault`.  `isspace` is the one of the C locale (for bytes above 127, for which its behavior is not defined with a signed
`char`, it is assumed to be false).
-/
namespace Verif.Cfg.Compact
open Verif.Cfg

/-- `isspace` -/
def isSpace (c : UInt8) : Bool := c == 32 || (9 ≤ c && c ≤ 13)

/-- `str_trim`, string.c:118-140 (the first character that is left is no white space, so the loop from behind need not look at it) -/
def trim (s : Str) : Str := ((s.dropWhile isSpace).reverse.dropWhile isSpace).reverse

/-- the characters of `valid`, cfg.c:131-133 -/
def isKeyChar (c : UInt8) : Bool := c == 95 || (48 ≤ c && c ≤ 57) || (65 ≤ c && c ≤ 90) || (97 ≤ c && c ≤ 122)

/-- `cfg_is_allowed_key`, cfg.c:129-140 -/
def allowedKey (s : Str) : Bool := !(s.head?.any fun c => 48 ≤ c && c ≤ 57) && s.all isKeyChar

/-- `_compact_serialize`, cfg_compact.c:312-336 -/
def serialize (d : Db) : Str :=
  d.flatMap fun s => s.names.flatMap fun n =>
    (match n.name with
     | some x => [91] ++ s.type ++ [61] ++ x ++ [93, 10]
     | none => [91] ++ s.type ++ [93, 10]) ++
    n.entries.flatMap fun e => e.vals.flatMap fun v => [9] ++ e.name ++ [32] ++ v ++ [10]

/-- database and the buffers `section` and `name` (strings, at most 127 bytes) -/
structure State where
  db : Db
  section_ : Str
  name : Str
deriving DecidableEq

/-- result of parsing: 0 or -1 (with the database so far), or access behind the buffer -/
inductive Out
  | ok (s : State)
  | error (s : State)
  | fault
deriving DecidableEq

/-- `*name ? name : NULL` -/
def nameArg (n : Str) : Option Str := if n = [] then none else some n

/-- cfg_compact.c:366-416: a line which begins with a bracket, `first` is the text behind it -/
def parseSection (st : State) (first : Str) : Out :=
  if (93 : UInt8) ∉ first then .error st
  else
    let inner := first.takeWhile (· != 93)
    let hasName := inner.contains 61
    let type := trim (inner.takeWhile (· != 61))
    if type = [] then .error st
    else
      let st := { st with section_ := type.take 127, name := if hasName then (trim ((inner.dropWhile (· != 61)).drop 1)).take 127 else [] }
      if !allowedKey st.section_ then .error st
      else if st.name != [] && st.name.contains 32 then .error st
      else .ok { st with db := addSection st.db st.section_ (nameArg st.name) }

/-- cfg_compact.c:430-449: a line with an entry; `key` is the text up to the separator and `value` what is behind -/
def parseEntry (st : State) (key value : Str) : Out :=
  if trim value = [] then .error st
  else if !allowedKey key then .error st
  else .ok { st with db := setEntry st.db st.section_ (nameArg st.name) key (trim value) true true }

/-- `str_trim` overwrites the spaces at the end of the string which starts at the beginning of the memory -/
def zeroTrail (m : Str) : Str :=
  let s := m.takeWhile (· != 0)
  let body := (s.reverse.dropWhile isSpace).reverse
  body ++ List.replicate (s.length - body.length) 0 ++ m.drop s.length

/-- `_parse_line`, cfg_compact.c:352-450; `line` is the line without the end of line, `rest` the memory behind it, which is changed if there is no
separator in the line: the search for one (cfg_compact.c:426-428) goes over the end of the string -/
def parseLine (st : State) (line rest : Str) : Out × Str :=
  let first := trim line
  match first with
  | [] => (.ok st, rest)
  | c :: cs =>
    if c = 35 then (.ok st, rest)
    else if c = 91 then (parseSection st cs, rest)
    else if st.section_ = [] then (.error st, rest)
    else if first.any isSpace then
      (parseEntry st (first.takeWhile fun c => !isSpace c) (first.dropWhile fun c => !isSpace c), rest)
    else if rest.any isSpace then
      let before := rest.takeWhile fun c => !isSpace c
      let after := (rest.dropWhile fun c => !isSpace c).drop 1
      (parseEntry st first (after.takeWhile (· != 0)), before ++ [0] ++ zeroTrail after)
    else (.fault, rest)

/-- the text before the end of the line; a carriage return at the end of it is removed, cfg_compact.c:284-295 -/
def chopCr (line : Str) : Str := if line.getLast? = some 13 then line.dropLast else line

/-- `_compact_parse`, cfg_compact.c:269-303: `mem` is the memory from the current line to the zero byte behind the file -/
def parseLoop : Nat → State → Str → Out
  | 0, st, _ => .ok st
  | fuel + 1, st, mem =>
    if mem.length ≤ 1 then .ok st
    else
      let line := mem.takeWhile fun c => c != 0 && c != 10
      let rest := mem.drop (line.length + 1)
      let r := parseLine st (chopCr line) rest
      match r.1 with
      | .ok st => parseLoop fuel st r.2
      | o => o

/-- parsing of a file, every line removes at least one byte -/
def parse (db : Db) (file : Str) : Out := parseLoop file.length ⟨db, [], []⟩ (file ++ [0])

end Verif.Cfg.Compact
