import Verif.Str.Model
import Verif.IsoNum.Model
import Verif.Netaddr.Model

/-
Model of `src/base/oonf_http.c`: the HTTP server.

Memory which is used as C text is a list of bytes: the bytes of the buffer, behind them follows a zero (that is so for a `struct autobuf`,
see C14).  A `char *` into the buffer is an offset.  The generated answers (headers, error pages) are not modelled, only which answer it is.
-/
namespace Verif.Http
open Verif.Netaddr (strcasecmp toLower)
open Verif.Str (strHasNextWord)

abbrev Txt := List UInt8

/-- the text at an offset of a buffer -/
def cstr (mem : Txt) (o : Nat) : Txt := (mem.drop o).takeWhile (· != 0)

/-- `strstr`: offset of the first occurrence -/
def strstr (pat : Txt) : Txt → Option Nat
  | [] => if pat = [] then some 0 else none
  | c :: s => if pat.isPrefixOf (c :: s) then some 0 else (strstr pat s).map (· + 1)

def crlf : Txt := [13, 10]
/-- blank or tabulator -/
def isBlank (c : UInt8) : Bool := c == 32 || c == 9

/-! ### Header -/

/-- first loop of `_parse_http_header`, oonf_http.c:646-675: `uri`, `ver`: offsets found so far, `pos`: offset of the first byte of the rest.
Result: the bytes of the line as they are afterwards, the offsets, and the rest.  `none`: unexpected end. -/
def firstLine (uri ver : Option Nat) (pos : Nat) : Txt → Option (Txt × Option Nat × Option Nat × Txt)
  | c :: d :: rest =>
    if c = 32 ∧ ver = none then
      (firstLine (if uri = none then some (pos + 1) else uri) (if uri = none then ver else some (pos + 1)) (pos + 1) (d :: rest)).map fun r => (0 :: r.1, r.2)
    else if c = 13 then (firstLine uri ver (pos + 1) (d :: rest)).map fun r => (0 :: r.1, r.2)
    else if c = 10 then some ([0], uri, ver, d :: rest)
    else (firstLine uri ver (pos + 1) (d :: rest)).map fun r => (c :: r.1, r.2)
  | _ => none

/-- name of a header field, oonf_http.c:699-720: the bytes afterwards and the rest -/
def fieldName : Txt → Option (Txt × Txt)
  | [] => none
  | c :: rest =>
    if c = 58 then some ([0], rest)
    else if c = 32 ∨ c = 9 then (fieldName rest).map fun r => (0 :: r.1, r.2)
    else if c = 10 ∨ c = 13 then none
    else (fieldName rest).map fun r => (c :: r.1, r.2)

/-- value of a header field, oonf_http.c:722-784: `val`: offset of the value if it has begun, `pos`: offset of the rest -/
def fieldValue (val : Option Nat) (pos : Nat) : Txt → Option (Txt × Nat × Txt)
  | [] => none
  | [_] => none
  | c :: d :: rest =>
    let val' := if val = none ∧ ¬(c = 32 ∨ c = 9) then some pos else val
    if c = 10 then
      if d = 32 ∨ d = 9 then (fieldValue val' (pos + 2) rest).map fun r => (32 :: 32 :: r.1, r.2)
      else some ([0], val'.getD pos, d :: rest)
    else if c = 13 then
      if d = 10 then
        match rest with
        | [] => none
        | e :: rest' =>
          if e = 32 ∨ e = 9 then (fieldValue val' (pos + 3) rest').map fun r => (32 :: 32 :: 32 :: r.1, r.2)
          else some ([0, 10], val'.getD pos, e :: rest')
      else (fieldValue val' (pos + 1) (d :: rest)).map fun r => (c :: r.1, r.2)
    else (fieldValue val' (pos + 1) (d :: rest)).map fun r => (c :: r.1, r.2)

/-- does the rest begin with the empty line which ends the header, oonf_http.c:682-692 -/
def endOfHeader : Txt → Bool
  | 10 :: _ => true
  | 13 :: 10 :: _ => true
  | _ => false

/-- second loop of `_parse_http_header`, oonf_http.c:681-785, with room for `k` more fields; a carriage return at the very end is an error
of `fieldName`.  Result: the bytes afterwards, offsets of names and values, and the rest. -/
def fields : Nat → Nat → Txt → Option (Txt × List (Nat × Nat) × Txt)
  | k, pos, rest =>
    if endOfHeader rest then some ([], [], rest)
    else
      match k with
      | 0 => none
      | k + 1 =>
        match fieldName rest with
        | none => none
        | some (n, rest1) =>
          match fieldValue none (pos + n.length) rest1 with
          | none => none
          | some (v, o, rest2) => (fields k (pos + n.length + v.length) rest2).map fun r => (n ++ v ++ r.1, (pos, o) :: r.2.1, r.2.2)

/-- `OONF_HTTP_MAX_HEADERS`, `OONF_HTTP_MAX_PARAMS`, `OONF_HTTP_MAX_URI_LENGTH`, oonf_http.h:69-78 -/
def maxHeaders : Nat := 16
def maxParams : Nat := 8
def maxUri : Nat := 256

/-- `struct oonf_http_session` after the parser: offsets into the buffer -/
structure Head where
  uri : Nat
  version : Nat
  fields : List (Nat × Nat)
deriving DecidableEq, Repr

/-- `_parse_http_header`, oonf_http.c:639-799: the buffer afterwards and what was found.  `none`: error (the buffer is not used any more). -/
def parseHeader (mem : Txt) : Option (Txt × Head) :=
  match firstLine none none 0 mem with
  | none => none
  | some (l, uri, ver, rest) =>
    match uri, ver with
    | some uri, some ver => (fields maxHeaders l.length rest).map fun r => (l ++ r.1 ++ r.2.2, ⟨uri, ver, r.2.1⟩)
    | _, _ => none

/-- `oonf_http_lookup_value`, oonf_http.c:274-284 -/
def lookupValue (kv : List (Txt × Txt)) (key : Txt) : Option Txt := (kv.find? fun p => p.1 == key).map (·.2)

/-- names and values of the header fields -/
def headerFields (mem : Txt) (h : Head) : List (Txt × Txt) := h.fields.map fun p => (cstr mem p.1, cstr mem p.2)

/-! ### URI -/

def hexVal (c : UInt8) : Option Nat :=
  if 48 ≤ c ∧ c ≤ 57 then some (c.toNat - 48) else if 65 ≤ c ∧ c ≤ 70 then some (c.toNat - 55) else if 97 ≤ c ∧ c ≤ 102 then some (c.toNat - 87) else none

/-- `sscanf(src, "%02x", &value)` with `value = 0` before (ISO C 7.21.6.2, 7.22.1.4): two hexadecimal digits, or one.  Without a digit nothing
is stored.  White space, signs and "0x" at the start are left to an arbitrary function. -/
def sscanfHex (odd : Txt → UInt8) (c d : UInt8) (rest : Txt) : UInt8 :=
  match hexVal c, hexVal d with
  | some a, some b => (16 * a + b).toUInt8
  | some a, none => if c = 48 ∧ (d = 120 ∨ d = 88) then odd (c :: d :: rest) else a.toUInt8
  | none, _ => if IsoNum.isSpace c ∨ c = 43 ∨ c = 45 then odd (c :: d :: rest) else 0

/-- `_decode_uri`, oonf_http.c:851-870, as a function on the text; it works in place, the writing position is never behind the reading
position -/
def decode (odd : Txt → UInt8) : Txt → Txt
  | [] => []
  | 37 :: c :: d :: rest => sscanfHex odd c d rest :: decode odd rest
  | c :: rest => c :: decode odd rest

/-- the buffer after a text at its start was replaced by one which is not longer -/
def overwrite (mem new : Txt) : Txt := new ++ 0 :: mem.drop (new.length + 1)

/-- `strchr(uri, c)` and `*ptr = 0`: the buffer, and the offset of the text behind -/
def cut (c : UInt8) (mem : Txt) : Txt × Option Nat :=
  match (cstr mem 0).findIdx? (· == c) with
  | none => (mem, none)
  | some i => (mem.set i 0, some (i + 1))

/-- one part of a query string: up to the first "=", and behind it -/
def splitEq (s : Txt) : Txt × Txt := (s.takeWhile (· != 61), (s.dropWhile (· != 61)).drop 1)

/-- the parts of a text between "&" -/
def splitAmp : Txt → List Txt
  | [] => [[]]
  | c :: s =>
    if c = 38 then [] :: splitAmp s
    else match splitAmp s with | [] => [[c]] | p :: ps => (c :: p) :: ps

/-- `_parse_query_string`, oonf_http.c:816-843 on the parts of the text: parameters without name are dropped -/
def queryLoop : Nat → List Txt → List (Txt × Txt)
  | 0, _ => []
  | _, [] => []
  | k + 1, p :: ps => if (splitEq p).1 = [] then queryLoop (k + 1) ps else splitEq p :: queryLoop k ps

def parseQuery (s : Txt) : List (Txt × Txt) := queryLoop maxParams (splitAmp s)

def joinAmp : List Txt → Txt
  | [] => []
  | [p] => p
  | p :: ps => p ++ 38 :: joinAmp ps

/-- bytes of a part after its first "=" was overwritten -/
def partBytes (p : Txt) : Txt := if 61 ∈ p then (splitEq p).1 ++ 0 :: (splitEq p).2 else p

/-- bytes of the text after `_parse_query_string`, oonf_http.c:820-841: every "&" and the first "=" of every part which was looked at are zero -/
def queryBytes : Nat → List Txt → Txt
  | 0, ps => joinAmp ps
  | _, [] => []
  | _ + 1, [p] => partBytes p
  | k + 1, p :: ps => partBytes p ++ 0 :: queryBytes (if (splitEq p).1 = [] then k + 1 else k) ps

/-! ### Handlers -/

/-- `struct oonf_http_handler`, oonf_http.h:148-180: `accepts`: does the access control list accept the client, `content`: is there static
content -/
structure Handler where
  site : Txt
  auth : List Txt
  accepts : Bool
  content : Bool
deriving DecidableEq, Repr

/-- `directory`, oonf_http.c:246 -/
def Handler.directory (h : Handler) : Bool := h.site.getLast? == some 47

/-- `strncasecmp(a, b, n) == 0` -/
def sameStart (a b : Txt) (n : Nat) : Bool := (a.take n).map toLower == (b.take n).map toLower

/-- `_get_site_handler`, oonf_http.c:504-536; the tree is a list in its order -/
def siteHandler (tree : List Handler) (uri : Txt) : Option Handler :=
  match tree.find? fun h => strcasecmp h.site uri == 0 with
  | some h => some h
  | none =>
    let le := (tree.filter fun h => strcasecmp h.site uri ≤ 0).getLast?
    match le.filter fun h => h.directory && sameStart h.site uri h.site.length with
    | some h => some h
    | none =>
      let ge := tree.find? fun h => strcasecmp h.site uri ≥ 0
      ge.filter fun h => sameStart h.site uri uri.length && h.site.drop uri.length == [47]

/-- `_auth_okay`, oonf_http.c:451-472 -/
def authOkay (h : Handler) (flds : List (Txt × Txt)) : Bool :=
  match lookupValue flds [65, 117, 116, 104, 111, 114, 105, 122, 97, 116, 105, 111, 110] with
  | none => false
  | some auth =>
    match strHasNextWord auth [66, 97, 115, 105, 99] with
    | none => false
    | some pw => h.auth.any (· == pw)

/-! ### Requests -/

/-- what a content handler sees: method, buffer of the decoded URI, header fields, parameters -/
structure Request where
  method : Txt
  uri : Txt
  flds : List (Txt × Txt)
  params : List (Txt × Txt)
deriving DecidableEq, Repr

inductive Answer
  /-- `STREAM_SESSION_ACTIVE`: wait for more data -/
  | wait
  /-- an error page -/
  | error (code : Nat)
  /-- the static content of a handler -/
  | content (h : Handler)
  /-- the callback of a handler is called -/
  | call (h : Handler) (r : Request)
deriving DecidableEq, Repr

def GET : Txt := [71, 69, 84]
def POST : Txt := [80, 79, 83, 84]
/-- "HTTP/1.0" and "HTTP/1.1" -/
def http10 : Txt := [72, 84, 84, 80, 47, 49, 46, 48]
def http11 : Txt := [72, 84, 84, 80, 47, 49, 46, 49]
/-- "Content-Length" -/
def contentLength : Txt := [67, 111, 110, 116, 101, 110, 116, 45, 76, 101, 110, 103, 116, 104]

/-- `strtoul(text, NULL, 10)`, `unsigned long` has 64 bits -/
def strtoul (s : Txt) : Nat := ((IsoNum.strtoull s).1).getD (2 ^ 64 - 1)

/-- end of the header, oonf_http.c:300-310 -/
def headerEnd (mem : Txt) : Option Nat :=
  match strstr [13, 10, 13, 10] (cstr mem 0) with
  | some i => some (i + 4)
  | none => (strstr [10, 10] (cstr mem 0)).map (· + 2)

/-- choice of the handler and access control, oonf_http.c:383-409 -/
def serve (tree : List Handler) (r : Request) : Answer :=
  match siteHandler tree (cstr r.uri 0) with
  | none => .error 404
  | some h =>
    if h.content then .content h
    else if !h.accepts then .error 403
    else if h.auth ≠ [] ∧ authOkay h r.flds = false then .error 401
    else .call h r

/-- fragment and decoding of the URI, oonf_http.c:356-363 -/
def prepareUri (odd : Txt → UInt8) (uri junk : Txt) : Txt :=
  let m := (cut 35 (uri ++ 0 :: junk)).1
  overwrite m (decode odd (cstr m 0))

/-- the request after the header was parsed, oonf_http.c:318-381: `fh`: offset behind the header.  The buffer `uri` of 257 bytes has the URI
at its start, a zero, and the bytes `junk` which were in the memory before. -/
def request (odd : Txt → UInt8) (tree : List Handler) (junk : Txt) (fh : Nat) (mem : Txt) (h : Head) : Answer :=
  let method := cstr mem 0
  let flds := headerFields mem h
  if cstr mem h.version ≠ http10 ∧ cstr mem h.version ≠ http11 then .error 400
  else if (cstr mem h.uri).length ≥ maxUri then .error 400
  else if method = POST then
    match lookupValue flds contentLength with
    | none => .error 400
    | some cl =>
      if strtoul cl > mem.length then .wait
      else serve tree ⟨method, prepareUri odd (cstr mem h.uri) junk, flds, parseQuery (cstr mem fh)⟩
  else if method = GET then
    let u := prepareUri odd (cstr mem h.uri) junk
    match cut 63 u with
    | (_, none) => serve tree ⟨method, u, flds, []⟩
    | (u', some q) =>
      serve tree ⟨method, u'.take q ++ queryBytes maxParams (splitAmp (cstr u' q)) ++ u'.drop (q + (cstr u' q).length), flds, parseQuery (cstr u' q)⟩
  else .error 501

/-- `_cb_receive_data`, oonf_http.c:291-433: the input buffer afterwards and the answer -/
def receive (odd : Txt → UInt8) (tree : List Handler) (junk : Txt) (mem : Txt) : Txt × Answer :=
  match headerEnd mem with
  | none => (mem, .wait)
  | some fh =>
    match parseHeader mem with
    | none => (mem, .error 400)
    | some (mem', h) => (mem', request odd tree junk fh mem' h)

/-- a connection: blocks of data arrive (oonf_stream_socket.c:753-795) until there is an answer; `maximum_input_buffer` is 65536
(oonf_http.c:163) -/
def session (odd : Txt → UInt8) (tree : List Handler) (junk : Txt) : Txt → List Txt → Answer
  | _, [] => .wait
  | mem, b :: bs =>
    if (mem ++ b).length > 65536 then .error 413
    else
      match receive odd tree junk (mem ++ b) with
      | (mem', .wait) => session odd tree junk mem' bs
      | (_, a) => a

/-! ### File server -/

/-- "/../" and "/www/" -/
def dotdot : Txt := [47, 46, 46, 47]
def www : Txt := [47, 119, 119, 119, 47]

/-- `_cb_file_handler`, oonf_http.c:930-957, if there is a directory for files: the path which is given to `openat` -/
def openFile (uri : Txt) : Option Txt :=
  if (strstr dotdot (cstr uri 0)).isSome then none
  else if (cstr uri 5).head? = some 47 then none
  else some (cstr uri 5)

/-- the handler for files, oonf_http.c:183-190 -/
def fileHandler : Handler := ⟨www, [], true, false⟩
/-- the handler for telnet commands, oonf_http.c:174-181 -/
def telnetHandler : Handler := ⟨[47, 116, 101, 108, 110, 101, 116, 47], [], true, false⟩

/-! ### Telnet commands -/

/-- the parts of a text between "/" -/
def splitSlash : Txt → List Txt
  | [] => [[]]
  | c :: s =>
    if c = 47 then [] :: splitSlash s
    else match splitSlash s with | [] => [[c]] | p :: ps => (c :: p) :: ps

/-- command and parameter, oonf_http.c:895-901 -/
def splitCommand (s : Txt) : Txt × Txt := (s.takeWhile (· != 32), (s.dropWhile (· != 32)).drop 1)

/-- what `oonf_telnet_execute` says about a command: `ok` for TELNET_RESULT_ACTIVE and TELNET_RESULT_QUIT, `unknown` for
_TELNET_RESULT_UNKNOWN_COMMAND -/
inductive Telnet
  | ok
  | unknown
  | failed
deriving DecidableEq, Repr

/-- the loop of `_cb_telnet_handler`, oonf_http.c:888-920: the executed commands and the result; `exec` knows the commands executed before -/
def telnetLoop (exec : List (Txt × Txt) → Txt × Txt → Telnet) (past : List (Txt × Txt)) : List Txt → List (Txt × Txt) × Nat
  | [] => (past, 200)
  | p :: ps =>
    match exec past (splitCommand p) with
    | .ok => telnetLoop exec (past ++ [splitCommand p]) ps
    | .unknown => (past ++ [splitCommand p], 404)
    | .failed => (past ++ [splitCommand p], 400)

/-- `_cb_telnet_handler`, oonf_http.c:877-921; the buffer for the copy (1024 bytes) is longer than every URI -/
def telnet (exec : List (Txt × Txt) → Txt × Txt → Telnet) (uri : Txt) : List (Txt × Txt) × Nat :=
  telnetLoop exec [] (splitSlash (cstr uri 8))

end Verif.Http
