/-
Model of `src/libcommon/json.c`.  Output is a list of bytes (the autobuf itself is modelled in
`Verif.Autobuf`); strings are lists of non-zero bytes.
-/
namespace Verif.Json

abbrev Txt := List UInt8

/-- ASCII codes used by the code -/
def quote : UInt8 := 34
def backslash : UInt8 := 92
def comma : UInt8 := 44

/-- `str_char_is_printable`, include/oonf/libcommon/string.h:124-128 -/
def isPrintable (c : UInt8) : Bool := !(c < 32 || c == 127 || c == 255)

/-- one digit of `%02x` -/
def hexDigit (n : UInt8) : UInt8 := if n < 10 then 48 + n else 87 + n

/-- the escape sequence written at json.c:240-245 -/
def escape (c : UInt8) : Txt :=
  if !isPrintable c then [backslash, 117, 48, 48, hexDigit (c >>> 4), hexDigit (c &&& 15)]
  else [backslash, c]

/-- the loop of `_json_printvalue`, json.c:233-251.  `pending` are the bytes between the C
pointers `txt` and `ptr` that are not yet copied to the output. -/
def printLoop (out pending : Txt) : Txt → Txt
  | [] => out ++ pending
  | c :: cs =>
    if !isPrintable c || c == backslash || c == quote then
      printLoop (out ++ pending ++ escape c) [] cs
    else printLoop out (pending ++ [c]) cs

/-- `_json_printvalue`, json.c:220-256 -/
def printValue (out txt : Txt) (delimiter : Bool) : Txt :=
  let out := if delimiter then out ++ [quote] else if txt = [] then out ++ [48] else out
  let out := printLoop out [] txt
  if delimiter then out ++ [quote] else out

/-- `struct json_session`, include/oonf/libcommon/json.h -/
structure Session where
  empty : Bool
  out : Txt
deriving DecidableEq, Repr

/-- `json_init_session`, json.c:61-66 (on an empty output buffer) -/
def init : Session := ⟨true, []⟩

/-- the common `if (!session->empty)` prefix of the start functions, json.c:75-78, 104-107 -/
def sep (s : Session) : Session := if !s.empty then ⟨true, s.out ++ [comma]⟩ else s

/-- `json_start_array`, json.c:73-81 -/
def startArray (s : Session) (name : Txt) : Session :=
  let s := sep s
  { s with out := s.out ++ ([quote] ++ name ++ [quote, 58, 32, 91]) }
/-- `json_end_array`, json.c:88-94 -/
def endArray (s : Session) : Session := ⟨false, s.out ++ [93]⟩
/-- `json_start_object`, json.c:101-115 -/
def startObject (s : Session) (name : Option Txt) : Session :=
  let s := sep s
  match name with
  | some name => { s with out := s.out ++ ([quote] ++ name ++ [quote, 58, 32, 123]) }
  | none => { s with out := s.out ++ [123] }
/-- `json_end_object`, json.c:140-146 -/
def endObject (s : Session) : Session := ⟨false, s.out ++ [125]⟩

/-- `"key":value`, json.c:131-132 and 202-203 -/
def printPair (out key : Txt) (string : Bool) (value : Txt) : Txt :=
  printValue (out ++ ([quote] ++ key ++ [quote, 58])) value string

/-- `json_print`, json.c:124-133 -/
def print (s : Session) (key : Txt) (string : Bool) (value : Txt) : Session :=
  let out := if !s.empty then s.out ++ [comma] else s.out
  ⟨false, printPair out key string value⟩

/-- `struct abuf_template_data_entry`, include/oonf/libcommon/template.h:66-75 -/
structure Entry where
  key : Txt
  value : Option Txt
  string : Bool
deriving DecidableEq, Repr

/-- the loops of `_add_template` without brackets, json.c:184-204.  The two nested loops over the
data arrays visit the entries one after the other. -/
def addTemplate (out : Txt) (first : Bool) : List Entry → Txt
  | [] => out
  | e :: es =>
    match e.value with
    | none => addTemplate out first es
    | some v =>
      let out := if !first then out ++ [comma, 10] else out
      addTemplate (printPair out e.key e.string v) false es

/-- `json_print_templates`, json.c:155-166 -/
def printTemplates (s : Session) (data : List Entry) : Session :=
  let out := if s.empty then s.out ++ [10] else s.out ++ [comma, 10]
  ⟨false, addTemplate out true data⟩

end Verif.Json
