/-
Model of `src/libcommon/template.c`.  Strings are lists of non-zero bytes.
-/
namespace Verif.Template

abbrev Txt := List UInt8

/-- `struct abuf_template_data_entry`, include/oonf/libcommon/template.h:66-75
(the `string` flag is only used by the JSON printer) -/
structure Entry where
  key : Txt
  value : Option Txt
deriving DecidableEq, Repr

/-- `struct abuf_template_storage_entry`, template.h:92-101 -/
structure Index where
  start : Nat
  stop : Nat
  data : Entry
deriving DecidableEq, Repr

/-- `struct abuf_template_storage`, template.h:106-115 -/
structure Storage where
  format : Txt
  indices : List Index
deriving DecidableEq, Repr

/-- `TEMPLATE_MAX_KEYS`, template.h:60: number of elements of the array `indices` -/
def maxKeys : Nat := 64

/-- `_find_template`, template.c:187-203: first entry (over all arrays) whose key is the text.
`strncmp(key, txt, n) == 0 && key[n] == 0` is equality of the two strings. -/
def findTemplate (data : List Entry) (txt : Txt) : Option Entry :=
  data.find? (fun e => e.key == txt)

/-- `while (format[pos])` loop of `abuf_template_init_ext`, template.c:106-135.
`rest` is `format + pos`.  `none` is a write behind the array `indices`. -/
def initLoop (data : List Entry) (format : Txt) :
    Txt → Nat → Nat → Bool → Bool → List Index → Option (List Index)
  | [], _, _, _, _, idx => some idx
  | c :: cs, pos, start, noOpen, escape, idx =>
    if !escape && c == 37 then
      if noOpen then initLoop data format cs (pos + 1) pos false escape idx
      else
        let found :=
          if pos - start > 1 then
            findTemplate data ((format.drop (start + 1)).take (pos - start - 1))
          else none
        match found with
        | some d =>
          if idx.length < maxKeys then
            initLoop data format cs (pos + 1) start true escape (idx ++ [⟨start, pos + 1, d⟩])
          else none
        | none => initLoop data format cs (pos + 1) start true escape idx
    else if c == 92 then initLoop data format cs (pos + 1) start noOpen (!escape) idx
    else initLoop data format cs (pos + 1) start noOpen false idx

/-- `abuf_template_init_ext`, template.c:69-136.  `none` for `format` is the NULL pointer (lines
84-102: one tabulator between all values).  A result of `none` is a write behind `indices`. -/
def initExt (data : List Entry) (format : Option Txt) : Option Storage :=
  match format with
  | none =>
    if data.length ≤ maxKeys then
      let idx := data.map (fun d => (⟨1, 0, d⟩ : Index))
      -- lines 97-100
      let idx := idx.modify 0 (fun i => { i with start := 0 })
      let idx := idx.modify (idx.length - 1) (fun i => { i with stop := 1 })
      some ⟨[9], idx⟩
    else none
  | some f => (initLoop data f f 0 0 true false []).map (fun idx => ⟨f, idx⟩)

/-- the loop of `abuf_add_template`, template.c:154-172, and the rest behind the last key
(lines 174-176); `last` is the end of the previous replacement -/
def addLoop (format : Txt) (keys : Bool) : Nat → List Index → Txt
  | last, [] => if last < format.length then format.drop last else []
  | last, e :: es =>
    (if last < e.start then (format.drop last).take (e.start - last) else [])
      ++ (if keys then e.data.key else e.data.value.getD [])
      ++ addLoop format keys e.stop es

/-- `abuf_add_template`, template.c:148-177: text appended to the output -/
def addTemplate (s : Storage) (keys : Bool) : Txt := addLoop s.format keys 0 s.indices

end Verif.Template
