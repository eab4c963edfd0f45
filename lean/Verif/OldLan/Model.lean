/-! # Locally attached networks of the olsrv2 section

Model of `src/olsrv2/olsrv2_old_lan/old_lan.c`. The words of a value are given as what they mean: the option they begin with and, for numbers, what
`strtoul` makes of the rest of the word (the separation into words is in `Verif.Str`, addresses in `Verif.NetText`). -/

namespace Verif.OldLan

/-- what `strtoul` returned: the number, or too large (`ULONG_MAX` and `errno` set to `ERANGE`). Text that is no number gives zero without setting `errno` (glibc). -/
inductive Num
  | val (n : Nat)
  | range
  deriving DecidableEq

/-- the value as `uint32_t` or `unsigned`, old_lan.c:250, 260, 268 -/
def Num.u32 : Num → Nat
  | .val n => n % 4294967296
  | .range => 4294967295

/-- is `errno` set afterwards; success does not reset it -/
def Num.errno (e : Bool) : Num → Bool
  | .val _ => e
  | .range => true

/-- a word after the prefix, old_lan.c:249-287 -/
inductive Word
  | metric (n : Num)
  | domainAll
  | domain (n : Num)
  | dist (n : Num)
  /-- `src=`: is the rest an address, of the family of the destination, with a family for which the kernel supports this; which one -/
  | src (ok : Bool) (a : Nat)
  | unknown
  deriving DecidableEq

/-- `struct _lan_data`, old_lan.c:86-98, with the source prefix, which goes into the key instead -/
structure Data where
  ext : Option Nat := none
  metric : Nat := 1
  dist : Nat := 2
  src : Option Nat := none
  deriving DecidableEq

/-- `_parse_lan_parameters`, old_lan.c:234-291: `none` for an error; `errno` before. Data of the run and `errno` afterwards. -/
def parse : Bool → Data → List Word → Option Data × Bool
  | e, d, [] => (some d, e)
  | e, d, .metric n :: ws =>
    if n.u32 = 0 ∧ n.errno e = true then (none, n.errno e) else parse (n.errno e) { d with metric := n.u32 } ws
  | e, d, .domainAll :: ws => parse e { d with ext := none } ws
  | e, d, .domain n :: ws =>
    if n.u32 = 0 ∧ n.errno e = true ∨ n.u32 > 255 then (none, n.errno e) else parse (n.errno e) { d with ext := some n.u32 } ws
  | e, d, .dist n :: ws =>
    if n.u32 = 0 ∧ n.errno e = true then (none, n.errno e) else parse (n.errno e) { d with dist := n.u32 } ws
  | e, d, .src ok a :: ws => if ok then parse e { d with src := some a } ws else (none, e)
  | e, _, .unknown :: _ => (none, e)

/-- `olsrv2_validate_lan` after the check of the prefix, old_lan.c:204-224 -/
def validate (e : Bool) (ws : List Word) : Bool :=
  match (parse e {} ws).1 with
  | none => false
  | some d => if d.metric < 1 ∨ d.metric > 16776960 then false else if d.dist > 255 then false else true

/-- a configured value: the prefix (already truncated) and the words. Values with an illegal prefix are skipped (old_lan.c:323-325) and left out here. -/
structure Line where
  dst : Nat
  words : List Word
  deriving DecidableEq

/-- the key of an attached network: destination and source prefix -/
structure Key where
  dst : Nat
  src : Option Nat
  deriving DecidableEq

/-- extension types of the domains in the order of their creation; attached networks per key and domain: metric and distance (`uint8_t`) -/
structure World where
  doms : List Nat
  lan : Key → Nat → Option (Nat × Nat)

/-- `olsrv2_lan_add` and `olsrv2_lan_remove` as seen from outside (olsrv2_lan.c:100-180): the active entry of one domain -/
def World.set (w : World) (k : Key) (e : Nat) (v : Option (Nat × Nat)) : World :=
  { w with lan := fun k' e' => if k' = k ∧ e' = e then v else w.lan k' e' }

/-- the value written: with metric and distance when adding -/
def Data.value (d : Data) (add : Bool) : Option (Nat × Nat) := if add then some (d.metric, d.dist % 256) else none

/-- `nhdp_domain_add`, nhdp_domain.c:1091-1132: at most four domains (NHDP_MAXIMUM_DOMAINS); memory does not run out -/
def domainAdd (doms : List Nat) (e : Nat) : Option (List Nat) :=
  if e ∈ doms then some doms else if doms.length = 4 then none else some (doms ++ [e])

/-- a line that was parsed, old_lan.c:337-359 -/
def applyData (add : Bool) (w : World) (dst : Nat) (d : Data) : World :=
  match d.ext with
  | none => w.doms.foldl (fun w e => w.set ⟨dst, d.src⟩ e (d.value add)) w
  | some e =>
    match domainAdd w.doms e with
    | none => w
    | some ds => ({ w with doms := ds } : World).set ⟨dst, d.src⟩ e (d.value add)

/-- `_parse_lan_array`, old_lan.c:301-361. `errno` at the beginning; nothing between the lines resets or sets it. -/
def array (add : Bool) : Bool → World → List Line → World × Bool
  | e, w, [] => (w, e)
  | e, w, l :: ls =>
    match (parse e {} l.words).1 with
    | none => array add (parse e {} l.words).2 w ls
    | some d => array add (parse e {} l.words).2 (applyData add w l.dst d) ls

/-- `_cb_cfg_olsrv2_changed`, old_lan.c:366-373 -/
def changed (e : Bool) (w : World) (pre post : List Line) : World :=
  let r := array false e w pre
  (array true r.2 r.1 post).1

/-- a named section of the plugin `olsrv2_lan` as binary data, olsrv2_lan/olsrv2_lan.c:65-77; the source prefix is already filled in
(olsrv2_lan/olsrv2_lan.c:142-153) -/
structure Sec where
  dst : Nat
  data : Data
  deriving DecidableEq

/-- one half of `_cb_cfg_olsrv2_lan_changed`, olsrv2_lan/olsrv2_lan.c:187-194 and 195-202; the conversion to binary does not fail -/
def secApply (add : Bool) (w : World) : Option Sec → World
  | none => w
  | some s => applyData add w s.dst s.data

/-- `_cb_cfg_olsrv2_lan_changed`, olsrv2_lan/olsrv2_lan.c:183-203, for one section: before and after -/
def secChanged (w : World) (c : Option Sec × Option Sec) : World := secApply true (secApply false w c.1) c.2

/-- the callbacks of all sections that changed, one after the other (`cfg_schema_handle_db_changes`) -/
def secsChanged (w : World) (cs : List (Option Sec × Option Sec)) : World := cs.foldl secChanged w

end Verif.OldLan
