import Verif.OsTun.Model
/-!
Specification of the three users of `ioctl`: link speeds, tunnels, virtual interfaces.
-/

namespace Verif.OsTun

/-! ## Link speeds -/

/-- The kernel knows the speed `v` (bit/s) of interface `i`: the speed in Mbit/s of the interface itself or, for a stacked interface, of
the one below it; 0, 65535 and 4294967295 stand for "unknown". -/
def Knows (h : Host) (i : Ifc) (v : Int) : Prop :=
  ∃ dev mbit, (if i.base = i.index then dev = i.name else h.nameOf i.base = some dev) ∧ h.speed dev = some mbit ∧
    mbit ≠ 0 ∧ mbit ≠ 65535 ∧ mbit ≠ 4294967295 ∧ v = (mbit : Int) * 1000000

/-- Somebody else wrote the entry whose data is at least as good. -/
def Taken (e : Entry) : Prop := ∃ o, e.origin = some o ∧ o ≠ ethOrigin ∧ 20 ≤ o.prio

/-- Entry `e'` is what `e` becomes when the listener learns value `v`. -/
def Learned (e e' : Entry) (v : Int) : Prop :=
  (Taken e ∧ e' = e) ∨ (¬ Taken e ∧ e'.origin = some ethOrigin ∧ e'.value = v ∧ e'.md = true)

/-- What is stored for an interface before the listener looks at it: an empty object if there is none. -/
def before (db : Db) (n : Nat) : Net := (db n).getD {}

/-- All entries the listener writes to have metadata. -/
def HasMeta (db : Db) (ifs : List Ifc) : Prop :=
  ∀ i ∈ ifs, ∀ net, db i.name = some net → net.rx.md = true ∧ net.tx.md = true

/-! ## Tunnels -/

/-- The device a tunnel belongs to: by family of the end points and inner protocol (what Linux provides). -/
def properBase : Fam → Inner → Option Base
  | .v4, .ipv4 => some .tunl0
  | .v4, .ipv6 => some .sit0
  | .v4, .gre => some .gre0
  | .v6, .ipv4 => some .ip6tnl0
  | .v6, .ipv6 => some .ip6tnl0
  | .v6, .gre => some .ip6gre0
  | _, _ => none

/-- The device the code uses for a tunnel; the end points must have the same family. -/
def usedBase (t : Tun) : Option Base :=
  if t.localFam = t.remoteFam then
    match t.localFam, t.inner with
    | .v4, .ipv4 => some .tunl0
    | .v4, .ipv6 => some .tunl0
    | .v4, .gre => some .tunl0
    | .v6, .ipv4 => some .ip6tnl0
    | .v6, .ipv6 => some .ip6tnl0
    | .v6, .gre => some .ip6gre0
    | _, _ => none
  else none

/-- The kernel may create the tunnel: there is a device for it, the device knows the protocol and the daemon is allowed to. -/
def Creatable (p : Perm) (t : Tun) : Prop :=
  p.allowed = true ∧ ∃ b, usedBase t = some b ∧ p.accepts b t.inner = true

/-- The tunnel the kernel has for object `t`. -/
def isTunnel (t : Tun) (x : KTun) : Prop :=
  ∃ b, usedBase t = some b ∧ x = ⟨t.fold, t.spelling, ⟨b, t.inner, t.link, t.localAddr, t.remoteAddr⟩⟩

/-- Two tunnels of the kernel get in each other's way: same name or same end points on the same device. -/
def Clash (x y : KTun) : Prop := (x.fold = y.fold ∧ x.spelling = y.spelling) ∨ x.key = y.key

/-- The objects of the callers are compatible: names differ (also when compared without case), and so do their parameters. -/
def Compatible (o : Nat → Tun) : Prop :=
  ∀ i j, i ≠ j → (o i).fold ≠ (o j).fold ∧ ∀ x y, isTunnel (o i) x → isTunnel (o j) y → x.key ≠ y.key

/-- Tunnels of somebody else that are not in the way of any object. -/
def Foreign (o : Nat → Tun) (k : List KTun) : Prop :=
  ∀ x ∈ k, ∀ i y, isTunnel (o i) y → ¬ Clash x y

/-- The specification is a set of objects whose tunnels exist: one call, and what it returns. -/
inductive Spec (o : Nat → Tun) : (Nat → Prop) → Op → (Nat → Prop) → Bool → Prop
  | added (a i p) : ¬ a i → Creatable p (o i) → Spec o a (.add i p) (fun j => j = i ∨ a j) true
  | notAdded (a i p) : a i ∨ ¬ Creatable p (o i) → Spec o a (.add i p) a false
  | removed (a i p) : a i → p.allowed = true → Spec o a (.remove i p) (fun j => j ≠ i ∧ a j) true
  | notRemoved (a i p) : ¬ a i ∨ p.allowed = false → Spec o a (.remove i p) a false

/-- A list of calls according to the specification. -/
inductive SpecRun (o : Nat → Tun) : (Nat → Prop) → List Op → (Nat → Prop) → List Bool → Prop
  | nil (a) : SpecRun o a [] a []
  | cons {a op a' b l a'' bs} : Spec o a op a' b → SpecRun o a' l a'' bs → SpecRun o a (op :: l) a'' (b :: bs)

/-- State `s` shows exactly the tunnels of the objects in `a`, besides those of somebody else. -/
def Shows (o : Nat → Tun) (foreign : List KTun) (a : Nat → Prop) (s : St) : Prop :=
  (∀ i, i ∈ s.tree ↔ a i) ∧
  (∀ x, x ∈ s.kernel ↔ x ∈ foreign ∨ ∃ i, a i ∧ isTunnel (o i) x)

end Verif.OsTun
