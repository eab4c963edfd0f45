import Verif.OsIf.Addr
/-
Property C186: addresses of network interfaces.
-/
namespace Verif.OsIf

/-! ### specification -/

/-- the address the message is about, and the address of the peer if it has one: IFA_LOCAL is the own address,
IFA_ADDRESS that of the peer; if one of them is missing or they are equal there is no peer. -/
def own (l a : Option NA) : Option NA := match l with
  | some l => some l
  | none => a
def peer (l a : Option NA) : Option NA := match l, a with
  | some l, some a => if a = l then none else some a
  | _, _ => none

/-- the last message about `a` says that it is there -/
def announced (key : Msg → Option NA) (ms : List Msg) (a : NA) : Bool :=
  match ms.reverse.find? (fun m => key m = some a) with
  | some m => m.new
  | none => false

/-- own address and peer of a message -/
def Msg.own (m : Msg) : Option NA := (m.attrs.foldl attr (none, none)).1
def Msg.peer (m : Msg) : Option NA := if (m.attrs.foldl attr (none, none)).2 = (m.attrs.foldl attr (none, none)).1 then none else (m.attrs.foldl attr (none, none)).2

/-- `x` is the first address in the list that has the property -/
def First (p : NA → Bool) (l : List NA) (x : Option NA) : Prop :=
  match x with
  | none => ∀ a ∈ l, p a = false
  | some a => a ∈ l ∧ p a = true ∧ ∀ b ∈ l, p b = true → b = a ∨ a.lt b = true

/-! ### lemmas -/

theorem lt_trans {a b c : NA} (h1 : a.lt b = true) (h2 : b.lt c = true) : a.lt c = true := by
  cases a with
  | mk a1 a2 a3 =>
  cases b with
  | mk b1 b2 b3 =>
  cases c with
  | mk c1 c2 c3 =>
  cases a2 <;> cases b2 <;> cases c2 <;> simp [NA.lt, Fam.num] at * <;> omega

theorem lt_total {a b : NA} (h : a ≠ b) : a.lt b = true ∨ b.lt a = true := by
  cases a with
  | mk a1 a2 a3 =>
  cases b with
  | mk b1 b2 b3 =>
  cases a2 <;> cases b2 <;> simp [NA.lt, Fam.num] at * <;> omega

theorem lt_irrefl (a : NA) : a.lt a = false := by
  cases a with
  | mk a1 a2 a3 => cases a2 <;> simp [NA.lt, Fam.num]

/-- sorted, hence without duplicates -/
def Sorted (l : List NA) : Prop := l.Pairwise (fun a b => a.lt b = true)

theorem mem_insert (a x : NA) (l : List NA) : x ∈ insert a l ↔ x = a ∨ x ∈ l := by
  induction l with
  | nil => simp [insert]
  | cons b l ih =>
    unfold insert
    split
    · simp
    · simp only [List.mem_cons, ih]
      constructor
      · rintro (h | h | h)
        · exact .inr (.inl h)
        · exact .inl h
        · exact .inr (.inr h)
      · rintro (h | h | h)
        · exact .inr (.inl h)
        · exact .inl h
        · exact .inr (.inr h)

theorem sorted_insert (a : NA) (l : List NA) (h : Sorted l) (hn : a ∉ l) : Sorted (insert a l) := by
  induction l with
  | nil => simp [insert, Sorted]
  | cons b l ih =>
    unfold insert
    have hb := List.pairwise_cons.mp h
    split
    · rename_i hlt
      refine List.pairwise_cons.mpr ⟨?_, h⟩
      intro x hx
      rcases List.mem_cons.mp hx with rfl | hx
      · exact hlt
      · exact lt_trans hlt (hb.1 x hx)
    · rename_i hlt
      refine List.pairwise_cons.mpr ⟨?_, ih hb.2 (fun hm => hn (List.mem_cons_of_mem _ hm))⟩
      intro x hx
      rcases (mem_insert a x l).mp hx with rfl | hx
      · rcases lt_total (show b ≠ x from fun e => hn (e ▸ List.mem_cons_self)) with h | h
        · exact h
        · exact absurd h hlt
      · exact hb.1 x hx

theorem sorted_addTo (l : List NA) (a : NA) (h : Sorted l) : Sorted (addTo l a) := by
  unfold addTo
  split
  · exact h
  · rename_i hn; exact sorted_insert a l h hn

theorem mem_addTo (l : List NA) (a x : NA) : x ∈ addTo l a ↔ x = a ∨ x ∈ l := by
  unfold addTo
  split
  · rename_i h
    constructor
    · exact .inr
    · rintro (rfl | hx)
      · exact h
      · exact hx
  · exact mem_insert a x l

theorem sorted_nodup (l : List NA) (h : Sorted l) : l.Nodup := by
  refine List.Pairwise.imp ?_ h
  intro a b hab e
  subst e
  rw [lt_irrefl] at hab
  cases hab

theorem mem_removeFrom (l : List NA) (h : Sorted l) (a x : NA) : x ∈ removeFrom l a ↔ x ≠ a ∧ x ∈ l :=
  (sorted_nodup l h).mem_erase_iff

theorem sorted_removeFrom (l : List NA) (h : Sorted l) (a : NA) : Sorted (removeFrom l a) := List.Pairwise.sublist List.erase_sublist h

theorem foldl_look (l : List NA) : ∀ s : Addrs, l.foldl look s = { s with v4 := s.v4.or (l.find? routable4), v6 := s.v6.or (l.find? routable6), linklocal4 := s.linklocal4.or (l.find? ll4), linklocal6 := s.linklocal6.or (l.find? ll6) } := by
  induction l with
  | nil => intro s; simp
  | cons a l ih =>
    intro s
    rw [List.foldl_cons, ih]
    have aux : ∀ (o : Option NA) (p : NA → Bool), (if o = none ∧ p a = true then some a else o).or (l.find? p) = o.or ((a :: l).find? p) := by
      intro o p
      cases o with
      | some x => simp
      | none =>
        cases h : p a with
        | true => simp [List.find?_cons, h]
        | false => simp [List.find?_cons, h]
    simp only [look, aux]

theorem shortcuts_eq (s : Addrs) : shortcuts s = { s with v4 := s.addresses.find? routable4, v6 := s.addresses.find? routable6, linklocal4 := s.addresses.find? ll4, linklocal6 := s.addresses.find? ll6 } := by
  unfold shortcuts
  rw [foldl_look]
  rfl

theorem first_find (p : NA → Bool) (l : List NA) (h : Sorted l) : First p l (l.find? p) := by
  induction l with
  | nil => intro a ha; cases ha
  | cons a l ih =>
    have hp := List.pairwise_cons.mp h
    rw [List.find?_cons]
    cases hpa : p a with
    | true =>
      refine ⟨List.mem_cons_self, hpa, ?_⟩
      intro b hb _
      rcases List.mem_cons.mp hb with hb | hb
      · exact .inl hb
      · exact .inr (hp.1 b hb)
    | false =>
      have i := ih hp.2
      simp only
      generalize l.find? p = o at i
      cases o with
      | none =>
        intro b hb
        rcases List.mem_cons.mp hb with rfl | hb
        · exact hpa
        · exact i b hb
      | some x =>
        refine ⟨List.mem_cons_of_mem _ i.1, i.2.1, ?_⟩
        intro b hb hpb
        rcases List.mem_cons.mp hb with rfl | hb
        · rw [hpa] at hpb; cases hpb
        · exact i.2.2 b hb hpb

/-- what a message does -/
theorem parse_addresses (s : Addrs) (m : Msg) : (parse s m).addresses = (match m.own with
    | none => s.addresses
    | some a => if m.new then addTo s.addresses a else removeFrom s.addresses a) := by
  unfold parse Msg.own
  generalize m.attrs.foldl attr (none, none) = p
  cases p with
  | mk l a =>
    cases l <;> cases a <;> simp only [shortcuts_eq] <;> split <;> rfl

theorem parse_peers (s : Addrs) (m : Msg) : (parse s m).peers = (match m.peer with
    | none => s.peers
    | some a => if m.new then addTo s.peers a else removeFrom s.peers a) := by
  unfold parse Msg.peer
  generalize m.attrs.foldl attr (none, none) = p
  cases p with
  | mk l a =>
    cases l with
    | none =>
      cases a with
      | none => rfl
      | some a => simp
    | some l =>
      cases a with
      | none => simp [shortcuts_eq]
      | some a =>
        simp only [shortcuts_eq]
        by_cases h : l = a
        · subst h; simp
        · have h' : ¬ a = l := fun e => h e.symm
          simp [h, h']

/-- what holds all the time -/
structure Good (s : Addrs) : Prop where
  sorted : Sorted s.addresses
  sortedP : Sorted s.peers
  v4 : s.v4 = s.addresses.find? routable4
  v6 : s.v6 = s.addresses.find? routable6
  l4 : s.linklocal4 = s.addresses.find? ll4
  l6 : s.linklocal6 = s.addresses.find? ll6

theorem good_start : Good {} := ⟨List.Pairwise.nil, List.Pairwise.nil, rfl, rfl, rfl, rfl⟩

theorem good_parse {s : Addrs} (h : Good s) (m : Msg) : Good (parse s m) := by
  have hs : Sorted (parse s m).addresses := by
    rw [parse_addresses]
    split
    · exact h.sorted
    · split
      · exact sorted_addTo _ _ h.sorted
      · exact sorted_removeFrom _ h.sorted _
  have hp : Sorted (parse s m).peers := by
    rw [parse_peers]
    split
    · exact h.sortedP
    · split
      · exact sorted_addTo _ _ h.sortedP
      · exact sorted_removeFrom _ h.sortedP _
  have key : (parse s m).v4 = (parse s m).addresses.find? routable4 ∧ (parse s m).v6 = (parse s m).addresses.find? routable6 ∧
      (parse s m).linklocal4 = (parse s m).addresses.find? ll4 ∧ (parse s m).linklocal6 = (parse s m).addresses.find? ll6 := by
    unfold parse
    generalize m.attrs.foldl attr (none, none) = p
    cases p with
    | mk l a =>
      cases l with
      | none =>
        cases a with
        | none => exact ⟨h.v4, h.v6, h.l4, h.l6⟩
        | some a => exact ⟨h.v4, h.v6, h.l4, h.l6⟩
      | some l =>
        cases a with
        | none => simp only [shortcuts_eq]; exact ⟨trivial, trivial, trivial, trivial⟩
        | some a =>
          simp only [shortcuts_eq]
          split <;> exact ⟨rfl, rfl, rfl, rfl⟩
  exact ⟨hs, hp, key.1, key.2.1, key.2.2.1, key.2.2.2⟩

theorem good_all (ms : List Msg) : ∀ {s : Addrs}, Good s → Good (ms.foldl parse s) := by
  induction ms with
  | nil => intro s h; exact h
  | cons m ms ih => intro s h; exact ih (good_parse h m)

/-! ### C186 -/

/-- The order of the attributes does not matter: the own address is IFA_LOCAL, or IFA_ADDRESS if there is no other; the peer is an IFA_ADDRESS
that differs from it. -/
theorem C186_attributes (new : Bool) (l a : Option NA) (attrs : List Attr)
    (hl : attrs.filterMap (fun | .locl x => some x | _ => none) = l.toList) (ha : attrs.filterMap (fun | .address x => some x | _ => none) = a.toList) :
    (⟨new, attrs⟩ : Msg).own = own l a ∧ (⟨new, attrs⟩ : Msg).peer = peer l a := by
  have key : ∀ (attrs : List Attr) (p : Option NA × Option NA) (l a : Option NA),
      attrs.filterMap (fun | .locl x => some x | _ => none) = l.toList → attrs.filterMap (fun | .address x => some x | _ => none) = a.toList →
      attrs.foldl attr p = (match l, a with
        | none, none => p
        | some l, none => (some l, if p.2 = none then some l else p.2)
        | none, some a => (if p.1 = none then some a else p.1, some a)
        | some l, some a => (some l, some a)) := by
    intro attrs
    induction attrs with
    | nil =>
      intro p l a hl ha
      cases l <;> cases a <;> simp at hl ha ⊢
    | cons x xs ih =>
      intro p l a hl ha
      rw [List.foldl_cons]
      cases x with
      | other => exact ih p l a hl ha
      | locl y =>
        simp only [List.filterMap_cons] at hl ha
        cases l with
        | none => simp at hl
        | some l =>
          simp only [Option.toList_some, List.cons.injEq] at hl
          obtain ⟨rfl, hl⟩ := hl
          rw [ih (attr p (.locl y)) none a (by simpa using hl) ha]
          cases a <;> simp [attr]
      | address y =>
        simp only [List.filterMap_cons] at hl ha
        cases a with
        | none => simp at ha
        | some a =>
          simp only [Option.toList_some, List.cons.injEq] at ha
          obtain ⟨rfl, ha⟩ := ha
          rw [ih (attr p (.address y)) l none hl (by simpa using ha)]
          cases l <;> simp [attr]
  unfold Msg.own Msg.peer
  rw [key attrs (none, none) l a hl ha]
  cases l <;> cases a <;> simp [own, peer]

/-- If all messages reach the interface, its addresses and peers are those whose last message announces them, in order, none twice. -/
theorem C186_addresses_partial (ms : List Msg) :
    (∀ a, a ∈ (ms.foldl parse {}).addresses ↔ announced Msg.own ms a = true) ∧ (∀ a, a ∈ (ms.foldl parse {}).peers ↔ announced Msg.peer ms a = true) ∧
    (ms.foldl parse {}).addresses.Pairwise (fun a b => a.lt b = true) ∧ (ms.foldl parse {}).peers.Pairwise (fun a b => a.lt b = true) := by
  have snoc : ∀ (key : Msg → Option NA) (ms : List Msg) (m : Msg) (a : NA), announced key (ms ++ [m]) a = if key m = some a then m.new else announced key ms a := by
    intro key ms m a
    unfold announced
    rw [List.reverse_append, List.reverse_singleton, List.singleton_append, List.find?_cons]
    by_cases h : key m = some a <;> simp [h]
  have ind : ∀ (ms : List Msg), (∀ a, a ∈ (ms.reverse.foldl parse {}).addresses ↔ announced Msg.own ms.reverse a = true) ∧
      ∀ a, a ∈ (ms.reverse.foldl parse {}).peers ↔ announced Msg.peer ms.reverse a = true := by
    intro ms
    induction ms with
    | nil => exact ⟨fun a => by simp [announced], fun a => by simp [announced]⟩
    | cons m ms ih =>
      have hg := good_all ms.reverse good_start
      rw [List.reverse_cons, List.foldl_append, List.foldl_cons, List.foldl_nil]
      have each : ∀ (key : Msg → Option NA) (old : List NA), Sorted old → (∀ a, a ∈ old ↔ announced key ms.reverse a = true) → ∀ a,
          a ∈ (match key m with
            | none => old
            | some a => if m.new then addTo old a else removeFrom old a) ↔ announced key (ms.reverse ++ [m]) a = true := by
        intro key old hs ho a
        rw [snoc]
        cases hk : key m with
        | none => simpa using ho a
        | some b =>
          by_cases hab : b = a
          · subst hab
            cases hn : m.new with
            | true => simp [mem_addTo]
            | false => simp [mem_removeFrom old hs]
          · have hba : ¬ a = b := fun e => hab e.symm
            have hsome : ¬ some b = some a := fun e => hab (Option.some.inj e)
            rw [if_neg hsome, ← ho a]
            cases hn : m.new with
            | true => simp [mem_addTo, hba]
            | false => simp [mem_removeFrom old hs, hba]
      refine ⟨fun a => ?_, fun a => ?_⟩
      · rw [parse_addresses]; exact each Msg.own _ hg.sorted ih.1 a
      · rw [parse_peers]; exact each Msg.peer _ hg.sortedP ih.2 a
  have := ind ms.reverse
  rw [List.reverse_reverse] at this
  have hg := good_all ms good_start
  exact ⟨this.1, this.2, hg.sorted, hg.sortedP⟩

/-- Messages about other interfaces do not matter. -/
theorem C186_others {α : Type} [DecidableEq α] (name : α) (s : Addrs) (ms : List (Option α × Msg)) :
    ms.foldl (message name) s = ((ms.filter (fun x => x.1 = some name)).map (·.2)).foldl parse s := by
  induction ms generalizing s with
  | nil => rfl
  | cons x xs ih =>
    rw [List.foldl_cons, ih]
    by_cases h : x.1 = some name <;> simp [message, h]

/-- At any time, each shortcut is the first address of the interface that is routable or link-local of its family, or unspecified if there is none. -/
theorem C186_shortcuts (ms : List Msg) :
    First routable4 (ms.foldl parse {}).addresses (ms.foldl parse {}).v4 ∧ First routable6 (ms.foldl parse {}).addresses (ms.foldl parse {}).v6 ∧
    First ll4 (ms.foldl parse {}).addresses (ms.foldl parse {}).linklocal4 ∧ First ll6 (ms.foldl parse {}).addresses (ms.foldl parse {}).linklocal6 := by
  have h := good_all ms good_start
  rw [h.v4, h.v6, h.l4, h.l6]
  exact ⟨first_find _ _ h.sorted, first_find _ _ h.sorted, first_find _ _ h.sorted, first_find _ _ h.sorted⟩

/-- The kinds in plain arithmetic, for IPv4: 169.254.0.0/16, and everything but that, 127.0.0.0/8 and 224.0.0.0/4. -/
theorem C186_kinds (x n : Nat) (hx : x < 2 ^ 32) :
    (ll4 ⟨x * 2 ^ 96, .v4, n⟩ = true ↔ x / 2 ^ 16 = 169 * 256 + 254) ∧
    (routable4 ⟨x * 2 ^ 96, .v4, n⟩ = true ↔ x / 2 ^ 16 ≠ 169 * 256 + 254 ∧ x / 2 ^ 24 ≠ 127 ∧ x / 2 ^ 28 ≠ 14) ∧
    ll6 ⟨x * 2 ^ 96, .v4, n⟩ = false ∧ routable6 ⟨x * 2 ^ 96, .v4, n⟩ = false := by
  refine ⟨?_, ?_, rfl, ?_⟩
  · simp [ll4, inNet, Nat.shiftRight_eq_div_pow]; omega
  · simp [routable4, ll4, inNet, Nat.shiftRight_eq_div_pow]; omega
  · simp [routable6]

/-- IPv6: fe80::/10; fc00::/7 and 2000::/3. -/
theorem C186_kinds6 (x n : Nat) (_ : x < 2 ^ 128) :
    (ll6 ⟨x, .v6, n⟩ = true ↔ x / 2 ^ 118 = 0x3fa) ∧ (routable6 ⟨x, .v6, n⟩ = true ↔ x / 2 ^ 121 = 0x7e ∨ x / 2 ^ 125 = 1) ∧
    ll4 ⟨x, .v6, n⟩ = false ∧ routable4 ⟨x, .v6, n⟩ = false := by
  refine ⟨?_, ?_, rfl, ?_⟩
  · simp [ll6, inNet, Nat.shiftRight_eq_div_pow]
  · simp [routable6, ll6, inNet, Nat.shiftRight_eq_div_pow]; omega
  · simp [routable4]

/-- An interface goes away: its number has no name any more when the messages are handled. All its addresses stay, whatever the kernel says,
and also if all addresses that exist are queried again, which only adds addresses. -/
theorem C186_gone_counterexample (name : Nat) (s : Addrs) (ms : List (Option Nat × Msg)) (h : ∀ x ∈ ms, x.1 = none ∨ x.2.new = true) (a : NA) (ha : a ∈ s.addresses) :
    a ∈ (ms.foldl (message name) s).addresses := by
  induction ms generalizing s with
  | nil => exact ha
  | cons x xs ih =>
    refine ih (message name s x) (fun y hy => h y (List.mem_cons_of_mem _ hy)) ?_
    unfold message
    split
    · rename_i hn
      have hnew : x.2.new = true := (h x List.mem_cons_self).resolve_left (by rw [hn]; simp)
      rw [parse_addresses]
      split
      · exact ha
      · rw [if_pos hnew, mem_addTo]; exact .inr ha
    · exact ha

/-- Hardware addresses of up to 16 bytes are stored; the 20 bytes of an InfiniBand interface go beyond the end of the structure. -/
theorem C186_mac_counterexample (data : List UInt8) : (data.length ≤ 16 → macOf data = some (data ++ List.replicate (16 - data.length) 0)) ∧
    (data.length = 20 → macOf data = none) :=
  ⟨fun h => if_pos h, fun h => if_neg (by omega)⟩

/-- 192.168.1.1/24 -/
def priv : NA := ⟨0xc0a80101 * 2 ^ 96, .v4, 24⟩
/-- 169.254.3.4/16 -/
def auto : NA := ⟨0xa9fe0304 * 2 ^ 96, .v4, 16⟩
/-- fe80::1/64 -/
def fe80 : NA := ⟨0xfe80 * 2 ^ 112 + 1, .v6, 64⟩

example : let s := [⟨true, [.address priv, .locl priv]⟩, ⟨true, [.locl auto, .other]⟩, ⟨true, [.address fe80]⟩].foldl parse {}
    s.addresses = [auto, priv, fe80] ∧ s.v4 = some priv ∧ s.linklocal4 = some auto ∧ s.linklocal6 = some fe80 ∧ s.v6 = none ∧ s.peers = [] := by decide +kernel
example : let s := [⟨true, [.address priv, .locl auto]⟩, ⟨false, [.address fe80]⟩].foldl parse {}
    s.addresses = [auto] ∧ s.peers = [priv] := by decide +kernel
example : announced Msg.own [⟨true, [.locl priv]⟩, ⟨false, [.locl priv]⟩, ⟨true, [.locl auto]⟩] priv = false ∧
    announced Msg.own [⟨false, [.locl priv]⟩, ⟨true, [.locl priv]⟩] priv = true := by decide +kernel
example : ([(none, ⟨false, [.locl priv]⟩), (some 1, ⟨true, [.locl auto]⟩)].foldl (message 1) (parse {} ⟨true, [.locl priv]⟩)).addresses = [auto, priv] := by decide +kernel

end Verif.OsIf
