import Verif.Packet.Queue
/-
C168: datagrams are sent in order and once. C169: datagrams are received as they were sent.
-/
namespace Verif.Packet

/-! ## Specification -/

/-- The backlog as a list of datagrams: the bytes are those of the entries, one after the other. -/
def Holds (out : Bytes) (ds : List Dgram) : Prop := out = ds.flatMap entry

/-- `l` is an interleaving of `a` and `b`: both appear in order, and nothing else. -/
inductive Merge {α : Type} : List α → List α → List α → Prop
  | nil : Merge [] [] []
  | left (x : α) {a b l : List α} : Merge a b l → Merge (a ++ [x]) b (l ++ [x])
  | right (x : α) {a b l : List α} : Merge a b l → Merge a (b ++ [x]) (l ++ [x])

/-- Datagrams the code can cope with: not empty, and the length fits in two bytes. -/
def Fits (d : Dgram) : Prop := 0 < d.data.length ∧ d.data.length < 65536

/-- All datagrams of a history fit. -/
def AllFit (ops : List Op) : Prop := ∀ d ans stale, Op.send d ans stale ∈ ops → Fits d

/-! ## Lemmas -/

theorem le16_val {n : Nat} (h : n < 65536) :
    ∃ a b : UInt8, le16 n = [a, b] ∧ a.toNat + 256 * b.toNat = n := by
  refine ⟨_, _, rfl, ?_⟩
  have h1 : (UInt8.ofNat (n % 256)).toNat = n % 256 := by
    rw [UInt8.toNat_ofNat']; omega
  have h2 : (UInt8.ofNat (n / 256 % 256)).toNat = n / 256 % 256 := by
    rw [UInt8.toNat_ofNat']; omega
  rw [h1, h2]; omega

theorem entry_ne (d : Dgram) : entry d ≠ [] := by
  intro h
  have := congrArg List.length h
  unfold entry at this
  rw [List.length_append, d.remote.property] at this
  simp at this

theorem holds_nil {ds : List Dgram} (h : Holds [] ds) : ds = [] := by
  cases ds with
  | nil => rfl
  | cons d ds =>
    unfold Holds at h
    rw [List.flatMap_cons] at h
    exact absurd (List.append_eq_nil_iff.mp h.symm).1 (entry_ne d)

/-- The event reads exactly the first entry. -/
theorem writable_cons (s : Sock) (ans : Ans) (d : Dgram) (ds : List Dgram) (hf : Fits d)
    (h : Holds s.out (d :: ds)) :
    writable s ans =
      if ans = .again then some (s, none)
      else some ({ out := ds.flatMap entry, want := if ds.flatMap entry = [] then false else s.want,
                   wire := if ans = .ok then s.wire ++ [d] else s.wire },
        some (d, if ans = .ok then .sent else .lost)) := by
  obtain ⟨a, b, hab, hn⟩ := le16_val hf.2
  have ho : s.out = d.remote.val ++ (a :: b :: (d.data ++ ds.flatMap entry)) := by
    rw [show s.out = _ from h, List.flatMap_cons]
    unfold entry
    rw [hab, List.append_assoc]
    rfl
  have hne : s.out ≠ [] := by
    intro h0
    rw [h0] at h
    have := holds_nil h
    cases this
  have ht : s.out.take 128 = d.remote.val := by
    rw [ho, List.take_append_of_le_length (by rw [d.remote.property]; exact Nat.le_refl _)]
    exact List.take_of_length_le (by rw [d.remote.property]; exact Nat.le_refl _)
  have hd : s.out.drop 128 = a :: b :: (d.data ++ ds.flatMap entry) := by
    rw [ho]
    exact List.drop_left' d.remote.property
  have hlen : (s.out.take 128).length = 128 := by rw [ht]; exact d.remote.property
  unfold writable
  rw [if_neg hne, dif_pos hlen, hd]
  simp only [hn]
  rw [if_neg (by rw [List.length_append]; omega)]
  by_cases hag : ans = .again
  · rw [if_pos hag, if_pos hag]
  · rw [if_neg hag, if_neg hag]
    have h1 : (d.data ++ ds.flatMap entry).take d.data.length = d.data := by simp
    have h2 : (d.data ++ ds.flatMap entry).drop d.data.length = ds.flatMap entry := by simp
    have h3 : (⟨⟨s.out.take 128, hlen⟩, (d.data ++ ds.flatMap entry).take d.data.length⟩ : Dgram) = d := by
      rw [h1]
      obtain ⟨r, dat⟩ := d
      congr 1
      exact Subtype.ext ht
    rw [h2, h3]
    by_cases hk : ans = .ok
    · rw [if_pos hk, if_pos hk, if_pos hk]
    · rw [if_neg hk, if_neg hk, if_neg hk]

/-- Invariant: the backlog holds `ds`; what was accepted is what was sent or lost and then `ds`. -/
structure Inv (w : World) (ds : List Dgram) : Prop where
  holds : Holds w.sock.out ds
  fits : ∀ d ∈ ds, Fits d
  merge : ∃ l, Merge w.sock.wire w.lost l ∧ w.accepted = l ++ ds
  want : w.sock.want = !w.sock.out.isEmpty

theorem inv_run (ops : List Op) (hf : AllFit ops) : ∃ w ds, run ops = some w ∧ Inv w ds := by
  induction ops with
  | nil => exact ⟨{}, [], rfl, rfl, (fun d h => nomatch h), ⟨[], .nil, rfl⟩, rfl⟩
  | cons o ops ih =>
    obtain ⟨w, ds, hr, hi⟩ := ih (fun d a s h => hf d a s (List.mem_cons_of_mem _ h))
    unfold run
    rw [hr]
    cases o with
    | send d ans stale =>
      have hd : Fits d := hf d ans stale (List.mem_cons_self ..)
      have queue : ∃ ds', Inv { sock := { out := w.sock.out ++ entry d, want := true, wire := w.sock.wire }, accepted := w.accepted ++ [d], lost := w.lost } ds' := by
        refine ⟨ds ++ [d], ?_, ?_, ?_, ?_⟩
        · show w.sock.out ++ entry d = _
          rw [show w.sock.out = _ from hi.holds, List.flatMap_append]
          simp
        · intro x hx
          rcases List.mem_append.mp hx with h | h
          · exact hi.fits x h
          · rw [List.mem_singleton.mp h]; exact hd
        · obtain ⟨l, h1, h2⟩ := hi.merge
          exact ⟨l, h1, by show w.accepted ++ [d] = _; rw [h2, List.append_assoc]⟩
        · show true = !(w.sock.out ++ entry d).isEmpty
          have : (w.sock.out ++ entry d).isEmpty = false := by
            rw [List.isEmpty_eq_false_iff]
            intro h
            exact entry_ne d (List.append_eq_nil_iff.mp h).2
          rw [this]; rfl
      show ∃ w' ds', some _ = some w' ∧ _
      by_cases he : w.sock.out = []
      · have hds : ds = [] := by
          have := hi.holds; rw [he] at this; exact holds_nil this
        cases ans with
        | ok =>
          refine ⟨_, ds, rfl, ?_⟩
          unfold send
          rw [if_pos he]
          simp only [hd.1, if_true]
          obtain ⟨l, h1, h2⟩ := hi.merge
          refine ⟨hi.holds, hi.fits, ⟨l ++ [d], .left d h1, ?_⟩, hi.want⟩
          show w.accepted ++ [d] = _
          rw [h2, hds]; simp
        | again =>
          obtain ⟨ds', h⟩ := queue
          refine ⟨_, ds', rfl, ?_⟩
          unfold send
          rw [if_pos he]
          exact h
        | perm =>
          refine ⟨_, ds, rfl, ?_⟩
          unfold send
          rw [if_pos he]
          exact hi
        | err =>
          refine ⟨_, ds, rfl, ?_⟩
          unfold send
          rw [if_pos he]
          exact hi
      · obtain ⟨ds', h⟩ := queue
        refine ⟨_, ds', rfl, ?_⟩
        unfold send
        rw [if_neg he]
        exact h
    | writable ans =>
      show ∃ w' ds', step w (.writable ans) = some w' ∧ _
      unfold step
      cases ds with
      | nil =>
        have he : w.sock.out = [] := hi.holds
        have hw : writable w.sock ans = some ({ w.sock with want := false }, none) := by
          unfold writable; rw [if_pos he]
        simp only [hw]
        refine ⟨_, [], rfl, hi.holds, hi.fits, hi.merge, ?_⟩
        show false = !w.sock.out.isEmpty
        rw [he]; rfl
      | cons d ds =>
        have hw := writable_cons w.sock ans d ds (hi.fits d (List.mem_cons_self ..)) hi.holds
        have hout : w.sock.out ≠ [] := by
          intro h0
          have := hi.holds; rw [h0] at this
          cases holds_nil this
        have hwant : w.sock.want = true := by
          rw [hi.want, List.isEmpty_eq_false_iff.mpr hout]; rfl
        have hwant' : (if ds.flatMap entry = [] then false else w.sock.want) = !(ds.flatMap entry).isEmpty := by
          by_cases h : ds.flatMap entry = []
          · rw [if_pos h, h]; rfl
          · rw [if_neg h, hwant, List.isEmpty_eq_false_iff.mpr h]; rfl
        obtain ⟨l, h1, h2⟩ := hi.merge
        have hfit : ∀ x ∈ ds, Fits x := fun x hx => hi.fits x (List.mem_cons_of_mem _ hx)
        have hacc : w.accepted = (l ++ [d]) ++ ds := by rw [h2, List.append_assoc]; rfl
        cases ans with
        | again =>
          rw [if_pos rfl] at hw
          simp only [hw]
          exact ⟨_, d :: ds, rfl, hi⟩
        | ok =>
          rw [if_neg (by decide)] at hw
          simp only [if_pos] at hw
          simp only [hw]
          exact ⟨_, ds, rfl, rfl, hfit, ⟨l ++ [d], .left d h1, hacc⟩, hwant'⟩
        | perm =>
          rw [if_neg (by decide)] at hw
          simp only [if_neg (show ¬ Ans.perm = Ans.ok by decide)] at hw
          simp only [hw]
          exact ⟨_, ds, rfl, rfl, hfit, ⟨l ++ [d], .right d h1, hacc⟩, hwant'⟩
        | err =>
          rw [if_neg (by decide)] at hw
          simp only [if_neg (show ¬ Ans.err = Ans.ok by decide)] at hw
          simp only [hw]
          exact ⟨_, ds, rfl, rfl, hfit, ⟨l ++ [d], .right d h1, hacc⟩, hwant'⟩

/-! ## C168 -/

/-- **C168, in order and once.** For every history of calls and events with datagrams of 1 to 65535
bytes, the code stays within its buffer, and the datagrams for which `oonf_packet_send` returned 0
are, in this order: those that were given to the kernel or failed for good, then those still in the
backlog, which hold their contents and destinations. The kernel accepted exactly the first kind, each
once, in order. Missing: empty and longer datagrams, see the counterexamples. -/
theorem C168_order_partial (ops : List Op) (hf : AllFit ops) :
    ∃ w l ds, run ops = some w ∧ Holds w.sock.out ds ∧ Merge w.sock.wire w.lost l ∧ w.accepted = l ++ ds := by
  obtain ⟨w, ds, h, hi⟩ := inv_run ops hf
  obtain ⟨l, h1, h2⟩ := hi.merge
  exact ⟨w, l, ds, h, hi.holds, h1, h2⟩

/-- **C168, no standstill.** Write events are asked for exactly while there is a backlog; a write
event for which `sendto` does not ask to try again removes exactly the first entry, and hands exactly
this datagram to the kernel. -/
theorem C168_progress (ops : List Op) (hf : AllFit ops) (w : World) (h : run ops = some w) :
    (w.sock.want = true ↔ w.sock.out ≠ []) ∧
    ∀ d ds ans, Holds w.sock.out (d :: ds) → (∀ x ∈ d :: ds, Fits x) → ans ≠ .again →
      ∃ w', run (.writable ans :: ops) = some w' ∧ Holds w'.sock.out ds ∧
        (ans = .ok → w'.sock.wire = w.sock.wire ++ [d] ∧ w'.lost = w.lost) ∧
        (ans ≠ .ok → w'.sock.wire = w.sock.wire ∧ w'.lost = w.lost ++ [d]) := by
  obtain ⟨w1, ds1, h1, hi⟩ := inv_run ops hf
  rw [h] at h1
  injection h1 with h1
  subst h1
  constructor
  · rw [hi.want]
    cases w.sock.out <;> simp
  · intro d ds ans hh hfit hag
    have hw := writable_cons w.sock ans d ds (hfit d (List.mem_cons_self ..)) hh
    rw [if_neg hag] at hw
    unfold run
    rw [h]
    show ∃ w', step w (.writable ans) = some w' ∧ _
    unfold step
    by_cases hk : ans = .ok
    · simp only [if_pos hk] at hw
      simp only [hw]
      exact ⟨_, rfl, rfl, (fun _ => ⟨rfl, rfl⟩), (fun hn => absurd hk hn)⟩
    · simp only [if_neg hk] at hw
      simp only [hw]
      exact ⟨_, rfl, rfl, (fun hn => absurd hn hk), (fun _ => ⟨rfl, rfl⟩)⟩

/-- An example: the second datagram waits for the first. -/
example : (run [.writable .ok, .send ⟨⟨List.replicate 128 1, rfl⟩, [7, 8]⟩ .ok .ok,
      .send ⟨⟨List.replicate 128 0, rfl⟩, [9]⟩ .again .ok]).map
      (fun w => (w.sock.wire, w.sock.want, w.accepted.length, w.sock.out.length)) =
    some ([⟨⟨List.replicate 128 0, rfl⟩, [9]⟩], true, 2, 132) := by
  decide +kernel

/-- **C168 is false for empty datagrams.** An empty datagram, accepted by the kernel, is sent a second
time if `errno` has an old value; the caller is told that it was sent. -/
theorem C168_empty_counterexample (r : Remote) :
    ∃ w, run [.writable .ok, .send ⟨r, []⟩ .ok .again] = some w ∧
      w.accepted = [⟨r, []⟩] ∧ w.sock.wire = [⟨r, []⟩, ⟨r, []⟩] := by
  have hs : send {} ⟨r, []⟩ .ok .again = ({ out := entry ⟨r, []⟩, want := true, wire := [⟨r, []⟩] }, true) := rfl
  have l0 : le16 0 = [0, 0] := by decide
  have ho : entry ⟨r, []⟩ = r.val ++ [0, 0] := by
    unfold entry
    show r.val ++ (le16 0 ++ []) = _
    rw [l0]; rfl
  have ht : (entry ⟨r, []⟩).take 128 = r.val := by
    rw [ho, List.take_append_of_le_length (by rw [r.property]; exact Nat.le_refl _)]
    exact List.take_of_length_le (by rw [r.property]; exact Nat.le_refl _)
  have hd : (entry ⟨r, []⟩).drop 128 = [0, 0] := by
    rw [ho]; exact List.drop_left' r.property
  have hw : writable { out := entry ⟨r, []⟩, want := true, wire := [⟨r, []⟩] } .ok =
      some ({ out := [], want := false, wire := [⟨r, []⟩, ⟨r, []⟩] }, some (⟨r, []⟩, .sent)) := by
    have hlen : ((entry ⟨r, []⟩).take 128).length = 128 := by rw [ht]; exact r.property
    have hdg : (⟨⟨(entry ⟨r, []⟩).take 128, hlen⟩, []⟩ : Dgram) = ⟨r, []⟩ := by
      congr 1; exact Subtype.ext ht
    unfold writable
    rw [if_neg (entry_ne _), dif_pos hlen, hd]
    show some (({ out := [], want := false, wire := [⟨r, []⟩] ++ [⟨⟨(entry ⟨r, []⟩).take 128, hlen⟩, []⟩] } : Sock),
      some ((⟨⟨(entry ⟨r, []⟩).take 128, hlen⟩, []⟩ : Dgram), Gone.sent)) = _
    rw [hdg]; rfl
  refine ⟨⟨{ out := [], want := false, wire := [⟨r, []⟩, ⟨r, []⟩] }, [⟨r, []⟩], []⟩, ?_, rfl, rfl⟩
  unfold run run run
  simp only [step, Option.bind, hs, hw]
  rfl

/-- **C168 is false for datagrams of 65536 bytes and more.** Behind a backlog such a datagram is
queued, and the caller is told that it will be sent; the event sends an empty datagram in its place,
and takes the contents for the next entry. -/
theorem C168_long_counterexample (r : Remote) (data : Bytes) (h : data.length = 65536) :
    ∃ s, send { out := entry ⟨r, [1]⟩, want := true } ⟨r, data⟩ .ok .ok = (s, true) ∧
      ∃ s1, writable s .ok = some (s1, some (⟨r, [1]⟩, .sent)) ∧
      ∃ s2, writable s1 .ok = some (s2, some (⟨r, []⟩, .sent)) ∧ s2.out = data := by
  have hne : entry ⟨r, [1]⟩ ≠ [] := entry_ne _
  have hs : send { out := entry ⟨r, [1]⟩, want := true } ⟨r, data⟩ .ok .ok =
      ({ out := entry ⟨r, [1]⟩ ++ entry ⟨r, data⟩, want := true }, true) := by
    unfold send; rw [if_neg hne]
  refine ⟨_, hs, ?_⟩
  have key : ∀ (tail : Bytes) (c : Bytes) (wire : List Dgram) (n : UInt8), c.length = n.toNat →
      writable { out := r.val ++ (n :: 0 :: (c ++ tail)), want := true, wire := wire } .ok =
      some ({ out := tail, want := if tail = [] then false else true, wire := wire ++ [⟨r, c⟩] }, some (⟨r, c⟩, .sent)) := by
    intro tail c wire n hn
    have ht : (r.val ++ (n :: 0 :: (c ++ tail))).take 128 = r.val := by
      rw [List.take_append_of_le_length (by rw [r.property]; exact Nat.le_refl _)]
      exact List.take_of_length_le (by rw [r.property]; exact Nat.le_refl _)
    have hd : (r.val ++ (n :: 0 :: (c ++ tail))).drop 128 = n :: 0 :: (c ++ tail) := List.drop_left' r.property
    have hlen : ((r.val ++ (n :: 0 :: (c ++ tail))).take 128).length = 128 := by rw [ht]; exact r.property
    have hz : n.toNat + 256 * (0 : UInt8).toNat = c.length := by rw [hn]; rfl
    unfold writable
    rw [if_neg (by intro h0; have := congrArg List.length h0; rw [List.length_append, r.property] at this; simp at this),
      dif_pos hlen, hd]
    simp only [hz]
    rw [if_neg (by rw [List.length_append]; omega), if_neg (by decide), if_pos trivial]
    have h1 : (c ++ tail).take c.length = c := by simp
    have h2 : (c ++ tail).drop c.length = tail := by simp
    have hdg : (⟨⟨(r.val ++ (n :: 0 :: (c ++ tail))).take 128, hlen⟩, (c ++ tail).take c.length⟩ : Dgram) = ⟨r, c⟩ := by
      rw [h1]; congr 1; exact Subtype.ext ht
    rw [h2, hdg]
  have h1 : entry ⟨r, [1]⟩ ++ entry ⟨r, data⟩ = r.val ++ (1 :: 0 :: ([1] ++ entry ⟨r, data⟩)) := by
    have l1 : le16 1 = [1, 0] := by decide
    show (r.val ++ (le16 1 ++ [1])) ++ entry ⟨r, data⟩ = _
    rw [List.append_assoc, l1]; rfl
  have h2 : entry ⟨r, data⟩ = r.val ++ (0 :: 0 :: ([] ++ data)) := by
    unfold entry
    show r.val ++ (le16 data.length ++ data) = _
    have l2 : le16 65536 = [0, 0] := by decide
    rw [h, l2]; rfl
  rw [h1]
  refine ⟨_, key _ [1] _ 1 rfl, ?_⟩
  rw [h2, if_neg (by intro h0; have := congrArg List.length h0; rw [List.length_append, r.property] at this; simp at this)]
  exact ⟨_, key data [] _ 0 rfl, rfl⟩

/-! ## C169 -/

/-- **C169.** A UDP socket hands every datagram of at least one byte that fits in its buffer to its
owner, with exactly its bytes, and hands over nothing else. Missing: longer datagrams, the access
list and raw sockets, see the counterexamples. -/
theorem C169_received_partial (i : In) (acc : Bool) (d : Bytes) (hu : i.raw = false ∨ i.v4 = false)
    (hl : d.length < i.cap) : receive i acc d = if d = [] then .nothing else .data d := by
  have ht : d.take (i.cap - 1) = d := List.take_of_length_le (by omega)
  have hr : (i.raw && i.v4) = false := by rcases hu with h | h <;> rw [h] <;> simp
  unfold receive
  simp only [ht, hr]
  by_cases h : d = []
  · rw [if_pos h, if_pos h]
  · rw [if_neg h, if_neg h]; simp

/-- With the default buffer every UDP datagram fits. -/
example : receive ⟨65536, true, false⟩ true (List.replicate 1472 5) = .data (List.replicate 1472 5) :=
  C169_received_partial ⟨65536, true, false⟩ true (List.replicate 1472 5) (.inl rfl) (by
    rw [List.length_replicate]; decide)

/-- **C169, the access list is without effect**: whatever it says about the source of a datagram. -/
theorem C169_acl_counterexample (i : In) (d : Bytes) : receive i false d = receive i true d := rfl

/-- **C169 is false for datagrams which do not fit**: the owner gets the beginning, exactly as if
this had been sent. -/
theorem C169_truncated_counterexample (i : In) (acc : Bool) (d : Bytes) (hl : i.cap ≤ d.length)
    (h0 : 1 < i.cap) : receive i acc d = receive i acc (d.take (i.cap - 1)) ∧ d.take (i.cap - 1) ≠ d := by
  constructor
  · unfold receive
    rw [List.take_take, Nat.min_self]
  · intro h
    have := congrArg List.length h
    rw [List.length_take] at this
    omega

/-- **C169 is false for a UDP socket that was a raw socket before**: the length given to the owner is
negative (as `size_t`: huge) for every datagram shorter than its first byte says. -/
theorem C169_raw_counterexample (cap : Nat) (h : 1 < cap) (acc : Bool) (b : UInt8) (hb : b &&& 15 ≠ 0) :
    receive ⟨cap, true, true⟩ acc [b] = .wild := by
  have ht : [b].take (cap - 1) = [b] := List.take_of_length_le (by simp; omega)
  have hh : [b].length < header [b] := by
    unfold header
    show 1 < (b &&& 15).toNat * 4
    have : (b &&& 15).toNat ≠ 0 := by
      intro h0
      exact hb (UInt8.toNat_inj.mp h0)
    omega
  unfold receive
  simp only [ht]
  rw [if_neg (by simp)]
  simp only [Bool.and_self, if_true]
  rw [if_pos hh]

end Verif.Packet
