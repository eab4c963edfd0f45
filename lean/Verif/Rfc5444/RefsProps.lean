import Verif.Rfc5444.RefsLemmas
/-
C148: protocol, interfaces and targets live as long as they have users.
-/
namespace Verif.Rfc5444

/-- no operation uses freed memory; missing: destinations with several users, interfaces whose owner leaves before their targets, owners with
listeners that leave before others, see the counterexamples -/
theorem C148_no_freed_partial {os : List Op} {h : Heap} {b : Book} (hr : Runs (fun h b o => Legal b o ∧ Careful h b o) os h b)
    (o : Op) (hl : Legal b o) (hc : Careful h b o) : exec h o ≠ none := by
  obtain ⟨h', r, he, _⟩ := step_inv (runs_inv hr) o hl hc
  rw [he]
  exact fun h => nomatch h

/-- interfaces and targets exist iff somebody holds them, the protocol exists iff somebody holds it or an interface; missing: see above -/
theorem C148_alive_partial {os : List Op} {h : Heap} {b : Book} (hr : Runs (fun h b o => Legal b o ∧ Careful h b o) os h b) :
    (∀ i, (∃ x ∈ h.ifs, x.id = i) ↔ 0 < b.owners i) ∧ (∀ t, (∃ x ∈ h.tgts, x.id = t) ↔ 0 < b.holds t) ∧
    (h.proto ≠ none ↔ 0 < b.users ∨ ∃ i, 0 < b.owners i) := by
  have I := runs_inv hr
  refine ⟨fun i => ⟨?_, I.own i⟩, fun t => ⟨?_, I.hold t⟩, ?_⟩
  · rintro ⟨x, hx, rfl⟩; exact (I.refs x hx).2.1
  · rintro ⟨x, hx, rfl⟩; rw [(I.tgt x hx).2.1]; omega
  · rw [I.proto]
    constructor
    · intro hn
      by_cases h0 : 0 < b.users
      · exact .inl h0
      · right
        cases hl : h.ifs with
        | nil =>
          rw [hl, if_pos (by simp; omega)] at hn
          exact absurd rfl hn
        | cons x xs => exact ⟨x.id, (I.refs x (by rw [hl]; simp)).2.1⟩
    · rintro (hu | ⟨i, hi⟩)
      · rw [if_neg (by omega)]; simp
      · obtain ⟨x, hx, _⟩ := I.own i hi
        have := List.length_pos_of_mem hx
        rw [if_neg (by omega)]; simp

/-- runs operations, newest last; for examples -/
def play (os : List Op) : Option (Heap × Book) :=
  os.foldl (fun s o => s.bind fun (h, b) => (exec h o).map fun (h', r) => (h', b.note r o)) (some ({}, {}))

/-- all operations are legal as long as nothing freed is used -/
def playLegal (os : List Op) : Bool :=
  (os.foldl (fun s o => (s.1.bind fun (h, b) => (exec h o).map fun (h', r) => (h', b.note r o),
    s.2 && (match s.1 with | none => true | some (_, b) => decide (Legal b o)))) ((some ({}, {}), true) : Option (Heap × Book) × Bool)).2

/-- two users of an interface and a target; everything is freed in the end -/
example : (play [.addProtocol, .addIf 5 (some 1), .addIf 5 none, .addTarget 1 9, .useTarget 2, .removeTarget 2, .removeIf 1 none,
    .removeIf 1 (some 1), .removeProtocol]).map (fun s => (s.1.proto, s.1.ifs, s.1.tgts)) = some (none, [], []) := by decide +kernel

/-- such a run of four operations -/
example : ∃ h b, Runs (fun h b o => Legal b o ∧ Careful h b o) [.addTarget 1 9, .addIf 5 none, .addIf 5 (some 1), .addProtocol] h b ∧
    h.ifs.map (·.refs) = [3] ∧ b.owners 1 = 2 := by
  refine ⟨_, _, .cons (.cons (.cons (.cons .nil ⟨trivial, trivial⟩ rfl) ⟨Nat.zero_lt_one, ?_⟩ rfl) ⟨Nat.zero_lt_one, ?_⟩ rfl) ⟨?_, ?_⟩ rfl, rfl, rfl⟩
  · intro k _ hk; exact nomatch hk
  · intro k _ hk; exact nomatch hk
  · show (0 : Nat) < 2; decide
  · intro t ht; exact nomatch ht

/-- two users of a destination: the target is freed when the first one leaves, and the interface keeps a reference for ever -/
theorem C148_target_counterexample (dst : Nat) : let os : List Op := [.addProtocol, .addIf 5 none, .addTarget 1 dst, .addTarget 1 dst, .removeTarget 2]
    playLegal (os ++ [.useTarget 2]) = true ∧ (play os).map (fun s => (s.1.tgts, s.1.ifs.map (·.refs), s.2.owners 1, s.2.holds 2)) = some ([], [2], 1, 1) ∧
    play (os ++ [.useTarget 2]) = none := by
  refine ⟨?_, ?_, ?_⟩ <;>
  simp [playLegal, play, exec, Book.note, addProtocol, addIf, addTarget, removeTarget, removeIf, Legal, set] <;> exact decide_eq_true trivial

/-- the target outlives the registration of its interface: removing it uses the freed interface -/
theorem C148_order_counterexample (dst : Nat) : let os : List Op := [.addProtocol, .addIf 5 none, .addTarget 1 dst, .removeIf 1 none, .removeTarget 2]
    playLegal os = true ∧ play os = none := by
  refine ⟨?_, ?_⟩ <;>
  simp [playLegal, play, exec, Book.note, addProtocol, addIf, addTarget, removeTarget, removeIf, leaveIf, removeProtocol, Legal, set] <;> exact decide_eq_true trivial

/-- two owners, the one with the listener leaves first: the next event of the interface calls the freed listener -/
theorem C148_listener_counterexample (l : Nat) : let os : List Op := [.addProtocol, .addIf 5 (some l), .addIf 5 none, .removeIf 1 (some l), .changed 1]
    playLegal os = true ∧ play os = none := by
  refine ⟨?_, ?_⟩ <;>
  simp [playLegal, play, exec, Book.note, addProtocol, addIf, removeIf, leaveIf, Legal, set] <;> exact decide_eq_true trivial

end Verif.Rfc5444
