import Verif.Writer.Message

/-
Model of the loop that distributes the addresses of a message over fragments
(`rfc5444_writer_create_message`, `src/librfc5444/rfc5444_msg_generator.c:255-399`).

`mand` and `opt` are the mandatory and the other addresses in the order of the list `_addr_head`.  A fragment starts
with all mandatory addresses, followed by the addresses that are not `_done`; `ptr1` is set back to the first address
of the fragment before, and all addresses in front of it are done.  Whether addresses fit does not depend on the
`_block_*` fields of the addresses, so every fragment is fed from `fresh`.
-/
namespace Verif.Writer
open Verif.Reader (Bytes Block blockLoop)

/-- how the loop ends: result and fragments, undefined behaviour, or it does not end -/
inductive Created
  | done (result : Int) (fragments : List (List WAddr))
  | ub
  | running (fragments : List (List WAddr))
deriving DecidableEq

/-- the rounds of the loop, rfc5444_msg_generator.c:289-397: `opt` are the addresses that are not done, `taken` is
`non_mandatory`, `out` the fragments written; `fuel` bounds the number of rounds -/
def rounds (addrLen : Nat) (max : Int) (mand : List WAddr) : Nat → List WAddr → Nat → List (List WAddr) → Created
  | 0, _, _, out => .running out
  | fuel + 1, opt, taken, out =>
    match feed addrLen max 0 none (mand ++ opt) (Sess.start fresh) with
    | none => .ub
    | some (n, false, _) => .done OKAY (out ++ [(mand ++ opt).take n])
    | some (n, true, _) =>
      let taken := taken + (n - mand.length)
      if taken = 0 then .done MTU_TOO_SMALL out
      else rounds addrLen max mand fuel (opt.drop (n - mand.length)) taken (out ++ [(mand ++ opt).take n])

/-- `rfc5444_writer_create_message` from line 263 on -/
def createFragments (addrLen : Nat) (max : Int) (fuel : Nat) (mand opt : List WAddr) : Created :=
  if mand ++ opt = [] then .done OKAY [[]] else rounds addrLen max mand fuel opt 0 []

/-! ### what the loop does -/

/-- the fed addresses are a prefix of the list, and a longer list with the same start takes the same addresses -/
theorem feed_prefix {addrLen : Nat} {max : Int} : ∀ (as : List WAddr) (k : Nat) (prev : Option WAddr) (s : Sess) (m : Nat) (s' : Sess) (more : List WAddr),
    feed addrLen max k prev as s = some (m, false, s') →
    ∀ r, feed addrLen max k prev (as ++ more) s = some r → m ≤ r.1
  | [], k, prev, s, m, s', more, h, r, hr => by
    cases h
    have : ∀ (bs : List WAddr) (k : Nat) (prev : Option WAddr) (s : Sess) r, feed addrLen max k prev bs s = some r → k ≤ r.1 := by
      intro bs
      induction bs with
      | nil => intro k prev s r h; cases h; exact Nat.le_refl _
      | cons b bs ih =>
        intro k prev s r h
        unfold feed at h
        split at h
        · cases h
        · split at h
          · have := ih _ _ _ _ h
            omega
          · cases h
            exact Nat.le_refl _
    exact this _ _ _ _ _ hr
  | a :: as, k, prev, s, m, s', more, h, r, hr => by
    unfold feed at h
    rw [List.cons_append] at hr
    unfold feed at hr
    split at h
    · cases h
    · rename_i s1 hs1
      rw [hs1] at hr
      dsimp only at hr
      split at h
      · rename_i hf
        rw [if_pos hf] at hr
        exact feed_prefix as _ _ _ _ _ more h r hr
      · cases h

/-- addresses that can be written: length and TLVs as usual, no two addresses with the same bytes -/
structure Usable (addrLen : Nat) (as : List WAddr) : Prop where
  len : 0 < addrLen ∧ addrLen ≤ 16
  bytes : ∀ a ∈ as, a.addr.bytes.length = addrLen
  tlvs : ∀ a ∈ as, TlvsOk a
  distinct : as.Pairwise fun a b => a.addr.bytes ≠ b.addr.bytes

theorem Usable.sublist {addrLen : Nat} {as bs : List WAddr} (h : Usable addrLen as) (hs : bs.Sublist as) : Usable addrLen bs :=
  ⟨h.len, fun a ha => h.bytes a (hs.subset ha), fun a ha => h.tlvs a (hs.subset ha), h.distinct.sublist hs⟩

theorem Usable.next {addrLen : Nat} {as : List WAddr} (h : Usable addrLen as) : ∀ k (hk : k + 1 < as.length), as[k].addr.bytes ≠ as[k + 1].addr.bytes := by
  intro k hk
  exact List.pairwise_iff_getElem.1 h.distinct k (k + 1) (by omega) hk (by omega)

/-- an address that fits into a message together with the mandatory addresses -/
def Fits (addrLen : Nat) (max : Int) (mand : List WAddr) (a : WAddr) : Prop :=
  ∃ n s, feed addrLen max 0 none (mand ++ [a]) (Sess.start fresh) = some (n, false, s)

theorem rounds_spec {addrLen : Nat} {max : Int} {mand : List WAddr} : ∀ (fuel : Nat) (opt : List WAddr) (taken : Nat) (out : List (List WAddr)),
    opt.length < fuel → Usable addrLen (mand ++ opt) → (∀ a ∈ opt, Fits addrLen max mand a) → opt ≠ [] →
    ∃ chunks : List (List WAddr), rounds addrLen max mand fuel opt taken out = .done OKAY (out ++ chunks.map (mand ++ ·)) ∧ chunks.flatten = opt ∧ (∀ c ∈ chunks, c ≠ [])
  | 0, _, _, _, hf, _, _, _ => by omega
  | fuel + 1, opt, taken, out, hf, hu, hfit, hne => by
    obtain ⟨n, over, s, h1, h2, h3, _⟩ := fragment_read (max := max) hu.len hu.bytes hu.tlvs hu.next
    unfold rounds
    rw [h1]
    have hn : mand.length + 1 ≤ n := by
      obtain ⟨a, opt', rfl⟩ := List.exists_cons_of_ne_nil hne
      obtain ⟨m, s', hm⟩ := hfit a List.mem_cons_self
      have := feed_prefix (mand ++ [a]) 0 none (Sess.start fresh) m s' opt' hm (n, over, s) (by simpa using h1)
      have hu' : Usable addrLen (mand ++ [a]) := hu.sublist (List.Sublist.append_left (by simp) _)
      obtain ⟨n', over', s'', g1, g2, g3, _⟩ := fragment_read (max := max) hu'.len hu'.bytes hu'.tlvs hu'.next
      rw [hm] at g1
      cases g1
      have := g3 rfl
      simp at this
      omega
    cases over with
    | false =>
      have := h3 rfl
      dsimp only
      rw [this, List.take_length]
      exact ⟨[opt], rfl, by simp, by simpa using hne⟩
    | true =>
      dsimp only
      rw [if_neg (by omega)]
      have htake : (mand ++ opt).take n = mand ++ opt.take (n - mand.length) := by
        rw [List.take_append, List.take_of_length_le (by omega)]
      rw [htake]
      have hlo : n ≤ mand.length + opt.length := by simpa using h2
      by_cases hd : opt.drop (n - mand.length) = []
      · -- the whole list was fed: there was no address too many
        exfalso
        have hlen : n = (mand ++ opt).length := by
          have := List.drop_eq_nil_iff.1 hd
          rw [List.length_append]
          omega
        have hlt : ∀ (as : List WAddr) (k : Nat) (prev : Option WAddr) (s : Sess) n s', feed addrLen max k prev as s = some (n, true, s') → n < k + as.length := by
          intro as
          induction as with
          | nil => intro k prev s n s' h; cases h
          | cons b bs ih =>
            intro k prev s n s' h
            unfold feed at h
            split at h
            · cases h
            · split at h
              · have := ih _ _ _ _ _ h
                rw [List.length_cons]
                omega
              · cases h
                rw [List.length_cons]
                omega
        have := hlt _ _ _ _ _ _ h1
        omega
      · obtain ⟨chunks, c1, c2, c3⟩ := rounds_spec fuel (opt.drop (n - mand.length)) (taken + (n - mand.length)) (out ++ [mand ++ opt.take (n - mand.length)])
          (by rw [List.length_drop]; omega) (hu.sublist (List.Sublist.append_left (List.drop_sublist _ _) _)) (fun a ha => hfit a (List.mem_of_mem_drop ha)) hd
        refine ⟨opt.take (n - mand.length) :: chunks, ?_, ?_, ?_⟩
        · rw [c1]
          simp
        · rw [List.flatten_cons, c2, List.take_append_drop]
        · intro c hc
          rcases List.mem_cons.1 hc with rfl | hc
          · intro h0
            rcases List.take_eq_nil_iff.1 h0 with h0 | h0
            · omega
            · exact hne h0
          · exact c3 c hc

end Verif.Writer
