import Verif.Subsys.Cleanup

namespace Verif.Subsys

theorem strrchr_none {l : List UInt8} {c : UInt8} (h : c ∉ l) : strrchr l c = none := by
  unfold strrchr
  have : l.reverse.findIdx? (· == c) = none := by
    rw [List.findIdx?_eq_none_iff]
    intro x hx
    simp only [beq_eq_false_iff_ne, ne_eq]
    exact fun e => h (e ▸ List.mem_reverse.1 hx)
  rw [this]

/-- no directory in the name -/
def NoPath (l : List UInt8) : Prop := 47 ∉ l ∧ 92 ∉ l

theorem extract_noPath (pre post : List UInt8) {l : List UInt8} (h : NoPath l) :
    extractName pre post l =
      (let start : Nat := if startsWith l pre then pre.length else 0
       let stop : Int := if endsWith (l.drop start) post then (l.length : Int) - pre.length else l.length
       if (stop - start + 1) % 2 ^ 64 ≤ 32 then
         if (stop - start) % 2 ^ 64 ≤ 32 then some ((l.drop start).take (stop - start).toNat) else none
       else some []) := by
  unfold extractName
  rw [strrchr_none h.1, strrchr_none h.2]
  simp only [List.drop_zero, Nat.zero_add]

/-- C97: a name without directory, prefix and postfix which fits into the buffer is the name of the plugin.  Missing: directories
and postfixes, see the counterexamples. -/
theorem C97_plain_partial (pre post : List UInt8) {l : List UInt8} (h : NoPath l) (hpre : startsWith l pre = false) (hpost : endsWith l post = false)
    (hl : l.length ≤ 31) : extractName pre post l = some l := by
  rw [extract_noPath pre post h, hpre]
  simp only [Bool.false_eq_true, if_false, List.drop_zero, hpost]
  rw [if_pos (by omega), if_pos (by omega)]
  simp

/-- C97: the prefix is removed. -/
theorem C97_prefix_partial (pre post : List UInt8) {n : List UInt8} (h : NoPath (pre ++ n)) (hpost : endsWith n post = false)
    (hl : n.length ≤ 31) : extractName pre post (pre ++ n) = some n := by
  have hp : startsWith (pre ++ n) pre = true := by unfold startsWith; simp
  rw [extract_noPath pre post h, hp]
  simp only [if_true, List.drop_left, hpost, Bool.false_eq_true, if_false, List.length_append]
  rw [if_pos (by omega), if_pos (by omega)]
  congr 1
  rw [List.take_of_length_le (by omega)]

def liboonf : List UInt8 := "liboonf_".toUTF8.toList
def dotSo : List UInt8 := ".so".toUTF8.toList

example : extractName liboonf dotSo "http".toUTF8.toList = some "http".toUTF8.toList ∧
    extractName liboonf dotSo "liboonf_http".toUTF8.toList = some "http".toUTF8.toList := by decide +kernel

/-- C97: a name with prefix and postfix: if the plugin has a name of a certain length (4 characters on Linux), 2^64 - 1 bytes are copied into the
buffer of 32 bytes. -/
theorem C97_overflow_counterexample (pre post n : List UInt8) (h : NoPath (pre ++ (n ++ post))) (hn : n ≠ [])
    (hl : n.length + post.length + 1 = pre.length) : extractName pre post (pre ++ (n ++ post)) = none := by
  have hp : startsWith (pre ++ (n ++ post)) pre = true := by unfold startsWith; simp
  have hn' : 0 < n.length := List.length_pos_iff.2 hn
  have he : endsWith (n ++ post) post = true := by
    unfold endsWith
    simp only [List.length_append]
    rw [show n.length + post.length - post.length = n.length by omega, List.drop_left]
    simp [hn']
  rw [extract_noPath pre post h, hp]
  simp only [if_true, List.drop_left, he, List.length_append]
  rw [if_pos (by omega), if_neg (by omega)]

/-- C97: on Linux this happens for "liboonf_http.so"; other names with a postfix are cut off ("liboonf_plugin.so"), a directory is not
removed ("./liboonf_http") and prevents that the prefix is removed. -/
theorem C97_linux_counterexample :
    extractName liboonf dotSo "liboonf_http.so".toUTF8.toList = none ∧
    extractName liboonf dotSo "liboonf_plugin.so".toUTF8.toList = some "p".toUTF8.toList ∧
    extractName liboonf dotSo "./liboonf_http".toUTF8.toList = some "/liboonf_http".toUTF8.toList := by decide +kernel

/-! ### Telnet command -/

open Verif.Str (isBlank strHasNextWord hasWordLoop skipBlank)

/-- a name of a plugin: not empty, without white space -/
def Word (n : Name) : Prop := n ≠ [] ∧ ∀ c ∈ n, isSpace c = false

theorem dropSpace {n : Name} (h : Word n) : (32 :: n).dropWhile isSpace = n := by
  rw [List.dropWhile_cons_of_pos (by decide)]
  obtain ⟨hn, hs⟩ := h
  cases n with
  | nil => exact absurd rfl hn
  | cons c n => exact List.dropWhile_cons_of_neg (by rw [hs c List.mem_cons_self]; decide)

theorem skip_word {n : Name} (h : Word n) : skipBlank (32 :: n) = n := by
  unfold skipBlank
  rw [List.dropWhile_cons_of_pos (by decide)]
  obtain ⟨hn, hs⟩ := h
  cases n with
  | nil => exact absurd rfl hn
  | cons c n =>
    refine List.dropWhile_cons_of_neg ?_
    have := hs c List.mem_cons_self
    intro hb
    unfold isBlank at hb
    unfold isSpace at this
    simp only [Bool.or_eq_true, beq_iff_eq] at hb
    rcases hb with rfl | rfl <;> exact absurd this (by decide)

/-- C101: "load" with the name of a plugin which is loaded unloads it; with the name of another plugin, nothing is loaded. "unload" never
unloads anything: the plugin is reported as already loaded. -/
theorem C101_inverted_counterexample (t : List Plugin) {n : Name} (h : Word n) :
    command t (some ("load".toUTF8.toList ++ 32 :: n)) = (if (get t n).isSome then .unload n else .unknownPlugin) ∧
    command t (some ("unload".toUTF8.toList ++ 32 :: n)) = (if (get t n).isSome then .alreadyLoaded else .load n) := by
  have e1 : "load".toUTF8.toList = [108, 111, 97, 100] := by decide +kernel
  have e2 : "unload".toUTF8.toList = [117, 110, 108, 111, 97, 100] := by decide +kernel
  have e3 : "list".toUTF8.toList = [108, 105, 115, 116] := by decide +kernel
  have hne : n ≠ [] := h.1
  constructor
  · unfold command
    rw [e1, e2, e3]
    have hlist : fold ([108, 111, 97, 100] ++ 32 :: n) ≠ fold [108, 105, 115, 116] := by
      intro he
      have := congrArg List.length he
      simp [fold] at this
    dsimp only
    rw [if_neg hlist]
    have hdw : ([108, 111, 97, 100] ++ 32 :: n : List UInt8).dropWhile (· != 32) = 32 :: n := rfl
    rw [hdw]
    dsimp only
    rw [dropSpace h]
    have hw : strHasNextWord ([108, 111, 97, 100] ++ 32 :: n) [108, 111, 97, 100] = some n := by
      show (if isBlank 32 then some (skipBlank (32 :: n)) else none) = some n
      rw [skip_word h]; rfl
    have hu : strHasNextWord ([108, 111, 97, 100] ++ 32 :: n) [117, 110, 108, 111, 97, 100] = none := rfl
    rw [hw, hu]
    rw [if_neg (by simp), if_pos rfl]
    cases hg : get t n <;> simp
  · unfold command
    rw [e1, e2, e3]
    have hlist : fold ([117, 110, 108, 111, 97, 100] ++ 32 :: n) ≠ fold [108, 105, 115, 116] := by
      intro he
      have := congrArg List.length he
      simp [fold] at this
    dsimp only
    rw [if_neg hlist]
    have hdw : ([117, 110, 108, 111, 97, 100] ++ 32 :: n : List UInt8).dropWhile (· != 32) = 32 :: n := rfl
    rw [hdw]
    dsimp only
    rw [dropSpace h]
    have hw : strHasNextWord ([117, 110, 108, 111, 97, 100] ++ 32 :: n) [108, 111, 97, 100] = none := rfl
    rw [hw, if_pos rfl]

/-- C101: without parameter and with "list" the plugins are listed and nothing is changed. -/
theorem C101_list_partial (t : List Plugin) (l : List UInt8) (h : fold l = fold "list".toUTF8.toList) :
    command t none = .list ∧ command t (some l) = .list := by
  refine ⟨rfl, ?_⟩
  unfold command
  dsimp only
  rw [if_pos h]

/-- C101: everything else without a blank only shows how the command is used. -/
theorem C101_usage (t : List Plugin) (l : List UInt8) (h : fold l ≠ fold "list".toUTF8.toList) (hb : (32 : UInt8) ∉ l) :
    command t (some l) = .usage := by
  unfold command
  dsimp only
  rw [if_neg h]
  have : l.dropWhile (· != 32) = [] := by
    clear h
    induction l with
    | nil => rfl
    | cons x l ih =>
      have hx : x ≠ 32 := fun e => hb (by rw [e]; exact List.mem_cons_self)
      rw [List.dropWhile_cons_of_pos (by simpa using hx)]
      exact ih fun hm => hb (List.mem_cons_of_mem _ hm)
  rw [this]

example : Word "httpd".toUTF8.toList ∧ command [{ name := "httpd".toUTF8.toList, deps := [] }] (some "load httpd".toUTF8.toList) = .unload "httpd".toUTF8.toList ∧
    command [] (some "LIST".toUTF8.toList) = .list := by
  refine ⟨⟨by decide +kernel, ?_⟩, by decide +kernel, by decide +kernel⟩
  decide +kernel

end Verif.Subsys
