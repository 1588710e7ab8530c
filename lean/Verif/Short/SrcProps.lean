import Verif.Short.ListProps

/-!
# The sources of a font face (C171)
-/

namespace Verif.Short
open Verif.Values

theorem UrlTok.not_local {s : List Char} {t : Tok} (h : UrlTok s t) (n : Nat) (acc : List Source)
    (r : List Tok) : srcLoop (n + 1) acc (t :: r) = srcLoop.source n acc (t :: r) := by
  cases h with
  | plain => simp only [srcLoop, eatWs]
  | quoted hn hc =>
    simp only [srcLoop, eatWs, hn.eqCi_congr, show eqCi "url(".toList "local(".toList = false by
      decide +kernel, Bool.false_eq_true, if_false]

/-- What may come behind a source. -/
inductive Follows : List Tok → Prop
  | nil : Follows []
  | comma : Follows (.comma :: r)

/-- What is done with what comes behind a source. -/
def behind (n : Nat) (acc : List Source) : List Tok → Out (List Source)
  | [] => (some acc, [])
  | _ :: r => srcLoop n acc r

/-- A source is read whatever may follow it. -/
theorem srcLoop_source {ts : List Tok} {s : Source} (h : SrcText ts s) {l : List Tok}
    (hl : Follows l) (n : Nat) (acc : List Source) :
    srcLoop (n + 1) acc (ts ++ l) = behind n (acc ++ [s]) l := by
  have key : ∀ (u : List Char) (f : Option (List Char)) (l1 : List Tok),
      parseUrl (ts ++ l) = (some u, l1) → formatPart (eatWs l1) = (some f, l) →
      srcLoop.source n acc (ts ++ l) = behind n (acc ++ [.url u f]) l := by
    intro u f l1 h1 h2
    unfold srcLoop.source
    simp only [h1, h2]
    cases hl <;> rfl
  cases h with
  | @url u t h =>
    rw [List.singleton_append, h.not_local, ← List.singleton_append]
    refine key u none l ?_ ?_
    · exact parseUrl_tok h l
    · cases hl <;> rfl
  | @str u t n c f h hn hc =>
    rw [List.cons_append, h.not_local]
    refine key u (some f) (.func n c :: l) (parseUrl_tok h _) ?_
    simp only [eatWs, formatPart, eqCi_iff.2 hn, if_true, formatOf, hc]
  | @word u t n c f k h hn hc hk hf =>
    rw [List.cons_append, h.not_local]
    refine key u (some f) (.func n c :: l) (parseUrl_tok h _) ?_
    have : formatNames.any (fun k => eqCi f k.toList) = true :=
      List.any_eq_true.2 ⟨k, (by decide +kernel : ∀ k ∈ formatWords, k ∈ formatNames) k hk,
        eqCi_iff.2 hf⟩
    simp only [eatWs, formatPart, eqCi_iff.2 hn, if_true, formatOf, hc, this]

theorem SrcText.pos {ts : List Tok} {s : Source} (h : SrcText ts s) : 1 ≤ ts.length := by
  cases h <;> simp

theorem srcLoop_sources {ts : List Tok} {ss : List Source} (h : SrcTexts ts ss) {l : List Tok}
    (hl : Follows l) (n : Nat) (hn : (ts ++ l).length < n) (acc : List Source) :
    ∃ m, srcLoop n acc (ts ++ l) = behind m (acc ++ ss) l := by
  induction h generalizing n acc with
  | one h =>
    cases n with
    | zero => omega
    | succ n =>
      exact ⟨n, srcLoop_source h hl n acc⟩
  | @more ts s us ss h _ ih =>
    cases n with
    | zero => omega
    | succ n =>
      rw [List.append_assoc, List.cons_append, srcLoop_source h .comma n acc]
      obtain ⟨m, he⟩ := ih n (by have := h.pos; simp at hn ⊢; omega) (acc ++ [s])
      refine ⟨m, ?_⟩
      rw [behind, he, List.append_assoc]
      rfl

theorem SrcText.eatWs {ts : List Tok} {s : Source} (h : SrcText ts s) (l : List Tok) :
    Values.eatWs (ts ++ l) = ts ++ l := by
  cases h with
  | url h => cases h <;> rfl
  | str h => cases h <;> rfl
  | word h => cases h <;> rfl

theorem SrcTexts.eatWs {ts : List Tok} {ss : List Source} (h : SrcTexts ts ss) (l : List Tok) :
    Values.eatWs (ts ++ l) = ts ++ l := by
  cases h with
  | one h => exact h.eatWs l
  | more h => rw [List.append_assoc]; exact h.eatWs _

/-- **C171 (in part).** The sources of a font face with urls, each with a format or without, are
those that are written, in the order they are written.  Missing: fonts of the system, and
`tech(…)`. -/
theorem C171_src_partial {ts : List Tok} {ss : List Source} (h : SrcTexts ts ss) :
    declared parseSrc ts = some ss := by
  obtain ⟨m, he⟩ := srcLoop_sources h .nil (ts.length + 1) (by simp) []
  have h1 := h.eatWs []
  rw [List.append_nil] at he h1
  unfold declared parseSrc
  rw [h1, he]
  rfl

/-- `src: url(a), url("b") format("woff")` -/
example : SrcTexts
    [.url "a".toList, .comma, .func "url(".toList [.str "b".toList],
      .func "format(".toList [.str "woff".toList]]
    [.url "a".toList none, .url "b".toList (some "woff".toList)] :=
  .more (.url .plain) (.one (.str (.quoted (Cased.refl _) rfl) (Cased.refl _) rfl))

theorem local_none {name : List Char} {c : List Tok} (hn : Cased name "local(".toList)
    {l : List Tok} (hl : Follows l) (n : Nat) (acc : List Source) :
    (srcLoop n acc (.func name c :: l)).1 = none := by
  cases n with
  | zero => simp only [srcLoop]
  | succ n =>
    simp only [srcLoop, eatWs, eqCi_iff.2 hn, if_true]
    split
    · rfl
    · cases n with
      | zero => simp only [srcLoop]
      | succ n =>
        cases hl with
        | nil => simp only [srcLoop, eatWs]
        | comma => simp only [srcLoop, eatWs, srcLoop.source, parseUrl]

theorem declared_none {p : List Tok → Out α} {ts : List Tok} (h : (p (eatWs ts)).1 = none) :
    declared p ts = none := by
  unfold declared
  split
  · next v e => rw [e] at h; cases h
  · rfl

/-- A font of the system, wherever it is in the list, makes the whole list invalid. -/
theorem C171_local_fails {name : List Char} {c : List Tok} (hn : Cased name "local(".toList)
    {l : List Tok} (hl : Follows l) :
    declared parseSrc (.func name c :: l) = none ∧
    ∀ ts ss, SrcTexts ts ss → declared parseSrc (ts ++ .comma :: .func name c :: l) = none := by
  constructor
  · exact declared_none (local_none hn hl _ _)
  · intro ts ss h
    obtain ⟨m, he⟩ := srcLoop_sources h (l := .comma :: .func name c :: l) .comma
      ((ts ++ .comma :: .func name c :: l).length + 1) (by simp) []
    refine declared_none ?_
    rw [h.eatWs]
    unfold parseSrc
    rw [he]
    exact local_none hn hl _ _

/-- A source with `tech(…)` makes the whole list invalid. -/
theorem C171_tech_fails {s : List Char} {t : Tok} (h : UrlTok s t) {name : List Char} {c : List Tok}
    (hn : Cased name "tech(".toList) (l : List Tok) :
    declared parseSrc (t :: .func name c :: l) = none := by
  refine declared_none ?_
  have he : eatWs (t :: .func name c :: l) = t :: .func name c :: l := by cases h <;> rfl
  rw [he]
  unfold parseSrc
  rw [h.not_local]
  unfold srcLoop.source
  rw [parseUrl_tok h]
  simp only [eatWs, formatPart, hn.eqCi_congr, show eqCi "tech(".toList "format(".toList = false by
    decide +kernel, Bool.false_eq_true, if_false]

/-- Without a comma behind it, a font of the system is accepted: `src: local(a) url(b)`. -/
theorem C171_comma_fails {ts : List Tok} {ss : List Source} (h : SrcTexts ts ss) :
    declared parseSrc (.func "local(".toList [.ident "a".toList] :: ts) =
      some (.local "a".toList :: ss) := by
  obtain ⟨m, he⟩ := srcLoop_sources h .nil (ts.length + 1) (by simp) [.local "a".toList]
  rw [List.append_nil] at he
  have hf : parseFamily [.ident "a".toList] = (some "a".toList, []) := by
    simp only [parseFamily, eatWs, moreWords]
  unfold declared parseSrc
  simp only [eatWs, List.length_cons]
  rw [srcLoop]
  simp only [eatWs, show eqCi "local(".toList "local(".toList = true by decide +kernel, if_true, hf,
    List.nil_append]
  rw [he]
  rfl

end Verif.Short
