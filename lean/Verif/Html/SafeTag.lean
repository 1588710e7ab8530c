import Verif.Html.SafeText
/-
The states of tags and attributes keep the invariant.
-/
namespace Verif.Html
open Spec

theorem newTag_begin {k : Kind} (h : k = .startTag ∨ k = .endTag) :
    NewTag (some { kind := k }) := ⟨_, rfl, h, rfl⟩

theorem tagOpen_keeps (E : Env) : Keeps E .tagOpen onTagOpen := by
  begin_state
  have hb : b = [] := hl
  unfold onTagOpen
  cases eof with
  | true => at_end; rw [emitChar_eq]; exact .of_done (Fine.done (hf.one _) E)
  | false =>
    split
    · text_branch
    split
    · text_branch
    split
    · next ha =>
      exact .of_again hf ⟨newTag_begin (Or.inl rfl), Or.inl hb, Or.inr ha⟩ (by simp [rank])
    split
    · exact .of_again hf ⟨_, rfl, rfl⟩ (by simp [rank])
    split
    · contradiction
    · text_branch

theorem endTagOpen_keeps (E : Env) : Keeps E .endTagOpen onEndTagOpen := by
  begin_state
  have hb : b = [] := hl
  unfold onEndTagOpen
  cases eof with
  | true =>
    at_end; simp only [emitChar_eq]
    exact .of_done (Fine.done (by simpa using hf.two _ _) E)
  | false =>
    split
    · next ha =>
      exact .of_again hf ⟨newTag_begin (Or.inr rfl), Or.inl hb, Or.inr ha⟩ (by simp [rank])
    split
    · text_branch
    split
    · contradiction
    · exact .of_again hf ⟨_, rfl, rfl⟩ (by simp [rank])

set_option hygiene false in
/-- An end tag open state of raw text. -/
macro "raw_end_tag_open" : tactic => `(tactic| (
  begin_state
  have hb : b = [] := hl
  unfold onRawEndTagOpen
  split
  · next ha =>
    exact .of_again hf ⟨newTag_begin (Or.inr rfl), Or.inl hb, Or.inr ha⟩ (by simp [rank])
  · text_branch))

theorem rcdataEndTagOpen_keeps (E : Env) :
    Keeps E .rcdataEndTagOpen (onRawEndTagOpen .rcdataEndTagName .rcdata) := by
  raw_end_tag_open
theorem rawtextEndTagOpen_keeps (E : Env) :
    Keeps E .rawtextEndTagOpen (onRawEndTagOpen .rawtextEndTagName .rawtext) := by
  raw_end_tag_open
theorem scriptEndTagOpen_keeps (E : Env) :
    Keeps E .scriptEndTagOpen (onRawEndTagOpen .scriptEndTagName .scriptData) := by
  raw_end_tag_open
theorem scriptEscapedEndTagOpen_keeps (E : Env) :
    Keeps E .scriptEscapedEndTagOpen
      (onRawEndTagOpen .scriptEscapedEndTagName .scriptEscaped) := by
  raw_end_tag_open

/-! ### The name of a tag -/

theorem nameSoFar_upper {b : Str} {c : Char} (h : NameSoFar b) (hu : Upper c) :
    TagName (b ++ [toLower c]) := by
  rcases h with h | h
  · rw [h]; exact tagName_one (lower_of_upper hu)
  · exact tagName_snoc h (nameChar_of_lower (lower_of_upper hu))

theorem nameSoFar_char {b : Str} {c : Char} (h : NameSoFar b) (ha : b ≠ [] ∨ isAlpha c = true)
    (hc : NameChar c) : TagName (b ++ [c]) := by
  rcases h with h | h
  · subst h
    exact tagName_one (lower_of_alpha (by simpa using ha) hc.1)
  · exact tagName_snoc h hc

theorem commitName_tag {s : Lex} (ht : NewTag s.token) (hn : TagName s.builder) :
    ∃ t, commitName s = { s with token := some t, builder := [] } ∧ IsTag t ∧ GoodTag t := by
  obtain ⟨t, e, hk, ha⟩ := ht
  refine ⟨{ t with name := some s.builder }, ?_, hk, ?_⟩
  · simp [commitName, onToken, e, clearBuilder]
  · refine ⟨⟨_, rfl, hn⟩, ?_, ?_⟩ <;> simp [ha]

theorem soFar_name {b : Str} {c : Char} (h : NameSoFar b) (ha : b ≠ [] ∨ isAlpha c = true)
    (hc : isAlpha c = false) : TagName b := by
  rcases h with h | h
  · rcases ha with ha | ha
    · exact absurd h ha
    · rw [hc] at ha; cases ha
  · exact h

theorem alpha_of_space {c : Char} (h : isSpace c = true) : isAlpha c = false := by
  rcases space_iff.mp h with rfl | rfl | rfl | rfl <;> decide

theorem tagName_keeps (E : Env) : Keeps E .tagName onTagName := by
  begin_state
  obtain ⟨ht, hn, ha⟩ := hl
  unfold onTagName
  cases eof with
  | true => at_end; exact .of_done (hf.done E)
  | false =>
    split
    · next h =>
      obtain ⟨t, e, hk, hg⟩ := commitName_tag ht (soFar_name hn ha (alpha_of_space h))
      rw [e]; exact .of_stay ⟨hf, ⟨t, rfl, hk, hg⟩, rfl⟩
    next hsp =>
    split
    · next h =>
      obtain ⟨t, e, hk, hg⟩ := commitName_tag ht (soFar_name hn ha (by rw [h]; decide))
      rw [e]; exact .of_stay ⟨hf, ⟨t, rfl, hk, hg⟩, rfl⟩
    next hsl =>
    split
    · next h =>
      obtain ⟨t, e, hk, hg⟩ := commitName_tag ht (soFar_name hn ha (by rw [h]; decide))
      rw [e]; exact .of_stay (emit_tag hf ⟨t, rfl, hk, hg⟩ rfl rfl)
    next hgt =>
    split
    · next h => exact .of_stay ⟨hf, ht, nameSoFar_upper hn (upper_iff.mp h)⟩
    next hup =>
    split
    · next h =>
      refine .of_stay ⟨hf, ht, ?_⟩
      rcases hn with hn | hn
      · subst hn; subst h; simp at ha; exact absurd ha (by decide)
      · exact tagName_snoc hn nameChar_replacement
    next hnul =>
    split
    · contradiction
    · exact .of_stay ⟨hf, ht, nameSoFar_char hn ha
        ⟨by simpa [upper_iff] using hup, by simpa [space_iff] using hsp, hsl, hgt, hnul⟩⟩

set_option hygiene false in
/-- An end tag name state of raw text. -/
macro "raw_end_tag_name" : tactic => `(tactic| (
  begin_state
  obtain ⟨ht, hn, ha⟩ := hl
  unfold onRawEndTagName
  split
  · next h =>
    simp only [Bool.and_eq_true] at h
    cases eof with
    | true => have hc := he rfl; subst hc; exact absurd h.1 (by decide)
    | false =>
      obtain ⟨t, e, hk, hg⟩ := commitName_tag ht (soFar_name hn ha (alpha_of_space h.1))
      rw [e]; exact .of_stay ⟨hf, ⟨t, rfl, hk, hg⟩, rfl⟩
  split
  · next h =>
    simp only [Bool.and_eq_true, beq_iff_eq] at h
    cases eof with
    | true => have hc := he rfl; subst hc; exact absurd h.1 (by decide)
    | false =>
      obtain ⟨t, e, hk, hg⟩ := commitName_tag ht (soFar_name hn ha (by rw [h.1]; decide))
      rw [e]; exact .of_stay ⟨hf, ⟨t, rfl, hk, hg⟩, rfl⟩
  split
  · next h =>
    simp only [Bool.and_eq_true, beq_iff_eq] at h
    cases eof with
    | true => have hc := he rfl; subst hc; exact absurd h.1 (by decide)
    | false =>
      obtain ⟨t, e, hk, hg⟩ := commitName_tag ht (soFar_name hn ha (by rw [h.1]; decide))
      rw [e]; exact .of_stay (emit_tag hf ⟨t, rfl, hk, hg⟩ rfl rfl)
  split
  · next h =>
    cases eof with
    | true => have hc := he rfl; subst hc; exact absurd h (by decide)
    | false => exact .of_stay ⟨hf, ht, nameSoFar_upper hn (upper_iff.mp h)⟩
  split
  · next h =>
    cases eof with
    | true => have hc := he rfl; subst hc; exact absurd h (by decide)
    | false =>
      exact .of_stay ⟨hf, ht, nameSoFar_char hn ha (nameChar_of_lower (lower_iff.mp h))⟩
  · simp only [emitChar_eq]
    obtain ⟨tok', e, _⟩ := emitChars_eq E temp
      { clearBuilder ⟨_, ret, tok, last, cur, b, temp, peek, attr, matched, out, fault⟩ with
        token := some { kind := .character, rune := '/' }
        out := (out ++ [{ kind := .character, rune := '<' }]) ++
          [{ kind := .character, rune := '/' }] }
    simp only [clearBuilder] at e ⊢
    rw [e]
    exact .of_again ((hf.one _).one _ |>.chars _) rfl (by simp [rank])))

theorem rcdataEndTagName_keeps (E : Env) :
    Keeps E .rcdataEndTagName (onRawEndTagName .rcdata) := by
  raw_end_tag_name
theorem rawtextEndTagName_keeps (E : Env) :
    Keeps E .rawtextEndTagName (onRawEndTagName .rawtext) := by
  raw_end_tag_name
theorem scriptEndTagName_keeps (E : Env) :
    Keeps E .scriptEndTagName (onRawEndTagName .scriptData) := by
  raw_end_tag_name
theorem scriptEscapedEndTagName_keeps (E : Env) :
    Keeps E .scriptEscapedEndTagName (onRawEndTagName .scriptEscaped) := by
  raw_end_tag_name

end Verif.Html
