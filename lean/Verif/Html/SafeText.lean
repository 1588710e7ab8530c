import Verif.Html.Invariant
import Verif.Html.Chars
/-
The states of text, raw text and script text keep the invariant.
-/
namespace Verif.Html
open Spec

/-- The end of the input comes with the placeholder character. -/
def AtEnd (c : Char) (eof : Bool) : Prop := eof = true → c = etx

set_option hygiene false in
/-- Sets up the proof for one state: takes the tokenizer apart and splits on the end of the
input. -/
macro "begin_state" : tactic => `(tactic| (
  intro s c eof he hs h
  obtain ⟨hf, hl⟩ := h
  obtain ⟨st, ret, tok, last, cur, b, temp, peek, attr, matched, out, fault⟩ := s
  simp only at hs
  subst hs))

set_option hygiene false in
/-- All tests on the placeholder character are false. -/
macro "at_end" : tactic => `(tactic| (
  have hc := he rfl
  subst hc
  (repeat rw [if_neg (by decide)])
  (try rw [if_pos rfl])))

set_option hygiene false in
/-- The ways a state of text can go on. -/
macro "text_branch" : tactic => `(tactic| first
  | contradiction
  | exact .of_stay ⟨hf, hl⟩
  | (rw [emitChar_eq]; exact .of_stay ⟨hf.one _, hl⟩)
  | (simp only [emitChar_eq]; exact .of_stay ⟨by simpa [go] using hf.two _ _, hl⟩)
  | exact .of_again hf hl (by simp [rank])
  | (rw [emitChar_eq]; exact .of_again (hf.one _) hl (by simp [rank]))
  | (simp only [emitChar_eq]
     exact .of_again (by simpa [go] using hf.two _ _) hl (by simp [rank]))
  | exact .of_done (hf.done E))

def Keeps (E : Env) (st : State) (f : Env → Lex → Char → Bool → Step) : Prop :=
  ∀ (s : Lex) (c : Char) (eof : Bool), AtEnd c eof → s.state = st → Pend s c eof →
    Next (rank st c eof) (f E s c eof) c eof

theorem onData_keeps (E : Env) : Keeps E .data onData := by
  begin_state
  unfold onData
  cases eof with
  | true => at_end; text_branch
  | false =>
    split
    · exact .of_stay ⟨hf, Or.inl ⟨Or.inl rfl, hl⟩⟩
    repeat' split
    all_goals text_branch

theorem onRcdata_keeps (E : Env) : Keeps E .rcdata onRcdata := by
  begin_state
  unfold onRcdata
  cases eof with
  | true => at_end; text_branch
  | false =>
    split
    · exact .of_stay ⟨hf, Or.inl ⟨Or.inr rfl, hl⟩⟩
    repeat' split
    all_goals text_branch

set_option hygiene false in
/-- A state of text whose every branch is one of `text_branch`. -/
macro "text_state" f:ident : tactic => `(tactic| (
  begin_state
  unfold $f
  cases eof with
  | true => at_end; text_branch
  | false =>
    repeat' split
    all_goals text_branch))

theorem rawtext_keeps (E : Env) : Keeps E .rawtext (onRaw .rawtextLessThan) := by
  text_state onRaw
theorem scriptData_keeps (E : Env) : Keeps E .scriptData (onRaw .scriptLessThan) := by
  text_state onRaw
theorem plaintext_keeps (E : Env) : Keeps E .plaintext onPlaintext := by
  text_state onPlaintext
theorem rcdataLessThan_keeps (E : Env) :
    Keeps E .rcdataLessThan (onLessThan .rcdataEndTagOpen .rcdata) := by
  text_state onLessThan
theorem rawtextLessThan_keeps (E : Env) :
    Keeps E .rawtextLessThan (onLessThan .rawtextEndTagOpen .rawtext) := by
  text_state onLessThan
theorem scriptLessThan_keeps (E : Env) : Keeps E .scriptLessThan onScriptLessThan := by
  text_state onScriptLessThan
theorem scriptEscapeStart_keeps (E : Env) :
    Keeps E .scriptEscapeStart (onScriptEscapeStart .scriptEscapeStartDash) := by
  text_state onScriptEscapeStart
theorem scriptEscapeStartDash_keeps (E : Env) :
    Keeps E .scriptEscapeStartDash (onScriptEscapeStart .scriptEscapedDashDash) := by
  text_state onScriptEscapeStart
theorem scriptEscaped_keeps (E : Env) : Keeps E .scriptEscaped onScriptEscaped := by
  text_state onScriptEscaped
theorem scriptEscapedDash_keeps (E : Env) : Keeps E .scriptEscapedDash onScriptEscapedDash := by
  text_state onScriptEscapedDash
theorem scriptEscapedDashDash_keeps (E : Env) :
    Keeps E .scriptEscapedDashDash onScriptEscapedDashDash := by
  text_state onScriptEscapedDashDash
theorem scriptEscapedLessThan_keeps (E : Env) :
    Keeps E .scriptEscapedLessThan onScriptEscapedLessThan := by
  text_state onScriptEscapedLessThan
theorem scriptDoubleEscaped_keeps (E : Env) :
    Keeps E .scriptDoubleEscaped onScriptDoubleEscaped := by
  text_state onScriptDoubleEscaped
theorem scriptDoubleEscapedDash_keeps (E : Env) :
    Keeps E .scriptDoubleEscapedDash onScriptDoubleEscapedDash := by
  text_state onScriptDoubleEscapedDash
theorem scriptDoubleEscapedDashDash_keeps (E : Env) :
    Keeps E .scriptDoubleEscapedDashDash onScriptDoubleEscapedDashDash := by
  text_state onScriptDoubleEscapedDashDash
theorem scriptDoubleEscapedLessThan_keeps (E : Env) :
    Keeps E .scriptDoubleEscapedLessThan onScriptDoubleEscapedLessThan := by
  text_state onScriptDoubleEscapedLessThan
theorem cdataSection_keeps (E : Env) : Keeps E .cdataSection onCdata := by
  text_state onCdata
theorem cdataSectionBracket_keeps (E : Env) : Keeps E .cdataSectionBracket onCdataBracket := by
  text_state onCdataBracket
theorem cdataSectionEnd_keeps (E : Env) : Keeps E .cdataSectionEnd onCdataEnd := by
  text_state onCdataEnd

/-- The states `DOUBLE_ESCAPE_START` and `DOUBLE_ESCAPE_END`: where the word leads does not matter. -/
theorem scriptDoubleEscapeStart_keeps (E : Env) :
    Keeps E .scriptDoubleEscapeStart
      (onScriptDoubleEscape .scriptDoubleEscaped .scriptEscaped) := by
  begin_state
  unfold onScriptDoubleEscape
  cases eof with
  | true => at_end; text_branch
  | false =>
    split
    · rw [emitChar_eq]
      refine .of_stay ⟨hf.one _, ?_⟩
      by_cases hw : temp = scriptWord
      · simp only [go, hw, if_true]; exact hl
      · simp only [go, hw, if_false]; exact hl
    repeat' split
    all_goals text_branch

theorem scriptDoubleEscapeEnd_keeps (E : Env) :
    Keeps E .scriptDoubleEscapeEnd
      (onScriptDoubleEscape .scriptEscaped .scriptDoubleEscaped) := by
  begin_state
  unfold onScriptDoubleEscape
  cases eof with
  | true => at_end; text_branch
  | false =>
    split
    · rw [emitChar_eq]
      refine .of_stay ⟨hf.one _, ?_⟩
      by_cases hw : temp = scriptWord
      · simp only [go, hw, if_true]; exact hl
      · simp only [go, hw, if_false]; exact hl
    repeat' split
    all_goals text_branch

end Verif.Html
