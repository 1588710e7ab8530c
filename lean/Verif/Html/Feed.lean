import Verif.Html.Table
/-
What the tokenizer makes of the rest of a document, and the texts it reads character by
character.
-/
namespace Verif.Html
open Spec

/-- What is left of a document read to its end. -/
def fin (E : Env) (s : Lex) (w : Str) : Lex := consume E (feed E s w) etx true

theorem fin_cons (E : Env) (s : Lex) (c : Char) (w : Str) :
    fin E s (c :: w) = fin E (consume E s c false) w := rfl

theorem consume_stay {E : Env} {s s' : Lex} {c : Char} {eof : Bool}
    (h : step E s c eof = (s', false)) : consume E s c eof = s' := by
  simp [consume, consumeN, h]

/-- The states that never read a character twice. -/
def Calm (st : State) : Prop :=
  st = .data ∨ st = .rcdata ∨ st = .valueDoubleQuoted ∨ st = .valueSingleQuoted ∨
    st = .valueUnquoted

theorem step_calm (E : Env) {s : Lex} (h : Calm s.state) (c : Char) (eof : Bool) :
    (step E s c eof).2 = false := by
  unfold step
  rcases h with h | h | h | h | h <;> rw [h] <;>
    simp only [onData, onRcdata, onValueQuoted, onValueUnquoted, stay] <;> repeat' split
  all_goals rfl

theorem consumeN_calm (E : Env) {s : Lex} (h : Calm s.state) (c : Char) (eof : Bool) (n : Nat) :
    consumeN E (n + 1) s c eof = consume E s c eof := by
  simp [consume, consumeN, step_calm E h c eof]

/-- A state that only hands the character on to a calm one. -/
theorem consume_again (E : Env) {s s' : Lex} {c : Char} {eof : Bool}
    (h : step E s c eof = (s', true)) (hc : Calm s'.state) :
    consume E s c eof = consume E s' c eof := by
  rw [← consumeN_calm E hc c eof 10]
  show consumeN E 12 s c eof = _
  rw [consumeN, h]
  simp

/-- Two ways of standing before the rest of a document. -/
def Eqv (E : Env) (s t : Lex) : Prop :=
  ∀ c eof, consume E s c eof = consume E t c eof

theorem fin_eqv {E : Env} {s t : Lex} (h : Eqv E s t) (w : Str) : fin E s w = fin E t w := by
  cases w with
  | nil => exact h _ _
  | cons c w => rw [fin_cons, fin_cons, h]

theorem fin_again (E : Env) {s s' : Lex} {c : Char} (w : Str)
    (h : step E s c false = (s', true)) (hc : Calm s'.state) :
    fin E s (c :: w) = fin E s' (c :: w) := by
  rw [fin_cons, fin_cons, consume_again E h hc]

theorem fin_stay (E : Env) {s s' : Lex} {c : Char} (w : Str)
    (h : step E s c false = (s', false)) : fin E s (c :: w) = fin E s' w := by
  rw [fin_cons, consume_stay h]

/-! ### Plain characters -/

theorem alphaNum_iff (c : Char) : isAlphaNum c = true ↔ AlphaNum c := by
  simp only [isAlphaNum, isAlpha, Bool.or_eq_true, upper_iff, lower_iff, digit_iff, AlphaNum]
  exact or_assoc

theorem amp_calm (E : Env) {s : Lex} (h : Calm s.state) :
    step E s '&' false = ({ s with ret := s.state, state := .characterReference }, false) := by
  unfold step
  rcases h with h | h | h | h | h <;> rw [h] <;>
    simp [onData, onRcdata, onValueQuoted, onValueUnquoted, stay, isSpace]

/-- Puts characters where the state wants them: to the tree builder or into the buffer. -/
def put (E : Env) (cs : Str) (s : Lex) : Lex :=
  if s.state = .data ∨ s.state = .rcdata then emitChars E cs s else appends cs s

/-- Reading a reference leaves its traces in these fields only. -/
def Traces (s t : Lex) : Prop :=
  ∃ ret temp cur matched, t = { s with ret := ret, temp := temp, cur := cur, matched := matched }

theorem Traces.trans {a b c : Lex} (h : Traces a b) (g : Traces b c) : Traces a c := by
  obtain ⟨r, t, n, m, rfl⟩ := h
  obtain ⟨r', t', n', m', rfl⟩ := g
  exact ⟨r', t', n', m', rfl⟩

/-- The token in progress after some characters were emitted. -/
def lastTok : Str → Option Token → Option Token
  | [], t => t
  | c :: cs, _ => lastTok cs (some (char c))

theorem emitChars_full (E : Env) : ∀ (cs : Str) (s : Lex),
    emitChars E cs s = { s with token := lastTok cs s.token, out := s.out ++ cs.map char }
  | [], s => by simp [emitChars, lastTok]
  | c :: cs, s => by
    show emitChars E cs (emitChar E c s) = _
    rw [emitChars_full E cs, emitChar_eq]
    simp [lastTok, char]

theorem flush_put (E : Env) {s : Lex} (h : Calm s.state) {ret : State} (hr : ret = s.state)
    (temp : Str) (cur : Nat) (matched : Option Nat) (st : State) :
    ∃ t, go ret (flush E { s with ret := ret, temp := temp, cur := cur, matched := matched, state := st }) = t ∧
      Traces (put E temp s) t := by
  subst hr
  refine ⟨_, rfl, s.state, temp, cur, matched, ?_⟩
  unfold flush put
  have hin : inAttribute { s with ret := s.state, temp := temp, cur := cur, matched := matched, state := st } = true ↔
      ¬ (s.state = .data ∨ s.state = .rcdata) := by
    rcases h with h | h | h | h | h <;> simp [inAttribute, h]
  by_cases hd : s.state = .data ∨ s.state = .rcdata
  · rw [if_pos hd, if_neg (by rw [hin]; exact not_not_intro hd)]
    rw [emitChars_full, emitChars_full]
    rfl
  · rw [if_neg hd, if_pos (hin.mpr hd)]
    rfl

end Verif.Html
