import Verif.Html.Doctypes
/-
The text of `title`, `style` and `script`, read from its first character to the end tag.
-/
namespace Verif.Html
open Spec

/-- Where the tokenizer is within such a text: in the middle of it, after `<`, after `</`, after
`</` and some letters, or after the `<!` or `<!-` of a script. -/
inductive Phase
  | text | lt | open_ | name (w : Str) | esc | escDash

/-- What the tokenizer holds back. -/
def Phase.held : Phase → Str
  | .text | .esc | .escDash => []
  | .lt => ['<']
  | .open_ => ['<', '/']
  | .name w => '<' :: '/' :: w

/-- What the phase knows to be the end of the text so far. -/
def Phase.tail : Phase → Str
  | .text => []
  | .lt => ['<']
  | .open_ => ['<', '/']
  | .name w => '<' :: '/' :: w
  | .esc => ['<', '!']
  | .escDash => ['<', '!', '-']

def Phase.state : Phase → Content → Option State
  | .text, .rcdata => some .rcdata
  | .text, .rawtext => some .rawtext
  | .text, .scriptData => some .scriptData
  | .lt, .rcdata => some .rcdataLessThan
  | .lt, .rawtext => some .rawtextLessThan
  | .lt, .scriptData => some .scriptLessThan
  | .open_, .rcdata => some .rcdataEndTagOpen
  | .open_, .rawtext => some .rawtextEndTagOpen
  | .open_, .scriptData => some .scriptEndTagOpen
  | .name _, .rcdata => some .rcdataEndTagName
  | .name _, .rawtext => some .rawtextEndTagName
  | .name _, .scriptData => some .scriptEndTagName
  | .esc, .scriptData => some .scriptEscapeStart
  | .escDash, .scriptData => some .scriptEscapeStartDash
  | _, _ => none

/-- The tokenizer in a phase.  `b` is what surrounds the text: the start tag, and what was given
to the sink before the text. -/
def ph (s : Lex) (st : State) (p : Phase) (tok : Option Token) (tmp : Str) (o : List Token) : Lex :=
  match p with
  | .name w => { s with state := st, token := some { kind := .endTag }, temp := w,
                        builder := lower w, out := o }
  | .open_ => { s with state := st, token := tok, temp := [], builder := [], out := o }
  | _ => { s with state := st, token := tok, temp := tmp, builder := [], out := o }

/-- The letters of a name. -/
def Phase.Ok : Phase → Prop
  | .name w => Letters w
  | _ => True

theorem emitChar_ph (E : Env) (c : Char) (s : Lex) : emitChar E c s =
    { s with token := some (char c), out := s.out ++ [char c] } := emitChar_eq E c s

/-- One character of the text itself. -/
theorem text_step (E : Env) {s : Lex} {k : Content} {st : State} (hst : Phase.text.state k = some st)
    {tok : Option Token} {tmp : Str} {o : List Token} {c : Char} (h0 : c ≠ '\x00')
    (hamp : k = .rcdata → c ≠ '&') :
    ∃ st' p' tok' o', p'.state k = some st' ∧ p'.Ok ∧
      step E (ph s st .text tok tmp o) c false = (ph s st' p' tok' tmp o', false) ∧
      o ++ [char c] = o' ++ p'.held.map char ∧ p'.tail <:+ [c] ∧ (p' = .text ∨ p' = .lt) := by
  by_cases hlt : c = '<'
  · subst hlt
    cases k <;> simp only [Phase.state, Option.some.injEq, reduceCtorEq] at hst <;> subst hst
    · exact ⟨.rcdataLessThan, .lt, tok, o, rfl, trivial, rfl, rfl, List.suffix_refl _, Or.inr rfl⟩
    · exact ⟨.rawtextLessThan, .lt, tok, o, rfl, trivial, rfl, rfl, List.suffix_refl _, Or.inr rfl⟩
    · exact ⟨.scriptLessThan, .lt, tok, o, rfl, trivial, rfl, rfl, List.suffix_refl _, Or.inr rfl⟩
  · refine ⟨st, .text, some (char c), o ++ [char c], hst, trivial, ?_, by simp [Phase.held],
      List.nil_suffix, Or.inl rfl⟩
    cases k <;> simp only [Phase.state, Option.some.injEq, reduceCtorEq] at hst <;> subst hst
    · show onRcdata E _ c false = _
      unfold onRcdata
      rw [if_neg (hamp rfl), if_neg hlt, if_neg h0, if_neg (by decide), emitChar_ph]
      rfl
    · show onRaw .rawtextLessThan E _ c false = _
      unfold onRaw
      rw [if_neg hlt, if_neg h0, if_neg (by decide), emitChar_ph]
      rfl
    · show onRaw .scriptLessThan E _ c false = _
      unfold onRaw
      rw [if_neg hlt, if_neg h0, if_neg (by decide), emitChar_ph]
      rfl

/-- The text state of a kind of text. -/
def textState : Content → State
  | .rcdata => .rcdata
  | .rawtext => .rawtext
  | _ => .scriptData

/-- What a pending `</` and letters must not be followed by. -/
def Goes (p : Phase) (name : Str) (c : Char) : Prop :=
  match p with
  | .name w => lower w = lower name → ¬ (Space c ∨ c = '/' ∨ c = '>')
  | _ => True

/-- A character that does not belong to what is held back. -/
theorem leave_step (E : Env) {s : Lex} {k : Content} {st : State} {p : Phase}
    (hst : p.state k = some st) (hp : p.Ok) {tok : Option Token} {tmp : Str} {o : List Token}
    {t : Token} {name : Str} (hlast : s.lastStartTag = some t) (hname : t.name = some (lower name))
    {c : Char} (hgo : Goes p name c) :
    p = .text ∨
    (∃ st' p' tok' tmp' o', p'.state k = some st' ∧ p'.Ok ∧
      step E (ph s st p tok tmp o) c false = (ph s st' p' tok' tmp' o', false) ∧
      o ++ (p.held ++ [c]).map char = o' ++ p'.held.map char ∧ p'.tail = p.tail ++ [c] ∧ (c ≠ '&')) ∨
    (∃ r, p = .open_ ∧ (Upper c ∨ Lower c) ∧ r = ph s st p tok tmp o ∧ ∃ st', (Phase.name [c]).state k = some st' ∧
      ∃ m, step E r c false = (m, true) ∧ step E m c false = (ph s st' (.name [c]) tok tmp o, false)) ∨
    (p = .escDash ∧ c = '-') ∨
    ∃ tok' tmp', step E (ph s st p tok tmp o) c false =
      (ph s (textState k) .text tok' tmp' (o ++ p.held.map char), true) := by
  cases p with
  | text => exact Or.inl rfl
  | lt =>
    right
    by_cases h1 : c = '/'
    · left
      subst h1
      cases k <;> simp only [Phase.state, Option.some.injEq, reduceCtorEq] at hst <;> subst hst
      · exact ⟨.rcdataEndTagOpen, .open_, tok, [], o, rfl, trivial, rfl, rfl, rfl, by decide⟩
      · exact ⟨.rawtextEndTagOpen, .open_, tok, [], o, rfl, trivial, rfl, rfl, rfl, by decide⟩
      · exact ⟨.scriptEndTagOpen, .open_, tok, [], o, rfl, trivial, rfl, rfl, rfl, by decide⟩
    by_cases h2 : k = .scriptData ∧ c = '!'
    · left
      obtain ⟨rfl, rfl⟩ := h2
      simp only [Phase.state, Option.some.injEq] at hst
      subst hst
      refine ⟨.scriptEscapeStart, .esc, some (char '!'), tmp, o ++ [char '<', char '!'], rfl, trivial,
        ?_, by simp [Phase.held], rfl, by decide⟩
      show (emitChar E '!' (emitChar E '<' _), false) = _
      rw [emitChar_ph, emitChar_ph]
      simp [ph, go]
    · right; right; right
      refine ⟨some (char '<'), tmp, ?_⟩
      cases k <;> simp only [Phase.state, Option.some.injEq, reduceCtorEq] at hst <;> subst hst
      · show onLessThan .rcdataEndTagOpen .rcdata E _ c false = _
        unfold onLessThan
        rw [if_neg h1, emitChar_ph]
        rfl
      · show onLessThan .rawtextEndTagOpen .rawtext E _ c false = _
        unfold onLessThan
        rw [if_neg h1, emitChar_ph]
        rfl
      · show onScriptLessThan E _ c false = _
        unfold onScriptLessThan
        rw [if_neg h1, if_neg (fun h => h2 ⟨rfl, h⟩), emitChar_ph]
        rfl
  | open_ =>
    right; right
    by_cases h1 : Upper c ∨ Lower c
    · left
      have ha := alpha_iff.mpr h1
      refine ⟨_, rfl, h1, rfl, ?_⟩
      have hns : isSpace c = false ∧ c ≠ '/' ∧ c ≠ '>' := by
        refine ⟨not_space ?_, ?_, ?_⟩
        · intro hs
          rcases hs with e | e | e | e <;> subst e <;> exact absurd ha (by decide)
        · intro e; subst e; exact absurd ha (by decide)
        · intro e; subst e; exact absurd ha (by decide)
      have hname' : ∀ back m, m.builder = [] → m.temp = [] → onRawEndTagName back E m c false =
          ({ m with builder := [c.toLower], temp := [c] }, false) := by
        intro back m e1 e2
        unfold onRawEndTagName
        rw [if_neg (by rw [hns.1]; simp), if_neg (by simp [hns.2.1]), if_neg (by simp [hns.2.2])]
        rcases name_char (c := c) with ⟨g1, g2⟩ | ⟨g1, g2⟩
        · rw [if_pos g1, g2]; simp [stay, append, e1, e2]
        · rw [if_neg (by rw [g1]; decide), if_pos]
          · rw [← g2]; simp [stay, append, e1, e2]
          · rcases h1 with h1 | h1
            · rw [upper_iff.mpr h1] at g1; cases g1
            · exact lower_iff.mpr h1
      cases k <;> simp only [Phase.state, Option.some.injEq, reduceCtorEq] at hst <;> subst hst
      · refine ⟨.rcdataEndTagName, rfl, { ph s .rcdataEndTagName .open_ (some { kind := .endTag }) tmp o with state := .rcdataEndTagName }, ?_, ?_⟩
        · show onRawEndTagOpen .rcdataEndTagName .rcdata E _ c false = _
          unfold onRawEndTagOpen; rw [if_pos ha]; rfl
        · show onRawEndTagName .rcdata E _ c false = _
          rw [hname' .rcdata _ rfl rfl]; rfl
      · refine ⟨.rawtextEndTagName, rfl, { ph s .rawtextEndTagName .open_ (some { kind := .endTag }) tmp o with state := .rawtextEndTagName }, ?_, ?_⟩
        · show onRawEndTagOpen .rawtextEndTagName .rawtext E _ c false = _
          unfold onRawEndTagOpen; rw [if_pos ha]; rfl
        · show onRawEndTagName .rawtext E _ c false = _
          rw [hname' .rawtext _ rfl rfl]; rfl
      · refine ⟨.scriptEndTagName, rfl, { ph s .scriptEndTagName .open_ (some { kind := .endTag }) tmp o with state := .scriptEndTagName }, ?_, ?_⟩
        · show onRawEndTagOpen .scriptEndTagName .scriptData E _ c false = _
          unfold onRawEndTagOpen; rw [if_pos ha]; rfl
        · show onRawEndTagName .scriptData E _ c false = _
          rw [hname' .scriptData _ rfl rfl]; rfl
    · right; right
      have ha : ¬ isAlpha c = true := fun h => h1 (alpha_iff.mp h)
      refine ⟨some (char '/'), [], ?_⟩
      cases k <;> simp only [Phase.state, Option.some.injEq, reduceCtorEq] at hst <;> subst hst <;>
        (first
          | (show onRawEndTagOpen .rcdataEndTagName .rcdata E _ c false = _)
          | (show onRawEndTagOpen .rawtextEndTagName .rawtext E _ c false = _)
          | (show onRawEndTagOpen .scriptEndTagName .scriptData E _ c false = _)) <;>
        (unfold onRawEndTagOpen; rw [if_neg ha, emitChar_ph, emitChar_ph]; simp [again, ph, textState, Phase.held])
  | name w =>
    right
    have hap : ∀ tk m, (isAppropriate (ph s st (.name w) tk m o) = true ↔ lower w = lower name) := by
      intro tk m
      show (match s.lastStartTag with | none => false | some t => t.name == some (lower w)) = true ↔ _
      rw [hlast]
      simp only [hname, beq_iff_eq, Option.some.injEq]
      exact eq_comm
    have hc1 : ¬ (isSpace c && isAppropriate (ph s st (.name w) tok tmp o)) = true := by
      simp only [Bool.and_eq_true]
      rintro ⟨a, b⟩
      exact hgo ((hap _ _).mp b) (Or.inl (space_iff.mp a))
    have hc2 : ¬ (c == '/' && isAppropriate (ph s st (.name w) tok tmp o)) = true := by
      simp only [Bool.and_eq_true, beq_iff_eq]
      rintro ⟨a, b⟩
      exact hgo ((hap _ _).mp b) (Or.inr (Or.inl a))
    have hc3 : ¬ (c == '>' && isAppropriate (ph s st (.name w) tok tmp o)) = true := by
      simp only [Bool.and_eq_true, beq_iff_eq]
      rintro ⟨a, b⟩
      exact hgo ((hap _ _).mp b) (Or.inr (Or.inr a))
    have hback : ∃ st', (Phase.name w).state k = some st' ∧
        step E (ph s st (.name w) tok tmp o) c false =
          onRawEndTagName (textState k) E (ph s st (.name w) tok tmp o) c false := by
      cases k <;> simp only [Phase.state, Option.some.injEq, reduceCtorEq] at hst <;> subst hst <;>
        exact ⟨_, rfl, rfl⟩
    obtain ⟨st', hst', hstep⟩ := hback
    rw [hst] at hst'
    by_cases h1 : Upper c ∨ Lower c
    · left
      have hamp : c ≠ '&' := by
        intro e; subst e
        exact absurd (alpha_iff.mpr h1) (by decide)
      refine ⟨st, .name (w ++ [c]), tok, tmp, o, ?_, ⟨by simp, ?_⟩, ?_, by simp [Phase.held], rfl, hamp⟩
      · cases k <;> simp only [Phase.state, reduceCtorEq] at hst ⊢ <;> exact hst
      · intro x hx
        rcases List.mem_append.mp hx with hx | hx
        · exact hp.2 x hx
        · rw [List.mem_singleton.mp hx]; exact h1
      · rw [hstep]
        unfold onRawEndTagName
        rw [if_neg hc1, if_neg hc2, if_neg hc3]
        rcases name_char (c := c) with ⟨g1, g2⟩ | ⟨g1, g2⟩
        · rw [if_pos g1, g2]; simp [stay, append, ph, lower]
        · rw [if_neg (by rw [g1]; decide), if_pos]
          · have : lower w ++ [c] = lower (w ++ [c]) := by simp [lower, ← g2]
            simp [stay, append, ph, this]
          · rcases h1 with h1 | h1
            · rw [upper_iff.mpr h1] at g1; cases g1
            · exact lower_iff.mpr h1
    · right; right; right
      refine ⟨lastTok w (some (char '/')), w, ?_⟩
      rw [hstep]
      unfold onRawEndTagName
      rw [if_neg hc1, if_neg hc2, if_neg hc3,
        if_neg (fun h => h1 (Or.inl (upper_iff.mp h))), if_neg (fun h => h1 (Or.inr (lower_iff.mp h)))]
      rw [emitChar_ph, emitChar_ph, emitChars_full]
      simp [again, ph, clearBuilder, Phase.held]
  | esc =>
    right
    cases k <;> simp only [Phase.state, Option.some.injEq, reduceCtorEq] at hst
    subst hst
    by_cases h1 : c = '-'
    · left
      subst h1
      refine ⟨.scriptEscapeStartDash, .escDash, some (char '-'), tmp, o ++ [char '-'], rfl, trivial,
        ?_, by simp [Phase.held], rfl, by decide⟩
      show (emitChar E '-' _, false) = _
      rw [emitChar_ph]; rfl
    · right; right; right
      refine ⟨tok, tmp, ?_⟩
      show onScriptEscapeStart .scriptEscapeStartDash E _ c false = _
      unfold onScriptEscapeStart
      rw [if_neg h1]
      simp [again, ph, textState, Phase.held]
  | escDash =>
    right; right; right
    cases k <;> simp only [Phase.state, Option.some.injEq, reduceCtorEq] at hst
    subst hst
    by_cases h1 : c = '-'
    · exact Or.inl ⟨rfl, h1⟩
    · right
      refine ⟨tok, tmp, ?_⟩
      show onScriptEscapeStart .scriptEscapedDashDash E _ c false = _
      unfold onScriptEscapeStart
      rw [if_neg h1]
      simp [again, ph, textState, Phase.held]

/-! ### The whole text -/

/-- What reading the text does not touch. -/
structure Base (s t : Lex) : Prop where
  last : t.lastStartTag = s.lastStartTag
  peek : t.peek = s.peek
  fault : t.fault = s.fault

theorem Base.refl (s : Lex) : Base s s := ⟨rfl, rfl, rfl⟩
theorem Base.trans {a b c : Lex} (h : Base a b) (g : Base b c) : Base a c :=
  ⟨g.last.trans h.last, g.peek.trans h.peek, g.fault.trans h.fault⟩

theorem text_state {k : Content} (hk : k ≠ .plaintext) : Phase.text.state k = some (textState k) := by
  cases k <;> first | rfl | exact absurd rfl hk

theorem phase_kind {p : Phase} {k : Content} {st : State} (h : p.state k = some st) : k ≠ .plaintext := by
  intro e; subst e; cases p <;> cases h

/-- One character of the text. -/
theorem raw_char (E : Env) {s : Lex} {k : Content} {st : State} {p : Phase}
    (hst : p.state k = some st) (hp : p.Ok) {tok : Option Token} {tmp : Str} {o : List Token}
    {t : Token} {name : Str} (hlast : s.lastStartTag = some t) (hname : t.name = some (lower name))
    {c : Char} (h0 : c ≠ '\x00') (hamp : k = .rcdata → c ≠ '&') {x y d : Str} (hd : d = x ++ c :: y)
    (hx : p.tail <:+ x) (hcl : ¬ Closes name d)
    (hesc : k = .scriptData → ∀ a b, d ≠ a ++ ['<', '!', '-', '-'] ++ b) :
    ∃ st' p' tok' tmp' o', p'.state k = some st' ∧ p'.Ok ∧ p'.tail <:+ x ++ [c] ∧
      consume E (ph s st p tok tmp o) c false = ph s st' p' tok' tmp' o' ∧
      o ++ (p.held ++ [c]).map char = o' ++ p'.held.map char := by
  have hk := phase_kind hst
  have hgo : Goes p name c := by
    cases p <;> try trivial
    rename_i w
    intro e hs
    obtain ⟨a, ha⟩ := hx
    refine hcl ⟨a, w, c, y, ?_, e, hs⟩
    rw [hd, ← ha]
    simp [Phase.tail]
  have suffix : ∀ {q : Phase}, q.tail <:+ [c] → q.tail <:+ x ++ [c] :=
    fun h => h.trans (List.suffix_append _ _)
  rcases leave_step E (s := s) (tok := tok) (tmp := tmp) (o := o) hst hp hlast hname hgo with
    h | h | h | h | h
  · subst h
    obtain ⟨st', p', tok', o', h1, h2, h3, h4, h5, _⟩ :=
      text_step E (s := s) (tok := tok) (tmp := tmp) (o := o) hst h0 hamp
    exact ⟨st', p', tok', tmp, o', h1, h2, suffix h5, consume_stay h3, h4⟩
  · obtain ⟨st', p', tok', tmp', o', h1, h2, h3, h4, h5, _⟩ := h
    refine ⟨st', p', tok', tmp', o', h1, h2, ?_, consume_stay h3, h4⟩
    rw [h5]
    obtain ⟨a, ha⟩ := hx
    exact ⟨a, by rw [← ha]; simp⟩
  · obtain ⟨r, rfl, hl, rfl, st', h1, m, h2, h3⟩ := h
    refine ⟨st', .name [c], tok, tmp, o, h1, ⟨by simp, by simpa using hl⟩, ?_,
      consume_reads (.again h2 (.stay h3)), by simp [Phase.held]⟩
    obtain ⟨a, ha⟩ := hx
    exact ⟨a, by rw [← ha]; simp [Phase.tail]⟩
  · obtain ⟨rfl, rfl⟩ := h
    exfalso
    obtain ⟨a, ha⟩ := hx
    refine hesc ?_ a y ?_
    · cases k <;> first | rfl | (cases hst)
    · rw [hd, ← ha]; simp [Phase.tail]
  · obtain ⟨tok1, tmp1, h1⟩ := h
    obtain ⟨st', p', tok', o', g1, g2, g3, g4, g5, _⟩ :=
      text_step E (s := s) (tok := tok1) (tmp := tmp1) (o := o ++ p.held.map char) (text_state hk) h0 hamp
    refine ⟨st', p', tok', tmp1, o', g1, g2, suffix g5, consume_reads (.again h1 (.stay g3)), ?_⟩
    rw [← g4]; simp

/-- A reference in the text. -/
theorem raw_ref {E : Env} (hE : E.ents = entities) {s : Lex} {st : State} {p : Phase}
    (hst : p.state .rcdata = some st) (hp : p.Ok) {tok : Option Token} {tmp : Str} {o : List Token}
    {t : Token} {name : Str} (hlast : s.lastStartTag = some t) (hname : t.name = some (lower name))
    {q : Piece} (hq : q.Ok .title) {r : Str} (hr : q.src = '&' :: r) (w : Str) :
    ∃ s' tok' tmp' o', fin E (ph s st p tok tmp o) (q.src ++ w) = fin E (ph s' .rcdata .text tok' tmp' o') w ∧
      o ++ (p.held ++ q.means).map char = o' ∧ Base s s' := by
  have hgo : Goes p name '&' := by
    cases p <;> try trivial
    intro _ h
    exact absurd h (by unfold Space; decide)
  have key : ∃ tok' tmp', fin E (ph s st p tok tmp o) (q.src ++ w) =
      fin E (ph s .rcdata .text tok' tmp' (o ++ p.held.map char)) (q.src ++ w) := by
    rcases leave_step E (s := s) (tok := tok) (tmp := tmp) (o := o) hst hp hlast hname hgo with
      h | h | h | h | h
    · subst h
      simp only [Phase.state, Option.some.injEq] at hst
      subst hst
      exact ⟨tok, tmp, by simp [Phase.held]⟩
    · obtain ⟨_, _, _, _, _, _, _, _, _, _, h⟩ := h
      exact absurd rfl h
    · obtain ⟨_, _, h, _⟩ := h
      exact absurd (alpha_iff.mpr h) (by decide)
    · exact absurd h.2 (by decide)
    · obtain ⟨tok1, tmp1, h1⟩ := h
      refine ⟨tok1, tmp1, ?_⟩
      rw [hr]
      exact fin_again E _ h1 (Or.inr (Or.inl rfl))
  obtain ⟨tok1, tmp1, e1⟩ := key
  obtain ⟨u, e2, ret, tmp2, cur, matched, hu⟩ := piece_fin hE (p := .title)
    (s := ph s .rcdata .text tok1 tmp1 (o ++ p.held.map char)) Placed.title hq w
  rw [put_text (Or.inr rfl), emitChars_full] at hu
  subst hu
  refine ⟨{ s with ret := ret, cur := cur, matched := matched }, lastTok q.means tok1, tmp2,
    o ++ p.held.map char ++ q.means.map char, ?_, by simp, ⟨rfl, rfl, rfl⟩⟩
  rw [e1, e2]
  rfl

theorem piece_src (q : Piece) : (∃ c, q = .char c) ∨ ∃ r, q.src = '&' :: r := by
  cases q with
  | char c => exact Or.inl ⟨c, rfl⟩
  | amp c => exact Or.inr ⟨_, rfl⟩
  | dec ds => exact Or.inr ⟨_, rfl⟩
  | hex x ds => exact Or.inr ⟨_, rfl⟩
  | named r => exact Or.inr ⟨_, rfl⟩
  | legacy r c => exact Or.inr ⟨_, rfl⟩
  | query w => exact Or.inr ⟨_, rfl⟩

/-- The whole text. -/
theorem raw_text {E : Env} (hE : E.ents = entities) {k : Content} {t : Token} {name d : Str}
    (hname : t.name = some (lower name)) (hcl : ¬ Closes name d)
    (hesc : k = .scriptData → ∀ a b, d ≠ a ++ ['<', '!', '-', '-'] ++ b) (w : Str) :
    ∀ (bs : List Bit) {s : Lex} {st : State} {p : Phase} {tok : Option Token} {tmp : Str}
      {o : List Token} {x : Str}, s.lastStartTag = some t → (∀ b ∈ bs, b.Ok k) →
      p.state k = some st → p.Ok → p.tail <:+ x → d = x ++ bitSrcs bs →
      ∃ s' st' p' tok' tmp' o', fin E (ph s st p tok tmp o) (bitSrcs bs ++ w) =
          fin E (ph s' st' p' tok' tmp' o') w ∧
        p'.state k = some st' ∧ p'.Ok ∧
        o ++ (p.held ++ bitMeanings bs).map char = o' ++ p'.held.map char ∧ Base s s'
  | [], s, st, p, tok, tmp, o, x, _, _, hst, hp, _, _ =>
    ⟨s, st, p, tok, tmp, o, rfl, hst, hp, by simp [bitMeanings], Base.refl s⟩
  | b :: bs, s, st, p, tok, tmp, o, x, hlast, hok, hst, hp, hx, hd => by
    have hchar : ∀ c, b.src = [c] → b.means = [c] → c ≠ '\x00' → (k = .rcdata → c ≠ '&') →
        ∃ s' st' p' tok' tmp' o', fin E (ph s st p tok tmp o) (bitSrcs (b :: bs) ++ w) =
          fin E (ph s' st' p' tok' tmp' o') w ∧
        p'.state k = some st' ∧ p'.Ok ∧
        o ++ (p.held ++ bitMeanings (b :: bs)).map char = o' ++ p'.held.map char ∧ Base s s' := by
      intro c e1 e2 h0 hamp
      have e3 : bitSrcs (b :: bs) = c :: bitSrcs bs := by simp [bitSrcs, e1]
      have e4 : bitMeanings (b :: bs) = c :: bitMeanings bs := by simp [bitMeanings, e2]
      obtain ⟨st1, p1, tok1, tmp1, o1, g1, g2, g3, g4, g5⟩ := raw_char E (tok := tok) (tmp := tmp)
        (o := o) hst hp hlast hname h0 hamp (y := bitSrcs bs) (by rw [hd, e3]) hx hcl hesc
      obtain ⟨s', st', p', tok', tmp', o', f1, f2, f3, f4, f5⟩ := raw_text hE hname hcl hesc w bs
        (tok := tok1) (tmp := tmp1) (o := o1)
        hlast (fun b hb => hok b (by simp [hb])) g1 g2 g3 (by rw [hd, e3]; simp)
      refine ⟨s', st', p', tok', tmp', o', ?_, f2, f3, ?_, f5⟩
      · rw [e3]
        show fin E _ (c :: (bitSrcs bs ++ w)) = _
        rw [fin_cons, g4, f1]
      · rw [← f4, e4]
        have := congrArg (· ++ (bitMeanings bs).map char) g5
        simpa using this
    cases b with
    | ch c =>
      have := hok (.ch c) (by simp)
      exact hchar c rfl rfl this.1 this.2
    | ref q =>
      obtain ⟨hk, hq⟩ := hok (.ref q) (by simp)
      rcases piece_src q with ⟨c, rfl⟩ | ⟨r, hr⟩
      · have hq : ¬ (c = '&' ∨ c = '<' ∨ c = '\x00') := hq
        exact hchar c rfl rfl (fun h => hq (Or.inr (Or.inr h))) (fun _ h => hq (Or.inl h))
      · subst hk
        obtain ⟨s1, tok1, tmp1, o1, g1, g2, g3⟩ := raw_ref hE (tok := tok) (tmp := tmp) (o := o)
          hst hp hlast hname hq hr (bitSrcs bs ++ w)
        obtain ⟨s', st', p', tok', tmp', o', f1, f2, f3, f4, f5⟩ := raw_text hE hname hcl hesc w bs
          (tok := tok1) (tmp := tmp1) (o := o1) (st := .rcdata) (p := .text) (x := x ++ q.src)
          (g3.last.trans hlast) (fun b hb => hok b (by simp [hb])) rfl trivial List.nil_suffix
          (by rw [hd]; simp [bitSrcs, Bit.src])
        refine ⟨s', st', p', tok', tmp', o', ?_, f2, f3, ?_, g3.trans f5⟩
        · rw [show bitSrcs (Bit.ref q :: bs) ++ w = q.src ++ (bitSrcs bs ++ w) by
            simp [bitSrcs, Bit.src], g1, f1]
        · rw [← f4, ← g2]
          simp [bitMeanings, Bit.means, Phase.held]

/-! ### The end tag -/

theorem lt_fin (E : Env) {s : Lex} {k : Content} {st : State} {p : Phase}
    (hst : p.state k = some st) (hp : p.Ok) {tok : Option Token} {tmp : Str} {o : List Token}
    {t : Token} {name : Str} (hlast : s.lastStartTag = some t) (hname : t.name = some (lower name))
    (w : Str) :
    ∃ st' tok' tmp', Phase.lt.state k = some st' ∧ fin E (ph s st p tok tmp o) ('<' :: w) =
      fin E (ph s st' .lt tok' tmp' (o ++ p.held.map char)) w := by
  have hk := phase_kind hst
  have hlt : ∀ tok tmp o, ∃ st', Phase.lt.state k = some st' ∧
      step E (ph s (textState k) .text tok tmp o) '<' false = (ph s st' .lt tok tmp o, false) := by
    intro tok tmp o
    cases k <;> first | exact ⟨_, rfl, rfl⟩ | exact absurd rfl hk
  have hgo : Goes p name '<' := by
    cases p <;> try trivial
    intro _ h
    exact absurd h (by unfold Space; decide)
  by_cases hpt : p = .text
  · subst hpt
    rw [text_state hk, Option.some.injEq] at hst
    subst hst
    obtain ⟨st', h1, h2⟩ := hlt tok tmp o
    exact ⟨st', tok, tmp, h1, by rw [fin_stay E _ h2]; simp [Phase.held]⟩
  rcases leave_step E (s := s) (tok := tok) (tmp := tmp) (o := o) hst hp hlast hname hgo with
    h | h | h | h | h
  · exact absurd h hpt
  · obtain ⟨st', p', _, _, _, _, hok, h3, _, h5, _⟩ := h
    exfalso
    cases p <;> cases p' <;> simp [Phase.tail] at h5 <;> first | exact hpt rfl | skip
    · subst h5
      have := hok.2 '<' (by simp)
      exact absurd (alpha_iff.mpr this) (by decide)
    · subst h5
      have := hok.2 '<' (by simp)
      exact absurd (alpha_iff.mpr this) (by decide)
  · obtain ⟨_, _, h, _⟩ := h
    exact absurd (alpha_iff.mpr h) (by decide)
  · exact absurd h.2 (by decide)
  · obtain ⟨tok1, tmp1, h1⟩ := h
    obtain ⟨st', h2, h3⟩ := hlt tok1 tmp1 (o ++ p.held.map char)
    refine ⟨st', tok1, tmp1, h2, ?_⟩
    rw [fin_cons, consume_reads (.again h1 (.stay h3))]

theorem open_fin (E : Env) {s : Lex} {k : Content} {st : State} (hst : Phase.lt.state k = some st)
    {tok : Option Token} {tmp : Str} {o : List Token} (w : Str) :
    ∃ st', Phase.open_.state k = some st' ∧ fin E (ph s st .lt tok tmp o) ('/' :: w) =
      fin E (ph s st' .open_ tok tmp o) w := by
  cases k <;> simp only [Phase.state, Option.some.injEq, reduceCtorEq] at hst <;> subst hst <;>
    exact ⟨_, rfl, fin_stay E _ rfl⟩

theorem letter_goes {c : Char} (h : Upper c ∨ Lower c) : ¬ (Space c ∨ c = '/' ∨ c = '>') := by
  have ha := alpha_iff.mpr h
  rintro ((e | e | e | e) | e | e) <;> subst e <;> exact absurd ha (by decide)

theorem letters_more (E : Env) {s : Lex} {k : Content} {st : State} {tok : Option Token} {tmp : Str}
    {o : List Token} {t : Token} {name : Str} (hlast : s.lastStartTag = some t)
    (hname : t.name = some (lower name)) (w : Str) :
    ∀ (n a : Str), Letters a → (Phase.name a).state k = some st → (∀ c ∈ n, Upper c ∨ Lower c) →
      fin E (ph s st (.name a) tok tmp o) (n ++ w) = fin E (ph s st (.name (a ++ n)) tok tmp o) w
  | [], a, _, _, _ => by simp
  | c :: n, a, ha, hst, hn => by
    have hc := hn c (by simp)
    have hgo : Goes (.name a) name c := fun _ => letter_goes hc
    have key : step E (ph s st (.name a) tok tmp o) c false = (ph s st (.name (a ++ [c])) tok tmp o, false) := by
      rcases leave_step E (s := s) (tok := tok) (tmp := tmp) (o := o) hst ha hlast hname hgo with
        h | h | h | h | h
      · cases h
      · obtain ⟨st', p', tok', tmp', o', h1, _, h3, h4, h5, _⟩ := h
        cases p' <;> simp [Phase.tail] at h5
        subst h5
        rename_i b
        have e1 : st' = st := by
          cases k <;> simp only [Phase.state, Option.some.injEq, reduceCtorEq] at hst h1 <;> rw [← hst, ← h1]
        have e2 : o' = o := by
          have := h4
          simp only [Phase.held] at this
          exact (List.append_cancel_right this).symm
        rw [h3, e1, e2]
        rfl
      · obtain ⟨_, h, _⟩ := h
        cases h
      · cases h.1
      · obtain ⟨tok1, tmp1, h1⟩ := h
        have h2 := congrArg Prod.snd h1
        have : ∃ back, step E (ph s st (.name a) tok tmp o) c false =
            onRawEndTagName back E (ph s st (.name a) tok tmp o) c false := by
          cases k <;> simp only [Phase.state, Option.some.injEq, reduceCtorEq] at hst <;> subst hst <;>
            exact ⟨_, rfl⟩
        obtain ⟨back, e⟩ := this
        rw [e] at h2
        exfalso
        unfold onRawEndTagName at h2
        rcases hc with hc | hc
        · rw [if_pos (upper_iff.mpr hc)] at h2
          revert h2
          repeat' split
          all_goals (intro h; cases h)
        · rw [if_pos (lower_iff.mpr hc)] at h2
          revert h2
          repeat' split
          all_goals (intro h; cases h)
    show fin E _ (c :: (n ++ w)) = _
    rw [fin_stay E _ key, letters_more E (k := k) hlast hname w n (a ++ [c]) ⟨by simp, ?_⟩ ?_
      (fun x hx => hn x (by simp [hx]))]
    · simp
    · intro x hx
      rcases List.mem_append.mp hx with hx | hx
      · exact ha.2 x hx
      · rw [List.mem_singleton.mp hx]; exact hc
    · cases k <;> simp only [Phase.state, reduceCtorEq] at hst ⊢ <;> exact hst

theorem letters_fin (E : Env) {s : Lex} {k : Content} {st : State} (hst : Phase.open_.state k = some st)
    {tok : Option Token} {tmp : Str}
    {o : List Token} {t : Token} {name : Str} (hlast : s.lastStartTag = some t)
    (hname : t.name = some (lower name)) {n : Str} (hn : Letters n) (w : Str) :
    ∃ st', (Phase.name n).state k = some st' ∧
      fin E (ph s st .open_ tok tmp o) (n ++ w) = fin E (ph s st' (.name n) tok tmp o) w := by
  cases n with
  | nil => exact absurd rfl hn.1
  | cons c n =>
    have hc := hn.2 c (by simp)
    rcases leave_step E (s := s) (p := .open_) (tok := tok) (tmp := tmp) (o := o) hst trivial hlast hname
      (c := c) trivial with h | h | h | h | h
    · cases h
    · obtain ⟨st', p', tok', tmp', o', h1, _, h3, h4, h5, _⟩ := h
      exfalso
      have h6 := congrArg Prod.snd h3
      have : ∃ a b, step E (ph s st .open_ tok tmp o) c false =
          onRawEndTagOpen a b E (ph s st .open_ tok tmp o) c false := by
        cases k <;> simp only [Phase.state, Option.some.injEq, reduceCtorEq] at hst <;> subst hst <;>
          exact ⟨_, _, rfl⟩
      obtain ⟨a, b, e⟩ := this
      rw [e] at h6
      unfold onRawEndTagOpen at h6
      rw [if_pos (alpha_iff.mpr hc)] at h6
      cases h6
    · obtain ⟨r, _, _, rfl, st', h1, m, h2, h3⟩ := h
      refine ⟨st', by cases k <;> exact h1, ?_⟩
      show fin E _ (c :: (n ++ w)) = _
      rw [fin_cons, consume_reads (.again h2 (.stay h3)),
        letters_more E (k := k) hlast hname w n [c] ⟨by simp, by simpa using hc⟩ h1 (fun x hx => hn.2 x (by simp [hx]))]
      rfl
    · cases h.1
    · obtain ⟨tok1, tmp1, h1⟩ := h
      exfalso
      have h6 := congrArg Prod.fst h1
      have : ∃ a b, a ≠ .rcdata ∧ a ≠ .rawtext ∧ a ≠ .scriptData ∧ step E (ph s st .open_ tok tmp o) c false =
          onRawEndTagOpen a b E (ph s st .open_ tok tmp o) c false := by
        cases k <;> simp only [Phase.state, Option.some.injEq, reduceCtorEq] at hst <;> subst hst <;>
          exact ⟨_, _, by decide, by decide, by decide, rfl⟩
      obtain ⟨a, b, g1, g2, g3, e⟩ := this
      rw [e] at h6
      unfold onRawEndTagOpen at h6
      rw [if_pos (alpha_iff.mpr hc)] at h6
      have h7 : a = textState k := congrArg Lex.state h6
      cases k <;> simp only [textState] at h7 <;> first | exact g1 h7 | exact g2 h7 | exact g3 h7

/-- The name of the end tag is complete. -/
theorem rawName_end (E : Env) {s : Lex} {k : Content} {st : State} {n : Str}
    (hst : (Phase.name n).state k = some st) {tok : Option Token} {tmp : Str} {o : List Token}
    {t : Token} (hlast : s.lastStartTag = some t) (hname : t.name = some (lower n))
    {c : Char} (hc : Ends c) (w : Str) :
    fin E (ph s st (.name n) tok tmp o) (c :: w) =
      fin E (tagSt { s with temp := n, out := o } .beforeAttributeName
        { kind := .endTag, name := some (lower n) } s.attr []) (c :: w) := by
  have hap : isAppropriate (ph s st (.name n) tok tmp o) = true := by
    show (match s.lastStartTag with | none => false | some t => t.name == some (lower n)) = true
    rw [hlast]
    simp [hname]
  have hback : ∃ back, step E (ph s st (.name n) tok tmp o) c false =
      onRawEndTagName back E (ph s st (.name n) tok tmp o) c false := by
    cases k <;> simp only [Phase.state, Option.some.injEq, reduceCtorEq] at hst <;> subst hst <;>
      exact ⟨_, rfl⟩
  obtain ⟨back, e⟩ := hback
  rw [fin_cons, fin_cons]
  congr 1
  rcases hc with hc | rfl | rfl
  · have hs := space_iff.mpr hc
    rw [consume_stay (s' := tagSt { s with temp := n, out := o } .beforeAttributeName
        { kind := .endTag, name := some (lower n) } s.attr []),
      consume_stay (s' := tagSt { s with temp := n, out := o } .beforeAttributeName
        { kind := .endTag, name := some (lower n) } s.attr [])]
    · show onBeforeAttributeName E _ c false = _
      unfold onBeforeAttributeName
      rw [if_pos hs]; rfl
    · rw [e]
      unfold onRawEndTagName
      rw [if_pos (by rw [hs, hap]; rfl)]
      rfl
  · rw [consume_stay (s' := tagSt { s with temp := n, out := o } .selfClosingStartTag
        { kind := .endTag, name := some (lower n) } s.attr [])]
    · rfl
    · rw [e]
      unfold onRawEndTagName
      rw [if_neg (by simp [isSpace]), if_pos (by rw [hap]; rfl)]
      rfl
  · rw [consume_stay (s' := emit E (tagSt { s with temp := n, out := o } .data
        { kind := .endTag, name := some (lower n) } s.attr []))]
    · rfl
    · rw [e]
      unfold onRawEndTagName
      rw [if_neg (by simp [isSpace]), if_neg (by simp), if_pos (by rw [hap]; rfl)]
      rfl

end Verif.Html
