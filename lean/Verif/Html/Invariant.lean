import Verif.Html.Spec
/-
The invariant of the tokenizer: what the buffers hold in each state.
-/
namespace Verif.Html
open Spec

/-! ### The helpers, as plain updates -/

theorem emitChar_eq (E : Env) (c : Char) (s : Lex) :
    emitChar E c s = { s with token := some { kind := .character, rune := c }, out := s.out ++ [{ kind := .character, rune := c }] } := by
  simp [emitChar, emit, stateAfter]

theorem emitEof_eq (E : Env) (s : Lex) :
    emitEof E s = { s with token := some { kind := .endOfFile }, out := s.out ++ [{ kind := .endOfFile }] } := by
  simp [emitEof, emit, begin_, stateAfter]

/-- A character token. -/
def chr (c : Char) : Token := { kind := .character, rune := c }

theorem emitChars_eq (E : Env) : ∀ (cs : Str) (s : Lex),
    ∃ tok, emitChars E cs s = { s with token := tok, out := s.out ++ cs.map chr } ∧
      (cs = [] → tok = s.token)
  | [], s => ⟨s.token, by simp [emitChars], fun _ => rfl⟩
  | c :: cs, s => by
    obtain ⟨tok, h, _⟩ := emitChars_eq E cs (emitChar E c s)
    refine ⟨tok, ?_, by simp⟩
    show emitChars E cs (emitChar E c s) = _
    rw [h, emitChar_eq]
    simp [chr]

/-! ### Classes of states -/

inductive Cls | free | name | rawName | gap | attrName | attrDone | value | comment | doctype
  | doctypeText | ref | commentNew
deriving DecidableEq

def cls : State → Cls
  | .tagName => .name
  | .rcdataEndTagName | .rawtextEndTagName | .scriptEndTagName | .scriptEscapedEndTagName => .rawName
  | .beforeAttributeName | .selfClosingStartTag | .afterValueQuoted => .gap
  | .attributeName => .attrName
  | .afterAttributeName | .beforeAttributeValue => .attrDone
  | .valueDoubleQuoted | .valueSingleQuoted | .valueUnquoted => .value
  | .commentStart => .commentNew
  | .bogusComment | .commentStartDash | .comment | .commentLessThan
  | .commentLessThanBang | .commentLessThanBangDash | .commentLessThanBangDashDash
  | .commentEndDash | .commentEnd | .commentEndBang => .comment
  | .afterDoctypeName | .afterDoctypePublicKeyword | .beforeDoctypePublic | .afterDoctypePublic
  | .betweenDoctypeIdentifiers | .afterDoctypeSystemKeyword | .beforeDoctypeSystem
  | .afterDoctypeSystem | .bogusDoctype => .doctype
  | .doctypeName | .doctypePublicDouble | .doctypePublicSingle | .doctypeSystemDouble
  | .doctypeSystemSingle => .doctypeText
  | .characterReference | .namedReference | .ambiguousAmpersand | .numericReference
  | .hexReferenceStart | .decReferenceStart | .hexReference | .decReference
  | .numericReferenceEnd => .ref
  | _ => .free

def IsTag (t : Token) : Prop := t.kind = .startTag ∨ t.kind = .endTag

def NameSoFar (b : Str) : Prop := b = [] ∨ TagName b
def AttrSoFar (b : Str) : Prop := b = [] ∨ AttrName b

/-- A tag whose name is being read. -/
def NewTag (o : Option Token) : Prop := ∃ t, o = some t ∧ IsTag t ∧ t.attrs = []

/-- A tag whose attributes are being read. -/
def TagTok (o : Option Token) : Prop := ∃ t, o = some t ∧ IsTag t ∧ GoodTag t

/-- The current attribute, if it is set, is there. -/
def HasAttr (o : Option Token) (attr : Bool) : Prop :=
  ∀ t, o = some t → attr = true → t.attrs ≠ []

def KindTok (k : Kind) (o : Option Token) : Prop := ∃ t, o = some t ∧ t.kind = k

/-- A tag whose last attribute was begun but has no name yet. -/
def OpenAttr (o : Option Token) : Prop :=
  ∃ t pre, o = some t ∧ IsTag t ∧ t.attrs = pre ++ [({} : Attr)] ∧ GoodTag { t with attrs := pre }

def isValue (st : State) : Prop :=
  st = .valueDoubleQuoted ∨ st = .valueSingleQuoted ∨ st = .valueUnquoted

def Loc (k : Cls) (tok : Option Token) (b : Str) (attr : Bool) (ret : State) : Prop :=
  match k with
  | .free => b = []
  | .name => NewTag tok ∧ TagName b
  | .rawName => NewTag tok ∧ TagName b
  | .gap => TagTok tok ∧ b = []
  | .attrName => OpenAttr tok ∧ attr = true ∧ AttrName b
  | .attrDone => TagTok tok ∧ b = [] ∧ HasAttr tok attr
  | .value => TagTok tok ∧ HasAttr tok attr
  | .comment => KindTok .comment tok
  | .commentNew => KindTok .comment tok ∧ b = []
  | .doctype => KindTok .doctype tok ∧ b = []
  | .doctypeText => KindTok .doctype tok
  | .ref => ((ret = .data ∨ ret = .rcdata) ∧ b = []) ∨ (isValue ret ∧ TagTok tok ∧ HasAttr tok attr)

/-- What was given to the sink, and the faults. -/
structure Fine (out : List Token) (fault : Option Fault) : Prop where
  tags : GoodTags out
  notEnd : ∀ t ∈ out, t.kind ≠ .endOfFile
  fault : fault = none ∨ fault = some .outOfBounds

/-- The tokenizer between two characters. -/
structure Inv (s : Lex) : Prop where
  fine : Fine s.out s.fault
  loc : Loc (cls s.state) s.token s.builder s.attr s.ret

/-- A character that ends the name of an attribute. -/
def stops (c : Char) (eof : Bool) : Bool := isSpace c || c == '/' || c == '>' || eof

/-- `Loc` while the character `c` is still to be read. -/
def PLoc (st : State) (c : Char) (eof : Bool) (tok : Option Token) (b : Str) (attr : Bool)
    (ret : State) : Prop :=
  match st with
  | .tagName | .rcdataEndTagName | .rawtextEndTagName | .scriptEndTagName
  | .scriptEscapedEndTagName =>
    NewTag tok ∧ NameSoFar b ∧ (b ≠ [] ∨ isAlpha c = true)
  | .attributeName =>
    OpenAttr tok ∧ attr = true ∧ AttrSoFar b ∧ (b ≠ [] ∨ (stops c eof = false ∧ c ≠ '='))
  | .afterAttributeName =>
    TagTok tok ∧ b = [] ∧ (HasAttr tok attr ∨ c = '/' ∨ c = '>' ∨ eof = true)
  | st => Loc (cls st) tok b attr ret

structure Pend (s : Lex) (c : Char) (eof : Bool) : Prop where
  fine : Fine s.out s.fault
  loc : PLoc s.state c eof s.token s.builder s.attr s.ret

/-- The tokenizer after the end of the input. -/
structure Done (s : Lex) : Prop where
  tags : GoodTags s.out
  ends : EndsOnce s.out
  fault : s.fault = none ∨ s.fault = some .outOfBounds

def rank (st : State) (c : Char) (eof : Bool) : Nat :=
  match st with
  | .attributeName => if stops c eof then 1 else 0
  | .afterAttributeName => if stops c eof then 0 else 1
  | .afterValueQuoted | .selfClosingStartTag => 2
  | .beforeAttributeName => 1
  | .scriptEscapedLessThan | .rcdataEndTagOpen | .rawtextEndTagOpen | .scriptEndTagOpen
  | .scriptEscapedEndTagOpen | .commentLessThanBangDash | .commentLessThanBangDashDash => 2
  | .characterReference => 3
  | .namedReference | .hexReference | .decReference => 2
  | .hexReferenceStart | .decReferenceStart => 3
  | .numericReference => 4
  | .data | .rcdata | .rawtext | .scriptData | .plaintext | .tagName | .scriptEscaped
  | .scriptDoubleEscaped | .comment | .bogusComment | .bogusDoctype | .beforeDoctypeName
  | .cdataSection | .valueDoubleQuoted | .valueSingleQuoted | .valueUnquoted => 0
  | _ => 1

/-- What a step must do: leave the tokenizer ready to read the character again, in a state of
smaller rank; or be finished with it. -/
def Next (k : Nat) (r : Step) (c : Char) (eof : Bool) : Prop :=
  if r.2 then Pend r.1 c eof ∧ rank r.1.state c eof < k
  else if eof then Done r.1 else Inv r.1

theorem Next.of_again {k : Nat} {s : Lex} {st : State} {c : Char} {eof : Bool}
    (hf : Fine s.out s.fault) (hl : PLoc st c eof s.token s.builder s.attr s.ret)
    (hr : rank st c eof < k) : Next k (again st s) c eof := by
  simp only [Next, Verif.Html.again, if_true]
  exact ⟨⟨hf, hl⟩, hr⟩

theorem Next.of_stay {k : Nat} {s : Lex} {c : Char} (h : Inv s) : Next k (stay s) c false := by
  simpa [Next, Verif.Html.stay] using h

theorem Next.of_done {k : Nat} {s : Lex} {c : Char} (h : Done s) : Next k (stay s) c true := by
  simpa [Next, Verif.Html.stay] using h

theorem Fine.chars {out : List Token} {f : Option Fault} (h : Fine out f) (cs : Str) :
    Fine (out ++ cs.map chr) f := by
  refine ⟨?_, ?_, h.fault⟩
  · intro t ht hk
    rcases List.mem_append.mp ht with h' | h'
    · exact h.tags t h' hk
    · obtain ⟨c, _, rfl⟩ := List.mem_map.mp h'
      rcases hk with hk | hk <;> simp [chr] at hk
  · intro t ht
    rcases List.mem_append.mp ht with h' | h'
    · exact h.notEnd t h'
    · obtain ⟨c, _, rfl⟩ := List.mem_map.mp h'
      simp [chr]

theorem Fine.one {out : List Token} {f : Option Fault} (h : Fine out f) (c : Char) :
    Fine (out ++ [{ kind := .character, rune := c }]) f := h.chars [c]

theorem Fine.two {out : List Token} {f : Option Fault} (h : Fine out f) (c d : Char) :
    Fine (out ++ [{ kind := .character, rune := c }, { kind := .character, rune := d }]) f :=
  h.chars [c, d]

/-- A token that is no tag and no end of file. -/
theorem Fine.other {out : List Token} {f : Option Fault} (h : Fine out f) {t : Token}
    (hk : t.kind = .comment ∨ t.kind = .doctype) : Fine (out ++ [t]) f := by
  refine ⟨?_, ?_, h.fault⟩
  · intro u hu hku
    rcases List.mem_append.mp hu with h' | h'
    · exact h.tags u h' hku
    · rw [List.mem_singleton.mp h'] at hku
      rcases hk with hk | hk <;> rw [hk] at hku <;> rcases hku with e | e <;> cases e
  · intro u hu
    rcases List.mem_append.mp hu with h' | h'
    · exact h.notEnd u h'
    · rw [List.mem_singleton.mp h']; rcases hk with hk | hk <;> rw [hk] <;> decide

theorem Fine.tag {out : List Token} {f : Option Fault} (h : Fine out f) {t : Token}
    (hk : IsTag t) (hg : GoodTag t) : Fine (out ++ [t]) f := by
  refine ⟨?_, ?_, h.fault⟩
  · intro u hu hku
    rcases List.mem_append.mp hu with h' | h'
    · exact h.tags u h' hku
    · rw [List.mem_singleton.mp h']; exact hg
  · intro u hu
    rcases List.mem_append.mp hu with h' | h'
    · exact h.notEnd u h'
    · rw [List.mem_singleton.mp h']; rcases hk with hk | hk <;> rw [hk] <;> decide

theorem Fine.done {s : Lex} (h : Fine s.out s.fault) (E : Env) : Done (emitEof E s) := by
  rw [emitEof_eq]
  refine ⟨?_, ⟨s.out, _, rfl, rfl, h.notEnd⟩, h.fault⟩
  intro u hu hku
  rcases List.mem_append.mp hu with h' | h'
  · exact h.tags u h' hku
  · rw [List.mem_singleton.mp h'] at hku
    rcases hku with e | e <;> cases e

/-- Giving the sink a tag. -/
theorem emit_tag {E : Env} {s : Lex} (hf : Fine s.out s.fault) (ht : TagTok s.token)
    (hb : s.builder = []) (hs : s.state = .data) : Inv (emit E s) := by
  obtain ⟨t, ht, hk, hg⟩ := ht
  simp only [emit, ht]
  refine ⟨hf.tag hk hg, ?_⟩
  simp only [stateAfter, hs]
  rcases hk with hk | hk
  · simp only [hk, if_true]
    cases E.sink (s.out ++ [t]) with
    | none => exact hb
    | some c => cases c <;> exact hb
  · have : t.kind ≠ .startTag := by rw [hk]; decide
    simp only [this, if_false]
    exact hb

/-- Giving the sink a comment or a document type. -/
theorem emit_other {E : Env} {s : Lex} {k : Kind} (hf : Fine s.out s.fault)
    (ht : KindTok k s.token) (hk : k = .comment ∨ k = .doctype) :
    Fine (emit E s).out (emit E s).fault ∧ (emit E s).state = s.state ∧
      (emit E s).builder = s.builder := by
  obtain ⟨t, ht, rfl⟩ := ht
  simp only [emit, ht, stateAfter]
  have : t.kind ≠ .startTag := by rcases hk with hk | hk <;> rw [hk] <;> decide
  simp only [this, if_false]
  exact ⟨hf.other hk, trivial, trivial⟩

theorem emit_other_inv {E : Env} {s : Lex} {k : Kind} (hf : Fine s.out s.fault)
    (ht : KindTok k s.token) (hk : k = .comment ∨ k = .doctype) (hb : s.builder = [])
    (hs : s.state = .data) : Inv (emit E s) := by
  obtain ⟨a, b, c⟩ := emit_other (E := E) hf ht hk
  refine ⟨a, ?_⟩
  rw [b, hs]
  show _ = _
  rw [c, hb]

theorem emit_other_done {E : Env} {s : Lex} {k : Kind} (hf : Fine s.out s.fault)
    (ht : KindTok k s.token) (hk : k = .comment ∨ k = .doctype) : Done (emitEof E (emit E s)) :=
  (emit_other (E := E) hf ht hk).1.done E

end Verif.Html
