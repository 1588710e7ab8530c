import Verif.Html.SafeAttr
/-
The states of comments, document types and character references keep the invariant; and with
them all states.
-/
namespace Verif.Html
open Spec

theorem takeData_keeps {s : Lex} (h : KindTok .comment s.token) :
    ∃ tok, takeData s = { s with token := tok, builder := [] } ∧ KindTok .comment tok := by
  obtain ⟨t, e, hk⟩ := h
  refine ⟨some { t with data := s.builder }, ?_, ⟨_, rfl, hk⟩⟩
  simp [takeData, onKind, e, hk, clearBuilder]

theorem quirks_keeps {s : Lex} (h : KindTok .doctype s.token) :
    ∃ tok, quirks s = { s with token := tok } ∧ KindTok .doctype tok := by
  obtain ⟨t, e, hk⟩ := h
  refine ⟨some { t with forceQuirks := true }, ?_, ⟨_, rfl, hk⟩⟩
  simp [quirks, onKind, e, hk]

theorem commitDoctype_keeps {s : Lex} (h : KindTok .doctype s.token) :
    ∃ tok, commitDoctypeName s = { s with token := tok, builder := [] } ∧
      KindTok .doctype tok := by
  obtain ⟨t, e, hk⟩ := h
  refine ⟨some { t with name := some s.builder }, ?_, ⟨_, rfl, hk⟩⟩
  simp [commitDoctypeName, onKind, e, hk, clearBuilder]

theorem takeIdent_keeps {s : Lex} (p : Bool) (h : KindTok .doctype s.token) :
    ∃ tok, takeIdent p s = { s with token := tok, builder := [] } ∧ KindTok .doctype tok := by
  obtain ⟨t, e, hk⟩ := h
  cases p
  · refine ⟨some { t with systemIdent := some s.builder }, ?_, ⟨_, rfl, hk⟩⟩
    simp [takeIdent, onKind, e, hk, clearBuilder]
  · refine ⟨some { t with publicIdent := some s.builder }, ?_, ⟨_, rfl, hk⟩⟩
    simp [takeIdent, onKind, e, hk, clearBuilder]

theorem quirksEof_done {E : Env} {s : Lex} (hf : Fine s.out s.fault)
    (h : KindTok .doctype s.token) : Done (quirksEof E s) := by
  obtain ⟨tok, e, hk⟩ := quirks_keeps h
  unfold quirksEof
  rw [e]
  exact emit_other_done (k := .doctype) hf hk (Or.inr rfl)

/-! ### Comments -/

set_option hygiene false in
/-- Takes the data of the comment in progress. -/
macro "take_data" : tactic => `(tactic| (
  obtain ⟨tok', e, hk⟩ := takeData_keeps (s := ⟨_, ret, tok, last, cur, b, temp, peek, attr, matched, out, fault⟩) hl
  rw [e]))

set_option hygiene false in
/-- The ways a state of a comment can go on. -/
macro "comment_branch" : tactic => `(tactic| first
  | contradiction
  | exact .of_stay ⟨hf, hl⟩
  | exact .of_again hf hl (by simp [rank])
  | (take_data; exact .of_stay (emit_other_inv (k := .comment) hf hk (Or.inl rfl) rfl rfl))
  | (take_data; exact .of_done (emit_other_done (k := .comment) hf hk (Or.inl rfl)))
  | exact .of_done (emit_other_done (k := .comment) hf hl (Or.inl rfl)))

set_option hygiene false in
macro "comment_state" f:ident : tactic => `(tactic| (
  begin_state
  unfold $f
  cases eof with
  | true => at_end; comment_branch
  | false =>
    repeat' split
    all_goals comment_branch))

theorem bogusComment_keeps (E : Env) : Keeps E .bogusComment onBogusComment := by
  comment_state onBogusComment
theorem commentStartDash_keeps (E : Env) : Keeps E .commentStartDash onCommentStartDash := by
  comment_state onCommentStartDash
theorem comment_keeps (E : Env) : Keeps E .comment onComment := by
  comment_state onComment
theorem commentLessThan_keeps (E : Env) : Keeps E .commentLessThan onCommentLessThan := by
  comment_state onCommentLessThan
theorem commentLessThanBang_keeps (E : Env) :
    Keeps E .commentLessThanBang onCommentLessThanBang := by
  comment_state onCommentLessThanBang
theorem commentLessThanBangDash_keeps (E : Env) :
    Keeps E .commentLessThanBangDash onCommentLessThanBangDash := by
  comment_state onCommentLessThanBangDash
theorem commentLessThanBangDashDash_keeps (E : Env) :
    Keeps E .commentLessThanBangDashDash onCommentLessThanBangDashDash := by
  begin_state
  exact .of_again hf hl (by simp [rank])
theorem commentEndDash_keeps (E : Env) : Keeps E .commentEndDash onCommentEndDash := by
  comment_state onCommentEndDash
theorem commentEnd_keeps (E : Env) : Keeps E .commentEnd onCommentEnd := by
  comment_state onCommentEnd
theorem commentEndBang_keeps (E : Env) : Keeps E .commentEndBang onCommentEndBang := by
  comment_state onCommentEndBang

theorem commentStart_keeps (E : Env) : Keeps E .commentStart onCommentStart := by
  begin_state
  obtain ⟨hk, hb⟩ := hl
  unfold onCommentStart
  cases eof with
  | true => at_end; exact .of_again hf hk (by simp [rank])
  | false =>
    split
    · exact .of_stay ⟨hf, hk⟩
    split
    · exact .of_stay (emit_other_inv (k := .comment) hf hk (Or.inl rfl) hb rfl)
    · exact .of_again hf hk (by simp [rank])

theorem markup_end (w : Str) (p : Str) (eq : Char → Char → Bool) (h : ∀ c ∈ w, eq c etx = false) :
    startWith eq w (p ++ [etx]) = .no := by
  induction w generalizing p with
  | nil => cases p <;> rfl
  | cons c w ih =>
    cases p with
    | nil => simp [startWith, h c (by simp)]
    | cons d p =>
      simp only [List.cons_append, startWith]
      split
      · exact ih p (fun x hx => h x (by simp [hx]))
      · rfl

theorem markupDeclarationOpen_keeps (E : Env) :
    Keeps E .markupDeclarationOpen onMarkupDeclarationOpen := by
  begin_state
  have hb : b = [] := hl
  unfold onMarkupDeclarationOpen
  cases eof with
  | true =>
    have hc := he rfl
    subst hc
    simp only [markup_end dashDash peek exact (by decide), markup_end doctypeWord peek eqCi (by decide),
      markup_end cdataWord peek exact (by decide), ne_eq, not_true, if_false]
    exact .of_again hf ⟨_, rfl, rfl⟩ (by simp [rank])
  | false =>
    split
    · split
      · exact .of_stay ⟨hf, hl⟩
      · exact .of_stay ⟨hf, ⟨_, rfl, rfl⟩, hl⟩
    split
    · split <;> exact .of_stay ⟨hf, hl⟩
    split
    · exact .of_stay ⟨hf, hl⟩
    · exact .of_again hf ⟨_, rfl, rfl⟩ (by simp [rank])

/-! ### Document types -/

theorem doctype_keeps (E : Env) : Keeps E .doctype onDoctype := by
  begin_state
  unfold onDoctype
  cases eof with
  | true => at_end; exact .of_done (quirksEof_done hf ⟨_, rfl, rfl⟩)
  | false =>
    repeat' split
    all_goals text_branch

theorem beforeDoctypeName_keeps (E : Env) : Keeps E .beforeDoctypeName onBeforeDoctypeName := by
  begin_state
  unfold onBeforeDoctypeName
  cases eof with
  | true => at_end; exact .of_done (quirksEof_done hf ⟨_, rfl, rfl⟩)
  | false =>
    split
    · exact .of_stay ⟨hf, hl⟩
    split
    · exact .of_stay ⟨hf, ⟨_, rfl, rfl⟩⟩
    split
    · exact .of_stay ⟨hf, ⟨_, rfl, rfl⟩⟩
    split
    · exact .of_stay (emit_other_inv (k := .doctype) hf ⟨_, rfl, rfl⟩ (Or.inr rfl) hl rfl)
    split
    · contradiction
    · exact .of_stay ⟨hf, ⟨_, rfl, rfl⟩⟩

theorem doctypeName_keeps (E : Env) : Keeps E .doctypeName onDoctypeName := by
  begin_state
  obtain ⟨tok', e, hk⟩ := commitDoctype_keeps (s := ⟨.doctypeName, ret, tok, last, cur, b, temp, peek, attr, matched, out, fault⟩) hl
  unfold onDoctypeName
  cases eof with
  | true => at_end; rw [e]; exact .of_done (quirksEof_done hf hk)
  | false =>
    split
    · rw [e]; exact .of_stay ⟨hf, hk, rfl⟩
    split
    · rw [e]; exact .of_stay (emit_other_inv (k := .doctype) hf hk (Or.inr rfl) rfl rfl)
    split
    · exact .of_stay ⟨hf, hl⟩
    split
    · exact .of_stay ⟨hf, hl⟩
    split
    · contradiction
    · exact .of_stay ⟨hf, hl⟩

theorem afterDoctypeName_keeps (E : Env) : Keeps E .afterDoctypeName onAfterDoctypeName := by
  begin_state
  obtain ⟨hk, hb⟩ := hl
  unfold onAfterDoctypeName
  cases eof with
  | true => at_end; exact .of_done (quirksEof_done hf hk)
  | false =>
    split
    · exact .of_stay ⟨hf, hk, hb⟩
    split
    · exact .of_stay (emit_other_inv (k := .doctype) hf hk (Or.inr rfl) hb rfl)
    split
    · contradiction
    unfold onDoctypeKeyword
    split
    · split <;> exact .of_stay ⟨hf, hk, hb⟩
    split
    · split <;> exact .of_stay ⟨hf, hk, hb⟩
    · obtain ⟨tok', e, hk'⟩ := quirks_keeps (s := ⟨.afterDoctypeName, ret, tok, last, cur, b, temp, [], attr, matched, out, fault⟩) hk
      rw [e]
      exact .of_again hf ⟨hk', hb⟩ (by simp [rank])

set_option hygiene false in
/-- The ways a state of a document type can go on. -/
macro "doctype_branch" : tactic => `(tactic| first
  | contradiction
  | exact .of_stay ⟨hf, hk, hb⟩
  | exact .of_stay ⟨hf, hk⟩
  | exact .of_again hf ⟨hk, hb⟩ (by simp [rank])
  | exact .of_stay (emit_other_inv (k := .doctype) hf hk (Or.inr rfl) hb rfl)
  | (rw [eq]; exact .of_again hf ⟨hkq, hb⟩ (by simp [rank]))
  | (rw [eq]; exact .of_stay (emit_other_inv (k := .doctype) hf hkq (Or.inr rfl) hb rfl))
  | exact .of_done (emit_other_done (k := .doctype) hf hk (Or.inr rfl))
  | exact .of_done (quirksEof_done hf hk))

set_option hygiene false in
macro "doctype_state" f:ident : tactic => `(tactic| (
  begin_state
  obtain ⟨hk, hb⟩ := hl
  obtain ⟨tokq, eq, hkq⟩ := quirks_keeps (s := ⟨_, ret, tok, last, cur, b, temp, peek, attr, matched, out, fault⟩) hk
  unfold $f
  cases eof with
  | true => at_end; doctype_branch
  | false =>
    repeat' split
    all_goals doctype_branch))

theorem afterDoctypePublicKeyword_keeps (E : Env) :
    Keeps E .afterDoctypePublicKeyword
      (onBeforeIdent .beforeDoctypePublic .doctypePublicDouble .doctypePublicSingle) := by
  doctype_state onBeforeIdent
theorem beforeDoctypePublic_keeps (E : Env) :
    Keeps E .beforeDoctypePublic
      (onBeforeIdent .beforeDoctypePublic .doctypePublicDouble .doctypePublicSingle) := by
  doctype_state onBeforeIdent
theorem afterDoctypeSystemKeyword_keeps (E : Env) :
    Keeps E .afterDoctypeSystemKeyword
      (onBeforeIdent .beforeDoctypeSystem .doctypeSystemDouble .doctypeSystemSingle) := by
  doctype_state onBeforeIdent
theorem beforeDoctypeSystem_keeps (E : Env) :
    Keeps E .beforeDoctypeSystem
      (onBeforeIdent .beforeDoctypeSystem .doctypeSystemDouble .doctypeSystemSingle) := by
  doctype_state onBeforeIdent
theorem afterDoctypePublic_keeps (E : Env) : Keeps E .afterDoctypePublic onAfterPublic := by
  doctype_state onAfterPublic
theorem betweenDoctypeIdentifiers_keeps (E : Env) :
    Keeps E .betweenDoctypeIdentifiers onAfterPublic := by
  doctype_state onAfterPublic
theorem afterDoctypeSystem_keeps (E : Env) : Keeps E .afterDoctypeSystem onAfterSystem := by
  doctype_state onAfterSystem
theorem bogusDoctype_keeps (E : Env) : Keeps E .bogusDoctype onBogusDoctype := by
  doctype_state onBogusDoctype

set_option hygiene false in
macro "ident_state" p:term : tactic => `(tactic| (
  begin_state
  obtain ⟨tok', e, hk⟩ := takeIdent_keeps (s := ⟨_, ret, tok, last, cur, b, temp, peek, attr, matched, out, fault⟩) $p hl
  unfold onIdent
  cases eof with
  | true => at_end; rw [e]; exact .of_done (quirksEof_done hf hk)
  | false =>
    split
    · rw [e]; exact .of_stay ⟨hf, hk, rfl⟩
    split
    · exact .of_stay ⟨hf, hl⟩
    split
    · rw [e]
      obtain ⟨tokq, eq, hkq⟩ := quirks_keeps (s := ⟨_, ret, tok', last, cur, [], temp, peek, attr, matched, out, fault⟩) hk
      rw [eq]
      exact .of_stay (emit_other_inv (k := .doctype) hf hkq (Or.inr rfl) rfl rfl)
    split
    · contradiction
    · exact .of_stay ⟨hf, hl⟩))

theorem doctypePublicDouble_keeps (E : Env) :
    Keeps E .doctypePublicDouble (onIdent true '"' .afterDoctypePublic) := by ident_state true
theorem doctypePublicSingle_keeps (E : Env) :
    Keeps E .doctypePublicSingle (onIdent true '\'' .afterDoctypePublic) := by ident_state true
theorem doctypeSystemDouble_keeps (E : Env) :
    Keeps E .doctypeSystemDouble (onIdent false '"' .afterDoctypeSystem) := by ident_state false
theorem doctypeSystemSingle_keeps (E : Env) :
    Keeps E .doctypeSystemSingle (onIdent false '\'' .afterDoctypeSystem) := by ident_state false

/-! ### Character references -/

/-- What the tokenizer needs of the table: no name holds the placeholder, and a name without a
semicolon is the beginning of a longer one. -/
structure Table (ents : List Entity) : Prop where
  noEtx : ∀ e ∈ ents, etx ∉ e.name
  longer : ∀ e ∈ ents, e.name.getLast? ≠ some ';' → ∃ e' ∈ ents, ∃ c r, e'.name = e.name ++ c :: r

theorem ref_ret {tok : Option Token} {b : Str} {attr : Bool} {ret : State}
    (h : Loc .ref tok b attr ret) (c : Char) (eof : Bool) :
    PLoc ret c eof tok b attr ret ∧ rank ret c eof = 0 := by
  rcases h with ⟨h | h, hb⟩ | ⟨h | h | h, ht⟩
  · subst h; exact ⟨hb, rfl⟩
  · subst h; exact ⟨hb, rfl⟩
  · subst h; exact ⟨ht, rfl⟩
  · subst h; exact ⟨ht, rfl⟩
  · subst h; exact ⟨ht, rfl⟩

theorem ref_ret' {tok : Option Token} {b : Str} {attr : Bool} {ret : State}
    (h : Loc .ref tok b attr ret) : Loc (cls ret) tok b attr ret := by
  rcases h with ⟨h | h, hb⟩ | ⟨h | h | h, ht⟩
  · subst h; exact hb
  · subst h; exact hb
  · subst h; exact ht
  · subst h; exact ht
  · subst h; exact ht

theorem flush_keeps (E : Env) {s : Lex} (hf : Fine s.out s.fault)
    (hl : Loc .ref s.token s.builder s.attr s.ret) :
    ∃ tok b out, flush E s = { s with token := tok, builder := b, out := out } ∧
      Fine out s.fault ∧ Loc .ref tok b s.attr s.ret := by
  unfold flush
  by_cases h : inAttribute s = true
  · rw [if_pos h]
    refine ⟨s.token, s.builder ++ s.temp, s.out, rfl, hf, ?_⟩
    rcases hl with ⟨hr | hr, _⟩ | hl
    · simp [inAttribute, hr] at h
    · simp [inAttribute, hr] at h
    · exact Or.inr hl
  · rw [if_neg h]
    obtain ⟨tok, e, _⟩ := emitChars_eq E s.temp s
    refine ⟨tok, s.builder, _, e, hf.chars _, ?_⟩
    rcases hl with hl | ⟨hr | hr | hr, _⟩
    · exact Or.inl hl
    · simp [inAttribute, hr] at h
    · simp [inAttribute, hr] at h
    · simp [inAttribute, hr] at h

theorem again_ret (E : Env) {s : Lex} {c : Char} {eof : Bool} {k : Nat} (hf : Fine s.out s.fault)
    (hl : Loc .ref s.token s.builder s.attr s.ret) (hk : 0 < k) :
    Next k (again s.ret (flush E s)) c eof := by
  obtain ⟨tok, b, out, e, h1, h2⟩ := flush_keeps E hf hl
  rw [e]
  have := ref_ret h2 c eof
  exact .of_again h1 this.1 (by rw [this.2]; exact hk)

theorem stay_ret (E : Env) {s : Lex} {c : Char} {k : Nat} (hf : Fine s.out s.fault)
    (hl : Loc .ref s.token s.builder s.attr s.ret) :
    Next k (stay (go s.ret (flush E s))) c false := by
  obtain ⟨tok, b, out, e, h1, h2⟩ := flush_keeps E hf hl
  rw [e]
  exact .of_stay ⟨h1, ref_ret' h2⟩

theorem characterReference_keeps (E : Env) : Keeps E .characterReference onCharacterReference := by
  begin_state
  unfold onCharacterReference
  split
  · exact .of_again hf hl (by simp [rank])
  split
  · next h =>
    cases eof with
    | true => have hc := he rfl; subst hc; exact absurd h (by decide)
    | false => exact .of_stay ⟨hf, hl⟩
  · exact again_ret E (s := ⟨.characterReference, ret, tok, last, cur, b, ['&'], peek, attr, matched, out, fault⟩) hf hl (by simp [rank])

theorem hasPart_iff {E : Env} {t : Str} :
    hasPart E t = true ↔ ∃ e ∈ E.ents, ∃ c r, e.name = t ++ c :: r := by
  simp [hasPart, startWith_exact_part]

theorem hasYes_iff {E : Env} {t : Str} : hasYes E t = true ↔ ∃ e ∈ E.ents, e.name = t := by
  simp [hasYes, startWith_exact_yes]

theorem fine_fail {out : List Token} {f : Option Fault} (h : Fine out f) (s : Lex)
    (hs : s.fault = f) : Fine out (fail .outOfBounds s).fault := by
  refine ⟨h.tags, h.notEnd, ?_⟩
  rcases h.fault with e | e <;> simp [fail, hs, e]

theorem onLegacy_keeps (E : Env) {m : Nat} {s : Lex} {c : Char} {eof : Bool}
    (hf : Fine s.out s.fault) (hl : Loc .ref s.token s.builder s.attr s.ret) :
    Next 2 (onLegacy E m s c) c eof := by
  unfold onLegacy
  split
  · exact again_ret E hf hl (by omega)
  split
  · have := ref_ret hl c eof
    exact .of_again (fine_fail hf s rfl) this.1 (by rw [this.2]; omega)
  · exact again_ret E (s := { s with temp := expandFirst E m s.temp, matched := none }) hf hl (by omega)

theorem namedReference_keeps (E : Env) (hT : Table E.ents) : Keeps E .namedReference onNamed := by
  begin_state
  have hend : eof = true → hasPart E (temp ++ [c]) = false ∧ hasYes E (temp ++ [c]) = false := by
    intro h
    rw [he h]
    constructor
    · cases hp : hasPart E (temp ++ [etx]) with
      | false => rfl
      | true =>
        obtain ⟨e, he', x, r, hn⟩ := hasPart_iff.mp hp
        exact absurd (by rw [hn]; simp) (hT.noEtx e he')
    · cases hp : hasYes E (temp ++ [etx]) with
      | false => rfl
      | true =>
        obtain ⟨e, he', hn⟩ := hasYes_iff.mp hp
        exact absurd (by rw [hn]; simp) (hT.noEtx e he')
  unfold onNamed
  split
  · next h =>
    cases eof with
    | true => rw [(hend rfl).1] at h; cases h
    | false => exact .of_stay ⟨hf, hl⟩
  next hp =>
  split
  · next h =>
    cases eof with
    | true => rw [(hend rfl).2] at h; cases h
    | false =>
      have hc : c = ';' := by
        apply Classical.byContradiction
        intro hc
        obtain ⟨e, he', hn⟩ := hasYes_iff.mp h
        obtain ⟨e', h', x, r, hx⟩ := hT.longer e he' (by rw [hn]; simpa using hc)
        exact hp (hasPart_iff.mpr ⟨e', h', x, r, by rw [hx, hn]⟩)
      rw [if_neg (by simpa using hc)]
      exact stay_ret E (s := ⟨.namedReference, ret, tok, last, cur, b, _, peek, attr, none, out, fault⟩) hf hl
  next hy =>
  cases matched with
  | none =>
    obtain ⟨tok', b', out', e, h1, h2⟩ := flush_keeps E (s := ⟨.namedReference, ret, tok, last, cur, b, temp, peek, attr, none, out, fault⟩) hf hl
    simp only [e]
    exact .of_again h1 h2 (by simp [rank])
  | some m =>
    simp only
    split
    · next h =>
      simp only [Bool.and_eq_true, beq_iff_eq] at h
      cases eof with
      | true => have hc := he rfl; rw [hc] at h; exact absurd h.1 (by decide)
      | false =>
        exact stay_ret E (s := ⟨.namedReference, ret, tok, last, cur, b, temp ++ [c], peek, attr, none, out, fault⟩) hf hl
    · exact onLegacy_keeps E hf hl

theorem ambiguousAmpersand_keeps (E : Env) : Keeps E .ambiguousAmpersand onAmbiguous := by
  begin_state
  unfold onAmbiguous
  split
  · next h =>
    cases eof with
    | true => have hc := he rfl; subst hc; exact absurd h (by decide)
    | false =>
      by_cases hin : inAttribute ⟨.ambiguousAmpersand, ret, tok, last, cur, b, temp, peek, attr, matched, out, fault⟩ = true
      · rw [if_pos hin]
        refine .of_stay ⟨hf, ?_⟩
        rcases hl with ⟨hr | hr, _⟩ | hl
        · simp only at hr; subst hr; simp [inAttribute] at hin
        · simp only at hr; subst hr; simp [inAttribute] at hin
        · exact Or.inr hl
      · rw [if_neg hin, emitChar_eq]
        refine .of_stay ⟨hf.one _, ?_⟩
        rcases hl with hl | ⟨hr | hr | hr, _⟩
        · exact Or.inl hl
        all_goals simp only at hr; subst hr; simp [inAttribute] at hin
  · have := ref_ret hl c eof
    exact .of_again hf this.1 (by rw [this.2]; simp [rank])

theorem numericReference_keeps (E : Env) : Keeps E .numericReference onNumeric := by
  begin_state
  unfold onNumeric
  split
  · next h =>
    cases eof with
    | true => have hc := he rfl; subst hc; exact absurd h (by decide)
    | false => exact .of_stay ⟨hf, hl⟩
  · exact .of_again hf hl (by simp [rank])

theorem hexReferenceStart_keeps (E : Env) : Keeps E .hexReferenceStart onHexStart := by
  begin_state
  unfold onHexStart
  split
  · exact .of_again hf hl (by simp [rank])
  · exact again_ret E (s := ⟨.hexReferenceStart, ret, tok, last, cur, b, temp, peek, attr, matched, out, fault⟩) hf hl (by simp [rank])

theorem decReferenceStart_keeps (E : Env) : Keeps E .decReferenceStart onDecStart := by
  begin_state
  unfold onDecStart
  split
  · exact .of_again hf hl (by simp [rank])
  · exact again_ret E (s := ⟨.decReferenceStart, ret, tok, last, cur, b, temp, peek, attr, matched, out, fault⟩) hf hl (by simp [rank])

theorem addDigit_eq (base d : Nat) (s : Lex) :
    ∃ n, addDigit base d s = { s with cur := n } := by
  unfold addDigit
  split
  · exact ⟨_, rfl⟩
  · exact ⟨s.cur, rfl⟩

set_option hygiene false in
macro "digit_branch" : tactic => `(tactic| (
  next h =>
  cases eof with
  | true => have hc := he rfl; subst hc; exact absurd h (by decide)
  | false => obtain ⟨n, e⟩ := addDigit_eq _ _ _; rw [e]; exact .of_stay ⟨hf, hl⟩))

theorem hexReference_keeps (E : Env) : Keeps E .hexReference onHex := by
  begin_state
  unfold onHex
  split
  · digit_branch
  split
  · digit_branch
  split
  · digit_branch
  split
  · next h =>
    cases eof with
    | true => have hc := he rfl; subst hc; exact absurd h (by decide)
    | false => exact .of_stay ⟨hf, hl⟩
  · exact .of_again hf hl (by simp [rank])

theorem decReference_keeps (E : Env) : Keeps E .decReference onDec := by
  begin_state
  unfold onDec
  split
  · digit_branch
  split
  · next h =>
    cases eof with
    | true => have hc := he rfl; subst hc; exact absurd h (by decide)
    | false => exact .of_stay ⟨hf, hl⟩
  · exact .of_again hf hl (by simp [rank])

theorem numericReferenceEnd_keeps (E : Env) : Keeps E .numericReferenceEnd onNumericEnd := by
  begin_state
  unfold onNumericEnd
  exact again_ret E (s := ⟨.numericReferenceEnd, ret, tok, last, codePoint cur, b, [Char.ofNat (codePoint cur)], peek, attr, matched, out, fault⟩) hf hl (by simp [rank])

/-! ### All states -/

theorem step_keeps (E : Env) (hT : Table E.ents) {s : Lex} {c : Char} {eof : Bool}
    (he : AtEnd c eof) (h : Pend s c eof) : Next (rank s.state c eof) (step E s c eof) c eof := by
  unfold step
  cases hs : s.state with
  | data => exact onData_keeps E s c eof he hs h
  | rcdata => exact onRcdata_keeps E s c eof he hs h
  | rawtext => exact rawtext_keeps E s c eof he hs h
  | scriptData => exact scriptData_keeps E s c eof he hs h
  | plaintext => exact plaintext_keeps E s c eof he hs h
  | tagOpen => exact tagOpen_keeps E s c eof he hs h
  | endTagOpen => exact endTagOpen_keeps E s c eof he hs h
  | tagName => exact tagName_keeps E s c eof he hs h
  | rcdataLessThan => exact rcdataLessThan_keeps E s c eof he hs h
  | rcdataEndTagOpen => exact rcdataEndTagOpen_keeps E s c eof he hs h
  | rcdataEndTagName => exact rcdataEndTagName_keeps E s c eof he hs h
  | rawtextLessThan => exact rawtextLessThan_keeps E s c eof he hs h
  | rawtextEndTagOpen => exact rawtextEndTagOpen_keeps E s c eof he hs h
  | rawtextEndTagName => exact rawtextEndTagName_keeps E s c eof he hs h
  | scriptLessThan => exact scriptLessThan_keeps E s c eof he hs h
  | scriptEndTagOpen => exact scriptEndTagOpen_keeps E s c eof he hs h
  | scriptEndTagName => exact scriptEndTagName_keeps E s c eof he hs h
  | scriptEscapeStart => exact scriptEscapeStart_keeps E s c eof he hs h
  | scriptEscapeStartDash => exact scriptEscapeStartDash_keeps E s c eof he hs h
  | scriptEscaped => exact scriptEscaped_keeps E s c eof he hs h
  | scriptEscapedDash => exact scriptEscapedDash_keeps E s c eof he hs h
  | scriptEscapedDashDash => exact scriptEscapedDashDash_keeps E s c eof he hs h
  | scriptEscapedLessThan => exact scriptEscapedLessThan_keeps E s c eof he hs h
  | scriptEscapedEndTagOpen => exact scriptEscapedEndTagOpen_keeps E s c eof he hs h
  | scriptEscapedEndTagName => exact scriptEscapedEndTagName_keeps E s c eof he hs h
  | scriptDoubleEscapeStart => exact scriptDoubleEscapeStart_keeps E s c eof he hs h
  | scriptDoubleEscaped => exact scriptDoubleEscaped_keeps E s c eof he hs h
  | scriptDoubleEscapedDash => exact scriptDoubleEscapedDash_keeps E s c eof he hs h
  | scriptDoubleEscapedDashDash => exact scriptDoubleEscapedDashDash_keeps E s c eof he hs h
  | scriptDoubleEscapedLessThan => exact scriptDoubleEscapedLessThan_keeps E s c eof he hs h
  | scriptDoubleEscapeEnd => exact scriptDoubleEscapeEnd_keeps E s c eof he hs h
  | beforeAttributeName => exact beforeAttributeName_keeps E s c eof he hs h
  | attributeName => exact attributeName_keeps E s c eof he hs h
  | afterAttributeName => exact afterAttributeName_keeps E s c eof he hs h
  | beforeAttributeValue => exact beforeAttributeValue_keeps E s c eof he hs h
  | valueDoubleQuoted => exact valueDoubleQuoted_keeps E s c eof he hs h
  | valueSingleQuoted => exact valueSingleQuoted_keeps E s c eof he hs h
  | valueUnquoted => exact valueUnquoted_keeps E s c eof he hs h
  | afterValueQuoted => exact afterValueQuoted_keeps E s c eof he hs h
  | selfClosingStartTag => exact selfClosing_keeps E s c eof he hs h
  | bogusComment => exact bogusComment_keeps E s c eof he hs h
  | markupDeclarationOpen => exact markupDeclarationOpen_keeps E s c eof he hs h
  | commentStart => exact commentStart_keeps E s c eof he hs h
  | commentStartDash => exact commentStartDash_keeps E s c eof he hs h
  | comment => exact comment_keeps E s c eof he hs h
  | commentLessThan => exact commentLessThan_keeps E s c eof he hs h
  | commentLessThanBang => exact commentLessThanBang_keeps E s c eof he hs h
  | commentLessThanBangDash => exact commentLessThanBangDash_keeps E s c eof he hs h
  | commentLessThanBangDashDash => exact commentLessThanBangDashDash_keeps E s c eof he hs h
  | commentEndDash => exact commentEndDash_keeps E s c eof he hs h
  | commentEnd => exact commentEnd_keeps E s c eof he hs h
  | commentEndBang => exact commentEndBang_keeps E s c eof he hs h
  | doctype => exact doctype_keeps E s c eof he hs h
  | beforeDoctypeName => exact beforeDoctypeName_keeps E s c eof he hs h
  | doctypeName => exact doctypeName_keeps E s c eof he hs h
  | afterDoctypeName => exact afterDoctypeName_keeps E s c eof he hs h
  | afterDoctypePublicKeyword => exact afterDoctypePublicKeyword_keeps E s c eof he hs h
  | beforeDoctypePublic => exact beforeDoctypePublic_keeps E s c eof he hs h
  | doctypePublicDouble => exact doctypePublicDouble_keeps E s c eof he hs h
  | doctypePublicSingle => exact doctypePublicSingle_keeps E s c eof he hs h
  | afterDoctypePublic => exact afterDoctypePublic_keeps E s c eof he hs h
  | betweenDoctypeIdentifiers => exact betweenDoctypeIdentifiers_keeps E s c eof he hs h
  | afterDoctypeSystemKeyword => exact afterDoctypeSystemKeyword_keeps E s c eof he hs h
  | beforeDoctypeSystem => exact beforeDoctypeSystem_keeps E s c eof he hs h
  | doctypeSystemDouble => exact doctypeSystemDouble_keeps E s c eof he hs h
  | doctypeSystemSingle => exact doctypeSystemSingle_keeps E s c eof he hs h
  | afterDoctypeSystem => exact afterDoctypeSystem_keeps E s c eof he hs h
  | bogusDoctype => exact bogusDoctype_keeps E s c eof he hs h
  | cdataSection => exact cdataSection_keeps E s c eof he hs h
  | cdataSectionBracket => exact cdataSectionBracket_keeps E s c eof he hs h
  | cdataSectionEnd => exact cdataSectionEnd_keeps E s c eof he hs h
  | characterReference => exact characterReference_keeps E s c eof he hs h
  | namedReference => exact namedReference_keeps E hT s c eof he hs h
  | ambiguousAmpersand => exact ambiguousAmpersand_keeps E s c eof he hs h
  | numericReference => exact numericReference_keeps E s c eof he hs h
  | hexReferenceStart => exact hexReferenceStart_keeps E s c eof he hs h
  | decReferenceStart => exact decReferenceStart_keeps E s c eof he hs h
  | hexReference => exact hexReference_keeps E s c eof he hs h
  | decReference => exact decReference_keeps E s c eof he hs h
  | numericReferenceEnd => exact numericReferenceEnd_keeps E s c eof he hs h

theorem rank_le (st : State) (c : Char) (eof : Bool) : rank st c eof ≤ 4 := by
  cases st <;> simp only [rank] <;> (try split) <;> omega

theorem consumeN_keeps (E : Env) (hT : Table E.ents) {c : Char} {eof : Bool} (he : AtEnd c eof) :
    ∀ (n : Nat) (s : Lex), Pend s c eof → rank s.state c eof < n →
      if eof then Done (consumeN E n s c eof) else Inv (consumeN E n s c eof)
  | 0, s, _, h => by omega
  | n + 1, s, hp, hr => by
    have hn := step_keeps E hT he hp
    unfold consumeN
    unfold Next at hn
    by_cases h : (step E s c eof).2 = true
    · rw [if_pos h] at hn ⊢
      exact consumeN_keeps E hT he n _ hn.1 (by omega)
    · rw [if_neg h] at hn ⊢
      exact hn

theorem Inv.pend {s : Lex} (h : Inv s) (c : Char) (eof : Bool) : Pend s c eof := by
  refine ⟨h.fine, ?_⟩
  have hl := h.loc
  cases hs : s.state <;> rw [hs] at hl
  case tagName => exact ⟨hl.1, Or.inr hl.2, Or.inl (tagName_ne hl.2)⟩
  case rcdataEndTagName => exact ⟨hl.1, Or.inr hl.2, Or.inl (tagName_ne hl.2)⟩
  case rawtextEndTagName => exact ⟨hl.1, Or.inr hl.2, Or.inl (tagName_ne hl.2)⟩
  case scriptEndTagName => exact ⟨hl.1, Or.inr hl.2, Or.inl (tagName_ne hl.2)⟩
  case scriptEscapedEndTagName => exact ⟨hl.1, Or.inr hl.2, Or.inl (tagName_ne hl.2)⟩
  case attributeName => exact ⟨hl.1, hl.2.1, Or.inr hl.2.2, Or.inl hl.2.2.1⟩
  case afterAttributeName => exact ⟨hl.1, hl.2.1, Or.inl hl.2.2⟩
  all_goals exact hl

theorem consume_inv (E : Env) (hT : Table E.ents) {s : Lex} (h : Inv s) (c : Char) :
    Inv (consume E s c false) := by
  have := consumeN_keeps E hT (c := c) (eof := false) (by intro h; cases h) 12 s (h.pend c false)
    (by have := rank_le s.state c false; omega)
  rw [if_neg (by decide)] at this
  exact this

theorem feed_inv (E : Env) (hT : Table E.ents) : ∀ (cs : Str) {s : Lex}, Inv s → Inv (feed E s cs)
  | [], _, h => h
  | c :: cs, s, h => feed_inv E hT cs (consume_inv E hT h c)

theorem init_inv : Inv {} :=
  ⟨⟨(fun _ ht => by cases ht), (fun _ ht => by cases ht), Or.inl rfl⟩, rfl⟩

theorem run_done (E : Env) (hT : Table E.ents) (doc : Str) : Done (run E doc) := by
  have h := feed_inv E hT (newlines doc) init_inv
  have := consumeN_keeps E hT (c := etx) (eof := true) (fun _ => rfl) 12 _ (h.pend etx true)
    (by have := rank_le (feed E {} (newlines doc)).state etx true; omega)
  rw [if_pos rfl] at this
  exact this

end Verif.Html
