import Verif.Html.Comments
/-
Document types, read from their first character to their last.
-/
namespace Verif.Html
open Spec

/-! ### Keywords -/

theorem eqCi_lower (a b : Char) : eqCi a b = true ↔ a.toLower = b.toLower := by
  simp [eqCi, lower_char]

theorem ci_prefix : ∀ (a b q : Str), lower q = lower a →
    startWith eqCi (a ++ b) q = if b = [] then .yes else .part
  | [], b, q, h => by
    cases q with
    | nil => cases b <;> simp [startWith]
    | cons c q => simp [lower] at h
  | x :: a, b, q, h => by
    cases q with
    | nil => simp [lower] at h
    | cons c q =>
      simp only [lower, List.map_cons, List.cons.injEq] at h
      show (if eqCi x c then startWith eqCi (a ++ b) q else .no) = _
      rw [if_pos ((eqCi_lower x c).mpr h.1.symm)]
      exact ci_prefix a b q h.2

/-- Part of a keyword, or all of it. -/
theorem keyword {word x y : Str} {c : Char} (h : lower (x ++ c :: y) = lower word) :
    startWith eqCi word (x ++ [c]) = if y = [] then .yes else .part := by
  have hlen : word.length = x.length + 1 + y.length := by
    have := congrArg List.length h
    simp [lower] at this
    omega
  have e : word = word.take (x.length + 1) ++ word.drop (x.length + 1) := by simp
  have hq : lower (x ++ [c]) = lower (word.take (x.length + 1)) := by
    have := congrArg (List.take (x.length + 1)) h
    simp only [lower, List.map_append, List.map_cons, List.map_take] at this ⊢
    rw [← this, List.take_append]
    simp
    exact (List.take_of_length_le (by simp)).symm
  have := ci_prefix _ (word.drop (x.length + 1)) _ hq
  rw [← e] at this
  rw [this]
  by_cases hy : y = []
  · subst hy
    rw [if_pos rfl, if_pos (List.drop_eq_nil_of_le (by simp at hlen; omega))]
  · have hpos : 0 < y.length := List.length_pos_iff.mpr hy
    rw [if_neg hy, if_neg]
    intro hd
    have := congrArg List.length hd
    simp at this
    omega

/-- Another keyword. -/
theorem other_keyword {eq : Char → Char → Bool} {w d : Char} {word x : Str} {c : Char}
    (h : ∀ a r, x ++ [c] = a :: r → eq w a = false) : startWith eq (w :: word) (x ++ [c]) = .no := by
  cases hx : x ++ [c] with
  | nil => simp at hx
  | cons a r => simp only [startWith]; rw [if_neg (by rw [h a r hx]; decide)]

theorem first_lower {x y : Str} {c l : Char} {ls : Str} (h : lower (x ++ c :: y) = l :: ls) :
    ∀ a r, x ++ [c] = a :: r → a.toLower = l := by
  intro a r e
  cases x with
  | nil =>
    simp only [List.nil_append, List.cons.injEq] at e
    simp only [lower, List.nil_append, List.map_cons, List.cons.injEq] at h
    rw [← e.1]; exact h.1
  | cons b x =>
    simp only [List.cons_append, List.cons.injEq] at e
    simp only [lower, List.cons_append, List.map_cons, List.cons.injEq] at h
    rw [← e.1]; exact h.1

/-- The tokenizer inside a document type. -/
def dt (s : Lex) (st : State) (t : Option Token) (b p : Str) : Lex :=
  { s with state := st, token := t, builder := b, peek := p }

theorem doctype_word (E : Env) (s : Lex) (t : Option Token) (w : Str) :
    ∀ (y x : Str), y ≠ [] → lower (x ++ y) = lower doctypeWord →
      fin E (dt s .markupDeclarationOpen t [] x) (y ++ w) = fin E (dt s .doctype t [] []) w
  | [], _, h, _ => absurd rfl h
  | c :: y, x, _, h => by
    have hk := keyword h
    have hd : startWith exact dashDash (x ++ [c]) = .no := by
      apply other_keyword (d := c)
      intro a r e
      have := first_lower (l := 'd') (ls := ['o', 'c', 't', 'y', 'p', 'e']) h a r e
      cases h' : exact '-' a with
      | false => rfl
      | true =>
        simp only [exact, beq_iff_eq] at h'
        rw [← h'] at this
        exact absurd this (by decide)
    have hst : step E (dt s .markupDeclarationOpen t [] x) c false =
        ((if y = [] then dt s .doctype t [] [] else dt s .markupDeclarationOpen t [] (x ++ [c])), false) := by
      show onMarkupDeclarationOpen E _ c false = _
      unfold onMarkupDeclarationOpen
      show (if startWith exact dashDash (x ++ [c]) ≠ .no then _ else
        if startWith eqCi doctypeWord (x ++ [c]) ≠ .no then
          if startWith eqCi doctypeWord (x ++ [c]) = .part then _ else _ else _) = _
      rw [hd, if_neg (by simp), hk]
      by_cases hy : y = []
      · rw [if_pos hy, if_pos (by decide), if_neg (by decide), if_pos hy]; rfl
      · rw [if_neg hy, if_pos (by decide), if_pos rfl, if_neg hy]; rfl
    show fin E _ (c :: (y ++ w)) = _
    rw [fin_stay E _ hst]
    by_cases hy : y = []
    · rw [if_pos hy, hy]; rfl
    · rw [if_neg hy]
      exact doctype_word E s t w y (x ++ [c]) hy (by rw [← h]; simp)

/-! ### The name -/

theorem doctype_spaces (E : Env) (s : Lex) (t : Option Token) (w : Str) :
    ∀ (ws : Str), Spaces ws →
      fin E (dt s .beforeDoctypeName t [] []) (ws ++ w) = fin E (dt s .beforeDoctypeName t [] []) w
  | [], _ => rfl
  | c :: ws, h => by
    have : fin E (dt s .beforeDoctypeName t [] []) (c :: (ws ++ w)) =
        fin E (dt s .beforeDoctypeName t [] []) (ws ++ w) := by
      apply fin_stay
      show onBeforeDoctypeName E _ c false = _
      unfold onBeforeDoctypeName
      rw [if_pos (space_iff.mpr (h c (by simp)))]; rfl
    show fin E _ (c :: (ws ++ w)) = _
    rw [this, doctype_spaces E s t w ws (fun x hx => h x (by simp [hx]))]

/-- The token of a document type in progress. -/
def newDoctype : Token := { kind := .doctype }

theorem name_char {c : Char} : (isUpper c = true ∧ toLower c = c.toLower) ∨
    (isUpper c = false ∧ c = c.toLower) := by
  cases h : isUpper c with
  | true => exact Or.inl ⟨rfl, lower_char c⟩
  | false =>
    right
    refine ⟨rfl, ?_⟩
    rw [← lower_char]
    unfold toLower
    rw [if_neg (by rw [h]; decide)]

theorem doctype_name (E : Env) (s : Lex) (w : Str) :
    ∀ (n b : Str), (∀ c ∈ n, ¬ Space c ∧ c ≠ '>' ∧ c ≠ '\x00') →
      fin E (dt s .doctypeName (some newDoctype) b []) (n ++ w) =
        fin E (dt s .doctypeName (some newDoctype) (b ++ lower n) []) w
  | [], b, _ => by simp [lower]
  | c :: n, b, h => by
    have hc := h c (by simp)
    have : fin E (dt s .doctypeName (some newDoctype) b []) (c :: (n ++ w)) =
        fin E (dt s .doctypeName (some newDoctype) (b ++ [c.toLower]) []) (n ++ w) := by
      apply fin_stay
      show onDoctypeName E _ c false = _
      unfold onDoctypeName
      rw [if_neg (by rw [not_space hc.1]; decide), if_neg hc.2.1]
      rcases name_char (c := c) with ⟨h1, h2⟩ | ⟨h1, h2⟩
      · rw [if_pos h1, h2]; rfl
      · rw [if_neg (by rw [h1]; decide), if_neg hc.2.2, if_neg (by decide), ← h2]; rfl
    show fin E _ (c :: (n ++ w)) = _
    rw [this, doctype_name E s w n _ (fun x hx => h x (by simp [hx]))]
    simp [lower]

theorem doctype_first (E : Env) (s : Lex) (t : Option Token) (w : Str) {n : Str} (hne : n ≠ [])
    (h : ∀ c ∈ n, ¬ Space c ∧ c ≠ '>' ∧ c ≠ '\x00') :
    fin E (dt s .beforeDoctypeName t [] []) (n ++ w) =
      fin E (dt s .doctypeName (some newDoctype) (lower n) []) w := by
  cases n with
  | nil => exact absurd rfl hne
  | cons c n =>
    have hc := h c (by simp)
    have : fin E (dt s .beforeDoctypeName t [] []) (c :: (n ++ w)) =
        fin E (dt s .doctypeName (some newDoctype) [c.toLower] []) (n ++ w) := by
      apply fin_stay
      show onBeforeDoctypeName E _ c false = _
      unfold onBeforeDoctypeName
      rw [if_neg (by rw [not_space hc.1]; decide)]
      rcases name_char (c := c) with ⟨h1, h2⟩ | ⟨h1, h2⟩
      · rw [if_pos h1, h2]; rfl
      · rw [if_neg (by rw [h1]; decide), if_neg hc.2.2, if_neg hc.2.1, if_neg (by decide), ← h2]; rfl
    show fin E _ (c :: (n ++ w)) = _
    rw [this, doctype_name E s w n _ (fun x hx => h x (by simp [hx]))]
    rfl

theorem doctype_intro (E : Env) {s : Lex} (hs : s.state = .data) (hb : s.builder = [])
    (hp : s.peek = []) {kw sp name : Str} (hk : lower kw = ['d', 'o', 'c', 't', 'y', 'p', 'e'])
    (hsp : sp ≠ [] ∧ Spaces sp) (hn : name ≠ [] ∧ ∀ c ∈ name, ¬ Space c ∧ c ≠ '>' ∧ c ≠ '\x00')
    (w : Str) :
    fin E s ('<' :: '!' :: (kw ++ (sp ++ (name ++ w)))) =
      fin E (dt s .doctypeName (some newDoctype) (lower name) []) w := by
  have e1 : fin E s ('<' :: '!' :: (kw ++ (sp ++ (name ++ w)))) =
      fin E (dt s .markupDeclarationOpen s.token [] []) (kw ++ (sp ++ (name ++ w))) := by
    rw [fin_cons, fin_cons]
    congr 1
    cases s
    simp only at hs hb hp
    subst hs hb hp
    rfl
  rw [e1, doctype_word E s s.token _ kw [] (by intro h; rw [h] at hk; cases hk) (by rw [List.nil_append, hk]; rfl)]
  obtain ⟨h1, h2⟩ := hsp
  cases sp with
  | nil => exact absurd rfl h1
  | cons c sp =>
    have : fin E (dt s .doctype s.token [] []) (c :: (sp ++ (name ++ w))) =
        fin E (dt s .beforeDoctypeName s.token [] []) (sp ++ (name ++ w)) := by
      apply fin_stay
      show onDoctype E _ c false = _
      unfold onDoctype
      rw [if_pos (space_iff.mpr (h2 c (by simp)))]; rfl
    show fin E _ (c :: (sp ++ (name ++ w))) = _
    rw [this, doctype_spaces E s _ _ sp (fun x hx => h2 x (by simp [hx])),
      doctype_first E s _ w hn.1 hn.2]

/-! ### The identifiers -/

/-- White space after the name. -/
theorem doctype_gap (E : Env) (s : Lex) {n : Str} {gap : Char} (hg : Space gap) (w : Str) :
    fin E (dt s .doctypeName (some newDoctype) n []) (gap :: w) =
      fin E (dt s .afterDoctypeName (some { newDoctype with name := some n }) [] []) w := by
  apply fin_stay
  show onDoctypeName E _ gap false = _
  unfold onDoctypeName
  rw [if_pos (space_iff.mpr hg)]
  rfl

/-- A letter is neither white space nor the end of the tag. -/
theorem letter_plain {c : Char} (h : Lower c.toLower) : isSpace c = false ∧ c ≠ '>' := by
  constructor
  · cases hs : isSpace c with
    | false => rfl
    | true =>
      rcases space_iff.mp hs with e | e | e | e <;> subst e <;>
        exact absurd h (by unfold Lower; decide)
  · intro e; subst e; exact absurd h (by unfold Lower; decide)

theorem lower_mem {x y : Str} {c : Char} {ls : Str} (h : lower (x ++ c :: y) = ls)
    (hl : ∀ l ∈ ls, Lower l) : Lower c.toLower := by
  apply hl
  rw [← h]
  simp [lower]

theorem public_word (E : Env) (s : Lex) (t : Token) (w : Str) :
    ∀ (y x : Str), y ≠ [] → lower (x ++ y) = lower publicWord →
      fin E (dt s .afterDoctypeName (some t) [] x) (y ++ w) =
        fin E (dt s .afterDoctypePublicKeyword (some t) [] []) w
  | [], _, h, _ => absurd rfl h
  | c :: y, x, _, h => by
    have hk := keyword h
    have hp := letter_plain (lower_mem h (by unfold Lower; decide))
    have hst : step E (dt s .afterDoctypeName (some t) [] x) c false =
        ((if y = [] then dt s .afterDoctypePublicKeyword (some t) [] [] else dt s .afterDoctypeName (some t) [] (x ++ [c])), false) := by
      show onAfterDoctypeName E _ c false = _
      unfold onAfterDoctypeName
      rw [if_neg (by rw [hp.1]; decide), if_neg hp.2, if_neg (by decide)]
      unfold onDoctypeKeyword
      show (if startWith eqCi publicWord (x ++ [c]) ≠ .no then
          if startWith eqCi publicWord (x ++ [c]) = .part then _ else _ else _) = _
      rw [hk]
      by_cases hy : y = []
      · rw [if_pos hy, if_pos (by decide), if_neg (by decide), if_pos hy]; rfl
      · rw [if_neg hy, if_pos (by decide), if_pos rfl, if_neg hy]; rfl
    show fin E _ (c :: (y ++ w)) = _
    rw [fin_stay E _ hst]
    by_cases hy : y = []
    · rw [if_pos hy, hy]; rfl
    · rw [if_neg hy]
      exact public_word E s t w y (x ++ [c]) hy (by rw [← h]; simp)

theorem system_word (E : Env) (s : Lex) (t : Token) (w : Str) :
    ∀ (y x : Str), y ≠ [] → lower (x ++ y) = lower systemWord →
      fin E (dt s .afterDoctypeName (some t) [] x) (y ++ w) =
        fin E (dt s .afterDoctypeSystemKeyword (some t) [] []) w
  | [], _, h, _ => absurd rfl h
  | c :: y, x, _, h => by
    have hk := keyword h
    have hp := letter_plain (lower_mem h (by unfold Lower; decide))
    have hpub : startWith eqCi publicWord (x ++ [c]) = .no := by
      apply other_keyword (d := c)
      intro a r e
      have := first_lower (l := 's') (ls := ['y', 's', 't', 'e', 'm']) h a r e
      cases h' : eqCi 'P' a with
      | false => rfl
      | true =>
        rw [eqCi_lower, this] at h'
        exact absurd h' (by decide)
    have hst : step E (dt s .afterDoctypeName (some t) [] x) c false =
        ((if y = [] then dt s .afterDoctypeSystemKeyword (some t) [] [] else dt s .afterDoctypeName (some t) [] (x ++ [c])), false) := by
      show onAfterDoctypeName E _ c false = _
      unfold onAfterDoctypeName
      rw [if_neg (by rw [hp.1]; decide), if_neg hp.2, if_neg (by decide)]
      unfold onDoctypeKeyword
      show (if startWith eqCi publicWord (x ++ [c]) ≠ .no then _ else
        if startWith eqCi systemWord (x ++ [c]) ≠ .no then
          if startWith eqCi systemWord (x ++ [c]) = .part then _ else _ else _) = _
      rw [hpub, if_neg (by simp), hk]
      by_cases hy : y = []
      · rw [if_pos hy, if_pos (by decide), if_neg (by decide), if_pos hy]; rfl
      · rw [if_neg hy, if_pos (by decide), if_pos rfl, if_neg hy]; rfl
    show fin E _ (c :: (y ++ w)) = _
    rw [fin_stay E _ hst]
    by_cases hy : y = []
    · rw [if_pos hy, hy]; rfl
    · rw [if_neg hy]
      exact system_word E s t w y (x ++ [c]) hy (by rw [← h]; simp)

/-- A state that white space does not leave, or leaves to one that is like it. -/
theorem skip_spaces (E : Env) {s : Lex} {t : Token} {a b : State} (w : Str)
    (ha : ∀ c, Space c → step E (dt s a (some t) [] []) c false = (dt s b (some t) [] [], false))
    (hb : ∀ c, Space c → step E (dt s b (some t) [] []) c false = (dt s b (some t) [] [], false))
    (h : fin E (dt s a (some t) [] []) w = fin E (dt s b (some t) [] []) w) :
    ∀ ws : Str, Spaces ws → fin E (dt s a (some t) [] []) (ws ++ w) = fin E (dt s b (some t) [] []) w := by
  have key : ∀ ws : Str, Spaces ws →
      fin E (dt s b (some t) [] []) (ws ++ w) = fin E (dt s b (some t) [] []) w := by
    intro ws
    induction ws with
    | nil => intro _; rfl
    | cons c ws ih =>
      intro hw
      show fin E _ (c :: (ws ++ w)) = _
      rw [fin_stay E _ (hb c (hw c (by simp))), ih (fun x hx => hw x (by simp [hx]))]
  intro ws hw
  cases ws with
  | nil => exact h
  | cons c ws =>
    show fin E _ (c :: (ws ++ w)) = _
    rw [fin_stay E _ (ha c (hw c (by simp))), key ws (fun x hx => hw x (by simp [hx]))]

/-- The characters of an identifier. -/
theorem ident_text (E : Env) {s : Lex} {t : Token} {st : State} {pub : Bool} {q : Char} {aft : State}
    (hst : ∀ b c, step E (dt s st (some t) b []) c false =
      onIdent pub q aft E (dt s st (some t) b []) c false) (w : Str) :
    ∀ (x b : Str), (∀ c ∈ x, c ≠ q ∧ c ≠ '>' ∧ c ≠ '\x00') →
      fin E (dt s st (some t) b []) (x ++ w) = fin E (dt s st (some t) (b ++ x) []) w
  | [], b, _ => by simp
  | c :: x, b, h => by
    have hc := h c (by simp)
    have : fin E (dt s st (some t) b []) (c :: (x ++ w)) =
        fin E (dt s st (some t) (b ++ [c]) []) (x ++ w) := by
      apply fin_stay
      rw [hst]
      unfold onIdent
      rw [if_neg hc.1, if_neg hc.2.2, if_neg hc.2.1, if_neg (by decide)]
      rfl
    show fin E _ (c :: (x ++ w)) = _
    rw [this, ident_text E hst w x _ (fun y hy => h y (by simp [hy]))]
    simp

/-- The token with an identifier. -/
def withIdent (pub : Bool) (t : Token) (x : Str) : Token :=
  if pub then { t with publicIdent := some x } else { t with systemIdent := some x }

theorem ident_fin (E : Env) {s : Lex} {t : Token} (ht : t.kind = .doctype) {st : State}
    {pub : Bool} {q : Char} {aft : State}
    (hst : ∀ b c, step E (dt s st (some t) b []) c false =
      onIdent pub q aft E (dt s st (some t) b []) c false) (w : Str) {x : Str}
    (hx : ∀ c ∈ x, c ≠ q ∧ c ≠ '>' ∧ c ≠ '\x00') :
    fin E (dt s st (some t) [] []) (x ++ q :: w) = fin E (dt s aft (some (withIdent pub t x)) [] []) w := by
  rw [ident_text E hst _ x [] hx]
  apply fin_stay
  rw [hst]
  unfold onIdent
  rw [if_pos rfl]
  show stay (go aft (clearBuilder (onKind .doctype _ (dt s st (some t) x [])))) = _
  unfold onKind
  show stay (go aft (clearBuilder (if t.kind = .doctype then _ else _))) = _
  rw [if_pos ht]
  cases pub <;> rfl

/-- A quoted identifier, from a state where it may begin. -/
theorem quoted_fin (E : Env) {s : Lex} {t : Token} (ht : t.kind = .doctype) {a double single aft : State}
    {pub : Bool}
    (hd : step E (dt s a (some t) [] []) '"' false = (dt s double (some t) [] [], false))
    (hs : step E (dt s a (some t) [] []) '\'' false = (dt s single (some t) [] [], false))
    (hd' : ∀ b c, step E (dt s double (some t) b []) c false =
      onIdent pub '"' aft E (dt s double (some t) b []) c false)
    (hs' : ∀ b c, step E (dt s single (some t) b []) c false =
      onIdent pub '\'' aft E (dt s single (some t) b []) c false)
    {x : Quoted} (hx : x.Ok) (w : Str) :
    fin E (dt s a (some t) [] []) (x.src ++ w) = fin E (dt s aft (some (withIdent pub t x.text)) [] []) w := by
  obtain ⟨q, x⟩ := x
  obtain ⟨hq, hx⟩ := hx
  simp only at hq hx ⊢
  rw [show (Quoted.mk q x).src ++ w = q :: (x ++ q :: w) by simp [Quoted.src]]
  rcases hq with rfl | rfl
  · rw [fin_stay E _ hd, ident_fin E ht hd' w hx]
  · rw [fin_stay E _ hs, ident_fin E ht hs' w hx]

theorem quoted_first {x : Quoted} (hx : x.Ok) (w : Str) :
    ∃ c r, x.src ++ w = c :: r ∧ (c = '"' ∨ c = '\'') := ⟨x.q, _, rfl, hx.1⟩

/-- The keyword, the white space after it, and the identifier. -/
theorem keyword_ident (E : Env) {s : Lex} {t : Token} (ht : t.kind = .doctype)
    {a b double single aft : State} {pub : Bool}
    (ha : ∀ c, step E (dt s a (some t) [] []) c false = onBeforeIdent b double single E (dt s a (some t) [] []) c false)
    (hb : ∀ c, step E (dt s b (some t) [] []) c false = onBeforeIdent b double single E (dt s b (some t) [] []) c false)
    (hd' : ∀ b c, step E (dt s double (some t) b []) c false =
      onIdent pub '"' aft E (dt s double (some t) b []) c false)
    (hs' : ∀ b c, step E (dt s single (some t) b []) c false =
      onIdent pub '\'' aft E (dt s single (some t) b []) c false)
    {x : Quoted} (hx : x.Ok) {sp : Str} (hsp : Spaces sp) (w : Str) :
    fin E (dt s a (some t) [] []) (sp ++ (x.src ++ w)) =
      fin E (dt s aft (some (withIdent pub t x.text)) [] []) w := by
  rw [skip_spaces E (a := a) (b := b) _ ?_ ?_ ?_ sp hsp]
  · exact quoted_fin E ht (by rw [hb]; rfl) (by rw [hb]; rfl) hd' hs' hx w
  · intro c hc; rw [ha]; unfold onBeforeIdent; rw [if_pos (space_iff.mpr hc)]; rfl
  · intro c hc; rw [hb]; unfold onBeforeIdent; rw [if_pos (space_iff.mpr hc)]; rfl
  · rw [quoted_fin E ht (by rw [ha]; rfl) (by rw [ha]; rfl) hd' hs' hx w,
      quoted_fin E ht (by rw [hb]; rfl) (by rw [hb]; rfl) hd' hs' hx w]

/-- The end of a document type that has identifiers. -/
theorem doctype_end (E : Env) {s : Lex} {t : Token} {a b : State} {tail : Str} (ht : Spaces tail)
    (ha : ∀ c, Space c → step E (dt s a (some t) [] []) c false = (dt s b (some t) [] [], false))
    (hb : ∀ c, Space c → step E (dt s b (some t) [] []) c false = (dt s b (some t) [] [], false))
    (ha' : step E (dt s a (some t) [] []) '>' false = (emit E (dt s .data (some t) [] []), false))
    (hb' : step E (dt s b (some t) [] []) '>' false = (emit E (dt s .data (some t) [] []), false))
    (w : Str) :
    fin E (dt s a (some t) [] []) (tail ++ '>' :: w) = fin E (emit E (dt s .data (some t) [] [])) w := by
  rw [skip_spaces E (a := a) (b := b) _ ha hb ?_ tail ht, fin_stay E _ hb']
  rw [fin_stay E _ ha', fin_stay E _ hb']

theorem doctype_fin (E : Env) {s : Lex} (hs : s.state = .data) (hb : s.builder = [])
    (hp : s.peek = []) {d : Doctype} (hd : d.Ok) (w : Str) :
    fin E s (d.src ++ w) = fin E (emit E (dt s .data (some d.means) [] [])) w := by
  obtain ⟨kw, sp, name, ext⟩ := d
  obtain ⟨h1, h2, h3, h4⟩ := hd
  have e0 : (Doctype.mk kw sp name ext).src ++ w =
      '<' :: '!' :: (kw ++ (sp ++ (name ++ (ext.src ++ '>' :: w)))) := by simp [Doctype.src]
  rw [e0, doctype_intro E hs hb hp h1 h2 h3]
  cases ext with
  | nothing =>
    show fin E _ ('>' :: w) = _
    exact fin_stay E _ rfl
  | sys gap kw' sp' y tail =>
    obtain ⟨g1, g2, g3, g4, g5⟩ := h4
    have e1 : (External.sys gap kw' sp' y tail).src ++ '>' :: w =
        gap :: (kw' ++ (sp' ++ (y.src ++ (tail ++ '>' :: w)))) := by simp [External.src]
    rw [e1, doctype_gap E s g1,
      system_word E s _ _ kw' [] (by intro h; rw [h] at g2; cases g2) (by rw [List.nil_append, g2]; rfl),
      keyword_ident E (pub := false) (aft := .afterDoctypeSystem) rfl
        (a := .afterDoctypeSystemKeyword) (b := .beforeDoctypeSystem)
        (double := .doctypeSystemDouble) (single := .doctypeSystemSingle)
        (fun _ => rfl) (fun _ => rfl) (fun _ _ => rfl) (fun _ _ => rfl) g4 g3]
    have hsp : ∀ c, Space c → ∀ t, step E (dt s .afterDoctypeSystem (some t) [] []) c false =
        (dt s .afterDoctypeSystem (some t) [] [], false) := by
      intro c hc t
      show onAfterSystem E _ c false = _
      unfold onAfterSystem; rw [if_pos (space_iff.mpr hc)]; rfl
    rw [doctype_end E g5 (fun c hc => hsp c hc _) (fun c hc => hsp c hc _) rfl rfl]
    rfl
  | pub gap kw' sp' p y tail =>
    obtain ⟨g1, g2, g3, g4, g5, g6⟩ := h4
    have hbet : ∀ st, st = .afterDoctypePublic ∨ st = .betweenDoctypeIdentifiers → ∀ c, Space c → ∀ t,
        step E (dt s st (some t) [] []) c false = (dt s .betweenDoctypeIdentifiers (some t) [] [], false) := by
      intro st hst c hc t
      rcases hst with rfl | rfl <;> (show onAfterPublic E _ c false = _) <;>
        (unfold onAfterPublic; rw [if_pos (space_iff.mpr hc)]; rfl)
    have hsp : ∀ c, Space c → ∀ t, step E (dt s .afterDoctypeSystem (some t) [] []) c false =
        (dt s .afterDoctypeSystem (some t) [] [], false) := by
      intro c hc t
      show onAfterSystem E _ c false = _
      unfold onAfterSystem; rw [if_pos (space_iff.mpr hc)]; rfl
    have e1 : ∀ rest, fin E (dt s .doctypeName (some newDoctype) (lower name) []) (gap :: (kw' ++ (sp' ++ (p.src ++ rest)))) =
        fin E (dt s .afterDoctypePublic (some (withIdent true { newDoctype with name := some (lower name) } p.text)) [] []) rest := by
      intro rest
      rw [doctype_gap E s g1,
        public_word E s _ _ kw' [] (by intro h; rw [h] at g2; cases g2) (by rw [List.nil_append, g2]; rfl),
        keyword_ident E (pub := true) (aft := .afterDoctypePublic) rfl
          (a := .afterDoctypePublicKeyword) (b := .beforeDoctypePublic)
          (double := .doctypePublicDouble) (single := .doctypePublicSingle)
          (fun _ => rfl) (fun _ => rfl) (fun _ _ => rfl) (fun _ _ => rfl) g4 g3]
    cases y with
    | none =>
      have e2 : (External.pub gap kw' sp' p none tail).src ++ '>' :: w =
          gap :: (kw' ++ (sp' ++ (p.src ++ (tail ++ '>' :: w)))) := by simp [External.src]
      rw [e2, e1, doctype_end E g6 (fun c hc => hbet _ (Or.inl rfl) c hc _)
        (fun c hc => hbet _ (Or.inr rfl) c hc _) rfl rfl]
      rfl
    | some yy =>
      obtain ⟨sp2, y⟩ := yy
      obtain ⟨k1, k2⟩ := g5 sp2 y rfl
      have e2 : (External.pub gap kw' sp' p (some (sp2, y)) tail).src ++ '>' :: w =
          gap :: (kw' ++ (sp' ++ (p.src ++ (sp2 ++ (y.src ++ (tail ++ '>' :: w)))))) := by
        simp [External.src]
      rw [e2, e1]
      have q : ∀ st, st = .afterDoctypePublic ∨ st = .betweenDoctypeIdentifiers → ∀ t : Token, t.kind = .doctype → ∀ rest,
          fin E (dt s st (some t) [] []) (y.src ++ rest) =
            fin E (dt s .afterDoctypeSystem (some (withIdent false t y.text)) [] []) rest := by
        intro st hst t ht rest
        rcases hst with rfl | rfl <;>
          exact quoted_fin E ht (double := .doctypeSystemDouble) (single := .doctypeSystemSingle)
            rfl rfl (fun _ _ => rfl) (fun _ _ => rfl) k2 rest
      rw [skip_spaces E (a := .afterDoctypePublic) (b := .betweenDoctypeIdentifiers) _
        (fun c hc => hbet _ (Or.inl rfl) c hc _) (fun c hc => hbet _ (Or.inr rfl) c hc _)
        (by rw [q _ (Or.inl rfl) _ rfl, q _ (Or.inr rfl) _ rfl]) sp2 k1, q _ (Or.inr rfl) _ rfl,
        doctype_end E g6 (fun c hc => hsp c hc _) (fun c hc => hsp c hc _) rfl rfl]
      rfl

end Verif.Html
