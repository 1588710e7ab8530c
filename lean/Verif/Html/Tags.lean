import Verif.Html.Named
/-
Tags, read from their first character to their last.
-/
namespace Verif.Html
open Spec

/-- A state that hands the character on to one that keeps it. -/
theorem fin_again' (E : Env) {s s' : Lex} {c : Char} (w : Str)
    (h : step E s c false = (s', true)) (hc : (step E s' c false).2 = false) :
    fin E s (c :: w) = fin E s' (c :: w) := by
  rw [fin_cons, fin_cons]
  congr 1
  simp [consume, consumeN, h, hc]

theorem pieces_fin {E : Env} (hE : E.ents = entities) {p : Place} (w : Str) :
    ∀ (ps : List Piece) {s : Lex}, Placed p s.state → (∀ q ∈ ps, q.Ok p) →
      ∃ t, fin E s (srcs ps ++ w) = fin E t w ∧ Traces (put E (meanings ps) s) t
  | [], s, _, _ => by
    refine ⟨s, rfl, ?_⟩
    show Traces (put E [] s) s
    unfold put
    split
    · exact ⟨s.ret, s.temp, s.cur, s.matched, rfl⟩
    · exact ⟨s.ret, s.temp, s.cur, s.matched, by simp [appends]⟩
  | q :: ps, s, hs, hq => by
    obtain ⟨t, e1, ht⟩ := piece_fin hE hs (hq q (by simp)) (srcs ps ++ w)
    obtain ⟨u, e2, hu⟩ := pieces_fin hE w ps (s := t) (by rw [ht.state, put_state]; exact hs)
      (fun x hx => hq x (by simp [hx]))
    refine ⟨u, ?_, ?_⟩
    · rw [← e2, ← e1]
      simp [srcs]
    · rw [show meanings (q :: ps) = q.means ++ meanings ps by simp [meanings], put_append]
      exact (put_traces ht).trans hu

/-- The tokenizer inside a tag. -/
def tagSt (s : Lex) (st : State) (t : Token) (b : Bool) (w : Str) : Lex :=
  { s with state := st, token := some t, attr := b, builder := w }

/-- What reading a tag does not touch. -/
structure Keep (s t : Lex) : Prop where
  out : t.out = s.out
  last : t.lastStartTag = s.lastStartTag
  peek : t.peek = s.peek
  fault : t.fault = s.fault

theorem Keep.refl (s : Lex) : Keep s s := ⟨rfl, rfl, rfl, rfl⟩
theorem Keep.trans {a b c : Lex} (h : Keep a b) (g : Keep b c) : Keep a c :=
  ⟨g.out.trans h.out, g.last.trans h.last, g.peek.trans h.peek, g.fault.trans h.fault⟩

theorem lower_char (c : Char) : toLower c = c.toLower := by
  unfold toLower Char.toLower
  by_cases h : isUpper c = true
  · rw [if_pos h]
    simp only [isUpper, Bool.and_eq_true, decide_eq_true_eq] at h
    have h1 : c.val ≥ 'A'.val ∧ c.val ≤ 'Z'.val := by
      constructor
      · exact UInt32.le_iff_toNat_le.mpr h.1
      · exact UInt32.le_iff_toNat_le.mpr h.2
    rw [dif_pos h1]
    apply char_ext
    rw [toNat_ofNat (by omega)]
    show _ = (c.val + 32).toNat
    rw [UInt32.toNat_add]
    show c.toNat + 32 = (c.toNat + 32) % 4294967296
    omega
  · rw [if_neg h]
    simp only [isUpper, Bool.and_eq_true, decide_eq_true_eq] at h
    rw [dif_neg]
    intro ⟨h1, h2⟩
    exact h ⟨UInt32.le_iff_toNat_le.mp h1, UInt32.le_iff_toNat_le.mp h2⟩

theorem lower_append (a b : Str) : lower (a ++ b) = lower a ++ lower b := by simp [lower]

theorem not_space {c : Char} (h : ¬ Space c) : isSpace c = false := by
  cases hs : isSpace c with
  | false => rfl
  | true => exact absurd (space_iff.mp hs) h

theorem tagName_fin (E : Env) {s : Lex} {t : Token} {b : Bool} (w : Str) :
    ∀ (n bl : Str), (∀ c ∈ n, ¬ Space c ∧ c ≠ '/' ∧ c ≠ '>' ∧ c ≠ '\x00') →
      fin E (tagSt s .tagName t b bl) (n ++ w) = fin E (tagSt s .tagName t b (bl ++ lower n)) w
  | [], bl, _ => by simp [lower]
  | c :: n, bl, h => by
    have hc := h c (by simp)
    have h1 : fin E (tagSt s .tagName t b bl) (c :: (n ++ w)) =
        fin E (tagSt s .tagName t b (bl ++ [c.toLower])) (n ++ w) := by
      apply fin_stay
      show onTagName E _ c false = _
      unfold onTagName
      rw [if_neg (by rw [not_space hc.1]; decide), if_neg hc.2.1, if_neg hc.2.2.1]
      by_cases hu : isUpper c = true
      · rw [if_pos hu, lower_char]; rfl
      · rw [if_neg hu, if_neg hc.2.2.2, if_neg (by decide)]
        have : c.toLower = c := by rw [← lower_char]; unfold toLower; rw [if_neg hu]
        rw [this]; rfl
    show fin E _ (c :: (n ++ w)) = _
    rw [h1, tagName_fin E w n _ (fun x hx => h x (by simp [hx]))]
    simp [lower]

/-- The characters that end a name. -/
def Ends (c : Char) : Prop := Space c ∨ c = '/' ∨ c = '>'

theorem tagName_end (E : Env) {s : Lex} {t : Token} {b : Bool} {n : Str} {c : Char} (w : Str)
    (hc : Ends c) :
    fin E (tagSt s .tagName t b n) (c :: w) =
      fin E (tagSt s .beforeAttributeName { t with name := some n } b []) (c :: w) := by
  rw [fin_cons, fin_cons]
  congr 1
  rcases hc with hc | rfl | rfl
  · have hs := space_iff.mpr hc
    rw [consume_stay (s' := tagSt s .beforeAttributeName { t with name := some n } b []),
      consume_stay (s' := tagSt s .beforeAttributeName { t with name := some n } b [])]
    · show onBeforeAttributeName E _ c false = _
      unfold onBeforeAttributeName
      rw [if_pos hs]; rfl
    · show onTagName E _ c false = _
      unfold onTagName
      rw [if_pos hs]; rfl
  · rfl
  · rfl

/-- White space before an attribute or before the end of the tag. -/
theorem before_spaces (E : Env) {s : Lex} {t : Token} {b : Bool} (w : Str) :
    ∀ (ws : Str), Spaces ws →
      fin E (tagSt s .beforeAttributeName t b []) (ws ++ w) =
        fin E (tagSt s .beforeAttributeName t b []) w
  | [], _ => rfl
  | c :: ws, h => by
    have : fin E (tagSt s .beforeAttributeName t b []) (c :: (ws ++ w)) =
        fin E (tagSt s .beforeAttributeName t b []) (ws ++ w) := by
      apply fin_stay
      show onBeforeAttributeName E _ c false = _
      unfold onBeforeAttributeName
      rw [if_pos (space_iff.mpr (h c (by simp)))]; rfl
    show fin E _ (c :: (ws ++ w)) = _
    rw [this, before_spaces E w ws (fun x hx => h x (by simp [hx]))]

theorem after_spaces (E : Env) {s : Lex} {t : Token} {b : Bool} (w : Str) :
    ∀ (ws : Str), Spaces ws →
      fin E (tagSt s .afterAttributeName t b []) (ws ++ w) =
        fin E (tagSt s .afterAttributeName t b []) w
  | [], _ => rfl
  | c :: ws, h => by
    have : fin E (tagSt s .afterAttributeName t b []) (c :: (ws ++ w)) =
        fin E (tagSt s .afterAttributeName t b []) (ws ++ w) := by
      apply fin_stay
      show onAfterAttributeName E _ c false = _
      unfold onAfterAttributeName
      rw [if_pos (space_iff.mpr (h c (by simp)))]; rfl
    show fin E _ (c :: (ws ++ w)) = _
    rw [this, after_spaces E w ws (fun x hx => h x (by simp [hx]))]

theorem value_spaces (E : Env) {s : Lex} {t : Token} {b : Bool} (w : Str) :
    ∀ (ws : Str), Spaces ws →
      fin E (tagSt s .beforeAttributeValue t b []) (ws ++ w) =
        fin E (tagSt s .beforeAttributeValue t b []) w
  | [], _ => rfl
  | c :: ws, h => by
    have : fin E (tagSt s .beforeAttributeValue t b []) (c :: (ws ++ w)) =
        fin E (tagSt s .beforeAttributeValue t b []) (ws ++ w) := by
      apply fin_stay
      show onBeforeAttributeValue E _ c false = _
      unfold onBeforeAttributeValue
      rw [if_pos (space_iff.mpr (h c (by simp)))]; rfl
    show fin E _ (c :: (ws ++ w)) = _
    rw [this, value_spaces E w ws (fun x hx => h x (by simp [hx]))]

/-- A character an attribute name is made of. -/
def AttrCh (c : Char) : Prop := ¬ Space c ∧ c ≠ '/' ∧ c ≠ '>' ∧ c ≠ '=' ∧ c ≠ '\x00'

theorem attrName_step (E : Env) {s : Lex} {t : Token} {b : Bool} {bl : Str} {c : Char}
    (hc : AttrCh c) : step E (tagSt s .attributeName t b bl) c false =
      (tagSt s .attributeName t b (bl ++ [c.toLower]), false) := by
  show onAttributeName E _ c false = _
  unfold onAttributeName
  rw [if_neg (by simp [not_space hc.1, hc.2.1, hc.2.2.1]), if_neg hc.2.2.2.1]
  by_cases hu : isUpper c = true
  · rw [if_pos hu, lower_char]; rfl
  · rw [if_neg hu, if_neg hc.2.2.2.2]
    have : c.toLower = c := by rw [← lower_char]; unfold toLower; rw [if_neg hu]
    rw [this]; rfl

theorem attrName_fin (E : Env) {s : Lex} {t : Token} {b : Bool} (w : Str) :
    ∀ (n bl : Str), (∀ c ∈ n, AttrCh c) →
      fin E (tagSt s .attributeName t b bl) (n ++ w) =
        fin E (tagSt s .attributeName t b (bl ++ lower n)) w
  | [], bl, _ => by simp [lower]
  | c :: n, bl, h => by
    show fin E _ (c :: (n ++ w)) = _
    rw [fin_stay E _ (attrName_step E (h c (by simp))),
      attrName_fin E w n _ (fun x hx => h x (by simp [hx]))]
    simp [lower]

/-- The token while the name of an attribute is read. -/
def opened (t : Token) : Token := { t with attrs := t.attrs ++ [{}] }

theorem attr_begin (E : Env) {s : Lex} {t : Token} {b : Bool} {c : Char} (w : Str)
    (hc : AttrCh c) :
    fin E (tagSt s .beforeAttributeName t b []) (c :: w) =
      fin E (tagSt s .attributeName (opened t) true []) (c :: w) := by
  apply fin_again'
  · show onBeforeAttributeName E _ c false = _
    unfold onBeforeAttributeName
    rw [if_neg (by rw [not_space hc.1]; decide), if_neg (by simp [hc.2.1, hc.2.2.1]),
      if_neg hc.2.2.2.1]
    rfl
  · rw [attrName_step E hc]

theorem attr_begin' (E : Env) {s : Lex} {t : Token} {b : Bool} {c : Char} (w : Str)
    (hc : AttrCh c) :
    fin E (tagSt s .afterAttributeName t b []) (c :: w) =
      fin E (tagSt s .attributeName (opened t) true []) (c :: w) := by
  apply fin_again'
  · show onAfterAttributeName E _ c false = _
    unfold onAfterAttributeName
    rw [if_neg (by rw [not_space hc.1]; decide), if_neg hc.2.1, if_neg hc.2.2.2.1,
      if_neg hc.2.2.1, if_neg (by decide)]
    rfl
  · rw [attrName_step E hc]

theorem lower_attrName {n : Str} (hne : n ≠ []) (h : ∀ c ∈ n, AttrCh c) : AttrName (lower n) := by
  have key : ∀ c, AttrCh c → NameChar c.toLower ∧ c.toLower ≠ '=' := by
    intro c hc
    rw [← lower_char]
    by_cases hu : isUpper c = true
    · have hl := lower_of_upper (upper_iff.mp hu)
      refine ⟨nameChar_of_lower hl, ?_⟩
      intro e; rw [e] at hl; exact absurd hl (by unfold Lower; decide)
    · unfold toLower
      rw [if_neg hu]
      exact ⟨⟨fun h => hu (upper_iff.mpr h), hc.1, hc.2.1, hc.2.2.1, hc.2.2.2.2⟩, hc.2.2.2.1⟩
  refine ⟨by simpa [lower] using hne, ?_, ?_⟩
  · intro c hc
    obtain ⟨x, hx, rfl⟩ := List.mem_map.mp hc
    exact (key x (h x hx)).1
  · intro c hc
    obtain ⟨x, hx, rfl⟩ := List.mem_map.mp (List.mem_of_mem_tail hc)
    exact (key x (h x hx)).2

/-- The token when the name of an attribute was read, and whether the attribute was kept. -/
def named1 (t : Token) (n : Str) : Token :=
  { t with attrs := addAttr t.attrs ⟨n, []⟩ }
def kept (t : Token) (n : Str) : Bool := decide (n ∉ t.attrs.map Attr.name)

theorem leave_fin {s : Lex} {t : Token} {n : Str} {st : State} (ht : GoodTag t)
    (hn : AttrName n) :
    leaveAttributeName (commitAttrName (tagSt s st (opened t) true n)) =
      tagSt s st (named1 t n) (kept t n) [] := by
  rw [leave_eq (s := tagSt s st (opened t) true n) (t := opened t) (pre := t.attrs) rfl rfl
    ht rfl hn]
  show (if n ∈ t.attrs.map Attr.name then _ else _) = _
  by_cases h : n ∈ t.attrs.map Attr.name
  · rw [if_pos h]
    have : named1 t n = t := by unfold named1 addAttr; rw [if_pos h]
    rw [this]
    simp only [kept, h, not_true_eq_false, decide_false]
    rfl
  · rw [if_neg h]
    have : named1 t n = { t with attrs := t.attrs ++ [⟨n, []⟩] } := by
      unfold named1 addAttr; rw [if_neg h]
    rw [this]
    simp only [kept, h, not_false_eq_true, decide_true]
    rfl

/-- The token when the value was read too. -/
def valued (t : Token) (n v : Str) : Token := { t with attrs := addAttr t.attrs ⟨n, v⟩ }

theorem takeValue_fin {s : Lex} {t : Token} {n v : Str} {st : State} :
    takeValue (tagSt s st (named1 t n) (kept t n) v) = tagSt s st (valued t n v) (kept t n) [] := by
  unfold takeValue
  by_cases h : n ∈ t.attrs.map Attr.name
  · have hk : kept t n = false := by simp [kept, h]
    have h1 : named1 t n = t := by unfold named1 addAttr; rw [if_pos h]
    have h2 : valued t n v = t := by unfold valued addAttr; rw [if_pos h]
    rw [hk, h1, h2]
    rfl
  · have hk : kept t n = true := by simp [kept, h]
    have h1 : named1 t n = { t with attrs := t.attrs ++ [⟨n, []⟩] } := by
      unfold named1 addAttr; rw [if_neg h]
    have h2 : valued t n v = { t with attrs := t.attrs ++ [⟨n, v⟩] } := by
      unfold valued addAttr; rw [if_neg h]
    rw [hk, h1, h2]
    unfold onAttr
    show clearBuilder (if true = true then (if (t.attrs ++ [_]) = [] then _ else _) else _) = _
    rw [if_pos rfl, if_neg (by simp)]
    show clearBuilder { s with state := st, token := some { t with attrs := setLast _ (t.attrs ++ [_]) }, attr := true, builder := v } = _
    rw [setLast_append]
    rfl

/-- After an attribute with a value: the closing quote behaves like the space before an
attribute. -/
theorem quoted_end (E : Env) {s : Lex} {t : Token} {b : Bool} {c : Char} (w : Str) (hc : Ends c) :
    fin E (tagSt s .afterValueQuoted t b []) (c :: w) =
      fin E (tagSt s .beforeAttributeName t b []) (c :: w) := by
  rw [fin_cons, fin_cons]
  congr 1
  rcases hc with hc | rfl | rfl
  · have hs := space_iff.mpr hc
    rw [consume_stay (s' := tagSt s .beforeAttributeName t b []),
      consume_stay (s' := tagSt s .beforeAttributeName t b [])]
    · show onBeforeAttributeName E _ c false = _
      unfold onBeforeAttributeName
      rw [if_pos hs]; rfl
    · show onAfterValueQuoted E _ c false = _
      unfold onAfterValueQuoted
      rw [if_pos hs]; rfl
  · rfl
  · rfl

/-- What follows an attribute: white space, then the next attribute or the end of the tag. -/
structure Rest (w : Str) : Prop where
  split : ∃ ws y r, w = ws ++ y :: r ∧ Spaces ws ∧ (AttrCh y ∨ y = '/' ∨ y = '>') ∧
    (ws = [] → y = '/' ∨ y = '>')

theorem Rest.first {w : Str} (h : Rest w) : ∃ c r, w = c :: r ∧ Ends c := by
  obtain ⟨ws, y, r, rfl, h1, h2, h3⟩ := h.split
  cases ws with
  | nil => exact ⟨y, r, rfl, Or.inr (h3 rfl)⟩
  | cons c ws => exact ⟨c, _, rfl, Or.inl (h1 c (by simp))⟩

theorem after_before (E : Env) {s : Lex} {t : Token} {b : Bool} {w : Str} (h : Rest w) :
    fin E (tagSt s .afterAttributeName t b []) w =
      fin E (tagSt s .beforeAttributeName t b []) w := by
  obtain ⟨ws, y, r, rfl, h1, h2, h3⟩ := h.split
  rw [after_spaces E _ ws h1, before_spaces E _ ws h1]
  rcases h2 with h2 | rfl | rfl
  · rw [attr_begin E r h2, attr_begin' E r h2]
  · rfl
  · rfl

theorem name_end (E : Env) {s : Lex} {t : Token} {n : Str} {c : Char} (w : Str) (hc : Ends c)
    (ht : GoodTag t) (hn : AttrName n) :
    fin E (tagSt s .attributeName (opened t) true n) (c :: w) =
      fin E (tagSt s .afterAttributeName (named1 t n) (kept t n) []) (c :: w) := by
  apply fin_again'
  · show onAttributeName E _ c false = _
    unfold onAttributeName
    rw [if_pos (by
      rcases hc with h | h | h
      · exact Or.inl (space_iff.mpr h)
      · exact Or.inr (Or.inl h)
      · exact Or.inr (Or.inr (Or.inl h))), leave_fin ht hn]
    rfl
  · show (onAfterAttributeName E _ c false).2 = _
    unfold onAfterAttributeName
    rcases hc with h | h | h
    · rw [if_pos (space_iff.mpr h)]; rfl
    · subst h; rfl
    · subst h; rfl

/-- The `=` after the name, with the white space before it. -/
theorem equals (E : Env) {s : Lex} {t : Token} {n : Str} (w : Str) {pre : Str} (hp : Spaces pre)
    (ht : GoodTag t) (hn : AttrName n) :
    fin E (tagSt s .attributeName (opened t) true n) (pre ++ '=' :: w) =
      fin E (tagSt s .beforeAttributeValue (named1 t n) (kept t n) []) w := by
  cases pre with
  | nil =>
    apply fin_stay
    show onAttributeName E _ '=' false = _
    unfold onAttributeName
    rw [if_neg (by decide), if_pos rfl, leave_fin ht hn]
    rfl
  | cons c pre =>
    show fin E _ (c :: (pre ++ '=' :: w)) = _
    rw [name_end E _ (Or.inl (hp c (by simp))) ht hn]
    show fin E _ ((c :: pre) ++ '=' :: w) = _
    rw [after_spaces E _ (c :: pre) hp]
    rfl

theorem valued_good {t : Token} (ht : GoodTag t) {n : Str} (hn : AttrName n) (v : Str) :
    GoodTag (valued t n v) := by
  unfold valued addAttr
  by_cases h : n ∈ t.attrs.map Attr.name
  · rw [if_pos h]; exact ht
  · rw [if_neg h]; exact goodTag_snoc (a := ⟨n, v⟩) ht hn h

/-- Reading pieces inside a tag. -/
theorem pieces_tag {E : Env} (hE : E.ents = entities) {p : Place} {st : State}
    (hp : Placed p st) (hin : p.inTag = true) {s : Lex} {t : Token} {b : Bool} {ps : List Piece}
    (hq : ∀ q ∈ ps, q.Ok p) (w : Str) :
    ∃ s', fin E (tagSt s st t b []) (srcs ps ++ w) = fin E (tagSt s' st t b (meanings ps)) w ∧
      Keep s s' := by
  obtain ⟨u, e, hu⟩ := pieces_fin hE w ps (s := tagSt s st t b []) hp hq
  have hv : put E (meanings ps) (tagSt s st t b []) = tagSt s st t b (meanings ps) :=
    put_value (placed_in (s := tagSt s st t b []) hin hp) _
  rw [hv] at hu
  obtain ⟨ret, temp, cur, m, rfl⟩ := hu
  exact ⟨{ s with ret := ret, temp := temp, cur := cur, matched := m }, e, ⟨rfl, rfl, rfl, rfl⟩⟩

/-- One attribute. -/
theorem attr_fin {E : Env} (hE : E.ents = entities) {s : Lex} {t : Token} {b : Bool}
    (ht : GoodTag t) {a : AttrSrc} (ha : a.Ok) {w : Str} (hw : Rest w)
    (hb : a.value.isBare = true → ∃ c r, w = c :: r ∧ (Space c ∨ c = '>')) :
    ∃ s' b', fin E (tagSt s .beforeAttributeName t b []) (a.src ++ w) =
        fin E (tagSt s' .beforeAttributeName (valued t (lower a.name) a.value.means) b' []) w ∧
      Keep s s' := by
  obtain ⟨lead, name, value⟩ := a
  obtain ⟨⟨_, hlead⟩, ⟨hne, hname⟩, hval⟩ := ha
  have hn := lower_attrName hne hname
  have e0 : ∀ w', fin E (tagSt s .beforeAttributeName t b []) (lead ++ (name ++ w')) =
      fin E (tagSt s .attributeName (opened t) true (lower name)) w' := by
    intro w'
    rw [before_spaces E _ lead hlead]
    cases name with
    | nil => exact absurd rfl hne
    | cons c r =>
      show fin E _ (c :: (r ++ w')) = _
      rw [attr_begin E _ (hname c (by simp))]
      show fin E _ ((c :: r) ++ w') = _
      rw [attrName_fin E w' (c :: r) [] hname]
      rfl
  cases value with
  | none =>
    refine ⟨s, kept t (lower name), ?_, Keep.refl s⟩
    obtain ⟨c, r, hc, hend⟩ := hw.first
    rw [show (AttrSrc.mk lead name .none).src ++ w = lead ++ (name ++ w) by
      simp [AttrSrc.src, Val.src], e0, hc, name_end E r hend ht hn, ← hc, after_before E hw]
    rfl
  | quoted pre post q ps =>
    obtain ⟨hpre, hpost, hq, hps⟩ := hval
    have esrc : (AttrSrc.mk lead name (.quoted pre post q ps)).src ++ w =
        lead ++ (name ++ (pre ++ '=' :: (post ++ q :: (srcs ps ++ (q :: w))))) := by
      simp [AttrSrc.src, Val.src]
    rw [esrc, e0, equals E _ hpre ht hn, value_spaces E _ post hpost]
    obtain ⟨c, r, hc, hend⟩ := hw.first
    rcases hq with rfl | rfl
    · have e1 : fin E (tagSt s .beforeAttributeValue (named1 t (lower name)) (kept t (lower name)) []) ('"' :: (srcs ps ++ '"' :: w)) =
          fin E (tagSt s .valueDoubleQuoted (named1 t (lower name)) (kept t (lower name)) []) (srcs ps ++ '"' :: w) :=
        fin_stay E _ rfl
      obtain ⟨s', e2, hk⟩ := pieces_tag hE Placed.double rfl (s := s) (t := named1 t (lower name))
        (b := kept t (lower name)) hps ('"' :: w)
      refine ⟨s', kept t (lower name), ?_, hk⟩
      rw [e1, e2]
      have e3 : fin E (tagSt s' .valueDoubleQuoted (named1 t (lower name)) (kept t (lower name)) (meanings ps)) ('"' :: w) =
          fin E (go .afterValueQuoted (takeValue (tagSt s' .valueDoubleQuoted (named1 t (lower name)) (kept t (lower name)) (meanings ps)))) w :=
        fin_stay E _ rfl
      rw [e3, takeValue_fin, hc]
      exact quoted_end E r hend
    · have e1 : fin E (tagSt s .beforeAttributeValue (named1 t (lower name)) (kept t (lower name)) []) ('\'' :: (srcs ps ++ '\'' :: w)) =
          fin E (tagSt s .valueSingleQuoted (named1 t (lower name)) (kept t (lower name)) []) (srcs ps ++ '\'' :: w) :=
        fin_stay E _ rfl
      obtain ⟨s', e2, hk⟩ := pieces_tag hE Placed.single rfl (s := s) (t := named1 t (lower name))
        (b := kept t (lower name)) hps ('\'' :: w)
      refine ⟨s', kept t (lower name), ?_, hk⟩
      rw [e1, e2]
      have e3 : fin E (tagSt s' .valueSingleQuoted (named1 t (lower name)) (kept t (lower name)) (meanings ps)) ('\'' :: w) =
          fin E (go .afterValueQuoted (takeValue (tagSt s' .valueSingleQuoted (named1 t (lower name)) (kept t (lower name)) (meanings ps)))) w :=
        fin_stay E _ rfl
      rw [e3, takeValue_fin, hc]
      exact quoted_end E r hend
  | bare pre post ps =>
    obtain ⟨hpre, hpost, hps, c0, r0, hsrc, hc1, hc2⟩ := hval
    have esrc : (AttrSrc.mk lead name (.bare pre post ps)).src ++ w =
        lead ++ (name ++ (pre ++ '=' :: (post ++ (srcs ps ++ w)))) := by
      simp [AttrSrc.src, Val.src]
    rw [esrc, e0, equals E _ hpre ht hn, value_spaces E _ post hpost]
    have hfirst : ¬ Space c0 ∧ c0 ≠ '>' := by
      cases ps with
      | nil => cases hsrc
      | cons q ps =>
        have hq := hps q (by simp)
        cases q with
        | char c =>
          simp only [srcs, List.flatMap_cons, Piece.src, List.cons_append, List.cons.injEq] at hsrc
          rw [← hsrc.1]
          simp only [Piece.Ok, Place.stops, not_or] at hq
          exact ⟨hq.2.1, hq.2.2.1⟩
        | _ =>
          simp only [srcs, List.flatMap_cons, Piece.src, List.cons_append, List.cons.injEq] at hsrc
          rw [← hsrc.1]
          exact ⟨by unfold Space; decide, by decide⟩
    have e1 : fin E (tagSt s .beforeAttributeValue (named1 t (lower name)) (kept t (lower name)) []) (srcs ps ++ w) =
        fin E (tagSt s .valueUnquoted (named1 t (lower name)) (kept t (lower name)) []) (srcs ps ++ w) := by
      rw [hsrc]
      apply fin_again
      · show onBeforeAttributeValue E _ c0 false = _
        unfold onBeforeAttributeValue
        rw [if_neg (by rw [not_space hfirst.1]; decide), if_neg hc1, if_neg hc2, if_neg hfirst.2]
        rfl
      · exact Placed.bare.calm
    obtain ⟨s', e2, hk⟩ := pieces_tag hE Placed.bare rfl (s := s) (t := named1 t (lower name))
      (b := kept t (lower name)) hps w
    refine ⟨s', kept t (lower name), ?_, hk⟩
    rw [e1, e2]
    obtain ⟨c, r, hc, hend⟩ := hb rfl
    rw [hc, fin_cons, fin_cons]
    congr 1
    rcases hend with hend | rfl
    · have hs := space_iff.mpr hend
      rw [consume_stay (s' := tagSt s' .beforeAttributeName (valued t (lower name) (meanings ps)) (kept t (lower name)) []),
        consume_stay (s' := tagSt s' .beforeAttributeName (valued t (lower name) (meanings ps)) (kept t (lower name)) [])]
      · show onBeforeAttributeName E _ c false = _
        unfold onBeforeAttributeName
        rw [if_pos hs]; rfl
      · show onValueUnquoted E _ c false = _
        unfold onValueUnquoted
        rw [if_pos hs, takeValue_fin]; rfl
    · have e3 : consume E (tagSt s' .valueUnquoted (named1 t (lower name)) (kept t (lower name)) (meanings ps)) '>' false =
          emit E (go .data (takeValue (tagSt s' .valueUnquoted (named1 t (lower name)) (kept t (lower name)) (meanings ps)))) := rfl
      rw [e3, takeValue_fin]
      rfl

/-! ### Whole tags -/

theorem closing_first (self : Bool) (w : Str) :
    ∃ y r, closing self ++ w = y :: r ∧ (y = '/' ∨ y = '>') ∧ (self = false → y = '>') := by
  cases self with
  | false => exact ⟨'>', w, rfl, Or.inr rfl, fun _ => rfl⟩
  | true => exact ⟨'/', '>' :: w, rfl, Or.inl rfl, fun h => by cases h⟩

theorem tail_rest {tail : Str} (ht : Spaces tail) (self : Bool) (w : Str) :
    Rest (tail ++ (closing self ++ w)) := by
  obtain ⟨y, r, e, h, _⟩ := closing_first self w
  exact ⟨tail, y, r, by rw [e], ht, Or.inr h, fun _ => h⟩

theorem attrs_rest {a : AttrSrc} (ha : a.Ok) (w : Str) : Rest (a.src ++ w) := by
  obtain ⟨lead, name, value⟩ := a
  obtain ⟨⟨h1, h2⟩, ⟨h3, h4⟩, _⟩ := ha
  simp only at h1 h3
  cases name with
  | nil => exact absurd rfl h3
  | cons c n =>
    exact ⟨lead, c, n ++ value.src ++ w, by simp [AttrSrc.src], h2, Or.inl (h4 c (by simp)),
      fun h => absurd h h1⟩

def attrSrcs (as : List AttrSrc) : Str := as.flatMap AttrSrc.src

theorem attrs_fin {E : Env} (hE : E.ents = entities) {tail : Str} {self : Bool} (w : Str) :
    ∀ (as : List AttrSrc) {s : Lex} {t : Token} {b : Bool}, GoodTag t → Attrs.Ok as tail self →
      ∃ s' b', fin E (tagSt s .beforeAttributeName t b [])
          (attrSrcs as ++ (tail ++ (closing self ++ w))) =
          fin E (tagSt s' .beforeAttributeName
            { t with attrs := as.foldl (fun l a => addAttr l a.means) t.attrs } b' [])
            (tail ++ (closing self ++ w)) ∧ Keep s s'
  | [], s, t, b, _, _ => ⟨s, b, rfl, Keep.refl s⟩
  | a :: as, s, t, b, ht, ⟨hok, htail, hself⟩ => by
    have ha := hok a (by simp)
    have hrest : Rest (attrSrcs as ++ (tail ++ (closing self ++ w))) := by
      cases as with
      | nil => exact tail_rest htail self w
      | cons a2 as =>
        have := attrs_rest (hok a2 (by simp)) (attrSrcs as ++ (tail ++ (closing self ++ w)))
        simpa [attrSrcs] using this
    have hbare : a.value.isBare = true →
        ∃ c r, attrSrcs as ++ (tail ++ (closing self ++ w)) = c :: r ∧ (Space c ∨ c = '>') := by
      intro hb
      cases as with
      | nil =>
        cases tail with
        | nil =>
          cases self with
          | false => exact ⟨'>', w, rfl, Or.inr rfl⟩
          | true => exact absurd rfl (hself rfl a (by simp) hb)
        | cons c tl => exact ⟨c, _, rfl, Or.inl (htail c (by simp))⟩
      | cons a2 as =>
        obtain ⟨hl1, hl2⟩ := (hok a2 (by simp)).lead
        cases hl : a2.lead with
        | nil => exact absurd hl hl1
        | cons c l =>
          rw [hl] at hl2
          exact ⟨c, _, by simp [attrSrcs, AttrSrc.src, hl]; rfl, Or.inl (hl2 c (by simp))⟩
    obtain ⟨s1, b1, e1, k1⟩ := attr_fin hE (s := s) (b := b) ht ha hrest hbare
    have hn := lower_attrName ha.name.1 ha.name.2
    obtain ⟨s2, b2, e2, k2⟩ := attrs_fin hE w as (s := s1) (b := b1)
      (valued_good ht hn a.value.means)
      ⟨fun x hx => hok x (by simp [hx]), htail, by
        intro h x hx
        apply hself h x
        cases as with
        | nil => cases hx
        | cons y ys => simpa [List.getLast?_cons_cons] using hx⟩
    refine ⟨s2, b2, ?_, k1.trans k2⟩
    rw [show attrSrcs (a :: as) ++ (tail ++ (closing self ++ w)) =
      a.src ++ (attrSrcs as ++ (tail ++ (closing self ++ w))) by simp [attrSrcs], e1, e2]
    rfl

theorem close_fin (E : Env) {s : Lex} {t : Token} {b : Bool} {tail : Str} (ht : Spaces tail)
    (hs : t.selfClosing = false) (self : Bool) (w : Str) :
    fin E (tagSt s .beforeAttributeName t b []) (tail ++ (closing self ++ w)) =
      fin E (emit E (tagSt s .data { t with selfClosing := self } b [])) w := by
  rw [before_spaces E _ tail ht]
  cases self with
  | true =>
    rw [show closing true ++ w = '/' :: '>' :: w by rfl, fin_cons, fin_cons]
    rfl
  | false =>
    rw [show closing false ++ w = '>' :: w by rfl, fin_cons]
    have : { t with selfClosing := false } = t := by cases t; simp only at hs; subst hs; rfl
    rw [this]
    rfl

/-- The name of an element, in lower case. -/
theorem lower_tagName {n : Str} (h : Named n) : TagName (lower n) := by
  have key : ∀ c, (¬ Space c ∧ c ≠ '/' ∧ c ≠ '>' ∧ c ≠ '\x00') → NameChar c.toLower := by
    intro c hc
    rw [← lower_char]
    by_cases hu : isUpper c = true
    · exact nameChar_of_lower (lower_of_upper (upper_iff.mp hu))
    · unfold toLower
      rw [if_neg hu]
      exact ⟨fun h => hu (upper_iff.mpr h), hc⟩
  obtain ⟨⟨c, r, rfl, hc⟩, hall⟩ := h
  refine ⟨⟨c.toLower, lower r, rfl, ?_⟩, ?_⟩
  · rw [← lower_char]
    by_cases hu : isUpper c = true
    · exact lower_of_upper (upper_iff.mp hu)
    · unfold toLower
      rw [if_neg hu]
      rcases hc with hc | hc
      · exact absurd (upper_iff.mpr hc) hu
      · exact hc
  · intro x hx
    obtain ⟨y, hy, rfl⟩ := List.mem_map.mp hx
    exact key y (hall y hy)

/-- A whole tag after its `<` or `</`. -/
theorem tag_fin {E : Env} (hE : E.ents = entities) {s : Lex} {k : Kind} {n : Str} (hn : Named n)
    {as : List AttrSrc} {tail : Str} {self : Bool} (ha : Attrs.Ok as tail self) (w : Str) :
    ∃ s' b', fin E (tagSt s .tagName { kind := k } s.attr []) (n ++ (attrSrcs as ++ (tail ++ (closing self ++ w)))) =
        fin E (emit E (tagSt s' .data
          { kind := k, name := some (lower n), attrs := (as.map AttrSrc.means).foldl addAttr [], selfClosing := self } b' [])) w ∧
      Keep s s' := by
  have hrest : Rest (attrSrcs as ++ (tail ++ (closing self ++ w))) := by
    cases as with
    | nil => exact tail_rest ha.2.1 self w
    | cons a2 as =>
      have := attrs_rest (ha.1 a2 (by simp)) (attrSrcs as ++ (tail ++ (closing self ++ w)))
      simpa [attrSrcs] using this
  obtain ⟨c, r, hc, hend⟩ := hrest.first
  have hg : GoodTag { kind := k, name := some (lower n) } :=
    ⟨⟨_, rfl, lower_tagName hn⟩, (fun a h => by cases h), List.nodup_nil⟩
  obtain ⟨s', b', e, hk⟩ := attrs_fin hE (tail := tail) (self := self) w as (s := s) (b := s.attr) hg ha
  refine ⟨s', b', ?_, hk⟩
  rw [tagName_fin E _ n [] hn.2, hc, tagName_end E r hend, ← hc]
  show fin E (tagSt s .beforeAttributeName { kind := k, name := some (lower n) } s.attr []) _ = _
  rw [e, close_fin E ha.2.1 rfl, List.foldl_map]

theorem start_open (E : Env) {s : Lex} (hs : s.state = .data) (hb : s.builder = []) {n : Str}
    (hn : Named n) (w : Str) :
    fin E s ('<' :: (n ++ w)) = fin E (tagSt s .tagName { kind := .startTag } s.attr []) (n ++ w) := by
  obtain ⟨⟨c, r, rfl, hc⟩, hall⟩ := hn
  have e1 : fin E s ('<' :: (c :: r ++ w)) = fin E { s with state := .tagOpen } (c :: r ++ w) := by
    apply fin_stay
    unfold step; rw [hs]
    rfl
  have ha : isAlpha c = true := by
    unfold isAlpha
    rcases hc with h | h
    · rw [upper_iff.mpr h]; rfl
    · rw [lower_iff.mpr h, Bool.or_true]
  have hne : c ≠ '!' ∧ c ≠ '/' := by
    constructor <;> (intro e; subst e; exact absurd ha (by decide))
  rw [e1]
  show fin E _ (c :: (r ++ w)) = fin E _ (c :: (r ++ w))
  apply fin_again'
  · show onTagOpen E _ c false = _
    unfold onTagOpen
    rw [if_neg hne.1, if_neg hne.2, if_pos ha]
    cases s
    simp only at hs hb
    subst hs hb
    rfl
  · show (onTagName E _ c false).2 = _
    unfold onTagName
    have h := hall c (by simp)
    rw [if_neg (by rw [not_space h.1]; decide), if_neg h.2.1, if_neg h.2.2.1]
    repeat' split
    all_goals first | rfl | contradiction

theorem end_open (E : Env) {s : Lex} (hs : s.state = .data) (hb : s.builder = []) {n : Str}
    (hn : Named n) (w : Str) :
    fin E s ('<' :: '/' :: (n ++ w)) = fin E (tagSt s .tagName { kind := .endTag } s.attr []) (n ++ w) := by
  obtain ⟨⟨c, r, rfl, hc⟩, hall⟩ := hn
  have e1 : fin E s ('<' :: '/' :: (c :: r ++ w)) = fin E { s with state := .endTagOpen } (c :: r ++ w) := by
    have : fin E s ('<' :: '/' :: (c :: r ++ w)) = fin E { s with state := .tagOpen } ('/' :: (c :: r ++ w)) := by
      apply fin_stay
      unfold step; rw [hs]
      rfl
    rw [this]
    exact fin_stay E _ rfl
  have ha : isAlpha c = true := by
    unfold isAlpha
    rcases hc with h | h
    · rw [upper_iff.mpr h]; rfl
    · rw [lower_iff.mpr h, Bool.or_true]
  rw [e1]
  show fin E _ (c :: (r ++ w)) = fin E _ (c :: (r ++ w))
  apply fin_again'
  · show onEndTagOpen E _ c false = _
    unfold onEndTagOpen
    rw [if_pos ha]
    cases s
    simp only at hs hb
    subst hs hb
    rfl
  · show (onTagName E _ c false).2 = _
    unfold onTagName
    have h := hall c (by simp)
    rw [if_neg (by rw [not_space h.1]; decide), if_neg h.2.1, if_neg h.2.2.1]
    repeat' split
    all_goals first | rfl | contradiction

end Verif.Html
