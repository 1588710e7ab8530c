import Verif.Keyword.WordProps

/-!
# Declarations: counters (C193) and generated content (C194)
-/

namespace Verif.Keyword
open Verif.Values Verif.Short

/-! ## Counters -/

/-- A name at the beginning of a list of counters: not `none`, nor a word for all properties. -/
def Name (s : List Char) : Prop := ¬ Cased s "none".toList ∧ NotWide (.ident s)

theorem Name.skip {s : List Char} (h : Name s) (r : List Tok) :
    skipIdent "none".toList (.ident s :: r) = none := by
  simp only [skipIdent]
  rw [if_neg]
  intro e
  exact h.1 (eqCi_iff.1 e)

theorem notToggle_ident (s : List Char) : NotToggle (.ident s) := by intro n c e; cases e

theorem counter_pair {s : List Char} {t : Tok} {z : Int} (hi : IntTok t z) (r : List Tok) :
    parseCounter (.ident s :: t :: r) = (some (s, z), r) := by
  simp only [parseCounter, parseName, int_reads hi r]

theorem vec_pairs {l : List Tok} {cs : List (List Char × Int)} (h : Pairs l cs) :
    ∀ (n : Nat) (acc : List (List Char × Int)) (rest : List Tok),
      vecLoop parseCounter (n + cs.length) acc (l ++ rest) =
        vecLoop parseCounter n (acc ++ cs) rest := by
  induction h with
  | nil => intro n acc rest; simp
  | @cons t z l cs s hi h ih =>
    intro n acc rest
    rw [List.length_cons, ← Nat.add_assoc]
    simp only [List.cons_append, vecLoop, counter_pair hi]
    rw [ih]
    simp

theorem Pairs.length {l : List Tok} {cs : List (List Char × Int)} (h : Pairs l cs) :
    l.length = 2 * cs.length := by
  induction h with
  | nil => rfl
  | cons s hi h ih => simp only [List.length_cons, ih]; omega

theorem Pairs.plain {l : List Tok} {cs : List (List Char × Int)} (h : Pairs l cs) : Plain l := by
  induction h with
  | nil => exact plain_nil
  | cons s hi h ih =>
    obtain ⟨x, rfl⟩ := hi.number
    exact plain_cons.2 ⟨by simp, plain_cons.2 ⟨by simp, ih⟩⟩

/-- The list is read as far as the pairs go. -/
theorem counters_pairs {s : List Char} (hs : Name s) {l : List Tok} {cs : List (List Char × Int)}
    {rest l' : List Tok} (h : Pairs l cs) (he : l ++ rest = .ident s :: l') :
    ∃ m, parseCounters (l ++ rest) = vecLoop parseCounter (m + rest.length + 1) cs rest := by
  unfold parseCounters
  rw [he, hs.skip, ← he]
  have := h.length
  refine ⟨cs.length, ?_⟩
  simp only [List.length_append]
  have e : l.length + rest.length + 1 = (cs.length + rest.length + 1) + cs.length := by omega
  rw [e, vec_pairs h]
  rfl

theorem plain_append {a b : List Tok} (ha : Plain a) (hb : Plain b) : Plain (a ++ b) := by
  intro t ht
  rcases List.mem_append.1 ht with h | h
  · exact ha t h
  · exact hb t h

/-- **C193 (in part).** A list of counters each with its integer is read as that list. -/
theorem C193_pairs_partial {s : List Char} (hs : Name s) {t : Tok} {l : List Tok}
    {cs : List (List Char × Int)} (h : Pairs (.ident s :: t :: l) cs) (n : Nat) :
    readDecl parseCounters n (.ident s :: t :: l) = some (.value cs) := by
  rw [read_plain h.plain hs.2 (notToggle_ident s)]
  obtain ⟨m, hm⟩ := counters_pairs hs (rest := []) h (by rw [List.append_nil])
  rw [List.append_nil] at hm
  rw [readPlain_value]
  rw [hm]; rfl

/-- `chapter 1 page -2` -/
example : Pairs [.ident "chapter".toList, .number "1".toList, .ident "page".toList,
    .number "-2".toList] [("chapter".toList, 1), ("page".toList, -2)] ∧ Name "chapter".toList := by
  refine ⟨.cons _ (.plain [1] (by simp)) (.cons _ (.minus [2] (by simp)) .nil), ?_, ?_⟩
  · intro h
    have := eqCi_iff.2 h
    revert this; decide +kernel
  · exact notWide_word (k := "chapter") (.mk (Cased.refl _)) (by decide +kernel)

/-- **C193.** `none` is no counter. -/
theorem C193_none {t : Tok} (h : Word "none" t) (n : Nat) :
    readDecl parseCounters n [t] = some (.value []) := by
  rw [read_plain (plain_one h.ne_ws) (notWide_word h (by decide +kernel)) (notToggle_word h)]
  rw [readPlain_value]
  unfold parseCounters
  have : eqCi "none".toList "none".toList = true := by decide +kernel
  rw [skipIdent_word h, this]
  rfl

/-- **C193.** It is false that the integer may be left out, as CSS has it: a counter alone is
dropped without a trace, and nothing is reset, set or incremented.  (`counter-reset: list-item`,
html.css 239, is such a declaration.) -/
theorem C193_bare_fails {s : List Char} (hs : Name s) (d : Int) (n : Nat) :
    CounterText d [.ident s] [(s, d)] ∧
    readDecl parseCounters n [.ident s] = some (.value []) := by
  refine ⟨.bare s .nil, ?_⟩
  rw [read_plain (plain_one (by simp)) hs.2 (notToggle_ident s)]
  rw [readPlain_value]
  unfold parseCounters
  rw [hs.skip]
  rfl

/-- **C193.** The same at the end of a list: the last counter is dropped, the others are read. -/
theorem C193_last_fails {s s' : List Char} (hs : Name s) {t : Tok} {l : List Tok}
    {cs : List (List Char × Int)} (h : Pairs (.ident s :: t :: l) cs) (n : Nat) :
    readDecl parseCounters n (.ident s :: t :: (l ++ [.ident s'])) = some (.value cs) := by
  have hp : Plain (.ident s :: t :: (l ++ [.ident s'])) :=
    plain_append h.plain (plain_one (by simp))
  rw [read_plain hp hs.2 (notToggle_ident s)]
  obtain ⟨m, hm⟩ := counters_pairs hs (rest := [.ident s']) h rfl
  rw [readPlain_value]
  exact hm

/-- **C193.** And elsewhere the whole declaration is lost: `a 1 b c 2`. -/
theorem C193_middle_fails {s s' s'' : List Char} {l rest : List Tok}
    {cs : List (List Char × Int)} (h : Pairs l cs) (hr : Plain rest)
    (hs : ∀ x r, l ++ [.ident s'] = .ident x :: r → Name x) (n : Nat) :
    readDecl parseCounters n (l ++ .ident s' :: .ident s'' :: rest) = some .unread := by
  obtain ⟨x, r, he, hx⟩ : ∃ x r, l ++ .ident s' :: .ident s'' :: rest = .ident x :: r ∧ Name x := by
    cases h with
    | nil => exact ⟨s', _, rfl, hs s' [] rfl⟩
    | cons s hi h => exact ⟨s, _, rfl, hs s _ rfl⟩
  have hp : Plain (l ++ .ident s' :: .ident s'' :: rest) :=
    plain_append h.plain (plain_cons.2 ⟨by simp, plain_cons.2 ⟨by simp, hr⟩⟩)
  obtain ⟨m, hm⟩ := counters_pairs hx (rest := .ident s' :: .ident s'' :: rest) h he
  have hv : parseCounters (l ++ .ident s' :: .ident s'' :: rest) =
      (some cs, .ident s'' :: rest) := by rw [hm]; rfl
  rw [he] at hp hv ⊢
  rw [read_plain hp hx.2 (notToggle_ident x)]
  rw [readPlain_rest hv (by simp)]

/-- **C193.** `reversed(…)` is never read. -/
theorem C193_reversed_fails {name : List Char} (h : Cased name "reversed(".toList)
    (c rest : List Tok) (hr : Plain rest) (n : Nat) :
    readDecl parseCounters n (.func name c :: rest) = some .unread := by
  rw [read_plain (plain_cons.2 ⟨by simp, hr⟩) (notWide_other (fun w e => by cases e))]
  · rw [readPlain_rest (p := parseCounters) (v := []) (t := .func name c) (r := rest) rfl (by simp)]
  · intro nm c' e
    cases e
    rw [h.eqCi_congr]; decide +kernel

theorem digit_exists {c : Char} (h : c.isDigit = true) : ∃ d : Fin 10, digitChar d = c := by
  simp only [Char.isDigit, ge_iff_le, Bool.and_eq_true, decide_eq_true_eq] at h
  obtain ⟨h1, h2⟩ := h
  have key : ∀ n : Fin 10, digitChar n = Char.ofNat (48 + n.val) := by decide +kernel
  have hl : 48 ≤ c.toNat := h1
  have hu : c.toNat ≤ 57 := h2
  refine ⟨⟨c.toNat - 48, by omega⟩, ?_⟩
  rw [key]
  simp only
  have : 48 + (c.toNat - 48) = c.toNat := by omega
  rw [this, Char.ofNat_toNat]

theorem digits_exist {s : List Char} (h : s.all Char.isDigit = true) :
    ∃ ds : List (Fin 10), ds.map digitChar = s := by
  induction s with
  | nil => exact ⟨[], rfl⟩
  | cons c s ih =>
    simp only [List.all_cons, Bool.and_eq_true] at h
    obtain ⟨d, hd⟩ := digit_exists h.1
    obtain ⟨ds, hds⟩ := ih h.2
    exact ⟨d :: ds, by rw [List.map_cons, hd, hds]⟩

theorem int_of_whole {s : List Char} {z : Int} (h : wholeInt s = some z) : IntTok (.number s) z := by
  unfold wholeInt at h
  simp only at h
  split at h
  · cases h
  · next hn =>
    simp only [Bool.or_eq_true, Bool.not_eq_true', not_or, Bool.not_eq_true, Bool.not_eq_false] at hn
    obtain ⟨ds, hds⟩ := digits_exist hn.2
    have hne : ds ≠ [] := by
      intro e
      rw [e] at hds
      rw [← hds] at hn
      simp at hn
    rw [← hds, digitsVal_eq] at h
    rw [readSign.eq_def] at hds h
    split at hds
    · cases h
      simp only at hds
      subst hds
      exact .minus ds hne
    · cases h
      simp only at hds
      subst hds
      exact .plus ds hne
    · simp only at hds
      rw [← hds]
      have hx : readSign (ds.map digitChar) = (false, ds.map digitChar) := readSign_digits
      rw [← hds, ← readSign.eq_def, hx] at h
      cases h
      exact .plain ds hne

/-- What a list of counters can end with unread and yet be accepted: nothing, a name, or a name
and a number that is not an integer. -/
inductive Tail : List Tok → Prop
  | nil : Tail []
  | name (s : List Char) : Tail [.ident s]
  | number (s x : List Char) (h : ∀ z, ¬ IntTok (.number x) z) : Tail [.ident s, .number x]

theorem vec_only : ∀ (n : Nat) (l : List Tok) (acc cs : List (List Char × Int)), l.length < n →
    vecLoop parseCounter n acc l = (some cs, []) →
    ∃ l' ds tail, l = l' ++ tail ∧ cs = acc ++ ds ∧ Pairs l' ds ∧ Tail tail := by
  intro n
  induction n with
  | zero => intro l acc cs h; exact absurd h (Nat.not_lt_zero _)
  | succ n ih =>
    intro l acc cs hn h
    match l, h with
    | [], h =>
      simp only [vecLoop] at h
      cases h
      exact ⟨[], [], [], rfl, by simp, .nil, .nil⟩
    | [.ident s], h =>
      simp only [vecLoop, parseCounter, parseName, parseInteger] at h
      cases h
      exact ⟨[], [], [.ident s], rfl, by simp, .nil, .name s⟩
    | .ident s :: .number x :: r, h =>
      simp only [vecLoop, parseCounter, parseName, parseInteger] at h
      cases hx : wholeInt x with
      | none =>
        rw [hx] at h
        simp only at h
        cases h
        refine ⟨[], [], [.ident s, .number x], rfl, by simp, .nil, .number s x ?_⟩
        intro z hz
        have := int_reads hz []
        simp only [parseInteger, hx] at this
        cases this
      | some z =>
        rw [hx] at h
        simp only at h
        obtain ⟨l', ds, tail, e1, e2, hp, ht⟩ := ih r _ cs (by
          simp only [List.length_cons] at hn; omega) h
        refine ⟨.ident s :: .number x :: l', (s, z) :: ds, tail, by simp [e1], by simp [e2],
          .cons s (int_of_whole hx) hp, ht⟩
    | .ident s :: .ident _ :: r, h => simp [vecLoop, parseCounter, parseName, parseInteger] at h
    | .ident s :: .dim _ :: r, h => simp [vecLoop, parseCounter, parseName, parseInteger] at h
    | .ident s :: .percent _ :: r, h => simp [vecLoop, parseCounter, parseName, parseInteger] at h
    | .ident s :: .hash _ :: r, h => simp [vecLoop, parseCounter, parseName, parseInteger] at h
    | .ident s :: .delim _ :: r, h => simp [vecLoop, parseCounter, parseName, parseInteger] at h
    | .ident s :: .comma :: r, h => simp [vecLoop, parseCounter, parseName, parseInteger] at h
    | .ident s :: .ws :: r, h => simp [vecLoop, parseCounter, parseName, parseInteger] at h
    | .ident s :: .func _ _ :: r, h => simp [vecLoop, parseCounter, parseName, parseInteger] at h
    | .ident s :: .str _ :: r, h => simp [vecLoop, parseCounter, parseName, parseInteger] at h
    | .ident s :: .url _ :: r, h => simp [vecLoop, parseCounter, parseName, parseInteger] at h
    | .ident s :: .other :: r, h => simp [vecLoop, parseCounter, parseName, parseInteger] at h
    | .number _ :: r, h => simp [vecLoop, parseCounter, parseName] at h
    | .dim _ :: r, h => simp [vecLoop, parseCounter, parseName] at h
    | .percent _ :: r, h => simp [vecLoop, parseCounter, parseName] at h
    | .hash _ :: r, h => simp [vecLoop, parseCounter, parseName] at h
    | .delim _ :: r, h => simp [vecLoop, parseCounter, parseName] at h
    | .comma :: r, h => simp [vecLoop, parseCounter, parseName] at h
    | .ws :: r, h => simp [vecLoop, parseCounter, parseName] at h
    | .func _ _ :: r, h => simp [vecLoop, parseCounter, parseName] at h
    | .str _ :: r, h => simp [vecLoop, parseCounter, parseName] at h
    | .url _ :: r, h => simp [vecLoop, parseCounter, parseName] at h
    | .other :: r, h => simp [vecLoop, parseCounter, parseName] at h

theorem vec_suffix : ∀ (n : Nat) (l : List Tok) (acc : List (List Char × Int)),
    (vecLoop parseCounter n acc l).2 <:+ l := by
  intro n
  induction n with
  | zero => intro l acc; exact List.suffix_refl _
  | succ n ih =>
    intro l acc
    cases l with
    | nil => exact List.suffix_refl _
    | cons t r =>
      have hc : (parseCounter (t :: r)).2 <:+ (t :: r) := by
        unfold parseCounter
        split
        · next r' h =>
          unfold parseName at h
          split at h
          · cases h
          · cases h; exact List.suffix_refl _
        · next s r' h =>
          have hr : r' <:+ t :: r := by
            unfold parseName at h
            split at h
            · next e => cases h; rw [e]; exact List.suffix_cons _ _
            · cases h
          have hi : (parseInteger r').2 <:+ r' := by
            unfold parseInteger
            split
            · exact List.suffix_cons _ _
            · exact List.suffix_refl _
          split
          · next e => rw [e] at hi; exact hi.trans hr
          · next e => rw [e] at hi; exact hi.trans hr
      simp only [vecLoop]
      split
      · next e => rw [e] at hc; exact hc
      · next e => rw [e] at hc; exact (ih _ _).trans hc

/-- **C193.** What is accepted, in all: `none`, or counters with their integers and behind them
nothing, or a name, or a name and a number that is not an integer, both of which are dropped. -/
theorem C193_only {l : List Tok} {cs : List (List Char × Int)} {n : Nat} (hl : Plain l)
    (h : readDecl parseCounters n l = some (.value cs)) :
    (∃ t, l = [t] ∧ Word "none" t ∧ cs = []) ∨
      ∃ l' tail, l = l' ++ tail ∧ Pairs l' cs ∧ Tail tail := by
  obtain ⟨_, _, r, hp, hr⟩ := read_value h
  rw [hl.eatWs] at hp
  unfold parseCounters at hp
  split at hp
  · next r' hs =>
    cases hp
    left
    unfold skipIdent at hs
    split at hs
    · next s r'' =>
      split at hs
      · next he =>
        cases hs
        have : r = [] := eatWs_nil_of_suffix hl (List.suffix_cons _ _) hr
        subst this
        exact ⟨_, rfl, .mk (eqCi_iff.1 he), rfl⟩
      · cases hs
    · cases hs
  · right
    have hs := vec_suffix (l.length + 1) l []
    rw [hp] at hs
    have : r = [] := eatWs_nil_of_suffix hl hs hr
    subst this
    obtain ⟨l', ds, tail, e1, e2, h1, h2⟩ := vec_only _ l [] cs (Nat.lt_succ_self _) hp
    simp only [List.nil_append] at e2
    subst e2
    exact ⟨l', tail, e1, h1, h2⟩

example : readDecl parseCounters 0 [.ident "a".toList, .number "1".toList, .ident "b".toList,
    .number "2.5".toList] = some (.value [("a".toList, 1)]) := by decide +kernel

/-! ## Generated content -/

/-- Where a running element is taken from, by CSS's words. -/
def targetWords : List (String × Target) :=
  [("first", .first), ("start", .start), ("last", .last), ("first-except", .firstExcept)]

/-- One item of generated content as it is read. -/
inductive Item' : Tok → Content → Prop
  | normal (h : Word "normal" t) : Item' t .normal
  | openQuote (h : Word "open-quote" t) : Item' t (.text "“".toList)
  | closeQuote (h : Word "close-quote" t) : Item' t (.text "”".toList)
  | str (s : List Char) : Item' (.str s) (.text s)
  | counter (h : Cased name "counter(".toList) (s : List Char) :
    Item' (.func name [.ident s]) (.counter s none)
  | counterStyle (h : Cased name "counter(".toList) (s style : List Char) :
    Item' (.func name [.ident s, .comma, .ident style]) (.counter s (some style))
  | element (h : Cased name "element(".toList) (s : List Char) :
    Item' (.func name [.ident s]) (.element s .undefined)
  | elementAt (h : Cased name "element(".toList) (s : List Char) (hs : Sep sep)
    (hk : (k, v) ∈ targetWords) (hw : Word k t) :
    Item' (.func name (.ident s :: (sep ++ [t]))) (.element s v)

theorem content_word {k : String} {v : Content} {t : Tok} (hw : Word k t)
    (hk : kwLookup [("normal", Content.normal), ("open-quote", .text "“".toList),
      ("close-quote", .text "”".toList)] k.toList = some v) (r : List Tok) :
    parseContent (t :: r) = (some v, r) := by
  unfold parseContent
  rw [skipAny_word hw, hk]
  rfl

theorem counter_ne_element {name : List Char} (h : Cased name "counter(".toList) :
    eqCi name "element(".toList = false ∧ eqCi name "counter(".toList = true := by
  rw [h.eqCi_congr, h.eqCi_congr]
  decide +kernel

theorem target_lookup : ∀ p ∈ targetWords, kwLookup targetKw p.1.toList = some p.2 := by
  decide +kernel

theorem item_reads {t : Tok} {v : Content} (h : Item' t v) : Reads parseContent t v := by
  intro r
  cases h with
  | normal h => exact content_word h (by decide +kernel) r
  | openQuote h => exact content_word h (by decide +kernel) r
  | closeQuote h => exact content_word h (by decide +kernel) r
  | str s => rfl
  | counter h s =>
    have := counter_ne_element h
    unfold parseContent
    rw [skipAny_none _ (fun w r e => by cases e)]
    simp only [this.1, this.2, if_true]
    rfl
  | counterStyle h s style =>
    have := counter_ne_element h
    unfold parseContent
    rw [skipAny_none _ (fun w r e => by cases e)]
    simp only [this.1, this.2, if_true]
    rfl
  | element h s =>
    unfold parseContent
    rw [skipAny_none _ (fun w r e => by cases e)]
    simp only [eqCi_iff.2 h, if_true]
    rfl
  | @elementAt name sep k v t h s hs hk hw =>
    unfold parseContent
    rw [skipAny_none _ (fun w r e => by cases e)]
    simp only [eqCi_iff.2 h, if_true]
    have hsc : skipComma (sep ++ [t]) = [t] := skipComma_sep hs (plain_one hw.ne_ws).eatWs
    have : parseElement (.ident s :: (sep ++ [t])) = some (.element s v) := by
      unfold parseElement
      cases hsp : sep ++ [t] with
      | nil => simp at hsp
      | cons a b =>
        rw [hsp] at hsc
        simp only [parseName, hsc, skipAny_word hw, target_lookup _ hk]
        rfl
    rw [this]

theorem item_head {t : Tok} {v : Content} (h : Item' t v) :
    t ≠ .ws ∧ NotWide t ∧ NotToggle t := by
  have hf : ∀ {name : List Char} {k : String} {c : List Tok}, Cased name k.toList →
      eqCi k.toList "toggle(".toList = false → NotToggle (.func name c) := by
    intro name k c hc he nm c' e
    cases e
    rw [hc.eqCi_congr, he]
  cases h with
  | normal h => exact ⟨h.ne_ws, notWide_word h (by decide +kernel), notToggle_word h⟩
  | openQuote h => exact ⟨h.ne_ws, notWide_word h (by decide +kernel), notToggle_word h⟩
  | closeQuote h => exact ⟨h.ne_ws, notWide_word h (by decide +kernel), notToggle_word h⟩
  | str s => exact ⟨by simp, notWide_other (fun w e => by cases e), fun n c e => by cases e⟩
  | counter h s =>
    exact ⟨by simp, notWide_other (fun w e => by cases e), hf h (by decide +kernel)⟩
  | counterStyle h s _ =>
    exact ⟨by simp, notWide_other (fun w e => by cases e), hf h (by decide +kernel)⟩
  | element h s =>
    exact ⟨by simp, notWide_other (fun w e => by cases e), hf h (by decide +kernel)⟩
  | elementAt h s _ _ _ =>
    exact ⟨by simp, notWide_other (fun w e => by cases e), hf h (by decide +kernel)⟩

/-- **C194 (in part).** `content` with one item — `normal`, a quote, a string, a counter with or
without a style, a running element with or without a place — is read as that item. -/
theorem C194_item_partial {t : Tok} {v : Content} (h : Item' t v) (n : Nat) :
    readDecl parseContent n [t] = some (.value v) := by
  obtain ⟨h1, h2, h3⟩ := item_head h
  rw [read_plain (plain_one h1) h2 h3, readPlain_value (item_reads h [])]

/-- `element(header, last)` -/
example : Item' (.func "element(".toList [.ident "header".toList, .comma, .ws,
    .ident "last".toList]) (.element "header".toList .last) :=
  .elementAt (k := "last") (sep := [.comma, .ws]) (Cased.refl _) _ (.comma 0 1) (by decide +kernel)
    (.mk (Cased.refl _))

/-- What the parser of `content` finds is one token long. -/
theorem content_one {l r : List Tok} {v : Content} (h : parseContent l = (some v, r)) :
    ∃ t, l = t :: r := by
  unfold parseContent at h
  split at h
  · next v' r' hs =>
    cases h
    by_cases hl : ∃ w r', l = .ident w :: r'
    · obtain ⟨w, r', rfl⟩ := hl
      rw [skipAny_ident] at hs
      obtain ⟨x, hx, e⟩ := Option.map_eq_some_iff.1 hs
      cases e
      exact ⟨_, rfl⟩
    · rw [skipAny_none _ (fun w r' e => hl ⟨w, r', e⟩)] at hs; cases hs
  · split at h
    · split at h
      · split at h
        · cases h; exact ⟨_, rfl⟩
        · cases h
      · split at h
        · split at h
          · cases h; exact ⟨_, rfl⟩
          · cases h
        · cases h
    · cases h; exact ⟨_, rfl⟩
    · cases h

/-- **C194.** It is false that `content` may be a list of items, as CSS has it: no declaration of
two or more tokens is read (`"Chapter " counter(chapter)`). -/
theorem C194_list_fails {t u : Tok} {l : List Tok} (hl : Plain (t :: u :: l)) (v : Content)
    (n : Nat) : readDecl parseContent n (t :: u :: l) ≠ some (.value v) := by
  intro h
  obtain ⟨_, _, r, hp, hr⟩ := read_value h
  rw [hl.eatWs] at hp
  obtain ⟨t', e⟩ := content_one hp
  have hsf : r <:+ t :: u :: l := ⟨[t'], e.symm⟩
  have := eatWs_nil_of_suffix hl hsf hr
  subst this
  cases e

/-- **C194.** `none` is not read. -/
theorem C194_none_fails {t : Tok} (h : Word "none" t) (n : Nat) :
    readDecl parseContent n [t] = some .unread := by
  rw [read_plain (plain_one h.ne_ws) (notWide_word h (by decide +kernel)) (notToggle_word h)]
  have hk : kwLookup [("normal", Content.normal), ("open-quote", .text "“".toList),
      ("close-quote", .text "”".toList)] "none".toList = none := by decide +kernel
  cases h with
  | mk h =>
    rw [readPlain_none (r := [.ident _])]
    unfold parseContent
    rw [skipAny_ident, kwLookup_congr h, hk]
    rfl

/-- **C194.** Nor are functions other than `counter()` and `element()`: `counters()` is not, and
neither are `attr()` and `string()`. -/
theorem C194_counters_fails {name : List Char} (h1 : ¬ Cased name "counter(".toList)
    (h2 : ¬ Cased name "element(".toList) (h3 : ¬ Cased name "toggle(".toList) (c : List Tok)
    (n : Nat) : readDecl parseContent n [.func name c] = some .unread := by
  have f : ∀ {k : List Char}, ¬ Cased name k → eqCi name k = false := by
    intro k h
    cases he : eqCi name k with
    | false => rfl
    | true => exact absurd (eqCi_iff.1 he) h
  rw [read_plain (plain_one (by simp)) (notWide_other (fun w e => by cases e))
    (fun nm c' e => by cases e; exact f h3)]
  rw [readPlain_none (r := [.func name c])]
  unfold parseContent
  rw [skipAny_none _ (fun w r e => by cases e)]
  simp only [f h1, f h2]
  rfl

example : ¬ Cased "counters(".toList "counter(".toList ∧ ¬ Cased "counters(".toList "element(".toList ∧
    ¬ Cased "counters(".toList "toggle(".toList := by
  refine ⟨?_, ?_, ?_⟩ <;> intro h <;> have := eqCi_iff.2 h <;> revert this <;> decide +kernel

/-- **C194.** It is false that the style of a counter may have white space before it: it is lost
then, and the counter is in the style of no style given. -/
theorem C194_style_fails {name : List Char} (h : Cased name "counter(".toList) (s : List Char)
    (rest : List Tok) (n : Nat) :
    readDecl parseContent n [.func name (.ident s :: .comma :: .ws :: rest)] =
      some (.value (.counter s none)) := by
  have := counter_ne_element h
  rw [read_plain (plain_one (by simp)) (notWide_other (fun w e => by cases e))
    (fun nm c' e => by cases e; rw [h.eqCi_congr]; decide +kernel)]
  rw [readPlain_value]
  unfold parseContent
  rw [skipAny_none _ (fun w r e => by cases e)]
  simp only [this.1, this.2, if_true]
  rfl

/-- **C194.** Nor may there be white space before the name of a counter or element. -/
theorem C194_space_fails {name : List Char} (h : Cased name "counter(".toList ∨
    Cased name "element(".toList) (c : List Tok) (n : Nat) :
    readDecl parseContent n [.func name (.ws :: c)] = some .unread := by
  have ht : NotToggle (.func name (.ws :: c)) := by
    intro nm c' e
    cases e
    rcases h with h | h <;> (rw [h.eqCi_congr]; decide +kernel)
  rw [read_plain (plain_one (by simp)) (notWide_other (fun w e => by cases e)) ht]
  rw [readPlain_none (r := [.func name (.ws :: c)])]
  unfold parseContent
  rw [skipAny_none _ (fun w r e => by cases e)]
  have h1 : parseElement (.ws :: c) = none := rfl
  have h2 : parseCounterFunc (.ws :: c) = none := rfl
  simp only [h1, h2]
  split
  · rfl
  · split <;> rfl

/-- **C194.** It is false that an unknown place makes a running element invalid: it is as if none
were given. -/
theorem C194_target_fails {name : List Char} (h : Cased name "element(".toList) (s : List Char)
    {sep : List Tok} (hs : Sep sep) {w : List Char} (hw : ∀ p ∈ targetWords, ¬ Cased w p.1.toList)
    (n : Nat) : readDecl parseContent n [.func name (.ident s :: (sep ++ [.ident w]))] =
      some (.value (.element s .undefined)) := by
  have ht : NotToggle (.func name (.ident s :: (sep ++ [.ident w]))) := by
    intro nm c' e
    cases e
    rw [h.eqCi_congr]; decide +kernel
  have hsc : skipComma (sep ++ [.ident w]) = [.ident w] := skipComma_sep hs rfl
  have hk : kwLookup targetKw w = none := by
    cases hk : kwLookup targetKw w with
    | none => rfl
    | some v =>
      obtain ⟨k, hm, hc⟩ := kwLookup_some hk
      refine absurd hc (hw (k, v) ?_)
      simp only [targetKw, targetWords, List.mem_cons, List.not_mem_nil, or_false] at hm ⊢
      rcases hm with hm | hm | hm | hm <;> simp [hm]
  have : parseElement (.ident s :: (sep ++ [.ident w])) = some (.element s .undefined) := by
    unfold parseElement
    cases hsp : sep ++ [.ident w] with
    | nil => simp at hsp
    | cons a b =>
      rw [hsp] at hsc
      simp only [parseName, hsc, skipAny_ident, hk]
      rfl
  rw [read_plain (plain_one (by simp)) (notWide_other (fun w e => by cases e)) ht]
  rw [readPlain_value]
  unfold parseContent
  rw [skipAny_none _ (fun w r e => by cases e)]
  simp only [eqCi_iff.2 h, if_true, this]

end Verif.Keyword
