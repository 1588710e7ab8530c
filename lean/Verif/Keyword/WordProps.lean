import Verif.Keyword.Lemmas

/-!
# Declarations: keywords (C191), ending (C192), names and words for all properties (C198)
-/

namespace Verif.Keyword
open Verif.Values Verif.Short

/-- Every property of the file. -/
def allProps : List Prop' :=
  [.breakBefore, .breakAfter, .breakInside, .float, .clear, .tableLayout, .captionSide,
   .borderCollapse, .visibility, .boxSizing, .textAlign, .textTransform, .whiteSpace, .overflowX,
   .overflowY, .overflowBlock, .overflowInline, .flexDirection, .flexWrap, .dominantBaseline,
   .baselineSource, .alignmentBaseline, .markerSide, .transformBox]

theorem mem_allProps (P : Prop') : P ∈ allProps := by cases P <;> simp [allProps]

theorem css_tables : ∀ P ∈ allProps, ∀ p ∈ css P, (P, p.1) ∉ missing →
    kwLookup P.table p.1.toList = some p.2 := by decide +kernel

theorem css_notWide : ∀ P ∈ allProps, ∀ p ∈ css P, kwLookup wideKw p.1.toList = none := by
  decide +kernel

theorem extra_tables : ∀ e ∈ extra, kwLookup e.1.table e.2.1.toList = some e.2.2 ∧
    kwLookup wideKw e.2.1.toList = none := by decide +kernel

theorem tables_css : ∀ P ∈ allProps, ∀ p ∈ P.table, p ∈ css P ∨ (P, p) ∈ extra := by
  decide +kernel

theorem missing_tables : ∀ m ∈ missing, kwLookup m.1.table m.2.toList = none ∧
    kwLookup wideKw m.2.toList = none ∧ m.2 ∈ (css m.1).map (·.1) := by decide +kernel

/-- **C191 (in part).** A declaration whose value is one of the keywords CSS has for the property
is read, in any case of letters, as that keyword, but for those of `missing`. -/
theorem C191_words_partial (P : Prop') {k : String} {v : Kw} {t : Tok} (h : (k, v) ∈ css P)
    (hm : (P, k) ∉ missing) (hw : Word k t) (n : Nat) :
    readDecl P.parse n [t] = some (.value v) := by
  have h1 := css_tables P (mem_allProps P) _ h hm
  rw [read_plain (plain_one hw.ne_ws)
    (notWide_word hw (css_notWide P (mem_allProps P) _ h)) (notToggle_word hw)]
  rw [readPlain_value]
  simp only [Prop'.parse, parseKw_word hw, h1]
  rfl

/-- `BREAK-BEFORE`'s value `Page`, and one of two words with a hyphen. -/
example : (("page", Kw.page) ∈ css .breakBefore ∧ (Prop'.breakBefore, "page") ∉ missing ∧
    Word "page" (.ident "Page".toList)) := by
  refine ⟨by decide +kernel, by decide +kernel, .mk (eqCi_iff.1 (by decide +kernel))⟩

/-- **C191.** Nothing else is read: a declaration that sets the property to a value has one token,
a keyword of CSS for the property with that meaning, or one of the spellings of `extra`. -/
theorem C191_only (P : Prop') {l : List Tok} {v : Kw} {n : Nat} (hl : Plain l)
    (h : readDecl P.parse n l = some (.value v)) :
    ∃ t k, l = [t] ∧ Word k t ∧ ((k, v) ∈ css P ∨ (P, k, v) ∈ extra) := by
  obtain ⟨_, _, r, hp, hr⟩ := read_value h
  rw [hl.eatWs] at hp
  obtain ⟨t, k, e, hk, hw⟩ := parseKw_one hp
  have : r = [] := eatWs_nil_of_suffix hl (e ▸ List.suffix_cons _ _) hr
  subst this
  exact ⟨t, k, e, hw, tables_css P (mem_allProps P) _ hk⟩

example : Plain [Tok.ident "center".toList] ∧
    readDecl (Prop'.parse .textAlign) 0 [.ident "center".toList] = some (.value .center) :=
  ⟨by simp [Plain], by decide +kernel⟩

/-- **C191.** It is false that all keywords of CSS are read: those of `missing` are not, so the
declaration has no effect. -/
theorem C191_missing_fails (P : Prop') {k : String} {t : Tok} (hm : (P, k) ∈ missing)
    (hw : Word k t) (n : Nat) :
    k ∈ (css P).map (·.1) ∧ readDecl P.parse n [t] = some .unread := by
  obtain ⟨h1, h2, h3⟩ := missing_tables _ hm
  refine ⟨h3, ?_⟩
  rw [read_plain (plain_one hw.ne_ws) (notWide_word hw h2) (notToggle_word hw)]
  rw [readPlain_none]
  simp only [Prop'.parse, parseKw_word hw, h1]
  rfl

/-- **C191.** `text-transform: lowercase` does nothing; the word for it is `lowsercase`. -/
theorem C191_lowercase_fails (n : Nat) :
    readDecl (Prop'.parse .textTransform) n [.ident "lowercase".toList] = some .unread ∧
    readDecl (Prop'.parse .textTransform) n [.ident "lowsercase".toList] =
      some (.value .lowercase) := by
  refine ⟨(C191_missing_fails .textTransform (k := "lowercase") (by decide +kernel)
    (.mk (Cased.refl _)) n).2, ?_⟩
  have hw : Word "lowsercase" (.ident "lowsercase".toList) := .mk (Cased.refl _)
  have := extra_tables (.textTransform, "lowsercase", .lowercase) (by decide +kernel)
  rw [read_plain (plain_one hw.ne_ws) (notWide_word hw this.2) (notToggle_word hw)]
  rw [readPlain_value]
  simp only [Prop'.parse, parseKw_word hw, this.1]
  rfl

/-! ## Ending -/

/-- The tokens between the options of `toggle()`. -/
inductive Sep : List Tok → Prop
  | comma (i j : Nat) : Sep (List.replicate i .ws ++ .comma :: List.replicate j .ws)

/-- Options, each after the first with a separator before it, and white space at the end. -/
inductive Options (p : List Tok → Out α) : List Tok → List α → Prop
  | last (h : Reads p t v) (k : Nat) : Options p (t :: List.replicate k .ws) [v]
  | more (h : Reads p t v) (hs : Sep s) (ho : Options p l vs) : Options p (t :: (s ++ l)) (v :: vs)

theorem eatWs_replicate (k : Nat) (l : List Tok) :
    eatWs (List.replicate k .ws ++ l) = eatWs l := by
  induction k with
  | zero => rfl
  | succ k ih => rw [List.replicate_succ, List.cons_append, eatWs]; exact ih

/-- The first token of options is one at which there is something to read. -/
theorem Options.head {p : List Tok → Out α} (hws : ∀ r, (p (.ws :: r)).1 = none) {l : List Tok}
    {vs : List α} (h : Options p l vs) : eatWs l = l ∧ l ≠ [] := by
  cases h with
  | last h k =>
    refine ⟨?_, by simp⟩
    unfold eatWs
    split
    · next e =>
      obtain ⟨rfl, -⟩ := List.cons.inj e
      have := hws []
      rw [h []] at this; cases this
    · rfl
  | more h _ _ =>
    refine ⟨?_, by simp⟩
    unfold eatWs
    split
    · next e =>
      obtain ⟨rfl, -⟩ := List.cons.inj e
      have := hws []
      rw [h []] at this; cases this
    · rfl

theorem skipComma_sep {s l : List Tok} (h : Sep s) (hl : eatWs l = l) :
    skipComma (s ++ l) = l := by
  cases h with
  | comma i j =>
    unfold skipComma
    rw [List.append_assoc, eatWs_replicate]
    simp only [List.cons_append, eatWs]
    rw [eatWs_replicate, hl]

theorem skipComma_spaces (k : Nat) : skipComma (List.replicate k .ws) = [] := by
  have := eatWs_replicate k []
  rw [List.append_nil] at this
  unfold skipComma
  rw [this]; rfl

theorem toggle_options {p : List Tok → Out α} (hws : ∀ r, (p (.ws :: r)).1 = none) {l : List Tok}
    {vs : List α} (h : Options p l vs) : ∀ (acc : List α) (n : Nat), l.length < n →
      toggleLoop p n acc l = some (some (acc ++ vs)) := by
  induction h with
  | last h k =>
    intro acc n hn
    obtain ⟨n, rfl⟩ : ∃ m, n = m + 1 := ⟨n - 1, by omega⟩
    simp only [List.length_cons, List.length_replicate] at hn
    obtain ⟨n, rfl⟩ : ∃ m, n = m + 1 := ⟨n - 1, by omega⟩
    simp only [toggleLoop, h (List.replicate k .ws), skipComma_spaces]
  | @more t v s l vs h hs ho ih =>
    intro acc n hn
    obtain ⟨n, rfl⟩ : ∃ m, n = m + 1 := ⟨n - 1, by omega⟩
    simp only [List.length_cons, List.length_append] at hn
    simp only [toggleLoop, h (s ++ l), skipComma_sep hs (ho.head hws).1]
    rw [ih _ _ (by omega)]
    simp

/-- **C192.** `toggle(a, b, …)` with options that the property takes, with any white space around
the commas and at the end, is read as the list of them, for every parser that gets ahead. -/
theorem C192_toggle {p : List Tok → Out α} (hws : ∀ r, (p (.ws :: r)).1 = none)
    {name : List Char} (hn : Cased name "toggle(".toList) {l : List Tok} {vs : List α}
    (h : Options p l vs) {n : Nat} (hl : l.length < n) (rest : List Tok) :
    readDecl p n (.func name l :: rest) = some (.toggle vs) := by
  unfold readDecl
  have h1 : eatWs (.func name l :: rest) = .func name l :: rest := rfl
  rw [h1, skip_notWide (notWide_other (fun w e => by cases e))]
  simp only [parseToggle, eqCi_iff.2 hn, if_true, toggle_options hws h [] n hl]
  rfl

/-- `toggle(uppercase, none)` -/
example : Options (Prop'.parse .textTransform) [.ident "uppercase".toList, .comma, .ws,
    .ident "none".toList] [.uppercase, .none] := by
  refine .more (s := [.comma, .ws]) ?_ (.comma 0 1) (.last ?_ 0)
  · intro r
    have hw : Word "uppercase" (.ident "uppercase".toList) := .mk (Cased.refl _)
    have := css_tables .textTransform (mem_allProps _) ("uppercase", .uppercase) (by decide +kernel)
      (by decide +kernel)
    simp only [Prop'.parse, parseKw_word hw, this]; rfl
  · intro r
    have hw : Word "none" (.ident "none".toList) := .mk (Cased.refl _)
    have := css_tables .textTransform (mem_allProps _) ("none", .none) (by decide +kernel)
      (by decide +kernel)
    simp only [Prop'.parse, parseKw_word hw, this]; rfl

/-- **C192 (in part).** Reading a declaration ends, whatever its value, if the parser of the
property gets ahead wherever it finds something: with some number of steps there is an outcome,
and it is the same with more. -/
theorem C192_ends_partial {p : List Tok → Out α} (hm : Moves p) (l : List Tok) :
    ∃ n rd, ∀ m ≥ n, readDecl p m l = some rd := by
  unfold readDecl
  cases hw : skipAny wideKw (eatWs l) with
  | some d => exact ⟨0, _, fun m _ => rfl⟩
  | none =>
    by_cases ht : ∃ name c r, eatWs l = .func name c :: r ∧ eqCi name "toggle(".toList = true
    · obtain ⟨name, c, r, he, hn⟩ := ht
      obtain ⟨o, h1, h2⟩ := toggle_ends hm (c.length + 1) [] c (Nat.lt_succ_self _)
      cases o with
      | none =>
        refine ⟨c.length + 1, readPlain p (eatWs l), fun m hmn => ?_⟩
        rw [he]
        simp only [parseToggle, hn, if_true, h2 m hmn]
      | some vs =>
        refine ⟨c.length + 1, .toggle vs, fun m hmn => ?_⟩
        rw [he]
        simp only [parseToggle, hn, if_true, h2 m hmn]
    · refine ⟨0, readPlain p (eatWs l), fun m _ => ?_⟩
      have : parseToggle p m (eatWs l) = some none := by
        cases he : eatWs l with
        | nil => rfl
        | cons t r =>
          apply toggle_not
          intro name c e
          subst e
          cases hb : eqCi name "toggle(".toList with
          | false => rfl
          | true => exact absurd ⟨name, c, r, he, hb⟩ ht
      rw [this]

theorem skipOr_cases (tb : List (String × α)) (d : α) (l : List Tok) :
    skipOr tb d l = (d, l) ∨
      ∃ t k v r, l = t :: r ∧ (k, v) ∈ tb ∧ Word k t ∧ skipOr tb d l = (v, r) := by
  unfold skipOr
  by_cases hl : ∃ w r', l = .ident w :: r'
  · obtain ⟨w, r', rfl⟩ := hl
    rw [skipAny_ident]
    cases hk : kwLookup tb w with
    | none => exact .inl rfl
    | some v' =>
      obtain ⟨k, hm, hc⟩ := kwLookup_some hk
      exact .inr ⟨_, k, v', r', rfl, hm, .mk hc, rfl⟩
  · rw [skipAny_none _ (fun w r' e => hl ⟨w, r', e⟩)]
    exact .inl rfl

theorem moves_align : Moves parseAlign := by
  intro t l v r h
  unfold parseAlign at h
  simp only at h
  rcases skipOr_cases prefixKw .noPrefix (t :: l) with h1 | ⟨_, _, _, _, e, _, _, h1⟩
  · rw [h1] at h
    rcases skipOr_cases akeyKw .noKeyword (t :: l) with h2 | ⟨_, _, _, _, e, _, _, h2⟩
    · rw [h2] at h; simp at h
    · cases e
      rw [h2] at h
      split at h
      · cases h
      · cases h; simp
  · cases e
    rw [h1] at h
    rcases skipOr_cases akeyKw .noKeyword l with h2 | ⟨_, _, _, _, e, _, _, h2⟩
    · rw [h2] at h
      split at h
      · cases h
      · cases h; simp
    · rw [h2] at h
      split at h
      · cases h
      · cases h; rw [e]; simp only [List.length_cons]; omega

/-- **C192.** So it is for all properties whose values are keywords, and for alignments. -/
theorem C192_keywords (P : Prop') (l : List Tok) :
    (∃ n rd, ∀ m ≥ n, readDecl P.parse m l = some rd) ∧
    (∃ n rd, ∀ m ≥ n, readDecl parseAlign m l = some rd) :=
  ⟨C192_ends_partial (moves_oneTok (parseKw_oneTok _)) l, C192_ends_partial moves_align l⟩

/-- A loop at a place where something is found without getting ahead does not end. -/
theorem toggle_stuck {p : List Tok → Out α} {t : Tok} {l : List Tok} {v : α}
    (hp : p (t :: l) = (some v, t :: l)) (ht : skipComma (t :: l) = t :: l) :
    ∀ n acc, toggleLoop p n acc (t :: l) = none := by
  intro n
  induction n with
  | zero => intro acc; rfl
  | succ n ih =>
    intro acc
    simp only [toggleLoop, hp, ht]
    exact ih _

theorem skipComma_stay {t : Tok} {l : List Tok} (h1 : t ≠ .ws) (h2 : t ≠ .comma) :
    skipComma (t :: l) = t :: l := by
  have : eatWs (t :: l) = t :: l := by
    unfold eatWs
    split
    · next e => exact absurd (List.cons.inj e).1 h1
    · rfl
  unfold skipComma
  rw [this]
  split
  · next e => exact absurd (List.cons.inj e).1 h2
  · rfl

theorem read_stuck {p : List Tok → Out α} {name : List Char} (hn : Cased name "toggle(".toList)
    {t : Tok} {l : List Tok} {v : α} (hp : p (t :: l) = (some v, t :: l)) (h1 : t ≠ .ws)
    (h2 : t ≠ .comma) (rest : List Tok) (n : Nat) :
    readDecl p n (.func name (t :: l) :: rest) = none := by
  unfold readDecl
  have he : eatWs (.func name (t :: l) :: rest) = .func name (t :: l) :: rest := rfl
  rw [he, skip_notWide (notWide_other (fun w e => by cases e))]
  simp only [parseToggle, eqCi_iff.2 hn, if_true]
  rw [toggle_stuck hp (skipComma_stay h1 h2)]

/-- **C192.** It is false that reading a declaration always ends: `toggle()` with anything inside
as the value of `background-image`, `background-position` or `background-repeat` never does. -/
theorem C192_background_fails {name : List Char} (hn : Cased name "toggle(".toList) {t : Tok}
    (h1 : t ≠ .ws) (h2 : t ≠ .comma) (l rest : List Tok) (n : Nat) :
    readDecl parseNothing n (.func name (t :: l) :: rest) = none :=
  read_stuck hn rfl h1 h2 rest n

/-- **C192.** And so it is for `counter-reset`, `counter-increment` and `counter-set` with
something inside that does not begin with a name. -/
theorem C192_counter_fails {name : List Char} (hn : Cased name "toggle(".toList) {t : Tok}
    (h1 : t ≠ .ws) (h2 : t ≠ .comma) (hi : ∀ w, t ≠ .ident w) (l rest : List Tok) (n : Nat) :
    readDecl parseCounters n (.func name (t :: l) :: rest) = none := by
  have hs : skipIdent "none".toList (t :: l) = none := by
    unfold skipIdent
    split
    · next e => exact absurd (List.cons.inj e).1 (hi _)
    · rfl
  have hp : parseName (t :: l) = (none, t :: l) := by
    unfold parseName
    split
    · next e => exact absurd (List.cons.inj e).1 (hi _)
    · rfl
  refine read_stuck (v := []) hn ?_ h1 h2 rest n
  unfold parseCounters
  rw [hs]
  simp only [vecLoop, parseCounter, hp]

/-- **C192.** For other values those three background properties are never set either. -/
theorem C192_background_nothing (t : Tok) (l : List Tok) (hl : Plain (t :: l)) (hw : NotWide t)
    (ht : NotToggle t) (n : Nat) : readDecl parseNothing n (t :: l) = some .unread := by
  rw [read_plain hl hw ht, readPlain_rest (p := parseNothing) (v := ()) (t := t) (r := l) rfl (hl t List.mem_cons_self)]

/-! ## Names -/

/-- The names of CSS for the properties of the file, by what they mean. -/
def cssName : Named → String
  | .keyword .breakBefore => "break-before"
  | .keyword .breakAfter => "break-after"
  | .keyword .breakInside => "break-inside"
  | .keyword .float => "float"
  | .keyword .clear => "clear"
  | .keyword .tableLayout => "table-layout"
  | .keyword .captionSide => "caption-side"
  | .keyword .borderCollapse => "border-collapse"
  | .keyword .visibility => "visibility"
  | .keyword .boxSizing => "box-sizing"
  | .keyword .textAlign => "text-align"
  | .keyword .textTransform => "text-transform"
  | .keyword .whiteSpace => "white-space"
  | .keyword .overflowX => "overflow-x"
  | .keyword .overflowY => "overflow-y"
  | .keyword .overflowBlock => "overflow-block"
  | .keyword .overflowInline => "overflow-inline"
  | .keyword .flexDirection => "flex-direction"
  | .keyword .flexWrap => "flex-wrap"
  | .keyword .dominantBaseline => "dominant-baseline"
  | .keyword .baselineSource => "baseline-source"
  | .keyword .alignmentBaseline => "alignment-baseline"
  | .keyword .markerSide => "marker-side"
  | .keyword .transformBox => "transform-box"
  | .counterReset => "counter-reset"
  | .counterIncrement => "counter-increment"
  | .counterSet => "counter-set"
  | .content => "content"
  | .alignContent => "align-content"
  | .justifyContent => "justify-content"
  | .justifySelf => "justify-self"
  | .alignSelf => "align-self"
  | .justifyItems => "justify-items"
  | .alignItems => "align-items"
  | .rowGap => "row-gap"
  | .columnGap => "column-gap"
  | .borderSpacing => "border-spacing"
  | .opacity => "opacity"
  | .zIndex => "z-index"
  | .baselineShift => "baseline-shift"
  | .verticalAlign => "vertical-align"
  | .position => "position"
  | .backgroundAttachment => "background-attachment"
  | .backgroundImage => "background-image"
  | .backgroundPosition => "background-position"
  | .backgroundRepeat => "background-repeat"

/-- Older names of CSS for some. -/
def oldNames : List (String × Named) := [("grid-row-gap", .rowGap), ("grid-column-gap", .columnGap)]

/-- Older names that the code does not know. -/
def unknownNames : List String := ["page-break-before", "page-break-after", "page-break-inside"]

/-- **C198 (in part).** Every property of the file has its CSS name, in small letters, and the old
names of the gaps mean the gaps. -/
theorem C198_names_partial (p : Named) : resolveName (cssName p).toList = some p := by
  cases p with
  | keyword P => cases P <;> decide +kernel
  | _ => decide +kernel

theorem C198_old : ∀ q ∈ oldNames, resolveName q.1.toList = some q.2 := by decide +kernel

theorem registered_css : ∀ q ∈ registered, q.1 = cssName q.2 := by decide +kernel

theorem lookupName_some {t : List (String × α)} {w : List Char} {v : α}
    (h : lookupName t w = some v) : ∃ k, (k, v) ∈ t ∧ w = k.toList := by
  unfold lookupName at h
  cases hf : t.find? fun p => p.1.toList == w with
  | none => rw [hf] at h; cases h
  | some q =>
    rw [hf] at h
    cases h
    exact ⟨q.1, List.mem_of_find?_eq_some hf, 
      (beq_iff_eq.1 (List.find?_some (p := fun p : String × α => p.1.toList == w) hf)).symm⟩

theorem aliases_old : ∀ q ∈ aliases, ∀ r ∈ registered, r.1 = q.2 → (q.1, r.2) ∈ oldNames := by
  decide +kernel

/-- **C198.** No other name means one of them. -/
theorem C198_only {w : List Char} {p : Named} (h : resolveName w = some p) :
    w = (cssName p).toList ∨ ∃ k, (k, p) ∈ oldNames ∧ w = k.toList := by
  unfold resolveName at h
  obtain ⟨k, hk, hw⟩ := lookupName_some h
  cases ha : lookupName aliases w with
  | none =>
    rw [ha] at hw
    simp only [Option.map_none, Option.getD_none] at hw
    have := registered_css _ hk
    simp only at this
    exact .inl (this ▸ hw)
  | some q =>
    obtain ⟨k', hk', hw'⟩ := lookupName_some ha
    rw [ha] at hw
    simp only [Option.map_some, Option.getD_some] at hw
    exact .inr ⟨k', aliases_old _ hk' _ hk (String.toList_inj.1 hw).symm, hw'⟩

example : resolveName "break-before".toList = some (.keyword .breakBefore) := by decide +kernel

theorem names_lower : ∀ q ∈ registered, ∀ c ∈ q.1.toList, c.toLower = c := by decide +kernel
theorem old_lower : ∀ q ∈ oldNames, ∀ c ∈ q.1.toList, c.toLower = c := by decide +kernel

theorem map_id_of {l : List Char} (h : ∀ c ∈ l, c.toLower = c) : l.map Char.toLower = l := by
  induction l with
  | nil => rfl
  | cons c l ih =>
    rw [List.map_cons, h c List.mem_cons_self, ih (fun d hd => h d (List.mem_cons_of_mem _ hd))]

/-- **C198.** It is false that names are read in any case of letters, as CSS has it: a name with a
capital letter means nothing, so the declaration is dropped. -/
theorem C198_case_fails {w : List Char} (h : w.map Char.toLower ≠ w) : resolveName w = none := by
  cases hr : resolveName w with
  | none => rfl
  | some p =>
    exfalso
    rcases C198_only hr with e | ⟨k, hk, e⟩
    · obtain ⟨k, hk, he⟩ : ∃ k, (k, p) ∈ registered ∧ k = cssName p := by
        have := C198_names_partial p
        unfold resolveName at this
        obtain ⟨k, hk, _⟩ := lookupName_some this
        exact ⟨k, hk, registered_css _ hk⟩
      exact h (by rw [e]; exact map_id_of (fun c hc => names_lower _ hk c (by rw [he]; exact hc)))
    · exact h (by rw [e]; exact map_id_of (old_lower _ hk))

/-- `Break-Before` -/
example : ("Break-Before".toList).map Char.toLower ≠ "Break-Before".toList ∧
    Cased "Break-Before".toList "break-before".toList :=
  ⟨by decide +kernel, eqCi_iff.1 (by decide +kernel)⟩

/-- **C198.** It is false that the page-break properties of CSS 2 are known. -/
theorem C198_page_break_fails : ∀ k ∈ unknownNames, resolveName k.toList = none := by
  decide +kernel

/-- **C198.** `initial`, `inherit`, `unset` and `revert` are read for every property, whatever its
parser, in any case of letters. -/
theorem C198_wide {k : String} {d : Wide} (h : (k, d) ∈ wideWords) {t : Tok} (hw : Word k t)
    (p : List Tok → Out α) (n : Nat) : readDecl p n [t] = some (.wide d) := by
  unfold readDecl
  rw [(plain_one hw.ne_ws).eatWs, skipAny_word hw, wide_lookup _ h]
  rfl

example : ("inherit", Wide.inherit) ∈ wideWords ∧ Word "inherit" (.ident "Inherit".toList) :=
  ⟨by decide +kernel, .mk (eqCi_iff.1 (by decide +kernel))⟩

/-- **C198.** Nothing else is read as one of these words. -/
theorem C198_wide_only {p : List Tok → Out α} {n : Nat} {l : List Tok} {d : Wide} (hl : Plain l)
    (h : readDecl p n l = some (.wide d)) : ∃ t r k, l = t :: r ∧ (k, d) ∈ wideWords ∧ Word k t := by
  unfold readDecl at h
  rw [hl.eatWs] at h
  by_cases hi : ∃ w r, l = .ident w :: r
  · obtain ⟨w, r, rfl⟩ := hi
    rw [skipAny_ident] at h
    cases hk : kwLookup wideKw w with
    | some d' =>
      rw [hk] at h
      cases h
      obtain ⟨k, hm, hc⟩ := wide_some hk
      exact ⟨_, r, k, rfl, hm, .mk hc⟩
    | none =>
      rw [hk] at h
      simp only [Option.map_none] at h
      split at h
      · cases h
      · cases h
      · unfold readPlain at h
        split at h
        · split at h <;> cases h
        · cases h
  · rw [skipAny_none _ (fun w r e => hi ⟨w, r, e⟩)] at h
    simp only at h
    split at h
    · cases h
    · cases h
    · unfold readPlain at h
      split at h
      · split at h <;> cases h
      · cases h

/-- **C198.** It is false that such a word must stand alone: what is behind it is ignored. -/
theorem C198_wide_rest_fails {k : String} {d : Wide} (h : (k, d) ∈ wideWords) {t : Tok}
    (hw : Word k t) (junk : List Tok) (p : List Tok → Out α) (n : Nat) :
    readDecl p n (t :: junk) = some (.wide d) := by
  unfold readDecl
  have : eatWs (t :: junk) = t :: junk := by
    unfold eatWs
    split
    · next e => exact absurd (List.cons.inj e).1 hw.ne_ws
    · rfl
  rw [this, skipAny_word hw, wide_lookup _ h]
  rfl

/-- **C198.** The same for `toggle()`: what is behind it is ignored (`C192_toggle` with any
`rest`).  `revert-layer`, a word of CSS for all properties, is none here. -/
theorem C198_revert_layer_fails (P : Prop') (n : Nat) :
    readDecl P.parse n [.ident "revert-layer".toList] = some .unread := by
  have hw : Word "revert-layer" (.ident "revert-layer".toList) := .mk (Cased.refl _)
  have h1 : kwLookup wideKw "revert-layer".toList = none := by decide +kernel
  have h2 : ∀ P ∈ allProps, kwLookup P.table "revert-layer".toList = none := by decide +kernel
  rw [read_plain (plain_one hw.ne_ws) (notWide_word hw h1) (notToggle_word hw)]
  rw [readPlain_none]
  simp only [Prop'.parse, parseKw_word hw, h2 P (mem_allProps P)]
  rfl

end Verif.Keyword
