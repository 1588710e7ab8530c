import Verif.Short.Lemmas

/-!
# Shorthands: flex (C165), flex-flow (C166) and overflow (C172)
-/

namespace Verif.Short
open Verif.Values

/-! ## C166 -/

theorem directionKw_ok : KwOk directionKw := by unfold KwOk; decide +kernel
theorem wrapKw_ok : KwOk wrapKw := by unfold KwOk; decide +kernel
theorem overflowKw_ok : KwOk overflowKw := by unfold KwOk; decide +kernel

theorem direction_word {d : Direction} {t : Tok} (h : Word d.word t) (r : List Tok) :
    parseKw directionKw (t :: r) = (some d, r) := by
  have hk : kwLookup directionKw d.word.toList = some d := by cases d <;> decide +kernel
  rw [parseKw_word h, hk]; rfl

theorem wrap_word {w : Wrap} {t : Tok} (h : Word w.word t) (r : List Tok) :
    parseKw wrapKw (t :: r) = (some w, r) := by
  have hk : kwLookup wrapKw w.word.toList = some w := by cases w <;> decide +kernel
  rw [parseKw_word h, hk]; rfl

theorem direction_not_wrap {w : Wrap} {t : Tok} (h : Word w.word t) (r : List Tok) :
    parseKw directionKw (t :: r) = (none, t :: r) := by
  have hk : kwLookup directionKw w.word.toList = none := by cases w <;> decide +kernel
  rw [parseKw_word h, hk]; rfl

theorem direction_one {l l' : List Tok} {d : Direction}
    (h : parseKw directionKw l = (some d, l')) : ∃ t, l = t :: l' ∧ Word d.word t := by
  obtain ⟨t, k, rfl, hm, hw⟩ := parseKw_one h
  have : k = d.word := by
    have tbl : ∀ p ∈ directionKw, p.1 = p.2.word := by decide
    exact tbl _ hm
  exact ⟨t, rfl, this ▸ hw⟩

theorem wrap_one {l l' : List Tok} {w : Wrap}
    (h : parseKw wrapKw l = (some w, l')) : ∃ t, l = t :: l' ∧ Word w.word t := by
  obtain ⟨t, k, rfl, hm, hw⟩ := parseKw_one h
  have : k = w.word := by
    have tbl : ∀ p ∈ wrapKw, p.1 = p.2.word := by decide
    exact tbl _ hm
  exact ⟨t, rfl, this ▸ hw⟩

/-- **C166.** `flex-flow` is accepted if and only if it is a direction, a wrapping, or both in
either order, in letters of any case, and then these are what is set, `row` and `nowrap` for what
is left out. -/
theorem C166_flow {ts : List Tok} {v : Direction × Wrap} (hp : Plain ts) :
    declared parseFlow ts = some v ↔ FlowText ts v := by
  rw [declared_plain hp]
  constructor
  · intro h
    unfold parseFlow at h
    split at h
    · next d l1 h1 =>
      obtain ⟨t, rfl, hd⟩ := direction_one h1
      split at h
      · next w l2 h2 =>
        obtain ⟨t', rfl, hw⟩ := wrap_one h2
        obtain ⟨e1, e2⟩ := Prod.mk.inj h
        cases e1; subst e2
        exact .both hd hw
      · next l2 h2 =>
        have := oneTok_fail (parseKw_oneTok _) h2
        obtain ⟨e1, e2⟩ := Prod.mk.inj h
        cases e1; subst e2; subst this
        exact .direction hd
    · next l1 h1 =>
      have := oneTok_fail (parseKw_oneTok _) h1
      subst this
      split at h
      · cases h
      · next w l2 h2 =>
        obtain ⟨t, rfl, hw⟩ := wrap_one h2
        split at h
        · next d l3 h3 =>
          obtain ⟨t', rfl, hd⟩ := direction_one h3
          obtain ⟨e1, e2⟩ := Prod.mk.inj h
          cases e1; subst e2
          exact .swapped hw hd
        · next l3 h3 =>
          have := oneTok_fail (parseKw_oneTok _) h3
          obtain ⟨e1, e2⟩ := Prod.mk.inj h
          cases e1; subst e2; subst this
          exact .wrap hw
  · intro h
    have e1 : parseKw wrapKw [] = (none, []) := rfl
    have e2 : parseKw directionKw [] = (none, []) := rfl
    cases h with
    | direction h => simp only [parseFlow, direction_word h, e1]
    | wrap h => simp only [parseFlow, direction_not_wrap h, wrap_word h, e2]
    | both h h' => simp only [parseFlow, direction_word h, wrap_word h']
    | swapped h h' => simp only [parseFlow, direction_not_wrap h, wrap_word h, direction_word h']

/-- `flex-flow: WRAP column` -/
example : FlowText [.ident "WRAP".toList, .ident "column".toList] (.column, .wrap) :=
  .swapped (w := .wrap) (d := .column) (.mk (eqCi_iff.mp (by decide +kernel)))
    (.mk (eqCi_iff.mp (by decide +kernel)))

/-! ## C172 -/

theorem overflow_word {x : Overflow} {t : Tok} (h : OverflowWord x t) (r : List Tok) :
    parseKw overflowKw (t :: r) = (some x, r) := by
  cases h <;> rename_i h <;> rw [parseKw_word h]
  · rw [show kwLookup overflowKw "visible".toList = some .visible by decide +kernel]; rfl
  · rw [show kwLookup overflowKw "hidden".toList = some .hidden by decide +kernel]; rfl
  · rw [show kwLookup overflowKw "scroll".toList = some .scroll by decide +kernel]; rfl
  · rw [show kwLookup overflowKw "auto".toList = some .auto by decide +kernel]; rfl
  · rw [show kwLookup overflowKw "overlay".toList = some .auto by decide +kernel]; rfl

theorem overflow_one {l l' : List Tok} {x : Overflow}
    (h : parseKw overflowKw l = (some x, l')) : ∃ t, l = t :: l' ∧ OverflowWord x t := by
  obtain ⟨t, k, rfl, hm, hw⟩ := parseKw_one h
  refine ⟨t, rfl, ?_⟩
  simp only [overflowKw, List.mem_cons, List.not_mem_nil, or_false, Prod.mk.injEq] at hm
  rcases hm with ⟨rfl, rfl⟩ | ⟨rfl, rfl⟩ | ⟨rfl, rfl⟩ | ⟨rfl, rfl⟩ | ⟨rfl, rfl⟩
  · exact .overlay hw
  · exact .visible hw
  · exact .hidden hw
  · exact .scroll hw
  · exact .auto hw

theorem OverflowWord.ne_ws {x : Overflow} {t : Tok} (h : OverflowWord x t) : t ≠ .ws := by
  cases h <;> rename_i h <;> exact h.ne_ws

/-- **C172 (in part).** `overflow` is accepted if and only if it is one or two of `visible`,
`hidden`, `scroll` and `auto` (or `overlay`), and then the first is the horizontal and the last
the vertical value.  Missing: `clip`, which is not known. -/
theorem C172_overflow_partial {ts : List Tok} {v : Overflow × Overflow} (hp : Plain ts) :
    declared parseOverflow ts = some v ↔ OverflowText ts v := by
  rw [declared_plain hp]
  constructor
  · intro h
    unfold parseOverflow at h
    rw [hp.eatWs] at h
    split at h
    · cases h
    · next x l1 h1 =>
      obtain ⟨t, rfl, hx⟩ := overflow_one h1
      rw [hp.tail.eatWs] at h
      split at h
      · obtain ⟨e1, e2⟩ := Prod.mk.inj h
        cases e1
        exact .one hx
      · split at h
        · cases h
        · next y l3 h3 =>
          obtain ⟨t', rfl, hy⟩ := overflow_one h3
          obtain ⟨e1, e2⟩ := Prod.mk.inj h
          cases e1; subst e2
          exact .two hx hy
  · intro h
    unfold parseOverflow
    rw [hp.eatWs]
    cases h with
    | one h => simp only [overflow_word h, Values.eatWs]
    | @two x t y t' h h' =>
      have : eatWs [t'] = [t'] := hp.tail.eatWs
      simp only [overflow_word h, this, overflow_word h']

/-- `overflow: Hidden auto` -/
example : OverflowText [.ident "Hidden".toList, .ident "auto".toList] (.hidden, .auto) :=
  .two (.hidden (.mk (eqCi_iff.mp (by decide +kernel)))) (.auto (.mk (eqCi_iff.mp (by decide +kernel))))

/-- `overflow: clip` is not accepted. -/
theorem C172_clip_fails : declared parseOverflow [.ident "clip".toList] = none := by
  decide +kernel

/-! ## C165 -/

theorem parseFit_oneTok : OneTok parseFit := by
  refine ⟨rfl, fun t => ?_⟩
  by_cases hf : ∃ n c, t = .func n c
  · obtain ⟨n, c, rfl⟩ := hf
    by_cases hn : eqCi n "fit-content(".toList = true
    · cases h : parsePL c with
      | mk o c' =>
        cases o with
        | none => exact ⟨none, fun r => by simp only [parseFit, if_pos hn, h]; rfl⟩
        | some v => exact ⟨some v, fun r => by simp only [parseFit, if_pos hn, h]; rfl⟩
    · exact ⟨none, fun r => by simp only [parseFit, if_neg hn]; rfl⟩
  · refine ⟨none, fun r => ?_⟩
    cases t with
    | func n c => exact absurd ⟨n, c, rfl⟩ hf
    | _ => rfl

theorem skipAny_tok (table : List (String × α)) (t : Tok) :
    ∃ o : Option α, ∀ r, skipAny table (t :: r) = o.map fun v => (v, r) := by
  by_cases h : ∃ w, t = .ident w
  · obtain ⟨w, rfl⟩ := h
    exact ⟨_, skipAny_ident table w⟩
  · exact ⟨none, fun r => skipAny_none table (fun w r' e => h ⟨w, (List.cons.inj e).1⟩)⟩

theorem parseBasis_oneTok : OneTok parseBasis := by
  refine ⟨rfl, fun t => ?_⟩
  obtain ⟨o1, h1⟩ := skipAny_tok [("auto", Basis.auto), ("content", .content)] t
  obtain ⟨o2, h2⟩ := (parseCalcOf_oneTok parsePL_oneTok).2 t
  have h2 : ∀ r, parseCalc (t :: r) = (o2, if o2.isSome then r else t :: r) := h2
  obtain ⟨o3, h3⟩ := skipAny_tok [("min-content", Basis.minContent), ("max-content", .maxContent)] t
  obtain ⟨o4, h4⟩ := parseFit_oneTok.2 t
  cases o1 with
  | some v => exact ⟨some v, fun r => by unfold parseBasis; rw [h1]; rfl⟩
  | none =>
  cases o2 with
  | some v => exact ⟨some (.calc v), fun r => by unfold parseBasis; rw [h1, h2]; rfl⟩
  | none =>
  cases o3 with
  | some v => exact ⟨some v, fun r => by
      unfold parseBasis; rw [h1, h2]
      simp only [Option.map_none, Option.isSome_none, Bool.false_eq_true, if_false, h3]; rfl⟩
  | none =>
  cases o4 with
  | some v => exact ⟨some (.fit v), fun r => by
      unfold parseBasis; rw [h1, h2]
      simp only [Option.map_none, Option.isSome_none, Bool.false_eq_true, if_false, h3, h4]; rfl⟩
  | none => exact ⟨none, fun r => by
      unfold parseBasis; rw [h1, h2]
      simp only [Option.map_none, Option.isSome_none, Bool.false_eq_true, if_false, h3, h4]⟩

theorem isBasis_iff {t : Tok} {b : Basis} (ht : t ≠ .ws) : IsBasis t b ↔ Reads parseBasis t b :=
  declared_one parseBasis_oneTok ht

/-- A number token has a number for a text. -/
def NumTok (t : Tok) : Prop := ∀ s, t = .number s → ∃ g, (atof s).map (·.1) = some g

theorem parseNumber_num {t : Tok} (h : NumTok t) :
    (∃ g, Reads parseNumber t g ∧ IsNumber t g) ∨
      ((∀ r, parseNumber (t :: r) = (none, t :: r)) ∧ ∀ x, ¬ IsNumber t x) := by
  by_cases ht : ∃ s, t = .number s
  · obtain ⟨s, rfl⟩ := ht
    obtain ⟨g, hg⟩ := h s rfl
    have : Reads parseNumber (.number s) g := fun r => by simp only [parseNumber, hg]
    refine .inl ⟨g, this, ?_⟩
    unfold IsNumber declared eatWs
    rw [this]
  · refine .inr ⟨fun r => ?_, fun x hx => ?_⟩
    · cases t with
      | number s => exact absurd ⟨s, rfl⟩ ht
      | _ => rfl
    · cases t with
      | number s => exact ht ⟨s, rfl⟩
      | _ => cases hx

theorem IsNumber.reads {t : Tok} {g : Rat} (h : IsNumber t g) : Reads parseNumber t g := by
  cases t with
  | number s =>
    unfold IsNumber declared eatWs parseNumber at h
    intro r
    simp only [parseNumber]
    split at h
    · next v e =>
      cases h
      rw [(Prod.mk.inj e).1]
    · cases h
  | _ => cases h

theorem IsNumber.not_basisWords {t : Tok} {g : Rat} (h : IsNumber t g) (table : List (String × α))
    (r : List Tok) : skipAny table (t :: r) = none := by
  cases t with
  | number s => exact skipAny_none _ (fun w r' e => by cases e)
  | _ => cases h

theorem not_number_parse {t : Tok} (ht : t ≠ .ws) (h : ∀ x, ¬ IsNumber t x) (hn : NumTok t)
    (r : List Tok) : parseNumber (t :: r) = (none, t :: r) := by
  rcases parseNumber_num hn with ⟨g, _, hg⟩ | ⟨h', _⟩
  · exact absurd hg (h g)
  · exact h' r

theorem IsBasis.ne_ws {t : Tok} {b : Basis} (h : IsBasis t b) : t ≠ .ws := by
  rintro rfl
  unfold IsBasis declared at h
  simp only [eatWs] at h
  rw [parseBasis_oneTok.1] at h
  cases h

theorem IsNumber.ne_ws {t : Tok} {g : Rat} (h : IsNumber t g) : t ≠ .ws := by
  rintro rfl; cases h

/-- `none` and `initial` are no basis. -/
theorem IsBasis.not_word {t : Tok} {b : Basis} (h : IsBasis t b) (r : List Tok) :
    skipAny [("none", (⟨.auto, 0, 0⟩ : Flex)), ("initial", ⟨.auto, 0, 1⟩)] (t :: r) = none := by
  have hr := (isBasis_iff h.ne_ws).1 h
  by_cases ht : ∃ w, t = .ident w
  · obtain ⟨w, rfl⟩ := ht
    rw [skipAny_ident]
    cases hk : kwLookup [("none", (⟨.auto, 0, 0⟩ : Flex)), ("initial", ⟨.auto, 0, 1⟩)] w with
    | none => rfl
    | some v =>
      exfalso
      obtain ⟨k, hm, hc⟩ := kwLookup_some hk
      have := hr []
      unfold parseBasis at this
      rw [skipAny_ident, kwLookup_congr hc] at this
      have hm' : k = "none" ∨ k = "initial" := by
        simp only [List.mem_cons, List.not_mem_nil, or_false, Prod.mk.injEq] at hm
        rcases hm with ⟨rfl, _⟩ | ⟨rfl, _⟩ <;> simp
      have e1 : kwLookup [("auto", Basis.auto), ("content", .content)] k.toList = none := by
        rcases hm' with rfl | rfl <;> decide +kernel
      have e2 : kwLookup [("min-content", Basis.minContent), ("max-content", .maxContent)]
          k.toList = none := by
        rcases hm' with rfl | rfl <;> decide +kernel
      rw [e1] at this
      simp only [Option.map_none, parseCalc_ident, skipAny_ident, kwLookup_congr hc, e2] at this
      simp [parseFit] at this
  · exact skipAny_none _ (fun w r' e => ht ⟨w, (List.cons.inj e).1⟩)

theorem growShrink_none {v : Flex} {l : List Tok} (h : parseNumber l = (none, l)) :
    growShrink v l = (none, l) := by unfold growShrink; rw [h]

theorem parseBasis_nil : parseBasis [] = (none, []) := parseBasis_oneTok.1

theorem numTok_of_numeric {ts : List Tok} (h : Numeric ts) {t : Tok} (ht : t ∈ ts) : NumTok t := by
  rintro s rfl
  obtain ⟨n, rfl⟩ := h s ht
  exact ⟨n.value, by rw [atof_lit_end]; rfl⟩

theorem Numeric.tail {t : Tok} {ts : List Tok} (h : Numeric (t :: ts)) : Numeric ts :=
  fun s hs => h s (List.mem_cons_of_mem _ hs)

/-- The two flex factors, as the code reads them: none, one or two numbers. -/
theorem growShrink_cases (v : Flex) {l : List Tok} (h : Numeric l) :
    (growShrink v l = (none, l) ∧ ∀ t r x, l = t :: r → ¬ IsNumber t x) ∨
    (∃ t r g, l = t :: r ∧ IsNumber t g ∧ growShrink v l = (some { v with grow := g }, r) ∧
      ∀ t' r' x, r = t' :: r' → ¬ IsNumber t' x) ∨
    (∃ t t' r g s, l = t :: t' :: r ∧ IsNumber t g ∧ IsNumber t' s ∧
      growShrink v l = (some { v with grow := g, shrink := s }, r)) := by
  cases l with
  | nil => exact .inl ⟨rfl, fun t r x e => by cases e⟩
  | cons t r =>
    rcases parseNumber_num (numTok_of_numeric h (List.mem_cons_self ..)) with ⟨g, hr, hg⟩ | ⟨h1, h2⟩
    · cases r with
      | nil =>
        refine .inr (.inl ⟨t, [], g, rfl, hg, ?_, fun t' r' x e => by cases e⟩)
        unfold growShrink
        rw [hr]
        rfl
      | cons t' r =>
        rcases parseNumber_num (numTok_of_numeric h.tail (List.mem_cons_self ..)) with
          ⟨s, hr', hs⟩ | ⟨h1, h2⟩
        · refine .inr (.inr ⟨t, t', r, g, s, rfl, hg, hs, ?_⟩)
          unfold growShrink
          simp only [hr _, hr' _]
        · refine .inr (.inl ⟨t, t' :: r, g, rfl, hg, ?_, fun t'' r' x e => ?_⟩)
          · unfold growShrink
            simp only [hr _, h1]
          · cases e; exact h2 x
    · exact .inl ⟨growShrink_none (h1 r), fun t' r' x e => by cases e; exact h2 x⟩

/-- What `parseBasis` does: a basis of one token, or nothing. -/
theorem parseBasis_cases {l : List Tok} (hp : Plain l) :
    (∃ t r b, l = t :: r ∧ IsBasis t b ∧ parseBasis l = (some b, r)) ∨
      (parseBasis l = (none, l) ∧ ∀ t r b, l = t :: r → ¬ IsBasis t b) := by
  cases l with
  | nil => exact .inr ⟨rfl, fun t r b e => by cases e⟩
  | cons t r =>
    have ht : t ≠ .ws := hp t (List.mem_cons_self ..)
    obtain ⟨o, ho⟩ := parseBasis_oneTok.2 t
    cases o with
    | none =>
      refine .inr ⟨ho r, fun t' r' b e hb => ?_⟩
      cases e
      have := (isBasis_iff ht).1 hb []
      rw [ho] at this; cases this
    | some b => exact .inl ⟨t, r, b, rfl, (isBasis_iff ht).2 ho, ho r⟩

theorem parseBasis_word {k : String} {t : Tok} {b : Basis} (h : Word k t)
    (hk : kwLookup [("auto", Basis.auto), ("content", .content)] k.toList = some b) :
    declared parseBasis [t] = some b := by
  have : parseBasis [t] = (some b, []) := by
    unfold parseBasis
    rw [skipAny_word h, hk]
    rfl
  exact (declared_plain (by intro u hu; simp at hu; rw [hu]; exact h.ne_ws)).2 this

theorem parseBasis_content {k : String} {t : Tok} {b : Basis} (h : Word k t)
    (hk : kwLookup [("auto", Basis.auto), ("content", .content)] k.toList = none)
    (hk' : kwLookup [("min-content", Basis.minContent), ("max-content", .maxContent)] k.toList =
      some b) :
    declared parseBasis [t] = some b := by
  have : parseBasis [t] = (some b, []) := by
    have hc : parseCalc [t] = (none, [t]) := by cases h; rfl
    unfold parseBasis
    rw [skipAny_word h, hk]
    simp only [Option.map_none, hc]
    rw [skipAny_word h, hk']
    rfl
  exact (declared_plain (by intro u hu; simp at hu; rw [hu]; exact h.ne_ws)).2 this

/-- **C165.** The bases are `auto`, `content`, `min-content`, `max-content`, lengths and
percentages, and `fit-content()` of one. -/
theorem C165_basis {t : Tok} {b : Basis} : IsBasis t b ↔ BasisTok t b := by
  constructor
  · intro h
    have ht : t ≠ .ws := h.ne_ws
    have h1 : parseBasis [t] = (some b, []) :=
      (declared_plain (by intro u hu; simp at hu; rwa [hu])).1 h
    unfold parseBasis at h1
    split at h1
    · next v r e =>
      have h2 : parseKw [("auto", Basis.auto), ("content", .content)] [t] = (some v, r) := by
        unfold parseKw; rw [e]
      obtain ⟨t', k, e', hm, hw⟩ := parseKw_one h2
      cases h1
      cases e'
      simp at hm
      rcases hm with ⟨rfl, rfl⟩ | ⟨rfl, rfl⟩
      · exact .auto hw
      · exact .content hw
    · split at h1
      · next c r e =>
        cases h1
        exact .length ((declared_plain (by intro u hu; simp at hu; rwa [hu])).2 e)
      · next l1 e =>
        have := oneTok_fail (p := parseCalc) (parseCalcOf_oneTok parsePL_oneTok) e
        subst this
        split at h1
        · next v r e =>
          have h2 : parseKw [("min-content", Basis.minContent), ("max-content", .maxContent)] [t] =
              (some v, r) := by unfold parseKw; rw [e]
          obtain ⟨t', k, e', hm, hw⟩ := parseKw_one h2
          cases h1
          cases e'
          simp at hm
          rcases hm with ⟨rfl, rfl⟩ | ⟨rfl, rfl⟩
          · exact .minContent hw
          · exact .maxContent hw
        · cases t with
          | func n c =>
            simp only [parseFit] at h1
            by_cases hn : eqCi n "fit-content(".toList = true
            · rw [if_pos hn] at h1
              cases hp : parsePL c with
              | mk o c' =>
                rw [hp] at h1
                cases o with
                | none => cases h1
                | some v =>
                  cases h1
                  obtain ⟨u, rfl, hr⟩ := parsePL_oneTok.one hp
                  exact .fit (eqCi_iff.1 hn) hr
            · rw [if_neg hn] at h1
              cases h1
          | _ => cases h1
  · intro h
    unfold IsBasis
    cases h with
    | auto h => exact parseBasis_word h (by decide +kernel)
    | content h => exact parseBasis_word h (by decide +kernel)
    | minContent h => exact parseBasis_content h (by decide +kernel) (by decide +kernel)
    | maxContent h => exact parseBasis_content h (by decide +kernel) (by decide +kernel)
    | @length t c h =>
      have hne : t ≠ .ws := by rintro rfl; cases h
      have hp : Plain [t] := by intro u hu; simp at hu; rwa [hu]
      have hc := (declared_plain hp).1 h
      refine (declared_plain hp).2 ?_
      have hi : ∀ w, t ≠ .ident w := by
        rintro w rfl
        rw [parseCalc_ident] at hc; cases hc
      unfold parseBasis
      rw [skipAny_none _ (fun w r e => hi w (List.cons.inj e).1)]
      simp only [hc]
    | @fit n u v r hn hr =>
      refine (declared_plain (by intro u hu; simp at hu; simp [hu])).2 ?_
      have hc : parseCalc [.func n (u :: r)] = (none, [.func n (u :: r)]) := by
        have : n ≠ "calc(".toList := by
          rintro rfl
          exact absurd (eqCi_iff.2 hn) (by decide +kernel)
        simp only [parseCalc, parseCalcOf, this, if_false]
      unfold parseBasis
      rw [skipAny_none _ (fun w r e => by cases e)]
      simp only [hc]
      rw [skipAny_none _ (fun w r e => by cases e)]
      simp only [parseFit, eqCi_iff.2 hn, if_true, hr r]

/-- **C165 (in part).** `flex` is accepted if and only if it is `none`, `initial`, or one or two
numbers and a basis, of which either may be left out, in either order; and then the factors and
the basis are the ones written, 1 and no length for those left out.  Missing: that the factors
are not negative, which is not asked for. -/
theorem C165_flex_partial {ts : List Tok} {v : Flex} (hp : Plain ts) (hn : Numeric ts) :
    declared parseFlex ts = some v ↔ FlexText (fun _ => True) ts v := by
  rw [declared_plain hp]
  constructor
  · intro h
    unfold parseFlex at h
    split at h
    · next v' r h1 =>
      obtain ⟨e1, e2⟩ := Prod.mk.inj h
      cases e1; subst e2
      have h2 : parseKw [("none", (⟨.auto, 0, 0⟩ : Flex)), ("initial", ⟨.auto, 0, 1⟩)] ts =
          (some v, []) := by unfold parseKw; rw [h1]
      obtain ⟨t, k, rfl, hm, hw⟩ := parseKw_one h2
      simp only [List.mem_cons, List.not_mem_nil, or_false, Prod.mk.injEq] at hm
      rcases hm with ⟨rfl, rfl⟩ | ⟨rfl, rfl⟩
      · exact .none hw
      · exact .initial hw
    · simp only at h
      rcases growShrink_cases ⟨zeroPx, 1, 1⟩ hn with ⟨e, hno⟩ | ⟨t, r, g, rfl, hg, e, hno⟩ |
        ⟨t, t', r, g, s, rfl, hg, hs, e⟩
      · rw [e] at h
        rcases parseBasis_cases hp with ⟨t, r, b, rfl, hb, e'⟩ | ⟨e', _⟩
        · simp only [e'] at h
          have hno' : ∀ x, ¬ IsNumber t x := fun x => hno t r x rfl
          rcases growShrink_cases ⟨b, 1, 1⟩ hn.tail with ⟨e2, _⟩ | ⟨t', r', g, rfl, hg, e2, hno2⟩ |
            ⟨t', t'', r', g, s, rfl, hg, hs, e2⟩
          · rw [e2] at h
            obtain ⟨e1, rfl⟩ := Prod.mk.inj h
            cases e1
            exact .basis hb hno'
          · rw [e2] at h
            obtain ⟨e1, rfl⟩ := Prod.mk.inj h
            cases e1
            exact .basisGrow hb hno' hg trivial
          · rw [e2] at h
            obtain ⟨e1, rfl⟩ := Prod.mk.inj h
            cases e1
            exact .basisGrowShrink hb hno' hg trivial hs trivial
        · simp only [e'] at h
          cases h
      · rw [e] at h
        rcases parseBasis_cases hp.tail with ⟨u, r', b, rfl, hb, e'⟩ | ⟨e', _⟩
        · simp only [e'] at h
          obtain ⟨e1, rfl⟩ := Prod.mk.inj h
          cases e1
          exact .growBasis hg trivial hb (fun x => hno u [] x rfl)
        · simp only [e'] at h
          obtain ⟨e1, rfl⟩ := Prod.mk.inj h
          cases e1
          exact .grow hg trivial
      · rw [e] at h
        rcases parseBasis_cases hp.tail.tail with ⟨u, r', b, rfl, hb, e'⟩ | ⟨e', _⟩
        · simp only [e'] at h
          obtain ⟨e1, rfl⟩ := Prod.mk.inj h
          cases e1
          exact .growShrinkBasis hg trivial hs trivial hb
        · simp only [e'] at h
          obtain ⟨e1, rfl⟩ := Prod.mk.inj h
          cases e1
          exact .growShrink hg trivial hs trivial
  · intro h
    have nn : ∀ {l : List Tok} {u : Tok} {r : List Tok}, l = u :: r → Numeric l →
        (∀ x, ¬ IsNumber u x) → parseNumber l = (none, l) := by
      rintro l u r rfl hn hx
      rcases parseNumber_num (numTok_of_numeric hn (List.mem_cons_self ..)) with ⟨g, _, hg⟩ | ⟨h', _⟩
      · exact absurd hg (hx g)
      · exact h' r
    have n0 : parseNumber [] = (none, []) := rfl
    cases h with
    | none h => 
      unfold parseFlex
      rw [skipAny_word h, show kwLookup [("none", (⟨.auto, 0, 0⟩ : Flex)), ("initial", ⟨.auto, 0, 1⟩)]
        "none".toList = some ⟨.auto, 0, 0⟩ by decide +kernel]
      rfl
    | initial h =>
      unfold parseFlex
      rw [skipAny_word h, show kwLookup [("none", (⟨.auto, 0, 0⟩ : Flex)), ("initial", ⟨.auto, 0, 1⟩)]
        "initial".toList = some ⟨.auto, 0, 1⟩ by decide +kernel]
      rfl
    | grow hg _ =>
      unfold parseFlex growShrink
      simp only [hg.not_basisWords, hg.reads _, n0, parseBasis_nil]
    | growShrink hg _ hs _ =>
      unfold parseFlex growShrink
      simp only [hg.not_basisWords, hg.reads _, hs.reads _, parseBasis_nil]
    | growBasis hg _ hb hx =>
      unfold parseFlex growShrink
      simp only [hg.not_basisWords, hg.reads _, nn rfl hn.tail hx, (isBasis_iff hb.ne_ws).1 hb _]
    | growShrinkBasis hg _ hs _ hb =>
      unfold parseFlex growShrink
      simp only [hg.not_basisWords, hg.reads _, hs.reads _, (isBasis_iff hb.ne_ws).1 hb _]
    | basis hb hx =>
      unfold parseFlex growShrink
      simp only [hb.not_word, nn rfl hn hx, (isBasis_iff hb.ne_ws).1 hb _, n0]
    | basisGrow hb hx hg _ =>
      unfold parseFlex growShrink
      simp only [hb.not_word, nn rfl hn hx, (isBasis_iff hb.ne_ws).1 hb _, hg.reads _, n0]
    | basisGrowShrink hb hx hg _ hs _ =>
      unfold parseFlex growShrink
      simp only [hb.not_word, nn rfl hn hx, (isBasis_iff hb.ne_ws).1 hb _, hg.reads _, hs.reads _]

theorem FlexText.mono {p q : Rat → Prop} (h : ∀ x, p x → q x) {ts : List Tok} {v : Flex}
    (ht : FlexText p ts v) : FlexText q ts v := by
  cases ht with
  | none a => exact .none a
  | initial a => exact .initial a
  | grow a b => exact .grow a (h _ b)
  | growShrink a b c d => exact .growShrink a (h _ b) c (h _ d)
  | growBasis a b c d => exact .growBasis a (h _ b) c d
  | growShrinkBasis a b c d e => exact .growShrinkBasis a (h _ b) c (h _ d) e
  | basis a b => exact .basis a b
  | basisGrow a b c d => exact .basisGrow a b c (h _ d)
  | basisGrowShrink a b c d e f => exact .basisGrowShrink a b c (h _ d) e (h _ f)

/-- **C165 (in part).** Every value CSS allows is read as it is meant. -/
theorem C165_allowed_partial {ts : List Tok} {v : Flex} (hp : Plain ts) (hn : Numeric ts)
    (h : FlexText (0 ≤ ·) ts v) : declared parseFlex ts = some v :=
  (C165_flex_partial hp hn).2 (h.mono fun _ _ => trivial)

/-- `flex: 2 1 30%` -/
example : FlexText (0 ≤ ·) [.number "2".toList, .number "1".toList, .percent "30%".toList]
    ⟨.calc (.one (.val (.percent 30))), 2, 1⟩ :=
  .growShrinkBasis (by unfold IsNumber; decide +kernel) (by decide +kernel)
    (by unfold IsNumber; decide +kernel) (by decide +kernel) (by unfold IsBasis; decide +kernel)

example : Plain [.number "2".toList, .number "1".toList, .percent "30%".toList] := by
  intro t ht; simp at ht; rcases ht with rfl | rfl | rfl <;> simp

/-- `flex: -1` is accepted: an item with a negative factor. -/
theorem C165_negative_fails :
    declared parseFlex [.number "-1".toList] = some ⟨zeroPx, -1, 1⟩ := by
  decide +kernel

end Verif.Short
