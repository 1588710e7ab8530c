import Verif.Keyword.ListProps

/-!
# Declarations: alignment (C195), amounts (C196), vertical-align (C197)
-/

namespace Verif.Keyword
open Verif.Values Verif.Short

/-! ## Alignment -/

theorem akey_lookup : ∀ p ∈ alignWords ++ alignOwn, kwLookup akeyKw p.1.toList = some p.2 ∧
    kwLookup prefixKw p.1.toList = none ∧ kwLookup wideKw p.1.toList = none ∧
    p.2 ≠ .noKeyword := by decide +kernel

theorem prefix_lookup : ∀ p ∈ prefixWords, kwLookup prefixKw p.1.toList = some p.2 ∧
    kwLookup akeyKw p.1.toList = none ∧ kwLookup wideKw p.1.toList = none ∧
    p.2 ≠ .noPrefix := by decide +kernel

theorem akey_words : ∀ p ∈ akeyKw, p ∈ alignWords ++ alignOwn := by decide +kernel
theorem prefix_words : ∀ p ∈ prefixKw, p ∈ prefixWords := by decide +kernel

theorem skipOr_word {tb : List (String × α)} {d : α} {k : String} {t : Tok} (h : Word k t)
    (r : List Tok) : skipOr tb d (t :: r) = match kwLookup tb k.toList with
      | some v => (v, r)
      | none => (d, t :: r) := by
  unfold skipOr
  rw [skipAny_word h]
  cases kwLookup tb k.toList <;> rfl

/-- **C195 (in part).** A declaration of an alignment property is read as a position or
distribution with a prefix or none, exactly if it is written so. -/
theorem C195_exact_partial {l : List Tok} (hl : Plain l) (v : Prefix × AKey) (n : Nat) :
    readDecl parseAlign n l = some (.value v) ↔ AlignText l v := by
  constructor
  · intro h
    obtain ⟨_, _, r, hp, hr⟩ := read_value h
    rw [hl.eatWs] at hp
    unfold parseAlign at hp
    simp only at hp
    rcases skipOr_cases prefixKw .noPrefix l with h1 | ⟨t, j, p, r1, rfl, hj, hw, h1⟩
    · rw [h1] at hp
      rcases skipOr_cases akeyKw .noKeyword l with h2 | ⟨t, k, a, r2, rfl, hk, hw, h2⟩
      · rw [h2] at hp; simp at hp
      · rw [h2] at hp
        split at hp
        · cases hp
        · cases hp
          have := eatWs_nil_of_suffix hl (List.suffix_cons _ _) hr
          subst this
          exact .key (akey_words _ hk) hw
    · rw [h1] at hp
      rcases skipOr_cases akeyKw .noKeyword r1 with h2 | ⟨t', k, a, r2, rfl, hk, hw', h2⟩
      · rw [h2] at hp
        split at hp
        · cases hp
        · cases hp
          have := eatWs_nil_of_suffix hl (List.suffix_cons _ _) hr
          subst this
          exact .lone (prefix_words _ hj) hw
      · rw [h2] at hp
        split at hp
        · cases hp
        · cases hp
          have := eatWs_nil_of_suffix hl
            ((List.suffix_cons _ _).trans (List.suffix_cons _ _)) hr
          subst this
          exact .both (prefix_words _ hj) hw (akey_words _ hk) hw'
  · intro h
    cases h with
    | key h hw =>
      obtain ⟨h1, h2, h3, h4⟩ := akey_lookup _ h
      simp only at h1 h2 h3 h4
      rw [read_plain hl (notWide_word hw h3) (notToggle_word hw), readPlain_value]
      simp only [parseAlign, skipOr_word hw, h1, h2]
      rw [if_neg (by simp [h4])]
    | both hp hj h hw =>
      obtain ⟨h1, h2, h3, h4⟩ := akey_lookup _ h
      obtain ⟨p1, p2, p3, p4⟩ := prefix_lookup _ hp
      simp only at h1 h2 h3 h4 p1 p2 p3 p4
      rw [read_plain hl (notWide_word hj p3) (notToggle_word hj), readPlain_value]
      simp only [parseAlign, skipOr_word hj, p1, skipOr_word hw, h1]
      rw [if_neg (by simp [h4])]
    | lone hp hj =>
      obtain ⟨p1, p2, p3, p4⟩ := prefix_lookup _ hp
      simp only at p1 p2 p3 p4
      rw [read_plain hl (notWide_word hj p3) (notToggle_word hj), readPlain_value]
      have : skipOr akeyKw .noKeyword [] = (.noKeyword, []) := rfl
      simp only [parseAlign, skipOr_word hj, p1, this]
      rw [if_neg (by simp [p4])]

/-- `safe center` -/
example : AlignText [.ident "safe".toList, .ident "center".toList] (.safe, .center) :=
  .both (j := "safe") (k := "center") (by decide +kernel) (.mk (Cased.refl _)) (by decide +kernel)
    (.mk (Cased.refl _))

/-- **C195.** It is false that a prefix needs a position: `safe` alone is read, and overrides what
was declared before, with no position. -/
theorem C195_lone_fails {j : String} {p : Prefix} (hp : (j, p) ∈ prefixWords) {t : Tok}
    (hj : Word j t) (n : Nat) : readDecl parseAlign n [t] = some (.value (p, .noKeyword)) :=
  (C195_exact_partial (plain_one hj.ne_ws) _ n).2 (.lone hp hj)

/-- **C195.** It is false that the baselines of CSS are read: `baseline`, `first baseline` and
`last baseline` are not. -/
theorem C195_baseline_fails {t : Tok} (h : Word "baseline" t) {u : Tok}
    (hu : Word "first" u ∨ Word "last" u) (v : Prefix × AKey) (n : Nat) :
    readDecl parseAlign n [t] ≠ some (.value v) ∧
    readDecl parseAlign n [u, t] ≠ some (.value v) := by
  have hne : ∀ {k k' : String} {t : Tok}, Word k t → Word k' t →
      eqCi k.toList k'.toList = true := by
    intro k k' t h h'
    cases h with
    | mk h =>
      cases h' with
      | mk h' => rw [← h.eqCi_congr]; exact eqCi_iff.2 h'
  have b1 : ∀ p ∈ alignWords ++ alignOwn, eqCi "baseline".toList p.1.toList = false := by
    decide +kernel
  have b2 : ∀ p ∈ prefixWords, eqCi "baseline".toList p.1.toList = false := by decide +kernel
  have b3 : ∀ p ∈ prefixWords, eqCi "first".toList p.1.toList = false ∧
    eqCi "last".toList p.1.toList = false := by decide +kernel
  have hu' : u ≠ .ws := by rcases hu with h | h <;> exact h.ne_ws
  refine ⟨fun e => ?_, fun e => ?_⟩
  · have := (C195_exact_partial (plain_one h.ne_ws) v n).1 e
    cases this with
    | key hk hw => have := hne h hw; rw [b1 _ hk] at this; cases this
    | lone hp hj => have := hne h hj; rw [b2 _ hp] at this; cases this
  · have := (C195_exact_partial (plain_cons.2 ⟨hu', plain_one h.ne_ws⟩) v n).1 e
    cases this with
    | both hp hj hk hw => have := hne h hw; rw [b1 _ hk] at this; cases this

/-! ## Amounts -/

/-- **C196 (in part).** `border-spacing` is one length, for both ways, or two, and nothing else. -/
theorem C196_spacing_partial {l : List Tok} (hl : Plain l) {a b : Length} {n : Nat} :
    readDecl parseSpacing n l = some (.value (a, b)) →
      (∃ t, l = [t] ∧ Reads parseLength t a ∧ a = b) ∨
      ∃ t u, l = [t, u] ∧ Reads parseLength t a ∧ Reads parseLength u b := by
  intro h
  obtain ⟨_, _, r, hp, hr⟩ := read_value h
  rw [hl.eatWs] at hp
  unfold parseSpacing at hp
  split at hp
  · cases hp
  · next a' r1 h1 =>
    obtain ⟨t, rfl, ht⟩ := parseLength_oneTok.one h1
    split at hp
    · next b' r2 h2 =>
      cases hp
      obtain ⟨u, rfl, hu⟩ := parseLength_oneTok.one h2
      have := eatWs_nil_of_suffix hl ((List.suffix_cons _ _).trans (List.suffix_cons _ _)) hr
      subst this
      exact .inr ⟨t, u, rfl, ht, hu⟩
    · next r2 h2 =>
      cases hp
      have := oneTok_fail parseLength_oneTok h2
      subst this
      have := eatWs_nil_of_suffix hl (List.suffix_cons _ _) hr
      subst this
      exact .inl ⟨t, rfl, ht, rfl⟩

theorem reads_length_head {t : Tok} {a : Length} (h : Reads parseLength t a) :
    t ≠ .ws ∧ NotWide t ∧ NotToggle t := by
  have h0 := h []
  refine ⟨?_, notWide_other ?_, ?_⟩
  · rintro rfl; cases h0
  · rintro w rfl; cases h0
  · rintro nm c rfl; cases h0

/-- **C196.** One length is for both, and of two the first is between columns, the second between
rows. -/
theorem C196_spacing {t u : Tok} {a b : Length} (ht : Reads parseLength t a)
    (hu : Reads parseLength u b) (n : Nat) :
    readDecl parseSpacing n [t] = some (.value (a, a)) ∧
    readDecl parseSpacing n [t, u] = some (.value (a, b)) := by
  obtain ⟨h1, h2, h3⟩ := reads_length_head ht
  obtain ⟨g1, _, _⟩ := reads_length_head hu
  refine ⟨?_, ?_⟩
  · rw [read_plain (plain_one h1) h2 h3, readPlain_value]
    have : parseLength [] = (none, []) := rfl
    simp only [parseSpacing, ht [], this]
  · rw [read_plain (plain_cons.2 ⟨h1, plain_one g1⟩) h2 h3, readPlain_value]
    simp only [parseSpacing, ht [u], hu []]

/-- `2px 3pt` -/
example : Reads parseLength (.dim "2px".toList) (.abs 2 .px) ∧
    Reads parseLength (.dim "3pt".toList) (.abs 3 .pt) := by
  constructor
  · have := parseLength_abs (natLit 2 []) (k := "px") (u := .px) (per := 96) (w := "px".toList)
      (by decide +kernel) (Cased.refl _)
    have e : (natLit 2 []).text ++ "px".toList = "2px".toList := by decide +kernel
    have e2 : (natLit 2 []).value = 2 := by decide +kernel
    rwa [e, e2] at this
  · have := parseLength_abs (natLit 3 []) (k := "pt") (u := .pt) (per := 72) (w := "pt".toList)
      (by decide +kernel) (Cased.refl _)
    have e : (natLit 3 []).text ++ "pt".toList = "3pt".toList := by decide +kernel
    have e2 : (natLit 3 []).value = 3 := by decide +kernel
    rwa [e, e2] at this

/-- **C196.** It is false that negative lengths are refused, as CSS has it. -/
theorem C196_negative_fails (whole frac : List (Fin 10)) (hd : whole ≠ [] ∨ frac ≠ [])
    {k : String} {u : AbsUnit} {per : Rat} (hk : (k, u, per) ∈ absTable) (n : Nat) :
    let x : Lit := ⟨some true, whole, frac, hd⟩
    readDecl parseSpacing n [.dim (x.text ++ k.toList)] =
      some (.value (.abs x.value u, .abs x.value u)) := by
  intro x
  have := parseLength_abs x hk (Cased.refl _)
  exact (C196_spacing this this n).1

/-- **C196.** `opacity` is a number, or a percentage for the hundredth part of it. -/
theorem C196_opacity (x : Lit) (n : Nat) :
    readDecl parseOpacity n [.number x.text] = some (.value x.value) ∧
    readDecl parseOpacity n [.percent (x.text ++ ['%'])] = some (.value (x.value / 100)) := by
  refine ⟨?_, ?_⟩
  · rw [read_plain (plain_one (by simp)) (notWide_other (fun w e => by cases e))
      (fun nm c e => by cases e), readPlain_value]
    simp [parseOpacity, parsePercent, parseNumber, atof_lit_end]
  · rw [read_plain (plain_one (by simp)) (notWide_other (fun w e => by cases e))
      (fun nm c e => by cases e), readPlain_value]
    simp only [parseOpacity, parsePercent_lit x []]

/-- **C196.** It is false that it is kept between 0 and 1: `opacity: 250%` is two and a half. -/
theorem C196_range_fails (n : Nat) :
    readDecl parseOpacity n [.percent "250%".toList] = some (.value (5 / 2)) := by
  have := (C196_opacity (natLit 2 [5, 0]) n).2
  have e : (natLit 2 [5, 0]).text ++ ['%'] = "250%".toList := by decide +kernel
  have e2 : (natLit 2 [5, 0]).value / 100 = 5 / 2 := by decide +kernel
  rwa [e, e2] at this

/-- **C196.** `z-index` is `auto` or an integer, and nothing else. -/
theorem C196_z {l : List Tok} (hl : Plain l) (v : Option Int) (n : Nat) :
    readDecl parseZIndex n l = some (.value v) ↔
      ∃ t, l = [t] ∧ ((Word "auto" t ∧ v = none) ∨ ∃ z, IntTok t z ∧ v = some z) := by
  constructor
  · intro h
    obtain ⟨_, _, r, hp, hr⟩ := read_value h
    rw [hl.eatWs] at hp
    unfold parseZIndex at hp
    split at hp
    · next r' hs =>
      cases hp
      unfold skipIdent at hs
      split at hs
      · split at hs
        · next he =>
          cases hs
          have := eatWs_nil_of_suffix hl (List.suffix_cons _ _) hr
          subst this
          exact ⟨_, rfl, .inl ⟨.mk (eqCi_iff.1 he), rfl⟩⟩
        · cases hs
      · cases hs
    · split at hp
      · next z r' hi =>
        cases hp
        unfold parseInteger at hi
        split at hi
        · next s r'' =>
          obtain ⟨h1, h2⟩ := Prod.mk.inj hi
          subst h2
          have := eatWs_nil_of_suffix hl (List.suffix_cons _ _) hr
          subst this
          exact ⟨_, rfl, .inr ⟨z, int_of_whole h1, rfl⟩⟩
        · cases hi
      · cases hp
  · rintro ⟨t, rfl, ⟨hw, rfl⟩ | ⟨z, hz, rfl⟩⟩
    · rw [read_plain hl (notWide_word hw (by decide +kernel)) (notToggle_word hw), readPlain_value]
      have : eqCi "auto".toList "auto".toList = true := by decide +kernel
      unfold parseZIndex
      rw [skipIdent_word hw, this]
      rfl
    · have hr := int_reads hz []
      obtain ⟨s, rfl⟩ := hz.number
      rw [read_plain hl (notWide_other (fun w e => by cases e)) (fun nm c e => by cases e),
        readPlain_value]
      have : skipIdent "auto".toList [Tok.number s] = none := rfl
      simp only [parseZIndex, this, hr]

example : IntTok (.number "-12".toList) (-12) := .minus [1, 2] (by simp)

/-- **C196.** `row-gap` and `column-gap` are `normal` or a length, percentage or `calc()`, and
nothing else. -/
theorem C196_gap {l : List Tok} (hl : Plain l) (v : Gap) (n : Nat)
    (h : readDecl parseGap n l = some (.value v)) :
    ∃ t, l = [t] ∧ ((Word "normal" t ∧ v = .normal) ∨ ∃ c, Reads parseCalc t c ∧ v = .calc c) := by
  obtain ⟨_, _, r, hp, hr⟩ := read_value h
  rw [hl.eatWs] at hp
  unfold parseGap at hp
  split at hp
  · next r' hs =>
    cases hp
    unfold skipIdent at hs
    split at hs
    · split at hs
      · next he =>
        cases hs
        have := eatWs_nil_of_suffix hl (List.suffix_cons _ _) hr
        subst this
        exact ⟨_, rfl, .inl ⟨.mk (eqCi_iff.1 he), rfl⟩⟩
      · cases hs
    · cases hs
  · split at hp
    · next c r' hc =>
      cases hp
      obtain ⟨t, rfl, ht⟩ := (parseCalcOf_oneTok parsePL_oneTok).one hc
      have := eatWs_nil_of_suffix hl (List.suffix_cons _ _) hr
      subst this
      exact ⟨t, rfl, .inr ⟨c, ht, rfl⟩⟩
    · cases hp

theorem reads_calc_head {t : Tok} {c : Calc} (h : Reads parseCalc t c) :
    t ≠ .ws ∧ (∀ w, t ≠ .ident w) ∧ NotToggle t := by
  have h0 := h []
  refine ⟨?_, ?_, ?_⟩
  · rintro rfl; cases h0
  · rintro w rfl; cases h0
  · rintro nm c' rfl
    cases he : eqCi nm "toggle(".toList with
    | false => rfl
    | true =>
      exfalso
      have hn : nm ≠ "calc(".toList := by
        rintro rfl
        revert he; decide +kernel
      simp only [parseCalc, parseCalcOf, hn, if_false] at h0
      cases h0

/-- **C196.** And all of these are read. -/
theorem C196_gap_reads {t : Tok} (n : Nat) :
    (Word "normal" t → readDecl parseGap n [t] = some (.value .normal)) ∧
    ∀ c, Reads parseCalc t c → readDecl parseGap n [t] = some (.value (.calc c)) := by
  refine ⟨fun hw => ?_, fun c hc => ?_⟩
  · rw [read_plain (plain_one hw.ne_ws) (notWide_word hw (by decide +kernel)) (notToggle_word hw),
      readPlain_value]
    have : eqCi "normal".toList "normal".toList = true := by decide +kernel
    unfold parseGap
    rw [skipIdent_word hw, this]
    rfl
  · obtain ⟨h1, h2, h3⟩ := reads_calc_head hc
    rw [read_plain (plain_one h1) (notWide_other h2) h3, readPlain_value]
    have : skipIdent "normal".toList [t] = none := by
      unfold skipIdent
      split
      · next e => exact absurd (List.cons.inj e).1 (h2 _)
      · rfl
    simp only [parseGap, this, hc []]

/-! ## vertical-align -/

theorem shift_lookup : ∀ p ∈ shiftWords, kwLookup shiftKw p.1.toList = some p.2 ∧
    kwLookup alignmentKw p.1.toList = none ∧
    kwLookup [("first", Kw.first), ("last", .last)] p.1.toList = none ∧
    kwLookup wideKw p.1.toList = none := by decide +kernel

theorem alignment_lookup : ∀ p ∈ css .alignmentBaseline, kwLookup alignmentKw p.1.toList = some p.2 ∧
    kwLookup [("first", Kw.first), ("last", .last)] p.1.toList = none ∧
    kwLookup wideKw p.1.toList = none := by decide +kernel

theorem source_lookup : kwLookup [("first", Kw.first), ("last", .last)] "first".toList = some .first ∧
    kwLookup [("first", Kw.first), ("last", .last)] "last".toList = some .last ∧
    kwLookup wideKw "first".toList = none ∧ kwLookup wideKw "last".toList = none := by decide +kernel

theorem calc_ident (w : List Char) (r : List Tok) : parseCalc (.ident w :: r) = (none, .ident w :: r) :=
  rfl

/-- The parts set so far by a value. -/
def VAlign.has (v : VAlign) : Nat → Bool
  | 0 => v.source.isSome
  | 1 => v.alignment.isSome
  | _ => v.shift.isSome

/-- With a part more. -/
def VAlign.add (v : VAlign) : VPart → VAlign
  | .source k => { v with source := some k }
  | .alignment k => { v with alignment := some k }
  | .shift k => { v with shift := some k }

theorem part_head {q : VPart} {t : Tok} (h : VWrites q t) : t ≠ .ws ∧ NotWide t ∧ NotToggle t := by
  cases h with
  | first h => exact ⟨h.ne_ws, notWide_word h source_lookup.2.2.1, notToggle_word h⟩
  | last h => exact ⟨h.ne_ws, notWide_word h source_lookup.2.2.2, notToggle_word h⟩
  | alignment h hw => exact ⟨hw.ne_ws, notWide_word hw (alignment_lookup _ h).2.2, notToggle_word hw⟩
  | word h hw => exact ⟨hw.ne_ws, notWide_word hw (shift_lookup _ h).2.2.2, notToggle_word hw⟩
  | amount h hn =>
    obtain ⟨h1, h2, h3⟩ := reads_calc_head h
    exact ⟨h1, notWide_other h2, h3⟩

/-- One turn of the loop at a part. -/
theorem valign_step {q : VPart} {t : Tok} (h : VWrites q t) (n : Nat) (v : VAlign) (l : List Tok) :
    valignLoop (n + 1) v (t :: l) =
      if v.has q.kind then (none, l) else valignLoop n (v.add q) l := by
  cases h with
  | first h =>
    simp only [valignLoop, parseKw_word h, source_lookup.1]
    simp only [Option.isSome_some, if_true, VAlign.has, VPart.kind, VAlign.add]
    cases v.source <;> rfl
  | last h =>
    simp only [valignLoop, parseKw_word h, source_lookup.2.1]
    simp only [Option.isSome_some, if_true, VAlign.has, VPart.kind, VAlign.add]
    cases v.source <;> rfl
  | alignment h hw =>
    obtain ⟨h1, h2, -⟩ := alignment_lookup _ h
    simp only at h1 h2
    simp only [valignLoop, parseKw_word hw, h1, h2]
    simp only [Option.isSome_some, if_true, VAlign.has, VPart.kind, VAlign.add]
    cases v.alignment <;> rfl
  | @word k x _ h hw =>
    obtain ⟨h1, h2, h3, -⟩ := shift_lookup _ h
    simp only at h1 h2 h3
    have hs : parseShift (t :: l) = (some x, l) := by
      unfold parseShift
      cases hw with
      | mk hc =>
        rw [calc_ident]
        simp only
        rw [skipAny_ident, kwLookup_congr hc, h1]
        rfl
    simp only [valignLoop, parseKw_word hw, h2, h3, hs]
    simp only [VAlign.has, VPart.kind, VAlign.add]
    cases v.shift <;> rfl
  | @amount _ c h hn =>
    have hk : ∀ tb : List (String × Kw), parseKw tb (t :: l) = (none, t :: l) :=
      fun tb => parseKw_other tb (fun w r e => hn w (List.cons.inj e).1)
    have hs : parseShift (t :: l) = (some (.by' c), l) := by
      unfold parseShift
      rw [h l]
    simp only [valignLoop, hk, hs]
    simp only [VAlign.has, VPart.kind, VAlign.add]
    cases v.shift <;> rfl

theorem has_add (v : VAlign) (q q' : VPart) :
    (v.add q).has q'.kind = (v.has q'.kind || q.kind == q'.kind) := by
  cases q <;> cases q' <;> simp [VAlign.add, VAlign.has, VPart.kind]

/-- What parts of different kinds add to a value that has none of them. -/
theorem valign_parts {ps : List VPart} {l : List Tok} (h : Texts VWrites ps l) :
    ∀ (n : Nat) (v : VAlign), l.length < n → (ps.map VPart.kind).Nodup →
      (∀ q ∈ ps, v.has q.kind = false) →
      valignLoop n v l = (some (ps.foldl VAlign.add v), []) := by
  induction h with
  | nil =>
    intro n v hn _ _
    obtain ⟨n, rfl⟩ : ∃ m, n = m + 1 := ⟨n - 1, by omega⟩
    rfl
  | cons hw h ih =>
    intro n v hn hd hv
    obtain ⟨n, rfl⟩ : ∃ m, n = m + 1 := ⟨n - 1, by omega⟩
    rw [valign_step hw, hv _ List.mem_cons_self]
    simp only [Bool.false_eq_true, if_false, List.foldl_cons]
    rw [List.map_cons, List.nodup_cons] at hd
    refine ih n _ (by simp only [List.length_cons] at hn; omega) hd.2 (fun q' hq' => ?_)
    rw [has_add, hv q' (List.mem_cons_of_mem _ hq')]
    simp only [Bool.false_or, beq_eq_false_iff_ne]
    intro e
    exact hd.1 (e ▸ List.mem_map_of_mem hq')

theorem fold_valign (ps : List VPart) : ∀ v : VAlign, (ps.map VPart.kind).Nodup →
    (∀ q ∈ ps, v.has q.kind = false) →
    ps.foldl VAlign.add v = ⟨v.source.or (ps.findSome? VPart.source?),
      v.alignment.or (ps.findSome? VPart.alignment?), v.shift.or (ps.findSome? VPart.shift?)⟩ := by
  induction ps with
  | nil => intro v _ _; simp
  | cons q ps ih =>
    intro v hd hv
    rw [List.map_cons, List.nodup_cons] at hd
    rw [List.foldl_cons, ih _ hd.2]
    · have := hv q List.mem_cons_self
      cases q <;> simp [VAlign.add, VAlign.has, VPart.kind, VPart.source?, VPart.alignment?,
        VPart.shift?, List.findSome?_cons] at this ⊢ <;> simp [this]
    · intro q' hq'
      rw [has_add, hv q' (List.mem_cons_of_mem _ hq')]
      simp only [Bool.false_or, beq_eq_false_iff_ne]
      intro e
      exact hd.1 (e ▸ List.mem_map_of_mem hq')

theorem texts_plain {ps : List VPart} {l : List Tok} (h : Texts VWrites ps l) : Plain l := by
  induction h with
  | nil => exact plain_nil
  | cons hw h ih => exact plain_cons.2 ⟨(part_head hw).1, ih⟩

/-- **C197 (in part).** A value of `vertical-align` made of one to three parts of different kinds, in
any order, is read as those parts. -/
theorem C197_parts_partial {ps : List VPart} {l : List Tok} (h : Texts VWrites ps l)
    (hne : ps ≠ []) (hd : (ps.map VPart.kind).Nodup) (n : Nat) :
    readDecl parseVAlign n l = some (.value (valignOf ps)) := by
  have hl := texts_plain h
  cases hh : h with
  | nil => exact absurd rfl hne
  | @cons q t ps' l' hw ht =>
    obtain ⟨h1, h2, h3⟩ := part_head hw
    rw [read_plain hl h2 h3, readPlain_value]
    have hp := valign_parts h ((t :: l').length + 1) {} (by omega) hd
      (fun q _ => by cases q <;> rfl)
    rw [fold_valign _ _ hd (fun q _ => by cases q <;> rfl)] at hp
    simpa [parseVAlign, valignOf] using hp

/-- `top first` and `middle 2px` -/
example : Texts VWrites [.shift .top, .source .first]
    [.ident "top".toList, .ident "first".toList] :=
  .cons (.word (k := "top") (by decide +kernel) (.mk (Cased.refl _)))
    (.cons (.first (.mk (Cased.refl _))) .nil)

/-- **C197.** Two parts of a kind, anywhere in it, make the declaration invalid. -/
theorem C197_twice {ps : List VPart} {l : List Tok} (h : Texts VWrites ps l)
    (hd : ¬ (ps.map VPart.kind).Nodup) (n : Nat) :
    readDecl parseVAlign n l = some .unread := by
  have hl := texts_plain h
  have key : ∀ {ps : List VPart} {l : List Tok}, Texts VWrites ps l →
      ∀ (n : Nat) (v : VAlign), l.length < n →
      (¬ (ps.map VPart.kind).Nodup ∨ ∃ q ∈ ps, v.has q.kind = true) →
      (valignLoop n v l).1 = none := by
    intro ps l h
    induction h with
    | nil => intro n v _ ho; simp at ho
    | cons hw h ih =>
      intro n v hn ho
      obtain ⟨n, rfl⟩ : ∃ m, n = m + 1 := ⟨n - 1, by omega⟩
      rw [valign_step hw]
      split
      · rfl
      · next hf =>
        refine ih n _ (by simp only [List.length_cons] at hn; omega) ?_
        rcases ho with ho | ⟨q', hq', hv⟩
        · rw [List.map_cons, List.nodup_cons, Classical.not_and_iff_not_or_not,
            Classical.not_not] at ho
          rcases ho with hm | hd
          · obtain ⟨q', hq', e⟩ := List.mem_map.1 hm
            exact .inr ⟨q', hq', by rw [has_add, e]; simp⟩
          · exact .inl hd
        · rcases List.mem_cons.1 hq' with e | hq'
          · subst e; exact absurd hv hf
          · exact .inr ⟨q', hq', by rw [has_add, hv]; rfl⟩
  cases hh : h with
  | nil => exact absurd List.nodup_nil hd
  | @cons q t ps' l' hw ht =>
    obtain ⟨h1, h2, h3⟩ := part_head hw
    have hk := key h ((t :: l').length + 1) {} (by omega) (.inl hd)
    rw [read_plain hl h2 h3]
    cases hv : parseVAlign (t :: l') with
    | mk o r =>
      have : o = none := by
        have e : parseVAlign (t :: l') = valignLoop ((t :: l').length + 1) {} (t :: l') := rfl
        rw [← e, hv] at hk
        exact hk
      subst this
      rw [readPlain_none hv]

/-- `top 2px`: two shifts -/
example : ¬ (([.shift .top, .shift .sub] : List VPart).map VPart.kind).Nodup := by decide

/-- **C197.** Such a declaration sets just the longhands that its parts belong to, each to its
part. -/
theorem C197_longhands {ps : List VPart} (hd : (ps.map VPart.kind).Nodup) (x : VLong) :
    x ∈ (valignOf ps).expand ↔ ∃ q ∈ ps, x = q.long := by
  induction ps with
  | nil => simp [valignOf, VAlign.expand]
  | cons q ps ih =>
    rw [List.map_cons, List.nodup_cons] at hd
    have hne : ∀ q' ∈ ps, q.kind ≠ q'.kind := fun q' hq' e => hd.1 (e ▸ List.mem_map_of_mem hq')
    have ih := ih hd.2
    have hs : ∀ {β : Type} (f : VPart → Option β), (∀ q' ∈ ps, f q' = none) → ps.findSome? f = none :=
      fun f hf => List.findSome?_eq_none_iff.2 hf
    cases q with
    | source k =>
      have : ps.findSome? VPart.source? = none := hs _ (fun q' hq' => by
        have := hne q' hq'
        cases q' <;> simp_all [VPart.kind, VPart.source?])
      simp only [List.mem_cons, exists_eq_or_imp]
      rw [← ih]
      simp [VPart.long, valignOf, VAlign.expand, List.findSome?_cons, VPart.source?, VPart.alignment?,
        VPart.shift?, this]
    | alignment k =>
      have : ps.findSome? VPart.alignment? = none := hs _ (fun q' hq' => by
        have := hne q' hq'
        cases q' <;> simp_all [VPart.kind, VPart.alignment?])
      simp only [List.mem_cons, exists_eq_or_imp]
      rw [← ih]
      simp [VPart.long, valignOf, VAlign.expand, List.findSome?_cons, VPart.source?, VPart.alignment?,
        VPart.shift?, this, or_assoc, or_comm, or_left_comm]
    | shift k =>
      have : ps.findSome? VPart.shift? = none := hs _ (fun q' hq' => by
        have := hne q' hq'
        cases q' <;> simp_all [VPart.kind, VPart.shift?])
      simp only [List.mem_cons, exists_eq_or_imp]
      rw [← ih]
      simp [VPart.long, valignOf, VAlign.expand, List.findSome?_cons, VPart.source?, VPart.alignment?,
        VPart.shift?, this, or_assoc, or_comm, or_left_comm]

/-- **C197.** It is false that a shorthand sets all its longhands, those left out to their initial
values: `vertical-align: top` leaves the alignment baseline of a declaration before it. -/
theorem C197_reset_fails {k : Kw} : VLong.alignment k ∉ (valignOf [.shift .top]).expand ∧
    ∀ s, VLong.shift s ∉ (valignOf [.alignment .middle]).expand := by
  constructor
  · rw [C197_longhands (by decide)]
    simp [VPart.long]
  · intro s
    rw [C197_longhands (by decide)]
    simp [VPart.long]

/-! ## Ending, for these -/

theorem calc_moves {l r : List Tok} {c : Calc} (h : parseCalc l = (some c, r)) :
    ∃ t, l = t :: r := by
  obtain ⟨t, e, _⟩ := (parseCalcOf_oneTok parsePL_oneTok).one h
  exact ⟨t, e⟩

theorem valign_rest : ∀ (n : Nat) (v w : VAlign) (l r : List Tok), l.length < n →
    valignLoop n v l = (some w, r) → r = [] := by
  have hshift : ∀ {l r : List Tok} {s : Shift}, parseShift l = (some s, r) → ∃ t, l = t :: r := by
    intro l r s h
    unfold parseShift at h
    split at h
    · next hc => cases h; exact calc_moves hc
    · next r' hc =>
      have := oneTok_fail (parseCalcOf_oneTok parsePL_oneTok) hc
      subst this
      have hk : parseKw shiftKw r' = (some s, r) := by
        unfold parseKw
        cases hs : skipAny shiftKw r' with
        | none => rw [hs] at h; cases h
        | some q => rw [hs] at h; exact h
      obtain ⟨t, _, e, _, _⟩ := parseKw_one hk
      exact ⟨t, e⟩
  intro n
  induction n with
  | zero => intro v w l r h; exact absurd h (Nat.not_lt_zero _)
  | succ n ih =>
    intro v w l r hn h
    cases l with
    | nil => simp only [valignLoop] at h; cases h; rfl
    | cons t l =>
      simp only [List.length_cons] at hn
      simp only [valignLoop] at h
      split at h
      · next hk =>
        obtain ⟨_, _, e, _, _⟩ := parseKw_one hk
        cases e
        split at h
        · exact ih _ _ _ _ (by omega) h
        · cases h
      · split at h
        · next hk =>
          obtain ⟨_, _, e, _, _⟩ := parseKw_one hk
          cases e
          split at h
          · exact ih _ _ _ _ (by omega) h
          · cases h
        · split at h
          · next hk =>
            obtain ⟨_, e⟩ := hshift hk
            cases e
            split at h
            · exact ih _ _ _ _ (by omega) h
            · cases h
          · cases h

/-- **C192.** Reading ends for `content`, `border-spacing`, the gaps, `z-index`, `opacity` and
`vertical-align` as well. -/
theorem C192_others (l : List Tok) :
    (∃ n rd, ∀ m ≥ n, readDecl parseContent m l = some rd) ∧
    (∃ n rd, ∀ m ≥ n, readDecl parseSpacing m l = some rd) ∧
    (∃ n rd, ∀ m ≥ n, readDecl parseGap m l = some rd) ∧
    (∃ n rd, ∀ m ≥ n, readDecl parseZIndex m l = some rd) ∧
    (∃ n rd, ∀ m ≥ n, readDecl parseOpacity m l = some rd) ∧
    (∃ n rd, ∀ m ≥ n, readDecl parseVAlign m l = some rd) := by
  have lt : ∀ {t : Tok} {l r : List Tok}, (∃ u, t :: l = u :: r) → r.length < (t :: l).length := by
    rintro t l r ⟨u, e⟩
    rw [e]; simp
  have skip1 : ∀ {k l r}, skipIdent k l = some r → ∃ u, l = u :: r := by
    intro k l r h
    unfold skipIdent at h
    split at h
    · split at h
      · cases h; exact ⟨_, rfl⟩
      · cases h
    · cases h
  refine ⟨C192_ends_partial ?_ l, C192_ends_partial ?_ l, C192_ends_partial ?_ l,
    C192_ends_partial ?_ l, C192_ends_partial ?_ l, C192_ends_partial ?_ l⟩
  · intro t l v r h
    exact lt (content_one h)
  · intro t l v r h
    unfold parseSpacing at h
    split at h
    · cases h
    · next a r1 h1 =>
      obtain ⟨_, e, _⟩ := parseLength_oneTok.one h1
      cases e
      split at h
      · next h2 =>
        cases h
        obtain ⟨_, e, _⟩ := parseLength_oneTok.one h2
        subst e; simp only [List.length_cons]; omega
      · next h2 =>
        cases h
        have := oneTok_fail parseLength_oneTok h2
        subst this
        simp
  · intro t l v r h
    unfold parseGap at h
    split at h
    · next hs => cases h; exact lt (skip1 hs)
    · split at h
      · next hc => cases h; exact lt (calc_moves hc)
      · cases h
  · intro t l v r h
    unfold parseZIndex at h
    split at h
    · next hs => cases h; exact lt (skip1 hs)
    · split at h
      · next hi =>
        cases h
        unfold parseInteger at hi
        split at hi
        · next e => cases e; rw [← (Prod.mk.inj hi).2]; simp
        · cases hi
      · cases h
  · intro t l v r h
    unfold parseOpacity at h
    split at h
    · next hp =>
      cases h
      unfold parsePercent at hp
      split at hp
      · next e => cases e; cases hp; simp
      · cases hp
    · next r' hp =>
      have := parsePercent_fail hp
      subst this
      unfold parseNumber at h
      split at h
      · next e => cases e; rw [← (Prod.mk.inj h).2]; simp
      · cases h
  · intro t l v r h
    have := valign_rest _ _ _ _ _ (Nat.lt_succ_self _) h
    subst this
    simp

end Verif.Keyword
