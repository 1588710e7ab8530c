import Verif.Short.Lemmas

/-!
# Shorthands: font (C170)
-/

namespace Verif.Short
open Verif.Values

/-! ## What the parsers do with single tokens -/

theorem valueOfCi_some {names : List (List Char × α)} {w : List Char} {u : α}
    (h : valueOfCi names w = some u) : ∃ p ∈ names, p.2 = u ∧ Cased w p.1 := by
  unfold valueOfCi at h
  cases hf : names.find? fun p => eqCi w p.1 with
  | none => rw [hf] at h; cases h
  | some p =>
    rw [hf] at h
    have := List.find?_some hf
    exact ⟨p, List.mem_of_find?_eq_some hf, Option.some.inj h, eqCi_iff.1 this⟩

/-- A length is not an angle. -/
theorem length_not_angle {t : Tok} {v : Length} (h : Reads parseLength t v) (r : List Tok) :
    parseAngle (t :: r) = (none, t :: r) := by
  have tbl : ∀ p ∈ absNames, valueOfCi angleNames p.1 = none := by decide +kernel
  have tbl' : ∀ p ∈ relNames, valueOfCi angleNames p.1 = none := by decide +kernel
  cases t with
  | dim s =>
    have h0 := h []
    have : valueOfCi angleNames ((atof s).getD (0, s)).2 = none := by
      simp only [parseLength, parseAbs] at h0
      cases ha : valueOfCi absNames ((atof s).getD (0, s)).2 with
      | some u =>
        obtain ⟨p, hp, _, hc⟩ := valueOfCi_some ha
        rw [valueOfCi_congr hc]; exact tbl p hp
      | none =>
        rw [ha] at h0
        simp only [parseRel] at h0
        cases hr : valueOfCi relNames ((atof s).getD (0, s)).2 with
        | some u =>
          obtain ⟨p, hp, _, hc⟩ := valueOfCi_some hr
          rw [valueOfCi_congr hc]; exact tbl' p hp
        | none => rw [hr] at h0; cases h0
    simp only [parseAngle, this]
  | _ => rfl

theorem parseFStyle_word {k : String} {t : Tok} (h : Word k t)
    (hk : kwLookup [("normal", FStyle.normal), ("italic", .italic)] k.toList = none)
    (ho : eqCi k.toList "oblique".toList = false) (r : List Tok) :
    parseFStyle (t :: r) = (none, t :: r) := by
  unfold parseFStyle
  rw [skipAny_word h, hk, skipIdent_word h, ho]
  rfl

theorem parseFStyle_other {t : Tok} (h : ∀ w, t ≠ .ident w) (r : List Tok) :
    parseFStyle (t :: r) = (none, t :: r) := by
  unfold parseFStyle
  rw [skipAny_none _ (fun w r' e => h w (List.cons.inj e).1)]
  cases t with
  | ident w => exact absurd rfl (h w)
  | _ => rfl

/-- The keywords of `font-weight`. -/
def weightKw : List (String × Weight) :=
  [("bolder", .bolder), ("lighter", .lighter), ("normal", .abs 400), ("bold", .abs 700)]

theorem parseWeight_word {k : String} {t : Tok} (h : Word k t) (r : List Tok) :
    parseWeight (t :: r) =
      (kwLookup weightKw k.toList, if (kwLookup weightKw k.toList).isSome then r else t :: r) := by
  unfold parseWeight
  rw [skipAny_word h]
  show (match (kwLookup weightKw k.toList).map (fun v => (v, r)) with
    | some (v, r) => (some v, r)
    | none => _) = _
  cases kwLookup weightKw k.toList with
  | some v => rfl
  | none => cases h; rfl

theorem parseWeight_other {t : Tok} (h : ∀ w, t ≠ .ident w) (hn : ∀ w, t ≠ .number w)
    (r : List Tok) : parseWeight (t :: r) = (none, t :: r) := by
  unfold parseWeight
  rw [skipAny_none _ (fun w r' e => h w (List.cons.inj e).1)]
  cases t with
  | number w => exact absurd rfl (hn w)
  | _ => rfl

theorem parseFWidth_word {k : String} {t : Tok} (h : Word k t) (r : List Tok) :
    parseFWidth (t :: r) =
      (kwLookup fwidthKw k.toList, if (kwLookup fwidthKw k.toList).isSome then r else t :: r) := by
  unfold parseFWidth
  rw [skipAny_word h]
  cases kwLookup fwidthKw k.toList with
  | some v => rfl
  | none => cases h; rfl

theorem parseFWidth_other {t : Tok} (h : ∀ w, t ≠ .ident w) (hn : ∀ w, t ≠ .percent w)
    (r : List Tok) : parseFWidth (t :: r) = (none, t :: r) := by
  unfold parseFWidth
  rw [skipAny_none _ (fun w r' e => h w (List.cons.inj e).1)]
  cases t with
  | percent w => exact absurd rfl (hn w)
  | _ => rfl

theorem ident_word (w : List Char) : ∃ k : String, Word k (.ident w) ∧ k.toList = w :=
  ⟨String.ofList w, .mk (by rw [String.toList_ofList]; exact Cased.refl w), String.toList_ofList⟩

/-! ## The parts in front of the size -/

/-- What a part does, as the code has it: `normal` is a style. -/
def fset (v : Font) : FPart → Font
  | .normal => { v with style := .normal }
  | .style s => { v with style := s }
  | .weight w => { v with weight := some w }
  | .width w => { v with width := w }

/-- Nothing that reads as an angle. -/
def NoAngle (l : List Tok) : Prop := parseAngle l = (none, l)

theorem fontLoop_style {n : Nat} {v : Font} {l r : List Tok} {s : FStyle}
    (h : parseFStyle l = (some s, r)) :
    fontLoop (n + 1) v l = fontLoop n { v with style := s } r := by
  simp only [fontLoop, h]

/-- A word that is a weight and nothing else. -/
theorem weight_word {k : String} {w : Weight} {t : Tok} (h : Word k t)
    (hw : kwLookup weightKw k.toList = some w)
    (hk : kwLookup [("normal", FStyle.normal), ("italic", .italic)] k.toList = none)
    (ho : eqCi k.toList "oblique".toList = false) (r : List Tok) :
    parseFStyle (t :: r) = (none, t :: r) ∧ parseWeight (t :: r) = (some w, r) := by
  refine ⟨parseFStyle_word h hk ho r, ?_⟩
  rw [parseWeight_word h, hw]
  rfl

theorem wholeInt_digits {ds : List (Fin 10)} (h : ds ≠ []) :
    wholeInt (ds.map digitChar) = some (decimal ds : Int) := by
  have hs : readSign (ds.map digitChar) = (false, ds.map digitChar) := by
    cases ds with
    | nil => exact absurd rfl h
    | cons d ds =>
      have := digitChar_ne d
      rw [List.map_cons, readSign.eq_def]
      split
      · next e => exact absurd (List.cons.inj e).1 this.1
      · next e => exact absurd (List.cons.inj e).1 this.2.1
      · rfl
  have ha : (ds.map digitChar).all Char.isDigit = true := by
    rw [List.all_eq_true]
    intro c hc
    obtain ⟨d, _, rfl⟩ := List.mem_map.1 hc
    exact digitChar_isDigit d
  have he : (ds.map digitChar).isEmpty = false := by
    cases ds with
    | nil => exact absurd rfl h
    | cons d ds => rfl
  unfold wholeInt
  simp only [hs, ha, he, Bool.not_true, Bool.or_false, Bool.false_eq_true, if_false, digitsVal_eq]

theorem weight_number {ds : List (Fin 10)} (h : ds ≠ []) (hd : decimal ds ≤ 1000) (r : List Tok) :
    parseWeight (.number (ds.map digitChar) :: r) = (some (.abs (decimal ds)), r) := by
  unfold parseWeight
  rw [skipAny_none _ (fun w r' e => by cases e)]
  simp only [parseInteger, wholeInt_digits h]
  rw [if_neg (by omega)]

theorem angle_text {k : String} {u : AngleUnit} {w : List Char} (n : Lit)
    (hk : (k, u) ∈ angleUnits) (hw : Cased w k.toList) (r : List Tok) :
    parseAngle (.dim (n.text ++ w) :: r) = (some (n.value, u), r) := by
  have tbl : ∀ x ∈ angleUnits, valueOfCi angleNames x.1.toList = some x.2 ∧
      ∀ c ∈ x.1.toList, 97 ≤ c.toNat ∧ c.toNat ≤ 122 := by decide +kernel
  have h1 := tbl _ hk
  have he := endsNum_of_cased hw h1.2
  simp only [parseAngle, atof_lit n he, Option.getD_some, valueOfCi_congr hw, h1.1]

theorem fontLoop_part {p : FPart} {ts : List Tok} (h : FWrites p ts) {us : List Tok}
    (hu : NoAngle us) (n : Nat) (v : Font) :
    fontLoop (n + 1) v (ts ++ us) = fontLoop n (fset v p) us := by
  cases h with
  | @normal t h =>
    exact fontLoop_style (by
      unfold parseFStyle
      simp only [List.singleton_append]
      rw [skipAny_word h, show kwLookup [("normal", FStyle.normal), ("italic", .italic)]
        "normal".toList = some .normal by decide +kernel]
      rfl)
  | @italic t h =>
    exact fontLoop_style (by
      unfold parseFStyle
      simp only [List.singleton_append]
      rw [skipAny_word h, show kwLookup [("normal", FStyle.normal), ("italic", .italic)]
        "italic".toList = some .italic by decide +kernel]
      rfl)
  | @oblique t h =>
    exact fontLoop_style (by
      unfold parseFStyle
      simp only [List.singleton_append]
      rw [skipAny_word h, show kwLookup [("normal", FStyle.normal), ("italic", .italic)]
        "oblique".toList = none by decide +kernel, skipIdent_word h,
        if_pos (by decide +kernel)]
      simp only [Option.map_none]
      rw [hu])
  | @angle t k u w n h hk hw =>
    exact fontLoop_style (by
      unfold parseFStyle
      simp only [List.cons_append, List.nil_append]
      rw [skipAny_word h, show kwLookup [("normal", FStyle.normal), ("italic", .italic)]
        "oblique".toList = none by decide +kernel, skipIdent_word h,
        if_pos (by decide +kernel)]
      simp only [Option.map_none]
      rw [angle_text n hk hw us])
  | lighter h =>
    obtain ⟨h1, h2⟩ := weight_word h (w := .lighter) (by decide +kernel) (by decide +kernel)
      (by decide +kernel) us
    simp only [List.singleton_append, fontLoop, h1, h2, fset]
  | bolder h =>
    obtain ⟨h1, h2⟩ := weight_word h (w := .bolder) (by decide +kernel) (by decide +kernel)
      (by decide +kernel) us
    simp only [List.singleton_append, fontLoop, h1, h2, fset]
  | bold h =>
    obtain ⟨h1, h2⟩ := weight_word h (w := .abs 700) (by decide +kernel) (by decide +kernel)
      (by decide +kernel) us
    simp only [List.singleton_append, fontLoop, h1, h2, fset]
  | weight ds hne hd =>
    simp only [List.singleton_append, fontLoop,
      parseFStyle_other (t := .number (ds.map digitChar)) (by simp), weight_number hne hd, fset]
  | @width k w t hm h =>
    have tbl : ∀ p ∈ widthNames, kwLookup fwidthKw p.1.toList = some p.2 ∧
          kwLookup [("normal", FStyle.normal), ("italic", .italic)] p.1.toList = none ∧
          eqCi p.1.toList "oblique".toList = false ∧ kwLookup weightKw p.1.toList = none := by
      decide +kernel
    obtain ⟨a, b, c, d⟩ := tbl _ hm
    have h3 : parseWeight (t :: us) = (none, t :: us) := by
      rw [parseWeight_word h, d]; rfl
    have h4 : parseFWidth (t :: us) = (some w, us) := by
      rw [parseFWidth_word h, a]; rfl
    simp only [List.singleton_append, fontLoop, parseFStyle_word h b c, h3, h4, fset]

theorem FWrites.noAngle {p : FPart} {ts : List Tok} (h : FWrites p ts) (us : List Tok) :
    NoAngle (ts ++ us) := by
  unfold NoAngle
  cases h with
  | normal h => cases h; rfl
  | italic h => cases h; rfl
  | oblique h => cases h; rfl
  | angle _ h => cases h; rfl
  | lighter h => cases h; rfl
  | bolder h => cases h; rfl
  | bold h => cases h; rfl
  | weight => rfl
  | width _ h => cases h; rfl

theorem FWrites.pos {p : FPart} {ts : List Tok} (h : FWrites p ts) : 1 ≤ ts.length := by
  cases h <;> simp

theorem fontLoop_parts {ps : List FPart} {ts : List Tok} (h : FTexts ps ts) {us : List Tok}
    (hu : NoAngle us) (n : Nat) (hn : ts.length + 1 ≤ n) (v : Font) :
    ∃ m, fontLoop n v (ts ++ us) = fontLoop (m + 1) (ps.foldl fset v) us := by
  induction h generalizing n v with
  | nil =>
    cases n with
    | zero => simp at hn
    | succ n => exact ⟨n, rfl⟩
  | @cons p ts ps us' h1 h2 ih =>
    cases n with
    | zero => simp at hn
    | succ n =>
      rw [List.append_assoc, fontLoop_part h1 (us := us' ++ us) ?_]
      · have := h1.pos
        exact ih n (by simp at hn; omega) _
      · cases h2 with
        | nil => exact hu
        | cons h3 _ => rw [List.append_assoc]; exact h3.noAngle _

theorem SizeTok.noAngle {t : Tok} {s : FSize} (h : SizeTok t s) (r : List Tok) :
    NoAngle (t :: r) := by
  cases h with
  | length h => exact length_not_angle h r
  | word _ h => cases h; rfl

theorem fontLoop_size {t : Tok} {s : FSize} (h : SizeTok t s) (n : Nat) (v : Font) (r : List Tok) :
    fontLoop (n + 1) v (t :: r) = (some { v with size := s }, r) := by
  cases h with
  | @length x v h =>
    simp only [fontLoop, parseFStyle_other (t := .dim x) (by simp),
      parseWeight_other (t := .dim x) (by simp) (by simp),
      parseFWidth_other (t := .dim x) (by simp) (by simp), parseFSize, h r]
  | @word k s t hm h =>
    have tbl : ∀ p ∈ sizeNames, kwLookup fsizeKw p.1.toList = some p.2 ∧
        kwLookup [("normal", FStyle.normal), ("italic", .italic)] p.1.toList = none ∧
        eqCi p.1.toList "oblique".toList = false ∧ kwLookup weightKw p.1.toList = none ∧
        kwLookup fwidthKw p.1.toList = none := by decide +kernel
    obtain ⟨a, b, c, d, e⟩ := tbl _ hm
    have h1 : parseWeight (t :: r) = (none, t :: r) := by rw [parseWeight_word h, d]; rfl
    have h2 : parseFWidth (t :: r) = (none, t :: r) := by rw [parseFWidth_word h, e]; rfl
    have h3 : parseFSize (t :: r) = (some s, r) := by
      have x : parseLength (t :: r) = (none, t :: r) := by cases h; rfl
      have y : parsePercent (t :: r) = (none, t :: r) := by cases h; rfl
      unfold parseFSize
      simp only [x, y]
      rw [parseKw_word h, a]; rfl
    simp only [fontLoop, parseFStyle_word h b c, h1, h2, h3]

/-! ## What the parts come to -/

theorem foldl_fset (ps : List FPart) (v : Font)
    (h : ((ps.map FPart.kind).filter (· ≠ 0)).Nodup)
    (hn : ∀ a s b, ps = a ++ .style s :: b → .normal ∉ b) :
    ps.foldl fset v =
      ⟨v.family, (ps.findSome? FPart.weight?).or v.weight, (ps.findSome? FPart.width?).getD v.width,
       match ps.findSome? FPart.style? with
        | some s => s
        | none => if ps.any (fun p => p.kind == 0) then .normal else v.style, v.size⟩ := by
  induction ps generalizing v with
  | nil => simp
  | cons p ps ih =>
    have hn' : ∀ a s b, ps = a ++ .style s :: b → .normal ∉ b :=
      fun a s b e => hn (p :: a) s b (by rw [e]; rfl)
    have h' : ((ps.map FPart.kind).filter (· ≠ 0)).Nodup := by
      rw [List.map_cons, List.filter_cons] at h
      split at h
      · exact (List.nodup_cons.1 h).2
      · exact h
    have none_of : ∀ {β : Type} (f : FPart → Option β) (k : Nat), k ≠ 0 →
        (∀ q, f q ≠ none → q.kind = k) → p.kind = k → ps.findSome? f = none := by
      intro β f k h0 hf hk
      rw [List.findSome?_eq_none_iff]
      intro q hq
      by_cases e : f q = none
      · exact e
      · rw [List.map_cons, List.filter_cons, if_pos (by rw [hk]; simpa using h0)] at h
        exact absurd (List.mem_filter.mpr ⟨List.mem_map.mpr ⟨q, hq, (hf q e).trans hk.symm⟩,
          by rw [hk]; simpa using h0⟩) (List.nodup_cons.1 h).1
    have f1 : ∀ q : FPart, q.style? ≠ none → q.kind = 1 := by
      intro q; cases q <;> simp [FPart.style?, FPart.kind]
    have f2 : ∀ q : FPart, q.weight? ≠ none → q.kind = 2 := by
      intro q; cases q <;> simp [FPart.weight?, FPart.kind]
    have f3 : ∀ q : FPart, q.width? ≠ none → q.kind = 3 := by
      intro q; cases q <;> simp [FPart.width?, FPart.kind]
    rw [List.foldl_cons, ih _ h' hn']
    cases p with
    | normal =>
      have : (FPart.normal :: ps).any (fun p => p.kind == 0) = true := rfl
      rw [this]
      simp only [fset, List.findSome?_cons, FPart.weight?, FPart.width?, FPart.style?, if_true,
        ite_self]
    | style s =>
      have : ps.any (fun p => p.kind == 0) = false := by
        rw [List.any_eq_false]
        intro q hq
        cases q with
        | normal => exact absurd hq (hn [] s ps rfl)
        | _ => simp [FPart.kind]
      simp [fset, List.findSome?_cons, FPart.weight?, FPart.width?, FPart.style?,
        none_of _ 1 (by simp) f1 rfl, this]
    | weight w =>
      simp [fset, List.findSome?_cons, FPart.weight?, FPart.width?, FPart.style?,
        none_of _ 2 (by simp) f2 rfl, FPart.kind]
    | width w =>
      simp [fset, List.findSome?_cons, FPart.weight?, FPart.width?, FPart.style?,
        none_of _ 3 (by simp) f3 rfl, FPart.kind]

/-! ## The line height and the family -/

theorem FamilyText.form {ts : List Tok} {n : List Char} (h : FamilyText ts n) :
    (ts = [.str n]) ∨ ∃ (s : List Char) (ws : List (List Char)), ts = .ident s :: ws.map Tok.ident ∧
      n = s ++ (ws.map (fun w => ' ' :: w)).flatten := by
  induction h with
  | str => exact .inl rfl
  | @word s => exact .inr ⟨s, [], rfl, by simp⟩
  | @more ts n s _ hs ih =>
    rcases ih with rfl | ⟨w, ws, rfl, rfl⟩
    · exact absurd rfl (hs n)
    · exact .inr ⟨w, ws ++ [s], by simp, by simp⟩

theorem moreWords_words (ws : List (List Char)) (acc : List Char) :
    moreWords acc (ws.map Tok.ident) = (acc ++ (ws.map (fun w => ' ' :: w)).flatten, []) := by
  induction ws generalizing acc with
  | nil => simp [moreWords]
  | cons w ws ih =>
    have : eatWs (ws.map Tok.ident) = ws.map Tok.ident := by cases ws <;> rfl
    rw [List.map_cons, moreWords, this, ih]
    simp

theorem parseFamily_text {ts : List Tok} {n : List Char} (h : FamilyText ts n) :
    parseFamily ts = (some n, []) := by
  rcases h.form with rfl | ⟨s, ws, rfl, rfl⟩
  · rfl
  · have : eatWs (ws.map Tok.ident) = ws.map Tok.ident := by cases ws <;> rfl
    simp only [parseFamily, this, moreWords_words]

theorem skipLHeight_text {ls ts : List Tok} {n : List Char} (h : LHText ls) (ht : FamilyText ts n) :
    skipLHeight (ls ++ ts) = ts := by
  cases h with
  | none => rcases ht.form with rfl | ⟨s, ws, rfl, rfl⟩ <;> rfl
  | some h => simp only [slash, List.cons_append, List.nil_append, skipLHeight, if_true, h ts]

/-! ## The whole -/

/-- The first part of a text is not white space. -/
theorem FTexts.eatWs {ps : List FPart} {ts : List Tok} (h : FTexts ps ts) {us : List Tok}
    (hu : Values.eatWs us = us) : Values.eatWs (ts ++ us) = ts ++ us := by
  cases h with
  | nil => exact hu
  | cons h1 _ =>
    cases h1 with
    | normal h => cases h; rfl
    | italic h => cases h; rfl
    | oblique h => cases h; rfl
    | angle _ h => cases h; rfl
    | lighter h => cases h; rfl
    | bolder h => cases h; rfl
    | bold h => cases h; rfl
    | weight => rfl
    | width _ h => cases h; rfl

theorem parseFont_text {ps : List FPart} {ts ls fs : List Tok} {t : Tok} {s : FSize} {n : List Char}
    (h : FTexts ps ts) (hs : SizeTok t s) (hl : LHText ls) (hf : FamilyText fs n) :
    declared parseFont (ts ++ t :: (ls ++ fs)) =
      some { ps.foldl fset ⟨"sans-serif".toList, none, 100, .normal, .medium⟩ with
        size := s, family := n } := by
  have he : Values.eatWs (ts ++ t :: (ls ++ fs)) = ts ++ t :: (ls ++ fs) :=
    h.eatWs (by cases hs with
      | length => rfl
      | word _ h => cases h; rfl)
  obtain ⟨m, hm⟩ := fontLoop_parts h (hs.noAngle (ls ++ fs))
    ((ts ++ t :: (ls ++ fs)).length + 1) (by simp) ⟨"sans-serif".toList, none, 100, .normal, .medium⟩
  unfold declared parseFont
  rw [he, hm, fontLoop_size hs]
  simp only [skipLHeight_text hl hf, parseFamily_text hf]

/-- The longhands a font of these parts stands for, but for those the code never gives
(`C170_weight_fails`, `C170_height_fails`). -/
def longhands (ps : List FPart) (s : FSize) (n : List Char) : List Longhand :=
  [.style ((ps.findSome? FPart.style?).getD .normal), .width ((ps.findSome? FPart.width?).getD 100),
   .size s, .family n] ++ ((ps.findSome? FPart.weight?).map Longhand.weight).toList

/-- **C170 (in part).** A style, a weight and a width, each at most once, in any order and with
`normal` for any of them; a size; a line height, if any; and a family: the `font` stands for the
style, the width, the size and the family that are written — `normal`, 100 % where they are not —
and for the weight if it is written.  Missing: `normal` behind a style, sizes that are percentages,
0 or computed, more than one family, the line height, and the weight when it is not written. -/
theorem C170_font_partial {ps : List FPart} {ts ls fs : List Tok} {t : Tok} {s : FSize}
    {n : List Char} (h : FTexts ps ts) (hs : SizeTok t s) (hl : LHText ls) (hf : FamilyText fs n)
    (hd : ((ps.map FPart.kind).filter (· ≠ 0)).Nodup)
    (hn : ∀ a s b, ps = a ++ .style s :: b → .normal ∉ b) :
    (declared parseFont (ts ++ t :: (ls ++ fs))).map Font.expand = some (longhands ps s n) := by
  rw [parseFont_text h hs hl hf, foldl_fset ps _ hd hn]
  simp only [Option.map_some, Font.expand, longhands, Option.or_none, ite_self]
  congr 1
  cases ps.findSome? FPart.style? <;> cases ps.findSome? FPart.weight? <;> rfl

/-- `font: normal oblique 10deg bold 12px/1.5 New York` -/
example : FTexts [.normal, .style (.oblique 10 .deg), .weight (.abs 700)]
      [.ident "normal".toList, .ident "oblique".toList, .dim "10deg".toList, .ident "BOLD".toList] ∧
    SizeTok (.dim "12px".toList) (.length (.abs 12 .px)) ∧
    LHText [slash, .number "1.5".toList] ∧
    FamilyText [.ident "New".toList, .ident "York".toList] "New York".toList := by
  refine ⟨?_, .length ?_, .some (v := .number (3 / 2)) ?_, ?_⟩
  · have h := FWrites.angle (t := .ident "oblique".toList) (w := "deg".toList) (u := .deg)
      (k := "deg") (natLit 1 [0]) (.mk (Cased.refl _)) (by decide +kernel) (Cased.refl _)
    have e : (natLit 1 [0]).text ++ "deg".toList = "10deg".toList := by decide +kernel
    have e2 : (natLit 1 [0]).value = 10 := by decide +kernel
    rw [e, e2] at h
    exact .cons (.normal (.mk (Cased.refl _))) (.cons (us := [.ident "BOLD".toList]) h
      (.cons (us := []) (.bold (.mk (eqCi_iff.1 (by decide +kernel)))) .nil))
  · exact (declared_one parseLength_oneTok (by simp)).1 (by decide +kernel)
  · intro r
    have : (atof "1.5".toList).map (·.1) = some (3 / 2) := by decide +kernel
    have h2 : parseNumber (.number "1.5".toList :: r) = (some (3 / 2), r) := by
      simp only [parseNumber, this]
    simp only [parseLHeight, skipIdent, h2]
  · exact .more .word (by simp)

/-- No weight is given when none is written: the weight from before stays, where CSS resets it. -/
theorem C170_weight_fails {ps : List FPart} {ts ls fs : List Tok} {t : Tok} {s : FSize}
    {n : List Char} (h : FTexts ps ts) (hs : SizeTok t s) (hl : LHText ls) (hf : FamilyText fs n)
    (hw : ∀ w, .weight w ∉ ps) :
    ∃ v, declared parseFont (ts ++ t :: (ls ++ fs)) = some v ∧ ∀ w, .weight w ∉ v.expand := by
  refine ⟨_, parseFont_text h hs hl hf, ?_⟩
  have : ∀ (ps : List FPart) (v : Font), (∀ w, .weight w ∉ ps) → v.weight = none →
      (ps.foldl fset v).weight = none := by
    intro ps
    induction ps with
    | nil => exact fun v _ h => h
    | cons p ps ih =>
      intro v h hv
      refine ih _ (fun w hm => h w (List.mem_cons_of_mem _ hm)) ?_
      cases p with
      | weight w => exact absurd (List.mem_cons_self ..) (h w)
      | _ => exact hv
  intro w hm
  have hz := this ps ⟨"sans-serif".toList, none, 100, .normal, .medium⟩ hw rfl
  simp only [Font.expand, hz] at hm
  simp at hm

/-- The line height has no effect at all. -/
theorem C170_height_fails {ps : List FPart} {ts ls ls' fs : List Tok} {t : Tok} {s : FSize}
    {n : List Char} (h : FTexts ps ts) (hs : SizeTok t s) (hl : LHText ls) (hl' : LHText ls')
    (hf : FamilyText fs n) :
    declared parseFont (ts ++ t :: (ls ++ fs)) = declared parseFont (ts ++ t :: (ls' ++ fs)) := by
  rw [parseFont_text h hs hl hf, parseFont_text h hs hl' hf]

/-! ## A comma -/

/-- Whatever the parser steps over has no comma in it. -/
def NoComma (p : List Tok → Out α) : Prop :=
  ∀ l o r, p l = (o, r) → ∃ pre, l = pre ++ r ∧ .comma ∉ pre

theorem NoComma.step {p : List Tok → Out α} (h : NoComma p) (l : List Tok) :
    ∃ pre, l = pre ++ (p l).2 ∧ .comma ∉ pre := h l _ _ rfl

theorem noComma_trans {a b c : List Tok} (h : ∃ pre, a = pre ++ b ∧ .comma ∉ pre)
    (h' : ∃ pre, b = pre ++ c ∧ .comma ∉ pre) : ∃ pre, a = pre ++ c ∧ .comma ∉ pre := by
  obtain ⟨x, rfl, hx⟩ := h
  obtain ⟨y, rfl, hy⟩ := h'
  exact ⟨x ++ y, by simp, by simp [hx, hy]⟩

theorem noComma_refl (a : List Tok) : ∃ pre, a = pre ++ a ∧ .comma ∉ pre := ⟨[], rfl, by simp⟩

theorem noComma_oneTok {p : List Tok → Out α} (h : OneTok p)
    (hc : ∀ r, p (.comma :: r) = (none, .comma :: r)) : NoComma p := by
  intro l o r e
  cases o with
  | none => rw [oneTok_fail h e]; exact noComma_refl l
  | some v =>
    obtain ⟨t, rfl, hr⟩ := h.one e
    refine ⟨[t], rfl, ?_⟩
    intro hm
    simp at hm
    subst hm
    have := hr []
    rw [hc] at this
    cases this

theorem noComma_skipAny {table : List (String × α)} {l r : List Tok} {v : α}
    (h : skipAny table l = some (v, r)) : ∃ pre, l = pre ++ r ∧ .comma ∉ pre := by
  by_cases hi : ∃ w l', l = .ident w :: l'
  · obtain ⟨w, l', rfl⟩ := hi
    rw [skipAny_ident] at h
    cases hk : kwLookup table w with
    | none => rw [hk] at h; cases h
    | some x =>
      rw [hk] at h
      cases h
      exact ⟨[.ident w], rfl, by simp⟩
  · rw [skipAny_none table (fun w l' e => hi ⟨w, l', e⟩)] at h; cases h

theorem noComma_skipIdent {k : List Char} {l r : List Tok} (h : skipIdent k l = some r) :
    ∃ pre, l = pre ++ r ∧ .comma ∉ pre := by
  cases l with
  | nil => cases h
  | cons t l =>
    cases t with
    | ident w =>
      simp only [skipIdent] at h
      split at h
      · cases h; exact ⟨[.ident w], rfl, by simp⟩
      · cases h
    | _ => cases h

theorem noComma_angle : NoComma parseAngle := by
  intro l o r e
  cases l with
  | nil => cases e; exact noComma_refl _
  | cons t l =>
    cases t with
    | dim s =>
      simp only [parseAngle] at e
      split at e
      · cases e; exact ⟨[.dim s], rfl, by simp⟩
      · cases e; exact noComma_refl _
    | _ => cases e; exact noComma_refl _

theorem noComma_fstyle : NoComma parseFStyle := by
  intro l o r e
  unfold parseFStyle at e
  split at e
  · next h => cases e; exact noComma_skipAny h
  · split at e
    · cases e; exact noComma_refl _
    · next r1 h =>
      split at e <;> next h2 =>
        cases e
        exact noComma_trans (noComma_skipIdent h) (noComma_angle _ _ _ h2)

theorem noComma_integer : NoComma parseInteger := by
  intro l o r e
  cases l with
  | nil => cases e; exact noComma_refl _
  | cons t l =>
    cases t with
    | number s => cases e; exact ⟨[.number s], rfl, by simp⟩
    | _ => cases e; exact noComma_refl _

theorem noComma_number : NoComma parseNumber := by
  intro l o r e
  cases l with
  | nil => cases e; exact noComma_refl _
  | cons t l =>
    cases t with
    | number s => cases e; exact ⟨[.number s], rfl, by simp⟩
    | _ => cases e; exact noComma_refl _

theorem noComma_weight : NoComma parseWeight := by
  intro l o r e
  unfold parseWeight at e
  split at e
  · next h => cases e; exact noComma_skipAny h
  · split at e
    · next h => cases e; exact noComma_integer _ _ _ h
    · next h =>
      split at e <;> cases e <;> exact noComma_integer _ _ _ h

theorem noComma_percent : NoComma parsePercent := by
  intro l o r e
  cases l with
  | nil => cases e; exact noComma_refl _
  | cons t l =>
    cases t with
    | percent s => cases e; exact ⟨[.percent s], rfl, by simp⟩
    | _ => cases e; exact noComma_refl _

theorem noComma_fwidth : NoComma parseFWidth := by
  intro l o r e
  unfold parseFWidth at e
  split at e
  · next h => cases e; exact noComma_skipAny h
  · exact noComma_percent _ _ _ e

theorem noComma_length : NoComma parseLength := noComma_oneTok parseLength_oneTok (fun _ => rfl)

theorem noComma_fsize : NoComma parseFSize := by
  intro l o r e
  unfold parseFSize at e
  split at e
  · next h => cases e; exact noComma_length _ _ _ h
  · next h =>
    refine noComma_trans (noComma_length _ _ _ h) ?_
    split at e
    · next h => cases e; exact noComma_percent _ _ _ h
    · next h =>
      refine noComma_trans (noComma_percent _ _ _ h) ?_
      exact noComma_oneTok (parseKw_oneTok _)
        (fun r => parseKw_other _ (fun w r e => by cases e)) _ _ _ e

theorem noComma_lheight : NoComma parseLHeight := by
  intro l o r e
  unfold parseLHeight at e
  split at e
  · next h => cases e; exact noComma_skipIdent h
  · split at e
    · next h => cases e; exact noComma_number _ _ _ h
    · split at e <;> next h =>
        cases e; exact noComma_oneTok parsePL_oneTok (fun _ => rfl) _ _ _ h

theorem noComma_eatWs (l : List Tok) : ∃ pre, l = pre ++ eatWs l ∧ .comma ∉ pre := by
  induction l with
  | nil => exact noComma_refl _
  | cons t l ih =>
    cases t with
    | ws =>
      obtain ⟨pre, h1, h2⟩ := ih
      exact ⟨.ws :: pre, by simp only [eatWs, List.cons_append]; rw [← h1], by simp [h2]⟩
    | _ => exact noComma_refl _

theorem noComma_moreWords (acc : List Char) (l : List Tok) :
    ∃ pre, l = pre ++ (moreWords acc l).2 ∧ .comma ∉ pre := by
  induction acc, l using moreWords.induct with
  | case1 acc s r ih =>
    rw [moreWords]
    exact noComma_trans ⟨[.ident s], rfl, by simp⟩ (noComma_trans (noComma_eatWs r) ih)
  | case2 acc l h =>
    have : moreWords acc l = (acc, l) := by
      cases l with
      | nil => rw [moreWords]; exact h
      | cons t l =>
        rw [moreWords]
        exact h
    rw [this]
    exact noComma_refl _

theorem noComma_family : NoComma parseFamily := by
  intro l o r e
  cases l with
  | nil => cases e; exact noComma_refl _
  | cons t l =>
    cases t with
    | str s => cases e; exact ⟨[.str s], rfl, by simp⟩
    | ident s =>
      cases e
      exact noComma_trans ⟨[.ident s], rfl, by simp⟩
        (noComma_trans (noComma_eatWs l) (noComma_moreWords _ _))
    | _ => cases e; exact noComma_refl _

theorem noComma_skipLHeight (l : List Tok) :
    ∃ pre, l = pre ++ skipLHeight l ∧ .comma ∉ pre := by
  cases l with
  | nil => exact noComma_refl _
  | cons t l =>
    cases t with
    | delim s =>
      simp only [skipLHeight]
      split
      · exact noComma_trans ⟨[.delim s], rfl, by simp⟩ (noComma_lheight.step l)
      · exact noComma_refl _
    | _ => exact noComma_refl _

theorem noComma_fontLoop (n : Nat) (v : Font) : NoComma (fontLoop n v) := by
  induction n generalizing v with
  | zero => intro l o r e; cases e; exact noComma_refl _
  | succ n ih =>
    intro l o r e
    simp only [fontLoop] at e
    split at e
    · next h => exact noComma_trans (noComma_fstyle _ _ _ h) (ih _ _ _ _ e)
    · next h =>
      refine noComma_trans (noComma_fstyle _ _ _ h) ?_
      split at e
      · next h => exact noComma_trans (noComma_weight _ _ _ h) (ih _ _ _ _ e)
      · next h =>
        refine noComma_trans (noComma_weight _ _ _ h) ?_
        split at e
        · next h => exact noComma_trans (noComma_fwidth _ _ _ h) (ih _ _ _ _ e)
        · next h =>
          refine noComma_trans (noComma_fwidth _ _ _ h) ?_
          split at e <;> next h => cases e; exact noComma_fsize _ _ _ h

theorem noComma_font : NoComma parseFont := by
  intro l o r e
  unfold parseFont at e
  split at e
  · next h => cases e; exact noComma_fontLoop _ _ _ _ _ h
  · next h =>
    refine noComma_trans (noComma_fontLoop _ _ _ _ _ h) (noComma_trans (noComma_skipLHeight _) ?_)
    split at e <;> next h => cases e; exact noComma_family _ _ _ h

/-- A font with a comma is not accepted: there is no way to name a second family. -/
theorem C170_families_fails (ts : List Tok) (h : .comma ∈ ts) : declared parseFont ts = none := by
  unfold declared
  split
  · next v e =>
    obtain ⟨pre, h1, h2⟩ := noComma_trans (noComma_eatWs ts) (noComma_font _ _ _ e)
    rw [List.append_nil] at h1
    exact absurd (h1 ▸ h) h2
  · rfl

/-- `font: 12px Arial` is accepted, and not with `, sans-serif` behind it. -/
example : declared parseFont [.dim "12px".toList, .ident "Arial".toList] =
      some ⟨"Arial".toList, none, 100, .normal, .length (.abs 12 .px)⟩ ∧
    declared parseFont [.dim "12px".toList, .ident "Arial".toList, .comma,
      .ident "sans-serif".toList] = none :=
  ⟨by decide +kernel, C170_families_fails _ (by simp)⟩

/-- `normal` behind a style undoes it: `font: italic normal 12px a` is upright. -/
theorem C170_normal_fails :
    declared parseFont [.ident "italic".toList, .ident "normal".toList, .dim "12px".toList,
      .ident "a".toList] = some ⟨"a".toList, none, 100, .normal, .length (.abs 12 .px)⟩ := by
  decide +kernel

/-- A size that is a percentage or 0 is not accepted: it is taken for a width or a weight. -/
theorem C170_size_fails :
    declared parseFont [.percent "80%".toList, .ident "serif".toList] = none ∧
    declared parseFont [.number "0".toList, .ident "serif".toList] = none := by
  decide +kernel

/-- Two styles, and a weight that is none, are accepted: `font: italic oblique 2000 12px a`. -/
theorem C170_twice_fails :
    declared parseFont [.ident "italic".toList, .ident "oblique".toList, .number "2000".toList,
      .dim "12px".toList, .ident "a".toList] =
      some ⟨"a".toList, none, 100, .oblique 14 .deg, .length (.abs 12 .px)⟩ := by decide +kernel

end Verif.Short
