import Verif.Face.Spec
import Verif.Short.SrcProps
import Verif.Short.FontProps
import Verif.Hue.Props
/-!
# The descriptors of `@font-face`: lemmas
-/
namespace Verif.Face
open Verif.Values Verif.Short
open Spec

/-- A descriptor that was read is what was said. -/
def Matches : Desc → Setting → Prop
  | .family n, .family n' => n = n'
  | .src s, .sources s' => s = s'
  | .style s, .slant s' => (match s with | .style f => slantOf f | _ => .normal) = s'
  | .weight w, .weight w' => w = w'
  | .width w, .width w' => w = w'
  | .display d, .display d' => d = d'
  | .ascent p, .ascent q => p.getD 100 / 100 = q
  | .descent p, .descent q => p.getD 100 / 100 = q
  | .lineGap p, .lineGap q => p.getD 100 / 100 = q
  | .size p, .size q => p / 100 = q
  | _, _ => False

theorem word_ne_ws {k : String} {t : Tok} (h : Word k t) (r : List Tok) : eatWs (t :: r) = t :: r := by cases h; rfl

theorem skipIdent_no {k k' : String} {t : Tok} (h : Word k t) (hn : eqCi k.toList k'.toList = false) (r : List Tok) :
    skipIdent k'.toList (t :: r) = none := by rw [skipIdent_word h, hn]; rfl

theorem skipIdent_yes {k : String} {t : Tok} (h : Word k t) (r : List Tok) : skipIdent k.toList (t :: r) = some r := by
  rw [skipIdent_word h, if_pos (eqCi_iff.2 (Cased.refl _))]

theorem perc_reads {t : Tok} {p : Rat} (h : PercTok t p) (r : List Tok) : parsePercent (t :: r) = (some p, r) := by
  cases h with
  | mk n _ => simp only [parsePercent, Hue.atof_percent, Option.map_some, Option.getD_some]

theorem weight_reads {t : Tok} {w : Int} (h : WeightTok t w) (r : List Tok) :
    parseAbsWeight (t :: r) = (some w, r) ∧ skipIdent "auto".toList (t :: r) = none ∧ eatWs (t :: r) = t :: r := by
  cases h with
  | normal h =>
    refine ⟨?_, skipIdent_no h (by decide +kernel) r, word_ne_ws h r⟩
    unfold parseAbsWeight
    rw [skipAny_word h, show kwLookup [("normal", (400 : Int)), ("bold", 700)] "normal".toList = some 400 by decide +kernel]
    rfl
  | bold h =>
    refine ⟨?_, skipIdent_no h (by decide +kernel) r, word_ne_ws h r⟩
    unfold parseAbsWeight
    rw [skipAny_word h, show kwLookup [("normal", (400 : Int)), ("bold", 700)] "bold".toList = some 700 by decide +kernel]
    rfl
  | number h h1 h2 =>
    refine ⟨?_, rfl, rfl⟩
    unfold parseAbsWeight
    rw [skipAny_none _ (fun w r' e => by cases e)]
    simp only [parseInteger, wholeInt_digits h]
    rw [if_neg (by omega)]

theorem width_reads {t : Tok} {w : Rat} (h : WidthTok t w) (r : List Tok) :
    parseFWidth (t :: r) = (some w, r) ∧ skipIdent "auto".toList (t :: r) = none ∧ eatWs (t :: r) = t :: r := by
  cases h with
  | normal h =>
    refine ⟨?_, skipIdent_no h (by decide +kernel) r, word_ne_ws h r⟩
    rw [parseFWidth_word h, show kwLookup fwidthKw "normal".toList = some 100 by decide +kernel]
    rfl
  | @word k w t hk h =>
    have tbl : ∀ p ∈ widthNames, kwLookup fwidthKw p.1.toList = some p.2 ∧ eqCi p.1.toList "auto".toList = false := by
      decide +kernel
    obtain ⟨h1, h2⟩ := tbl _ hk
    refine ⟨?_, skipIdent_no h h2 r, word_ne_ws h r⟩
    rw [parseFWidth_word h, h1]
    rfl
  | percent h =>
    refine ⟨?_, by cases h; rfl, by cases h; rfl⟩
    unfold parseFWidth
    rw [skipAny_none _ (fun w r' e => by cases h; cases e)]
    exact perc_reads h r

theorem pair_reads {α : Type} {p : Tok → α → Prop} {f : List Tok → Out α} (hf : f [] = (none, []))
    (h : ∀ t a, p t a → ∀ r, f (t :: r) = (some a, r) ∧ skipIdent "auto".toList (t :: r) = none ∧ eatWs (t :: r) = t :: r)
    {ts : List Tok} {w : Option (α × α)} (hp : Pair p ts w) : parseRange f (eatWs ts) = (some w, []) := by
  cases hp with
  | auto h => rw [word_ne_ws h, parseRange, skipIdent_yes h]
  | one h1 =>
    obtain ⟨a, b, c⟩ := h _ _ h1 []
    rw [c, parseRange, b]
    simp only [a, hf]
  | two h1 h2 =>
    obtain ⟨a, b, c⟩ := h _ _ h1 [_]
    rw [c, parseRange, b]
    simp only [a, (h _ _ h2 []).1]

theorem factor_reads {ts : List Tok} {q : Rat} (h : Factor ts q) :
    ∃ p, parseOverride (eatWs ts) = (some p, []) ∧ p.getD 100 / 100 = q := by
  cases h with
  | normal h =>
    refine ⟨none, ?_, by decide +kernel⟩
    rw [word_ne_ws h, parseOverride, skipIdent_yes h]
  | @percent t p h =>
    refine ⟨some p, ?_, rfl⟩
    have h1 : eatWs [t] = [t] := by cases h; rfl
    have h2 : skipIdent "normal".toList [t] = none := by cases h; rfl
    rw [h1, parseOverride, h2]
    simp only [perc_reads h]

theorem style_oblique (same14 : Angle → Bool) {t : Tok} (h : Word "oblique" t) (r : List Tok) :
    parseStyleDesc same14 (t :: r) = match parseAngle r with
      | (some a, r') =>
        if same14 a then
          match parseAngle r' with
          | (none, r'') => (some (.style (.oblique a.1 a.2)), r'')
          | (some b, r'') => (some (.range a b), r'')
        else (some (.style (.oblique a.1 a.2)), r')
      | (none, r') =>
        if same14 (14, .deg) then
          match parseAngle r' with
          | (none, r'') => (some (.style (.oblique 14 .deg)), r'')
          | (some b, r'') => (some (.range (14, .deg) b), r'')
        else (some (.style (.oblique 14 .deg)), r') := by
  unfold parseStyleDesc parseFStyle
  rw [skipIdent_no h (by decide +kernel), skipAny_word h,
    show kwLookup [("normal", FStyle.normal), ("italic", .italic)] "oblique".toList = none by decide +kernel, skipIdent_yes h]
  simp only [Option.map_none]
  rcases parseAngle r with ⟨_ | ⟨v, u⟩, r'⟩ <;> rfl

theorem style_plain (same14 : Angle → Bool) {k : String} {t : Tok} {s : FStyle} (h : Word k t) (ha : eqCi k.toList "auto".toList = false)
    (hs : kwLookup [("normal", FStyle.normal), ("italic", .italic)] k.toList = some s) (hn : ∀ v u, s ≠ .oblique v u) :
    parseStyleDesc same14 [t] = (some (.style s), []) := by
  unfold parseStyleDesc parseFStyle
  rw [skipIdent_no h ha, skipAny_word h, hs]
  cases s with
  | oblique v u => exact absurd rfl (hn v u)
  | _ => rfl

theorem angle_reads {t : Tok} (h : AngleTok t) (r : List Tok) : ∃ a, parseAngle (t :: r) = (some a, r) := by
  cases h with
  | mk n hk hw => exact ⟨_, angle_text n hk hw r⟩

/-- The names, as the chain of comparisons takes them. -/
theorem desc_name (same14 : Angle → Bool) {n : List Char} {k : String} (h : Cased n k.toList) (ts : List Tok) :
    parseDesc same14 n ts = parseDesc same14 k.toList ts := by
  simp only [parseDesc, h.eqCi_congr]

section
variable (same14 : Angle → Bool) (ts : List Tok)

theorem desc_family : parseDesc same14 "font-family".toList ts = match parseFamilyDesc (eatWs ts) with
    | .crash => .crash | .ok o => whole .family o := rfl
theorem desc_src : parseDesc same14 "src".toList ts = whole .src (parseSrc (eatWs ts)) := rfl
theorem desc_style : parseDesc same14 "font-style".toList ts = whole .style (parseStyleDesc same14 (eatWs ts)) := rfl
theorem desc_weight : parseDesc same14 "font-weight".toList ts = whole .weight (parseRange parseAbsWeight (eatWs ts)) := rfl
theorem desc_width : parseDesc same14 "font-width".toList ts = whole .width (parseRange parseFWidth (eatWs ts)) := rfl
theorem desc_display : parseDesc same14 "font-display".toList ts = whole .display (parseKw displayKw (eatWs ts)) := rfl
theorem desc_ascent : parseDesc same14 "ascent-override".toList ts = whole .ascent (parseOverride (eatWs ts)) := rfl
theorem desc_descent : parseDesc same14 "descent-override".toList ts = whole .descent (parseOverride (eatWs ts)) := rfl
theorem desc_lineGap : parseDesc same14 "line-gap-override".toList ts = whole .lineGap (parseOverride (eatWs ts)) := rfl
theorem desc_size : parseDesc same14 "size-adjust".toList ts = whole .size (parsePercent (eatWs ts)) := rfl
end

theorem says_reads (same14 : Angle → Bool) {k : String} {ts : List Tok} {x : Setting} (h : Says true k ts x) :
    ∃ d, parseDesc same14 k.toList ts = .ok (some d) ∧ Matches d x := by
  cases h with
  | @family ts n h hl =>
    refine ⟨.family n, ?_, rfl⟩
    rw [desc_family]
    rcases h.form with rfl | ⟨s, ws, rfl, rfl⟩
    · rfl
    · have := hl rfl
      cases ws with
      | nil => simp [eatWs, parseFamilyDesc, whole]
      | cons _ _ => simp at this
  | @sources ts ss h =>
    refine ⟨.src ss, ?_, rfl⟩
    have := C171_src_partial h
    unfold declared at this
    rw [desc_src]
    split at this
    · next v e => rw [e]; injection this with this; subst this; rfl
    · cases this
  | auto h => exact ⟨.style .none, by rw [desc_style, word_ne_ws h, parseStyleDesc, skipIdent_yes h]; rfl, rfl⟩
  | normal h =>
    exact ⟨.style (.style .normal), by
      rw [desc_style, word_ne_ws h, style_plain same14 h (by decide +kernel) (s := .normal) (by decide +kernel) (by simp)]; rfl, rfl⟩
  | italic h =>
    exact ⟨.style (.style .italic), by
      rw [desc_style, word_ne_ws h, style_plain same14 h (by decide +kernel) (s := .italic) (by decide +kernel) (by simp)]; rfl, rfl⟩
  | oblique h =>
    refine ⟨.style (.style (.oblique 14 .deg)), ?_, rfl⟩
    rw [desc_style, word_ne_ws h, style_oblique same14 h]
    simp only [parseAngle]
    split <;> rfl
  | angle h ha =>
    obtain ⟨a, ha⟩ := angle_reads ha []
    refine ⟨.style (.style (.oblique a.1 a.2)), ?_, rfl⟩
    rw [desc_style, word_ne_ws h, style_oblique same14 h, ha]
    simp only [parseAngle]
    split <;> rfl
  | angles h => cases h
  | @weight ts w h => exact ⟨.weight w, by rw [desc_weight, pair_reads (f := parseAbsWeight) rfl (fun _ _ => weight_reads) h]; rfl, rfl⟩
  | @width ts w h => exact ⟨.width w, by rw [desc_width, pair_reads (f := parseFWidth) rfl (fun _ _ => width_reads) h]; rfl, rfl⟩
  | stretch h => cases h
  | @display k d t hk h =>
    have tbl : ∀ p ∈ displays, kwLookup displayKw p.1.toList = some p.2 := by decide +kernel
    refine ⟨.display d, ?_, rfl⟩
    rw [desc_display, word_ne_ws h, parseKw_word h, tbl _ hk]
    rfl
  | ascent h => obtain ⟨p, h1, h2⟩ := factor_reads h; exact ⟨.ascent p, by rw [desc_ascent, h1]; rfl, h2⟩
  | descent h => obtain ⟨p, h1, h2⟩ := factor_reads h; exact ⟨.descent p, by rw [desc_descent, h1]; rfl, h2⟩
  | lineGap h => obtain ⟨p, h1, h2⟩ := factor_reads h; exact ⟨.lineGap p, by rw [desc_lineGap, h1]; rfl, h2⟩
  | @size t p h =>
    refine ⟨.size p, ?_, rfl⟩
    have h1 : eatWs [t] = [t] := by cases h; rfl
    rw [desc_size, h1, perc_reads h]
    rfl

theorem unknown_reads (same14 : Angle → Bool) {n : List Char} {ts : List Tok} (h : ∀ k ∈ names, ¬ Cased n k.toList) :
    parseDesc same14 n ts = .ok none := by
  have e : ∀ k ∈ names, eqCi n k.toList = false := fun k hk => by
    cases hb : eqCi n k.toList with
    | false => rfl
    | true => exact absurd (eqCi_iff.1 hb) (h k hk)
  simp only [names, List.mem_cons, List.not_mem_nil, or_false, forall_eq_or_imp, forall_eq] at e
  simp only [parseDesc, e, Bool.false_eq_true, if_false]

theorem stray_reads (same14 : Angle → Bool) {n : List Char} {t : Tok} (h : Stray t) (ts : List Tok) :
    parseDesc same14 n (t :: ts) = .ok none := by
  have e0 : eatWs (t :: ts) = t :: ts := by cases h <;> rfl
  have e1 : parseFamilyDesc (t :: ts) = .ok (none, t :: ts) := by cases h <;> rfl
  have e2 : ∀ k, skipIdent k (t :: ts) = none := fun k => by cases h <;> rfl
  have e3 : ∀ {α : Type} (tbl : List (String × α)), skipAny tbl (t :: ts) = none := fun tbl =>
    skipAny_none tbl (fun w r e => by cases h <;> cases e)
  have e4 : parsePercent (t :: ts) = (none, t :: ts) := by cases h <;> rfl
  have e5 : parseInteger (t :: ts) = (none, t :: ts) := by cases h <;> rfl
  have e6 : parseInstance (t :: ts) = (none, t :: ts) := by unfold parseInstance; rw [e2]; cases h <;> rfl
  have e7 : parseSrc (t :: ts) = (none, t :: ts) := by
    cases h <;> simp [parseSrc, srcLoop, srcLoop.source, eatWs, parseUrl]
  simp only [parseDesc, e0, e1, e7, e6, parseStyleDesc, parseFStyle, parseRange, parseAbsWeight, parseFWidth, parseOverride, parseKw, e2, e3, e4, e5, whole]
  simp only [ite_self]

theorem empty_reads (same14 : Angle → Bool) {n : List Char} (h : ¬ Cased n "font-family".toList) :
    parseDesc same14 n [] = .ok none := by
  have e : eqCi n "font-family".toList = false := by
    cases hb : eqCi n "font-family".toList with
    | false => rfl
    | true => exact absurd (eqCi_iff.1 hb) h
  have e2 : ∀ k, skipIdent k [] = none := fun k => rfl
  have e7 : parseSrc [] = (none, []) := by simp [parseSrc, srcLoop, srcLoop.source, eatWs, parseUrl]
  simp only [parseDesc, e, eatWs, e7, parseInstance, parseStyleDesc, parseFStyle, parseRange, parseAbsWeight, parseFWidth, parseOverride, parseKw, e2,
    skipAny_nil, parsePercent, parseInteger, whole, Bool.false_eq_true, if_false]
  simp only [ite_self]

/-- What was read is what was said, one by one. -/
inductive AllMatch : List Desc → List Setting → Prop
  | nil : AllMatch [] []
  | cons {d x ds l} : Matches d x → AllMatch ds l → AllMatch (d :: ds) (x :: l)

theorem block_reads (same14 : Angle → Bool) {ds : List (List Char × List Tok)} {l : List Setting} (h : Block true ds l) :
    ∃ l', parseAll same14 ds = .ok l' ∧ AllMatch l' l := by
  induction h with
  | nil => exact ⟨[], rfl, .nil⟩
  | says hn hs _ ih =>
    obtain ⟨l', h1, h2⟩ := ih
    obtain ⟨d, h3, h4⟩ := says_reads same14 hs
    exact ⟨d :: l', by rw [parseAll, desc_name same14 hn, h3, h1]; rfl, .cons h4 h2⟩
  | unknown hn _ ih =>
    obtain ⟨l', h1, h2⟩ := ih
    exact ⟨l', by rw [parseAll, unknown_reads same14 hn, h1]; rfl, h2⟩
  | invalid hs _ ih =>
    obtain ⟨l', h1, h2⟩ := ih
    exact ⟨l', by rw [parseAll, stray_reads same14 hs, h1]; rfl, h2⟩
  | empty hn _ ih =>
    obtain ⟨l', h1, h2⟩ := ih
    exact ⟨l', by rw [parseAll, empty_reads same14 (hn rfl), h1]; rfl, h2⟩

theorem lastOf_cons {α : Type} (kind : Setting → Option α) (x : Setting) (l : List Setting) (z : α) :
    (lastOf kind (x :: l)).getD z = (lastOf kind l).getD ((kind x).getD z) := by
  unfold lastOf
  cases hk : kind x with
  | none => rw [List.filterMap_cons_none hk]; rfl
  | some y =>
    rw [List.filterMap_cons_some hk, List.getLast?_cons]
    cases (l.filterMap kind).getLast? <;> rfl

/-- The style, the metrics and the size that a face has. -/
def slantIn (f : Face) : Slant := match f.style with
  | .style s => slantOf s
  | _ => .normal

/-- A field of the face is the last thing said of it. -/
theorem fold_field {α : Type} (get : Face → α) (kind : Setting → Option α)
    (h : ∀ f d x, Matches d x → get (d.apply f) = (kind x).getD (get f)) {ds : List Desc} {l : List Setting} (hm : AllMatch ds l) (f : Face) :
    get (ds.foldl Desc.apply f) = (lastOf kind l).getD (get f) := by
  induction hm generalizing f with
  | nil => rfl
  | cons hd _ ih => rw [List.foldl_cons, ih, lastOf_cons, h f _ _ hd]

end Verif.Face
