import Verif.Clip.Spec

/-!
# Clip: shapes are read as they are written (C214)
-/

namespace Verif.Clip
open Verif.Values Verif.Short

theorem eatWs_spaces (n : Nat) : eatWs (spaces n) = [] := by
  have := eatWs_replicate n []
  rwa [List.append_nil] at this

theorem calc_ne_ws {t : Tok} {c : Calc} (h : Reads parseCalc t c) : t ≠ .ws :=
  (ItemTok.offset h).ne_ws

theorem atPosition_text {as : List Tok} {is : List Item} {p : Position} (ha : AtText as is p)
    (hr : Readable is) : atPosition as = (p, []) := by
  cases ha with
  | none n =>
    unfold atPosition
    rw [eatWs_spaces]
    rfl
  | «at» n h hp hi =>
    rw [atPosition_at h n hi hp.short, positionOf_text hp hr.1 hr.2]
    rfl

theorem parsePL_spaces (n : Nat) : parsePL (spaces n) = (none, spaces n) := by
  cases n <;> rfl

theorem parsePL_gap_slash (n : Nat) (l : List Tok) :
    parsePL (spaces n ++ slash :: l) = (none, spaces n ++ slash :: l) := by
  cases n <;> rfl

theorem all_inj {a b : Radii} (h : a.all = b.all) : a = b := by
  cases a; cases b
  simp only [Radii.all, Sides.mk.injEq, Prod.mk.injEq] at h
  simp only [Radii.mk.injEq]
  grind

theorem roundPart_text {os : List Tok} {o : Sides Corner} {radii : Radii} (h : RoundText os o)
    (hr : radii.all = o) : roundPart os = (radii, []) := by
  cases h with
  | none n =>
    have : radii = noRadii := all_inj hr
    unfold roundPart
    rw [eatWs_spaces, this]
    rfl
  | @one t v a n m k ht hv =>
    have hra : radii = .corners a a a a := all_inj hr
    have hp : parseRadii (v :: spaces k) = (some (.corners a a a a), []) := by
      unfold parseRadii
      simp only [List.isEmpty_cons, Bool.false_eq_true, if_false, hv (spaces k), parsePL_spaces]
      unfold postSlash
      rw [eatWs_spaces]
    unfold roundPart
    rw [eatWs_replicate, eatWs_cons ht.ne_ws, skipIdent_word ht, if_pos (by decide +kernel)]
    simp only [eatWs_replicate, eatWs_cons (readsPL_ne_ws hv), hp, hra, eatWs]
  | @two t v a u b n m k j i ht hv hu =>
    have hra : radii = ⟨b, a, a, b, b, a, a, b⟩ := all_inj hr
    have hp : parseRadii (v :: (spaces k ++ slash :: (spaces j ++ u :: spaces i))) =
        (some ⟨b, a, a, b, b, a, a, b⟩, spaces i) := by
      unfold parseRadii
      simp only [List.isEmpty_cons, Bool.false_eq_true, if_false, hv _, parsePL_gap_slash]
      unfold postSlash
      rw [eatWs_replicate, eatWs_cons (by simp [slash])]
      simp only [slash, if_true, eatWs_replicate, eatWs_cons (readsPL_ne_ws hu), hu (spaces i),
        parsePL_spaces, Option.getD_some, Radii.corners]
    unfold roundPart
    rw [eatWs_replicate, eatWs_cons ht.ne_ws, skipIdent_word ht, if_pos (by decide +kernel)]
    simp only [eatWs_replicate, eatWs_cons (readsPL_ne_ws hv), hp, hra, eatWs_spaces]

/-- A text of radii begins with white space, with `round` or not at all. -/
theorem RoundText.noCalc {os : List Tok} {o : Sides Corner} (h : RoundText os o) :
    parseCalc os = (Option.none, os) := by
  have gap : ∀ (n : Nat) (t : Tok) (l : List Tok), Word "round" t →
      parseCalc (spaces n ++ t :: l) = (Option.none, spaces n ++ t :: l) := by
    intro n t l ht
    cases n with
    | zero => cases ht; rfl
    | succ n => rfl
  cases h with
  | none n => cases n <;> rfl
  | one n m k ht hv => exact gap _ _ _ ht
  | two n m k j i ht hv hu => exact gap _ _ _ ht

theorem side_text {d : Rat} {ts : List Tok} {c : Calc} (h : SideText d ts c) (r : List Tok) :
    side (.one (.val (.percent d))) (ts ++ r) = some (c, r) := by
  cases h with
  | @auto t n ht =>
    rw [List.append_assoc]
    unfold side
    rw [eatWs_replicate, List.singleton_append, eatWs_cons ht.ne_ws, skipIdent_word ht,
      if_pos (by decide +kernel)]
  | @value t c n hc =>
    rw [List.append_assoc]
    unfold side
    rw [eatWs_replicate, List.singleton_append, eatWs_cons (calc_ne_ws hc)]
    have : skipIdent "auto".toList (t :: r) = none := by
      cases t with
      | ident w => exact absurd rfl (calc_not_ident hc w)
      | _ => rfl
    simp only [this, hc r]

theorem value_text {ts : List Tok} {c : Calc} (h : ValueText ts c) (r : List Tok) :
    parseCalc (eatWs (ts ++ r)) = (some c, r) := by
  cases h with
  | mk n hc =>
    rw [List.append_assoc, eatWs_replicate, List.singleton_append, eatWs_cons (calc_ne_ws hc), hc]

theorem onePoint_text {ts us : List Tok} {x y : Calc} (hx : ValueText ts x) (hy : ValueText us y)
    (n : Nat) (r : List Tok) (hr : eatWs r = r) :
    onePoint (ts ++ us ++ spaces n ++ r) = some ((x, y), r) := by
  unfold onePoint
  rw [List.append_assoc, List.append_assoc, value_text hx]
  simp only [value_text hy, eatWs_replicate, hr]

theorem PointsText.ne_nil {ts : List Tok} {ps : List (Calc × Calc)} (h : PointsText ts ps) :
    ts ≠ [] ∧ ps ≠ [] := by
  cases h with
  | one n hx hy => cases hx; simp
  | cons n hx hy => cases hx; simp

theorem morePoints_text {ts : List Tok} {ps : List (Calc × Calc)} (h : PointsText ts ps) :
    ∀ n, ts.length ≤ n → morePoints (n + 1) (.comma :: ts) = some ps := by
  induction h with
  | @one ts x us y k hx hy =>
    intro n _
    have ne := (PointsText.one k hx hy).ne_nil.1
    have h1 := onePoint_text hx hy k [] rfl
    rw [List.append_nil] at h1
    unfold morePoints
    rw [if_neg (by simpa using ne), h1]
    cases n <;> rfl
  | @cons ts x us y vs ps k hx hy hv ih =>
    intro n hn
    have ne := (PointsText.cons k hx hy hv).ne_nil.1
    unfold morePoints
    rw [if_neg (by simpa using ne), onePoint_text hx hy k (.comma :: vs) rfl]
    cases n with
    | zero => simp at hn
    | succ n =>
      have : vs.length ≤ n := by simp at hn; omega
      simp only [ih n this, Option.map_some]

theorem ValueText.parseRule {ts : List Tok} {c : Calc} (h : ValueText ts c) (r : List Tok) :
    parseRule (ts ++ r) = (none, ts ++ r) := by
  cases h with
  | @mk t c n hc =>
    cases n with
    | succ n => rfl
    | zero =>
      cases t with
      | ident w => exact absurd rfl (calc_not_ident hc w)
      | _ => rfl

theorem readPolygon_text {rs ts : List Tok} {rule : Rule} {ps : List (Calc × Calc)}
    (hr : RuleText rs rule) (h : PointsText ts ps) :
    readPolygon (rs ++ ts) = some (.polygon rule ps) := by
  have word : ∀ (k : String) (t : Tok) (v : Rule), kwLookup [("nonzero", Rule.nonzero),
      ("evenodd", .evenodd)] k.toList = some v → Word k t →
      readPolygon ([t, .comma] ++ ts) = some (.polygon v ps) := by
    intro k t v hk ht
    unfold readPolygon parseRule
    simp only [List.cons_append, List.nil_append, parseKw_word ht, hk, Option.isSome_some, if_true]
    rw [List.length_cons, morePoints_text h _ (Nat.le_refl _)]
    obtain ⟨p, ps, rfl⟩ := List.exists_cons_of_ne_nil h.ne_nil.2
    rfl
  cases hr with
  | nonzero ht => exact word _ _ _ (by decide +kernel) ht
  | evenodd ht => exact word _ _ _ (by decide +kernel) ht
  | none =>
    rw [List.nil_append]
    have ne := h.ne_nil.1
    cases h with
    | @one ts x us y k hx hy =>
      have h1 := onePoint_text hx hy k [] rfl
      rw [List.append_nil] at h1
      have h2 := hx.parseRule (us ++ spaces k)
      rw [← List.append_assoc] at h2
      unfold readPolygon
      rw [h2]
      simp only [h1]
      rw [if_neg (by simpa using ne)]
      rfl
    | @cons ts x us y vs ps k hx hy hv =>
      have h1 := onePoint_text hx hy k (.comma :: vs) rfl
      have h2 := hx.parseRule (us ++ (spaces k ++ .comma :: vs))
      rw [← List.append_assoc, ← List.append_assoc] at h2
      unfold readPolygon
      rw [h2]
      simp only [h1]
      rw [if_neg (by simpa using ne), List.length_cons, morePoints_text hv _ (Nat.le_refl _)]
      rfl

theorem oneText_text {svg : List Char → Bool} {s : List Char} (hs : svg s = true) (n : Nat)
    (r : List Tok) : oneText svg (spaces n ++ .str s :: r) = some (s, r) := by
  unfold oneText
  rw [eatWs_replicate]
  simp only [eatWs, hs, if_true]

theorem moreTexts_spaces (svg : List Char → Bool) (n m : Nat) :
    moreTexts svg n (spaces m) = some [] := by
  cases n <;> cases m <;> rfl

theorem readPath_text {svg : List Char → Bool} {rs : List Tok} {rule : Rule} {s : List Char}
    (hr : RuleText rs rule) (hs : svg s = true) (n m : Nat) :
    readPath svg (rs ++ (spaces n ++ .str s :: spaces m)) = some (.path rule [s]) := by
  have word : ∀ (k : String) (t : Tok) (v : Rule), kwLookup [("nonzero", Rule.nonzero),
      ("evenodd", .evenodd)] k.toList = some v → Word k t →
      readPath svg ([t, .comma] ++ (spaces n ++ .str s :: spaces m)) = some (.path v [s]) := by
    intro k t v hk ht
    unfold readPath parseRule
    simp only [List.cons_append, List.nil_append, parseKw_word ht, hk, Option.isSome_some, if_true]
    rw [List.length_cons]
    unfold moreTexts
    rw [if_neg (by simp), oneText_text hs]
    simp only [moreTexts_spaces, Option.map_some]
  cases hr with
  | nonzero ht => exact word _ _ _ (by decide +kernel) ht
  | evenodd ht => exact word _ _ _ (by decide +kernel) ht
  | none =>
    rw [List.nil_append]
    have : parseRule (spaces n ++ .str s :: spaces m) = (none, spaces n ++ .str s :: spaces m) := by
      cases n <;> rfl
    unfold readPath
    rw [this]
    simp only [oneText_text hs, moreTexts_spaces, Option.map_some]
    rw [if_neg (by simp)]

theorem parseRadius_tok {t : Tok} {v : Radius} (h : RadiusText [t] v) (r : List Tok) :
    parseRadius (t :: r) = (some v, r) := by
  have word : ∀ (k : String) (v : Radius), kwLookup [("closest-side", Radius.closestSide),
      ("farthest-side", .farthestSide)] k.toList = some v → Word k t →
      parseRadius (t :: r) = (some v, r) := by
    intro k v hk hw
    have : parseCalc (t :: r) = (none, t :: r) := by cases hw; rfl
    unfold parseRadius
    simp only [this]
    rw [parseKw_word hw, hk]
    rfl
  cases h with
  | length h => simp only [parseRadius, h r]
  | closest h => exact word _ .closestSide (by decide +kernel) h
  | farthest h => exact word _ .farthestSide (by decide +kernel) h

theorem radius_ne_ws {t : Tok} {v : Radius} (h : RadiusText [t] v) : t ≠ .ws := by
  cases h with
  | length h => exact calc_ne_ws h
  | closest h => exact h.ne_ws
  | farthest h => exact h.ne_ws

theorem readEllipse_text {t u : Tok} {rx ry : Radius} {as : List Tok} {is : List Item}
    {p : Position} (n : Nat) (hx : RadiusText [t] rx) (hy : RadiusText [u] ry) (ha : AtText as is p)
    (hr : Readable is) : readEllipse (t :: (spaces n ++ u :: as)) = some (.ellipse rx ry p) := by
  unfold readEllipse radiiPart
  simp only [parseRadius_tok hx, eatWs_replicate, eatWs_cons (radius_ne_ws hy), parseRadius_tok hy,
    atPosition_text ha hr]

theorem readEllipse_at {as : List Tok} {is : List Item}
    {p : Position} (ha : AtText as is p) (hr : Readable is) :
    readEllipse as = some (.ellipse .closestSide .closestSide p) := by
  unfold readEllipse radiiPart
  simp only [ha.noRadius, atPosition_text ha hr]

theorem readInset_text {t : Tok} {c : Calc} {rs : List Tok} {o : Sides Corner} {radii : Radii}
    (hc : Reads parseCalc t c) (hr : RoundText rs o) (ha : radii.all = o) :
    readInset (t :: rs) = some (.inset ⟨c, c, c, c⟩ radii) := by
  unfold readInset parseSides
  simp only [List.isEmpty_cons, Bool.false_eq_true, if_false, hc rs, hr.noCalc, roundPart_text hr ha]

theorem readRect_text {ts rs bs ls os : List Tok} {t r b l : Calc} {o : Sides Corner}
    {radii : Radii} (ht : SideText 0 ts t) (hr : SideText 100 rs r) (hb : SideText 100 bs b)
    (hl : SideText 0 ls l) (ho : RoundText os o) (ha : radii.all = o) :
    readRect (ts ++ (rs ++ (bs ++ (ls ++ os)))) = some (.rect ⟨t, r, b, l⟩ radii) := by
  unfold readRect zero full
  simp only [side_text ht, side_text hr, side_text hb, side_text hl, roundPart_text ho ha]

theorem readXywh_text {xs ys ws hs os : List Tok} {x y w h : Calc} {o : Sides Corner}
    {radii : Radii} (hx : ValueText xs x) (hy : ValueText ys y) (hw : ValueText ws w)
    (hh : ValueText hs h) (ho : RoundText os o) (ha : radii.all = o) :
    readXywh (xs ++ (ys ++ (ws ++ (hs ++ os)))) = some (.xywh x y w h radii) := by
  unfold readXywh
  simp only [value_text hx, value_text hy, value_text hw, value_text hh, roundPart_text ho ha]

/-! ## Shapes and boxes -/

theorem named_other {f : List Char} {k n : String} {read : List Tok → Option Shape}
    (hf : Cased f k.toList) (h : eqCi k.toList n.toList = false) (content r : List Tok) :
    named n read (.func f content :: r) = (none, .func f content :: r) := by
  unfold named
  simp only [hf.eqCi_congr, h, Bool.false_eq_true, if_false]

theorem named_self {f : List Char} {n : String} {read : List Tok → Option Shape}
    (hf : Cased f n.toList) {content : List Tok} {s : Shape} (h : read content = some s)
    (r : List Tok) : named n read (.func f content :: r) = (some s, r) := by
  unfold named
  simp only [eqCi_iff.2 hf, if_true, h]

theorem circle_other {f : List Char} {k : String} (hf : Cased f k.toList)
    (h : eqCi k.toList "circle(".toList = false) (content r : List Tok) :
    parseCircle (.func f content :: r) = (none, .func f content :: r) := by
  unfold parseCircle
  simp only [hf.eqCi_congr, h, Bool.false_eq_true, if_false]

theorem parseCircle_text {f : List Char} {rs as : List Tok} {r : Radius} {is : List Item}
    {p : Position} (hf : Cased f "circle(".toList) (hr : RadiusText rs r) (ha : AtText as is p)
    (hi : Readable is) (l : List Tok) :
    parseCircle (.func f (rs ++ as) :: l) = (some ⟨r, p⟩, l) := by
  unfold parseCircle
  simp only [eqCi_iff.2 hf, if_true, parseRadius_text hr ha.noRadius, atPosition_text ha hi]

theorem parseShape_text {svg : List Char → Bool} {t : Tok} {s : Shape} (h : ShapeText svg t s)
    (l : List Tok) : parseShape svg (t :: l) = (some s, l) := by
  cases h with
  | circle hf hr ha hi =>
    simp only [parseShape, firstOf, parseCircle_text hf hr ha hi, Option.map_some]
  | ellipse n hf hx hy ha hi =>
    simp only [parseShape, firstOf, circle_other hf (by decide +kernel), Option.map_none,
      named_self hf (readEllipse_text n hx hy ha hi)]
  | ellipseAt hf ha hi =>
    simp only [parseShape, firstOf, circle_other hf (by decide +kernel), Option.map_none,
      named_self hf (readEllipse_at ha hi)]
  | inset hf hc hr ha =>
    simp only [parseShape, firstOf, circle_other hf (by decide +kernel), Option.map_none,
      named_other hf (show eqCi "inset(".toList "ellipse(".toList = false by decide +kernel),
      named_self hf (readInset_text hc hr ha)]
  | path n m hf hr hs =>
    simp only [parseShape, firstOf, circle_other hf (by decide +kernel), Option.map_none,
      named_other hf (show eqCi "path(".toList "ellipse(".toList = false by decide +kernel),
      named_other hf (show eqCi "path(".toList "inset(".toList = false by decide +kernel),
      named_self hf (readPath_text hr hs n m)]
  | polygon hf hr hp =>
    simp only [parseShape, firstOf, circle_other hf (by decide +kernel), Option.map_none,
      named_other hf (show eqCi "polygon(".toList "ellipse(".toList = false by decide +kernel),
      named_other hf (show eqCi "polygon(".toList "inset(".toList = false by decide +kernel),
      named_other hf (show eqCi "polygon(".toList "path(".toList = false by decide +kernel),
      named_self hf (readPolygon_text hr hp)]
  | rect hf ht hr hb hl ho ha =>
    simp only [parseShape, firstOf, circle_other hf (by decide +kernel), Option.map_none,
      named_other hf (show eqCi "rect(".toList "ellipse(".toList = false by decide +kernel),
      named_other hf (show eqCi "rect(".toList "inset(".toList = false by decide +kernel),
      named_other hf (show eqCi "rect(".toList "path(".toList = false by decide +kernel),
      named_other hf (show eqCi "rect(".toList "polygon(".toList = false by decide +kernel),
      named_self hf (readRect_text ht hr hb hl ho ha)]
  | xywh hf hx hy hw hh ho ha =>
    simp only [parseShape, firstOf, circle_other hf (by decide +kernel), Option.map_none,
      named_other hf (show eqCi "xywh(".toList "ellipse(".toList = false by decide +kernel),
      named_other hf (show eqCi "xywh(".toList "inset(".toList = false by decide +kernel),
      named_other hf (show eqCi "xywh(".toList "path(".toList = false by decide +kernel),
      named_other hf (show eqCi "xywh(".toList "polygon(".toList = false by decide +kernel),
      named_other hf (show eqCi "xywh(".toList "rect(".toList = false by decide +kernel),
      named_self hf (readXywh_text hx hy hw hh ho ha)]

theorem ShapeText.func {svg : List Char → Bool} {t : Tok} {s : Shape} (h : ShapeText svg t s) :
    ∃ f content, t = .func f content := by
  cases h <;> exact ⟨_, _, rfl⟩

theorem parseShape_ident (svg : List Char → Bool) {l : List Tok}
    (h : ∀ f c r, l ≠ .func f c :: r) : parseShape svg l = (none, l) := by
  have hc : parseCircle l = (none, l) := by
    unfold parseCircle
    split
    · exact absurd rfl (h _ _ _)
    · rfl
  have hn : ∀ n read, named n read l = (none, l) := by
    intro n read
    unfold named
    split
    · exact absurd rfl (h _ _ _)
    · rfl
  simp only [parseShape, firstOf, hc, hn, Option.map_none]

theorem parseBox_text {t : Tok} {b : GBox} (h : BoxText t b) (l : List Tok) :
    parseBox (t :: l) = (some b, l) := by
  have word : ∀ (k : String) (b : GBox), kwLookup [("border-box", GBox.border),
      ("padding-box", .padding), ("content-box", .content), ("margin-box", .margin),
      ("fill-box", .fill), ("stroke-box", .stroke), ("view-box", .view)] k.toList = some b →
      Word k t → parseBox (t :: l) = (some b, l) := by
    intro k b hk hw
    unfold parseBox
    rw [parseKw_word hw, hk]
    rfl
  cases h with
  | border h => exact word _ _ (by decide +kernel) h
  | padding h => exact word _ _ (by decide +kernel) h
  | content h => exact word _ _ (by decide +kernel) h
  | margin h => exact word _ _ (by decide +kernel) h
  | fill h => exact word _ _ (by decide +kernel) h
  | stroke h => exact word _ _ (by decide +kernel) h
  | view h => exact word _ _ (by decide +kernel) h

theorem BoxText.ident {t : Tok} {b : GBox} (h : BoxText t b) : ∃ w, t = .ident w := by
  cases h <;> (rename_i h; cases h; exact ⟨_, rfl⟩)

theorem parseBox_func (f : List Char) (c l : List Tok) :
    parseBox (.func f c :: l) = (none, .func f c :: l) := by
  unfold parseBox parseKw
  rw [skipAny_none _ (fun w r e => by cases e)]

/-- **C214 (in part).** `clip-path` is the shape and the box that are written, in either order:
the border box without a box, the whole box without a shape, no clip for `none`.  A circle and an
ellipse have the radii and the centre that are written, `inset()` its distance, `rect()` and
`xywh()` their four values in order, `auto` being the edge of the box; a polygon its points in
order and its rule; corners are rounded as said behind `round`.  Missing: `inset()` and `round`
with more than one value, positions that C173 leaves out, white space before the first radius,
before `evenodd` and between it and its comma. -/
theorem C214_clip_path_partial {svg : List Char → Bool} {ts : List Tok} {c : Option Clip}
    (h : ClipText svg ts c) : declared (parseClipPath svg) ts = some c := by
  unfold declared
  cases h with
  | @none t h =>
    have hs : ∀ l, parseShape svg (t :: l) = (Option.none, t :: l) := fun l =>
      parseShape_ident svg (fun f c r e => by cases h; cases e)
    have hb : parseBox [t] = (Option.none, [t]) := by
      unfold parseBox
      rw [parseKw_word h, show kwLookup [("border-box", GBox.border),
        ("padding-box", .padding), ("content-box", .content), ("margin-box", .margin),
        ("fill-box", .fill), ("stroke-box", .stroke), ("view-box", .view)] "none".toList =
        Option.none by decide +kernel]
      rfl
    have hk : parseKw [("none", (Option.none : Option Clip))] [t] = (some Option.none, []) := by
      rw [parseKw_word h, show kwLookup [("none", (Option.none : Option Clip))] "none".toList =
        some Option.none by decide +kernel]
      rfl
    rw [eatWs_cons h.ne_ws]
    simp [parseClipPath, parseClip, hb, hs, hk]
  | @box t b h =>
    obtain ⟨w, rfl⟩ := h.ident
    have hs : parseShape svg [] = (Option.none, []) :=
      parseShape_ident svg (fun f c r e => by cases e)
    simp [eatWs, parseClipPath, parseClip, parseBox_text h, hs]
  | @shape t s h =>
    have hn : parseBox [] = (Option.none, []) := rfl
    obtain ⟨f, content, rfl⟩ := h.func
    simp [eatWs, parseClipPath, parseClip, parseBox_func, parseShape_text h, hn]
  | @shapeBox t s u b h hb =>
    obtain ⟨f, content, rfl⟩ := h.func
    simp [eatWs, parseClipPath, parseClip, parseBox_func, parseShape_text h, parseBox_text hb]
  | @boxShape u b t s hb h =>
    obtain ⟨w, rfl⟩ := hb.ident
    simp [eatWs, parseClipPath, parseClip, parseBox_text hb, parseShape_text h]

theorem reads_calc {t : Tok} {c : Calc} (h : declared parseCalc [t] = some c) (ht : t ≠ .ws) :
    Reads parseCalc t c :=
  (declared_one (parseCalcOf_oneTok parsePL_oneTok) ht).1 h

theorem reads_pl {t : Tok} {v : PL} (h : declared parsePL [t] = some v) (ht : t ≠ .ws) :
    Reads parsePL t v :=
  (declared_one parsePL_oneTok ht).1 h

/-- `padding-box POLYGON(evenodd, 0% 10px , 50% 100% )` -/
example (svg : List Char → Bool) : ∃ a b c d, ClipText svg
    [.ident "padding-box".toList, .func "POLYGON(".toList [.ident "evenodd".toList, .comma, .ws,
      .percent "0%".toList, .ws, .dim "10px".toList, .ws, .comma, .ws, .percent "50%".toList, .ws,
      .percent "100%".toList, .ws]]
    (some ⟨some (.polygon .evenodd [(a, b), (c, d)]), .padding⟩) := by
  refine ⟨.one (.val (.percent 0)), .one (.val (.length (.abs 10 .px))), .one (.val (.percent 50)),
    .one (.val (.percent 100)), .boxShape (.padding (.mk (Cased.refl _)))
      (.polygon (eqCi_iff.1 (by decide +kernel)) (.evenodd (.mk (Cased.refl _)))
        (.cons 1 (.mk 1 ?_) (.mk 1 ?_) (.one 1 (.mk 1 ?_) (.mk 1 ?_))))⟩ <;>
    exact reads_calc (by decide +kernel) (by simp)

/-- `rect(auto 50% 20px auto round 5px / 10%) view-box` -/
example (svg : List Char → Bool) : ∃ r b o radii, ClipText svg
    [.func "rect(".toList [.ident "auto".toList, .ws, .percent "50%".toList, .ws,
      .dim "20px".toList, .ws, .ident "auto".toList, .ws, .ident "round".toList, .ws,
      .dim "5px".toList, .ws, .delim ['/'], .ws, .percent "10%".toList], .ident "view-box".toList]
    (some ⟨some (.rect ⟨.one (.val (.percent 0)), r, b, o⟩ radii), .view⟩) := by
  refine ⟨.one (.val (.percent 50)), .one (.val (.length (.abs 20 .px))),
    .one (.val (.percent 0)), ⟨.percent 10, .length (.abs 5 .px), .length (.abs 5 .px), .percent 10,
      .percent 10, .length (.abs 5 .px), .length (.abs 5 .px), .percent 10⟩,
    .shapeBox (.rect (Cased.refl _) (.auto 0 (.mk (Cased.refl _))) (.value 1 ?_) (.value 1 ?_)
      (.auto 1 (.mk (Cased.refl _))) (.two 1 1 1 1 0 (.mk (Cased.refl _)) ?_ ?_) rfl)
      (.view (.mk (Cased.refl _)))⟩
  · exact reads_calc (by decide +kernel) (by simp)
  · exact reads_calc (by decide +kernel) (by simp)
  · exact reads_pl (by decide +kernel) (by simp)
  · exact reads_pl (by decide +kernel) (by simp)

/-! ## What is not read, and what is though it should not be -/

theorem declared_alone {svg : List Char → Bool} {f : List Char} {content : List Tok}
    (h : ∀ l, parseShape svg (.func f content :: l) = (none, .func f content :: l)) :
    declared (parseClipPath svg) [.func f content] = none := by
  have hk : parseKw [("none", (Option.none : Option Clip))] [.func f content] =
      (none, [.func f content]) := by
    unfold parseKw
    rw [skipAny_none _ (fun w r e => by cases e)]
  simp [declared, eatWs, parseClipPath, parseClip, parseBox_func, h, hk]

theorem named_fail {n : String} {read : List Tok → Option Shape} {content : List Tok}
    (h : read content = none) (f : List Char) (r : List Tok) :
    named n read (.func f content :: r) = (none, .func f content :: r) := by
  unfold named
  simp only [h]
  split <;> rfl

/-- `inset()` takes one value only: with a second one, and white space between them, it is
nothing. -/
theorem C214_inset_fails (svg : List Char → Bool) {f : List Char} (hf : Cased f "inset(".toList)
    {t u : Tok} {c d : Calc} (ht : Reads parseCalc t c) (hu : Reads parseCalc u d) (n : Nat)
    (r : List Tok) :
    declared (parseClipPath svg) [.func f (t :: (spaces (n + 1) ++ u :: r))] = none := by
  have hr : readInset (t :: (spaces (n + 1) ++ u :: r)) = none := by
    have h1 : parseCalc (spaces (n + 1) ++ u :: r) = (none, spaces (n + 1) ++ u :: r) := rfl
    have h2 : roundPart (spaces (n + 1) ++ u :: r) = (noRadii, u :: r) := by
      unfold roundPart
      rw [eatWs_replicate, eatWs_cons (calc_ne_ws hu)]
      have : skipIdent "round".toList (u :: r) = none := by
        cases u with
        | ident w => exact absurd rfl (calc_not_ident hu w)
        | _ => rfl
      simp only [this]
    unfold readInset parseSides
    simp only [List.isEmpty_cons, Bool.false_eq_true, if_false, ht _, h1, h2]
  refine declared_alone fun l => ?_
  simp only [parseShape, firstOf, circle_other hf (by decide +kernel), Option.map_none,
    named_other hf (show eqCi "inset(".toList "ellipse(".toList = false by decide +kernel),
    named_fail hr,
    named_other hf (show eqCi "inset(".toList "path(".toList = false by decide +kernel),
    named_other hf (show eqCi "inset(".toList "polygon(".toList = false by decide +kernel),
    named_other hf (show eqCi "inset(".toList "rect(".toList = false by decide +kernel),
    named_other hf (show eqCi "inset(".toList "xywh(".toList = false by decide +kernel)]

/-- So do the corners behind `round`: `xywh(0 0 50% 50% round 1px 2px)` is nothing. -/
theorem C214_round_fails (svg : List Char → Bool) {f : List Char} (hf : Cased f "xywh(".toList)
    {xs ys ws hs : List Tok} {x y w h : Calc} (hx : ValueText xs x) (hy : ValueText ys y)
    (hw : ValueText ws w) (hh : ValueText hs h) {o t u : Tok} {a b : PL} (ho : Word "round" o)
    (ht : Reads parsePL t a) (hu : Reads parsePL u b) (i j k : Nat) (r : List Tok) :
    declared (parseClipPath svg) [.func f (xs ++ (ys ++ (ws ++ (hs ++ (spaces i ++ o ::
      (spaces j ++ t :: (spaces (k + 1) ++ u :: r)))))))] = none := by
  have hu' : u ≠ slash := by
    rintro rfl
    have := hu []
    rw [parsePL_slash] at this
    cases this
  have hp : parseRadii (t :: (spaces (k + 1) ++ u :: r)) = (some (.corners a a a a), u :: r) := by
    have h1 : parsePL (spaces (k + 1) ++ u :: r) = (none, spaces (k + 1) ++ u :: r) := rfl
    unfold parseRadii
    simp only [List.isEmpty_cons, Bool.false_eq_true, if_false, ht _, h1]
    unfold postSlash
    rw [eatWs_replicate, eatWs_cons (readsPL_ne_ws hu)]
    cases u with
    | delim s =>
      simp only
      rw [if_neg]
      intro e
      exact hu' (by rw [e]; rfl)
    | _ => rfl
  have hr : readXywh (xs ++ (ys ++ (ws ++ (hs ++ (spaces i ++ o ::
      (spaces j ++ t :: (spaces (k + 1) ++ u :: r))))))) = none := by
    have h2 : roundPart (spaces i ++ o :: (spaces j ++ t :: (spaces (k + 1) ++ u :: r))) =
        (.corners a a a a, u :: r) := by
      unfold roundPart
      rw [eatWs_replicate, eatWs_cons ho.ne_ws, skipIdent_word ho, if_pos (by decide +kernel)]
      simp only [eatWs_replicate, eatWs_cons (readsPL_ne_ws ht), hp, eatWs_cons (readsPL_ne_ws hu)]
    unfold readXywh
    simp only [value_text hx, value_text hy, value_text hw, value_text hh, h2]
  refine declared_alone fun l => ?_
  simp only [parseShape, firstOf, circle_other hf (by decide +kernel), Option.map_none,
    named_other hf (show eqCi "xywh(".toList "ellipse(".toList = false by decide +kernel),
    named_fail hr,
    named_other hf (show eqCi "xywh(".toList "path(".toList = false by decide +kernel),
    named_other hf (show eqCi "xywh(".toList "polygon(".toList = false by decide +kernel),
    named_other hf (show eqCi "xywh(".toList "rect(".toList = false by decide +kernel),
    named_other hf (show eqCi "xywh(".toList "inset(".toList = false by decide +kernel)]

/-- A rule with white space before its comma is nothing, whatever points follow:
`polygon(evenodd , 0 0, 1px 0, 0 1px)`. -/
theorem C214_rule_fails (svg : List Char → Bool) {f : List Char} (hf : Cased f "polygon(".toList)
    {t : Tok} {rule : Rule} (ht : RuleText [t, .comma] rule) (n : Nat) (r : List Tok) :
    declared (parseClipPath svg) [.func f (t :: (spaces (n + 1) ++ .comma :: r))] = none := by
  have hr : readPolygon (t :: (spaces (n + 1) ++ .comma :: r)) = none := by
    have : parseRule (t :: (spaces (n + 1) ++ .comma :: r)) =
        (some rule, spaces (n + 1) ++ .comma :: r) := by
      cases ht with
      | nonzero h =>
        unfold parseRule
        rw [parseKw_word h, show kwLookup [("nonzero", Rule.nonzero), ("evenodd", .evenodd)]
          "nonzero".toList = some .nonzero by decide +kernel]
        rfl
      | evenodd h =>
        unfold parseRule
        rw [parseKw_word h, show kwLookup [("nonzero", Rule.nonzero), ("evenodd", .evenodd)]
          "evenodd".toList = some .evenodd by decide +kernel]
        rfl
    unfold readPolygon
    rw [this]
    rfl
  refine declared_alone fun l => ?_
  simp only [parseShape, firstOf, circle_other hf (by decide +kernel), Option.map_none,
    named_other hf (show eqCi "polygon(".toList "ellipse(".toList = false by decide +kernel),
    named_fail hr,
    named_other hf (show eqCi "polygon(".toList "path(".toList = false by decide +kernel),
    named_other hf (show eqCi "polygon(".toList "xywh(".toList = false by decide +kernel),
    named_other hf (show eqCi "polygon(".toList "rect(".toList = false by decide +kernel),
    named_other hf (show eqCi "polygon(".toList "inset(".toList = false by decide +kernel)]

/-- Anything is accepted behind the points of a polygon, and a path without a text:
`polygon(0 0 abc)` and `path(evenodd)`. -/
theorem C214_accepts_fails (svg : List Char → Bool) {ts us : List Tok} {x y : Calc}
    (hx : ValueText ts x) (hy : ValueText us y) (n : Nat) (w : List Char) (r : List Tok) :
    declared (parseClipPath svg) [.func "polygon(".toList (ts ++ us ++ spaces n ++ .ident w :: r)]
      = some (some ⟨some (.polygon .nonzero [(x, y)]), .border⟩) ∧
    declared (parseClipPath svg) [.func "path(".toList [.ident "evenodd".toList]]
      = some (some ⟨some (.path .evenodd []), .border⟩) := by
  have hn : parseBox [] = (Option.none, []) := rfl
  constructor
  · have h1 := onePoint_text hx hy n (.ident w :: r) rfl
    have h2 := hx.parseRule (us ++ (spaces n ++ .ident w :: r))
    rw [← List.append_assoc, ← List.append_assoc] at h2
    have hr : readPolygon (ts ++ us ++ spaces n ++ .ident w :: r) =
        some (.polygon .nonzero [(x, y)]) := by
      unfold readPolygon
      rw [h2]
      simp only [h1]
      rw [if_neg (by simp)]
      rfl
    have hf : Cased "polygon(".toList "polygon(".toList := Cased.refl _
    have hs : ∀ l, parseShape svg (.func "polygon(".toList (ts ++ us ++ spaces n ++ .ident w :: r)
        :: l) = (some (.polygon .nonzero [(x, y)]), l) := by
      intro l
      simp only [parseShape, firstOf, circle_other hf (by decide +kernel), Option.map_none,
        named_other hf (show eqCi "polygon(".toList "ellipse(".toList = false by decide +kernel),
        named_other hf (show eqCi "polygon(".toList "inset(".toList = false by decide +kernel),
        named_other hf (show eqCi "polygon(".toList "path(".toList = false by decide +kernel),
        named_self hf hr]
    unfold declared
    rw [show ∀ f c, eatWs [Tok.func f c] = [Tok.func f c] from fun _ _ => rfl]
    unfold parseClipPath parseClip
    simp only [List.isEmpty_cons, Bool.false_eq_true, if_false, parseBox_func, hs, hn,
      Option.isSome_some, Option.isNone_none, Option.isNone_some, Bool.and_true, Bool.and_self,
      if_true, Bool.false_and, Option.getD_none]
  · have hr : readPath svg [.ident "evenodd".toList] = some (.path .evenodd []) := by
      unfold readPath parseRule
      rw [parseKw_word (.mk (Cased.refl _) : Word "evenodd" (.ident "evenodd".toList)),
        show kwLookup [("nonzero", Rule.nonzero), ("evenodd", .evenodd)]
          "evenodd".toList = some .evenodd by decide +kernel]
      rfl
    have hf : Cased "path(".toList "path(".toList := Cased.refl _
    have hs : ∀ l, parseShape svg (.func "path(".toList [.ident "evenodd".toList] :: l) =
        (some (.path .evenodd []), l) := by
      intro l
      simp only [parseShape, firstOf, circle_other hf (by decide +kernel), Option.map_none,
        named_other hf (show eqCi "path(".toList "ellipse(".toList = false by decide +kernel),
        named_other hf (show eqCi "path(".toList "inset(".toList = false by decide +kernel),
        named_self hf hr]
    unfold declared
    rw [show ∀ f c, eatWs [Tok.func f c] = [Tok.func f c] from fun _ _ => rfl]
    unfold parseClipPath parseClip
    simp only [List.isEmpty_cons, Bool.false_eq_true, if_false, parseBox_func, hs, hn,
      Option.isSome_some, Option.isNone_none, Option.isNone_some, Bool.and_true, Bool.and_self,
      if_true, Bool.false_and, Option.getD_none]

end Verif.Clip
