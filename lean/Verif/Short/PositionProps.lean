import Verif.Short.Lemmas

/-!
# Positions (C173) and circles (C174)
-/

namespace Verif.Short
open Verif.Values

/-! ## Items and their texts -/

/-- How the parts of a position are written. -/
inductive ItemTok : Item → Tok → Prop
  | left : Word "left" t → ItemTok .left t
  | center : Word "center" t → ItemTok .center t
  | right : Word "right" t → ItemTok .right t
  | top : Word "top" t → ItemTok .top t
  | bottom : Word "bottom" t → ItemTok .bottom t
  | offset : Reads parseCalc t c → ItemTok (.offset c) t

/-- Items with any white space around them. -/
inductive ItemsText : List Item → List Tok → Prop
  | nil (n : Nat) : ItemsText [] (List.replicate n .ws)
  | cons (n : Nat) : ItemTok i t → ItemsText is ts →
      ItemsText (i :: is) (List.replicate n .ws ++ t :: ts)

theorem calc_not_ident {t : Tok} {c : Calc} (h : Reads parseCalc t c) : ∀ w, t ≠ .ident w := by
  rintro w rfl
  have := h []
  rw [parseCalc_ident] at this
  cases this

theorem parseItem_tok {i : Item} {t : Tok} (h : ItemTok i t) (r : List Tok) :
    parseItem (t :: r) = (some i, r) := by
  have word : ∀ (k : String) (i : Item), kwLookup [("left", Item.left), ("center", .center),
      ("right", .right), ("top", .top), ("bottom", .bottom)] k.toList = some i → Word k t →
      parseItem (t :: r) = (some i, r) := by
    intro k i hk hw
    unfold parseItem
    rw [skipAny_word hw, hk]
    rfl
  cases h with
  | left h => exact word _ _ (by decide +kernel) h
  | center h => exact word _ _ (by decide +kernel) h
  | right h => exact word _ _ (by decide +kernel) h
  | top h => exact word _ _ (by decide +kernel) h
  | bottom h => exact word _ _ (by decide +kernel) h
  | offset h =>
    unfold parseItem
    rw [skipAny_none _ (fun w r' e => calc_not_ident h w (List.cons.inj e).1)]
    simp only [h r]

theorem ItemTok.ne_ws {i : Item} {t : Tok} (h : ItemTok i t) : t ≠ .ws := by
  rintro rfl
  have := parseItem_tok h []
  cases this

theorem eatWs_replicate (n : Nat) (l : List Tok) : eatWs (List.replicate n .ws ++ l) = eatWs l := by
  induction n with
  | zero => rfl
  | succ n ih => rw [List.replicate_succ, List.cons_append, eatWs, ih]

theorem eatWs_cons {t : Tok} (h : t ≠ .ws) (l : List Tok) : eatWs (t :: l) = t :: l := by
  cases t with
  | ws => exact absurd rfl h
  | _ => rfl

theorem items_text {is : List Item} {ts : List Tok} (h : ItemsText is ts) (n : Nat)
    (hn : is.length ≤ n) : items n (eatWs ts) = (is, []) := by
  induction h generalizing n with
  | nil k =>
    have : eatWs (List.replicate k .ws) = [] := by
      have := eatWs_replicate k []
      rwa [List.append_nil] at this
    rw [this]
    cases n <;> rfl
  | @cons i t is ts k h _ ih =>
    cases n with
    | zero => simp at hn
    | succ n =>
      rw [eatWs_replicate, eatWs_cons h.ne_ws]
      simp only [items, eatWs_cons h.ne_ws, parseItem_tok h, ih n (by simpa using hn)]

theorem parsePosition_text {is : List Item} {ts : List Tok} (h : ItemsText is ts)
    (hn : is.length ≤ 4) : parsePosition (eatWs ts) = (positionOf is, []) := by
  unfold parsePosition
  rw [items_text h 4 hn]

/-! ## What the items mean -/

theorem PositionText.short {is : List Item} {p : Position} (h : PositionText is p) :
    is.length ≤ 4 := by
  have hl : ∀ {is h x}, HPair is h x → is.length ≤ 2 := by intro is h x hh; cases hh <;> simp
  have vl : ∀ {is v y}, VPair is v y → is.length ≤ 2 := by intro is v y hh; cases hh <;> simp
  cases h with
  | horizontal => simp
  | vertical => simp
  | two => simp
  | pairs a b => have := hl a; have := vl b; simp; omega
  | swapped a b => have := hl a; have := vl b; simp; omega

theorem positionOf_text {is : List Item} {p : Position} (h : PositionText is p)
    (h2 : ∀ a b, is = [a, b] → a ≠ .top ∧ a ≠ .bottom)
    (h3 : ∀ a c, is = [a, .offset c, .center] → a ≠ .top ∧ a ≠ .bottom) :
    positionOf is = some p := by
  cases h with
  | horizontal h =>
    cases h with
    | side h => cases h <;> rfl
    | center => rfl
    | offset => rfl
  | vertical h => cases h <;> rfl
  | two a b =>
    cases a with
    | side a =>
      cases b with
      | side b => cases a <;> cases b <;> rfl
      | center => cases a <;> rfl
      | offset => cases a <;> rfl
    | center =>
      cases b with
      | side b => cases b <;> rfl
      | center => rfl
      | offset => rfl
    | offset =>
      cases b with
      | side b => cases b <;> rfl
      | center => rfl
      | offset => rfl
  | pairs a b =>
    cases a with
    | center =>
      cases b with
      | center => rfl
      | side b => cases b <;> rfl
      | offset b => cases b <;> rfl
    | side a =>
      cases b with
      | center => cases a <;> rfl
      | side b => cases a <;> cases b <;> rfl
      | offset b => cases a <;> cases b <;> rfl
    | offset a =>
      cases b with
      | center => cases a <;> rfl
      | side b => cases a <;> cases b <;> rfl
      | offset b => cases a <;> cases b <;> rfl
  | swapped a b =>
    cases a with
    | center =>
      cases b with
      | center => rfl
      | side b => cases b <;> first | exact absurd rfl (h2 _ _ rfl).1 | exact absurd rfl (h2 _ _ rfl).2
      | offset b =>
        cases b <;> first | exact absurd rfl (h3 _ _ rfl).1 | exact absurd rfl (h3 _ _ rfl).2
    | side a =>
      cases b with
      | center => cases a <;> rfl
      | side b => cases b <;> first | exact absurd rfl (h2 _ _ rfl).1 | exact absurd rfl (h2 _ _ rfl).2
      | offset b => cases a <;> cases b <;> rfl
    | offset a =>
      cases b with
      | center => cases a <;> rfl
      | side b => cases a <;> cases b <;> rfl
      | offset b => cases a <;> cases b <;> rfl

/-- **C173 (in part).** One to four words and offsets that CSS takes for a position are the
position they say: each axis counts from the side that is named, and from the left and the top
where there is only an offset.  Missing: `top` or `bottom` as the first of two, and as the first
of three with `center` at the end. -/
theorem C173_position_partial {is : List Item} {p : Position} {ts : List Tok}
    (h : PositionText is p) (ht : ItemsText is ts)
    (h2 : ∀ a b, is = [a, b] → a ≠ .top ∧ a ≠ .bottom)
    (h3 : ∀ a c, is = [a, .offset c, .center] → a ≠ .top ∧ a ≠ .bottom) :
    declared parsePosition ts = some p := by
  unfold declared
  rw [parsePosition_text ht h.short, positionOf_text h h2 h3]

/-- `bottom 10px right 20%`, the vertical axis first -/
example : ∃ x y, PositionText [.bottom, .offset y, .right, .offset x] ⟨.right, x, .bottom, y⟩ ∧
    ItemsText [.bottom, .offset y, .right, .offset x]
      [.ident "bottom".toList, .ws, .dim "10px".toList, .ident "RIGHT".toList,
        .percent "20%".toList, .ws] := by
  refine ⟨.one (.val (.percent 20)), .one (.val (.length (.abs 10 .px))),
    .swapped (.offset .right) (.offset .bottom), ?_⟩
  refine .cons 0 (.bottom (.mk (Cased.refl _))) (.cons 1 (.offset ?_)
    (.cons 0 (.right (.mk (eqCi_iff.1 (by decide +kernel)))) (.cons 0 (.offset ?_) (.nil 1))))
  · exact (declared_one (parseCalcOf_oneTok parsePL_oneTok) (by simp)).1 (by decide +kernel)
  · exact (declared_one (parseCalcOf_oneTok parsePL_oneTok) (by simp)).1 (by decide +kernel)

/-- Two words with the vertical one first are not accepted, though CSS has them: `top left`. -/
theorem C173_words_fails {i j : Item} {h : HAnchor} {v : VAnchor} (hv : VSide i v)
    (hh : HPair [j] h zero) {ts : List Tok} (ht : ItemsText [i, j] ts) :
    PositionText [i, j] ⟨h, zero, v, zero⟩ ∧ declared parsePosition ts = none := by
  refine ⟨.swapped hh (.side hv), ?_⟩
  unfold declared
  rw [parsePosition_text ht (by simp)]
  cases hh with
  | center => cases hv <;> rfl
  | side hh => cases hv <;> cases hh <;> rfl

/-- `top 10px center` is at the left, and 10px below the middle, instead of in the middle and 10px
below the top. -/
theorem C173_center_fails {i : Item} {v : VAnchor} {c : Calc} (hv : VSide i v) {ts : List Tok}
    (ht : ItemsText [i, .offset c, .center] ts) :
    PositionText [i, .offset c, .center] ⟨.center, zero, v, c⟩ ∧
      declared parsePosition ts = some ⟨.left, zero, .center, c⟩ := by
  refine ⟨.swapped .center (.offset hv), ?_⟩
  unfold declared
  rw [parsePosition_text ht (by simp)]
  cases hv <;> rfl

/-- What is not a position is accepted: two offsets in a row, and the same axis twice. -/
theorem C173_accepts_fails (c d : Calc) {ts us : List Tok}
    (ht : ItemsText [.left, .top, .offset c, .offset d] ts)
    (hu : ItemsText [.top, .offset c, .bottom, .offset d] us) :
    declared parsePosition ts = some ⟨.left, zero, .top, c⟩ ∧
    declared parsePosition us = some ⟨.left, zero, .bottom, d⟩ ∧
    (∀ p, ¬ PositionText [.left, .top, .offset c, .offset d] p) ∧
    ∀ p, ¬ PositionText [.top, .offset c, .bottom, .offset d] p := by
  refine ⟨?_, ?_, ?_, ?_⟩
  · unfold declared; rw [parsePosition_text ht (by simp)]; rfl
  · unfold declared; rw [parsePosition_text hu (by simp)]; rfl
  · intro p h
    generalize hl : [Item.left, .top, .offset c, .offset d] = l at h
    cases h with
    | horizontal => cases hl
    | vertical => cases hl
    | two => cases hl
    | pairs a b => cases a <;> cases b <;> simp at hl
    | swapped a b => cases a <;> cases b <;> simp at hl
  · intro p h
    generalize hl : [Item.top, .offset c, .bottom, .offset d] = l at h
    cases h with
    | horizontal => cases hl
    | vertical => cases hl
    | two => cases hl
    | pairs a b =>
      cases a <;> cases b <;> simp at hl
      rename HSide _ _ => z
      obtain ⟨rfl, _⟩ := hl
      cases z
    | swapped a b =>
      cases a <;> cases b <;> simp at hl
      rename HSide _ _ => z
      obtain ⟨_, _, rfl, _⟩ := hl
      cases z

/-! ## Circles -/

/-- How a radius is written; `closest-side` need not be. -/
inductive RadiusText : List Tok → Radius → Prop
  | none : RadiusText [] .closestSide
  | length : Reads parseCalc t c → RadiusText [t] (.calc c)
  | closest : Word "closest-side" t → RadiusText [t] .closestSide
  | farthest : Word "farthest-side" t → RadiusText [t] .farthestSide

/-- Where a circle is; in the middle, if that is not said. -/
inductive AtText : List Tok → List Item → Position → Prop
  | none (n : Nat) : AtText (List.replicate n .ws) [] ⟨.center, zero, .center, zero⟩
  | at (n : Nat) : Word "at" t → PositionText is p → ItemsText is ts →
      AtText (List.replicate n .ws ++ t :: ts) is p

theorem parseRadius_text {ts : List Tok} {v : Radius} (h : RadiusText ts v) {r : List Tok}
    (hr : parseRadius r = (none, r)) :
    radiusPart (ts ++ r) = (v, r) := by
  have word : ∀ (k : String) (t : Tok) (v : Radius),
      kwLookup [("closest-side", Radius.closestSide), ("farthest-side", .farthestSide)] k.toList =
        some v → Word k t → parseRadius (t :: r) = (some v, r) := by
    intro k t v hk hw
    have : parseCalc (t :: r) = (none, t :: r) := by cases hw; rfl
    unfold parseRadius
    simp only [this]
    rw [parseKw_word hw, hk]
    rfl
  cases h with
  | none => simp only [List.nil_append, radiusPart, hr]
  | length h => simp only [List.singleton_append, radiusPart, parseRadius, h r]
  | closest h => simp only [List.singleton_append, radiusPart, word _ _ .closestSide (by decide +kernel) h]
  | farthest h => simp only [List.singleton_append, radiusPart, word _ _ .farthestSide (by decide +kernel) h]

theorem parseRadius_ws (r : List Tok) : parseRadius (.ws :: r) = (none, .ws :: r) := rfl

theorem parseRadius_at {t : Tok} (h : Word "at" t) (r : List Tok) :
    parseRadius (t :: r) = (none, t :: r) := by
  have : parseCalc (t :: r) = (none, t :: r) := by cases h; rfl
  unfold parseRadius
  simp only [this]
  rw [parseKw_word h, show kwLookup [("closest-side", Radius.closestSide),
    ("farthest-side", .farthestSide)] "at".toList = none by decide +kernel]
  rfl

theorem AtText.noRadius {ts : List Tok} {is : List Item} {p : Position} (h : AtText ts is p) :
    parseRadius ts = (Option.none, ts) := by
  cases h with
  | none n => cases n <;> rfl
  | «at» n h =>
    cases n with
    | zero => exact parseRadius_at h _
    | succ n => rfl

theorem items_nil : items 4 [] = ([], []) := rfl

theorem atPosition_at {t : Tok} (h : Word "at" t) (n : Nat) {is : List Item} {ts : List Tok}
    (hi : ItemsText is ts) (hn : is.length ≤ 4) :
    atPosition (List.replicate n .ws ++ t :: ts) = ((positionOf is).getD middle, []) := by
  unfold atPosition
  rw [eatWs_replicate, eatWs_cons h.ne_ws, skipIdent_word h, if_pos (by decide +kernel)]
  simp only [parsePosition_text hi hn]
  cases positionOf is <;> rfl

/-- **C174 (in part).** A circle has the radius and the centre that are written, the nearest side
and the middle of the box where they are not.  Missing: the positions C173 leaves out, and white
space at the start. -/
theorem C174_circle_partial {rs as : List Tok} {r : Radius} {is : List Item} {p : Position}
    {name : List Char} (hn : Cased name "circle(".toList) (hr : RadiusText rs r)
    (ha : AtText as is p)
    (h2 : ∀ a b, is = [a, b] → a ≠ .top ∧ a ≠ .bottom)
    (h3 : ∀ a c, is = [a, .offset c, .center] → a ≠ .top ∧ a ≠ .bottom) :
    declared parseCircle [.func name (rs ++ as)] = some ⟨r, p⟩ := by
  have hat : atPosition as = (p, []) := by
    cases ha with
    | none n =>
      have : eatWs (List.replicate n .ws) = [] := by
        have := eatWs_replicate n []
        rwa [List.append_nil] at this
      unfold atPosition
      rw [this]
      rfl
    | «at» n h hp hi =>
      rw [atPosition_at h n hi hp.short, positionOf_text hp h2 h3]
      rfl
  unfold declared parseCircle
  simp only [eatWs, eqCi_iff.2 hn, if_true, parseRadius_text hr ha.noRadius, hat]

/-- `circle(10px at left 20% top)` -/
example : ∃ c x, RadiusText [.dim "10px".toList] (.calc c) ∧
    AtText [.ws, .ident "at".toList, .ws, .ident "left".toList, .percent "20%".toList,
      .ident "top".toList] [.left, .offset x, .top] ⟨.left, x, .top, zero⟩ := by
  refine ⟨.one (.val (.length (.abs 10 .px))), .one (.val (.percent 20)), .length ?_, ?_⟩
  · exact (declared_one (parseCalcOf_oneTok parsePL_oneTok) (by simp)).1 (by decide +kernel)
  · refine .at 1 (.mk (Cased.refl _)) (.pairs (.offset .left) (.side .top))
      (.cons 1 (.left (.mk (Cased.refl _))) (.cons 0 (.offset ?_)
        (.cons 0 (.top (.mk (Cased.refl _))) (.nil 0))))
    exact (declared_one (parseCalcOf_oneTok parsePL_oneTok) (by simp)).1 (by decide +kernel)

/-- A centre that is not read — as `top left` is not — leaves the circle in the middle; so does a
centre that is not there: `circle(at)`. -/
theorem C174_center_fails {i j : Item} {h : HAnchor} {v : VAnchor} (hv : VSide i v)
    (hh : HPair [j] h zero) {t : Tok} (hat : Word "at" t) {ts : List Tok}
    (ht : ItemsText [i, j] ts) :
    declared parseCircle [.func "circle(".toList (t :: ts)] = some ⟨.closestSide, middle⟩ ∧
    declared parseCircle [.func "circle(".toList [t]] = some ⟨.closestSide, middle⟩ := by
  have hc : eqCi "circle(".toList "circle(".toList = true := by decide +kernel
  constructor
  · have h1 := atPosition_at hat 0 ht (by simp)
    have h2 : positionOf [i, j] = none := by
      cases hh with
      | center => cases hv <;> rfl
      | side hh => cases hv <;> cases hh <;> rfl
    rw [h2] at h1
    simp only [List.replicate_zero, List.nil_append, Option.getD_none] at h1
    unfold declared parseCircle
    simp only [eatWs, hc, if_true, radiusPart, parseRadius_at hat, h1]
  · have h1 := atPosition_at hat 0 (.nil 0) (by simp)
    simp only [List.replicate_zero, List.nil_append] at h1
    unfold declared parseCircle
    simp only [eatWs, hc, if_true, radiusPart, parseRadius_at hat, h1]
    rfl

/-- White space in front of the radius makes the circle invalid: `circle( 10px)`. -/
theorem C174_space_fails {t : Tok} {c : Calc} (h : Reads parseCalc t c) (r : List Tok) :
    declared parseCircle [.func "circle(".toList (.ws :: t :: r)] = none := by
  have hc : eqCi "circle(".toList "circle(".toList = true := by decide +kernel
  have hw : t ≠ .ws := (ItemTok.offset h).ne_ws
  have h1 : atPosition (.ws :: t :: r) = (middle, t :: r) := by
    unfold atPosition
    simp only [eatWs, eatWs_cons hw]
    cases t with
    | ident w => exact absurd rfl (calc_not_ident h w)
    | _ => rfl
  unfold declared parseCircle
  simp only [eatWs, hc, if_true, radiusPart, parseRadius_ws, h1]

end Verif.Short
