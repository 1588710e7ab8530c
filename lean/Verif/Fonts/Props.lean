import Verif.Fonts.Lemmas
/-!
# Properties C232–C235: fonts, font sizes, lengths that refer to them, and the style of texts

`Spec.lean` says which face is meant (`RightFace`) and what sizes and lengths mean (`SizeIs`, `Means`).
-/
namespace Verif.Fonts
open Verif.Values (Length Ctx AbsUnit RelUnit worth absTable Monotone resolveLength resolveRel resolveRel_eq nearest64
  nearest64_monotone)

/-- **C232.** Whatever the document and whatever fonts there are, every element and every pseudo-element is set in the
first of its families that can be had in its weight, width and style; these are what it declares, or else its
parent's. -/
theorem C232_face (e : Env) (el : El) {q v : Vals} {d : Decls}
    (h : Within (styleDocument e el) (initialStyled e) q d v) : RightFace e q d v := by
  obtain ⟨hq, root, rfl⟩ := faced h
  have hc := lookup_chosen e (compute e root q d).font
  have hf : (compute e root q d).face = lookup e (compute e root q d).font := compute_faced hq root d
  rw [← hf] at hc
  refine ⟨(compute e root q d).font.weight, ?_, hc⟩
  unfold compute
  cases d.weight with
  | none => exact .same
  | some w => cases w <;> constructor

/-- An environment: 64 subpixels to the pixel; families 0, 1 and 2, of which 1 has no face in weight 700; `ch` is half
the size. -/
def sampleEnv : Env :=
  { near := nearest64, px := fun n => n / 64, round := fun r => r.floor
    metrics := fun _ s => ⟨s / 2, s * 7 / 10, s / 2, s * 6 / 5⟩
    query := fun n q => if n = 0 then some 10 else if n = 1 ∧ q.weight < 600 then some 11 else
      if n = 2 then some (if q.weight = 700 then 22 else 12) else none
    system := none, fallback := 99, bolder := fun n => n + 300, lighter := fun n => n - 300
    smallWidth := 800, smallHeight := 600, largeWidth := 800, largeHeight := 600, dynamicWidth := 800,
    dynamicHeight := 600 }

/-- `html { font: 400 10px 1, 2 }`, in it `b { font-weight: bolder }` and in that `i { font-size: 200% }` with a
pseudo-element. -/
def sampleDoc : El :=
  .mk { families := some [7, 1, 2], size := some (.length (.abs 10 .px)) } []
    [.mk { weight := some .bolder, size := some (.length (.rel 2 .em)), extent := some (.rel 3 .em) } []
      [.mk { size := some (.percent 200) } [{ families := some [5], size := some (.length (.rel 3 .rem)) }] []]]

/-- The values in `sampleDoc`: faces and sizes. -/
def facesOf : Styled → List (Nat × Int)
  | .mk _ v ps ks => (v.face, v.font.size) :: ps.map (fun p => (p.2.face, p.2.font.size)) ++ go ks
where go : List Styled → List (Nat × Int)
  | [] => []
  | k :: ks => facesOf k ++ go ks

/-- Family 7 cannot be had, nor family 1 in bold; family 5 cannot be had at all. -/
example : facesOf (styleDocument sampleEnv sampleDoc) =
    [(11, 640), (22, 1280), (22, 2560), (99, 1920)] := by
  simp only [styleDocument, sampleDoc, styleElement, styleKids, facesOf, facesOf.go]
  decide +kernel

/-- **C232.** What a text falls back to when no family can be had does not depend on its weight: it is false that a bold
text is set in a bold face. -/
theorem C232_weight_fails (e : Env) (f : Font) (w : Nat) (h : ∀ n ∈ f.families, ∀ q, e.query n q = none) :
    lookup e { f with weight := w } = lookup e f := by
  unfold lookup
  have : ∀ q, f.families.findSome? (fun n => e.query n q) = none :=
    fun q => List.findSome?_eq_none_iff.2 fun n hn => h n hn q
  simp only [this]

example : ∀ n ∈ [3, 4], ∀ q, sampleEnv.query n q = none := by
  intro n hn q
  simp only [List.mem_cons, List.not_mem_nil, or_false] at hn
  rcases hn with rfl | rfl <;> simp [sampleEnv]

/-! ## Sizes -/

/-- **C233 (in part).** Under the root, a font size that is a length or a percentage is so many pixels: units of fonts
refer to the font of the parent, those of the root to the font of the root element, percentages to the size of the
parent.  Missing: the keywords (`C233_keywords_fails`), line heights (`C234_lh_fails`) and negative `vmin` and `vmax`
(C98). -/
theorem C233_size_partial (e : Env) (hn : Monotone e.near) (el : El) {q v : Vals} {d : Decls}
    (h : Below (styleDocument e el) q d v) {s : Size} (hs : d.size = some s) {x : Rat}
    (hx : SizeIs (basis e (q.faceSize e) ((styleDocument e el).vals.faceSize e)) (e.px q.font.size) s x) :
    v.font.size = e.near x := by
  obtain ⟨_, rfl⟩ := below h
  simp only [compute, hs]
  cases hx with
  | length hm => exact means_resolve hn hm
  | percent =>
    rename_i p
    have : p / 100 * e.px q.font.size = e.px q.font.size * (p / 100) := by grind
    rw [this]
    rfl

/-- **C233 (in part).** The root element has nothing above it: its units refer to the initial font.  Missing: as in
`C233_size_partial`, and the units of the root but for `rem`, which use the built-in face. -/
theorem C233_root_partial (e : Env) (hn : Monotone e.near) (el : El) {d : Decls} {v : Vals} {ps ks}
    (h : styleDocument e el = .mk d v ps ks) {s : Size} (hs : d.size = some s)
    (hu : ∀ a u, s = .length (.rel a u) → ofRoot u = true → u = .rem) {x : Rat}
    (hx : SizeIs (basis e ((initialStyled e).faceSize e) ((initialStyled e).faceSize e))
      (e.px (e.near 16)) s x) : v.font.size = e.near x := by
  cases el with
  | mk d' ps' ks' =>
    rw [document_eq] at h
    injection h with h1 h2 h3 h4
    subst h1 h2
    simp only [compute, hs]
    cases hx with
    | length hm =>
      show resolveLength e.near (context e (inherits e (initialStyled e)) (initialStyled e)) _ = _
      cases hm with
      | abs hk => exact means_resolve hn (.abs hk)
      | rel hv =>
        rename_i a u
        have := hu a u rfl
        show resolveRel e.near _ a u = _
        rw [resolveRel_eq e.near hn _ _ _ hv]
        cases u <;> first
          | rfl
          | exact absurd (this rfl) (by decide)
    | percent =>
      rename_i p
      have : p / 100 * e.px (e.near 16) = e.px (e.near 16) * (p / 100) := by grind
      rw [this]
      rfl

/-- **C233.** Without a declaration the size is the parent's, and that of the root element is 16 pixels. -/
theorem C233_inherited (e : Env) (el : El) {q v : Vals} {d : Decls}
    (h : Within (styleDocument e el) (initialStyled e) q d v) (hs : d.size = none) : v.font.size = q.font.size := by
  obtain ⟨_, root, rfl⟩ := faced h
  simp only [compute, hs]
  rfl

example : (initialStyled sampleEnv).font.size = nearest64 16 := rfl

/-- The `2em` of `b` is twice the 10 pixels of `html`. -/
example : SizeIs (basis sampleEnv (11, 10) (11, 10)) 10 (.length (.rel 2 .em)) 20 := by
  have : (20 : Rat) = 2 * worth (basis sampleEnv (11, 10) (11, 10)) .em := by decide +kernel
  rw [this]
  exact .length (.rel (.inr rfl))

example : SizeIs (basis sampleEnv (11, 10) (11, 10)) 10 (.length (.abs 3 .pt)) 4 := by
  have : (4 : Rat) = 3 / 72 * 96 := by decide +kernel
  rw [this]
  exact .length (.abs (k := "pt") (by decide +kernel))

/-- What a document of one element gets for a size. -/
def sizeOf (e : Env) (s : Size) : Int := (styleDocument e (.mk { size := some s } [] [])).vals.font.size

/-- **C233.** The keywords for sizes go from small to large. -/
theorem C233_keywords_order (e : Env) (hn : Monotone e.near) (root : Option Vals) (q : Vals) :
    let f s := (compute e root q { size := some s }).font.size
    f .xxSmall ≤ f .xSmall ∧ f .xSmall ≤ f .small ∧ f .small ≤ f .medium ∧ f .medium ≤ f .large ∧
      f .large ≤ f .xLarge ∧ f .xLarge ≤ f .xxLarge := by
  simp only [compute, resolveSize]
  refine ⟨?_, ?_, ?_, ?_, ?_, ?_⟩ <;> exact hn _ _ (by decide +kernel)

/-- **C233.** `larger` is not smaller than the parent and `smaller` not larger. -/
theorem C233_larger (e : Env) (hn : Monotone e.near) (root : Option Vals) (q : Vals) (hq : 0 ≤ e.px q.font.size) :
    let f s := (compute e root q { size := some s }).font.size
    f .smaller ≤ e.near (e.px q.font.size) ∧ e.near (e.px q.font.size) ≤ f .larger := by
  simp only [compute, resolveSize]
  exact ⟨hn _ _ (by grind), hn _ _ (by grind)⟩

example : (0 : Rat) ≤ sampleEnv.px (initialStyled sampleEnv).font.size := by decide +kernel

/-- With rounding to 64ths the steps of the keywords, and of `larger` and `smaller`, are real. -/
example : sizeOf sampleEnv .xxSmall = 512 ∧ sizeOf sampleEnv .medium = 1024 ∧ sizeOf sampleEnv .larger = 1280 ∧
    sizeOf sampleEnv .smaller = 896 ∧ sizeOf sampleEnv .xSmall < sizeOf sampleEnv .small ∧
    sizeOf sampleEnv .small < sizeOf sampleEnv .medium ∧ sizeOf sampleEnv .medium < sizeOf sampleEnv .large ∧
    sizeOf sampleEnv .large < sizeOf sampleEnv .xLarge ∧ sizeOf sampleEnv .xLarge < sizeOf sampleEnv .xxLarge := by
  simp only [sizeOf, styleDocument, styleElement, Styled.vals]
  decide +kernel

/-- **C233.** It is false that the keywords have the factors that CSS gives: of the seven only `x-small` and `medium`
have. -/
theorem C233_keywords_fails :
    ((sizeTable.filter fun p => sizeOf sampleEnv p.1 = nearest64 (16 * p.2)).map (·.2)) = [3 / 4, 1] := by
  simp only [sizeOf, styleDocument, styleElement, Styled.vals]
  decide +kernel

/-! ## Lengths during layout -/

/-- **C234 (in part).** A length that an element declares for itself is used as so many pixels: units of fonts refer to
its own font.  Missing: units of the root (`C234_rem_fails`), line heights (`C234_lh_fails`), lengths that are
inherited (`C234_inherited_fails`), the margins of texts (`C234_inline_fails`). -/
theorem C234_own_partial (e : Env) (hn : Monotone e.near) (el : El) {q v : Vals} {d : Decls}
    (h : Within (styleDocument e el) (initialStyled e) q d v) {l : Length} (hl : d.extent = some l)
    (hu : ∀ a u, l = .rel a u → ofRoot u = false) {x : Rat}
    (hx : Means (basis e (v.faceSize e) ((styleDocument e el).vals.faceSize e)) l x) :
    v.extent.map (used e (styleDocument e el).vals v) = some (e.near x) := by
  obtain ⟨_, root, rfl⟩ := faced h
  have he : (compute e root q d).extent = some l := by simp only [compute, hl]
  rw [he, Option.map_some]
  generalize compute e root q d = v at *
  congr 1
  cases hx with
  | abs hk => exact means_resolve hn (.abs hk)
  | rel hv =>
    rename_i a u
    have := hu a u rfl
    show resolveRel e.near _ a u = _
    rw [resolveRel_eq e.near hn _ _ _ hv]
    cases u <;> first
      | rfl
      | exact absurd this (by decide)

/-- Without a declaration there is no length: `width` is not inherited. -/
theorem C234_not_inherited (e : Env) (el : El) {q v : Vals} {d : Decls}
    (h : Within (styleDocument e el) (initialStyled e) q d v) (hl : d.extent = none) : v.extent = none := by
  obtain ⟨_, root, rfl⟩ := faced h
  simp only [compute, hl]
  rfl

/-- **C234.** During layout `rem` is 16 pixels whatever the document. -/
theorem rem_constant (e : Env) (root v : Vals) (n : Rat) : used e root v (.rel n .rem) = e.near (n * 16) := rfl

/-- `html { font-size: 10px } div { width: 2rem }` -/
def remDoc : El := .mk { size := some (.length (.abs 10 .px)) } [] [.mk { extent := some (.rel 2 .rem) } [] []]

def remRoot : Vals := compute sampleEnv none (initialStyled sampleEnv) { size := some (.length (.abs 10 .px)) }
def remKid : Vals := compute sampleEnv (some remRoot) remRoot { extent := some (.rel 2 .rem) }

/-- **C234.** It is false that `rem` refers to the root element: with a root of 10 pixels, `2rem` is 32 pixels wide. -/
theorem C234_rem_fails :
    Within (styleDocument sampleEnv remDoc) (initialStyled sampleEnv) remRoot { extent := some (.rel 2 .rem) } remKid ∧
    (styleDocument sampleEnv remDoc).vals = remRoot ∧
    Means (basis sampleEnv (remKid.faceSize sampleEnv) (remRoot.faceSize sampleEnv)) (.rel 2 .rem) 20 ∧
    remKid.extent.map (used sampleEnv remRoot remKid) = some (nearest64 32) ∧ nearest64 32 ≠ nearest64 20 := by
  refine ⟨?_, ?_, ?_, by decide +kernel, by decide +kernel⟩
  · simp only [remDoc]
    rw [document_eq]
    refine .kid (k := styleElement sampleEnv (some remRoot) remRoot (.mk { extent := some (.rel 2 .rem) } [] [])) ?_ ?_
    · rw [styleKids, styleKids]; exact List.mem_singleton.2 rfl
    · rw [styleElement]; exact .here
  · simp only [styleDocument, remDoc, styleElement, Styled.vals]; rfl
  · have : (20 : Rat) = 2 * worth (basis sampleEnv (remKid.faceSize sampleEnv) (remRoot.faceSize sampleEnv)) .rem := by
      decide +kernel
    rw [this]
    exact .rel (.inr rfl)

/-- An outer table with a font of 20 pixels and `border-spacing: 1em`, and in it one with a font of 10 pixels. -/
def outerTable : Vals := compute sampleEnv none (initialStyled sampleEnv)
  { size := some (.length (.abs 20 .px)), spacing := some (.rel 1 .em) }
def innerTable : Vals := compute sampleEnv (some outerTable) outerTable { size := some (.length (.abs 10 .px)) }

/-- **C234.** It is false that a length is inherited as what it is for the parent: the spacing of the outer table is 20
pixels, that of the inner one, which declares none, is 10. -/
theorem C234_inherited_fails : used sampleEnv outerTable outerTable outerTable.spacing = nearest64 20 ∧
    used sampleEnv outerTable innerTable innerTable.spacing = nearest64 10 := by decide +kernel

/-- **C234.** It is false that the margins of inline elements may be written in units of fonts or of the page: they are
nothing. -/
theorem C234_inline_fails (e : Env) (v : Rat) (u : RelUnit) : spanMargin e (some (.rel v u)) = e.near 0 := by
  have h1 : v * 0 = 0 := by grind
  have h2 : (0 : Rat) / 100 = 0 := by grind
  cases u <;>
    simp only [spanMargin, resolveLength, resolveRel, emptyResolver, h1, h2, if_true, Bool.not_true,
      Bool.false_eq_true, if_false, ite_self, Int.min_self, Int.max_self]

/-- Margins in pixels are kept. -/
example : spanMargin sampleEnv (some (.abs 5 .px)) = 320 := by decide +kernel

/-- **C234.** It is false that `lh` is the line height: with a font of 16 pixels and `line-height: 2`, `1lh` is the same
as without. -/
theorem C234_lh_fails (e : Env) (root v : Vals) (n : Rat) (u : RelUnit) (h : Option Rat) :
    used e root { v with lineHeight := h } (.rel n u) = used e root v (.rel n u) := rfl

/-! ## Texts -/

/-- **C235 (in part).** A text is set in the face, the size and the colour of its element; its lines may be broken
exactly if `white-space` says so; from left to right it stands where `text-align` says; its margins in absolute
units are kept.  Missing: right to left (`C235_rtl_fails`), justified lines (`C235_justify_fails`), the line height
(`C235_line_height_fails`), margins in relative units (`C234_inline_fails`). -/
theorem C235_text_partial (e : Env) (t : TextVals) :
    (textStyle e t).face = t.vals.face ∧ (textStyle e t).size = e.px t.vals.font.size ∧
      (textStyle e t).colour = t.colour ∧ ((textStyle e t).wrap = true ↔ breaks t.white) ∧
      (∀ s, sideOf false t.align = some s → (textStyle e t).align = s) ∧
      (∀ k u per v, (k, u, per) ∈ absTable → t.marginStart = some (.abs v u) →
        (textStyle e t).marginLeft = e.near (v / per * 96)) ∧
      (∀ k u per v, (k, u, per) ∈ absTable → t.marginEnd = some (.abs v u) →
        (textStyle e t).marginRight = e.near (v / per * 96)) := by
  have hp : ∀ x ∈ absTable, ∀ v : Rat, Verif.Values.pixels v x.2.1 = v / x.2.2 * 96 := by
    simp only [absTable, List.mem_cons, List.not_mem_nil, or_false, forall_eq_or_imp, forall_eq,
      Verif.Values.pixels]
    refine ⟨?_, ?_, ?_, ?_, ?_, ?_, ?_⟩ <;> intro v <;> grind
  refine ⟨rfl, rfl, rfl, ?_, ?_, ?_, ?_⟩
  · show allowsWrap t.white = true ↔ _
    cases t.white <;> simp [allowsWrap, breaks]
  · intro s
    show sideOf false t.align = some s → proseAlign t.align = s
    cases t.align <;> simp [sideOf, proseAlign]
  · intro k u per v hk h
    simp only [textStyle, spanMargin, h, resolveLength, hp _ hk]
  · intro k u per v hk h
    simp only [textStyle, spanMargin, h, resolveLength, hp _ hk]

/-- A text that is centred and must not be broken. -/
example : (textStyle sampleEnv ⟨initialStyled sampleEnv, 3, .center, .nowrap, false, some (.abs 1 .in), none⟩) =
    ⟨10, 16, 3, 96 * 64, 0, false, .center⟩ := by decide +kernel

/-- **C235.** It is false that `line-height` has an effect on a text. -/
theorem C235_line_height_fails (e : Env) (t : TextVals) (h : Option Rat) :
    textStyle e { t with vals := { t.vals with lineHeight := h } } = textStyle e t := rfl

/-- **C235.** It is false that a text from right to left starts on the right. -/
theorem C235_rtl_fails (e : Env) (t : TextVals) (ht : t.align = .start) (hr : t.rtl = true) :
    sideOf t.rtl t.align = some .right ∧ (textStyle e t).align = .left := by
  simp only [ht, hr, sideOf, textStyle, proseAlign]
  exact ⟨rfl, trivial⟩

example : ∃ t : TextVals, t.align = .start ∧ t.rtl = true :=
  ⟨⟨initialStyled sampleEnv, 3, .start, .normal, true, none, none⟩, rfl, rfl⟩

/-- **C235.** It is false that justified text is laid out otherwise than text that starts on the left. -/
theorem C235_justify_fails (e : Env) (t : TextVals) :
    textStyle e { t with align := .justify } = textStyle e { t with align := .left } := rfl

end Verif.Fonts
