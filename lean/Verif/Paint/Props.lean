import Verif.Paint.Whole
import Verif.Paint.Inside

/-! # Properties of painting: C160–C164 -/

namespace Verif.Paint

/-- Children in the flow, for the examples. -/
def inFlow : List Frag → Kids
  | [] => .nil
  | f :: l => .cons .flow f (inFlow l)

/-! ## C160: what is laid out is painted, once

Full claim: for every tree of fragments, what `paint` draws is, up to order, exactly what the boxes
of the tree show (`due`).

Proved for `fair` trees. Missing: boxes that are not positioned but have a `z-index` or float, root
elements with a colour but neither border nor outline (C163), and what is hidden, translucent or
clipped in SVG (C162, C164); for all of these the claim fails. -/

theorem C160_once_partial (f : Frag) (h : fair f = true) : (paint f).Perm (due f) := by
  rw [paint_eq]; exact establish_due f h

/-- A root with a border, a paragraph whose text is in a translucent span, a placeholder for a
positioned box, and an SVG image with two shapes, one of them moved. -/
def page : Frag :=
  .mk .box { name := 0, root := true, coloured := true, borders := true } <|
    .cons .flow (.mk .box { name := 1, coloured := true } (inFlow
      [.mk .box { name := 2, inline := true, translucent := true, content := .prose } .nil,
       .mk .box { name := 3, hidden := true, borders := true } (inFlow
        [.mk .box { name := 4, outline := true } .nil])])) <|
    .cons .put (.mk .box { name := 5, positioned := true, zIndex := some (-1), coloured := true } .nil) <|
    .cons .oof (.mk .box { name := 5, positioned := true, zIndex := some (-1), coloured := true } .nil) <|
    .cons .flow (.mk (.svgRoot false) { name := 6 } (inFlow
      [.mk (.shape true) { name := 7 } .nil,
       .mk .group { name := 8, transform := true } (inFlow [.mk (.shape true) { name := 9 } .nil])])) .nil

example : fair page = true ∧ due page =
    [⟨0, .canvas, []⟩, ⟨0, .borders, []⟩, ⟨1, .fill, []⟩, ⟨2, .text, [(2, .opacity)]⟩,
     ⟨4, .outline, []⟩, ⟨5, .fill, []⟩, ⟨7, .shape, []⟩, ⟨9, .shape, [(8, .transform)]⟩] := by
  decide +kernel

/-- The claim fails: a box that is not positioned and has `z-index: 0` is not painted, nor is anything
in it, whatever that is. -/
theorem C160_vanishes_fails (b : Look) (f : Frag) (hp : f.look.positioned = false)
    (hz : f.look.zIndex = some 0) :
    paint (.mk .box b (.cons .flow f .nil)) = paint (.mk .box b .nil) := by
  have hi : f.look.isolates = true := by simp [Look.isolates, hz]
  have h : ∀ p : Look → Bool, p f.look = false → pass p (.cons .flow f .nil) = pass p .nil := by
    intro p hpf
    simp [pass, hi, hpf]
  have h1 : negative f.look = false := by simp [negative, Look.level, hz]
  have h2 : blocks f.look = false := by simp [blocks, hz]
  have h3 : floating f.look = false := by simp [floating, hz]
  have h4 : inlines f.look = false := by simp [inlines, hz]
  have h5 : zero f.look = false := by simp [zero, hp]
  have h6 : positive f.look = false := by simp [positive, Look.level, hz]
  have hs : ∀ l m, own .box b l = own .box b m := by intro l m; rfl
  simp only [paint_eq, establish, context, h _ h1, h _ h2, h _ h3, h _ h4, h _ h5, h _ h6, Frag.look]
  rw [hs]

example : let f : Frag := .mk .box { name := 1, zIndex := some 0 } (inFlow
      [.mk .box { name := 2, content := .prose } .nil])
    f.look.positioned = false ∧ f.look.zIndex = some 0 ∧
    (⟨2, .text, []⟩ : Draw) ∈ due (.mk .box { name := 0 } (.cons .flow f .nil)) := by decide +kernel

/-- The claim fails: the text of a float is painted twice. -/
theorem C160_float_fails :
    paint (.mk .box { name := 0 } (inFlow [.mk .box { name := 1, floats := true, content := .prose } .nil])) =
      [⟨1, .text, []⟩, ⟨1, .text, []⟩] := by decide +kernel

/-! ## C161: the order in which things are painted

Full claim: a box that stacks draws its background, borders and outline; then the stacking boxes
inside below level 0, lowest first; then the blocks in the flow, the floats, the inline-level boxes
and text, then the positioned boxes and those with effects, in tree order; then the stacking boxes
above level 0, lowest first. Boxes of one level are drawn in tree order. Inline blocks are drawn as
one, and so are positioned boxes but for the stacking boxes inside.

Proved: this order for `fair` trees, with text drawn where its box is, and boxes with effects that are
not positioned among the boxes in the flow. Missing: just that, boxes with levels inside a positioned
box without one (their order among boxes of the same level), and the background of a root that does
not stack if there are levels below 0; for all of these the claim fails. -/

theorem C161_order_partial (b : Look) (kids : Kids) (hf : fair (.mk .box b kids) = true)
    (hr : ∀ g ∈ stacked kids, lowest ≤ rank g.look)
    (hw : whole b = true ∨ ∀ g ∈ stacked kids, 0 ≤ rank g.look) :
    ∃ A B : List Frag,
      A.Perm ((stacked kids).filter (rank ·.look < 0)) ∧ Rising A ∧
      B.Perm ((stacked kids).filter (0 < rank ·.look)) ∧ Rising B ∧
      (shallow kids = true → ∀ z, (A ++ B).filter (fun g => decide (rank g.look = z)) =
        (stacked kids).filter (fun g => decide (rank g.look = z))) ∧
      paint (.mk .box b kids) = underAll (asks b)
        (backdrop b ++ A.flatMap paint ++ foreground b ++ layer false kids ++ layer true kids ++
          middle kids ++ B.flatMap paint) :=
  paint_order b kids hf hr hw

/-- Two boxes below level 0, one above, a block, an inline and a positioned box. -/
def layersKids : Kids := inFlow
  [.mk .box { name := 1, positioned := true, zIndex := some 3, coloured := true } .nil,
   .mk .box { name := 2, positioned := true, coloured := true } .nil,
   .mk .box { name := 3, inline := true, content := .prose } .nil,
   .mk .box { name := 4, coloured := true } .nil,
   .mk .box { name := 5, positioned := true, zIndex := some (-1), coloured := true } .nil,
   .mk .box { name := 6, positioned := true, zIndex := some (-2), coloured := true } .nil]

example : let b : Look := { name := 0, translucent := true, coloured := true }
    fair (.mk .box b layersKids) = true ∧ whole b = true ∧ shallow layersKids = true ∧
    (∀ z ∈ (stacked layersKids).map (rank ·.look), lowest ≤ z) ∧
    (stacked layersKids).map (·.look.name) = [1, 5, 6] ∧
    (paint (.mk .box b layersKids)).map (·.name) = [0, 6, 5, 4, 3, 2, 1] := by decide +kernel

/-- The shapes of an SVG image are drawn in tree order. Missing: foreign objects, which are ordered by
the theorem above, and what is not `fair`. -/
theorem C161_svg_partial (flat : Bool) (b : Look) (kids : Kids)
    (hf : fair (.mk (.svgRoot flat) b kids) = true) (hb : bare kids = true) :
    paint (.mk (.svgRoot flat) b kids) = due (.mk (.svgRoot flat) b kids) := by
  simp only [fair, Bool.and_eq_true, Bool.not_eq_true'] at hf
  rw [paint_eq, due.eq_def]
  simp only [establish, context, own, hf.1, Kind.isSvgRoot, Frag.look, Bool.false_eq_true, if_false,
    if_true, List.append_nil, effects_asks, underAll_eq, svgKids_eq kids hf.2 hb]
  cases flat <;> simp [stack, arrange, place]

example : let kids : Kids := inFlow [.mk (.shape true) { name := 1 } .nil,
      .mk .group { name := 2, transform := true } (inFlow [.mk (.shape true) { name := 3 } .nil]),
      .mk (.shape true) { name := 4 } .nil]
    fair (.mk (.svgRoot false) { name := 0 } kids) = true ∧ bare kids = true ∧
    paint (.mk (.svgRoot false) { name := 0 } kids) =
      [⟨1, .shape, []⟩, ⟨3, .shape, [(2, .transform)]⟩, ⟨4, .shape, []⟩] := by decide +kernel

/-- The claim fails: the background of a later block is drawn over the text of an earlier one. -/
theorem C161_text_fails :
    let f : Frag := .mk .box { name := 0 } (inFlow
      [.mk .box { name := 1, content := .prose } .nil, .mk .box { name := 2, coloured := true } .nil])
    fair f = true ∧ paint f = [⟨1, .text, []⟩, ⟨2, .fill, []⟩] := by decide +kernel

/-- The claim fails: an inline block draws its background over the blocks inside of it. -/
theorem C161_inline_block_fails :
    let f : Frag := .mk .box { name := 0 } (inFlow
      [.mk .box { name := 1, inline := true, coloured := true } (inFlow
        [.mk .box { name := 2, content := .prose } .nil])])
    fair f = true ∧ paint f = [⟨2, .text, []⟩, ⟨1, .fill, []⟩] := by decide +kernel

/-- The claim fails: a translucent block is drawn beneath the inline boxes before it. -/
theorem C161_opacity_fails :
    let f : Frag := .mk .box { name := 0 } (inFlow
      [.mk .box { name := 1, inline := true, content := .image } .nil,
       .mk .box { name := 2, translucent := true, coloured := true } .nil])
    fair f = true ∧ paint f = [⟨2, .fill, [(2, .opacity)]⟩, ⟨1, .image, []⟩] := by decide +kernel

/-- The claim fails: of two boxes of the same level, the one inside a positioned box is drawn last if
the level is below 0, and first if it is above, though it comes first or last. -/
theorem C161_ties_fails :
    (let f : Frag := .mk .box { name := 0 } (inFlow
      [.mk .box { name := 1, positioned := true } (inFlow
        [.mk .box { name := 2, positioned := true, zIndex := some (-1), coloured := true } .nil]),
       .mk .box { name := 3, positioned := true, zIndex := some (-1), coloured := true } .nil])
     fair f = true ∧ paint f = [⟨3, .fill, []⟩, ⟨2, .fill, []⟩]) ∧
    (let f : Frag := .mk .box { name := 0 } (inFlow
      [.mk .box { name := 2, positioned := true, zIndex := some 1, coloured := true } .nil,
       .mk .box { name := 1, positioned := true } (inFlow
        [.mk .box { name := 3, positioned := true, zIndex := some 1, coloured := true } .nil])])
     fair f = true ∧ paint f = [⟨3, .fill, []⟩, ⟨2, .fill, []⟩]) := by decide +kernel

/-- The claim fails: the canvas is cleared to the colour of a root with a border, over the boxes below
level 0. -/
theorem C161_canvas_fails :
    let f : Frag := .mk .box { name := 0, root := true, coloured := true, borders := true } (inFlow
      [.mk .box { name := 1, positioned := true, zIndex := some (-1), content := .image } .nil])
    fair f = true ∧ paint f = [⟨1, .image, []⟩, ⟨0, .canvas, []⟩, ⟨0, .borders, []⟩] := by
  decide +kernel

/-! ## C162: effects lie over just what is in the box that has them

Full claim: everything drawn is what some fragment of the tree shows, under exactly the opacities,
transforms and clips of the fragments it is in, outermost first; and whatever a fragment shows is
drawn so.

Proved for `fair` trees. Missing: as for C160. -/

theorem C162_effects_partial (f : Frag) (h : fair f = true) (d : Draw) :
    d ∈ paint f ↔ ∃ es g, Inside f es g ∧ ∃ o ∈ showsOf g, d = ⟨o.name, o.mark, es⟩ := by
  rw [(C160_once_partial f h).mem_iff]
  exact ⟨due_inside f d, fun ⟨_, _, hi, hs⟩ => inside_due hi d hs⟩

example : fair page = true ∧ ⟨9, .shape, [(8, .transform)]⟩ ∈ paint page ∧
    ⟨2, .text, [(2, .opacity)]⟩ ∈ paint page := by decide +kernel

/-- The claim fails: the opacity and the clip of an SVG element are not applied. -/
theorem C162_svg_fails (b e : Look) (kids : Kids) :
    let g (t c : Bool) : Frag := .mk (.svgRoot false) b
      (.cons .flow (.mk .group { e with translucent := t, clip := c } kids) .nil)
    paint (g true true) = paint (g false false) := by
  simp [paint_eq, establish, context, svgKids, svgElement, Frag.kind, Look.moved, Frag.look,
    Kind.isSvgRoot]

example : let g (t c : Bool) : Frag := .mk (.svgRoot false) { name := 0 } (inFlow
      [.mk .group { name := 1, translucent := t, clip := c } (inFlow
        [.mk (.shape true) { name := 2 } .nil])])
    due (g true true) = [⟨2, .shape, [(1, .opacity), (1, .clip)]⟩] ∧
    due (g false false) = [⟨2, .shape, []⟩] := by decide +kernel

/-! ## C163: backgrounds are painted

Full claim: the background colour of every box that is not hidden is painted; that of the root (to
which that of the body is handed up) over the whole canvas.

Proved for `fair` trees: for boxes that are not the root, and for roots with a border or outline.
Missing: other roots, where it fails. -/

theorem C163_background_partial (f : Frag) (h : fair f = true) {es b kids}
    (hi : Inside f es (.mk .box b kids)) (hh : b.hidden = false) (hc : b.coloured = true) :
    ⟨b.name, if b.root then .canvas else .fill, es⟩ ∈ paint f :=
  (C162_effects_partial f h _).2 ⟨es, _, hi, ⟨b.name, if b.root then .canvas else .fill, []⟩,
    by simp [showsOf, shows, hh, hc], rfl⟩

example : ∃ es kids, Inside page es (.mk .box { name := 1, coloured := true } kids) :=
  ⟨_, _, .deeper (by simp) (by simp) (.first (by simp) (.here _))⟩

/-- The claim fails: a root without border and outline is painted as if it had no colour, whatever is
in it. -/
theorem C163_root_fails (b : Look) (kids : Kids) (hr : b.root = true) (hb : b.borders = false)
    (ho : b.outline = false) :
    paint (.mk .box { b with coloured := true } kids) =
      paint (.mk .box { b with coloured := false } kids) := by
  have he : Look.effects { b with coloured := true } = Look.effects { b with coloured := false } := rfl
  simp only [paint_eq, establish, context, own, decorate, fillIn, hr, hb, ho, Frag.look, he]
  simp
  intro a _
  rfl

example : let f (c : Bool) : Frag := .mk .box { name := 0, root := true, coloured := c } .nil
    due (f true) = [⟨0, .canvas, []⟩] ∧ due (f false) = [] ∧ paint (f true) = [] := by decide +kernel

/-! ## C164: hidden boxes show nothing, but what is visible in them is shown

Full claim: `visibility: hidden` on a fragment keeps just what it itself shows from being painted.

Proved for `fair` trees, hence for boxes outside of SVG images. Missing: SVG, where it fails. -/

theorem C164_hidden_partial (f : Frag) (h : fair f = true) :
    (∀ d ∈ paint f, ∃ es g, Inside f es g ∧ g.look.hidden = false ∧ g.look.name = d.name) ∧
    (∀ es b kids, Inside f es (.mk .box b kids) → b.hidden = false →
      (b.borders = true → ⟨b.name, .borders, es⟩ ∈ paint f) ∧
      (b.outline = true → ⟨b.name, .outline, es⟩ ∈ paint f) ∧
      (b.content = .prose → ⟨b.name, .text, es⟩ ∈ paint f) ∧
      (b.content = .image → ⟨b.name, .image, es⟩ ∈ paint f)) := by
  constructor
  · intro d hd
    obtain ⟨es, g, hi, o, ho, rfl⟩ := (C162_effects_partial f h d).1 hd
    refine ⟨es, g, hi, ?_⟩
    match g, ho with
    | .mk .box b _, ho =>
      simp only [showsOf, shows] at ho
      split at ho
      · simp at ho
      · rename_i hh
        simp only [List.mem_append] at ho
        refine ⟨by simpa [Frag.look] using hh, ?_⟩
        rcases ho with ((ho | ho) | ho) | ho
        · split at ho <;> simp at ho; simp [ho, Frag.look]
        · split at ho <;> simp at ho; simp [ho, Frag.look]
        · split at ho <;> simp at ho; simp [ho, Frag.look]
        · split at ho <;> simp at ho <;> simp [ho, Frag.look]
    | .mk (.shape true) b _, ho =>
      simp only [showsOf] at ho
      split at ho
      · simp at ho
      · rename_i hh
        simp at ho
        exact ⟨by simpa [Frag.look] using hh, by simp [ho, Frag.look]⟩
    | .mk (.shape false) b _, ho => simp [showsOf] at ho
    | .mk .group b _, ho => simp [showsOf] at ho
    | .mk (.svgRoot _) b _, ho => simp [showsOf] at ho
  · intro es b kids hi hh
    have key : ∀ m, ⟨b.name, m, []⟩ ∈ shows b → ⟨b.name, m, es⟩ ∈ paint f := fun m hm =>
      (C162_effects_partial f h _).2 ⟨es, _, hi, _, hm, rfl⟩
    exact ⟨fun hb => key _ (by simp [shows, hh, hb]), fun hb => key _ (by simp [shows, hh, hb]),
      fun hb => key _ (by simp [shows, hh, hb]), fun hb => key _ (by simp [shows, hh, hb])⟩

example : (∃ es kids, Inside page es (.mk .box { name := 3, hidden := true, borders := true } kids)) ∧
    ⟨4, .outline, []⟩ ∈ paint page ∧ ⟨3, .borders, []⟩ ∉ paint page :=
  ⟨⟨_, _, .deeper (by simp) (by simp) (.first (by simp)
    (.deeper (by simp) (by simp) (.later (.first (by simp) (.here _)))))⟩, by decide +kernel⟩

/-- The claim fails: a hidden SVG shape is painted, and a visible shape in a hidden SVG image is not. -/
theorem C164_svg_fails :
    paint (.mk (.svgRoot false) { name := 0 } (inFlow [.mk (.shape true) { name := 1, hidden := true } .nil])) =
      [⟨1, .shape, []⟩] ∧
    paint (.mk (.svgRoot false) { name := 0, hidden := true } (inFlow [.mk (.shape true) { name := 1 } .nil])) =
      [] := by decide +kernel

end Verif.Paint
