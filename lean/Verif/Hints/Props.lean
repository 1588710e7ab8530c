import Verif.Hints.Lemmas
/-!
# Properties C236–C238: attributes that style an element
-/
namespace Verif.Hints
open Verif.Cascade
open Verif.Values (Tok Lit eqCi Cased relTable parsePL parsePercent parseLength parseCalc parseCalcOf parseLength_rel
  parsePercent_lit Reads)
open Verif.Svg (Size parseSize sizeAttr dropWs parseSize_calc skipAny_other)
open Verif.Keyword (readPlain)

/-! ## What counts more -/

theorem winner_strong {ds : List Decl} {n : Nat} {d x : Decl} (h : Winner ds n d) (hx : x ∈ ds) (hn : x.name = n)
    (hb : x.bogus = false) (ho : x.origin = .author ∨ x.origin = .inline) :
    d.important = true ∨ d.origin = .author ∨ d.origin = .inline := by
  obtain ⟨pre, post, rfl, h1, h2, h3, h4⟩ := h
  have key : ¬ Lower d x := by
    rcases List.mem_append.1 hx with hx | hx
    · exact h3 x hx hn hb
    · rcases List.mem_cons.1 hx with rfl | hx
      · exact fun hl => lower_asymm hl hl
      · exact lower_asymm (h4 x hx hn hb)
  rw [lower_iff] at key
  cases hi : d.important with
  | true => exact .inl rfl
  | false =>
    right
    rw [hi] at key
    have hx0 : x.important = false := by
      cases hxi : x.important with
      | false => rfl
      | true => exact absurd (Or.inl (by rw [hxi]; decide)) key
    rw [hx0] at key
    have hr : ¬ d.origin.rank < x.origin.rank := fun hr => key (.inr ⟨rfl, .inl hr⟩)
    have : 3 ≤ x.origin.rank := by rcases ho with ho | ho <;> rw [ho] <;> decide
    have h3 : 3 ≤ d.origin.rank := by omega
    cases hd : d.origin <;> rw [hd] at h3 <;> first | (exact absurd h3 (by decide)) | simp

/-- **C236.** Where the author has a say on a property, in a style sheet or in the `style` attribute, attributes of
presentation make no difference. -/
theorem C236_author (e : Env) (rules style : List Decl) (el : El) (n : Nat) (h : AuthorSays rules style n) :
    held (decls e rules style el) n = held (rules ++ style) n := by
  obtain ⟨x, hx, hn, hb, ho⟩ := h
  cases hd : held (rules ++ style) n with
  | none => rw [C12_held_none_iff] at hd; rw [hd x hx hn] at hb; cases hb
  | some d =>
    have hw := (C12_held_iff_winner _ _ _).1 hd
    have hs := winner_strong hw hx hn hb ho
    refine (C12_held_iff_winner _ _ _).2 ?_
    have h1 : Winner (rules ++ htmlHints e el ++ style) n d :=
      winner_insert hw fun y hy _ _ => hint_lower (htmlHints_isHint hy) hs
    have h2 := winner_insert (a := rules ++ htmlHints e el ++ style) (b := []) (hs := svgDecls e el)
      (by rw [List.append_nil]; exact h1) fun y hy _ _ => hint_lower (svgDecls_isHint hy) hs
    rw [List.append_nil] at h2
    exact h2

/-- A hint is put before declarations of user and user agent that are not important. -/
theorem lower_hint {h x : Decl} (hh : IsHint h) (hi : x.important = false)
    (ho : x.origin = .userAgent ∨ x.origin = .user) : Lower x h := by
  obtain ⟨h1, h2, _, _⟩ := hh
  rw [lower_iff, h1, h2, hi]
  right
  refine ⟨rfl, .inl ?_⟩
  rcases ho with ho | ho <;> rw [ho] <;> decide

theorem hint_level {h x : Decl} (hh : IsHint h) (hx : IsHint x) : ¬ Lower h x := by
  obtain ⟨h1, h2, _, h4⟩ := hh
  obtain ⟨x1, x2, _, x4⟩ := hx
  rw [lower_iff, h1, h2, h4, x1, x2, x4]
  omega

/-- **C236.** Where the author has no say on a property and nothing about it is important, the attribute counts, over the
style sheets of user and user agent; of several attributes the last one. -/
theorem C236_hint (e : Env) (rules style : List Decl) (el : El) (n : Nat) (hr : OfSheets rules) (hs : OfStyle style)
    (ha : ¬ AuthorSays rules style n) (hi : NoneImportant (rules ++ style) n) {h : Decl}
    (hl : LastOf (attrDecls e el) n h) : held (decls e rules style el) n = some h := by
  have weak : ∀ x ∈ rules ++ style, x.name = n → x.bogus = false → Lower x h := by
    intro x hx hn hb
    obtain ⟨pre, post, he, _⟩ := hl
    refine lower_hint (attr_isHint (e := e) (el := el) (by rw [he]; simp)) (hi x hx hn hb) ?_
    rcases List.mem_append.1 hx with hx' | hx'
    · rcases hr x hx' with h1 | h1 | h1
      · exact .inl h1
      · exact .inr h1
      · exact absurd ⟨x, hx, hn, hb, .inl h1⟩ ha
    · exact absurd ⟨x, hx, hn, hb, .inr (hs x hx').1⟩ ha
  have hw : Winner (attrDecls e el) n h := by
    obtain ⟨pre, post, he, h1, h2, h3⟩ := hl
    have hm : ∀ x ∈ pre ++ h :: post, IsHint x := fun x hx => attr_isHint (e := e) (el := el) (by rw [he]; exact hx)
    refine ⟨pre, post, he, h1, h2, fun x hx _ _ => hint_level (hm h (by simp)) (hm x (by simp [hx])), ?_⟩
    intro x hx hn hb
    rw [h3 x hx hn] at hb; cases hb
  refine (C12_held_iff_winner _ _ _).2 ?_
  have w1 : Winner (rules ++ attrDecls e el) n h :=
    winner_insert (a := []) (hs := rules) hw fun x hx => weak x (by simp [hx])
  rcases not_both e el with h0 | h0
  · unfold attrDecls at w1
    rw [h0] at w1
    unfold decls
    rw [h0]
    simp only [List.nil_append, List.append_nil] at w1 ⊢
    exact winner_insert w1 fun x hx => weak x (by simp [hx])
  · unfold attrDecls at w1
    rw [h0] at w1
    unfold decls
    rw [h0]
    have := winner_insert (a := rules ++ htmlHints e el) (b := []) (hs := style) (by simpa using w1)
      fun x hx => weak x (by simp [hx])
    simpa using this

/-- **C236.** The `style` attribute counts more than all style sheets and attributes, unless something about the property
is important; what it says last counts. -/
theorem C236_style (e : Env) (rules style : List Decl) (el : El) (n : Nat) (hr : OfSheets rules) (hs : OfStyle style)
    (hi : NoneImportant (rules ++ style) n) {x : Decl} (hl : LastOf style n x) :
    held (decls e rules style el) n = some x := by
  obtain ⟨pre, post, he, h1, h2, h3⟩ := hl
  have hx : x ∈ style := by rw [he]; simp
  have hxi := hi x (by simp [hx]) h1 h2
  rw [C236_author e rules style el n ⟨x, by simp [hx], h1, h2, .inr (hs x hx).1⟩]
  refine (C12_held_iff_winner _ _ _).2 ⟨rules ++ pre, post, by rw [he]; simp, h1, h2, ?_, ?_⟩
  · intro y hy hyn hyb
    have hyi := hi y (by rw [he]; simp only [List.mem_append] at hy ⊢; exact hy.elim .inl fun h => .inr (.inl h)) hyn hyb
    rw [lower_iff, (hs x hx).1, (hs x hx).2, hxi, hyi]
    rcases List.mem_append.1 hy with hy | hy
    · rcases hr y hy with h | h | h <;> rw [h] <;> simp [Origin.rank]
    · have := hs y (by rw [he]; simp [hy])
      rw [this.1, this.2]
      omega
  · intro y hy hyn hyb
    rw [h3 y hy hyn] at hyb; cases hyb

/-- Readers for the examples: no colours, and sizes in pixels are their number. -/
def sampleEnv : Env :=
  { colour := fun l => match l with
      | .ident s :: r => (if s = "red".toList then some (.rgba ⟨255, 0, 0, 255⟩) else none, r)
      | l => (none, l)
    code := fun v => match v with
      | .colour _ => 7
      | .size (.calc (.one (.val (.percent p)))) => 1000 + p.num.toNat
      | .size (.calc (.one (.val (.length (.abs p _))))) => 2000 + p.num.toNat
      | .size (.calc (.one (.val (.length (.rel p _))))) => 3000 + p.num.toNat
      | .size _ => 1
    other := fun _ _ => none }

/-- `<img width="50%" height="3in">` -/
def sampleImg : El := ⟨.html, "img", [("width", [.percent "50%".toList]), ("height", [.dim "3in".toList])], some .html⟩

/-- The user agent says `width: 9`, the author `height: 8`: the width of the attribute and the height of the author
count. -/
example :
    held (decls sampleEnv [{ name := width, value := 9, origin := .userAgent }, { name := height, value := 8 }] []
      sampleImg) width = some { name := width, value := 1050, origin := .presentationalHint } ∧
    (held (decls sampleEnv [{ name := width, value := 9, origin := .userAgent }, { name := height, value := 8 }] []
      sampleImg) height).map (·.value) = some 8 ∧
    (held (decls sampleEnv [{ name := height, value := 8 }] [{ name := height, value := 6, origin := .inline }]
      sampleImg) height).map (·.value) = some 6 := by decide +kernel

example : OfSheets [{ name := width, value := 9, origin := .userAgent }, { name := height, value := 8 }] ∧
    ¬ AuthorSays [{ name := width, value := 9, origin := .userAgent }, { name := height, value := 8 }] [] width ∧
    NoneImportant ([{ name := width, value := 9, origin := .userAgent }, { name := height, value := 8 }] ++ []) width ∧
    LastOf (attrDecls sampleEnv sampleImg) width { name := width, value := 1050, origin := .presentationalHint } := by
  refine ⟨?_, ?_, ?_, [], [{ name := height, value := 2003, origin := .presentationalHint }], by decide +kernel, rfl, rfl,
    ?_⟩
  · intro x hx; simp at hx; rcases hx with rfl | rfl <;> simp
  · rintro ⟨x, hx, hn, _, ho⟩
    simp at hx
    rcases hx with rfl | rfl
    · simp at ho
    · simp [width, height] at hn
  · intro x hx _ _; simp at hx; rcases hx with rfl | rfl <;> rfl
  · intro x hx hn; simp at hx; subst hx; simp [width, height] at hn

/-- **C236.** It is false that the attribute `align` gives way to the author: whatever the style sheets and the `style`
attribute say about `text-align`, the attribute counts. -/
theorem C236_align_fails (cascaded : Verif.Fonts.TextAlign) :
    alignAttr (some "left") cascaded = .left ∧ alignAttr (some "right") cascaded = .right ∧
      alignAttr (some "center") cascaded = .blockCenter ∧ alignAttr (some "justify") cascaded = .justify :=
  ⟨rfl, rfl, rfl, rfl⟩

/-- **C236.** Nor is its value understood in any case, as HTML wants it. -/
theorem C236_case_fails (cascaded : Verif.Fonts.TextAlign) : alignAttr (some "CENTER") cascaded = cascaded := rfl

/-! ## What attributes mean -/

theorem parseStr_one {p : List Tok → Verif.Values.Out α} {t : Tok} {v : α} (h : p [t] = (some v, [])) (ht : t ≠ .ws) :
    parseStr p [t] = some v := by
  unfold parseStr
  rw [Verif.Svg.dropWs_cons ht]
  simp only [dropWs, readPlain, h, Verif.Values.eatWs, List.isEmpty_nil, if_true]

/-- Attributes of HTML are of no account on elements that are not of HTML. -/
theorem C237_other_elements (e : Env) (el : El) (h : el.ns ≠ .html) : htmlHints e el = [] := by
  simp [htmlHints, h]

/-- **C237 (in part).** A percentage in the attributes `width` and `height` of an element of HTML is its width and height.  Missing: numbers, see `C237_number_fails`. -/
theorem C237_percent_partial (e : Env) (rules style : List Decl) (el : El) (n : Lit) (a : String) (p : Nat)
    (hap : (a, p) = ("width", width) ∨ (a, p) = ("height", height)) (hh : el.ns = .html)
    (ha : el.attr a = some [.percent (n.text ++ ['%'])]) (hz : el.attr "size" = none) (hr : OfSheets rules)
    (hs : OfStyle style) (hn : ¬ AuthorSays rules style p) (hi : NoneImportant (rules ++ style) p) :
    held (decls e rules style el) p = some { name := p, value := e.code (.size (.calc (.one (.val (.percent n.value))))), origin := .presentationalHint } := by
  refine C236_hint e rules style el p hr hs hn hi ?_
  have hv : readSize e [.percent (n.text ++ ['%'])] = some (e.code (.size (.calc (.one (.val (.percent n.value)))))) := by
    have hc : Reads parseCalc (.percent (n.text ++ ['%'])) (.one (.val (.percent n.value))) :=
      fun r => by simp only [parseCalc, parseCalcOf, parsePL, parsePercent_lit n r]
    unfold readSize
    rw [parseStr_one (parseSize_calc hc (skipAny_other (by simp)) []) (by simp)]
    rfl
  have hsv : svgDecls e el = [] := by simp [svgDecls, hh]
  unfold attrDecls htmlHints
  rw [hsv, if_neg (by simp [hh]), hz]
  rcases hap with hap | hap <;> injection hap with h1 h2 <;> subst h1 h2 <;> rw [ha]
  · simp only [Option.bind_some, hv, Option.bind_none]
    refine ⟨hint color ((el.attr "fgcolor").bind (readColour e)) ++
      hint background ((el.attr "bgcolor").bind (readColour e)), hint height ((el.attr "height").bind (readSize e)),
      by simp [hint], rfl, rfl, ?_⟩
    intro x hx hn
    have := (hint_mem hx).2.1
    rw [hn] at this; cases this
  · simp only [Option.bind_some, hv, Option.bind_none]
    refine ⟨hint color ((el.attr "fgcolor").bind (readColour e)) ++
      hint background ((el.attr "bgcolor").bind (readColour e)) ++ hint width ((el.attr "width").bind (readSize e)), [],
      by simp [hint], rfl, rfl, ?_⟩
    intro x hx; cases hx

/-- A number is no size in CSS unless it is 0. -/
theorem number_unread (e : Env) (n : Lit) (hz : eqCi n.text "0".toList = false) : readSize e [.number n.text] = none := by
  have hp : parsePL [.number n.text] = (none, [.number n.text]) := by
    simp only [parsePL, parsePercent, parseLength, hz]; rfl
  have hc : parseSize [.number n.text] = (none, [.number n.text]) := by
    simp only [parseSize, skipAny_other (t := .number n.text) (by simp), parseCalc, parseCalcOf, hp,
      Verif.Short.parseFit]
    rfl
  simp only [readSize, parseStr, dropWs, readPlain, hc]
  rfl

/-- **C237.** It is false that a number in `width` or `height` is so many pixels: `<img width="100">` says nothing. -/
theorem C237_number_fails (e : Env) (el : El) (n : Lit) (hz : eqCi n.text "0".toList = false)
    (hw : el.attr "width" = some [.number n.text]) (hs : el.attr "size" = none) :
    ∀ d ∈ htmlHints e el, d.name ≠ width := by
  intro d hd hn
  unfold htmlHints at hd
  split at hd
  · cases hd
  · rw [hw, hs] at hd
    simp only [Option.bind_some, Option.bind_none, number_unread e n hz, hint, List.append_nil] at hd
    simp only [List.mem_append] at hd
    rcases hd with (hd | hd) | hd <;>
      (have := (hint_mem hd).2.1; rw [hn] at this; cases this)

/-- `<img width="100">` -/
example : eqCi "100".toList "0".toList = false ∧
    decls sampleEnv [] [] ⟨.html, "img", [("width", [.number "100".toList])], some .html⟩ = [] := by decide +kernel

theorem dim_ch (n : Lit) : parsePL [.dim (n.text ++ "ch".toList)] = (some (.length (.rel n.value .ch)), []) := by
  have hk : ("ch", Verif.Values.RelUnit.ch) ∈ relTable := by decide +kernel
  simp only [parsePL, parsePercent, parseLength_rel n hk (Cased.refl _) []]

/-- **C237.** It is false that `size` is a number of characters only where it is one: any element of HTML, such as
`<font size="5">` or `<hr size="2">`, becomes so many characters wide. -/
theorem C237_size_fails (e : Env) (el : El) (n : Lit) (hh : el.ns = .html) (hs : el.attr "size" = some [.number n.text]) :
    { name := width, value := e.code (.size (.calc (.one (.val (.length (.rel n.value .ch)))))),
      origin := .presentationalHint } ∈ htmlHints e el := by
  have hc : parseSize [.dim (n.text ++ "ch".toList)] = (some (.calc (.one (.val (.length (.rel n.value .ch))))), []) := by
    simp only [parseSize, skipAny_other (t := .dim (n.text ++ "ch".toList)) (by simp), parseCalc, parseCalcOf, dim_ch n]
  have hv : readSize e (withCh [.number n.text]) = some (e.code (.size (.calc (.one (.val (.length (.rel n.value .ch))))))) := by
    unfold readSize withCh
    rw [parseStr_one hc (by simp)]
    rfl
  unfold htmlHints
  rw [if_neg (by simp [hh]), hs]
  simp only [Option.bind_some, hv]
  exact List.mem_append_right _ (by simp [hint])

/-- `<hr size="2">` is two characters wide. -/
example : hasCharacters "hr" = false ∧
    (held (decls sampleEnv [] [] ⟨.html, "hr", [("size", [.number "2".toList])], some .html⟩) width).map (·.value) =
      some 3002 := by decide +kernel

/-- **C237.** It is false that `bgcolor` is understood only where HTML has it: `<p bgcolor="red">` is red. -/
theorem C237_bgcolor_fails (e : Env) (el : El) (t : Tok) (c : Verif.Hue.Colour) (hh : el.ns = .html) (ht : t ≠ .ws)
    (ha : el.attr "bgcolor" = some [t]) (hc : e.colour [t] = (some c, [])) :
    { name := background, value := e.code (.colour c), origin := .presentationalHint } ∈ htmlHints e el := by
  have hv : readColour e [t] = some (e.code (.colour c)) := by
    unfold readColour
    rw [parseStr_one hc ht]
    rfl
  unfold htmlHints
  rw [if_neg (by simp [hh]), ha]
  simp only [Option.bind_some, hv]
  refine List.mem_append_left _ (List.mem_append_left _ (List.mem_append_left _ (List.mem_append_right _ ?_)))
  simp [hint]

example : "p" ∉ bgcolored ∧ sampleEnv.colour [.ident "red".toList] = (some (.rgba ⟨255, 0, 0, 255⟩), []) :=
  ⟨by decide +kernel, rfl⟩

/-! ## Drawings -/

/-- A drawing in a page. -/
structure Drawing (el : El) : Prop where
  ns : el.ns = .svg
  name : el.name = "svg"
  inside : ∃ p, el.parent = some p ∧ p ≠ .svg

theorem has_false {el : El} {a : String} (h : el.has a = false) : ∀ x ∈ el.attrs, x.1 ≠ a := by
  intro x hx he
  unfold El.has at h
  rw [List.any_eq_false] at h
  exact h x hx (by simp [he])

/-- **C238.** A drawing in a page that has no view box, and no attribute `width`, is 300 pixels wide, unless a style sheet
of the author or a `style` attribute says otherwise; and if it has no attribute `height`, it is 150 pixels high. -/
theorem C238_default (e : Env) (rules style : List Decl) (el : El) (hd : Drawing el) (hv : el.has "viewBox" = false)
    (a : String) (p : Nat) (v : Rat) (hap : (a, p, v) = ("width", width, 300) ∨ (a, p, v) = ("height", height, 150))
    (ha : el.has a = false) (hr : OfSheets rules) (hs : OfStyle style) (hn : ¬ AuthorSays rules style p)
    (hi : NoneImportant (rules ++ style) p) :
    held (decls e rules style el) p =
      some { name := p, value := e.code (.size (.calc (.one (.val (.length (.abs v .px)))))), origin := .presentationalHint } := by
  refine C236_hint e rules style el p hr hs hn hi ?_
  obtain ⟨ns, hp, hns⟩ := hd.inside
  have hh : htmlHints e el = [] := by simp [htmlHints, hd.ns]
  unfold attrDecls svgDecls
  rw [hh, if_neg (by simp [hd.ns]), if_pos hd.name]
  unfold svgSizing
  rw [hp]
  simp only [if_neg hns, hv, Bool.false_eq_true, if_false, List.nil_append]
  rcases hap with hap | hap <;> simp only [Prod.mk.injEq] at hap <;> obtain ⟨rfl, rfl, rfl⟩ := hap
  · rw [ha]
    simp only [Bool.false_eq_true, if_false]
    refine ⟨el.attrs.flatMap (presentation e), (if el.has "height" then [] else
      hint height (some (e.code (.size (pxSize 150))))), by simp [hint, pxSize], rfl, rfl, ?_⟩
    intro x hx hn
    split at hx
    · cases hx
    · have := (hint_mem hx).2.1
      rw [hn] at this; cases this
  · rw [ha]
    simp only [Bool.false_eq_true, if_false]
    refine ⟨el.attrs.flatMap (presentation e) ++ (if el.has "width" then [] else
      hint width (some (e.code (.size (pxSize 300))))), [], by simp [hint, pxSize], rfl, rfl, ?_⟩
    intro x hx; cases hx

/-- `<svg height="20%">` in a page -/
def sampleSvg : El := ⟨.svg, "svg", [("height", [.percent "20%".toList])], some .html⟩

example : Drawing sampleSvg ∧ sampleSvg.has "viewBox" = false ∧ sampleSvg.has "width" = false ∧
    (held (decls sampleEnv [] [] sampleSvg) width).map (·.value) = some 2300 ∧
    (held (decls sampleEnv [] [] sampleSvg) height).map (·.value) = some 1020 :=
  ⟨⟨rfl, rfl, .html, rfl, by decide⟩, by decide +kernel, by decide +kernel, by decide +kernel, by decide +kernel⟩

/-- **C238.** With a view box, inside another drawing, or as the document itself, nothing is made up: what the attributes
declare is what is written in them. -/
theorem C238_as_written (e : Env) (el : El) (h : el.has "viewBox" = true ∨ el.parent = some .svg ∨ el.parent = none)
    (hs : el.ns = .svg) : attrDecls e el = el.attrs.flatMap (presentation e) := by
  have hz : svgSizing e el = [] := by
    unfold svgSizing
    rcases h with h | h | h
    · split
      · rfl
      · rw [h]; simp
    · rw [h]; simp
    · rw [h]
  unfold attrDecls
  simp only [htmlHints, hs, ne_eq, reduceCtorEq, not_false_eq_true, if_true, List.nil_append, svgDecls, not_true_eq_false,
    if_false, hz, ite_self, List.append_nil]

/-- **C238.** An attribute `width` or `height` that can be read is what the drawing has, unless the author says
otherwise. -/
theorem C238_attribute (e : Env) (rules style : List Decl) (el : El) (hs : el.ns = .svg) (a : String) (p : Nat)
    (hap : (a, p) = ("width", width) ∨ (a, p) = ("height", height)) {pre post : List (String × List Tok)}
    {l : List Tok} {v : Size} (ha : el.attrs = pre ++ (a, l) :: post) (hu : ∀ x ∈ post, x.1.toLower ≠ a)
    (hv : sizeAttr l = some v) (hr : OfSheets rules) (hst : OfStyle style) (hn : ¬ AuthorSays rules style p)
    (hi : NoneImportant (rules ++ style) p) :
    held (decls e rules style el) p = some { name := p, value := e.code (.size v), origin := .presentationalHint } := by
  refine C236_hint e rules style el p hr hst hn hi ?_
  have hh : htmlHints e el = [] := by simp [htmlHints, hs]
  have w1 : ("width" : String).toLower = "width" := by decide +kernel
  have w2 : ("height" : String).toLower = "height" := by decide +kernel
  have w3 : ("height" : String) ≠ "width" := by decide
  have hm : presentation e (a, l) = [{ name := p, value := e.code (.size v), origin := .presentationalHint }] := by
    rcases hap with hap | hap <;> injection hap with h1 h2 <;> subst h1 h2
    · simp only [presentation, w1, if_true, hv, Option.map_some, hint]
    · simp only [presentation, w2, if_neg w3, if_true, hv, Option.map_some, hint]
  have hhas : el.has a = true := by
    unfold El.has; rw [ha]; simp
  have tail : ∀ x ∈ post.flatMap (presentation e) ++ (if el.name = "svg" then svgSizing e el else []), x.name ≠ p := by
    intro x hx
    rcases List.mem_append.1 hx with hx | hx
    · obtain ⟨b, hb, hx⟩ := List.mem_flatMap.1 hx
      have hne := hu b hb
      unfold presentation at hx
      split at hx
      · next hw =>
        rcases hap with hap | hap <;> injection hap with h1 h2 <;> subst h1 h2
        · exact absurd hw hne
        · rw [(hint_mem hx).2.1]; decide
      · split at hx
        · next hw =>
          rcases hap with hap | hap <;> injection hap with h1 h2 <;> subst h1 h2
          · rw [(hint_mem hx).2.1]; decide
          · exact absurd hw hne
        · split at hx
          · rw [(hint_mem hx).2.1]
            rcases hap with hap | hap <;> injection hap with h1 h2 <;> subst h1 h2 <;> simp only [width, height] <;> omega
          · cases hx
    · split at hx
      · unfold svgSizing at hx
        split at hx
        · cases hx
        · split at hx
          · cases hx
          · split at hx
            · cases hx
            · rcases hap with hap | hap <;> injection hap with h1 h2 <;> subst h1 h2 <;> rw [hhas] at hx
              · simp only [if_true, List.nil_append] at hx
                split at hx
                · cases hx
                · rw [(hint_mem hx).2.1]; decide
              · simp only [if_true, List.append_nil] at hx
                split at hx
                · cases hx
                · rw [(hint_mem hx).2.1]; decide
      · cases hx
  refine ⟨pre.flatMap (presentation e), post.flatMap (presentation e) ++ (if el.name = "svg" then svgSizing e el else []),
    ?_, rfl, rfl, fun x hx hn => absurd hn (tail x hx)⟩
  unfold attrDecls svgDecls
  rw [hh, if_neg (by simp [hs]), ha]
  simp only [List.nil_append, List.flatMap_append, List.flatMap_cons, hm, List.append_assoc, List.cons_append]

end Verif.Hints
