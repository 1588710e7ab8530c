import Verif.Sheet.Lemmas

/-!
# Sheets: properties

C199 the size of the paper, C200 the scale, C201 the margins, C202 the margin boxes, C203 headers and footers,
C204 pictures, C205 the command line, C206 the sandbox.
-/

namespace Verif.Sheet
open Verif.Values (Tok Lit Cased)
open Verif.Run (Flow Orientation)

variable {tall : Doc → Media → Rat} {o : Opts} {css : Nat → Sides} {n : Nat} {l : List Sheet} {p : Sheet}

/-! ## C199: the size of the paper -/

/-- Every page has the size that was asked for, if no sizes are given together with landscape. -/
theorem C199_size_partial (h : printed tall o css n = .pages l) (hp : p ∈ l) {w t : Rat} (ha : Asks o w t)
    (hl : o.orientation = .portrait ∨ (o.width = none ∧ o.height = none)) : p.size.width = w ∧ p.size.height = t := by
  obtain ⟨k, _, _, hs⟩ := printed_sheet h
  obtain ⟨j, rfl⟩ := hs p hp
  cases ha <;> simp_all [sheetOf, pageSize, derivePrintSettings]

/-- The pages are numbered from one. -/
theorem C199_numbers (h : printed tall o css n = .pages l) : l.map (·.info.number) = List.range' 1 n := by
  rcases printed_cases (tall := tall) (css := css) o n with h' | ⟨k, hk, h0⟩
  · rw [h] at h'; cases h'
  · rw [printed_eq hk h0] at h
    cases h
    rw [List.map_map]
    exact List.map_id' _

/-- In landscape, the width that was asked for is the height of the page, and the other way round. -/
theorem C199_landscape_fails (h : printed tall o css n = .pages l) (hp : p ∈ l) (ho : o.orientation = .landscape) :
    (∀ w, o.width = some w → p.size.height = w) ∧ (∀ t, o.height = some t → p.size.width = t) := by
  obtain ⟨k, _, _, hs⟩ := printed_sheet h
  obtain ⟨j, rfl⟩ := hs p hp
  constructor <;> intro w hw <;> simp_all [sheetOf, pageSize, derivePrintSettings]

/-- A5 in landscape; and a page of 300 by 100 that comes out as 100 by 300. -/
example : ∃ l p, printed (fun _ _ => 0) { stock := ⟨559, 794⟩, orientation := .landscape } (fun _ => ⟨.auto, .auto, .auto, .auto⟩)
    2 = .pages l ∧ p ∈ l ∧ p.size = ⟨794, 559⟩ :=
  ⟨_, _, printed_eq (k := 1) rfl (by decide) 2, List.mem_cons_self, rfl⟩
example : ∃ l p, printed (fun _ _ => 0) { stock := ⟨559, 794⟩, width := some 300, height := some 100, orientation := .landscape }
    (fun _ => ⟨.auto, .auto, .auto, .auto⟩) 2 = .pages l ∧ p ∈ l ∧ p.size = ⟨100, 300⟩ :=
  ⟨_, _, printed_eq (k := 1) rfl (by decide) 2, List.mem_cons_self, rfl⟩

/-! ## C200: the scale -/

theorem dots_unit {u : String} {k : Rat} {w : List Char} (hu : (u, k) ∈ dots) (hw : Cased w u.toList) :
    (∀ c ∈ u.toList, 97 ≤ c.toNat ∧ c.toNat ≤ 122) ∧
    ∃ x, parseUnit w = some x ∧ ∀ v, (Resolution.mk v x).toDppx = some (v * k) := by
  have hn : ∀ s : String, Verif.Values.eqCi w s.toList = Verif.Values.eqCi u.toList s.toList := by
    intro s
    exact hw.eqCi_congr _
  simp only [dots, List.mem_cons, Prod.mk.injEq, List.not_mem_nil, or_false] at hu
  unfold parseUnit
  simp only [hn]
  rcases hu with ⟨rfl, rfl⟩ | ⟨rfl, rfl⟩ | ⟨rfl, rfl⟩ | ⟨rfl, rfl⟩
  · exact ⟨by decide, .dpi, by decide, fun v => by simp only [Resolution.toDppx]; grind⟩
  · exact ⟨by decide, .dpcm, by decide, fun v => by simp only [Resolution.toDppx]; grind⟩
  · exact ⟨by decide, .dppx, by decide, fun v => by simp only [Resolution.toDppx]; grind⟩
  · exact ⟨by decide, .dppx, by decide, fun v => by simp only [Resolution.toDppx]; grind⟩

theorem scale_reads {t : List Tok} {k : Rat} (ht : Scale t k) (rest : List Tok) :
    ∃ r, parseResolution (t ++ rest) = some r ∧ r.toDppx = some k := by
  cases ht with
  | mk hu hw hl =>
    obtain ⟨h1, x, h2, h3⟩ := dots_unit hu hw
    subst hl
    refine ⟨⟨_, x⟩, ?_, h3 _⟩
    simp only [List.singleton_append, parseResolution,
      Verif.Values.atof_lit _ (Verif.Values.endsNum_of_cased hw h1), h2, Option.map_some]

/-- A number of dots per inch, centimetre or pixel is read, in any case. -/
theorem C200_reads {t : List Tok} {k : Rat} (ht : Scale t k) :
    ∃ r, parseResolution t = some r ∧ r.toDppx = some k := by
  simpa using scale_reads ht []

/-- The same resolution in other units: an inch is 96 pixels and 2.54 centimetres. -/
theorem C200_units (r : Resolution) :
    (r.toDpi = r.toDppx.map (96 * ·)) ∧ (r.toDpi = r.toDpcm.map (254 / 100 * ·)) := by
  rcases r with ⟨v, u⟩
  cases u <;> simp only [Resolution.toDpi, Resolution.toDppx, Resolution.toDpcm, Option.map_some, Option.map_none,
    Option.some.injEq, and_self] <;> constructor <;> grind

/-- With a scale other than zero there are pages, and each, painted at that scale, covers its paper exactly. -/
theorem C200_covers_partial {t : List Tok} {k : Rat} (ht : Scale t k) (hr : parseResolution t = some o.scale) (h0 : k ≠ 0) :
    ∃ l, printed tall o css n = .pages l ∧ l.length = n ∧
      ∀ p ∈ l, p.zoom = k ∧ p.info.page.x = 0 ∧ p.info.page.y = 0 ∧ p.zoom * p.info.page.width = p.size.width ∧
        p.zoom * p.info.page.height = p.size.height := by
  obtain ⟨r, h1, h2⟩ := C200_reads ht
  rw [hr] at h1
  cases h1
  refine ⟨_, printed_eq h2 h0 n, by simp, ?_⟩
  intro p hp
  obtain ⟨j, _, rfl⟩ := List.mem_map.1 hp
  refine ⟨rfl, rfl, rfl, ?_, ?_⟩ <;> simp only [sheetOf, infoOf] <;> grind

/-- A scale of zero is accepted, and there are no pages: the size of the paper is divided by it. -/
theorem C200_zero_fails {t : List Tok} (ht : Scale t 0) (hr : parseResolution t = some o.scale) :
    printed tall o css n = .noScale := by
  obtain ⟨r, h1, h2⟩ := C200_reads ht
  rw [hr] at h1
  cases h1
  rcases printed_cases (tall := tall) (css := css) o n with h' | ⟨k, hk, h0⟩
  · exact h'
  · rw [hk] at h2; cases h2; exact absurd rfl h0

/-- So is a negative scale: the pages have negative sizes. -/
theorem C200_negative_fails {t : List Tok} {k : Rat} (ht : Scale t k) (hr : parseResolution t = some o.scale) (h0 : k < 0)
    (h : printed tall o css n = .pages l) (hp : p ∈ l) (hw : 0 < p.size.width) : p.info.page.width < 0 := by
  obtain ⟨l', h', _, hs⟩ := C200_covers_partial (tall := tall) (css := css) (n := n) ht hr (by grind)
  rw [h] at h'
  cases h'
  obtain ⟨hz, _, _, h3, _⟩ := hs p hp
  rw [hz] at h3
  by_cases h4 : p.info.page.width < 0
  · exact h4
  · exfalso
    have h4 : 0 ≤ p.info.page.width := by grind
    have : k * p.info.page.width ≤ 0 := by
      have := Rat.mul_nonneg (a := -k) (b := p.info.page.width) (by grind) h4
      grind
    grind

/-- What follows the scale is not looked at. -/
theorem C200_rest_fails {t : List Tok} {k : Rat} (ht : Scale t k) (rest : List Tok) :
    ∃ r, parseResolution (t ++ rest) = some r ∧ r.toDppx = some k := scale_reads ht rest

/-- A picture is not scaled: neither its size nor that of the view depends on the scale. -/
theorem C200_picture_fails (overflow : Media → Rect) (html : Bool) (r : Resolution) (hc : o.extend = .crop) :
    let a := picture overflow o html
    let b := picture overflow { o with scale := r } html
    a.size = b.size ∧ a.medium.width = b.medium.width ∧ a.medium.height = b.medium.height := by
  simp [picture, deriveMedia, forRender, hc]

/-- `144DPI` is one and a half. -/
example : Scale [.dim "144DPI".toList] (3 / 2) := by
  have := Scale.mk (l := [.dim "144DPI".toList]) (n := ⟨none, [1, 4, 4], [], by decide⟩) (u := "dpi") (k := 1 / 96) (w := "DPI".toList)
    (by decide +kernel) (Verif.Values.eqCi_iff.1 (by decide)) rfl
  have e : (Lit.value ⟨none, [1, 4, 4], [], by decide⟩) * (1 / 96) = (3 / 2 : Rat) := by decide +kernel
  rwa [e] at this

/-! ## C201: the margins -/

/-- The four sides of the area that the margins leave. -/
structure Left (page area : Rect) (top «end» bottom start : Rat) : Prop where
  left : area.x = page.x + start
  top : area.y = page.y + top
  right : area.x + area.width = page.x + page.width - «end»
  bottom : area.y + area.height = page.y + page.height - bottom

/-- By default, the margins are those in the style of the page: percentages are of the page's height at the top and at
the bottom and of its width at the sides. -/
theorem C201_default_partial (h : printed tall o css n = .pages l) (hp : p ∈ l) (hm : o.margins = .preset .default)
    {t e b s : Rat} (ht : Reach p.info.page.height (css p.info.number).top t)
    (he : Reach p.info.page.width (css p.info.number).end e) (hb : Reach p.info.page.height (css p.info.number).bottom b)
    (hs : Reach p.info.page.width (css p.info.number).start s) : Left p.info.page p.info.decoration t e b s := by
  have key : ∀ {whole : Rat} {sd : Side} {d : Rat}, Reach whole sd d → resolveSide whole sd = d := by
    intro whole sd d hd
    cases hd with
    | auto => rfl
    | px => rfl
    | percent hd => simp only [resolveSide]; grind
  obtain ⟨k, _, _, hq⟩ := printed_sheet h
  obtain ⟨j, rfl⟩ := hq p hp
  have e1 := key ht
  have e2 := key he
  have e3 := key hb
  have e4 := key hs
  simp only [sheetOf, infoOf] at e1 e2 e3 e4
  constructor <;> simp only [sheetOf, infoOf, Rect.shrink, derivePrintSettings, hm, resolvePageMargin, ← e1, ← e2, ← e3, ← e4] <;>
    grind

/-- Margins that were asked for are taken instead, and no margins are none. -/
theorem C201_custom (h : printed tall o css n = .pages l) (hp : p ∈ l) :
    (∀ i, o.margins = .custom i → Left p.info.page p.info.decoration i.top i.end i.bottom i.start) ∧
    (o.margins = .preset .none → p.info.decoration = p.info.page) := by
  obtain ⟨k, _, _, hq⟩ := printed_sheet h
  obtain ⟨j, rfl⟩ := hq p hp
  constructor
  · intro i hm
    constructor <;> simp only [sheetOf, infoOf, Rect.shrink, derivePrintSettings, hm, resolvePageMargin] <;> grind
  · intro hm
    simp only [sheetOf, infoOf, Rect.shrink, derivePrintSettings, hm, resolvePageMargin]
    congr 1 <;> grind

/-- A margin in units of the font, or of the view, is no margin. -/
theorem C201_font_fails (h : printed tall o css n = .pages l) (hp : p ∈ l) (hm : o.margins = .preset .default)
    {v : Rat} (ht : (css p.info.number).top = .relative v) : p.info.decoration.y = p.info.page.y := by
  obtain ⟨k, _, _, hq⟩ := printed_sheet h
  obtain ⟨j, rfl⟩ := hq p hp
  simp only [sheetOf, infoOf] at ht
  simp only [sheetOf, infoOf, Rect.shrink, derivePrintSettings, hm, resolvePageMargin, ht, resolveSide]
  grind

/-- On the paper, the margins are scaled as well. -/
theorem C201_scaled_fails (h : printed tall o css n = .pages l) (hp : p ∈ l) {i : Insets} (hm : o.margins = .custom i)
    (hi : i.start ≠ 0) (hz : p.zoom ≠ 1) : p.zoom * p.info.decoration.x ≠ i.start := by
  have := (C201_custom h hp).1 i hm
  have hx : p.info.page.x = 0 := by
    obtain ⟨k, _, _, hq⟩ := printed_sheet h
    obtain ⟨j, rfl⟩ := hq p hp
    rfl
  intro hc
  rw [this.left, hx, Rat.zero_add] at hc
  have : (p.zoom - 1) * i.start = 0 := by grind
  rcases Rat.mul_eq_zero.1 this with h1 | h1 <;> grind

/-- Margins that are too wide leave less than nothing. -/
theorem C201_wide_fails (h : printed tall o css n = .pages l) (hp : p ∈ l) {i : Insets} (hm : o.margins = .custom i)
    (hi : p.info.page.width < i.start + i.end) : p.info.decoration.width < 0 := by
  have := (C201_custom h hp).1 i hm
  have h1 := this.left
  have h2 := this.right
  grind

/-- Ten per cent at the top, 20 pixels at the left. -/
example : ∃ l p, printed (fun _ _ => 0) { stock := ⟨500, 700⟩ } (fun _ => ⟨.percent 10, .auto, .px 5, .px 20⟩) 1 = .pages l ∧ p ∈ l ∧
    p.info.decoration = ⟨20, 70, 480, 625⟩ :=
  ⟨_, _, printed_eq (k := 1) rfl (by decide) 1, List.mem_cons_self, by decide +kernel⟩

/-! ## C202: the margin boxes -/

theorem items_eq (h : printed tall o css n = .pages l) (hp : p ∈ l) :
    ∃ ds, p.items = (if o.margins = .preset .none then [] else paintMargins p.info.page p.info.content) ++ ds ++
      [.content p.info.content] ∧ ∀ i ∈ ds, ∃ d m x y, i = .decoration d m x y := by
  obtain ⟨k, _, _, hq⟩ := printed_sheet h
  obtain ⟨j, hj⟩ := hq p hp
  obtain ⟨ds, he, hd⟩ := sheet_items _ _ p hj
  refine ⟨ds, he.trans (congrArg (· ++ _) (congrArg (· ++ _) ?_)), hd⟩
  by_cases hm : o.margins = .preset .none <;> simp [derivePrintSettings, hm]

theorem given_margins {ds : List Item} {ms : List Item} {c : Rect} (hd : ∀ i ∈ ds, ∃ d m x y, i = Item.decoration d m x y)
    {a : Area} {r : Rect} (hg : Given (ms ++ ds ++ [.content c]) a r) : Given ms a r := by
  have key : ∀ i, i ∈ ms ++ ds ++ [.content c] → (∀ d m x y, i ≠ .decoration d m x y) → (∀ c, i ≠ .content c) → i ∈ ms := by
    intro i hi h1 h2
    rcases List.mem_append.1 hi with hi | hi
    · rcases List.mem_append.1 hi with hi | hi
      · exact hi
      · obtain ⟨d, m, x, y, rfl⟩ := hd _ hi
        exact absurd rfl (h1 d m x y)
    · exact absurd (List.mem_singleton.1 hi) (h2 _)
  cases hg with
  | corner h => exact .corner (key _ h (by intros; exact Item.noConfusion) (by intros; exact Item.noConfusion))
  | main h => exact .main (key _ h (by intros; exact Item.noConfusion) (by intros; exact Item.noConfusion))
  | sub h ha => exact .sub (key _ h (by intros; exact Item.noConfusion) (by intros; exact Item.noConfusion)) ha

theorem margins_regions {page content : Rect} (hc : Inside content page) {a : Area} {r : Rect}
    (hg : Given (paintMargins page content) a r) :
    ∃ bx b, place a = some (bx, b) ∧ ∀ x y, r.Has x y ↔
      In bx page.x content.x (content.x + content.width) (page.x + page.width) x ∧
      In b page.y content.y (content.y + content.height) (page.y + page.height) y := by
  obtain ⟨h1, h2, h3, h4, h5, h6⟩ := hc
  have hs : ∀ {i : Item} , i ∈ paintMargins page content → i ∈ paintMargins page content := fun h => h
  cases hg with
  | corner h =>
    simp only [paintMargins, List.mem_cons, List.not_mem_nil, or_false, reduceCtorEq, Item.corner.injEq, or_self] at h
    rcases h with ⟨rfl, rfl⟩ | ⟨rfl, rfl⟩ | ⟨rfl, rfl⟩ | ⟨rfl, rfl⟩ <;> refine ⟨_, _, rfl, fun x y => ?_⟩ <;>
      simp only [Rect.Has, In, fromTwoPoint, least, most, Rect.topStart, Rect.topEnd, Rect.bottomStart, Rect.bottomEnd] <;> grind
  | main h =>
    simp only [paintMargins, List.mem_cons, List.not_mem_nil, or_false, reduceCtorEq, Item.strip.injEq, false_or] at h
    rcases h with ⟨rfl, _, rfl⟩ | ⟨rfl, _, rfl⟩ | ⟨rfl, _, rfl⟩ | ⟨rfl, _, rfl⟩ <;> refine ⟨_, _, rfl, fun x y => ?_⟩ <;>
      simp only [Rect.Has, In, fromTwoPoint, least, most, Rect.topStart, Rect.topEnd, Rect.bottomStart, Rect.bottomEnd] <;> grind
  | sub h ha =>
    simp only [paintMargins, List.mem_cons, List.not_mem_nil, or_false, reduceCtorEq, Item.strip.injEq, false_or] at h
    rcases h with ⟨rfl, rfl, rfl⟩ | ⟨rfl, rfl, rfl⟩ | ⟨rfl, rfl, rfl⟩ | ⟨rfl, rfl, rfl⟩ <;>
      simp only [List.mem_cons, List.not_mem_nil, or_false] at ha <;>
      rcases ha with rfl | rfl | rfl <;> refine ⟨_, _, rfl, fun x y => ?_⟩ <;>
      simp only [Rect.Has, In, fromTwoPoint, least, most, Rect.topStart, Rect.topEnd, Rect.bottomStart, Rect.bottomEnd] <;> grind

/-- If the content lies within the page, each margin box is given the part of the page it belongs in: beside, above or
below the content, up to the edge of the page. -/
theorem C202_regions_partial (h : printed tall o css n = .pages l) (hp : p ∈ l) (hc : Inside p.info.content p.info.page)
    {a : Area} {r : Rect} (hg : Given p.items a r) :
    ∃ bx b, place a = some (bx, b) ∧ ∀ x y, r.Has x y ↔
      In bx p.info.page.x p.info.content.x (p.info.content.x + p.info.content.width) (p.info.page.x + p.info.page.width) x ∧
      In b p.info.page.y p.info.content.y (p.info.content.y + p.info.content.height)
        (p.info.page.y + p.info.page.height) y := by
  obtain ⟨ds, he, hd⟩ := items_eq h hp
  rw [he] at hg
  have hg := given_margins hd hg
  by_cases hm : o.margins = .preset .none
  · simp only [hm, if_true] at hg
    rcases hg with hg | hg | ⟨hg, _⟩ <;> simp at hg
  · simp only [hm, if_false] at hg
    exact margins_regions hc hg

theorem times_append (a : Area) (x y : List Item) : times a (x ++ y) = times a x + times a y := by
  induction x with
  | nil => simp [times]
  | cons i x ih =>
    cases i <;> simp only [List.cons_append, times, ih] <;> omega

theorem times_rest {ds : List Item} (hd : ∀ i ∈ ds, ∃ d m x y, i = Item.decoration d m x y) (a : Area) (c : Rect) :
    times a (ds ++ [.content c]) = 0 := by
  induction ds with
  | nil => rfl
  | cons i ds ih =>
    obtain ⟨d, m, x, y, rfl⟩ := hd i List.mem_cons_self
    exact ih fun j hj => hd j (List.mem_cons_of_mem _ hj)

/-- Unless there are no margins, each margin box is painted once on each page; before the header and the footer, and the
content is painted last. -/
theorem C202_once (h : printed tall o css n = .pages l) (hp : p ∈ l) (hm : o.margins ≠ .preset .none) :
    (∀ a, place a ≠ none → times a p.items = 1) ∧
    ∃ ms ds, p.items = ms ++ ds ++ [.content p.info.content] ∧
      (∀ i ∈ ms, (∃ a r, i = .corner a r) ∨ ∃ a s r, i = .strip a s r) ∧ (∀ i ∈ ds, ∃ d m x y, i = .decoration d m x y) := by
  obtain ⟨ds, he, hd⟩ := items_eq h hp
  simp only [hm, if_false] at he
  constructor
  · intro a ha
    rw [he, List.append_assoc, times_append, times_rest hd]
    cases a <;> first | rfl | exact absurd rfl ha
  · refine ⟨_, _, he, ?_, hd⟩
    intro i hi
    simp only [paintMargins, List.mem_cons, List.not_mem_nil, or_false] at hi
    rcases hi with rfl | rfl | rfl | rfl | rfl | rfl | rfl | rfl <;>
      first | exact Or.inl ⟨_, _, rfl⟩ | exact Or.inr ⟨_, _, _, rfl⟩

/-- The area of the footnotes is never painted. -/
theorem C202_footnote_fails (h : printed tall o css n = .pages l) (hp : p ∈ l) : times .footnote p.items = 0 := by
  obtain ⟨ds, he, hd⟩ := items_eq h hp
  rw [he, List.append_assoc, times_append, times_rest hd]
  split <;> rfl

/-- A header is painted over the margin boxes at the top: they reach down to the content, not to the margin. -/
theorem C202_header_fails (h : printed tall o css n = .pages l) (hp : p ∈ l) (hm : o.margins ≠ .preset .none)
    (hc : Inside p.info.content p.info.page) (hw : 0 < p.info.content.width) (hh : p.info.page.y ≤ p.info.decoration.y)
    (ht : p.info.decoration.y < p.info.content.y) :
    ∃ r, Given p.items .top r ∧ r.Has p.info.decoration.x p.info.decoration.y := by
  have hx : p.info.decoration.x = p.info.content.x := by
    obtain ⟨k, _, _, hq⟩ := printed_sheet h
    obtain ⟨j, rfl⟩ := hq p hp
    simp only [sheetOf, infoOf, Rect.shrink]
    grind
  obtain ⟨ds, he, hd⟩ := items_eq h hp
  simp only [hm, if_false] at he
  have hg : Given p.items .top (fromTwoPoint (fromTwoPoint p.info.page.topStart p.info.content.topStart).topEnd
      (fromTwoPoint p.info.page.topEnd p.info.content.topEnd).bottomStart) := by
    rw [he]
    exact .main (subs := [.topLeft, .topCenter, .topRight]) (by simp [paintMargins])
  refine ⟨_, hg, ?_⟩
  obtain ⟨bx, b, hpl, hi⟩ := C202_regions_partial h hp hc hg
  cases hpl
  refine (hi _ _).2 ⟨?_, hh, ht⟩
  rw [hx]
  exact ⟨by grind, by grind⟩

/-- A page with a header of 30 pixels and margins of 10: the content lies within, and the box at the top reaches over the
header. -/
example : ∃ l p, printed (fun _ _ => 30) { stock := ⟨500, 700⟩, margins := .custom ⟨10, 10, 10, 10⟩, header := some 1 }
      (fun _ => ⟨.auto, .auto, .auto, .auto⟩) 1 = .pages l ∧ p ∈ l ∧ Inside p.info.content p.info.page ∧
    p.info.content = ⟨10, 40, 480, 650⟩ ∧ p.info.decoration.y < p.info.content.y :=
  ⟨_, _, printed_eq (k := 1) rfl (by decide) 1, List.mem_cons_self,
    ⟨by decide +kernel, by decide +kernel, by decide +kernel, by decide +kernel, by decide +kernel, by decide +kernel⟩,
    by decide +kernel, by decide +kernel⟩

/-! ## C203: headers and footers -/

theorem tall_asked {zoom : Rat} {area : Rect} {doc : Option Doc} {t t' : Rat}
    (h : Tall tall o zoom area doc (some t) t') : t' = t := by cases h; rfl

/-- On every page the content is left what header and footer do not take of the area within the margins; the header is
laid out at the width of that area and stands at its top, the footer ends at its bottom. -/
theorem C203_area_partial (h : printed tall o css n = .pages l) (hp : p ∈ l) :
    ∃ t b, Tall tall o p.zoom p.info.decoration o.header o.headerSize t ∧
      Tall tall o p.zoom p.info.decoration o.footer o.footerSize b ∧
      Left p.info.decoration p.info.content t 0 b 0 ∧
      ∀ d m x y, .decoration d m x y ∈ p.items ↔
        (o.header = some d ∧ m = medium o p.zoom p.info.decoration.width t ∧ x = p.info.decoration.x ∧
          y = p.info.decoration.y) ∨
        (o.footer = some d ∧ m = medium o p.zoom p.info.decoration.width b ∧ x = p.info.decoration.x ∧
          y = p.info.content.y + p.info.content.height) := by
  obtain ⟨k, hk, _, hq⟩ := printed_sheet h
  obtain ⟨j, rfl⟩ := hq p hp
  have hv : ∀ w t, viewed (forPrint (derivePrintSettings o)) ⟨w, t⟩ = medium o k w t := by
    intro w t
    simp only [viewed, forPrint, derivePrintSettings, medium, hk]
  have ht : ∀ (area : Rect) (doc : Option Doc) (sz : Option Rat),
      Tall tall o k area doc sz (heightOf tall (forPrint (derivePrintSettings o)) area.size doc sz) := by
    intro area doc sz
    cases sz with
    | some t => exact .asked
    | none =>
      cases doc with
      | none => exact .nothing
      | some d =>
        simp only [heightOf, Rect.size, hv]
        exact .auto
  refine ⟨_, _, ht _ _ _, ht _ _ _, ⟨?_, ?_, ?_, ?_⟩, ?_⟩
  · simp only [sheetOf, infoOf, Rect.shrink]
  · simp only [sheetOf, infoOf, Rect.shrink, fresh]
  · simp only [sheetOf, infoOf, Rect.shrink]; grind
  · simp only [sheetOf, infoOf, Rect.shrink, fresh]; grind
  · intro d m x y
    have hy : ∀ i : Info, i = infoOf tall (derivePrintSettings o) ⟨o.header, o.footer, o.headerSize, o.footerSize⟩
        (forPrint (derivePrintSettings o))
        ⟨(pageSize (derivePrintSettings o)).width / k, (pageSize (derivePrintSettings o)).height / k⟩ css j →
        i.decoration.y + i.decoration.height - (fresh tall ⟨o.header, o.footer, o.headerSize, o.footerSize⟩
        (forPrint (derivePrintSettings o)) i.decoration.size).2 = i.content.y + i.content.height := by
      rintro i rfl
      simp only [infoOf, Rect.shrink]
      grind
    have hm : ∀ (b : Bool) (pg ct : Rect), Item.decoration d m x y ∉ (if b = true then paintMargins pg ct else []) := by
      intro b pg ct
      cases b <;> simp [paintMargins]
    simp only [sheetOf, decosOf, List.mem_append, hm, false_or, List.mem_singleton, reduceCtorEq, or_false, hv]
    rw [hy _ rfl]
    cases o.header <;> cases o.footer <;> simp [fresh, and_assoc, eq_comm]

/-- Printing never fails to find the heights of a header. -/
theorem C203_no_panic : printed tall o css n ≠ .panic := by
  rcases printed_cases (tall := tall) (css := css) o n with h | ⟨k, hk, h0⟩
  · rw [h]; intro; contradiction
  · rw [printed_eq hk h0]; intro; contradiction

/-- A header that is a tenth of its view is given 100 pixels on a page of 1000, and is painted in a view of 100, where it
takes 10: its size depends on the size it was given. -/
theorem C203_view_fails : ∃ (tall : Doc → Media → Rat) (o : Opts) (css : Nat → Sides) (l : List Sheet) (p : Sheet),
    printed tall o css 1 = .pages l ∧ p ∈ l ∧ o.headerSize = none ∧
    ∃ d m x y, .decoration d m x y ∈ p.items ∧ p.info.content.y - p.info.decoration.y = 100 ∧ tall d m = 10 :=
  ⟨fun _ m => m.height / 10, { stock := ⟨500, 1000⟩, header := some 1 }, fun _ => ⟨.auto, .auto, .auto, .auto⟩, _, _,
    printed_eq (k := 1) rfl (by decide) 1, List.mem_cons_self, rfl, 1, ⟨true, 500, 100, .portrait, some 1⟩, 0, 0,
    by decide +kernel, by decide +kernel, by decide +kernel⟩

/-- A header that was given less than it needs is painted over the content all the same. -/
theorem C203_fixed_fails : ∃ (tall : Doc → Media → Rat) (o : Opts) (css : Nat → Sides) (l : List Sheet) (p : Sheet),
    printed tall o css 1 = .pages l ∧ p ∈ l ∧
    ∃ d m x y, .decoration d m x y ∈ p.items ∧ o.header = some d ∧ p.info.content.y < y + tall d m :=
  ⟨fun _ _ => 50, { stock := ⟨500, 1000⟩, header := some 1, headerSize := some 10 }, fun _ => ⟨.auto, .auto, .auto, .auto⟩, _, _,
    printed_eq (k := 1) rfl (by decide) 1, List.mem_cons_self, 1, ⟨true, 500, 10, .portrait, some 1⟩, 0, 0,
    by decide +kernel, rfl, by decide +kernel⟩

/-- Header and footer that together are taller than the page leave less than nothing. -/
theorem C203_tall_fails (h : printed tall o css n = .pages l) (hp : p ∈ l) {t b : Rat}
    (ht : o.headerSize = some t) (hb : o.footerSize = some b) (hi : p.info.decoration.height < t + b) :
    p.info.content.height < 0 := by
  obtain ⟨t', b', h1, h2, h3, _⟩ := C203_area_partial h hp
  rw [ht] at h1
  rw [hb] at h2
  cases tall_asked h1
  cases tall_asked h2
  have e1 := h3.top
  have e2 := h3.bottom
  grind

/-- A size for a header that is not there is taken from the content all the same. -/
theorem C203_nothing_fails (h : printed tall o css n = .pages l) (hp : p ∈ l) {t : Rat}
    (_hn : o.header = none) (ht : o.headerSize = some t) : p.info.content.y = p.info.decoration.y + t := by
  obtain ⟨t', b', h1, _, h3, _⟩ := C203_area_partial h hp
  rw [ht] at h1
  cases tall_asked h1
  exact h3.top

end Verif.Sheet
