import Verif.Sizing.Lemmas
/-!
# Sizes: theorems

C36 minimum and maximum, C38 automatic margins, C47 relative positions, C76 proportions of images, C77 sizes
written are used, C78 sizes of images without any, C79 absolute positions, C80 percentages, C81 percentages of
margins, C82 widths of borders.
-/
namespace Verif.Sizing
open Spec

/-! ## C36 -/

/-- The size of an image is within its bounds, whatever is specified. -/
theorem C36_image_within_partial (big : Int) (b : Bounds) (w h : Int) (specW specH : Bool) (hw : 0 ≤ w) (hh : 0 ≤ h)
    (h1 : ∀ x, b.minW = some x → 0 ≤ x) (h2 : ∀ x, b.minH = some x → 0 ≤ x) :
    let r := applyMinMax big b w h specW specH
    InBounds (b.minW.getD 0) (b.maxW.getD big) r.1 ∧ InBounds (b.minH.getD 0) (b.maxH.getD big) r.2 := by
  intro r
  have h1' : 0 ≤ b.minW.getD 0 := by cases e : b.minW with | none => simp | some x => simpa using h1 x e
  have h2' : 0 ≤ b.minH.getD 0 := by cases e : b.minH with | none => simp | some x => simpa using h2 x e
  obtain ⟨a1, a2⟩ := applyMinMax_bounds big b w h specW specH hw hh h1' h2'
  have e : applyMinMax big b w h specW specH = r := rfl
  rw [e] at a1 a2
  unfold InBounds
  omega

example : applyMinMax 1000000 { minW := some 50, maxH := some 20 } 40 30 false false = (50, 20) := by decide
example : applyMinMax 1000000 { minW := some 50, maxW := some 10 } 40 30 false false = (50, 37) := by decide

/-- An image within its bounds is not changed. -/
theorem C36_image_unchanged (big : Int) (b : Bounds) (w h : Int) (specW specH : Bool)
    (h1 : b.minW.getD 0 ≤ w ∧ w ≤ b.maxW.getD big) (h2 : b.minH.getD 0 ≤ h ∧ h ≤ b.maxH.getD big) :
    applyMinMax big b w h specW specH = (w, h) := by
  have c1 : clamp w (b.minW.getD 0) (max (b.maxW.getD big) (b.minW.getD 0)) = w := by unfold clamp; omega
  have c2 : clamp h (b.minH.getD 0) (max (b.maxH.getD big) (b.minH.getD 0)) = h := by unfold clamp; omega
  unfold applyMinMax
  dsimp only
  rw [c1, c2]
  by_cases hc1 : specW = true ∧ specH = true
  · rw [if_pos hc1]
  rw [if_neg hc1]
  by_cases hc2 : specW = true ∧ ¬specH = true
  · rw [if_pos hc2]
  rw [if_neg hc2]
  have n1 : ¬w > max (b.maxW.getD big) (b.minW.getD 0) := by omega
  have n2 : ¬w < b.minW.getD 0 := by omega
  have n3 : ¬h > max (b.maxH.getD big) (b.minH.getD 0) := by omega
  have n4 : ¬h < b.minH.getD 0 := by omega
  simp only [n1, n2, n3, n4, and_false, if_false, ite_self]

example : applyMinMax 1000000 { minW := some 50, maxH := some 200 } 60 30 false true = (60, 30) := by decide

/-- A block does not respect its bounds: they are not looked at. -/
theorem C36_block_fails (x block cb : Int) (lo hi : Option Len) :
    (placeAll x (some block) cb [{ minWidth := lo, maxWidth := hi }]).map Placed.width = [block] := by
  simp [placeAll, placeFrom, placeChild, knownWidth]

/-! ## C38 -/

/-- The margins used and the width make up the width of the block, if one of the margins is `auto` and there is
room, or if the width is `auto`. For every child in normal flow of a block of known width. -/
theorem C38_fills (x block cb inline : Int) (c : Child) (hr : c.removed = false) (w : Int)
    (hk : (placeChild x (some block) cb inline c).known = some w)
    (h : ((c.marginStart = none ∨ c.marginEnd = none) ∧
        w + (c.marginStart.map (· inline)).getD 0 + (c.marginEnd.map (· inline)).getD 0 ≤ block) ∨
      (match c.kind, c.width with | .plain, .auto => True | _, _ => False)) :
    let p := placeChild x (some block) cb inline c
    p.ms + p.width + p.me = block := by
  intro p
  have hp : p = placeChild x (some block) cb inline c := rfl
  clear_value p
  subst hp
  unfold placeChild at hk ⊢
  simp only [hr, Bool.false_eq_true, if_false] at hk ⊢
  rw [hk]
  generalize hms : (c.marginStart.map (· inline)).getD 0 = ms at *
  generalize hme : (c.marginEnd.map (· inline)).getD 0 = me at *
  have z1 : c.marginStart = none → ms = 0 := fun e => by rw [← hms, e]; rfl
  have z2 : c.marginEnd = none → me = 0 := fun e => by rw [← hme, e]; rfl
  rcases h with ⟨ha, hb⟩ | h
  · unfold autoMargins
    dsimp only
    cases e1 : c.marginStart with
    | none =>
      have z1 := z1 e1
      cases e2 : c.marginEnd with
      | none =>
        have z2 := z2 e2
        simp only [Option.isNone_none, Bool.or_self, Bool.not_true, Bool.false_eq_true, if_false, Bool.and_self, if_true, Option.getD]
        split <;> simp only <;> omega
      | some l =>
        simp only [Option.isNone_none, Option.isNone_some, Bool.or_false, Bool.not_true, Bool.false_eq_true, if_false,
          Bool.and_false, if_true, Option.getD]
        split <;> simp only <;> omega
    | some l =>
      cases e2 : c.marginEnd with
      | none =>
        have z2 := z2 e2
        simp only [Option.isNone_none, Option.isNone_some, Bool.or_true, Bool.not_true, Bool.false_eq_true, if_false,
          Bool.false_and, Option.getD]
        split <;> simp only <;> omega
      | some l' => rw [e1, e2] at ha; simp at ha
  · have hw : w = block - (ms + me) := by
      unfold knownWidth at hk
      generalize c.kind = k at h hk
      generalize c.width = v at h hk
      cases k <;> cases v <;> simp_all
    have he : autoMargins c.marginStart.isNone c.marginEnd.isNone (some block) (some w) ms me = (ms, me) := by
      unfold autoMargins
      dsimp only
      split
      · rfl
      · rw [if_pos (by omega)]
    rw [he]
    simp only [Option.getD]
    omega

example : (placeAll 7 (some 100) 0 [{ width := .len fun _ => 31, marginStart := none, marginEnd := none },
    { width := .len fun w => w / 4, marginStart := none, marginEnd := some fun _ => 5 }, { marginEnd := some fun _ => 5 }]).map
      (fun p => (p.x, p.width, p.ms, p.me)) = [(41, 31, 34, 35), (77, 25, 70, 5), (7, 95, 0, 5)] := by decide +kernel

/-- Two automatic margins are equal, up to the smallest unit. -/
theorem C38_equal (x block cb inline : Int) (c : Child) (hr : c.removed = false) (h1 : c.marginStart = none)
    (h2 : c.marginEnd = none) :
    let p := placeChild x (some block) cb inline c
    p.me = p.ms ∨ p.me = p.ms + 1 := by
  simp only [placeChild, hr, Bool.false_eq_true, if_false, h1, h2, Option.isNone_none, Option.map_none, Option.getD]
  unfold autoMargins
  simp only [Bool.or_self, Bool.not_true, Bool.false_eq_true, if_false, Bool.and_self, if_true]
  generalize knownWidth c (some block) (0 + 0) cb inline = w
  cases w with
  | none => simp
  | some w =>
    dsimp only
    split
    · exact Or.inl rfl
    · dsimp only; omega

/-- A child stands behind its margin, unless it is moved. -/
theorem C38_position (x : Int) (block : Option Int) (cb inline : Int) (c : Child) (h : c.rel = none) :
    let p := placeChild x block cb inline c
    p.x = x + p.ms := by
  simp [placeChild, h]

/-! ## C47 -/

/-- What is meant by `left` and `right` (or `top` and `bottom`) of a relatively positioned box. -/
def Spec.shift : Option Int → Option Int → Int
  | some s, _ => s
  | none, some e => -e
  | none, none => 0

/-- The shift, for a reference length. -/
theorem C47_shift (start end_ : Option Len) (ref : Int) :
    relativeInset start end_ ref = Spec.shift (start.map (· ref)) (end_.map (· ref)) := by
  cases start <;> cases end_ <;> rfl

/-- A child is moved by its shift from where it would be, and nothing else changes; the reference length is the
containing block of its parent. -/
theorem C47_moves_partial (x : Int) (block : Option Int) (cb inline : Int) (c : Child) (s e : Option Len) :
    placeChild x block cb inline { c with rel := some (s, e) } =
      let p := placeChild x block cb inline { c with rel := none }
      { p with x := p.x + Spec.shift (s.map (· cb)) (e.map (· cb)) } := by
  unfold placeChild
  simp only [C47_shift, Int.add_zero]
  rfl

/-- Percentages do not refer to the block the child is in: `left: 50%` in a block 100 wide inside of one that is
400 wide moves it by 200. -/
theorem C47_percentage_fails :
    (placeAll 0 (some 100) 400 [{ rel := some (some fun w => w / 2, none) }]).map Placed.x = [200] := by decide +kernel

/-! ## C76 -/

/-- An image without width and height keeps its proportions, up to rounding, whenever some size within its bounds
has them. -/
theorem C76_ratio_partial (big : Int) (b : Bounds) (w h : Int) (hw : 0 < w) (hh : 0 < h)
    (hx : ∃ w0 h0, SameRatio w h w0 h0 ∧ (b.minW.getD 0 ≤ w0 ∧ w0 ≤ max (b.maxW.getD big) (b.minW.getD 0)) ∧
      (b.minH.getD 0 ≤ h0 ∧ h0 ≤ max (b.maxH.getD big) (b.minH.getD 0))) (px : Int) :
    let r := imageSize big px w h b none none
    NearRatio w h r.1 r.2 := by
  obtain ⟨w0, h0, h1, h2, h3⟩ := hx
  exact applyMinMax_ratio big b w h hw hh w0 h0 h1 h2 h3

example : imageSize 1000000 1 400 301 { maxW := some 100, maxH := some 100 } none none = (100, 75) ∧ NearRatio 400 301 100 75 := by
  refine ⟨by decide, ?_⟩
  unfold NearRatio; decide

/-- With a width it does not: 200 wide but at most 100, an image of 200 by 200 becomes 100 by 200. -/
theorem C76_width_fails :
    imageSize 1000000 1 200 200 { maxW := some 100 } (some 200) none = (100, 200) ∧ ¬NearRatio 200 200 100 200 := by
  unfold NearRatio; decide

/-! ## C77 -/

/-- An image has its width and height as written if they are within bounds. -/
theorem C77_image_both (big px natW natH : Int) (b : Bounds) (w h : Int)
    (h1 : b.minW.getD 0 ≤ w ∧ w ≤ b.maxW.getD big) (h2 : b.minH.getD 0 ≤ h ∧ h ≤ b.maxH.getD big) :
    imageSize big px natW natH b (some w) (some h) = (w, h) :=
  C36_image_unchanged big b w h true true h1 h2

/-- An image has its width as written if it is within bounds. -/
theorem C77_image_width (big px natW natH : Int) (b : Bounds) (w : Int)
    (h1 : b.minW.getD 0 ≤ w ∧ w ≤ b.maxW.getD big) : (imageSize big px natW natH b (some w) none).1 = w := by
  simp only [imageSize, defaultSize, partialSize, applyMinMax, Option.isSome_some, Option.isSome_none]
  simp [clamp]
  omega

/-- Not so its height: 100 high, an image of 100 by 100 with `max-width: 50` is 50 high. -/
theorem C77_image_height_fails :
    imageSize 1000000 1 100 100 { maxW := some 50 } none (some 100) = (50, 50) := by decide

/-- A block has its width as written. -/
theorem C77_block_width (x : Int) (block : Option Int) (cb inline : Int) (c : Child) (l : Len) (hk : c.kind = .plain)
    (h : c.width = .len l) :
    (placeChild x block cb inline c).width = l inline + (if c.contentBox then c.edges else 0) := by
  simp [placeChild, knownWidth, hk, h, specifiedWidth]

example : (placeAll 0 (some 100) 0 [{ width := .len fun w => w / 2, edges := 6 }]).map Placed.width = [56] := by decide +kernel

/-! ## C78 -/

/-- An image of natural size `natW` by `natH` without bounds: its natural size if none is written; the natural
proportions if one side is written. -/
theorem C78_image (big px natW natH : Int) (hw : 0 ≤ natW ∧ natW ≤ big) (hh : 0 ≤ natH ∧ natH ≤ big) :
    imageSize big px natW natH {} none none = (natW, natH) ∧
    (0 < natW → ∀ w, 0 ≤ w → w ≤ big → scale w natH natW ≤ big →
      imageSize big px natW natH {} (some w) none = (w, scale w natH natW) ∧ NearRatio natW natH w (scale w natH natW)) ∧
    (0 < natH → ∀ h, 0 ≤ h → h ≤ big → scale h natW natH ≤ big →
      imageSize big px natW natH {} none (some h) = (scale h natW natH, h) ∧ NearRatio natW natH (scale h natW natH) h) := by
  refine ⟨?_, ?_, ?_⟩
  · exact C36_image_unchanged big {} natW natH false false (by simpa using hw) (by simpa using hh)
  · intro h0 w h1 h2 h3
    have h4 : 0 ≤ scale w natH natW := le_scale h0 (by rw [Int.zero_mul]; exact Int.mul_nonneg h1 hh.1)
    exact ⟨C36_image_unchanged big {} w (scale w natH natW) true false (by simp; omega) (by simp; omega), near_h h0⟩
  · intro h0 h h1 h2 h3
    have h4 : 0 ≤ scale h natW natH := le_scale h0 (by rw [Int.zero_mul]; exact Int.mul_nonneg h1 hw.1)
    exact ⟨C36_image_unchanged big {} (scale h natW natH) h false true (by simp; omega) (by simp; omega), near_w h0⟩

example : imageSize 1000000 1 400 300 {} (some 100) none = (100, 75) := by decide

/-- An object with proportions but no size becomes as large as possible within 300 by 150 pixels. -/
theorem C78_contain (px a b : Int) (hpx : 0 < px) (ha : 0 < a) (hb : 0 < b) :
    let r := defaultSize px { ratio := some (a, b) } none none
    r.1 ≤ 300 * px ∧ r.2 ≤ 150 * px ∧ (r.1 = 300 * px ∨ r.2 = 150 * px) ∧ NearRatio a b r.1 r.2 := by
  simp only [defaultSize, partialSize]
  split
  · next h => exact ⟨scale_le hb (by rw [Int.mul_comm (150 * px) a]; omega), Int.le_refl _, Or.inr rfl, near_w hb⟩
  · next h => exact ⟨Int.le_refl _, scale_le ha (by rw [Int.mul_comm (150 * px) a]; omega), Or.inl rfl, near_h ha⟩

/-- One with nothing at all is 300 by 150 pixels. -/
theorem C78_default (px : Int) : defaultSize px {} none none = (300 * px, 150 * px) := rfl

/-! ## C79 -/

/-- The start inset is the distance of the margin edge from the edge of the containing block. -/
theorem C79_start (f : Frame) (al : Align) (s : Len) (e : Option Len) (spec : Option Int) (ms me : Int) :
    (absolute f al (some s) e spec ms me).pos - ms = f.at_ + s f.relativeTo := by
  cases e <;> simp [absolute, usedInsets] <;> omega

/-- So is the end inset, if it is the only one and the size is known, or if there are no margins and both are
given. -/
theorem C79_end_partial (f : Frame) (al : Align) (s : Option Len) (e : Len) (spec : Option Int) (ms me : Int)
    (h : s = none ∧ spec.isSome ∨ s.isSome ∧ ms = 0 ∧ me = 0) :
    ∃ z, (absolute f al s (some e) spec ms me).size = some z ∧
      (absolute f al s (some e) spec ms me).pos + z + me = f.at_ + f.size - e f.relativeTo := by
  rcases h with ⟨rfl, h⟩ | ⟨h, rfl, rfl⟩
  · obtain ⟨z, rfl⟩ := Option.isSome_iff_exists.1 h
    refine ⟨z, rfl, ?_⟩
    simp [absolute, usedInsets]
    omega
  · obtain ⟨s, rfl⟩ := Option.isSome_iff_exists.1 h
    refine ⟨_, rfl, ?_⟩
    simp [absolute, usedInsets]
    omega

/-- Without insets it stands where it would be in the flow. -/
theorem C79_static (f : Frame) (spec : Option Int) (ms me : Int) :
    (absolute f .start none none spec ms me).pos - ms = f.staticAt ∧ (absolute f .start none none spec ms me).size = spec := by
  simp [absolute, usedInsets]
  omega

example : absolute ⟨10, 100, 100, 20, 0⟩ .start none (some fun w => w / 10) (some 30) 1 2 = ⟨68, some 30⟩ := by decide
example : absolute ⟨10, 100, 100, 20, 0⟩ .start (some fun _ => 5) (some fun _ => 15) none 0 0 = ⟨15, some 80⟩ := by decide

/-- `right: 0` without a width: the box stands at the left. -/
theorem C79_end_auto_fails (f : Frame) (al : Align) (e : Len) :
    absolute f al none (some e) none 0 0 = ⟨f.at_, none⟩ := by
  simp [absolute, usedInsets]

/-- `left`, `right` and `width`: the width is not used. -/
theorem C79_width_fails (f : Frame) (al : Align) (w : Int) :
    (absolute f al (some fun _ => 0) (some fun _ => 0) (some w) 0 0).size = some f.size := by
  simp [absolute, usedInsets]

/-- `left`, `right` and margins: the box is too wide by its margins. -/
theorem C79_margins_fails (f : Frame) (al : Align) (ms me : Int) :
    absolute f al (some fun _ => 0) (some fun _ => 0) none ms me = ⟨f.at_ + ms, some f.size⟩ := by
  simp [absolute, usedInsets]

/-- `justify-self: self-end` without insets: the box does not end where its static position ends. -/
theorem C79_self_end_fails (f : Frame) (w : Int) : absolute f .end_ none none (some w) 0 0 = ⟨f.at_, some w⟩ := by
  simp [absolute, usedInsets]

/-! ## C80 -/

private theorem place_inline (x block cb : Int) (pre post : List Child) (c : Child) (inline : Int)
    (h : ∀ p ∈ placeFrom x (some block) cb inline pre, p.width + (p.ms + p.me) ≤ inline) :
    (placeFrom x (some block) cb inline (pre ++ c :: post))[pre.length]? = some (placeChild x (some block) cb inline c) := by
  induction pre with
  | nil => simp [placeFrom]
  | cons d pre ih =>
    simp only [placeFrom, List.mem_cons, forall_eq_or_imp] at h
    simp only [List.cons_append, placeFrom, List.length_cons, List.getElem?_cons_succ]
    have e : max inline ((placeChild x (some block) cb inline d).width +
        ((placeChild x (some block) cb inline d).ms + (placeChild x (some block) cb inline d).me)) = inline :=
      Int.max_eq_left h.1
    rw [e] at h ⊢
    exact ih h.2

/-- A child of a block is placed as if it were alone, its percentages referring to the width of the block, if no
child before it sticks out. -/
theorem C80_alone_partial (x block cb : Int) (pre post : List Child) (c : Child)
    (h : ∀ p ∈ placeAll x (some block) cb pre, p.ms + p.width + p.me ≤ block) :
    (placeAll x (some block) cb (pre ++ c :: post))[pre.length]? = (placeAll x (some block) cb [c])[0]? ∧
    (placeAll x (some block) cb [c])[0]? = some (placeChild x (some block) cb block c) := by
  have e := place_inline x block cb pre post c block (fun p hp => by have := h p hp; omega)
  exact ⟨e.trans rfl, rfl⟩

example : ∀ p ∈ placeAll 0 (some 100) 0 [{ width := .len fun _ => 80 }, { marginStart := some fun _ => 10 }],
    p.ms + p.width + p.me ≤ 100 := by decide +kernel

/-- Behind a child 300 wide, `width: 50%` in a block 100 wide is 150. -/
theorem C80_overflow_fails :
    (placeAll 0 (some 100) 0 [{ width := .len fun _ => 300 }, { width := .len fun w => w / 2 }]).map Placed.width = [300, 150] := by
  decide +kernel

/-! ## C81 -/

/-- Percentages of horizontal margins and of paddings refer to the width of the containing block. -/
theorem C81_width_partial (m : Sides (Option Len)) (p : Sides Len) (cell : Bool) (cbW cbH : Int) :
    (∀ l, m.start = some l → (computeMargins false m cbW cbH).start = l cbW) ∧
    (∀ l, m.end_ = some l → (computeMargins false m cbW cbH).end_ = l cbW) ∧
    computePaddings false cell p cbW = ⟨p.top cbW, p.end_ cbW, p.bottom cbW, p.start cbW⟩ := by
  refine ⟨fun l h => ?_, fun l h => ?_, ?_⟩
  · simp [computeMargins, h]
  · simp [computeMargins, h]
  · simp [computePaddings]

/-- Those of vertical margins refer to its height: `margin-top: 10%` is nothing in a block 500 wide whose height
is not known (and counts as 0). -/
theorem C81_vertical_fails :
    (computeMargins false ⟨some fun w => w / 10, none, none, none⟩ 500 0).top = 0 := by decide

/-! ## C82 -/

/-- The width of a border is a whole number of pixels; a border that is to be seen is; one of a pixel or more
becomes at most thinner, and by less than a pixel. -/
theorem C82_border (px v : Int) (hp : 0 < px) (hv : 0 ≤ v) :
    (∃ k, snapBorder px v = k * px) ∧ (0 < v → px ≤ snapBorder px v) ∧ (v = 0 → snapBorder px v = 0) ∧
    (px ≤ v → snapBorder px v ≤ v ∧ v < snapBorder px v + px) := by
  unfold snapBorder
  split
  · next h =>
    refine ⟨⟨_, rfl⟩, fun h0 => ?_, fun h0 => by subst h0; simp, fun h' => by omega⟩
    have h1 : -v / px ≤ -1 := by
      have : -v / px < 0 := Int.ediv_neg_of_neg_of_pos (by omega) hp
      omega
    have : 1 * px ≤ -(-v / px) * px := Int.mul_le_mul_of_nonneg_right (by omega) (Int.le_of_lt hp)
    omega
  · next h =>
    have h1 : v / px * px ≤ v := Int.ediv_mul_le _ (by omega)
    have h2 : v < (v / px + 1) * px := Int.lt_ediv_add_one_mul_self _ hp
    rw [Int.add_mul] at h2
    refine ⟨⟨_, rfl⟩, fun _ => ?_, fun h0 => by omega, fun _ => by omega⟩
    have h3 : 1 ≤ v / px := (Int.le_ediv_iff_mul_le hp).2 (by omega)
    have : 1 * px ≤ v / px * px := Int.mul_le_mul_of_nonneg_right h3 (Int.le_of_lt hp)
    omega

example : snapBorder 64 1 = 64 ∧ snapBorder 64 127 = 64 ∧ snapBorder 64 128 = 128 := by decide

end Verif.Sizing
