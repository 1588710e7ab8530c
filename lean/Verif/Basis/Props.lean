import Verif.Basis.Spec
import Mathlib.Tactic.Linarith
import Mathlib.Tactic.Ring
import Mathlib.Algebra.Order.BigOperators.Group.List
/-!
# Properties C239–C242: sizes of flex items before they flex
-/
namespace Verif.Basis

theorem worth_some (w : Rat) (c : Calc) : c.worth (some w) = some (c.resolve w) := by
  cases c <;> simp only [Calc.worth, Calc.resolve, Option.map_some, Option.some.injEq] <;> ring

theorem worth_none (c : Calc) (h : ∀ v p, c ≠ .mix v p) (hp : c.pure = false) : c.worth none = some (c.resolve 0) := by
  cases c with
  | length v => rfl
  | percent p => cases hp
  | mix v p => exact absurd rfl (h v p)

theorem worth_percent (c : Calc) (hp : c.pure = true) : c.worth none = none := by
  cases c with
  | length v => cases hp
  | percent p => rfl
  | mix v p => cases hp

theorem boxed_eq (i : Item) (v : Rat) (h : (if i.contentBox then 0 else i.edges) ≤ v) :
    boxed i v = v + if i.contentBox then i.edges else 0 := by
  unfold boxed
  split at h <;> rename_i hb
  · rw [if_pos hb, if_pos hb, max_eq_left h]
  · rw [if_neg hb, if_neg hb, max_eq_left h, add_zero]

/-! ## C239 -/

/-- The length or percentage that the basis of an item comes from. -/
inductive Item.From (i : Item) : Calc → Prop where
  | basis {c : Calc} : i.basis = .calc c → i.From c
  | size {c : Calc} : i.basis = .auto → i.size = .calc c → i.From c

/-- **C239 (in part).** An item begins with its flex basis as CSS says: a length, a percentage of the container if that has
a known size, the size of the item where the basis is `auto`, and else the largest size of the content; padding and
borders are added if the size is that of the content box.  Missing: expressions with percentages in a container of
unknown size (`C239_mix_fails`), sizes that are keywords (`C239_keyword_fails`), borders and paddings larger than the
border box (`C239_floor_fails`). -/
theorem C239_base_partial (inner : Option Rat) (s : Intrinsic) (i : Item) (hs : s = .auto ∨ s = .stretch)
    (hm : ∀ v p, i.From (.mix v p) → inner.isSome = true)
    (hf : ∀ c v, i.From c → c.worth inner = some v → (if i.contentBox then 0 else i.edges) ≤ v)
    (hk : i.basis = .auto → i.size ≠ .minContent ∧ i.size ≠ .fitContent) :
    baseSize inner s i = specBase inner i := by
  have hc : contentBase s i = i.maxC + i.edges := by rcases hs with rfl | rfl <;> rfl
  have key : ∀ c, definiteBasis i = some c → i.From c →
      baseSize inner s i = (specified inner i (.calc c)).getD (i.maxC + i.edges) := by
    intro c hd hfr
    unfold baseSize
    rw [hd]
    simp only [specified]
    cases inner with
    | some w =>
      rw [if_pos (.inr rfl), worth_some, Option.map_some, Option.getD_some, Option.getD_some,
        boxed_eq i _ (hf c _ hfr (worth_some w c))]
    | none =>
      cases hp : c.pure with
      | false =>
        have hmix : ∀ v p, c ≠ .mix v p := by
          rintro v p rfl
          exact absurd (hm v p hfr) (by simp)
        have hw := worth_none c hmix hp
        rw [if_pos (.inl rfl), hw, Option.map_some, Option.getD_some, Option.getD_none, boxed_eq i _ (hf c _ hfr hw)]
      | true =>
        rw [if_neg (by simp), worth_percent c hp, Option.map_none, Option.getD_none, hc]
  cases hb : i.basis with
  | content =>
    have : definiteBasis i = none := by simp [definiteBasis, hb]
    simp [baseSize, this, specBase, hb, hc]
  | «calc» c =>
    rw [key c (by simp [definiteBasis, hb]) (.basis hb)]
    simp [specBase, hb]
  | auto =>
    obtain ⟨h1, h2⟩ := hk hb
    cases hz : i.size with
    | «calc» c =>
      rw [key c (by simp [definiteBasis, hb, hz]) (.size hb hz)]
      simp [specBase, hb, hz]
    | auto => simp [baseSize, definiteBasis, hb, hz, specBase, specified, hc]
    | maxContent => simp [baseSize, definiteBasis, hb, hz, specBase, specified, hc]
    | minContent => exact absurd hz h1
    | fitContent => exact absurd hz h2

/-- `flex-basis: 50%` with 10 of padding, in a container of 300 and in one of unknown size. -/
def sample : Item := { basis := .calc (.percent 50), edges := 10, minC := 40, maxC := 90 }

example : baseSize (some 300) .auto sample = 160 ∧ baseSize none .auto sample = 100 := by
  constructor <;> norm_num [baseSize, definiteBasis, sample, Calc.resolve, Calc.pure, contentBase, Item.maxContent]

example : (∀ v p, sample.From (.mix v p) → (some (300 : Rat)).isSome = true) ∧
    (∀ c v, sample.From c → c.worth (some 300) = some v → (if sample.contentBox then 0 else sample.edges) ≤ v) ∧
    (sample.basis = .auto → sample.size ≠ .minContent ∧ sample.size ≠ .fitContent) := by
  refine ⟨fun _ _ _ => rfl, ?_, fun h => by cases h⟩
  intro c v hc hv
  cases hc with
  | basis h =>
    injection h with h
    subst h
    simp only [Calc.worth, Option.map_some, Option.some.injEq] at hv
    subst hv
    norm_num [sample]
  | size h => cases h

/-- **C239.** It is false that an expression with a percentage is ignored where the container has no known size: the
percentage is taken of zero. -/
theorem C239_mix_fails (s : Intrinsic) (i : Item) (v p : Rat) (h : i.basis = .calc (.mix v p)) :
    baseSize none s i = v + (if i.contentBox then i.edges else 0) ∧ specBase none i = i.maxC + i.edges := by
  constructor
  · simp [baseSize, definiteBasis, h, Calc.pure, Calc.resolve]
  · simp [specBase, h, specified, Calc.worth]

/-- **C239.** It is false that an item of `width: min-content` begins with its smallest size. -/
theorem C239_keyword_fails (inner : Option Rat) (i : Item) (hb : i.basis = .auto) (hs : i.size = .minContent) :
    baseSize inner .auto i = i.maxC + i.edges ∧ specBase inner i = i.minC + i.edges := by
  constructor
  · simp [baseSize, definiteBasis, hb, hs, contentBase, Item.maxContent]
  · simp [specBase, hb, hs, specified]

/-- **C239.** It is false that the content never has a negative size: with `box-sizing: border-box` borders and paddings do
not enlarge a box that is too small for them. -/
theorem C239_floor_fails (inner : Option Rat) (s : Intrinsic) (i : Item) (v : Rat) (hb : i.basis = .calc (.length v))
    (hc : i.contentBox = false) (hv : v < i.edges) : baseSize inner s i < i.edges ∧ specBase inner i = i.edges := by
  constructor
  · simpa [baseSize, definiteBasis, hb, hc, Calc.pure, Calc.resolve] using hv
  · simp [specBase, hb, specified, Calc.worth, boxed, hc, max_eq_right (le_of_lt hv)]

/-- **C239.** It is false that percentages refer to the size that the container has: if its own property is a length, they
refer to that, whatever `max-width`, its padding with `box-sizing: border-box` or its place in another container have
made of it. -/
theorem C239_container_fails (c : Container) (i : Item) (v p w : Rat) (hs : c.size = .calc (.length v))
    (hk : c.known = some w) (hi : i.basis = .calc (.percent p)) (hb : i.contentBox = false) :
    c.base i = p / 100 * v ∧ (p ≠ 0 → v ≠ w → c.base i ≠ p / 100 * w) := by
  have h : c.base i = p / 100 * v := by
    simp [Container.base, baseSize, definiteBasis, hi, Container.definite, hs, Calc.resolve, hb]
  refine ⟨h, fun hp hv he => hv ?_⟩
  rw [h] at he
  have : p / 100 ≠ 0 := by
    intro h0
    exact hp (by linarith)
  exact mul_left_cancel₀ this he

/-- **C239.** Where the property of the container is not a length, they do refer to its size. -/
theorem C239_container_partial (c : Container) (i : Item) (p w : Rat) (hs : ∀ k, c.size ≠ .calc k) (hk : c.known = some w)
    (hi : i.basis = .calc (.percent p)) (hb : i.contentBox = false) : c.base i = p / 100 * w := by
  have : c.definite = some w := by
    unfold Container.definite
    split
    · rename_i k h; exact absurd h (hs k)
    · exact hk
  simp [Container.base, baseSize, definiteBasis, hi, this, Calc.resolve, hb]

/-- **C239.** Where the container is as narrow or as wide as its content, an item whose basis is its content begins with the
smallest or the largest size of that. -/
theorem C239_intrinsic (c : Container) (i : Item) (hb : i.basis = .content) :
    (c.intrinsic = .minContent → c.base i = i.minC + i.edges) ∧
    (c.intrinsic ≠ .minContent → c.base i = i.maxC + i.edges) := by
  have h : c.base i = contentBase c.intrinsic i := by simp [Container.base, baseSize, definiteBasis, hb]
  rw [h]
  constructor
  · intro hm; rw [hm]; rfl
  · intro hm
    cases hc : c.intrinsic with
    | minContent => exact absurd hc hm
    | _ => rfl

example : Container.base { intrinsic := .minContent } { basis := .content, edges := 5, minC := 10, maxC := 30 } = 15 := by
  decide +kernel

/-! ## C240 -/

/-- An item whose limits are understood: sizes are those of the border box, or there is neither border nor padding; no
size given is smaller than these, and none is `fit-content`. -/
structure Simple (inner : Rat) (i : Item) : Prop where
  box : i.contentBox = false ∨ i.edges = 0
  size : ∀ c, i.size = .calc c → i.edges ≤ c.resolve inner
  min : ∀ c, i.minSize = .calc c → i.edges ≤ c.resolve inner
  max : ∀ c, i.maxSize = .calc c → i.edges ≤ c.resolve inner
  noFit : i.minSize ≠ .fitContent ∧ i.maxSize ≠ .fitContent
  still : i.scrolls = false

theorem specified_simple {inner : Rat} {i : Item} (hb : i.contentBox = false ∨ i.edges = 0) {c : Calc}
    (h : i.edges ≤ c.resolve inner) : specified (some inner) i (.calc c) = some (c.resolve inner) := by
  simp only [specified, worth_some, Option.map_some, boxed]
  rcases hb with hb | hb
  · simp [hb, max_eq_left h]
  · rw [hb] at h
    rw [hb, max_eq_left h, add_zero, ite_self]

/-- **C240 (in part).** The smallest size of an item is what `min-width` says, and where that is `auto` the size of its
content, or the size given for it if that is smaller, and no more than the largest size.  Missing: items with padding or
borders whose sizes are those of the content (`C240_content_box_fails`), items that scroll (`C240_scroll_fails`),
`fit-content` (`C240_fit_fails`). -/
theorem C240_lower_partial (inner : Rat) (i : Item) (h : Simple inner i) : lower inner i = specMin inner i := by
  have hcap : ∀ v, capped inner i v = match i.maxSize with | .calc c => min v (c.resolve inner) | _ => v := by
    intro v
    unfold capped
    cases hm : i.maxSize with
    | «calc» c => simp only [specified_simple h.box (h.max c hm)]
    | _ => rfl
  cases hz : i.minSize with
  | «calc» c => simp only [lower, specMin, hz, specified_simple h.box (h.min c hz), Option.getD_some]
  | minContent => simp [lower, specMin, hz, specified, Item.minContent]
  | maxContent => simp [lower, specMin, hz, specified, Item.maxContent]
  | fitContent => exact absurd hz h.noFit.1
  | auto =>
    simp only [lower, specMin, hz, specified, Option.getD_none, minAuto, specAuto, h.still, Bool.false_eq_true, if_false]
    cases hs : i.size with
    | «calc» c =>
      have := specified_simple h.box (h.size c hs)
      simp only [specified] at this
      simp only [this, hcap]
      rfl
    | _ => simp only [hcap]; rfl

/-- **C240 (in part).** And the largest size is what `max-width` says. -/
theorem C240_upper_partial (big inner : Rat) (i : Item) (h : Simple inner i) :
    upper big inner i = (specMax inner i).getD big := by
  cases hz : i.maxSize with
  | none => simp [upper, specMax, hz]
  | «calc» c => simp only [upper, specMax, hz, specified_simple h.box (h.max c hz), Option.getD_some]
  | minContent => simp [upper, specMax, hz, specified, Item.minContent]
  | maxContent => simp [upper, specMax, hz, specified, Item.maxContent]
  | fitContent => exact absurd hz h.noFit.2

/-- `box-sizing: border-box; width: 70px; max-width: 50%` with 10 of padding in a container of 300. -/
def sampleBox : Item :=
  { size := .calc (.length 70), maxSize := .calc (.percent 50), contentBox := false, edges := 10, minC := 40, maxC := 90 }

example : Simple 300 sampleBox ∧ lower 300 sampleBox = 50 ∧ upper 1000 300 sampleBox = 150 := by
  refine ⟨⟨.inl rfl, ?_, ?_, ?_, ⟨by simp [sampleBox], by simp [sampleBox]⟩, rfl⟩, ?_, ?_⟩
  · intro c h; injection h with h; subst h; norm_num [Calc.resolve, sampleBox]
  · intro c h; cases h
  · intro c h; injection h with h; subst h; norm_num [Calc.resolve, sampleBox]
  · norm_num [lower, minAuto, sampleBox, Item.minContent, Calc.resolve]
  · norm_num [upper, sampleBox, Calc.resolve]

/-- **C240.** It is false that `min-width` and `max-width` are sizes of the content where `box-sizing` says so, as they do
everywhere by default: padding and borders are counted in. -/
theorem C240_content_box_fails (big inner : Rat) (i : Item) (a b : Rat) (ha : 0 ≤ a) (hb : 0 ≤ b)
    (hc : i.contentBox = true) (h1 : i.minSize = .calc (.length a)) (h2 : i.maxSize = .calc (.length b)) :
    lower inner i = a ∧ specMin inner i = a + i.edges ∧ upper big inner i = b ∧ specMax inner i = some (b + i.edges) := by
  simp [lower, upper, specMin, specMax, h1, h2, Calc.resolve, specified, Calc.worth, boxed, hc, ha, hb]

/-- **C240.** It is false that an item that scrolls can become smaller than its content. -/
theorem C240_scroll_fails (inner : Rat) (i : Item) (hs : i.scrolls = true) (h1 : i.minSize = .auto) (h2 : i.size = .auto)
    (h3 : i.maxSize = .none) : lower inner i = i.minC + i.edges ∧ specMin inner i = i.edges := by
  simp [lower, minAuto, h1, h2, h3, Item.minContent, specMin, specified, specAuto, hs]

/-- **C240.** It is false that `fit-content` is understood: as `max-width` it leaves no room at all, and as `min-width` it
keeps none. -/
theorem C240_fit_fails (big inner : Rat) (i : Item) :
    (i.maxSize = .fitContent → upper big inner i = 0) ∧ (i.minSize = .fitContent → lower inner i = 0) := by
  constructor <;> intro h
  · simp [upper, h]
  · simp [lower, h]

/-- **C240.** Percentages in `min-width` and `max-width` of items refer to the size of the container where that is known, and
else to the space it is given. -/
theorem C240_percent (big : Rat) (c : Container) (i : Item) (p q : Rat) (h1 : i.minSize = .calc (.percent p))
    (h2 : i.maxSize = .calc (.percent q)) :
    (∀ w, c.known = some w → lower c.space i = w * p / 100 ∧ upper big c.space i = w * q / 100) ∧
    (c.known = none → lower c.space i = c.avail * p / 100 ∧ upper big c.space i = c.avail * q / 100) := by
  have h : ∀ v, lower v i = v * p / 100 ∧ upper big v i = v * q / 100 := by
    intro v
    constructor
    · simp only [lower, h1, Calc.resolve]; ring
    · simp only [upper, h2, Calc.resolve]; ring
  constructor
  · intro w hw
    have : c.space = w := by simp [Container.space, hw]
    rw [this]; exact h w
  · intro hn
    have : c.space = c.avail := by simp [Container.space, hn]
    rw [this]; exact h _

/-! ## C241 -/

/-- An item that the rule for intrinsic sizes gives enough room: it has no margins; if it does not shrink, its smallest
size is no more than its base size; if it grows and shrinks, its base size is no more than its content. -/
structure Roomy (big : Rat) (c : Container) (i : Item) : Prop where
  margin : i.margin = 0
  content : i.basis = .content → c.base i = i.maxC + i.edges
  firm : i.shrink = 0 → lower c.space i ≤ c.base i
  flexible : i.grow ≠ 0 → i.shrink ≠ 0 → c.base i ≤ i.maxC + i.edges

theorem clamp_mono {x y lo hi : Rat} (h : x ≤ y) : clamp x lo hi ≤ clamp y lo hi :=
  max_le_max le_rfl (min_le_min h le_rfl)

theorem clamp_le {x lo hi : Rat} (h : lo ≤ x) : clamp x lo hi ≤ x := max_le h (min_le_left _ _)

theorem le_clamp (x lo hi : Rat) : lo ≤ clamp x lo hi := le_max_left _ _

theorem clamp_low {x y lo hi : Rat} (hxy : x < y) (h : y ≤ clamp x lo hi) : clamp y lo hi = clamp x lo hi := by
  unfold clamp at *
  have hx : min x hi ≤ x := min_le_left _ _
  rcases le_max_iff.1 h with h1 | h1
  · have a : min y hi ≤ lo := le_trans (min_le_left _ _) h1
    have b : min x hi ≤ lo := le_trans hx (le_trans hxy.le h1)
    rw [max_eq_left a, max_eq_left b]
  · linarith

theorem enough {grow shrink b lo hi c1 m K : Rat} {loose : Prop} (h1 : m ≤ c1) (hcont : ¬ loose → b = m)
    (hfirm : shrink = 0 → lo ≤ b) (hflex : grow ≠ 0 → shrink ≠ 0 → b ≤ m)
    (hK : K = clamp (if shrink = 0 then max (if grow = 0 then min c1 b else c1) b
      else (if grow = 0 then min c1 b else c1)) lo hi) :
    (¬ (((grow = 0 ∧ b > K) ∨ (shrink = 0 ∧ b < K)) ∧ loose) → clamp b lo hi ≤ K) ∧
    (((grow = 0 ∧ b > K) ∨ (shrink = 0 ∧ b < K)) ∧ loose → clamp b lo hi ≤ b) := by
  have hlow : lo ≤ K := by rw [hK]; exact le_clamp _ _ _
  refine ⟨fun hcm => ?_, fun hcm => ?_⟩
  · by_cases hs : shrink = 0
    · rw [if_pos hs] at hK
      rw [hK]; exact clamp_mono (le_max_right _ _)
    · rw [if_neg hs] at hK
      by_cases hg : grow = 0
      · rw [if_pos hg] at hK
        by_cases hbc : b ≤ c1
        · rw [min_eq_right hbc] at hK; rw [hK]
        · have hlt : c1 < b := lt_of_not_ge hbc
          rw [min_eq_left hlt.le] at hK
          have hl : loose := by
            by_contra hl
            exact hbc (by rw [hcont hl]; exact h1)
          have hle : b ≤ K := by
            by_contra hK'
            exact hcm ⟨.inl ⟨hg, lt_of_not_ge hK'⟩, hl⟩
          rw [hK] at hle ⊢
          rw [clamp_low hlt hle]
      · rw [if_neg hg] at hK
        rw [hK]; exact clamp_mono (le_trans (hflex hg hs) h1)
  · rcases hcm.1 with ⟨_, h⟩ | ⟨hs, _⟩
    · exact clamp_le (le_trans hlow h.le)
    · exact clamp_le (hfirm hs)

/-- What an item adds to the `max-content` size of its container is enough for it. -/
theorem share_enough {big : Rat} {c : Container} {i : Item} (h : Roomy big c i) :
    c.hypo big i ≤ share big c.space (c.base i) false i := by
  obtain ⟨hm, hcont, hfirm, hflex⟩ := h
  have hc0 : ∃ c1, i.maxC + i.edges ≤ c1 ∧ contribution big c.space (c.base i) false i =
      clamp (if i.shrink = 0 then max (if i.grow = 0 then min c1 (c.base i) else c1) (c.base i)
        else (if i.grow = 0 then min c1 (c.base i) else c1)) (lower c.space i) (upper big c.space i) := by
    unfold contribution
    refine ⟨_, ?_, rfl⟩
    simp only [Bool.false_eq_true, if_false, hm, add_zero, Item.maxContent, Item.minContent]
    split
    · exact le_max_left _ _
    · exact le_max_left _ _
    · exact le_max_left _ _
    · exact le_rfl
  obtain ⟨c1, hc1, hcon⟩ := hc0
  have hl : ¬ (i.basis.isContent = false) → c.base i = i.maxC + i.edges := by
    intro hn
    apply hcont
    cases hb : i.basis with
    | content => rfl
    | _ => rw [hb] at hn; exact absurd rfl hn
  have key := enough hc1 hl hfirm hflex hcon
  unfold Container.hypo hypoSize share
  simp only []
  split
  · rename_i hcm; exact key.2 hcm
  · rename_i hcm; exact key.1 hcm

/-- **C241 (in part).** A row as wide as its content wants has room for all its items at the sizes they begin with, so none
has to shrink.  Missing: margins (`C241_margin_fails`), items with a smallest size that do not shrink
(`C241_min_fails`), padding of items that flex (`C241_padding_fails`). -/
theorem C241_room_partial (big : Rat) (c : Container) (items : List Item) (hr : c.row = true)
    (hi : c.intrinsic = .maxContent) (h : ∀ i ∈ items, Roomy big c i) :
    (items.map fun i => c.hypo big i + i.margin).sum ≤ mainSize big c items := by
  have : mainSize big c items = (items.map fun i => share big c.space (c.base i) false i).sum := by
    simp [mainSize, hr, hi]
  rw [this]
  apply List.sum_le_sum
  intro i hm
  rw [(h i hm).margin, add_zero]
  exact share_enough (h i hm)

/-- Two items, the second one of which grows and has at least 60. -/
def sampleRow : List Item :=
  [{ minC := 10, maxC := 30, edges := 5 }, { minC := 20, maxC := 40, grow := 1, minSize := .calc (.length 60) }]

example : (∀ i ∈ sampleRow, Roomy 1000 { intrinsic := .maxContent } i) ∧
    mainSize 1000 { intrinsic := .maxContent } sampleRow = 95 := by
  constructor
  · intro i hi
    simp only [sampleRow, List.mem_cons, List.not_mem_nil, or_false] at hi
    rcases hi with rfl | rfl
    · refine ⟨rfl, by simp, by simp, by simp⟩
    · refine ⟨rfl, by simp, by simp, ?_⟩
      intro _ _
      norm_num [Container.base, baseSize, definiteBasis, contentBase, Item.maxContent]
  · decide +kernel

/-- **C241.** It is false that margins of items are counted: a row of ordinary items (`flex: 0 1 auto`) is as wide as their
border boxes. -/
theorem C241_margin_fails (big m w : Rat) (hm : 0 < m) (h0 : 0 ≤ w) (hw : w < big) (row : Container)
    (hrow : row = { intrinsic := .maxContent }) (i : Item) (hi : i = { margin := m, minC := w, maxC := w, laid := w }) :
    mainSize big row [i] = w ∧ row.hypo big i + i.margin = w + m := by
  have h1 : row.base i = w := by
    rw [hrow, hi]; simp [Container.base, baseSize, definiteBasis, contentBase, Item.maxContent]
  have h2 : lower row.space i = w := by rw [hi]; simp [lower, minAuto, Item.minContent]
  have h3 : upper big row.space i = big := by rw [hi]; simp [upper]
  have hcl : clamp w w big = w := by unfold clamp; rw [min_eq_left hw.le, max_self]
  constructor
  · have hcon : contribution big row.space (row.base i) false i = w := by
      unfold contribution
      rw [h1, h2, h3, hi]
      simp only [Item.maxContent, add_zero, Bool.false_eq_true, if_false, if_true]
      rw [if_neg (by norm_num), max_eq_left (by linarith), min_eq_right (by linarith), hcl]
    have hsh : share big row.space (row.base i) false i = w := by
      unfold share
      rw [hcon, h1, ite_self]
    have : mainSize big row [i] = share big row.space (row.base i) false i := by
      unfold mainSize
      simp [hrow]
    rw [this, hsh]
  · unfold Container.hypo hypoSize
    rw [h1, h2, h3, hcl, hi]

/-- **C241.** It is false that a smallest size is counted if the item does not shrink: with `flex: none` and `min-width` the
item sticks out. -/
theorem C241_min_fails :
    let i : Item := { shrink := 0, minSize := .calc (.length 200), minC := 100, maxC := 100 }
    mainSize 1000 { intrinsic := .maxContent } [i] = 100 ∧ Container.hypo 1000 { intrinsic := .maxContent } i = 200 := by
  decide +kernel

/-- **C241.** It is false that the padding of an item is counted if the item flexes and has a width. -/
theorem C241_padding_fails :
    let i : Item := { grow := 1, size := .calc (.length 100), edges := 40, minC := 0, maxC := 0 }
    mainSize 1000 { intrinsic := .maxContent } [i] = 100 ∧ Container.hypo 1000 { intrinsic := .maxContent } i = 140 := by
  decide +kernel

/-- **C241 (in part).** What an item that grows and shrinks wants of its container is the size of its content with its
margins, the smallest or the largest one as asked, or its width with its margins if that is more, as long as its limits
allow it.  Missing: padding of items that have a width (`C241_padding_fails`), limits (`C241_limit_fails`). -/
theorem C241_wants_partial (big inner base : Rat) (i : Item) (isMin : Bool) (w : Rat) (hg : i.grow ≠ 0)
    (hs : i.shrink ≠ 0) (hw : i.size = .calc (.length w))
    (want : Rat) (hwant : want = max (if isMin then i.minC + i.edges else i.maxC + i.edges) w + i.margin)
    (hlo : lower inner i ≤ want) (hhi : want ≤ upper big inner i) :
    contribution big inner base isMin i = want := by
  have h : max ((if isMin = true then i.minContent else i.maxContent) + i.margin) (w + i.margin) = want := by
    rw [hwant]
    exact max_add_add_right _ _ _
  unfold contribution
  simp only [hw, Calc.resolve, if_neg hg, if_neg hs]
  rw [h]
  unfold clamp
  rw [min_eq_left hhi, max_eq_right hlo]

/-- **C241 (in part).** The same without a width: an item takes its content with its margins; where the largest size is asked
for, no less than it had when it was laid out. -/
theorem C241_wants_auto_partial (big inner base : Rat) (i : Item) (hg : i.grow ≠ 0) (hs : i.shrink ≠ 0)
    (hw : i.size = .auto) :
    (lower inner i ≤ i.minC + i.edges + i.margin → i.minC + i.edges + i.margin ≤ upper big inner i →
      contribution big inner base true i = i.minC + i.edges + i.margin) ∧
    (lower inner i ≤ i.maxC + i.edges + i.margin → i.laid ≤ i.maxC + i.edges + i.margin →
      i.maxC + i.edges + i.margin ≤ upper big inner i →
      contribution big inner base false i = i.maxC + i.edges + i.margin) := by
  constructor
  · intro h1 h2
    unfold contribution
    simp only [hw, if_neg hg, if_neg hs, if_true, Item.minContent, clamp]
    rw [min_eq_left h2, max_eq_right h1]
  · intro h1 h3 h2
    unfold contribution
    simp only [hw, if_neg hg, if_neg hs, Bool.false_eq_true, if_false, Item.maxContent, clamp]
    rw [max_eq_left h3, min_eq_left h2, max_eq_right h1]

/-- `flex: 1 1 auto` with 7 of margins, and the same with `width: 25px`. -/
def sampleWants : Item := { grow := 1, margin := 7, edges := 5, minC := 10, maxC := 30 }

example : contribution 1000 0 0 true sampleWants = 22 ∧ contribution 1000 0 0 false sampleWants = 42 ∧
    contribution 1000 0 0 true { sampleWants with size := .calc (.length 25) } = 32 ∧
    lower 0 sampleWants ≤ 22 ∧ 42 ≤ upper 1000 0 sampleWants := by
  decide +kernel

/-- **C241.** It is false that margins come on top of the largest size of an item: `max-width` limits the item together with
its margins, so one at its limit has no room for them. -/
theorem C241_limit_fails (big inner base b : Rat) (i : Item) (isMin : Bool) (hm : i.maxSize = .calc (.length b))
    (hl : lower inner i ≤ b) : contribution big inner base isMin i ≤ b := by
  have hu : upper big inner i = b := by simp [upper, hm, Calc.resolve]
  unfold contribution clamp
  rw [hu]
  exact max_le hl (min_le_right _ _)

example : contribution 1000 0 0 false { sampleWants with maxSize := .calc (.length 35) } = 35 := by decide +kernel

theorem foldl_max_ge (l : List Rat) (a : Rat) : a ≤ l.foldl max a ∧ ∀ x ∈ l, x ≤ l.foldl max a := by
  induction l generalizing a with
  | nil => exact ⟨le_rfl, by simp⟩
  | cons y ys ih =>
    obtain ⟨h1, h2⟩ := ih (max a y)
    refine ⟨le_trans (le_max_left _ _) h1, ?_⟩
    intro x hx
    rcases List.mem_cons.1 hx with rfl | hx
    · exact le_trans (le_max_right _ _) h1
    · exact h2 x hx

/-- **C241.** A row that may wrap and is as narrow as its content lets it is at least as wide as every item may be. -/
theorem C241_wrap (big : Rat) (c : Container) (items : List Item) (hr : c.row = true) (hw : c.wrap = .wrap)
    (hi : c.intrinsic = .minContent) : ∀ i ∈ items, lower c.space i ≤ mainSize big c items := by
  intro i hm
  have : mainSize big c items =
      max (c.known.getD 0) ((items.map fun i => contribution big c.space (c.base i) true i).foldl max (-big)) := by
    simp [mainSize, hr, hi, hw]
  rw [this]
  refine le_trans ?_ (le_max_right _ _)
  refine le_trans ?_ ((foldl_max_ge _ _).2 _ (List.mem_map_of_mem hm))
  exact le_clamp _ _ _

/-- **C241.** It is false of `wrap-reverse`: its narrowest size is that of all items side by side. -/
theorem C241_reverse_fails :
    let i : Item := { minC := 50, maxC := 50 }
    mainSize 1000 { wrap := .wrap, intrinsic := .minContent } [i, i, i] = 50 ∧
    mainSize 1000 { wrap := .wrapReverse, intrinsic := .minContent } [i, i, i] = 150 := by
  decide +kernel

/-! ## C242 -/

/-- **C242.** A column without a height is just as high as its items with their margins, at the sizes they begin with. -/
theorem C242_column (big : Rat) (c : Container) (items : List Item) (hr : c.row = false) (hs : c.size = .auto) :
    mainSize big c items = (items.map fun i => c.hypo big i + i.margin).sum := by
  simp [mainSize, hr, hs]

/-- **C242.** A column with a height has it. -/
theorem C242_given (big : Rat) (c : Container) (items : List Item) (k : Calc) (w : Rat) (hr : c.row = false)
    (hs : c.size = .calc k) (hk : c.known = some w) (hi : c.intrinsic = .auto) : mainSize big c items = w := by
  simp [mainSize, hr, hs, hi, hk]

/-- **C242.** It is false that a column that is stretched, or kept between `top` and `bottom`, has the height it is given: it
is as high as its items. -/
theorem C242_stretched_fails (big w : Rat) (i : Item) (c : Container) (hr : c.row = false) (hs : c.size = .auto)
    (hn : c.hypo big i + i.margin ≠ w) (_hk : c.known = some w) : mainSize big c [i] ≠ w := by
  rw [C242_column big c [i] hr hs]
  simpa using hn

example : Container.hypo 1000 { row := false, known := some 300 } { minC := 20, maxC := 20 } + 0 ≠ 300 := by
  norm_num [Container.base, baseSize, definiteBasis, contentBase, Item.maxContent,
      Item.minContent, lower, upper, minAuto, Container.space, clamp, Container.hypo, hypoSize]

/-- **C242 (in part).** Margins and paddings of items that are lengths are those lengths, whenever they are asked for. -/
theorem C242_lengths_partial (v used cb : Rat) :
    flexMargin (.length v) = v ∧ placedMargin used (.length v) = v ∧ padding cb (.length v) = v := ⟨rfl, rfl, rfl⟩

/-- **C242.** It is false that percentages in margins of items refer to the container: they are zero while lines are made
and items flex, and then refer to the item itself, so items with such margins stick out. -/
theorem C242_margin_fails (p used inner : Rat) (hp : p ≠ 0) (hu : used ≠ inner) :
    flexMargin (.percent p) = 0 ∧ placedMargin used (.percent p) ≠ inner * p / 100 := by
  refine ⟨by simp [flexMargin, Calc.resolve], fun h => hu ?_⟩
  simp only [placedMargin, Calc.resolve] at h
  have h' : p / 100 ≠ 0 := by intro h0; exact hp (by linarith)
  apply mul_left_cancel₀ h'
  rw [h]; ring

/-- **C242.** It is false that percentages in paddings of items refer to the container: they refer to what the container
itself is in. -/
theorem C242_padding_fails (p cb inner : Rat) (hp : p ≠ 0) (hu : cb ≠ inner) : padding cb (.percent p) ≠ inner * p / 100 := by
  intro h
  apply hu
  simp only [padding, Calc.resolve] at h
  have h' : p / 100 ≠ 0 := by intro h0; exact hp (by linarith)
  apply mul_left_cancel₀ h'
  rw [h]; ring

end Verif.Basis
