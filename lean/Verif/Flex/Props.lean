import Verif.Flex.Whole
/-!
# Flexible boxes: properties
-/
namespace Verif.Flex
open Spec

/-! ## C133: laying out comes to an end -/

/-- If no minimum size is negative, resolving the flexible lengths takes at most as many turns as there are items,
whatever the rounding, and the container is laid out. -/
theorem C133_ends_partial (au : Rat → Rat) (slack : Rat) (c : Container) (items : List Item)
    (h : ∀ x ∈ items, 0 ≤ x.lo) (fuel : Nat) (hf : items.length ≤ fuel) :
    ∃ rows, layout au slack fuel c items = some rows := by
  have h1 : (sizeLines au fuel c.main (collect c.dir c.wrap c.main slack items)).isSome :=
    sizeLines_ends au fuel c.main _ fun l hl =>
      resolve_ends au c.main l (fun x hx => h x (collect_mem l hl x hx)) fuel (le_trans (collect_length l hl) hf)
  obtain ⟨b, hb⟩ := Option.isSome_iff_exists.1 h1
  exact ⟨_, by rw [layout, hb]; rfl⟩

/-- An item whose minimum is negative, and one that grows. -/
def endless : List Item :=
  [{ base := -10, lo := -10, hi := 1000, grow := 0, shrink := 0, crossHi := 1000, cross := fun _ => 0 },
   { base := 0, lo := 0, hi := 1000, grow := 1, shrink := 1, crossHi := 1000, cross := fun _ => 0 }]

theorem endless_turn (s : St) (hu : s.unfrozen = [1]) (hf : s.frozen = [0]) (hs : s.sumFrozen = -10)
    (h0 : s.used 0 = -10) (init : Rat) :
    ((job 100 endless).step id init s).unfrozen = [1] ∧ ((job 100 endless).step id init s).frozen = [0] ∧
      ((job 100 endless).step id init s).sumFrozen = -10 ∧ ((job 100 endless).step id init s).used 0 = -10 := by
  obtain ⟨j, hj⟩ : ∃ j, job 100 endless = j := ⟨_, rfl⟩
  have hgrow : j.growing = true := by rw [← hj]; decide +kernel
  have hfac : j.factors [1] = 1 := by rw [← hj]; decide +kernel
  have hout : j.outer [1] = 0 := by rw [← hj]; decide +kernel
  have hmain : j.main = 100 := by rw [← hj]; rfl
  have hfree : j.free s = 110 := by
    unfold Job.free
    rw [hu, hs, hout, hmain]
    norm_num
  have hshare : j.toShare init s = 110 := by
    unfold Job.toShare
    rw [hu, hfac, hfree, if_neg (by rintro ⟨h, _⟩; exact absurd h (lt_irrefl _))]
  have hg1 : (j.it 1).grow = 1 := by rw [← hj]; rfl
  have hb1 : (j.it 1).base = 0 := by rw [← hj]; rfl
  have htarget : j.target id init s 1 = 110 := by
    unfold Job.target
    rw [if_pos hgrow, hu, hfac, hshare, hg1, hb1]
    norm_num
  have hf0 : (j.it 0).fit (-10) = 0 := by rw [← hj]; decide +kernel
  have hf1 : (j.it 1).fit 110 = 110 := by rw [← hj]; decide +kernel
  obtain ⟨a, ha⟩ : ∃ a, j.aim id init s = a := ⟨_, rfl⟩
  have hau : a.unfrozen = [1] := by rw [← ha]; exact hu
  have haf : a.frozen = [0] := by rw [← ha]; exact hf
  have has : a.sumFrozen = -10 := by rw [← ha]; exact hs
  have ha1 : a.used 1 = 110 := by
    rw [← ha]
    simp only [Job.aim, hu, List.mem_singleton, if_true]
    exact htarget
  have ha0 : a.used 0 = -10 := by
    rw [← ha]
    simp only [Job.aim, hu, List.mem_singleton]
    rw [if_neg (by decide)]
    exact h0
  have hv : j.violation a = 10 := by
    unfold Job.violation Job.off
    rw [hau, haf]
    simp only [List.map_cons, List.map_nil, List.sum_cons, List.sum_nil, ha0, ha1, hf0, hf1]
    norm_num
  have hidx : j.indexes a = [] := by
    unfold Job.indexes
    rw [hau, hv]
    simp only [List.length_singleton, List.range_one, List.filter_cons, List.getD_cons_zero, List.filter_nil, Job.off,
      ha1, hf1]
    norm_num
  have hstep : j.step id init s = j.settle a := by
    unfold Job.step
    rw [ha]
    unfold Job.thaw
    rw [hv, hidx, if_neg (by norm_num)]
    rfl
  rw [hj, hstep]
  refine ⟨hau, haf, has, ?_⟩
  simp only [Job.settle, hau, List.mem_singleton]
  rw [if_neg (by decide)]
  exact ha0

/-- With a negative minimum size the loop need not end: two items, in a row 100 wide, of which one is 10 less than
nothing wide (`width: -10px; flex: none`) and the other grows. -/
theorem C133_ends_fails :
    ∃ (c : Container) (items : List Item), ∀ fuel, layout id (1 / 100) fuel c items = none := by
  refine ⟨{ main := 100, room := 100 }, endless, fun fuel => ?_⟩
  have key : ∀ (fuel : Nat) (s : St) (init : Rat), s.unfrozen = [1] → s.frozen = [0] → s.sumFrozen = -10 →
      s.used 0 = -10 → (job 100 endless).loop id init fuel s = none := by
    intro fuel
    induction fuel with
    | zero =>
      intro s init hu _ _ _
      rw [Job.loop, if_neg (by rw [hu]; simp)]
    | succ f ih =>
      intro s init hu hf hs h0
      rw [Job.loop, if_neg (by rw [hu]; simp)]
      obtain ⟨h1, h2, h3, h4⟩ := endless_turn s hu hf hs h0 init
      exact ih _ _ h1 h2 h3 h4
  have hr : resolve id fuel 100 endless = none := by
    rw [resolve_eq, key fuel _ _ (by decide +kernel) (by decide +kernel) (by decide +kernel) (by decide +kernel)]
    rfl
  unfold layout
  have hc : collect Direction.row Wrap.nowrap 100 (1 / 100) endless = [endless] := rfl
  simp only [hc, sizeLines, hr]
  rfl

/-! ## C134: limits -/

/-- The main size of every item is within its limits, the minimum counting more than the maximum; it is not negative
when its minimum is not. Any rounding. -/
theorem C134_limits (au : Rat → Rat) (slack : Rat) (fuel : Nat) (c : Container) (items : List Item) (rows : List Row)
    (h : layout au slack fuel c items = some rows) :
    ∀ r ∈ rows, ∀ p ∈ r.items, p.item.lo ≤ p.mainSize ∧ (0 ≤ p.item.lo → 0 ≤ p.mainSize) ∧
      (p.item.lo ≤ p.item.hi → 0 ≤ p.item.hi → p.mainSize ≤ p.item.hi) := by
  intro r hr p hp
  obtain ⟨line, _, sizes, h1, _, h2, h3, _⟩ := layout_row h hr
  obtain ⟨k, hk1, hk2⟩ := mem_pair (f := Placed.item) (g := Placed.mainSize) hp
  rw [h2] at hk1
  rw [h3] at hk2
  obtain ⟨v, hv⟩ := resolve_limits h1 k _ _ hk1 hk2
  rcases hv with hv | hv
  · rw [hv]
    unfold Item.hypo clamp
    exact ⟨le_max_left _ _, fun h0 => le_trans h0 (le_max_left _ _), fun hl _ => max_le hl (min_le_right _ _)⟩
  · rw [hv]
    unfold Item.fit clamp
    exact ⟨le_trans (le_max_left _ _) (le_max_left _ _), fun _ => le_max_right _ _,
      fun hl h0 => max_le (max_le hl (min_le_right _ _)) h0⟩

/-! ## C135: room is shared out fairly -/

/-- In each line there is one share for all: every item has its base size and, for each unit of its weight, that
share, as far as its limits allow. The line is full then, unless all items are at their limits. Missing: rounding,
and factors between zero and one (for which see `C135_portion`). -/
theorem C135_share_partial (slack : Rat) (fuel : Nat) (c : Container) (items : List Item) (rows : List Row)
    (hp : ∀ x ∈ items, 0 ≤ x.lo ∧ 0 ≤ x.base ∧ (x.grow = 0 ∨ 1 ≤ x.grow) ∧ (x.shrink = 0 ∨ 1 ≤ x.shrink))
    (h : layout id slack fuel c items = some rows) :
    ∀ r ∈ rows, Fair c.main (r.items.map Placed.item) (r.items.map Placed.mainSize) := by
  intro r hr
  obtain ⟨line, hl, sizes, h1, _, h2, h3, _⟩ := layout_row h hr
  rw [h2, h3]
  exact resolve_fair (fun x hx => hp x (collect_mem line hl x hx)) h1

/-- If no limit matters in a line, every item has exactly its portion of the room: any rounding that keeps zero, and
any factors. -/
theorem C135_portion (au : Rat → Rat) (h0 : au 0 = 0) (slack : Rat) (fuel : Nat) (c : Container) (items : List Item)
    (rows : List Row) (h : layout au slack fuel c items = some rows) (r : Row) (hr : r ∈ rows)
    (hp : ∀ x ∈ r.items.map Placed.item, 0 ≤ x.lo ∧ x.lo ≤ x.base ∧ x.base ≤ x.hi ∧ 0 ≤ x.grow ∧ 0 ≤ x.shrink ∧
      x.lo ≤ portion au c.main (r.items.map Placed.item) x ∧ portion au c.main (r.items.map Placed.item) x ≤ x.hi) :
    ∀ p ∈ r.items, p.mainSize = portion au c.main (r.items.map Placed.item) p.item := by
  obtain ⟨line, hl, sizes, h1, _, h2, h3, _⟩ := layout_row h hr
  rw [h2] at hp ⊢
  have := resolve_portion h0 hp h1
  rw [← h3, ← h2, List.map_map] at this
  intro p hpm
  rw [h2] at this
  exact List.map_inj_left.1 this p hpm

/-! ## C136: lines -/

/-- Every item is in exactly one line, in the order given; the lines of `row-reverse` are turned round. -/
theorem C136_items (au : Rat → Rat) (slack : Rat) (fuel : Nat) (c : Container) (items : List Item) (rows : List Row)
    (h : layout au slack fuel c items = some rows) :
    (rows.map fun r =>
      if c.dir = .rowReverse then (r.items.map Placed.item).reverse else r.items.map Placed.item).flatten = items ∧
    (c.wrap = .nowrap → rows.length = 1) := by
  unfold layout at h
  obtain ⟨boxes, h1, h2⟩ := Option.map_eq_some_iff.1 h
  have hrows := (placeAll_rows au c boxes).items
  rw [h2] at hrows
  have h3 : (rows.map fun r => r.items.map Placed.item) = collect c.dir c.wrap c.main slack items := by
    have h4 := congrArg (List.map (List.map Box.item)) (sized_lines au c boxes)
    rw [List.map_map] at h4
    rw [hrows, ← sizeLines_items _ _ _ _ _ h1]
    exact h4
  constructor
  · by_cases hd : c.dir = .rowReverse
    · have h5 : (rows.map fun r => (r.items.map Placed.item).reverse) =
          (collect c.dir c.wrap c.main slack items).map List.reverse := by
        rw [← h3, List.map_map]
        rfl
      simp only [hd, if_true]
      rw [h5]
      unfold collect
      simp only [hd, if_true, List.map_map]
      have h6 : (List.reverse ∘ List.reverse : List Item → List Item) = id := funext fun l => List.reverse_reverse l
      rw [h6, List.map_id]
      split
      · simp
      · exact wrapLines_flatten _ _ _
    · simp only [hd, if_false]
      rw [h3]
      unfold collect
      simp only [hd, if_false]
      split
      · simp
      · exact wrapLines_flatten _ _ _
  · intro hw
    have h5 := congrArg List.length h3
    rw [List.length_map] at h5
    rw [h5]
    unfold collect
    rw [if_pos hw]
    dsimp only
    split <;> rfl

theorem wish_reverse (l : List Item) : wish l.reverse = wish l := by
  unfold wish
  rw [List.map_reverse, List.sum_reverse]

/-- With `wrap`, lines take as many items as go on them. Missing: items that take no room (`C136_greedy_fails`). -/
theorem C136_greedy_partial (au : Rat → Rat) (slack : Rat) (fuel : Nat) (c : Container) (items : List Item)
    (rows : List Row) (hw : c.wrap ≠ .nowrap) (hp : ∀ x ∈ items, 0 < natural x + margins x)
    (h : layout au slack fuel c items = some rows) :
    Greedy c.main slack (rows.map fun r =>
      if c.dir = .rowReverse then (r.items.map Placed.item).reverse else r.items.map Placed.item) := by
  unfold layout at h
  obtain ⟨boxes, h1, h2⟩ := Option.map_eq_some_iff.1 h
  have hrows := (placeAll_rows au c boxes).items
  rw [h2] at hrows
  have h3 : (rows.map fun r => r.items.map Placed.item) = collect c.dir c.wrap c.main slack items := by
    have h4 := congrArg (List.map (List.map Box.item)) (sized_lines au c boxes)
    rw [List.map_map] at h4
    rw [hrows, ← sizeLines_items _ _ _ _ _ h1]
    exact h4
  have key := wrapLines_greedy c.main slack items hp
  by_cases hd : c.dir = .rowReverse
  · have h5 : (rows.map fun r => (r.items.map Placed.item).reverse) =
        (collect c.dir c.wrap c.main slack items).map List.reverse := by
      rw [← h3, List.map_map]
      rfl
    simp only [hd, if_true]
    rw [h5]
    unfold collect
    have h6 : (List.reverse ∘ List.reverse : List Item → List Item) = id := funext fun l => List.reverse_reverse l
    simp only [hd, if_true, List.map_map, hw, if_false]
    rw [h6, List.map_id]
    exact key
  · simp only [hd, if_false]
    rw [h3]
    unfold collect
    simp only [hd, if_false, hw]
    exact key

/-! ## C137: `justify-content` -/

/-- Items lie in their line as `justify-content` says. Missing: `space-evenly`, which is not done
(`C137_evenly_fails`), and rounding. -/
theorem C137_justify_partial (slack : Rat) (fuel : Nat) (c : Container) (items : List Item) (rows : List Row)
    (hne : items ≠ []) (hd : c.dir ≠ .rowReverse) (hev : c.justify ≠ .spaceEvenly)
    (h : layout id slack fuel c items = some rows) :
    ∀ r ∈ rows, Justified c.justify c.main r.items := by
  intro r hr
  obtain ⟨line, hl, sizes, h1, h4, _, _, _⟩ := layout_row h hr
  have := lineItems_justified c r.start r.size _ (fresh_make line sizes)
    (zipWith_ne_nil (resolve_length h1) (collect_ne_nil hne line hl)) hev
  rw [← h4] at this
  unfold turned at this
  rwa [if_neg hd] at this

theorem spaced_total (g : Rat) : ∀ (ps : List Placed) (a b : Rat), ps ≠ [] → Spaced g a ps b →
    b = a + (ps.map fun p => p.startMain + p.mainSize + p.endMain).sum + ((ps.length - 1 : Nat) : Rat) * g
  | [], _, _, h, _ => absurd rfl h
  | [p], a, b, _, h => by
    simp only [Spaced] at h
    simp
    linarith [h.1, h.2]
  | p :: q :: ps, a, b, _, h => by
    simp only [Spaced] at h
    have ih := spaced_total g (q :: ps) _ b (by simp) h.2
    rw [ih, List.map_cons (l := q :: ps), List.sum_cons]
    simp only [List.length_cons, Nat.add_sub_cancel]
    push_cast
    linarith [h.1]

/-! ## C138: reversed directions -/

/-- In `row-reverse` the items lie in their line as `justify-content` says, seen from the other end. Missing:
`space-between` with one item, or too many (`C138_between_fails`). -/
theorem C138_reverse_partial (slack : Rat) (fuel : Nat) (c : Container) (items : List Item) (rows : List Row)
    (hne : items ≠ []) (hd : c.dir = .rowReverse) (hev : c.justify ≠ .spaceEvenly)
    (h : layout id slack fuel c items = some rows) :
    ∀ r ∈ rows, (c.justify = .spaceBetween → 2 ≤ r.items.length ∧
        taken (r.items.map Placed.item) (r.items.map Placed.mainSize) ≤ c.main) →
      Justified c.justify c.main (r.items.reverse.map (mirror c.main)) := by
  intro r hr hb
  obtain ⟨line, hl, sizes, h1, h4, h5, h6, _⟩ := layout_row h hr
  have hz := zipWith_ne_nil (resolve_length h1) (collect_ne_nil hne line hl)
  have hj := lineItems_justified c r.start r.size _ (fresh_make line sizes) hz hev
  rw [← h4] at hj
  unfold turned at hj
  rw [if_pos hd] at hj
  obtain ⟨how, hhow⟩ : ∃ how, c.justify = how := ⟨_, rfl⟩
  rw [hhow] at hj hb hev ⊢
  cases how <;> simp only [Justified] at hj ⊢
  case flexStart =>
    simp only [if_true] at hj
    obtain ⟨a, ha⟩ := hj
    have := spaced_mirror c.main 0 _ _ _ ha
    rw [sub_self] at this
    exact ⟨_, this⟩
  case flexEnd =>
    obtain ⟨b, hb⟩ := (by simpa [Justified] using hj : ∃ b, Spaced 0 0 r.items b)
    have := spaced_mirror c.main 0 _ _ _ hb
    rw [sub_zero] at this
    exact ⟨_, this⟩
  case center =>
    obtain ⟨a, ha⟩ := (by simpa [Justified] using hj : ∃ a, Spaced 0 a r.items (c.main - a))
    have := spaced_mirror c.main 0 _ _ _ ha
    rw [sub_sub_cancel] at this
    exact ⟨_, this⟩
  case spaceAround =>
    obtain ⟨g, hg⟩ := (by simpa [Justified] using hj :
      ∃ g, Spaced (max g 0) (g / 2) r.items (c.main - g / 2))
    have := spaced_mirror c.main _ _ _ _ hg
    rw [sub_sub_cancel] at this
    exact ⟨g, this⟩
  case spaceEvenly => exact absurd rfl hev
  case spaceBetween =>
    have hj' : Justified .spaceBetween c.main r.items := hj
    simp only [Justified] at hj'
    obtain ⟨g, b, h0, hs, he⟩ := hj'
    have hitems : r.items ≠ [] := by
      intro hn
      rw [hn] at h5
      exact collect_ne_nil hne line hl h5.symm
    have hbm : b = c.main := by
      rcases he with he | ⟨rfl, he | he⟩
      · exact he
      · exfalso
        have ht := (hb rfl).2
        rw [h5, h6, ← occupied_make] at ht
        obtain ⟨g', a', b', hg', ha', hb', hs'⟩ := lineItems_within c r.start r.size _ (fresh_make line sizes) hz ht
        rw [← h4] at hs'
        have e1 := spaced_total 0 _ _ _ hitems hs
        have e2 := spaced_total g' _ _ _ hitems hs'
        have e3 : 0 ≤ ((r.items.length - 1 : Nat) : Rat) * g' := mul_nonneg (Nat.cast_nonneg _) hg'
        linarith
      · have := (hb rfl).1
        omega
    subst hbm
    have := spaced_mirror c.main g _ _ _ hs
    rw [sub_self, sub_zero] at this
    exact ⟨g, c.main, h0, this, Or.inl rfl⟩

/-! ## C139: `auto` margins -/

/-- The `auto` margins along the main direction are all the same, and not negative. If there is one, and the items
with their other margins leave room, they take all of it; if they leave none, the margins are zero. -/
theorem C139_auto_margins (slack : Rat) (fuel : Nat) (c : Container) (items : List Item) (rows : List Row)
    (hne : items ≠ []) (h : layout id slack fuel c items = some rows) :
    ∀ r ∈ rows, ∃ m : Rat, 0 ≤ m ∧
      (∀ p ∈ r.items, p.startMain = p.item.startMain.getD m ∧ p.endMain = p.item.endMain.getD m) ∧
      (c.main ≤ taken (r.items.map Placed.item) (r.items.map Placed.mainSize) → m = 0) ∧
      ((∃ p ∈ r.items, p.item.startMain = none ∨ p.item.endMain = none) →
        taken (r.items.map Placed.item) (r.items.map Placed.mainSize) < c.main → Spaced 0 0 r.items c.main) := by
  intro r hr
  obtain ⟨line, hl, sizes, h1, h4, h5, h6, _⟩ := layout_row h hr
  have hz := zipWith_ne_nil (resolve_length h1) (collect_ne_nil hne line hl)
  obtain ⟨m, h0, hm, hp⟩ := lineItems_margins c r.start r.size line sizes
  rw [← h4] at hp
  refine ⟨m, h0, hp, ?_, ?_⟩
  · intro ht
    rw [h5, h6] at ht
    exact hm (not_lt.2 ht)
  · rintro ⟨p, hpm, hpa⟩ ht
    rw [h5, h6, ← occupied_make] at ht
    have ha : autos (List.zipWith Box.make line sizes) ≠ 0 := by
      have : p.item ∈ (List.zipWith Box.make line sizes).map Box.item := by
        rw [zipWith_item _ _ (resolve_length h1), ← h5]
        exact List.mem_map.2 ⟨p, hpm, rfl⟩
      obtain ⟨b, hb, he⟩ := List.mem_map.1 this
      exact autos_pos _ b hb (by rw [he]; exact hpa)
    have := lineItems_filled c r.start r.size _ (fresh_make line sizes) hz ht ha
    rwa [← h4] at this

/-! ## C140: across the line -/

/-- An item without `auto` margins across lies in its line as `align-self` says, or `align-items` of the container
when it is `auto`. -/
theorem C140_across (slack : Rat) (fuel : Nat) (c : Container) (items : List Item) (rows : List Row)
    (h : layout id slack fuel c items = some rows) :
    ∀ r ∈ rows, ∀ p ∈ r.items, p.item.startCross ≠ none → p.item.endCross ≠ none →
      Across (if p.item.alignSelf = .auto then c.alignItems else p.item.alignSelf) r p := by
  intro r hr p hp hs he
  obtain ⟨line, hl, sizes, h1, h4, _, _, _⟩ := layout_row h hr
  rw [h4] at hp
  obtain ⟨b, hb, b', hsame, rfl⟩ := lineItems_mem hp
  obtain ⟨k, x, s, _, _, rfl⟩ := mem_zipWith_make _ _ _ hb
  have hx : ((alignItem id c.alignItems r.size (crossMargins id r.size b')).commit r.start).item = x := by
    obtain ⟨u, v, w, rfl⟩ := hsame
    rw [finish_item]
    rfl
  rw [hx] at hs he ⊢
  exact across_item c r.start r.size x s b' hsame hs he r.items

/-- An item with `auto` margins across: if it leaves room in its line, these margins take all of it, both the same if
both are `auto`; the others stay as they are. -/
theorem C140_auto_margins (slack : Rat) (fuel : Nat) (c : Container) (items : List Item) (rows : List Row)
    (h : layout id slack fuel c items = some rows) :
    ∀ r ∈ rows, ∀ p ∈ r.items, p.item.startCross = none ∨ p.item.endCross = none →
      p.crossSize + (p.item.startCross.getD 0 + p.item.endCross.getD 0) < r.size →
      p.cross - p.startCross = r.start ∧ p.cross + p.crossSize + p.endCross = r.start + r.size ∧
      (∀ m ∈ p.item.startCross, p.startCross = m) ∧ (∀ m ∈ p.item.endCross, p.endCross = m) ∧
      (p.item.startCross = none → p.item.endCross = none → p.startCross = p.endCross) := by
  intro r hr p hp hauto hroom
  obtain ⟨line, hl, sizes, h1, h4, _, _, _⟩ := layout_row h hr
  rw [h4] at hp
  obtain ⟨b, hb, b', ⟨u, v, w, rfl⟩, rfl⟩ := lineItems_mem hp
  obtain ⟨k, x, s, _, _, rfl⟩ := mem_zipWith_make _ _ _ hb
  obtain ⟨q, hq⟩ : ∃ q, ({ usedCross c.alignItems r.size (Box.make x s) with startMain := u, endMain := v, pos := w } : Box) = q :=
    ⟨_, rfl⟩
  rw [hq] at hauto hroom ⊢
  have hqi : q.item = x := by rw [← hq]; rfl
  have hqs : q.startCross = x.startCross.getD 0 := by rw [← hq]; rfl
  have hqe : q.endCross = x.endCross.getD 0 := by rw [← hq]; rfl
  have hqp : q.crossPos = 0 := by rw [← hq]; rfl
  rw [finish_item, hqi] at hauto hroom ⊢
  have hsz : ((alignItem id c.alignItems r.size (crossMargins id r.size q)).commit r.start).crossSize = q.crossSize := by
    obtain ⟨p1, hp1⟩ := alignItem_keeps id c.alignItems r.size (crossMargins id r.size q)
    obtain ⟨a, b, p2, hp2⟩ := crossMargins_keeps id r.size q
    rw [hp1, hp2]
    rfl
  rw [hsz] at hroom
  -- the margins
  obtain ⟨t, ht⟩ : ∃ t, crossMargins id r.size q = t := ⟨_, rfl⟩
  have hti : t.item = x ∧ t.crossSize = q.crossSize := by
    obtain ⟨a, b, p2, hp2⟩ := crossMargins_keeps id r.size q
    rw [← ht, hp2]
    exact ⟨hqi, rfl⟩
  have hm : t.crossPos = t.startCross ∧ t.startCross + t.crossSize + t.endCross = r.size ∧
      (∀ m ∈ x.startCross, t.startCross = m) ∧ (∀ m ∈ x.endCross, t.endCross = m) ∧
      (x.startCross = none → x.endCross = none → t.startCross = t.endCross) := by
    rw [← ht]
    unfold crossMargins
    rw [hqi, if_pos hauto, if_pos (by rw [hqs, hqe]; exact hroom)]
    rcases hs : x.startCross with _ | a
    · rcases he : x.endCross with _ | b
      · simp only [ne_eq, not_true_eq_false, if_false, id_eq]
        refine ⟨trivial, ?_, ?_, ?_, ?_⟩
        · ring
        · intro m hm; cases hm
        · intro m hm; cases hm
        · intros; trivial
      · simp only [ne_eq, not_true_eq_false, if_false, reduceCtorEq, not_false_eq_true, if_true]
        rw [he] at hqe
        simp only [Option.getD_some] at hqe
        refine ⟨trivial, ?_, ?_, ?_, ?_⟩
        · ring
        · intro m hm; cases hm
        · intro m hm
          rw [← Option.some.inj hm, hqe]
        · intro _ hn; cases hn
    · rcases he : x.endCross with _ | b
      · simp only [ne_eq, reduceCtorEq, not_false_eq_true, if_true]
        rw [hs] at hqs
        simp only [Option.getD_some] at hqs
        refine ⟨trivial, ?_, ?_, ?_, ?_⟩
        · ring
        · intro m hm
          rw [← Option.some.inj hm, hqs]
        · intro m hm; cases hm
        · intro hn; cases hn
      · rw [hs, he] at hauto
        rcases hauto with h | h <;> cases h
  have hca : t.crossMarginAuto = true := by
    unfold Box.crossMarginAuto
    rw [hti.1]
    simpa using hauto
  have hal : (alignItem id c.alignItems r.size t).crossPos = t.startCross ∧
      (alignItem id c.alignItems r.size t).startCross = t.startCross ∧
      (alignItem id c.alignItems r.size t).endCross = t.endCross := by
    unfold alignItem
    split <;> simp only [hca, if_true] <;> simp [hm.1]
  rw [ht] at hsz ⊢
  have e1 : ((alignItem id c.alignItems r.size t).commit r.start).cross = t.startCross + r.start := by
    show (alignItem id c.alignItems r.size t).crossPos + r.start = _
    rw [hal.1]
  have e2 : ((alignItem id c.alignItems r.size t).commit r.start).startCross = t.startCross := hal.2.1
  have e3 : ((alignItem id c.alignItems r.size t).commit r.start).endCross = t.endCross := hal.2.2
  rw [e1, e2, e3, hsz, ← hti.2]
  refine ⟨by ring, ?_, hm.2.2.1, hm.2.2.2.1, hm.2.2.2.2⟩
  linarith [hm.2.1]

/-! ## C141: `align-content` -/

/-- The lines lie in the container as `align-content` says; `stretch` makes them fill it, if they leave room and the
size of the container is known or `auto`. -/
theorem C141_lines (slack : Rat) (fuel : Nat) (c : Container) (items : List Item) (rows : List Row)
    (hne : items ≠ []) (h : layout id slack fuel c items = some rows) :
    Piled c.alignContent c.room rows ∧
    (c.alignContent = .stretch → (c.crossAuto = true ∨ c.known.isSome) →
      ∃ b, Stacked 0 0 rows b ∧ c.room ≤ b) := by
  unfold layout at h
  obtain ⟨boxes, h1, h2⟩ := Option.map_eq_some_iff.1 h
  have hb : boxes ≠ [] := by
    intro hn
    have h3 := sizeLines_items _ _ _ _ _ h1
    rw [hn] at h3
    have h4 : items = [] := by
      have h5 : ∀ x ∈ items, False := by
        intro x hx
        have : x ∈ (collect c.dir c.wrap c.main slack items).flatten := by
          unfold collect
          dsimp only
          have h6 : x ∈ (if c.wrap = .nowrap then [items] else wrapLines c.main slack items).flatten := by
            split
            · simpa using hx
            · rw [wrapLines_flatten]; exact hx
          split
          · obtain ⟨l, hl, hxl⟩ := List.mem_flatten.1 h6
            exact List.mem_flatten.2 ⟨_, List.mem_map.2 ⟨l, hl, rfl⟩, List.mem_reverse.2 hxl⟩
          · exact h6
        rw [← h3] at this
        simp at this
      exact List.eq_nil_iff_forall_not_mem.2 h5
    exact hne h4
  have hs : sized id c boxes ≠ [] := by
    intro hn
    have := sized_lines id c boxes
    rw [hn] at this
    exact hb this.symm
  have hs' : (sized id c boxes).map (finishLine id c) ≠ [] := by simpa using hs
  constructor
  · rw [← h2]
    exact alignLines_piled c.alignContent c.room _ hs'
  · intro ha hk
    have key := placeLines_stacked 0 ((sized id c boxes).map (finishLine id c)) 0 hs'
    have he : rows = (placeLines 0 0 ((sized id c boxes).map (finishLine id c))).map toRow := by
      rw [← h2]
      have : placeAll id c boxes =
          (alignLines id c.alignContent c.room ((sized id c boxes).map (finishLine id c))).map toRow := rfl
      rw [this, ha]
      rfl
    rw [← he] at key
    refine ⟨_, key, ?_⟩
    have hsum : (((sized id c boxes).map (finishLine id c)).map (·.1)).sum = ((sized id c boxes).map (·.1)).sum := by
      rw [List.map_map]
      rfl
    rw [hsum]
    have hge : c.room ≤ ((sized id c boxes).map (·.1)).sum := by
      unfold sized stretchLines
      rw [if_pos ⟨hk, ha⟩]
      split
      · rename_i hlt
        obtain ⟨ls, hls⟩ : ∃ ls, crossSizes c.known boxes = ls := ⟨_, rfl⟩
        rw [hls] at hlt ⊢
        have hlen : ls.length ≠ 0 := by
          intro hn
          have h3 := congrArg List.length (crossSizes_lines c.known boxes)
          rw [List.length_map, hls, hn] at h3
          exact hb (List.length_eq_zero_iff.1 h3.symm)
        have hadd : ∀ (d : Rat) (l : List (Rat × List Box)),
            ((l.map fun x => (x.1 + d, x.2)).map (·.1)).sum = (l.map (·.1)).sum + (l.length : Rat) * d := by
          intro d l
          induction l with
          | nil => simp
          | cons x l ih =>
            simp only [List.map_cons, List.sum_cons, List.length_cons]
            rw [ih]
            push_cast
            ring
        have := hadd ((c.room - (ls.map (·.1)).sum) / ls.length) ls
        refine le_of_eq (Eq.trans ?_ this.symm)
        rw [mul_div_cancel₀ _ (by exact_mod_cast hlen)]
        ring
      · rename_i hge
        exact not_lt.1 hge
    linarith

/-! ## C142: items do not overlap -/

/-- No two items of a container overlap. When there are several lines, each item is inside its line. Missing:
rounding, negative margins, items aligned by baseline. -/
theorem C142_apart_partial (slack : Rat) (fuel : Nat) (c : Container) (items : List Item) (rows : List Row)
    (hne : items ≠ []) (hd : ∀ x ∈ items, Decent x) (h : layout id slack fuel c items = some rows) :
    (rows.flatMap Row.items).Pairwise Apart ∧
    (rows.length ≠ 1 → ∀ r ∈ rows, ∀ p ∈ r.items, r.start ≤ p.cross ∧ p.cross + p.crossSize ≤ r.start + r.size) := by
  have hline : ∀ r ∈ rows, r.items.Pairwise Apart := by
    intro r hr
    obtain ⟨line, hl, sizes, h1, h4, h5, h6, _⟩ := layout_row h hr
    have hz := zipWith_ne_nil (resolve_length h1) (collect_ne_nil hne line hl)
    obtain ⟨g, a, b, hg, hs⟩ := lineItems_gap c r.start r.size _ (fresh_make line sizes) hz
    have hn : ∀ p ∈ r.items, p.Nonneg := by
      rw [h4]
      refine lineItems_nonneg c r.start r.size _ ?_
      intro b hb
      obtain ⟨k, x, s, hx, hs, rfl⟩ := mem_zipWith_make _ _ _ hb
      have hxd := hd x (collect_mem line hl x (List.mem_of_getElem? hx))
      refine ⟨getD_nonneg hxd.startMain, getD_nonneg hxd.endMain, ?_⟩
      obtain ⟨v, hv | hv⟩ := resolve_limits h1 k x s hx hs
      · show 0 ≤ s
        rw [hv]
        exact le_trans hxd.lo (le_max_left _ _)
      · show 0 ≤ s
        rw [hv]
        exact le_max_right _ _
    rw [← h4] at hs
    exact (spaced_pairwise g hg _ _ _ hn hs).imp fun h => Or.inl h
  obtain ⟨boxes, h1, h2⟩ := Option.map_eq_some_iff.1 (show _ = some rows from h)
  have hlen : rows.length = boxes.length := by
    have h3 := congrArg List.length (placeAll_rows id c boxes).items
    have h4 := congrArg List.length (sized_lines id c boxes)
    rw [h2, List.length_map, List.length_map] at h3
    rw [List.length_map] at h4
    omega
  have hin : rows.length ≠ 1 → ∀ r ∈ rows, 0 ≤ r.size ∧
      ∀ p ∈ r.items, r.start ≤ p.cross ∧ p.cross + p.crossSize ≤ r.start + r.size := by
    intro h1n r hr
    obtain ⟨line, hl, sizes, h5, h6, _, _, boxes', h7, _, h8⟩ := layout_row h hr
    obtain rfl : boxes' = boxes := Option.some.inj (h7.symm.trans h1)
    have hroom := sized_room c boxes' (by rw [← hlen]; exact h1n) _ h8
    refine ⟨le_trans (lineCross_nonneg _) hroom, ?_⟩
    intro p hp
    rw [h6] at hp
    obtain ⟨b, hb, b', hsame, rfl⟩ := lineItems_mem hp
    obtain ⟨k, x, s, hx, hs, rfl⟩ := mem_zipWith_make _ _ _ hb
    have hxd := hd x (collect_mem line hl x (List.mem_of_getElem? hx))
    exact item_inside c r.start r.size x s b' hxd hsame
      (le_trans (lineCross_ge _ _ hb hxd.baseline) hroom)
  refine ⟨?_, fun hn r hr => (hin hn r hr).2⟩
  rw [List.flatMap, List.pairwise_flatten]
  constructor
  · intro l hl
    obtain ⟨r, hr, rfl⟩ := List.mem_map.1 hl
    exact hline r hr
  · rw [List.pairwise_map]
    by_cases hn : rows.length = 1
    · obtain ⟨r, rfl⟩ := List.length_eq_one_iff.1 hn
      exact List.pairwise_singleton _ _
    · by_cases hrn : rows = []
      · rw [hrn]; exact .nil
      have hs' : (sized id c boxes).map (finishLine id c) ≠ [] := by
        intro hnil
        have h3 := congrArg List.length (sized_lines id c boxes)
        rw [List.length_map, List.map_eq_nil_iff.1 hnil, ← hlen] at h3
        exact hrn (List.length_eq_zero_iff.1 h3.symm)
      obtain ⟨g, a, b, hg, hst⟩ := alignLines_gap c.alignContent c.room _ hs'
      have he : (alignLines id c.alignContent c.room ((sized id c boxes).map (finishLine id c))).map toRow = rows := h2
      rw [he] at hst
      have hp := stacked_pairwise g hg rows a b (fun r hr => (hin hn r hr).1) hst
      refine List.Pairwise.imp_of_mem ?_ hp
      intro r q hr hq hrq x hx y hy
      have e1 := (hin hn r hr).2 x hx
      have e2 := (hin hn q hq).2 y hy
      exact Or.inr (Or.inr (Or.inl (by linarith [e1.2, e2.1])))

/-! ## C143: items stay inside the container -/

/-- If the items of a line find room with the sizes they would like to have, they lie inside the container along the
main direction. Missing: rounding, factors between zero and one. -/
theorem C143_inside_partial (slack : Rat) (fuel : Nat) (c : Container) (items : List Item) (rows : List Row)
    (hne : items ≠ []) (hd : ∀ x ∈ items, Decent x)
    (hp : ∀ x ∈ items, 0 ≤ x.base ∧ (x.grow = 0 ∨ 1 ≤ x.grow) ∧ (x.shrink = 0 ∨ 1 ≤ x.shrink))
    (h : layout id slack fuel c items = some rows) :
    ∀ r ∈ rows, wish (r.items.map Placed.item) ≤ c.main →
      ∀ p ∈ r.items, 0 ≤ p.main ∧ p.main + p.mainSize ≤ c.main := by
  intro r hr hw
  obtain ⟨line, hl, sizes, h1, h4, h5, h6, _⟩ := layout_row h hr
  have hz := zipWith_ne_nil (resolve_length h1) (collect_ne_nil hne line hl)
  have hmem := fun x hx => hd x (collect_mem line hl x hx)
  have hmem' := fun x hx => hp x (collect_mem line hl x hx)
  have hfair := resolve_fair (fun x hx => ⟨(hmem x hx).lo, hmem' x hx⟩) h1
  rw [h5] at hw
  have hnat : ∀ (g : Bool) (x : Item), x ∈ line → share g x 0 = natural x := by
    intro g x hx
    unfold share allowed natural
    rw [mul_zero, add_zero]
    exact max_eq_right (le_trans (hmem x hx).lo (le_max_left _ _))
  have hzero : ∀ g : Bool, taken line (line.map (share g · 0)) = wish line := by
    intro g
    rw [taken_map]
    unfold wish
    congr 1
    refine List.map_congr_left fun x hx => ?_
    rw [hnat g x hx]
  have htaken : taken line sizes ≤ c.main := by
    obtain ⟨l, hl1, hl2, hs, ht⟩ := hfair
    rcases ht with ht | ⟨ht, _⟩ | ⟨ht, hall⟩
    · exact ht.le
    · exact ht.le
    · rcases lt_or_ge (wish line) c.main with hlt | hge
      · have := hall 0 (hl1 hlt)
        rw [← this, hzero] at ht ⊢
        exact hw
      · -- the wish is exactly what there is: with `l ≤ 0` no item gets more
        have hle := hl2 hge
        have hmono : taken line sizes ≤ wish line := by
          obtain ⟨g, hg⟩ : ∃ g, decide (wish line < c.main) = g := ⟨_, rfl⟩
          rw [hg] at hs
          rw [hs, taken_map, ← hzero g, taken_map]
          refine sum_map_le _ _ _ fun x hx => ?_
          have hw0 : 0 ≤ weight g x := by
            unfold weight
            have := hmem' x hx
            split
            · rcases this.2.1 with h | h <;> linarith
            · exact mul_nonneg this.1 (by rcases this.2.2 with h | h <;> linarith)
          have h7 : weight g x * l ≤ weight g x * 0 :=
            mul_le_mul_of_nonneg_left hle hw0
          have h8 : share g x l ≤ share g x 0 := by
            unfold share allowed
            exact max_le_max le_rfl (max_le_max le_rfl (min_le_min (by linarith) le_rfl))
          linarith
        linarith
  obtain ⟨g, a, b, hg, ha, hb, hs⟩ := lineItems_within c r.start r.size _ (fresh_make line sizes) hz
    (by rw [occupied_make]; exact htaken)
  rw [← h4] at hs
  have hn : ∀ p ∈ r.items, p.Nonneg := by
    rw [h4]
    refine lineItems_nonneg c r.start r.size _ ?_
    intro b hb
    obtain ⟨k, x, s, hx, hs, rfl⟩ := mem_zipWith_make _ _ _ hb
    have hxd := hmem x (List.mem_of_getElem? hx)
    refine ⟨getD_nonneg hxd.startMain, getD_nonneg hxd.endMain, ?_⟩
    obtain ⟨v, hv | hv⟩ := resolve_limits h1 k x s hx hs
    · show 0 ≤ s
      rw [hv]
      exact le_trans hxd.lo (le_max_left _ _)
    · show 0 ≤ s
      rw [hv]
      exact le_max_right _ _
  intro p hpm
  have e1 := spaced_from g hg _ _ _ hn hs p hpm
  have e2 := spaced_upto g hg _ _ _ hn hs p hpm
  exact ⟨by linarith, by linarith⟩

/-! ## Where the code is wrong -/

/-- What can be seen of a layout. -/
def view (rows : List Row) : List (List (List Rat)) :=
  rows.map fun r => [r.start, r.size] :: r.items.map fun p =>
    [p.main, p.mainSize, p.startMain, p.endMain, p.cross, p.crossSize, p.startCross, p.endCross]

/-- A rigid item. -/
def brick (size : Rat) : Item :=
  { base := size, lo := 0, hi := 1000, grow := 0, shrink := 0, crossHi := 1000, cross := fun _ => 30 }

theorem seen {o : Option (List Row)} {v : List (List (List Rat))} (h : o.map view = some v) :
    ∃ rows, o = some rows ∧ view rows = v := by
  obtain ⟨rows, h1, h2⟩ := Option.map_eq_some_iff.1 h
  exact ⟨rows, h1, h2⟩

theorem seen_item {ps : List Placed} {a b c d e f g h : Rat} {l : List (List Rat)}
    (hv : (ps.map fun p =>
      [p.main, p.mainSize, p.startMain, p.endMain, p.cross, p.crossSize, p.startCross, p.endCross]) =
      [a, b, c, d, e, f, g, h] :: l) :
    ∃ p rest, ps = p :: rest ∧ p.main = a ∧ p.mainSize = b ∧ p.startMain = c ∧ p.endMain = d ∧ p.cross = e ∧
      p.crossSize = f ∧ p.startCross = g ∧ p.endCross = h ∧ (rest.map fun p =>
        [p.main, p.mainSize, p.startMain, p.endMain, p.cross, p.crossSize, p.startCross, p.endCross]) = l := by
  cases ps with
  | nil => simp at hv
  | cons p rest =>
    simp only [List.map_cons, List.cons.injEq, and_true] at hv
    obtain ⟨⟨h1, h2, h3, h4, h5, h6, h7, h8⟩, h9⟩ := hv
    exact ⟨p, rest, rfl, h1, h2, h3, h4, h5, h6, h7, h8, h9⟩

theorem seen_row {rows : List Row} {a b : Rat} {l : List (List Rat)} {m : List (List (List Rat))}
    (hv : view rows = ([a, b] :: l) :: m) :
    ∃ r rest, rows = r :: rest ∧ r.start = a ∧ r.size = b ∧ (r.items.map fun p =>
      [p.main, p.mainSize, p.startMain, p.endMain, p.cross, p.crossSize, p.startCross, p.endCross]) = l ∧
      view rest = m := by
  cases rows with
  | nil => simp [view] at hv
  | cons r rest =>
    simp only [view, List.map_cons, List.cons.injEq, and_true] at hv
    obtain ⟨⟨⟨h1, h2⟩, h3⟩, h4⟩ := hv
    exact ⟨r, rest, rfl, h1, h2, h3, h4⟩

theorem none_left {ps : List Placed} (h : (ps.map fun p =>
    [p.main, p.mainSize, p.startMain, p.endMain, p.cross, p.crossSize, p.startCross, p.endCross]) = []) : ps = [] :=
  List.map_eq_nil_iff.1 h

/-- A first item that takes no room does not count: the item after it is put on its line though the line is too
short for it. -/
theorem C136_greedy_fails : ∃ (c : Container) (items : List Item) (rows : List Row),
    c.wrap = .wrap ∧ c.dir = .row ∧ layout id (1 / 100) 2 c items = some rows ∧
      ¬Greedy c.main (1 / 100) (rows.map fun r => r.items.map Placed.item) := by
  have hv : (layout id (1 / 100) 2 { main := 100, room := 100, wrap := .wrap } [brick 0, brick 200]).map view =
      some [[[0, 100], [0, 0, 0, 0, 0, 100, 0, 0], [0, 200, 0, 0, 0, 100, 0, 0]]] := by decide +kernel
  obtain ⟨rows, h1, h2⟩ := seen hv
  obtain ⟨r, rest, rfl, _, _, h3, h4⟩ := seen_row h2
  obtain rfl : rest = [] := List.map_eq_nil_iff.1 h4
  refine ⟨{ main := 100, room := 100, wrap := .wrap }, [brick 0, brick 200], [r], rfl, rfl, h1, ?_⟩
  intro hg
  have hi := (C136_items _ _ _ _ _ _ h1).1
  simp only [List.map_cons, List.map_nil, List.flatten_cons, List.flatten_nil, List.append_nil, reduceCtorEq,
    if_false] at hi
  have := (hg.fits _ List.mem_cons_self).2
  dsimp only at this
  rw [hi] at this
  revert this
  decide +kernel

/-- `space-evenly` does nothing: the items stay at the beginning. -/
theorem C137_evenly_fails : ∃ (c : Container) (items : List Item) (rows : List Row),
    c.dir = .row ∧ c.justify = .spaceEvenly ∧ layout id (1 / 100) 1 c items = some rows ∧
      ∃ r ∈ rows, ¬Justified .spaceEvenly c.main r.items := by
  have hv : (layout id (1 / 100) 1 { main := 100, room := 100, justify := .spaceEvenly } [brick 10]).map view =
      some [[[0, 100], [0, 10, 0, 0, 0, 100, 0, 0]]] := by decide +kernel
  obtain ⟨rows, h1, h2⟩ := seen hv
  obtain ⟨r, rest, rfl, _, _, h3, _⟩ := seen_row h2
  obtain ⟨p, ps, h4, e1, e2, e3, e4, _, _, _, _, h5⟩ := seen_item h3
  obtain rfl := none_left h5
  refine ⟨{ main := 100, room := 100, justify := .spaceEvenly }, [brick 10], _, rfl, rfl, h1, r, List.mem_cons_self, ?_⟩
  rw [h4]
  simp only [Justified, Spaced]
  rintro ⟨g, h6, h7⟩
  rw [e1, e3] at h6
  rw [e1, e2, e4, ← h6] at h7
  norm_num at h7

/-- So does `end`. -/
theorem C137_end_fails : ∃ (c : Container) (items : List Item) (rows : List Row),
    c.dir = .row ∧ c.justify = .end ∧ layout id (1 / 100) 1 c items = some rows ∧
      ∃ r ∈ rows, ¬∃ a, Spaced 0 a r.items c.main := by
  have hv : (layout id (1 / 100) 1 { main := 100, room := 100, justify := .end } [brick 10]).map view =
      some [[[0, 100], [0, 10, 0, 0, 0, 100, 0, 0]]] := by decide +kernel
  obtain ⟨rows, h1, h2⟩ := seen hv
  obtain ⟨r, rest, rfl, _, _, h3, _⟩ := seen_row h2
  obtain ⟨p, ps, h4, e1, e2, e3, e4, _, _, _, _, h5⟩ := seen_item h3
  obtain rfl := none_left h5
  refine ⟨{ main := 100, room := 100, justify := .end }, [brick 10], _, rfl, rfl, h1, r, List.mem_cons_self, ?_⟩
  rw [h4]
  simp only [Spaced]
  rintro ⟨a, _, h7⟩
  rw [e1, e2, e4] at h7
  norm_num at h7

/-- In `row-reverse`, `space-between` puts a single item at the left, which is the end. -/
theorem C138_between_fails : ∃ (c : Container) (items : List Item) (rows : List Row),
    c.dir = .rowReverse ∧ c.justify = .spaceBetween ∧ layout id (1 / 100) 1 c items = some rows ∧
      ∃ r ∈ rows, ¬Justified .spaceBetween c.main (r.items.reverse.map (mirror c.main)) := by
  have hv : (layout id (1 / 100) 1 { main := 100, room := 100, dir := .rowReverse, justify := .spaceBetween }
      [brick 10]).map view = some [[[0, 100], [0, 10, 0, 0, 0, 100, 0, 0]]] := by decide +kernel
  obtain ⟨rows, h1, h2⟩ := seen hv
  obtain ⟨r, rest, rfl, _, _, h3, _⟩ := seen_row h2
  obtain ⟨p, ps, h4, e1, e2, e3, e4, _, _, _, _, h5⟩ := seen_item h3
  obtain rfl := none_left h5
  refine ⟨{ main := 100, room := 100, dir := .rowReverse, justify := .spaceBetween }, [brick 10], _, rfl, rfl, h1, r,
    List.mem_cons_self, ?_⟩
  rw [h4]
  simp only [List.reverse_singleton, List.map_cons, List.map_nil, Justified, Spaced, mirror]
  rintro ⟨g, b, _, ⟨h6, _⟩, _⟩
  rw [e1, e2, e4] at h6
  norm_num at h6

/-- `column-reverse` is laid out like `column`: the first item is at the top. -/
theorem C138_column_fails : ∃ (c : Container) (items : List Item) (rows : List Row),
    c.dir = .columnReverse ∧ c.justify = .flexStart ∧ layout id (1 / 100) 1 c items = some rows ∧
      ∃ r ∈ rows, ¬Justified .flexStart c.main (r.items.map (mirror c.main)) := by
  have hv : (layout id (1 / 100) 1 { main := 100, room := 100, dir := .columnReverse } [brick 10]).map view =
      some [[[0, 100], [0, 10, 0, 0, 0, 100, 0, 0]]] := by decide +kernel
  obtain ⟨rows, h1, h2⟩ := seen hv
  obtain ⟨r, rest, rfl, _, _, h3, _⟩ := seen_row h2
  obtain ⟨p, ps, h4, e1, e2, e3, e4, _, _, _, _, h5⟩ := seen_item h3
  obtain rfl := none_left h5
  refine ⟨{ main := 100, room := 100, dir := .columnReverse }, [brick 10], _, rfl, rfl, h1, r, List.mem_cons_self, ?_⟩
  rw [h4]
  simp only [List.map_cons, List.map_nil, Justified, Spaced, mirror]
  rintro ⟨b, h6, _⟩
  rw [e1, e2, e4] at h6
  norm_num at h6

/-- `wrap-reverse` is laid out like `wrap`: the first line is not at the end of the container. -/
theorem C138_wrap_fails : ∃ (c : Container) (items : List Item) (rows : List Row),
    c.wrap = .wrapReverse ∧ c.alignContent = .flexStart ∧ layout id (1 / 100) 1 c items = some rows ∧
      ∃ r rest, rows = r :: rest ∧ r.start + r.size ≠ c.room := by
  have hv : (layout id (1 / 100) 1 { main := 100, room := 100, wrap := .wrapReverse, alignContent := .flexStart }
      [brick 60, brick 60]).map view = some [[[0, 30], [0, 60, 0, 0, 0, 30, 0, 0]], [[30, 30], [0, 60, 0, 0, 30, 30, 0, 0]]] := by
    decide +kernel
  obtain ⟨rows, h1, h2⟩ := seen hv
  obtain ⟨r, rest, rfl, e1, e2, h3, _⟩ := seen_row h2
  refine ⟨{ main := 100, room := 100, wrap := .wrapReverse, alignContent := .flexStart }, [brick 60, brick 60], _, rfl,
    rfl, h1, r, rest, rfl, ?_⟩
  rw [e1, e2]
  norm_num

/-- Items aligned by their baselines are not aligned at all: the margin at their beginning is outside the line. -/
theorem C140_baseline_fails : ∃ (c : Container) (items : List Item) (rows : List Row),
    c.alignItems = .firstBaseline ∧ layout id (1 / 100) 1 c items = some rows ∧
      ∃ r ∈ rows, ∃ p ∈ r.items, p.cross - p.startCross < r.start := by
  have hv : (layout id (1 / 100) 1 { main := 100, room := 100, alignItems := .firstBaseline }
      [{ brick 10 with startCross := some 20 }]).map view = some [[[0, 100], [0, 10, 0, 0, 0, 30, 20, 0]]] := by
    decide +kernel
  obtain ⟨rows, h1, h2⟩ := seen hv
  obtain ⟨r, rest, rfl, e0, _, h3, _⟩ := seen_row h2
  obtain ⟨p, ps, h4, _, _, _, _, e1, _, e2, _, _⟩ := seen_item h3
  refine ⟨{ main := 100, room := 100, alignItems := .firstBaseline }, _, _, rfl, h1, r, List.mem_cons_self, p,
    by rw [h4]; exact List.mem_cons_self, ?_⟩
  rw [e0, e1, e2]
  norm_num

/-- If the margin at the end is `auto`, and there is no room, the margin at the beginning is forgotten. -/
theorem C140_auto_fails : ∃ (c : Container) (items : List Item) (rows : List Row),
    c.alignItems = .flexStart ∧ layout id (1 / 100) 1 c items = some rows ∧
      ∃ r ∈ rows, ∃ p ∈ r.items, p.item.startCross = some 20 ∧ p.cross < r.start + 20 := by
  have hv : (layout id (1 / 100) 1 { main := 100, room := 40, known := some 40, alignItems := .flexStart }
      [{ brick 10 with startCross := some 20, endCross := none }]).map view =
        some [[[0, 40], [0, 10, 0, 0, 0, 30, 20, 10]]] := by
    decide +kernel
  obtain ⟨rows, h1, h2⟩ := seen hv
  obtain ⟨r, rest, rfl, e0, _, h3, hr⟩ := seen_row h2
  obtain rfl : rest = [] := List.map_eq_nil_iff.1 hr
  obtain ⟨p, ps, h4, _, _, _, _, e1, _, e2, _, h5⟩ := seen_item h3
  obtain rfl := none_left h5
  have hi := (C136_items _ _ _ _ _ _ h1).1
  simp only [List.map_cons, List.map_nil, List.flatten_cons, List.flatten_nil, List.append_nil, reduceCtorEq,
    if_false, h4, List.cons.injEq, and_true] at hi
  refine ⟨{ main := 100, room := 40, known := some 40, alignItems := .flexStart }, _, _, rfl, h1, r,
    List.mem_cons_self, p, by rw [h4]; exact List.mem_cons_self, by rw [hi], ?_⟩
  rw [e0, e1]
  norm_num

/-! ## Cases -/

/-- Items that grow, the first up to a limit only; the last has an `auto` margin. -/
def growing3 : List Item :=
  [{ brick 20 with grow := 1, hi := 30 }, { brick 20 with grow := 2 }, { brick 10 with startMain := none, endMain := some 5 }]

example : (layout id (1 / 100) 3 { main := 100, room := 80 } growing3).map view =
    some [[[0, 80], [0, 30, 0, 0, 0, 80, 0, 0], [30, 55, 0, 0, 0, 80, 0, 0], [85, 10, 0, 5, 0, 80, 0, 0]]] := by
  decide +kernel

/-- The hypotheses of `C133`, `C134`, `C135_share`, `C136`, `C139`, `C142` and `C143` are met by them. -/
example : ∀ x ∈ growing3, 0 ≤ x.lo ∧ 0 ≤ x.base ∧ (x.grow = 0 ∨ 1 ≤ x.grow) ∧ (x.shrink = 0 ∨ 1 ≤ x.shrink) ∧
    0 < natural x + margins x := by decide +kernel

example : ∀ x ∈ growing3, Decent x := by
  intro x hx
  simp only [growing3, brick, List.mem_cons, List.not_mem_nil, or_false] at hx
  rcases hx with rfl | rfl | rfl <;> constructor <;> simp <;> norm_num

example : wish growing3 ≤ 100 := by decide +kernel

/-- Items that shrink, one down to its minimum. -/
example : (layout id (1 / 100) 3 { main := 100, room := 80, alignItems := .center }
    [{ brick 100 with shrink := 1, lo := 80 }, { brick 50 with shrink := 2 }]).map view =
    some [[[0, 80], [0, 80, 0, 0, 25, 30, 0, 0], [80, 20, 0, 0, 25, 30, 0, 0]]] := by
  decide +kernel

/-- `C135_portion`: factors that add up to a half take half of the room. -/
example : (layout id (1 / 100) 3 { main := 100, room := 80, justify := .flexEnd }
    [{ brick 20 with grow := 1 / 4 }, { brick 20 with grow := 1 / 4 }]).map view =
    some [[[0, 80], [30, 35, 0, 0, 0, 80, 0, 0], [65, 35, 0, 0, 0, 80, 0, 0]]] ∧
    ∀ x ∈ [{ brick 20 with grow := 1 / 4 }, { brick 20 with grow := 1 / 4 }],
      x.lo ≤ portion id 100 [{ brick 20 with grow := 1 / 4 }, { brick 20 with grow := 1 / 4 }] x ∧
      portion id 100 [{ brick 20 with grow := 1 / 4 }, { brick 20 with grow := 1 / 4 }] x ≤ x.hi := by
  constructor <;> decide +kernel

/-- Several lines, spaced; a line with `row-reverse` and an item with `auto` margins across. -/
example : (layout id (1 / 100) 3
    { main := 100, room := 80, dir := .rowReverse, wrap := .wrap, justify := .spaceBetween, alignContent := .spaceBetween }
    [brick 30, brick 40, { brick 50 with startCross := none, endCross := none, cross := fun _ => 10 }, brick 20]).map view =
    some [[[0, 30], [0, 40, 0, 0, 0, 30, 0, 0], [70, 30, 0, 0, 0, 30, 0, 0]],
      [[50, 30], [0, 20, 0, 0, 50, 30, 0, 0], [50, 50, 0, 0, 60, 10, 10, 10]]] := by
  decide +kernel

end Verif.Flex
