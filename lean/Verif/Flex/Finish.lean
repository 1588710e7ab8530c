import Verif.Flex.Place
/-!
# Flexible boxes: from sizes to places
-/
namespace Verif.Flex
open Spec

/-! ## The main direction leaves the rest alone -/

/-- `b'` differs from `b` in margins and place along the main direction only. -/
def Box.Same (b b' : Box) : Prop := ∃ s e p, b' = { b with startMain := s, endMain := e, pos := p }

theorem Box.Same.refl (b : Box) : b.Same b := ⟨_, _, _, rfl⟩

theorem Box.Same.trans {a b c : Box} : a.Same b → b.Same c → a.Same c := by
  rintro ⟨s, e, p, rfl⟩ ⟨s', e', p', rfl⟩
  exact ⟨s', e', p', rfl⟩

/-- Two lists, member by member. -/
inductive Along (R : Box → Box → Prop) : List Box → List Box → Prop
  | nil : Along R [] []
  | cons {a b : Box} {l m : List Box} : R a b → Along R l m → Along R (a :: l) (b :: m)

theorem Along.trans {R S T : Box → Box → Prop} (h : ∀ a b c, R a b → S b c → T a c) :
    ∀ {l m n : List Box}, Along R l m → Along S m n → Along T l n
  | _, _, _, .nil, .nil => .nil
  | _, _, _, .cons h1 h2, .cons h3 h4 => .cons (h _ _ _ h1 h3) (Along.trans h h2 h4)

theorem Along.map {R : Box → Box → Prop} (f : Box → Box) (h : ∀ b, R b (f b)) : ∀ l, Along R l (l.map f)
  | [] => .nil
  | b :: l => .cons (h b) (Along.map f h l)

theorem Along.mem {R : Box → Box → Prop} : ∀ {l m : List Box}, Along R l m → ∀ b ∈ m, ∃ a ∈ l, R a b
  | _, _, .nil, b, hb => by cases hb
  | _, _, .cons h1 h2, b, hb => by
    rcases List.mem_cons.1 hb with rfl | hb
    · exact ⟨_, List.mem_cons_self, h1⟩
    · obtain ⟨a, ha, hr⟩ := h2.mem b hb
      exact ⟨a, List.mem_cons_of_mem _ ha, hr⟩

theorem Along.map_eq {R : Box → Box → Prop} {α : Type} (f : Box → α) (h : ∀ a b, R a b → f b = f a) :
    ∀ {l m : List Box}, Along R l m → m.map f = l.map f
  | _, _, .nil => rfl
  | _, _, .cons h1 h2 => by rw [List.map_cons, List.map_cons, h _ _ h1, h2.map_eq f h]

theorem placeMain_same (gap : Rat) : ∀ (l : List Box) (a : Rat), Along Box.Same l (placeMain gap a l)
  | [], _ => .nil
  | b :: l, a => .cons ⟨_, _, _, rfl⟩ (placeMain_same gap l _)

theorem justify_same (au : Rat → Rat) (how : Align) (main occ : Rat) (l : List Box) :
    Along Box.Same l (justify au how main occ l) := by
  unfold justify
  split <;> (try split) <;> exact placeMain_same _ _ _

theorem autoMargins_same (au : Rat → Rat) (main : Rat) (l : List Box) :
    Along Box.Same l (autoMargins au main l).1 := by
  unfold autoMargins
  split
  · exact Along.map _ (fun b => ⟨_, _, _, rfl⟩) l
  · exact Along.map _ (fun b => ⟨_, _, _, rfl⟩) l

theorem distribute_same (au : Rat → Rat) (dir : Direction) (how : Align) (main : Rat) (l : List Box) :
    Along Box.Same l (distribute au dir how main l) :=
  Along.trans (R := Box.Same) (S := Box.Same) (T := Box.Same) (fun _ _ _ h h' => h.trans h') (autoMargins_same au main l) (justify_same au _ main _ _)

/-! ## The cross direction leaves the rest alone -/

theorem usedCross_keeps (al : Align) (line : Rat) (b : Box) :
    ∃ c, usedCross al line b = { b with crossSize := c } := ⟨_, rfl⟩

theorem crossMargins_keeps (au : Rat → Rat) (line : Rat) (b : Box) :
    ∃ s e p, crossMargins au line b = { b with startCross := s, endCross := e, crossPos := p } := by
  unfold crossMargins
  repeat' split
  all_goals exact ⟨_, _, _, rfl⟩

theorem alignItem_keeps (au : Rat → Rat) (al : Align) (line : Rat) (b : Box) :
    ∃ p, alignItem au al line b = { b with crossPos := p } := by
  unfold alignItem
  repeat' split
  all_goals exact ⟨_, rfl⟩

theorem finish_key (au : Rat → Rat) (al : Align) (line s t : Rat) (b : Box) :
    ((alignItem au al line (crossMargins au line b)).commit s).key = (b.commit t).key := by
  obtain ⟨x, y, z, h⟩ := crossMargins_keeps au line b
  obtain ⟨w, h'⟩ := alignItem_keeps au al line (crossMargins au line b)
  rw [h', h]
  rfl

theorem finish_item (au : Rat → Rat) (al : Align) (line s : Rat) (b : Box) :
    ((alignItem au al line (crossMargins au line b)).commit s).item = b.item := by
  obtain ⟨x, y, z, h⟩ := crossMargins_keeps au line b
  obtain ⟨w, h'⟩ := alignItem_keeps au al line (crossMargins au line b)
  rw [h', h]
  rfl

/-! ## Lines and rows -/

/-- The items of a line, with the place of the line. -/
def lineItems (au : Rat → Rat) (c : Container) (start size : Rat) (l : List Box) : List Placed :=
  (finishLine au c (size, l)).2.map (Box.commit start)

/-- Rows are lines with their sizes, member by member. -/
inductive Rows (au : Rat → Rat) (c : Container) : List (Rat × List Box) → List Row → Prop
  | nil : Rows au c [] []
  | cons {size : Rat} {l : List Box} {more : List (Rat × List Box)} {start : Rat} {rs : List Row} :
    Rows au c more rs → Rows au c ((size, l) :: more) (⟨start, size, lineItems au c start size l⟩ :: rs)

theorem placeLines_rows (au : Rat → Rat) (c : Container) (gap : Rat) :
    ∀ (ls : List (Rat × List Box)) (a : Rat),
      Rows au c ls ((placeLines gap a (ls.map (finishLine au c))).map fun l =>
        (⟨l.1, l.2.1, l.2.2.map (Box.commit l.1)⟩ : Row))
  | [], _ => .nil
  | (size, l) :: more, a => by
    simp only [List.map_cons, placeLines]
    exact .cons (placeLines_rows au c gap more _)

theorem alignLines_rows (au : Rat → Rat) (c : Container) (how : Align) (room : Rat) (ls : List (Rat × List Box)) :
    Rows au c ls ((alignLines au how room (ls.map (finishLine au c))).map fun l =>
        (⟨l.1, l.2.1, l.2.2.map (Box.commit l.1)⟩ : Row)) := by
  unfold alignLines
  dsimp only
  split <;> (try split) <;> exact placeLines_rows _ _ _ _ _

/-- Lines with the sizes they end up with. -/
def sized (au : Rat → Rat) (c : Container) (boxes : List (List Box)) : List (Rat × List Box) :=
  stretchLines au c.crossAuto c.known c.alignContent c.room (crossSizes c.known boxes)

theorem placeAll_rows (au : Rat → Rat) (c : Container) (boxes : List (List Box)) :
    Rows au c (sized au c boxes) (placeAll au c boxes) := alignLines_rows _ _ _ _ _

theorem crossSizes_lines (known : Option Rat) (boxes : List (List Box)) :
    (crossSizes known boxes).map (·.2) = boxes := by
  unfold crossSizes
  split
  · rfl
  · rw [List.map_map]
    exact List.map_id _

theorem sized_lines (au : Rat → Rat) (c : Container) (boxes : List (List Box)) :
    (sized au c boxes).map (·.2) = boxes := by
  unfold sized stretchLines
  split
  · split
    · rw [List.map_map]
      exact crossSizes_lines _ _
    · exact crossSizes_lines _ _
  · exact crossSizes_lines _ _

theorem Rows.mem {au : Rat → Rat} {c : Container} : ∀ {ls : List (Rat × List Box)} {rs : List Row},
    Rows au c ls rs → ∀ r ∈ rs, ∃ l, (r.size, l) ∈ ls ∧ r.items = lineItems au c r.start r.size l
  | _, _, .nil, r, hr => by cases hr
  | _, _, .cons h, r, hr => by
    rcases List.mem_cons.1 hr with rfl | hr
    · exact ⟨_, List.mem_cons_self, rfl⟩
    · obtain ⟨l, hl, he⟩ := h.mem r hr
      exact ⟨l, List.mem_cons_of_mem _ hl, he⟩

theorem lineItems_item (au : Rat → Rat) (c : Container) (start size : Rat) (l : List Box) :
    (lineItems au c start size l).map Placed.item = l.map Box.item := by
  unfold lineItems finishLine
  rw [List.map_map, List.map_map]
  have h1 := (distribute_same au c.dir c.justify c.main (l.map (usedCross c.alignItems size))).map_eq Box.item
    (by rintro a b ⟨s, e, p, rfl⟩; rfl)
  rw [List.map_map] at h1
  have h2 : l.map (Box.item ∘ usedCross c.alignItems size) = l.map Box.item := by
    apply List.map_congr_left
    intro b _
    rfl
  rw [h2] at h1
  rw [← h1]
  apply List.map_congr_left
  intro b _
  exact finish_item _ _ _ _ _

theorem Rows.items {au : Rat → Rat} {c : Container} : ∀ {ls : List (Rat × List Box)} {rs : List Row},
    Rows au c ls rs → (rs.map fun r => r.items.map Placed.item) = ls.map fun l => l.2.map Box.item
  | _, _, .nil => rfl
  | _, _, .cons h => by rw [List.map_cons, List.map_cons, h.items, lineItems_item]

theorem lineItems_key (au : Rat → Rat) (c : Container) (start size t : Rat) (l : List Box) :
    (lineItems au c start size l).map Placed.key =
      ((distribute au c.dir c.justify c.main (l.map (usedCross c.alignItems size))).map (Box.commit t)).map
        Placed.key := by
  unfold lineItems finishLine
  rw [List.map_map, List.map_map, List.map_map]
  apply List.map_congr_left
  intro b _
  exact finish_key _ _ _ _ _ _

theorem justified_congr (how : Align) (main : Rat) (ps qs : List Placed) (he : ps.map Placed.key = qs.map Placed.key)
    (h : Justified how main ps) : Justified how main qs := by
  have hl : ps.length = qs.length := by simpa using congrArg List.length he
  unfold Justified at h ⊢
  split at h
  · exact h.imp fun _ h => spaced_congr _ _ _ _ _ he h
  · exact h.imp fun _ h => spaced_congr _ _ _ _ _ he h
  · exact h.imp fun _ h => spaced_congr _ _ _ _ _ he h
  · obtain ⟨g, b, h0, h1, h2⟩ := h
    exact ⟨g, b, h0, spaced_congr _ _ _ _ _ he h1, hl ▸ h2⟩
  · exact h.imp fun _ h => spaced_congr _ _ _ _ _ he h
  · exact h.imp fun _ h => spaced_congr _ _ _ _ _ he h
  · trivial

theorem fresh_usedCross (al : Align) (size : Rat) (l : List Box) (h : Fresh l) : Fresh (l.map (usedCross al size)) := by
  intro b hb
  obtain ⟨a, ha, rfl⟩ := List.mem_map.1 hb
  exact h a ha

theorem autoMargins_ne_nil (au : Rat → Rat) (main : Rat) (l : List Box) (h : l ≠ []) :
    (autoMargins au main l).1 ≠ [] := by
  unfold autoMargins
  split <;> simpa using h

/-- `justify-content`, for a line of a container. -/
theorem lineItems_justified (c : Container) (start size : Rat) (l : List Box) (hf : Fresh l) (hne : l ≠ [])
    (hev : c.justify ≠ .spaceEvenly) :
    Justified (turned c.dir c.justify) c.main (lineItems id c start size l) := by
  have hf' := fresh_usedCross c.alignItems size l hf
  have hne' : (autoMargins id c.main (l.map (usedCross c.alignItems size))).1 ≠ [] :=
    autoMargins_ne_nil _ _ _ (by simpa using hne)
  have hev' : turned c.dir c.justify ≠ .spaceEvenly := by
    unfold turned
    split
    · split
      · intro h; cases h
      · split
        · intro h; cases h
        · exact hev
    · exact hev
  have := justify_justified (turned c.dir c.justify) c.main 0 _ hne' hev'
  rw [← autoMargins_occupied _ _ hf'] at this
  exact justified_congr _ _ _ _ (lineItems_key id c start size 0 l).symm this

/-! ## Boxes with sizes -/

theorem sizeLines_some (au : Rat → Rat) (fuel : Nat) (main : Rat) : ∀ (ls : List (List Item)) (bs : List (List Box)),
    sizeLines au fuel main ls = some bs →
    (∀ b ∈ bs, ∃ l ∈ ls, ∃ sizes, resolve au fuel main l = some sizes ∧ b = List.zipWith Box.make l sizes)
  | [], bs, h => by
    obtain rfl : bs = [] := (Option.some.inj h).symm
    intro b hb; cases hb
  | l :: ls, bs, h => by
    simp only [sizeLines, Option.bind_eq_bind, Option.bind_eq_some_iff, Option.pure_def, Option.some.injEq] at h
    obtain ⟨sizes, h1, more, h2, rfl⟩ := h
    intro b hb
    rcases List.mem_cons.1 hb with rfl | hb
    · exact ⟨l, List.mem_cons_self, sizes, h1, rfl⟩
    · obtain ⟨l', hl', h3⟩ := sizeLines_some au fuel main ls more h2 b hb
      exact ⟨l', List.mem_cons_of_mem _ hl', h3⟩

theorem resolve_length {au : Rat → Rat} {fuel : Nat} {main : Rat} {l : List Item} {sizes : List Rat}
    (h : resolve au fuel main l = some sizes) : sizes.length = l.length := by
  unfold resolve at h
  simp only [Option.map_eq_some_iff] at h
  obtain ⟨u, _, rfl⟩ := h
  simp

theorem zipWith_item : ∀ (l : List Item) (sizes : List Rat), sizes.length = l.length →
    (List.zipWith Box.make l sizes).map Box.item = l
  | [], _, _ => rfl
  | _ :: _, [], h => by simp at h
  | x :: l, s :: sizes, h => by
    rw [List.zipWith_cons_cons, List.map_cons, zipWith_item l sizes (by simpa using h)]
    rfl

theorem sizeLines_items (au : Rat → Rat) (fuel : Nat) (main : Rat) : ∀ (ls : List (List Item)) (bs : List (List Box)),
    sizeLines au fuel main ls = some bs → (bs.map fun b => b.map Box.item) = ls
  | [], bs, h => by
    obtain rfl : bs = [] := (Option.some.inj h).symm
    rfl
  | l :: ls, bs, h => by
    simp only [sizeLines, Option.bind_eq_bind, Option.bind_eq_some_iff, Option.pure_def, Option.some.injEq] at h
    obtain ⟨sizes, h1, more, h2, rfl⟩ := h
    rw [List.map_cons, sizeLines_items au fuel main ls more h2, zipWith_item l sizes (resolve_length h1)]

theorem mem_zipWith_make : ∀ (l : List Item) (sizes : List Rat) (b : Box), b ∈ List.zipWith Box.make l sizes →
    ∃ (k : Nat) (x : Item) (s : Rat), l[k]? = some x ∧ sizes[k]? = some s ∧ b = Box.make x s
  | [], _, b, h => by simp at h
  | _ :: _, [], b, h => by simp at h
  | x :: l, s :: sizes, b, h => by
    rw [List.zipWith_cons_cons] at h
    rcases List.mem_cons.1 h with rfl | h
    · exact ⟨0, x, s, rfl, rfl, rfl⟩
    · obtain ⟨k, y, t, h1, h2, h3⟩ := mem_zipWith_make l sizes b h
      exact ⟨k + 1, y, t, h1, h2, h3⟩

theorem fresh_make (l : List Item) (sizes : List Rat) : Fresh (List.zipWith Box.make l sizes) := by
  intro b hb
  obtain ⟨k, x, s, _, _, rfl⟩ := mem_zipWith_make l sizes b hb
  refine ⟨?_, ?_⟩ <;> intro h <;> simp only [Box.make] at h ⊢ <;> rw [h] <;> rfl

end Verif.Flex
