import Verif.Flex.Cross
import Verif.Flex.Share
/-!
# Flexible boxes: nothing overlaps
-/
namespace Verif.Flex
open Spec

/-! ## In a line -/

theorem justify_gap (how : Align) (main c : Rat) (l : List Box) (hne : l ≠ []) :
    ∃ g a b, 0 ≤ g ∧ Spaced g a ((justify id how main (occupied l) l).map (Box.commit c)) b := by
  by_cases hev : how = .spaceEvenly
  · subst hev
    exact ⟨0, 0, _, le_rfl, placeMain_spaced 0 c l 0 hne⟩
  · have h := justify_justified how main c l hne hev
    have key0 := placeMain_spaced 0 c l 0 hne
    cases how <;> simp only [Justified] at h
    case center => exact ⟨0, _, _, le_rfl, h.choose_spec⟩
    case flexStart => exact ⟨0, _, _, le_rfl, h.choose_spec⟩
    case flexEnd => exact ⟨0, _, _, le_rfl, h.choose_spec⟩
    case spaceBetween =>
      obtain ⟨g, b, h1, h2, _⟩ := h
      exact ⟨g, _, _, h1, h2⟩
    case spaceAround =>
      obtain ⟨g, h1⟩ := h
      exact ⟨_, _, _, le_max_right _ _, h1⟩
    case spaceEvenly => exact absurd rfl hev
    all_goals exact ⟨0, 0, _, le_rfl, key0⟩

theorem lineItems_gap (c : Container) (start size : Rat) (l : List Box) (hf : Fresh l) (hne : l ≠ []) :
    ∃ g a b, 0 ≤ g ∧ Spaced g a (lineItems id c start size l) b := by
  have hf' := fresh_usedCross c.alignItems size l hf
  have hne' : (autoMargins id c.main (l.map (usedCross c.alignItems size))).1 ≠ [] :=
    autoMargins_ne_nil _ _ _ (by simpa using hne)
  obtain ⟨g, a, b, h0, h⟩ := justify_gap (turned c.dir c.justify) c.main 0 _ hne'
  rw [← autoMargins_occupied _ _ hf'] at h
  exact ⟨g, a, b, h0, spaced_congr _ _ _ _ _ (lineItems_key id c start size 0 l).symm h⟩

/-- Sizes and margins that are not negative. -/
def Placed.Nonneg (p : Placed) : Prop := 0 ≤ p.mainSize ∧ 0 ≤ p.startMain ∧ 0 ≤ p.endMain

theorem spaced_from (g : Rat) (hg : 0 ≤ g) : ∀ (ps : List Placed) (a b : Rat), (∀ p ∈ ps, p.Nonneg) →
    Spaced g a ps b → ∀ p ∈ ps, a ≤ p.main
  | [], _, _, _, _, p, hp => by cases hp
  | [q], a, b, hn, h, p, hp => by
    obtain rfl := List.mem_singleton.1 hp
    have := hn p hp
    unfold Placed.Nonneg at this
    simp only [Spaced] at h
    linarith [h.1, this.2.1]
  | q :: q' :: ps, a, b, hn, h, p, hp => by
    simp only [Spaced] at h
    have hq := hn q List.mem_cons_self
    unfold Placed.Nonneg at hq
    rcases List.mem_cons.1 hp with rfl | hp
    · linarith [h.1, hq.2.1]
    · have := spaced_from g hg (q' :: ps) _ b (fun x hx => hn x (List.mem_cons_of_mem _ hx)) h.2 p hp
      linarith [h.1, hq.1, hq.2.1, hq.2.2]

theorem spaced_pairwise (g : Rat) (hg : 0 ≤ g) : ∀ (ps : List Placed) (a b : Rat), (∀ p ∈ ps, p.Nonneg) →
    Spaced g a ps b → ps.Pairwise fun p q => p.main + p.mainSize ≤ q.main
  | [], _, _, _, _ => .nil
  | [_], _, _, _, _ => List.pairwise_singleton _ _
  | q :: q' :: ps, a, b, hn, h => by
    simp only [Spaced] at h
    have hn' : ∀ p ∈ q' :: ps, p.Nonneg := fun x hx => hn x (List.mem_cons_of_mem _ hx)
    refine List.pairwise_cons.2 ⟨?_, spaced_pairwise g hg (q' :: ps) _ b hn' h.2⟩
    intro p hp
    have hq := hn q List.mem_cons_self
    unfold Placed.Nonneg at hq
    have := spaced_from g hg (q' :: ps) _ b hn' h.2 p hp
    linarith [hq.2.2]

/-! ## Margins handed out are not negative -/

theorem getD_nonneg {o : Option Rat} (h : ∀ m ∈ o, 0 ≤ m) : 0 ≤ o.getD 0 := by
  cases o with
  | none => exact le_rfl
  | some m => exact h m rfl

theorem autoMargins_nonneg (main : Rat) (l : List Box) (h : ∀ b ∈ l, 0 ≤ b.startMain ∧ 0 ≤ b.endMain) :
    ∀ b ∈ (autoMargins id main l).1, 0 ≤ b.startMain ∧ 0 ≤ b.endMain := by
  have aux : ∀ m : Rat, 0 ≤ m → ∀ b ∈ l.map (Box.withAuto m), 0 ≤ b.startMain ∧ 0 ≤ b.endMain := by
    intro m hm b hb
    obtain ⟨a, ha, rfl⟩ := List.mem_map.1 hb
    unfold Box.withAuto
    dsimp only
    constructor
    · split
      · exact hm
      · exact (h a ha).1
    · split
      · exact hm
      · exact (h a ha).2
  unfold autoMargins
  split
  · rename_i hc
    refine aux _ ?_
    exact div_nonneg (by linarith [hc.1]) (Nat.cast_nonneg _)
  · exact aux 0 le_rfl

theorem placeMain_margins (gap : Rat) : ∀ (l : List Box) (a : Rat), ∀ b ∈ placeMain gap a l,
    ∃ b' ∈ l, b.startMain = b'.startMain ∧ b.endMain = b'.endMain ∧ b.size = b'.size
  | [], _, b, hb => by cases hb
  | x :: l, a, b, hb => by
    rcases List.mem_cons.1 hb with rfl | hb
    · exact ⟨x, List.mem_cons_self, rfl, rfl, rfl⟩
    · obtain ⟨b', h1, h2⟩ := placeMain_margins gap l _ b hb
      exact ⟨b', List.mem_cons_of_mem _ h1, h2⟩

theorem justify_margins (au : Rat → Rat) (how : Align) (main occ : Rat) (l : List Box) :
    ∀ b ∈ justify au how main occ l,
      ∃ b' ∈ l, b.startMain = b'.startMain ∧ b.endMain = b'.endMain ∧ b.size = b'.size := by
  unfold justify
  split <;> (try split) <;> exact placeMain_margins _ _ _

theorem lineItems_nonneg (c : Container) (start size : Rat) (l : List Box)
    (h : ∀ b ∈ l, 0 ≤ b.startMain ∧ 0 ≤ b.endMain ∧ 0 ≤ b.size) :
    ∀ p ∈ lineItems id c start size l, p.Nonneg := by
  intro p hp
  unfold lineItems finishLine at hp
  obtain ⟨b1, h1, rfl⟩ := List.mem_map.1 hp
  obtain ⟨b2, h2, rfl⟩ := List.mem_map.1 h1
  have hk := finish_key id c.alignItems size start 0 b2
  simp only [Placed.key, Prod.mk.injEq] at hk
  unfold Placed.Nonneg
  rw [hk.2.1, hk.2.2.1, hk.2.2.2]
  have hd := h2
  unfold distribute at h2
  obtain ⟨b3, h3, e1, e2, e3⟩ := justify_margins _ _ _ _ _ b2 h2
  have h0 : ∀ b ∈ l.map (usedCross c.alignItems size), 0 ≤ b.startMain ∧ 0 ≤ b.endMain := by
    intro b hb
    obtain ⟨a, ha, rfl⟩ := List.mem_map.1 hb
    exact ⟨(h a ha).1, (h a ha).2.1⟩
  have h4 := autoMargins_nonneg c.main _ h0 b3 h3
  obtain ⟨b4, h5, ⟨s, e, q, rfl⟩⟩ := (autoMargins_same id c.main _).mem b3 h3
  obtain ⟨a, ha, rfl⟩ := List.mem_map.1 h5
  refine ⟨?_, ?_, ?_⟩
  · show 0 ≤ b2.size
    rw [e3]
    exact (h a ha).2.2
  · show 0 ≤ b2.startMain
    rw [e1]
    exact h4.1
  · show 0 ≤ b2.endMain
    rw [e2]
    exact h4.2

/-! ## Items stay in their line -/

theorem lineCross_foldl (l : List Box) : ∀ m : Rat,
    m ≤ l.foldl (fun m b => if b.item.alignSelf = .firstBaseline ∧ b.crossMarginAuto = false then m
      else max m b.outerGuess) m := by
  induction l with
  | nil => intro m; exact le_rfl
  | cons b l ih =>
    intro m
    rw [List.foldl_cons]
    refine le_trans ?_ (ih _)
    split
    · exact le_rfl
    · exact le_max_left _ _

theorem lineCross_nonneg (l : List Box) : 0 ≤ lineCross l := by
  unfold lineCross
  exact le_trans (by simp) (le_max_right _ _)

theorem lineCross_ge (l : List Box) (b : Box) (hb : b ∈ l) (hs : b.item.alignSelf ≠ .firstBaseline) :
    b.outerGuess ≤ lineCross l := by
  unfold lineCross
  refine le_trans ?_ (le_max_left _ _)
  generalize (0 : Rat) = m
  induction l generalizing m with
  | nil => cases hb
  | cons a l ih =>
    rw [List.foldl_cons]
    rcases List.mem_cons.1 hb with rfl | hb
    · rw [if_neg (fun h => hs h.1)]
      exact le_trans (le_max_right _ _) (lineCross_foldl l _)
    · exact ih hb _

/-- An item that has room in its line stays in it. -/
theorem item_inside (c : Container) (start size : Rat) (x : Item) (s : Rat) (b' : Box) (hx : Decent x)
    (hb : (usedCross c.alignItems size (Box.make x s)).Same b')
    (hroom : (Box.make x s).outerGuess ≤ size) :
    start ≤ ((alignItem id c.alignItems size (crossMargins id size b')).commit start).cross ∧
    ((alignItem id c.alignItems size (crossMargins id size b')).commit start).cross +
      ((alignItem id c.alignItems size (crossMargins id size b')).commit start).crossSize ≤ start + size := by
  obtain ⟨ss, ee, pp, rfl⟩ := hb
  have h1 := getD_nonneg hx.startCross
  have h2 := getD_nonneg hx.endCross
  have h3 := hx.cross s
  have h4 := hx.crossLo s
  have hg : x.cross s + (x.startCross.getD 0 + x.endCross.getD 0) ≤ size := hroom
  obtain ⟨cs, hcs⟩ : ∃ cs, (usedCross c.alignItems size (Box.make x s)).crossSize = cs := ⟨_, rfl⟩
  have hsize : cs + (x.startCross.getD 0 + x.endCross.getD 0) ≤ size := by
    rw [← hcs]
    unfold usedCross
    dsimp only
    split
    · have hclamp : clamp (size - (x.startCross.getD 0 + x.endCross.getD 0)) x.crossLo x.crossHi ≤
          size - (x.startCross.getD 0 + x.endCross.getD 0) :=
        max_le (by linarith) (min_le_left _ _)
      have : clamp (size - ((Box.make x s).startCross + (Box.make x s).endCross)) (Box.make x s).item.crossLo
          (Box.make x s).item.crossHi = clamp (size - (x.startCross.getD 0 + x.endCross.getD 0)) x.crossLo x.crossHi :=
        rfl
      rw [this]
      linarith
    · exact hg
  have hbox : ({ usedCross c.alignItems size (Box.make x s) with startMain := ss, endMain := ee, pos := pp } : Box) =
      { item := x, size := s, startMain := ss, endMain := ee, pos := pp, crossSize := cs,
        startCross := x.startCross.getD 0, endCross := x.endCross.getD 0, crossPos := 0 } := by
    rw [← hcs]; rfl
  rw [hbox]
  suffices h : ∀ b : Box, b.crossSize = cs → b.crossSize + (b.startCross + b.endCross) ≤ size ∨
      b.crossMarginAuto = true → 0 ≤ b.startCross → b.startCross + cs ≤ size → 0 ≤ b.endCross ∨
      b.crossMarginAuto = true →
      0 ≤ b.crossPos → b.crossPos + cs ≤ size →
      0 ≤ (alignItem id c.alignItems size b).crossPos ∧
        (alignItem id c.alignItems size b).crossPos + (alignItem id c.alignItems size b).crossSize ≤ size by
    have key : ∀ b : Box, b.crossSize = cs → b.crossSize + (b.startCross + b.endCross) ≤ size ∨
      b.crossMarginAuto = true → 0 ≤ b.startCross → b.startCross + cs ≤ size → 0 ≤ b.endCross ∨
      b.crossMarginAuto = true →
      0 ≤ b.crossPos → b.crossPos + cs ≤ size →
      start ≤ ((alignItem id c.alignItems size b).commit start).cross ∧
      ((alignItem id c.alignItems size b).commit start).cross +
      ((alignItem id c.alignItems size b).commit start).crossSize ≤ start + size := by
      intro b e1 e2 e3 e4 e5 e6 e7
      have := h b e1 e2 e3 e4 e5 e6 e7
      simp only [Box.commit]
      constructor <;> linarith
    unfold crossMargins
    by_cases hau : x.startCross = none ∨ x.endCross = none
    · rw [if_pos hau]
      dsimp only
      split
      · rename_i hlt
        split
        · exact key _ rfl (.inr (decide_eq_true hau)) h1 (by dsimp only; linarith) (.inr (decide_eq_true hau)) h1
            (by dsimp only; linarith)
        · split
          · exact key _ rfl (.inr (decide_eq_true hau)) (by dsimp only; linarith) (by dsimp only; linarith)
              (.inr (decide_eq_true hau)) (by dsimp only; linarith) (by dsimp only; linarith)
          · exact key _ rfl (.inr (decide_eq_true hau)) (by simp only [id]; linarith) (by simp only [id]; linarith)
              (.inr (decide_eq_true hau)) (by simp only [id]; linarith) (by simp only [id]; linarith)
      · refine key _ rfl (.inr (decide_eq_true hau)) ?_ ?_ (.inr (decide_eq_true hau)) le_rfl (by dsimp only; linarith)
        · dsimp only
          split
          · exact le_rfl
          · exact h1
        · dsimp only
          split <;> linarith
    · rw [if_neg hau]
      exact key _ rfl (.inl hsize) h1 (by dsimp only; linarith) (.inl h2) le_rfl (by dsimp only; linarith)
  intro b e1 e2 e3 e4 e5 e6 e7
  unfold alignItem
  split
  · split
    · exact ⟨e6, by rw [e1]; exact e7⟩
    · rename_i hn
      have e2 := e2.resolve_right hn
      have e5 := e5.resolve_right hn
      dsimp only
      constructor <;> linarith
  · split
    · exact ⟨e6, by rw [e1]; exact e7⟩
    · rename_i hn
      have e2 := e2.resolve_right hn
      have e5 := e5.resolve_right hn
      simp only [id]
      constructor <;> linarith
  · exact ⟨e6, by rw [e1]; exact e7⟩
  · exact ⟨e3, by dsimp only; rw [e1]; exact e4⟩
  · split
    · exact ⟨e6, by rw [e1]; exact e7⟩
    · exact ⟨e3, by dsimp only; rw [e1]; exact e4⟩

/-! ## Lines -/

theorem alignLines_gap (how : Align) (room : Rat) (ls : List (Rat × List Box)) (hne : ls ≠ []) :
    ∃ g a b, 0 ≤ g ∧ Stacked g a ((alignLines id how room ls).map toRow) b := by
  have h := alignLines_piled how room ls hne
  have key0 := placeLines_stacked 0 ls 0 hne
  cases how <;> simp only [Piled] at h
  case center => exact ⟨0, _, _, le_rfl, h.choose_spec⟩
  case flexStart => exact ⟨0, _, _, le_rfl, h.choose_spec⟩
  case stretch => exact ⟨0, _, _, le_rfl, h.choose_spec⟩
  case flexEnd => exact ⟨0, _, _, le_rfl, h.choose_spec⟩
  case spaceBetween =>
    obtain ⟨g, b, h1, h2, _⟩ := h
    exact ⟨g, _, _, h1, h2⟩
  case spaceAround =>
    obtain ⟨g, h1⟩ := h
    exact ⟨_, _, _, le_max_right _ _, h1⟩
  all_goals exact ⟨0, 0, _, le_rfl, key0⟩

theorem stacked_from (g : Rat) (hg : 0 ≤ g) : ∀ (rs : List Row) (a b : Rat), (∀ r ∈ rs, 0 ≤ r.size) →
    Stacked g a rs b → ∀ r ∈ rs, a ≤ r.start
  | [], _, _, _, _, r, hr => by cases hr
  | [q], a, b, hn, h, r, hr => by
    obtain rfl := List.mem_singleton.1 hr
    exact le_of_eq h.1.symm
  | q :: q' :: rs, a, b, hn, h, r, hr => by
    simp only [Stacked] at h
    have hq := hn q List.mem_cons_self
    rcases List.mem_cons.1 hr with rfl | hr
    · exact le_of_eq h.1.symm
    · have := stacked_from g hg (q' :: rs) _ b (fun x hx => hn x (List.mem_cons_of_mem _ hx)) h.2 r hr
      linarith [h.1]

theorem stacked_pairwise (g : Rat) (hg : 0 ≤ g) : ∀ (rs : List Row) (a b : Rat), (∀ r ∈ rs, 0 ≤ r.size) →
    Stacked g a rs b → rs.Pairwise fun r q => r.start + r.size ≤ q.start
  | [], _, _, _, _ => .nil
  | [_], _, _, _, _ => List.pairwise_singleton _ _
  | q :: q' :: rs, a, b, hn, h => by
    simp only [Stacked] at h
    have hn' : ∀ r ∈ q' :: rs, 0 ≤ r.size := fun x hx => hn x (List.mem_cons_of_mem _ hx)
    refine List.pairwise_cons.2 ⟨?_, stacked_pairwise g hg (q' :: rs) _ b hn' h.2⟩
    intro r hr
    have := stacked_from g hg (q' :: rs) _ b hn' h.2 r hr
    linarith

/-- A line of several has room for its items. -/
theorem sized_room (c : Container) (boxes : List (List Box)) (h2 : boxes.length ≠ 1) :
    ∀ l ∈ sized id c boxes, lineCross l.2 ≤ l.1 := by
  have h0 : crossSizes c.known boxes = boxes.map fun l => (lineCross l, l) := by
    unfold crossSizes
    split
    · simp at h2
    · rfl
  have hb : ∀ l ∈ crossSizes c.known boxes, lineCross l.2 ≤ l.1 := by
    rw [h0]
    intro l hl
    obtain ⟨m, _, rfl⟩ := List.mem_map.1 hl
    exact le_rfl
  unfold sized stretchLines
  split
  · split
    · rename_i hlt
      intro l hl
      obtain ⟨m, hm, rfl⟩ := List.mem_map.1 hl
      have := hb m hm
      have hd : 0 ≤ (c.room - ((crossSizes c.known boxes).map (·.1)).sum) / ((crossSizes c.known boxes).length : Rat) :=
        div_nonneg (by linarith) (Nat.cast_nonneg _)
      simp only [id]
      linarith
    · exact hb
  · exact hb

/-! ## From line to container -/

theorem range_getD {α β : Type} [Inhabited α] (f : α → β) : ∀ l : List α,
    (List.range l.length).map (fun i => f (l.getD i default)) = l.map f
  | [] => rfl
  | x :: l => by
    rw [List.length_cons, List.range_succ_eq_map, List.map_cons, List.map_map, List.map_cons]
    congr 1
    exact range_getD f l

/-- What `resolve` works on. -/
def job (main : Rat) (line : List Item) : Job := ⟨main, line.length, fun i => line.getD i default⟩

theorem resolve_eq (au : Rat → Rat) (fuel : Nat) (main : Rat) (line : List Item) :
    resolve au fuel main line =
      ((job main line).loop au ((job main line).free (job main line).init) fuel (job main line).init).map
        fun used => (List.range line.length).map used := rfl

theorem job_mem {main : Rat} {line : List Item} {i : Nat} (h : i < (job main line).count) :
    (job main line).it i ∈ line := by
  have h : i < line.length := h
  simp only [job, List.getD_eq_getElem?_getD, List.getElem?_eq_getElem h, Option.getD_some]
  exact List.getElem_mem h

theorem lineItems_size (au : Rat → Rat) (c : Container) (start size : Rat) (l : List Box) :
    (lineItems au c start size l).map Placed.mainSize = l.map Box.size := by
  have h1 := lineItems_key au c start size 0 l
  have h2 := congrArg (List.map fun k : Rat × Rat × Rat × Rat => k.2.1) h1
  rw [List.map_map, List.map_map, List.map_map] at h2
  have h3 := (distribute_same au c.dir c.justify c.main (l.map (usedCross c.alignItems size))).map_eq Box.size
    (by rintro a b ⟨s, e, p, rfl⟩; rfl)
  rw [List.map_map] at h3
  have h4 : l.map (Box.size ∘ usedCross c.alignItems size) = l.map Box.size := rfl
  rw [← h4, ← h3]
  exact h2

theorem zipWith_size : ∀ (l : List Item) (sizes : List Rat), sizes.length = l.length →
    (List.zipWith Box.make l sizes).map Box.size = sizes
  | [], [], _ => rfl
  | [], _ :: _, h => by simp at h
  | _ :: _, [], h => by simp at h
  | x :: l, s :: sizes, h => by
    rw [List.zipWith_cons_cons, List.map_cons, zipWith_size l sizes (by simpa using h)]
    rfl

/-- A row comes from a line, and from the sizes that were resolved for it. -/
theorem layout_row {au : Rat → Rat} {slack : Rat} {fuel : Nat} {c : Container} {items : List Item} {rows : List Row}
    (h : layout au slack fuel c items = some rows) {r : Row} (hr : r ∈ rows) :
    ∃ line ∈ collect c.dir c.wrap c.main slack items, ∃ sizes, resolve au fuel c.main line = some sizes ∧
      r.items = lineItems au c r.start r.size (List.zipWith Box.make line sizes) ∧
      r.items.map Placed.item = line ∧ r.items.map Placed.mainSize = sizes ∧
      ∃ boxes, sizeLines au fuel c.main (collect c.dir c.wrap c.main slack items) = some boxes ∧
        placeAll au c boxes = rows ∧ (r.size, List.zipWith Box.make line sizes) ∈ sized au c boxes := by
  unfold layout at h
  obtain ⟨boxes, h1, h2⟩ := Option.map_eq_some_iff.1 h
  have hrows := placeAll_rows au c boxes
  rw [h2] at hrows
  obtain ⟨l, h3, h4⟩ := hrows.mem r hr
  have h5 : l ∈ boxes := by
    rw [← sized_lines au c boxes]
    exact List.mem_map.2 ⟨_, h3, rfl⟩
  obtain ⟨line, h6, sizes, h7, rfl⟩ := sizeLines_some au fuel c.main _ boxes h1 l h5
  have hlen := resolve_length h7
  refine ⟨line, h6, sizes, h7, h4, ?_, ?_, boxes, h1, h2, h3⟩
  · rw [h4, lineItems_item, zipWith_item _ _ hlen]
  · rw [h4, lineItems_size, zipWith_size _ _ hlen]

theorem collect_ne_nil {dir : Direction} {wrap : Wrap} {main slack : Rat} {items : List Item} (hne : items ≠ []) :
    ∀ l ∈ collect dir wrap main slack items, l ≠ [] := by
  have h : ∀ l ∈ (if wrap = .nowrap then [items] else wrapLines main slack items), l ≠ [] := by
    split
    · intro l hl
      rw [List.mem_singleton.1 hl]
      exact hne
    · exact wrapLines_ne_nil main slack items
  unfold collect
  dsimp only
  split
  · intro l hl
    obtain ⟨m, hm, rfl⟩ := List.mem_map.1 hl
    intro hn
    exact h m hm (List.reverse_eq_nil_iff.1 hn)
  · exact h

theorem collect_mem {dir : Direction} {wrap : Wrap} {main slack : Rat} {items : List Item} :
    ∀ l ∈ collect dir wrap main slack items, ∀ x ∈ l, x ∈ items := by
  have h : ∀ l ∈ (if wrap = .nowrap then [items] else wrapLines main slack items), ∀ x ∈ l, x ∈ items := by
    split
    · intro l hl x hx
      rw [List.mem_singleton.1 hl] at hx
      exact hx
    · intro l hl x hx
      rw [← wrapLines_flatten main slack items]
      exact List.mem_flatten.2 ⟨l, hl, hx⟩
  unfold collect
  dsimp only
  split
  · intro l hl x hx
    obtain ⟨m, hm, rfl⟩ := List.mem_map.1 hl
    exact h m hm x (List.mem_reverse.1 hx)
  · exact h

theorem zipWith_ne_nil {line : List Item} {sizes : List Rat} (hlen : sizes.length = line.length) (hne : line ≠ []) :
    List.zipWith Box.make line sizes ≠ [] := by
  intro h
  have := zipWith_item line sizes hlen
  rw [h] at this
  exact hne this.symm

end Verif.Flex
