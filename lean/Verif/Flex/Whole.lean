import Verif.Flex.Apart
import Verif.Flex.Lines
import Verif.Flex.Unlimited
/-!
# Flexible boxes: whole containers

From single lines and jobs to what `layout` gives.
-/
namespace Verif.Flex
open Spec

/-! ## Coming to an end -/

theorem resolve_ends (au : Rat → Rat) (main : Rat) (line : List Item) (h : ∀ x ∈ line, 0 ≤ x.lo) (fuel : Nat)
    (hf : line.length ≤ fuel) : (resolve au fuel main line).isSome := by
  have h0 : ∀ i, i < (job main line).count → 0 ≤ ((job main line).it i).hypo := fun i hi =>
    le_trans (h _ (job_mem hi)) (le_max_left _ _)
  have hl : (job main line).init.unfrozen.length ≤ fuel := by
    rw [(init_spec (job main line)).1]
    refine le_trans (List.length_filter_le _ _) ?_
    rw [List.length_range]
    exact hf
  obtain ⟨t, _, _, h3⟩ := loop_ends au (job main line) ((job main line).free (job main line).init) (Tidy (job main line))
    (fun s hs hne => hs.step au _ hne) fuel _ (Tidy.init _ h0) hl
  rw [resolve_eq, h3]
  rfl

theorem sizeLines_ends (au : Rat → Rat) (fuel : Nat) (main : Rat) : ∀ ls : List (List Item),
    (∀ l ∈ ls, (resolve au fuel main l).isSome) → (sizeLines au fuel main ls).isSome
  | [], _ => rfl
  | l :: ls, h => by
    obtain ⟨s, hs⟩ := Option.isSome_iff_exists.1 (h l List.mem_cons_self)
    obtain ⟨m, hm⟩ := Option.isSome_iff_exists.1
      (sizeLines_ends au fuel main ls fun l hl => h l (List.mem_cons_of_mem _ hl))
    simp only [sizeLines, hs, hm]
    rfl

theorem collect_length {dir : Direction} {wrap : Wrap} {main slack : Rat} {items : List Item} :
    ∀ l ∈ collect dir wrap main slack items, l.length ≤ items.length := by
  have h : ∀ l ∈ (if wrap = .nowrap then [items] else wrapLines main slack items), l.length ≤ items.length := by
    split
    · intro l hl
      rw [List.mem_singleton.1 hl]
    · intro l hl
      conv => rhs; rw [← wrapLines_flatten main slack items]
      exact (List.sublist_flatten_of_mem hl).length_le
  unfold collect
  dsimp only
  split
  · intro l hl
    obtain ⟨m, hm, rfl⟩ := List.mem_map.1 hl
    rw [List.length_reverse]
    exact h m hm
  · exact h

/-! ## Limits -/

theorem resolve_limits {au : Rat → Rat} {main : Rat} {line : List Item} {fuel : Nat} {sizes : List Rat}
    (h : resolve au fuel main line = some sizes) (k : Nat) (x : Item) (s : Rat) (hx : line[k]? = some x)
    (hs : sizes[k]? = some s) : ∃ v, s = x.hypo ∨ s = x.fit v := by
  obtain ⟨j, hj⟩ : ∃ j, job main line = j := ⟨_, rfl⟩
  rw [resolve_eq, hj] at h
  obtain ⟨used, h1, h2⟩ := Option.map_eq_some_iff.1 h
  obtain ⟨t, ⟨hi, ht⟩, hn, hu⟩ := loop_keeps au j (j.free j.init)
    (fun s => Inv j s ∧ ∀ i ∈ s.frozen, ∃ v, s.used i = (j.it i).hypo ∨ s.used i = (j.it i).fit v)
    (by
      rintro s ⟨hs, hv⟩ _
      obtain ⟨t, ht, hit, hused, p, hp1, hp2, _⟩ := step_spec au j (j.free j.init) s hs
      rw [ht]
      refine ⟨hit, fun i hi => ?_⟩
      rw [hused i]
      by_cases hm : i ∈ s.unfrozen
      · rw [if_pos hm]
        exact ⟨_, Or.inr rfl⟩
      · rw [if_neg hm]
        rcases List.mem_append.1 (hp2.mem_iff.1 hi) with h | h
        · exact hv i h
        · exact absurd (List.mem_filter.1 h).1 hm) fuel _ used
    (by
      refine ⟨Inv.init j, fun i hi => ?_⟩
      obtain ⟨_, h2, _, h4⟩ := init_spec j
      rw [h2, List.mem_filter, List.mem_range] at hi
      rw [h4 i hi.1, if_pos hi.2]
      exact ⟨0, Or.inl rfl⟩) h1
  have hk : k < line.length := (List.getElem?_eq_some_iff.1 hx).1
  have hit : j.it k = x := by
    rw [← hj]
    simp only [job, List.getD_eq_getElem?_getD, hx, Option.getD_some]
  have hmem : k ∈ t.frozen := by
    have := hi.mem (i := k) (by rw [← hj]; exact hk)
    rw [hn] at this
    simpa using this
  obtain ⟨v, hv⟩ := ht k hmem
  rw [hit, hu] at hv
  rw [← h2, List.getElem?_map, List.getElem?_range hk, Option.map_some, Option.some.injEq] at hs
  exact ⟨v, by rw [← hs]; exact hv⟩

theorem mem_pair {α β : Type} {l : List Placed} {f : Placed → α} {g : Placed → β} {p : Placed} (hp : p ∈ l) :
    ∃ k : Nat, (l.map f)[k]? = some (f p) ∧ (l.map g)[k]? = some (g p) := by
  obtain ⟨k, hk⟩ := List.getElem?_of_mem hp
  exact ⟨k, by rw [List.getElem?_map, hk]; rfl, by rw [List.getElem?_map, hk]; rfl⟩

/-! ## Fair shares -/

theorem job_sumHypo (main : Rat) (line : List Item) : (job main line).sumHypo = wish line := by
  exact congrArg List.sum (range_getD (fun x : Item => x.hypo + x.margins) line)

theorem job_growing (main : Rat) (line : List Item) : (job main line).growing = decide (wish line < main) := by
  unfold Job.growing
  rw [job_sumHypo]
  rfl

theorem fit_allowed (x : Item) (v : Rat) : x.fit v = allowed x v := max_comm _ _

theorem job_want (main : Rat) (line : List Item) (i : Nat) (l : Rat) :
    (job main line).want i l = share (decide (wish line < main)) ((job main line).it i) l := by
  unfold Job.want Job.at Job.weight
  rw [job_growing, fit_allowed]
  unfold share weight
  rfl

theorem range_want (main : Rat) (line : List Item) (l : Rat) :
    (List.range line.length).map (fun i => (job main line).want i l) =
      line.map (share (decide (wish line < main)) · l) := by
  rw [← range_getD (share (decide (wish line < main)) · l) line]
  refine List.map_congr_left fun i _ => ?_
  rw [job_want]
  rfl

theorem taken_map (line : List Item) (f : Item → Rat) :
    taken line (line.map f) = (line.map fun x => f x + margins x).sum := by
  unfold taken
  congr 1
  induction line with
  | nil => rfl
  | cons x l ih => rw [List.map_cons, List.zipWith_cons_cons, List.map_cons, ih]

theorem resolve_fair {main : Rat} {line : List Item} {fuel : Nat} {sizes : List Rat}
    (hp : ∀ x ∈ line, 0 ≤ x.lo ∧ 0 ≤ x.base ∧ (x.grow = 0 ∨ 1 ≤ x.grow) ∧ (x.shrink = 0 ∨ 1 ≤ x.shrink))
    (h : resolve id fuel main line = some sizes) : Fair main line sizes := by
  rw [resolve_eq] at h
  obtain ⟨used, h1, h2⟩ := Option.map_eq_some_iff.1 h
  have p : Plain (job main line) :=
    ⟨fun i hi => (hp _ (job_mem hi)).1, fun i hi => (hp _ (job_mem hi)).2.1,
      fun i hi => (hp _ (job_mem hi)).2.2.1, fun i hi => (hp _ (job_mem hi)).2.2.2⟩
  obtain ⟨m, h3, h4, h5, h6⟩ := loop_levelled _ p _ _ _ h1
  have hs : sizes = line.map (share (decide (wish line < main)) · m) := by
    rw [← h2, ← range_want]
    exact List.map_congr_left fun i hi => h5 i (List.mem_range.1 hi)
  have ht : (job main line).total m = taken line sizes := by
    rw [hs, taken_map, ← range_getD]
    unfold Job.total
    congr 1
    refine List.map_congr_left fun i _ => ?_
    rw [job_want]
    rfl
  have hw : ∀ m', (∀ i, i < (job main line).count → (job main line).want i m' = used i) →
      line.map (share (decide (wish line < main)) · m') = sizes := by
    intro m' hm
    rw [← h2, ← range_want]
    exact List.map_congr_left fun i hi => hm i (List.mem_range.1 hi)
  refine ⟨m, ?_, ?_, hs, ?_⟩
  · intro hlt
    exact h3 (by rw [job_growing]; simpa using hlt)
  · intro hle
    exact h4 (by rw [job_growing]; simpa using hle)
  · rw [← ht]
    rcases h6 with h6 | ⟨h6, h7⟩ | ⟨h6, h7⟩
    · exact Or.inl h6
    · exact Or.inr (Or.inl ⟨h6, fun m' hm => hw m' (h7 m' hm)⟩)
    · exact Or.inr (Or.inr ⟨h6, fun m' hm => hw m' (h7 m' hm)⟩)

theorem job_portion (au : Rat → Rat) (main : Rat) (line : List Item) (i : Nat) :
    (job main line).portion au i = portion au main line ((job main line).it i) := by
  have h1 : (job main line).main - (job main line).outer (List.range (job main line).count) = leftOver main line := by
    unfold leftOver Job.outer
    rw [← range_getD (fun x : Item => x.base + margins x) line]
    rfl
  have h2 : ((List.range (job main line).count).map fun k => ((job main line).it k).grow).sum =
      (line.map Item.grow).sum := congrArg List.sum (range_getD Item.grow line)
  have h3 : ((List.range (job main line).count).map fun k => ((job main line).it k).shrink).sum =
      (line.map Item.shrink).sum := congrArg List.sum (range_getD Item.shrink line)
  have h4 : ((List.range (job main line).count).map fun k =>
      au (((job main line).it k).base * ((job main line).it k).shrink)).sum =
      (line.map fun y => au (y.base * y.shrink)).sum :=
    congrArg List.sum (range_getD (fun y : Item => au (y.base * y.shrink)) line)
  unfold Job.portion portion
  dsimp only
  rw [h1, h2, h3, h4]

theorem resolve_portion {au : Rat → Rat} (h0 : au 0 = 0) {main : Rat} {line : List Item} {fuel : Nat}
    {sizes : List Rat}
    (hp : ∀ x ∈ line, 0 ≤ x.lo ∧ x.lo ≤ x.base ∧ x.base ≤ x.hi ∧ 0 ≤ x.grow ∧ 0 ≤ x.shrink ∧
      x.lo ≤ portion au main line x ∧ portion au main line x ≤ x.hi)
    (h : resolve au fuel main line = some sizes) : sizes = line.map (portion au main line) := by
  rw [resolve_eq] at h
  obtain ⟨used, h1, h2⟩ := Option.map_eq_some_iff.1 h
  have key : ∀ i, i < (job main line).count → used i = (job main line).portion au i := by
    have hl := fun f => loop_unlimited au h0 (job main line)
      (fun i hi => ⟨(hp _ (job_mem hi)).1, (hp _ (job_mem hi)).2.1, (hp _ (job_mem hi)).2.2.1⟩)
      (fun i hi => (hp _ (job_mem hi)).2.2.2.1) (fun i hi => (hp _ (job_mem hi)).2.2.2.2.1)
      (fun i hi => by
        rw [job_portion]
        exact (hp _ (job_mem hi)).2.2.2.2.2) f
    cases fuel with
    | succ f =>
      obtain ⟨u, h3, h4⟩ := hl f
      rw [h1] at h3
      rw [Option.some.inj h3]
      exact h4
    | zero =>
      obtain ⟨u, h3, h4⟩ := hl 0
      rw [Job.loop] at h1
      split at h1
      · rename_i hn
        rw [Job.loop, if_pos hn] at h3
        rw [← Option.some.inj h1, Option.some.inj h3]
        exact h4
      · cases h1
  rw [← h2, ← range_getD (portion au main line) line]
  refine List.map_congr_left fun i hi => ?_
  rw [key i (List.mem_range.1 hi), job_portion]
  rfl

theorem sum_map_le (l : List Item) (f g : Item → Rat) (h : ∀ x ∈ l, f x ≤ g x) : (l.map f).sum ≤ (l.map g).sum := by
  induction l with
  | nil => exact le_rfl
  | cons x l ih =>
    rw [List.map_cons, List.map_cons, List.sum_cons, List.sum_cons]
    exact add_le_add (h x List.mem_cons_self) (ih fun y hy => h y (List.mem_cons_of_mem _ hy))

/-! ## Places in the main direction -/

theorem occupied_make : ∀ (l : List Item) (sizes : List Rat),
    occupied (List.zipWith Box.make l sizes) = taken l sizes
  | [], _ => by simp [occupied, taken]
  | _ :: _, [] => by simp [occupied, taken]
  | x :: l, s :: sizes => by
    rw [List.zipWith_cons_cons, occupied_cons, occupied_make l sizes]
    simp only [taken, List.zipWith_cons_cons, List.sum_cons]
    rfl

theorem justify_within (how : Align) (main c : Rat) (l : List Box) (hne : l ≠ []) (ho : occupied l ≤ main) :
    ∃ g a b, 0 ≤ g ∧ 0 ≤ a ∧ b ≤ main ∧
      Spaced g a ((justify id how main (occupied l) l).map (Box.commit c)) b ∧
      (occupied l = main → g = 0 ∧ a = 0 ∧ b = main) := by
  have key0 := fun a => placeMain_spaced 0 c l a hne
  have hplain : ∃ g a b, 0 ≤ g ∧ 0 ≤ a ∧ b ≤ main ∧ Spaced g a ((placeMain 0 0 l).map (Box.commit c)) b ∧
      (occupied l = main → g = 0 ∧ a = 0 ∧ b = main) :=
    ⟨0, 0, _, le_rfl, le_rfl, by linarith, key0 0, fun h => ⟨rfl, rfl, by rw [h]; ring⟩⟩
  have hmid : ∃ g a b, 0 ≤ g ∧ 0 ≤ a ∧ b ≤ main ∧
      Spaced g a ((placeMain 0 (id ((main - occupied l) / 2)) l).map (Box.commit c)) b ∧
      (occupied l = main → g = 0 ∧ a = 0 ∧ b = main) :=
    ⟨0, (main - occupied l) / 2, _, le_rfl, by linarith, by linarith, key0 _, fun h =>
      ⟨rfl, by rw [h]; ring, by rw [h]; ring⟩⟩
  have hn1 : 1 ≤ l.length := List.length_pos_iff.2 hne
  cases how <;> simp only [justify]
  case center => exact hmid
  case flexEnd =>
    exact ⟨0, main - occupied l, _, le_rfl, by linarith, by linarith, key0 _, fun h =>
      ⟨rfl, by rw [h]; ring, by rw [h]; ring⟩⟩
  case spaceBetween =>
    split
    · exact hplain
    · rename_i hc
      have h2 : l.length ≠ 1 := fun h => hc (Or.inr h)
      have hpos : (0 : Rat) < ((l.length - 1 : Nat) : Rat) := by
        exact_mod_cast (by omega : 0 < l.length - 1)
      refine ⟨(main - occupied l) / ((l.length - 1 : Nat) : Rat), 0, _, div_nonneg (by linarith) hpos.le, le_rfl, ?_,
        placeMain_spaced _ c l 0 hne, fun h => ⟨by rw [h, sub_self, zero_div], rfl, ?_⟩⟩
      · rw [mul_div_cancel₀ _ hpos.ne']
        linarith
      · rw [mul_div_cancel₀ _ hpos.ne']
        linarith
  case spaceAround =>
    split
    · exact hmid
    · have hpos : (0 : Rat) < (l.length : Rat) := by exact_mod_cast (by omega : 0 < l.length)
      have hg : 0 ≤ (main - occupied l) / (l.length : Rat) := div_nonneg (by linarith) hpos.le
      have hm : (l.length : Rat) * ((main - occupied l) / (l.length : Rat)) = main - occupied l :=
        mul_div_cancel₀ _ hpos.ne'
      have hc : ((l.length - 1 : Nat) : Rat) = (l.length : Rat) - 1 := by
        rw [Nat.cast_sub hn1, Nat.cast_one]
      refine ⟨(main - occupied l) / (l.length : Rat), (main - occupied l) / (l.length : Rat) / 2, _, hg, by linarith, ?_,
        placeMain_spaced _ c l _ hne, fun h => ⟨by rw [h, sub_self, zero_div], by rw [h, sub_self, zero_div, zero_div], ?_⟩⟩
      · rw [hc, sub_mul, hm]
        linarith
      · rw [hc, sub_mul, hm, h, sub_self, zero_div]
        linarith
  all_goals exact hplain

theorem autos_pos (l : List Box) (b : Box) (hb : b ∈ l) (h : b.item.startMain = none ∨ b.item.endMain = none) :
    autos l ≠ 0 := by
  induction l with
  | nil => cases hb
  | cons x l ih =>
    unfold autos at ih ⊢
    rw [List.map_cons, List.sum_cons]
    rcases List.mem_cons.1 hb with rfl | hb
    · rcases h with h | h <;> simp only [h, if_true] <;> omega
    · have := ih hb
      omega

theorem autoMargins_le (main : Rat) (l : List Box) (hf : Fresh l) (ho : occupied l ≤ main) :
    occupied (autoMargins id main l).1 ≤ main := by
  rw [← autoMargins_occupied _ _ hf]
  unfold autoMargins
  split
  · exact le_rfl
  · exact ho

theorem autoMargins_full (main : Rat) (l : List Box) (hf : Fresh l) (ho : occupied l < main) (ha : autos l ≠ 0) :
    occupied (autoMargins id main l).1 = main := by
  rw [← autoMargins_occupied _ _ hf]
  unfold autoMargins
  rw [if_pos ⟨ho, ha⟩]

theorem occupied_usedCross (al : Align) (size : Rat) (l : List Box) :
    occupied (l.map (usedCross al size)) = occupied l := by
  unfold occupied
  rw [List.map_map]
  rfl

theorem lineItems_within (c : Container) (start size : Rat) (l : List Box) (hf : Fresh l) (hne : l ≠ [])
    (ho : occupied l ≤ c.main) :
    ∃ g a b, 0 ≤ g ∧ 0 ≤ a ∧ b ≤ c.main ∧ Spaced g a (lineItems id c start size l) b := by
  have hf' := fresh_usedCross c.alignItems size l hf
  have hne' : (autoMargins id c.main (l.map (usedCross c.alignItems size))).1 ≠ [] :=
    autoMargins_ne_nil _ _ _ (by simpa using hne)
  obtain ⟨g, a, b, h0, h1, h2, h, _⟩ := justify_within (turned c.dir c.justify) c.main 0 _ hne'
    (autoMargins_le _ _ hf' (by rw [occupied_usedCross]; exact ho))
  rw [← autoMargins_occupied _ _ hf'] at h
  exact ⟨g, a, b, h0, h1, h2, spaced_congr _ _ _ _ _ (lineItems_key id c start size 0 l).symm h⟩

theorem lineItems_filled (c : Container) (start size : Rat) (l : List Box) (hf : Fresh l) (hne : l ≠ [])
    (ho : occupied l < c.main) (ha : autos l ≠ 0) : Spaced 0 0 (lineItems id c start size l) c.main := by
  have hf' := fresh_usedCross c.alignItems size l hf
  have hne' : (autoMargins id c.main (l.map (usedCross c.alignItems size))).1 ≠ [] :=
    autoMargins_ne_nil _ _ _ (by simpa using hne)
  have ha' : autos (l.map (usedCross c.alignItems size)) ≠ 0 := by
    unfold autos at ha ⊢
    rw [List.map_map]
    exact ha
  have hfull := autoMargins_full c.main _ hf' (by rw [occupied_usedCross]; exact ho) ha'
  obtain ⟨g, a, b, _, _, _, h, hz⟩ := justify_within (turned c.dir c.justify) c.main 0 _ hne' hfull.le
  obtain ⟨rfl, rfl, rfl⟩ := hz hfull
  rw [← autoMargins_occupied _ _ hf'] at h
  exact spaced_congr _ _ _ _ _ (lineItems_key id c start size 0 l).symm h

/-- What an item is, with its margins. -/
def Box.marg (b : Box) : Item × Rat × Rat := (b.item, b.startMain, b.endMain)

theorem placeMain_marg (gap : Rat) : ∀ (l : List Box) (a : Rat), (placeMain gap a l).map Box.marg = l.map Box.marg
  | [], _ => rfl
  | b :: l, a => by
    simp only [placeMain, List.map_cons, placeMain_marg gap l]
    rfl

theorem justify_marg (au : Rat → Rat) (how : Align) (main occ : Rat) (l : List Box) :
    (justify au how main occ l).map Box.marg = l.map Box.marg := by
  cases how <;> simp only [justify] <;> (try split) <;> exact placeMain_marg _ _ _

theorem lineItems_margins (c : Container) (start size : Rat) (line : List Item) (sizes : List Rat) :
    ∃ m : Rat, 0 ≤ m ∧ (¬taken line sizes < c.main → m = 0) ∧
      ∀ p ∈ lineItems id c start size (List.zipWith Box.make line sizes),
        p.startMain = p.item.startMain.getD m ∧ p.endMain = p.item.endMain.getD m := by
  obtain ⟨l, hl⟩ : ∃ l, (List.zipWith Box.make line sizes).map (usedCross c.alignItems size) = l := ⟨_, rfl⟩
  have hocc : occupied l = taken line sizes := by rw [← hl, occupied_usedCross, occupied_make]
  obtain ⟨m, h0, hz, hm⟩ : ∃ m : Rat, 0 ≤ m ∧ (¬taken line sizes < c.main → m = 0) ∧
      (autoMargins id c.main l).1 = l.map (Box.withAuto m) := by
    unfold autoMargins
    split
    · rename_i hc
      exact ⟨_, div_nonneg (by linarith [hc.1]) (Nat.cast_nonneg _),
        fun h => absurd (hocc ▸ hc.1) h, rfl⟩
    · exact ⟨0, le_rfl, fun _ => rfl, rfl⟩
  refine ⟨m, h0, hz, fun p hp => ?_⟩
  simp only [lineItems, finishLine, List.mem_map] at hp
  obtain ⟨b2, ⟨b1, hb1, rfl⟩, rfl⟩ := hp
  rw [hl] at hb1
  have hmem : b1.marg ∈ (l.map (Box.withAuto m)).map Box.marg := by
    rw [← hm, ← justify_marg id (turned c.dir c.justify) c.main (autoMargins id c.main l).2]
    exact List.mem_map.2 ⟨b1, hb1, rfl⟩
  have hk := finish_key id c.alignItems size start 0 b1
  simp only [Placed.key, Prod.mk.injEq] at hk
  rw [hk.2.2.1, hk.2.2.2, finish_item]
  rw [List.map_map] at hmem
  obtain ⟨b, hb, he⟩ := List.mem_map.1 hmem
  rw [← hl] at hb
  obtain ⟨b', hb', rfl⟩ := List.mem_map.1 hb
  obtain ⟨k, x, s, _, _, rfl⟩ := mem_zipWith_make _ _ _ hb'
  simp only [Function.comp, Box.marg, Box.withAuto, usedCross, Box.make, Prod.mk.injEq] at he
  obtain ⟨h1, h2, h3⟩ := he
  simp only [Box.commit]
  rw [← h1, ← h2, ← h3]
  constructor
  · by_cases ho : x.startMain = none
    · refine (if_pos ho).trans ?_
      rw [ho]
      rfl
    · refine (if_neg ho).trans ?_
      obtain ⟨v, hv⟩ := Option.ne_none_iff_exists'.1 ho
      rw [hv]
      rfl
  · by_cases ho : x.endMain = none
    · refine (if_pos ho).trans ?_
      rw [ho]
      rfl
    · refine (if_neg ho).trans ?_
      obtain ⟨v, hv⟩ := Option.ne_none_iff_exists'.1 ho
      rw [hv]
      rfl

theorem spaced_upto (g : Rat) (hg : 0 ≤ g) : ∀ (ps : List Placed) (a b : Rat), (∀ p ∈ ps, p.Nonneg) →
    Spaced g a ps b → ∀ p ∈ ps, p.main + p.mainSize ≤ b
  | [], _, _, _, _, p, hp => by cases hp
  | [q], a, b, hn, h, p, hp => by
    obtain rfl := List.mem_singleton.1 hp
    have := hn p hp
    unfold Placed.Nonneg at this
    simp only [Spaced] at h
    linarith [h.2, this.2.2]
  | q :: q' :: ps, a, b, hn, h, p, hp => by
    have h' := h
    simp only [Spaced] at h
    have hq := hn q List.mem_cons_self
    unfold Placed.Nonneg at hq
    have hn' : ∀ p ∈ q' :: ps, p.Nonneg := fun x hx => hn x (List.mem_cons_of_mem _ hx)
    rcases List.mem_cons.1 hp with rfl | hp
    · have h1 := spaced_pairwise g hg _ _ b hn h'
      have h2 := (List.pairwise_cons.1 h1).1 q' List.mem_cons_self
      have h3 := spaced_upto g hg (q' :: ps) _ b hn' h.2 q' List.mem_cons_self
      have h4 := hn q' (by simp)
      unfold Placed.Nonneg at h4
      linarith [h4.1]
    · exact spaced_upto g hg (q' :: ps) _ b hn' h.2 p hp

end Verif.Flex
