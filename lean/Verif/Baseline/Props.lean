import Verif.Baseline.Spec
/-!
# Properties C243 and C244: boxes in lines
-/
namespace Verif.Baseline

mutual
/-- Boxes whose paragraphs have one line each, at the height that the font says, and in which nothing has borders or
paddings at the top or is passed over. -/
inductive Plain : Content → Prop where
  | para (a : Rat) : Plain (.para a a [])
  | block {b : Box} {ks : List Box} : PlainBox b → (∀ k ∈ ks, PlainBox k) → Plain (.block (b :: ks))
inductive PlainBox : Box → Prop where
  | mk {t h m : Rat} {s : Bool} {c : Content} : Plain c → PlainBox (.mk t 0 h m false s c)
end

theorem linesIn_block (ks : List Box) : linesOf (.block ks) = linesIn ks := by rw [linesOf]

/-- The baselines found are those of the first and the last line. -/
def Right (h : Rat) (c : Content) : Prop :=
  (linesOf c).head? = some (output h c).first ∧ (linesOf c).getLast? = some (output h c).last

def RightBox (b : Box) : Prop := b.skip = false ∧ b.edge = 0 ∧ Right b.height b.content

theorem loop_right (ks : List Box) (h : ∀ k ∈ ks, RightBox k) (s : Bool) (l : Lines) :
    (loop s l ks).last = ((linesIn ks).getLast?).getD l.last ∧
    (loop s l ks).first = if s then ((linesIn ks).head?).getD l.first else l.first := by
  induction ks generalizing s l with
  | nil => simp [loop, linesIn]
  | cons b ks ih =>
    obtain ⟨h1, h2, h3⟩ := h b (by simp)
    obtain ⟨t, e, hh, m, skip, sc, c⟩ := b
    simp only [Box.skip, Box.edge, Box.height, Box.content] at h1 h2 h3
    subst h1 h2
    obtain ⟨hf, hl⟩ := h3
    have hih := ih (fun k hk => h k (by simp [hk])) false
      ⟨if s then (output hh c).first + t else l.first, (output hh c).last + t⟩
    have hmap : (linesOf c).map (fun y => t + 0 + y) = (linesOf c).map (fun y => y + t) := by
      apply List.map_congr_left
      intro y _
      rw [Rat.add_zero, Rat.add_comm]
    rw [loop, linesIn, hmap]
    simp only [Bool.false_eq_true, if_false] at hih ⊢
    rw [hih.1, hih.2]
    have hne : linesOf c ≠ [] := by intro h0; rw [h0] at hf; cases hf
    constructor
    · cases hk : linesIn ks with
      | nil => rw [List.append_nil, List.getLast?_map, hl]; rfl
      | cons y ys => rw [List.getLast?_append]; simp [List.getLast?_cons]
    · cases s with
      | false => rfl
      | true =>
        simp only [if_true]
        rw [List.head?_append, List.head?_map, hf]
        rfl

theorem plain_right : ∀ {c : Content}, Plain c → ∀ h, Right h c
  | _, .para a, h => by simp [Right, linesOf, output]
  | _, .block (b := b) (ks := ks) hb hks, h => by
    have hr : ∀ k ∈ b :: ks, RightBox k := by
      intro k hk
      rcases List.mem_cons.1 hk with he | hk
      · rw [he]; exact plainBox_right hb
      · exact plainBox_right (hks k hk)
    have hl := loop_right (b :: ks) hr true ⟨0, 0⟩
    have hne : linesIn (b :: ks) ≠ [] := by
      obtain ⟨h1, _, h3⟩ := hr b (by simp)
      obtain ⟨t, e, hh, m, skip, sc, c⟩ := b
      simp only [Box.skip, Box.height, Box.content] at h1 h3
      rw [linesIn, h1]
      simp only [Bool.false_eq_true, if_false]
      intro h0
      rw [List.append_eq_nil_iff, List.map_eq_nil_iff] at h0
      rw [Right, h0.1] at h3
      cases h3.1
    unfold Right
    rw [linesOf, output, hl.1, hl.2]
    cases hk : linesIn (b :: ks) with
    | nil => exact absurd hk hne
    | cons y ys => simp [List.getLast?_cons]
where
  plainBox_right : ∀ {b : Box}, PlainBox b → RightBox b
  | _, .mk (h := h) hc => ⟨rfl, rfl, plain_right hc h⟩

/-- **C243 (in part).** An inline block stands on the baseline of its last line, however its lines are nested in blocks.
Missing: paragraphs of several lines (`C243_lines_fails`), padding and borders (`C243_padding_fails`), boxes that scroll
or have no lines (`C243_scroll_fails`, `C243_empty_fails`). -/
theorem C243_last_partial (b : Box) (h : Rat) (hp : PlainBox b) (hs : b.scrolls = false) :
    baseline .auto true h b = specBaseline b := by
  obtain ⟨t, e, hh, m, skip, sc, c⟩ := b
  cases hp with
  | mk hc =>
    have hr := plain_right hc h
    simp only [baseline, used, Box.content, specBaseline, Box.scrolls, Box.edge, if_true] at hs ⊢
    rw [hs, hr.2]
    simp [Rat.zero_add]

/-- **C243.** `baseline-source` is heeded: with `first` such a box stands on its first line, with `last` on its last, whatever
kind of box it is; with `auto` boxes that are not inline blocks stand on their first line. -/
theorem C243_source_partial (b : Box) (h : Rat) (ib : Bool) (hp : PlainBox b) :
    (linesOf b.content).head? = some (baseline .first ib h b) ∧
    (linesOf b.content).getLast? = some (baseline .last ib h b) ∧
    (linesOf b.content).head? = some (baseline .auto false h b) := by
  obtain ⟨t, e, hh, m, skip, sc, c⟩ := b
  cases hp with
  | mk hc => exact ⟨(plain_right hc h).1, (plain_right hc h).2, (plain_right hc h).1⟩

/-- Two blocks with a line each, the second one in another block. -/
def sample : Box :=
  .mk 0 0 60 0 false false (.block [.mk 0 0 20 0 false false (.para 15 15 []),
    .mk 20 0 40 0 false false (.block [.mk 10 0 20 0 false false (.para 12 12 [])])])

example : PlainBox sample := .mk (.block (.mk (.para 15)) fun k hk => by
  simp only [List.mem_cons, List.not_mem_nil, or_false] at hk
  subst hk
  exact .mk (.block (.mk (.para 12)) (by simp)))

example : baseline .auto true 60 sample = 42 ∧ baseline .first true 60 sample = 15 := by decide +kernel

/-- **C243.** It is false that lines are told apart: the baseline of a paragraph is the same number however many lines it
has and wherever they are, for the first line and for the last. -/
theorem C243_lines_fails (src : Source) (ib : Bool) (h h' a l l' : Rat) (ls ls' : List Rat) (t e hh m : Rat) (s : Bool) :
    baseline src ib h (.mk t e hh m false s (.para a l ls)) = baseline src ib h' (.mk t e hh m false s (.para a l' ls')) := by
  simp [baseline, Box.content, output]

/-- So a box of two lines is wrong if that of one line is right. -/
theorem C243_two_lines_fails (h a t hh m : Rat) (l : Rat) (hl : l ≠ a) :
    baseline .auto true h (.mk t 0 hh m false false (.para a a [l])) ≠
      specBaseline (.mk t 0 hh m false false (.para a a [l])) := by
  simp only [baseline, Box.content, output, used, if_true, specBaseline, Box.scrolls, Bool.false_eq_true, if_false, linesOf,
    Box.edge, List.getLast?_cons, List.getLast?_nil, Option.getD_none, Option.getD_some, Rat.zero_add]
  exact fun h => hl h.symm

/-- **C243.** It is false that padding or a border at the top moves the baseline, of the box itself or of blocks in it. -/
theorem C243_padding_fails (src : Source) (ib : Bool) (h t e e' hh m : Rat) (s : Bool) (c : Content) :
    baseline src ib h (.mk t e hh m false s c) = baseline src ib h (.mk t e' hh m false s c) ∧
    output h (.block [.mk t e hh m false s c]) = output h (.block [.mk t e' hh m false s c]) := by
  constructor
  · rfl
  · rw [output, output]
    unfold loop
    rfl

/-- **C243.** It is false that a box that scrolls stands on its margin. -/
theorem C243_scroll_fails : baseline .auto true 20 (.mk 0 0 20 5 false true (.para 15 15 [])) = 15 ∧
    specBaseline (.mk 0 0 20 5 false true (.para 15 15 [])) = 25 := by decide +kernel

/-- **C243.** It is false that a box without lines stands on its margin: it hangs from the line. -/
theorem C243_empty_fails (h t e hh m : Rat) (s : Bool) :
    baseline .auto true h (.mk t e hh m false s (.block [])) = 0 ∧
    specBaseline (.mk t e hh m false s (.block [])) = hh + m := by
  constructor
  · simp [baseline, Box.content, output, loop, used]
  · cases s <;> simp [specBaseline, Box.scrolls, linesOf, linesIn, Box.content, Box.height, Box.marginBottom]

theorem later_first (ks : List Box) (l : Lines) : (loop false l ks).first = l.first := by
  induction ks generalizing l with
  | nil => rw [loop]
  | cons b ks ih =>
    obtain ⟨t, e, hh, m, skip, sc, c⟩ := b
    rw [loop]
    cases skip with
    | true => exact ih l
    | false => exact ih _

/-- **C243.** It is false that boxes out of the flow make no difference: behind one as the first child, the first baseline
is lost. -/
theorem C243_first_fails (h : Rat) (gone : Box) (hg : gone.skip = true) (ks : List Box) :
    (output h (.block (gone :: ks))).first = 0 := by
  obtain ⟨t, e, hh, m, skip, sc, c⟩ := gone
  simp only [Box.skip] at hg
  subst hg
  rw [output, loop]
  simp only [if_true]
  exact later_first ks ⟨0, 0⟩

/-- **C243.** It is false of flex containers, grids and tables in lines that they stand on any of their baselines: they hang
from the line. -/
theorem C243_flex_fails (src : Source) (ib : Bool) (h t e hh m : Rat) (s : Bool) :
    baseline src ib h (.mk t e hh m false s .other) = 0 := by
  cases src <;> cases ib <;> simp [baseline, used, Box.content, output]

/-- **C243 (in part).** An image without margin, border and padding stands with its bottom on the line. -/
theorem C243_image_partial (src : Source) (ib : Bool) (t h : Rat) (s : Bool) :
    baseline src ib h (.mk t 0 h 0 false s .image) = specBaseline (.mk t 0 h 0 false s .image) := by
  cases src <;> cases ib <;> cases s <;> simp [baseline, used, output, specBaseline, linesOf, Box.scrolls, Box.content, Box.height,
    Box.marginBottom, Rat.add_zero]

/-! ## C244 -/

/-- **C244 (in part).** A box in a line takes the width it has, or as much as its content wants and the line has space for.
Missing: margins (`C244_margin_fails`), and paddings and borders of boxes without a width (`C244_padding_fails`). -/
theorem C244_width_partial (space : Rat) (a : Atom) (hm : a.margins = 0) (he : a.width = none → a.edges = 0) :
    strut space a = specWidth space a := by
  unfold strut specWidth
  cases hw : a.width with
  | some w => simp only [hm, Rat.zero_add]; rw [Rat.add_comm]
  | none =>
    have := he hw
    simp only [hm, this, Rat.zero_add, Rat.add_zero, filled]
    have : space - 0 - 0 = space := by simp [Rat.sub_eq_add_neg, Rat.add_zero]
    rw [this]

example : strut 100 ⟨none, 0, 0, 40, 200⟩ = 100 ∧ strut 100 ⟨some 30, 10, 0, 40, 200⟩ = 40 := by decide +kernel

/-- **C244.** It is false that margins take room in a line. -/
theorem C244_margin_fails (space m : Rat) (a : Atom) :
    strut space { a with margins := m } = strut space a ∧
    (∀ w, a.width = some w → specWidth space { a with margins := m } = m + (a.edges + w)) := by
  refine ⟨rfl, ?_⟩
  intro w hw
  simp [specWidth, hw, Rat.add_assoc]

/-- **C244.** It is false that a box without a width stays within the line if its content can: its paddings and borders come
on top. -/
theorem C244_padding_fails (space e : Rat) (he : 0 < e) (a : Atom) (hw : a.width = none) (hm : a.minC ≤ space)
    (hx : space ≤ a.maxC) (h : a.edges = e) : space < strut space a := by
  have h1 : ¬ space < a.minC := Rat.not_lt.2 hm
  have h2 : ¬ a.maxC < space := Rat.not_lt.2 hx
  simp only [strut, hw, filled, h1, h2, if_false, h]
  have := (Rat.add_lt_add_left (a := 0) (b := e) (c := space)).2 he
  rwa [Rat.add_zero] at this

example : strut 100 ⟨none, 20, 0, 40, 200⟩ = 120 ∧ specWidth 100 ⟨none, 20, 0, 40, 200⟩ = 100 := by decide +kernel

end Verif.Baseline
