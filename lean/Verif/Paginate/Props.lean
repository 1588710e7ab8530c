import Verif.Paginate.Pages
/-!
# Pagination: theorems

C31 every piece of content is printed once, C32 printing ends, C33 the break chosen, C34 rendering without
pages shows everything.
-/
namespace Verif.Paginate
open Spec

/-- The pieces of content shown, page after page. -/
def shown (l : List (List Frag)) : List Nat := l.flatMap fun page => page.map Frag.id

/-! Small documents for the examples. -/

private def p (id : Nat) (h : Int) (s : Style := {}) : Box := .mono { s with met := fun _ => { extent := h } } id []
private def div (kids : List Box) (s : Style := {}) : Box := .block s 0 kids
private def sized (id : Nat) (h : Int) : Box := .block { met := fun _ => { height := some h } } id []
private def page100 : Nat → Page := fun _ => ⟨0, 100⟩

/-! ## C31 -/

/-- If the breaks are found and none of them is an overflow, the pages show every piece of content exactly
once and in document order, for documents the code breaks right (`Plain`) whose root has one child. -/
theorem C31_every_piece_once_partial (pages : Nat → Page) (root : Box) (hp : Plain root) (hs : SingleRoot root)
    (fuel : Nat) (bps : List Bp) (hb : discover pages root fuel 0 .startOfDocument = .pages bps)
    (ho : ∀ b ∈ bps, b.appeal = .classB ∨ b.appeal = .forced) :
    shown (print pages root bps) = content root := by
  have := print_all (pages (bps.length - 1)) pages root hp hs fuel 0 .startOfDocument bps (Or.inl rfl) hb
    (fun b h => by
      rcases ho b h with h | h <;> · unfold Proper; rw [h]; decide)
  rw [after_start] at this
  exact this

/-- Where every page has room for whatever it may begin with, the same without conditions on the breaks. -/
theorem C31_roomy_every_piece_once_partial (pages : Nat → Page) (root : Box) (hp : Plain root) (hs : SingleRoot root)
    (hr : ∀ n, Roomy n (pages n).height root (pages n).top 0) :
    ∃ bps, discover pages root (count root) 0 .startOfDocument = .pages bps ∧
      shown (print pages root bps) = content root := by
  obtain ⟨bps, h1, -, h3⟩ := ends_all pages root hp hr (count root) 0 .startOfDocument (Or.inl rfl) (by omega)
    (by rw [dist_start]; exact count_pos root)
  have := print_all (pages (bps.length - 1)) pages root hp hs _ 0 .startOfDocument bps (Or.inl rfl) h1 h3
  rw [after_start] at this
  exact ⟨bps, h1, this⟩

/-- A document of several pages to which both apply: nested boxes, a forced break, an absolutely positioned
box, a running element, an empty box. -/
private def sample : Box :=
  div [div [p 1 60, div [p 2 30, p 3 30, p 4 30], p 5 20 { before := .page }, p 6 1 { pos := .running },
    p 7 10 { after := .page }, sized 8 90, p 9 10, p 10 5 { pos := .out }]]

example : Plain sample ∧ SingleRoot sample := by
  simp [sample, div, p, sized, Plain, PlainKids, SingleRoot, Box.style, UnforcedInner]

example : ∀ n, Roomy n (page100 n).height sample (page100 n).top 0 := by
  intro n
  simp [sample, div, p, sized, Roomy, RoomyKids, Box.style, page100]

example : discover page100 sample 9 0 .startOfDocument =
    .pages [.deep 1 .classB .dont (.deep 2 .classB .dont (.flat 2 .classB .withoutChildren)),
      .deep 1 .forced .dont (.flat 2 .forced .withoutChildren),
      .deep 1 .forced .dont (.flat 5 .forced .withoutChildren), .flat 1 .classB .withoutChildren] := by
  decide +kernel

example : (print page100 sample
    [.deep 1 .classB .dont (.deep 2 .classB .dont (.flat 2 .classB .withoutChildren)),
      .deep 1 .forced .dont (.flat 2 .forced .withoutChildren),
      .deep 1 .forced .dont (.flat 5 .forced .withoutChildren), .flat 1 .classB .withoutChildren]).map
    (·.map Frag.id) = [[1, 2, 3], [4], [5, 7], [8, 9, 10]] := by decide +kernel

/-- Whatever the document and the breaks: one page shows no piece twice, and its pieces are in document
order. -/
theorem C31_page_in_order (last : Page) (pages : Nat → Page) (root : Box) (n : Nat) (prev curr : Bp) :
    ((printPage last pages root n prev curr).map Frag.id).Sublist (content root) :=
  sub_box _ root _

/-- A piece of content the document has once is never shown twice by one page. -/
theorem C31_page_no_repeat (last : Page) (pages : Nat → Page) (root : Box) (n : Nat) (prev curr : Bp)
    (h : (content root).Nodup) : ((printPage last pages root n prev curr).map Frag.id).Nodup :=
  (C31_page_in_order last pages root n prev curr).nodup h

example : (content sample).Nodup := by decide +kernel

/-- Content is lost if the root has more than one child: what comes after the first child is not on the
last page. -/
theorem C31_second_child_of_root_fails :
    discover page100 (div [p 1 10, p 2 10]) 1 0 .startOfDocument = .pages [.classB 1 false] ∧
    content (div [p 1 10, p 2 10]) = [1, 2] ∧
    shown (print page100 (div [p 1 10, p 2 10]) [.classB 1 false]) = [1] := by
  refine ⟨?_, ?_, ?_⟩ <;> decide +kernel

/-- Content is printed twice: a paragraph with `break-after: avoid` at the end of a page comes again at the
top of the next one. -/
theorem C31_break_after_avoid_fails :
    let doc := div [div [p 1 50, p 2 60 { after := .avoid }, p 3 60]]
    ∃ bps, discover page100 doc 2 0 .startOfDocument = .pages bps ∧
      content doc = [1, 2, 3] ∧ (print page100 doc bps).map (·.map Frag.id) = [[1, 2], [2, 3]] := by
  refine ⟨[.deep 1 .classB .dont (.deep 2 .classB .dont (.flat 0 .classB .withoutChildren)), .classB 1 false], ?_, ?_, ?_⟩ <;>
    decide +kernel

/-- Content within a box that is not broken (here an inline block, or a flex item) is lost at
`break-before: page`. -/
theorem C31_break_in_monolithic_fails :
    let doc := div [.mono {} 1 [div [p 2 10, p 3 10 { before := .page }]]]
    ∃ bps, discover page100 doc 1 0 .startOfDocument = .pages bps ∧
      content doc = [1, 2, 3] ∧ shown (print page100 doc bps) = [1, 2] := by
  refine ⟨[.classB 1 false], ?_, ?_, ?_⟩ <;> decide +kernel

/-! ## C32 -/

/-- Printing ends, with at most as many pages as there are boxes, for documents the code breaks right, if each
page has room for whatever it may begin with. -/
theorem C32_ends_partial (pages : Nat → Page) (root : Box) (hp : Plain root)
    (hr : ∀ n, Roomy n (pages n).height root (pages n).top 0) :
    ∃ bps, bps.length ≤ count root ∧ ∀ fuel, count root ≤ fuel → discover pages root fuel 0 .startOfDocument = .pages bps := by
  obtain ⟨bps, h1, h2, -⟩ := ends_all pages root hp hr (count root) 0 .startOfDocument (Or.inl rfl) (by omega)
    (by rw [dist_start]; exact count_pos root)
  have mono : ∀ (f : Nat) (n : Nat) (b : Bp) (l : List Bp), discover pages root f n b = .pages l →
      ∀ g, f ≤ g → discover pages root g n b = .pages l := by
    intro f
    induction f with
    | zero => intro n b l h; cases h
    | succ f ih =>
      intro n b l h g hg
      obtain ⟨g, rfl⟩ : ∃ g', g = g' + 1 := ⟨g - 1, by omega⟩
      simp only [discover] at h ⊢
      split at h
      · next ho => rw [if_pos ho]; exact h
      · next ho =>
        rw [if_neg ho]
        cases hb : (discoverPage pages root n b).bp with
        | none => simp only [hb] at h; cases h
        | some c =>
          simp only [hb] at h
          split at h
          · next bs hbs =>
            cases h
            simp only [ih (n + 1) c bs hbs g (by omega)]
          · next hne => exact absurd h (hne l)
  exact ⟨bps, by omega, mono _ _ _ _ h1⟩

/-- The search for the breaks never panics. -/
theorem C32_no_panic (pages : Nat → Page) (root : Box) (fuel n : Nat) (b : Bp) : discover pages root fuel n b ≠ .panic := by
  induction fuel generalizing n b with
  | zero => intro h; cases h
  | succ fuel ih =>
    intro h
    simp only [discover] at h
    split at h
    · cases h
    · next ho =>
      obtain ⟨c, hc⟩ := disc_bp { size := some (pages n).height, discovery := true } rfl root
        { page := n, y := (pages n).top, known := (root.style.met n).height, trav := { prev := some b } } (Bool.eq_false_iff.2 ho)
      have hc' : (discoverPage pages root n b).bp = some c := hc
      simp only [hc'] at h
      split at h
      · cases h
      · exact ih _ _ h

/-- If the break found is the one the page began with, printing never ends. -/
private theorem stuck (pages : Nat → Page) (root : Box) (b : Bp)
    (h : ∀ n, (discoverPage pages root n b).complete = false ∧ (discoverPage pages root n b).bp = some b) :
    ∀ fuel n, discover pages root fuel n b = .goesOn := by
  intro fuel
  induction fuel with
  | zero => intro n; rfl
  | succ fuel ih => intro n; simp [discover, (h n).1, (h n).2, ih]

private theorem stuck_after (pages : Nat → Page) (root : Box) (a b : Bp)
    (h0 : ∀ n, (discoverPage pages root n a).complete = false ∧ (discoverPage pages root n a).bp = some b)
    (h : ∀ n, (discoverPage pages root n b).complete = false ∧ (discoverPage pages root n b).bp = some b) :
    ∀ fuel n, discover pages root fuel n a = .goesOn := by
  intro fuel n
  cases fuel with
  | zero => rfl
  | succ fuel => simp [discover, (h0 n).1, (h0 n).2, stuck pages root b h fuel]

/-- Two breaks that lead to each other. -/
private theorem cycle (pages : Nat → Page) (root : Box) (a b : Bp)
    (ha : ∀ n, (discoverPage pages root n a).complete = false ∧ (discoverPage pages root n a).bp = some b)
    (hb : ∀ n, (discoverPage pages root n b).complete = false ∧ (discoverPage pages root n b).bp = some a) :
    ∀ fuel n, discover pages root fuel n a = .goesOn ∧ discover pages root fuel n b = .goesOn := by
  intro fuel
  induction fuel with
  | zero => intro n; exact ⟨rfl, rfl⟩
  | succ fuel ih =>
    intro n
    constructor
    · simp [discover, (ha n).1, (ha n).2, ih]
    · simp [discover, (hb n).1, (hb n).2, ih]

/-- An empty box taller than the page: printing never ends. -/
theorem C32_tall_box_fails (fuel : Nat) : discover page100 (div [sized 1 200]) fuel 0 .startOfDocument = .goesOn :=
  stuck_after page100 _ .startOfDocument (.deep 1 .overflow .dont .overflow)
    (fun _ => ⟨rfl, rfl⟩) (fun _ => ⟨rfl, rfl⟩) fuel 0

/-- `break-after: page` on the last child: printing never ends. -/
theorem C32_break_after_last_fails (fuel : Nat) :
    discover page100 (div [div [p 1 10 { after := .page }]]) fuel 0 .startOfDocument = .goesOn := by
  have h := cycle page100 (div [div [p 1 10 { after := .page }]])
    (.deep 1 .forced .dont (.forcedAt 1)) (.deep 1 .empty .dont .initial)
    (fun _ => ⟨rfl, rfl⟩) (fun _ => ⟨rfl, rfl⟩)
  cases fuel with
  | zero => rfl
  | succ fuel =>
    have e : ∀ n, (discoverPage page100 (div [div [p 1 10 { after := .page }]]) n .startOfDocument).complete = false ∧
      (discoverPage page100 (div [div [p 1 10 { after := .page }]]) n .startOfDocument).bp = some (.deep 1 .forced .dont (.forcedAt 1)) :=
      fun _ => ⟨rfl, rfl⟩
    simp only [discover, (e 0).1, (e 0).2, Bool.false_eq_true, if_false, (h fuel 1).1]

/-- A running element as last child: printing never ends. -/
theorem C32_running_last_fails (fuel : Nat) :
    discover page100 (div [p 1 10 { pos := .running }]) fuel 0 .startOfDocument = .goesOn :=
  stuck page100 _ .startOfDocument (fun _ => ⟨rfl, rfl⟩) fuel 0

/-- Content with `break-after: avoid` as tall as the page, before more content: printing never ends. -/
theorem C32_break_avoid_fails (fuel : Nat) :
    discover page100 (div [p 1 101 { after := .avoid }, p 2 10]) fuel 0 .startOfDocument = .goesOn :=
  stuck_after page100 _ .startOfDocument (.deep 1 .classB .dont (.flat 0 .classB .withoutChildren))
    (fun _ => ⟨rfl, rfl⟩) (fun _ => ⟨rfl, rfl⟩) fuel 0

/-- The content area is as tall as its top margin: even a short text does not fit, since the position on the
sheet is compared with the height of the area. -/
theorem C32_top_margin_fails (fuel : Nat) :
    discover (fun _ => ⟨60, 50⟩) (div [p 1 10]) fuel 0 .startOfDocument = .goesOn :=
  stuck_after _ _ .startOfDocument .overflow (fun _ => ⟨rfl, rfl⟩) (fun _ => ⟨rfl, rfl⟩) fuel 0

/-! ## C33 -/

/-- The break used of a list of candidates found in this order. -/
def choose (l : List Bp) : Bp := l.foldl Bp.overrideIfBetter .initial

private theorem foldl_best (l : List Bp) (cur : Bp) :
    (l.foldl Bp.overrideIfBetter cur = cur ∧
      (∀ x ∈ l, x.appeal.rank < cur.appeal.rank ∨ (x.appeal = .overflow ∧ cur.appeal = .overflow))) ∨
    ∃ u b v, l = u ++ b :: v ∧ l.foldl Bp.overrideIfBetter cur = b ∧ cur.appeal.rank ≤ b.appeal.rank ∧
      ¬(cur.appeal = .overflow ∧ b.appeal = .overflow) ∧
      (∀ x ∈ u, x.appeal.rank ≤ b.appeal.rank) ∧
      (∀ x ∈ v, x.appeal.rank < b.appeal.rank ∨ (x.appeal = .overflow ∧ b.appeal = .overflow)) ∧
      (b.appeal = .overflow → ∀ x ∈ u, x.appeal ≠ .overflow) := by
  induction l generalizing cur with
  | nil => exact Or.inl ⟨rfl, by simp⟩
  | cons a l ih =>
    rw [List.foldl_cons]
    have hov : (cur.overrideIfBetter a = cur ∧ ((cur.appeal = .overflow ∧ a.appeal = .overflow) ∨ a.appeal.rank < cur.appeal.rank)) ∨
        (cur.overrideIfBetter a = a ∧ cur.appeal.rank ≤ a.appeal.rank ∧ ¬(cur.appeal = .overflow ∧ a.appeal = .overflow)) := by
      unfold Bp.overrideIfBetter
      split
      · next h => exact Or.inl ⟨rfl, Or.inl h⟩
      · next h =>
        split
        · next h' => exact Or.inr ⟨rfl, h', h⟩
        · next h' => exact Or.inl ⟨rfl, Or.inr (by omega)⟩
    have rk : ∀ x y : Appeal, x.rank = y.rank → x = y := by
      intro x y h; cases x <;> cases y <;> first | rfl | exact absurd h (by decide)
    rcases hov with ⟨e, h⟩ | ⟨e, h1, h2⟩
    · rw [e]
      rcases ih cur with ⟨e', h'⟩ | ⟨u, b, v, rfl, e', h1, h2, h3, h4, h5⟩
      · refine Or.inl ⟨e', fun x hx => ?_⟩
        rcases List.mem_cons.1 hx with rfl | hx
        · rcases h with h | h
          · exact Or.inr ⟨h.2, h.1⟩
          · exact Or.inl h
        · exact h' x hx
      · refine Or.inr ⟨a :: u, b, v, rfl, e', h1, h2, fun x hx => ?_, h4, fun hb x hx => ?_⟩
        · rcases List.mem_cons.1 hx with rfl | hx
          · rcases h with h | h
            · rw [h.2, ← h.1]; exact h1
            · omega
          · exact h3 x hx
        · rcases List.mem_cons.1 hx with rfl | hx
          · intro hxo
            rcases h with h | h
            · exact h2 ⟨h.1, hb⟩
            · rw [hb] at h1; rw [hxo] at h; omega
          · exact h5 hb x hx
    · rw [e]
      rcases ih a with ⟨e', h'⟩ | ⟨u, b, v, rfl, e', h1', h2', h3, h4, h5⟩
      · exact Or.inr ⟨[], a, l, rfl, e', h1, h2, by simp, h', by simp⟩
      · refine Or.inr ⟨a :: u, b, v, rfl, e', by omega, ?_, fun x hx => ?_, h4, fun hb x hx => ?_⟩
        · rintro ⟨hc, hb⟩
          have : a.appeal = .overflow := by
            apply rk
            rw [hc] at h1
            rw [hb] at h1'
            omega
          exact h2 ⟨hc, this⟩
        · rcases List.mem_cons.1 hx with rfl | hx
          · exact h1'
          · exact h3 x hx
        · rcases List.mem_cons.1 hx with rfl | hx
          · exact fun h => h2' ⟨h, hb⟩
          · exact h5 hb x hx

/-- The break used is one of the candidates and none is better; it is the last of the best ones, or, if all
are overflows, the first. -/
theorem C33_last_of_best (l : List Bp) (hl : l ≠ []) :
    ∃ u v, l = u ++ choose l :: v ∧ (∀ x ∈ l, x.appeal.rank ≤ (choose l).appeal.rank) ∧
      ((choose l).appeal ≠ .overflow → ∀ x ∈ v, x.appeal ≠ (choose l).appeal) ∧
      ((choose l).appeal = .overflow → ∀ x ∈ u, x.appeal ≠ .overflow) := by
  have key := foldl_best l .initial
  have e : l.foldl Bp.overrideIfBetter .initial = choose l := rfl
  rw [e] at key
  rcases key with ⟨h1, h2⟩ | ⟨u, b, v, hl', h1, h2, h3, h4, h5, h6⟩
  · obtain ⟨x, hx⟩ := List.exists_mem_of_ne_nil l hl
    rcases h2 x hx with h | h
    · exact absurd h (Nat.not_lt_zero _)
    · exact absurd h.2 (by decide)
  · subst h1
    refine ⟨u, v, hl', fun x hx => ?_, fun hb x hx he => ?_, h6⟩
    · rw [hl'] at hx
      rcases List.mem_append.1 hx with hx | hx
      · exact h4 x hx
      · rcases List.mem_cons.1 hx with rfl | hx
        · exact Nat.le_refl _
        · rcases h5 x hx with h | h
          · omega
          · rw [h.1, h.2]; exact Nat.le_refl _
    · rcases h5 x hx with h | h
      · rw [he] at h; omega
      · exact hb h.2

/-- The candidates a block comes across in discovery mode, children first to last: the break within a child,
then the one after it. -/
def candidates (parent : Style) : List (Nat × Style × Option Box × Out) → List Bp
  | [] => []
  | (i, s, next, o) :: rest =>
    (match o.bp with | some c => [Bp.fromChild c (i + 1) parent.inside] | none => []) ++
    (if o.complete ∧ next.isSome then [Bp.classB (i + 1) (avoided parent s next)] else []) ++
    candidates parent rest

/-- The children a block lays out from child `i` on, with what comes of them, up to the first that does not
end on the page. -/
inductive Laid (fc : Fc) (parent : Style) (inp : In) (start : Nat) : List Box → Nat → St → List (Nat × Style × Option Box × Out) → Prop where
  | stop {c rest i st o} : ¬i < start → c.style.pos = .flow → ¬(c.style.before = .page ∧ start ≠ i) →
      layoutBox fc c (childIn inp c.style i st) = o → o.complete = false →
      Laid fc parent inp start (c :: rest) i st [(i, c.style, rest.head?, o)]
  | skip {c rest i st l} : i < start → Laid fc parent inp start rest (i + 1) st l → Laid fc parent inp start (c :: rest) i st l
  | running {c rest i st l} : ¬i < start → c.style.pos = .running → Laid fc parent inp start rest (i + 1) st l →
      Laid fc parent inp start (c :: rest) i st l
  | out {c rest i st l f b} : ¬i < start → c.style.pos = .out →
      Laid fc parent inp start rest (i + 1) { st with frags := f, complete := b } l →
      Laid fc parent inp start (c :: rest) i st l
  | child {c d rest i st st' o l} : ¬i < start → c.style.pos = .flow → ¬(c.style.before = .page ∧ start ≠ i) →
      layoutBox fc c (childIn inp c.style i st) = o → o.complete = true → c.style.after ≠ .page →
      st'.cur = ((afterChild fc parent inp c.style i st o).cur).overrideIfBetter (.classB (i + 1) (avoided parent c.style (some d))) →
      st'.blockSize = (afterChild fc parent inp c.style i st o).blockSize →
      st'.lastMb = (afterChild fc parent inp c.style i st o).lastMb →
      Laid fc parent inp start (d :: rest) (i + 1) st' l →
      Laid fc parent inp start (c :: d :: rest) i st ((i, c.style, some d, o) :: l)

private theorem run_cur (fc : Fc) (parent : Style) (inp : In) (start stop : Nat) :
    ∀ (l : List Box) (i : Nat) (st st' : St), st.blockSize = st'.blockSize → st.lastMb = st'.lastMb → st.cur = st'.cur →
      (run fc parent inp start stop l i st).bp = (run fc parent inp start stop l i st').bp := by
  intro l
  induction l with
  | nil => intro i st st' h1 h2 h3; rw [run, run]; simp [finish, h3]
  | cons c rest ih =>
    intro i st st' h1 h2 h3
    rw [run, run]
    split
    · exact ih _ _ _ h1 h2 h3
    split
    · simp [finish, h3]
    split
    · exact ih _ _ _ h1 h2 h3
    · exact ih _ _ _ h1 h2 h3
    · have e : childIn inp c.style i st = childIn inp c.style i st' := by simp [childIn, collapse, h1, h2]
      dsimp only
      rw [e]
      generalize layoutBox fc c (childIn inp c.style i st') = o
      have a1 : (afterChild fc parent inp c.style i st o).cur = (afterChild fc parent inp c.style i st' o).cur := by
        rw [afterChild_cur, afterChild_cur, h3]
      have a2 : (afterChild fc parent inp c.style i st o).blockSize = (afterChild fc parent inp c.style i st' o).blockSize := by
        unfold afterChild collapse; dsimp only; rw [h1, h2]; split <;> rfl
      have a3 : (afterChild fc parent inp c.style i st o).lastMb = (afterChild fc parent inp c.style i st' o).lastMb := by
        unfold afterChild; dsimp only; split
        · exact h2
        · rfl
      generalize afterChild fc parent inp c.style i st o = t at a1 a2 a3 ⊢
      generalize afterChild fc parent inp c.style i st' o = t' at a1 a2 a3 ⊢
      split
      · rfl
      split
      · simp [early, a1]
      split
      · rfl
      · apply ih <;> (split <;> split <;> simp_all)

/-- A block whose layout ends early because a child does not end on the page uses the best of all breaks it
came across. -/
theorem C33_block_uses_best (fc : Fc) (hd : fc.isDiscoveryMode = true) (parent : Style) (inp : In) (start : Nat)
    (l : List Box) (i : Nat) (st : St) (laid : List (Nat × Style × Option Box × Out)) (h : Laid fc parent inp start l i st laid)
    (stop : Nat) (hs : i + l.length ≤ stop) :
    (run fc parent inp start stop l i st).bp = some ((candidates parent laid).foldl Bp.overrideIfBetter st.cur) := by
  have hm : ∀ (cur : Bp) (i : Nat) (b : Option Bp), maybeProcessChild fc cur i parent.inside b =
      (match b with | some c => [Bp.fromChild c (i + 1) parent.inside] | none => []).foldl Bp.overrideIfBetter cur := by
    intro cur i b
    cases b <;> simp [maybeProcessChild, hd]
  induction h with
  | @stop c rest i st o h1 h2 h3 h4 h5 =>
    have h6 : ¬stop ≤ i := by simp only [List.length_cons] at hs; omega
    rw [run]
    simp only [h1, h2, h3, h4, h5, h6, hd, if_false, Bool.false_eq_true, not_false_eq_true, and_self, if_true, candidates,
      false_and, List.append_nil, early, afterChild_cur, hm]
  | skip h1 _ ih =>
    rw [run]
    simp only [h1, if_true]
    exact ih (by simp only [List.length_cons] at hs; omega)
  | @running c rest i st l h1 h2 _ ih =>
    have h6 : ¬stop ≤ i := by simp only [List.length_cons] at hs; omega
    rw [run]
    simp only [h1, h2, h6, if_false]
    exact ih (by simp only [List.length_cons] at hs; omega)
  | @out c rest i st l f b h1 h2 _ ih =>
    have h6 : ¬stop ≤ i := by simp only [List.length_cons] at hs; omega
    rw [run]
    simp only [h1, h2, h6, if_false]
    rw [← ih (by simp only [List.length_cons] at hs; omega)]
    exact run_cur fc parent inp start stop rest (i + 1) _ _ rfl rfl rfl
  | @child c d rest i st st' o l h1 h2 h3 h4 h5 h7 h8 h9 h10 _ ih =>
    have h6 : ¬stop ≤ i := by simp only [List.length_cons] at hs; omega
    have h6' : ¬i + 1 = stop := by simp only [List.length_cons] at hs; omega
    have ih := ih (by simp only [List.length_cons] at hs ⊢; omega)
    rw [run]
    simp only [h1, h2, h3, h4, h5, h6, h6', h7, hd, if_false, not_true, and_false, if_true, ne_eq, reduceCtorEq, not_false_eq_true, and_self,
      List.head?_cons]
    refine (run_cur fc parent inp start stop (d :: rest) (i + 1) _ st' ?_ ?_ ?_).trans ?_
    · exact h9.symm
    · exact h10.symm
    · exact h8.symm
    rw [ih]
    simp only [candidates, h5, Option.isSome_some, and_self, if_true, List.foldl_append, List.foldl_cons, List.foldl_nil, h8,
      afterChild_cur, hm]

/-- A page on which the best break is not the last one found: the two paragraphs at the end of the page are
kept together, so the break comes before them. -/
example : choose [.classB 1 false, .classB 2 true, .fromChild .overflow 3 false] = .classB 1 false := by decide

example : choose [.classB 1 true, .classB 2 true, .fromChild .overflow 3 false] = .classB 2 true := by decide

example : choose [.fromChild .overflow 1 false, .fromChild .overflow 2 false] = .fromChild .overflow 1 false := by decide

example : Laid { size := some 100, discovery := true } {} {} 0 [p 1 60, p 2 60, p 3 10] 0 {}
    [(0, (p 1 60).style, some (p 2 60), layoutBox { size := some 100, discovery := true } (p 1 60) {}),
      (1, (p 2 60).style, some (p 3 10), layoutBox { size := some 100, discovery := true } (p 2 60) { y := 60 }),
      (2, (p 3 10).style, none, overflowOut)] :=
  .child (by decide) rfl (by decide) rfl rfl (by decide) (st' := { blockSize := 60, lastMb := 0, cur := .classB 1 false }) rfl rfl rfl
    (.child (by decide) rfl (by decide) rfl rfl (by decide) (st' := { blockSize := 120, lastMb := 0, cur := .classB 2 false }) rfl rfl rfl
      (.stop (by decide) rfl (by decide) rfl rfl))

/-! ## C34 -/

/-- Without pages everything is laid out, in document order, unless `break-before: page` occurs on a box that
is not the first child. -/
theorem C34_all_content_partial (root : Box) (h : Unforced root) : (renderFlow root).map Frag.id = content root :=
  flow_box _ rfl root _ h

example : Unforced (div [p 1 60 { before := .page, after := .page }, div [p 2 30 { after := .page }, p 3 3000]]) := by
  simp [div, p, Unforced, UnforcedKids, UnforcedInner, Box.style]

/-- In no document anything is laid out twice or out of order. -/
theorem C34_at_most_once (root : Box) : ((renderFlow root).map Frag.id).Sublist (content root) :=
  sub_box _ root _

/-- `break-before: page` cuts off the rest, though there are no pages. -/
theorem C34_break_before_fails :
    (renderFlow (div [div [p 1 10, p 2 10 { before := .page }, p 3 10], p 4 10])).map Frag.id = [1, 4] ∧
    content (div [div [p 1 10, p 2 10 { before := .page }, p 3 10], p 4 10]) = [1, 2, 3, 4] := by
  constructor <;> decide +kernel

end Verif.Paginate
