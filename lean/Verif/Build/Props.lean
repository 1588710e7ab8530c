import Verif.Build.PartsMain
import Verif.Build.Safe
/-!
# Building boxes: properties

C40 collapsing of white space, C41 tables, C83 nothing lost and nothing moved, C84 no abort, C85 boxes of one kind,
C86 `<br>`.
-/
namespace Verif.Build

/-! ## C40: white space -/

/-- White space of these values collapses. -/
def Collapses (w : Ws) : Prop := w = .normal ∨ w = .nowrap ∨ w = .preLine

instance : DecidablePred Collapses := fun w => by unfold Collapses; infer_instance

theorem collapsible_iff (w : Ws) : collapsible w = true ↔ Collapses w := by
  cases w <;> simp [collapsible, Collapses]

/-- Each run of white space becomes one space (one line end with `pre-line` if it has one), each other character stays
apart from `text-transform`. This is for a text that follows something on its line. -/
theorem C40_collapse (sty : Sty) (h : Collapses sty.ws) (s : List Char) :
    Squeeze (oneFor sty.ws) (cased sty.trans) s (appendText sty true s) := by
  have := (loop_squeeze sty ((collapsible_iff _).2 h) s).1
  rw [transform_eq_cased] at this
  exact this

/-- At the begin of a line the leading white space is left out as well. -/
theorem C40_collapse_leading (sty : Sty) (h : Collapses sty.ws) (s : List Char) :
    ∃ l r, s = l ++ r ∧ (∀ c ∈ l, White c) ∧ (∀ c, r.head? = some c → ¬ White c) ∧
      Squeeze (oneFor sty.ws) (cased sty.trans) r (appendText sty false s) := by
  refine ⟨s.takeWhile isSpace, s.dropWhile isSpace, (List.takeWhile_append_dropWhile).symm, ?_, dropWhile_head s, ?_⟩
  · intro c hc
    exact (isSpace_iff c).1 (List.all_eq_true.1 List.all_takeWhile c hc)
  · exact C40_collapse sty h _

/-- There are never two white space characters in a row. -/
theorem C40_no_two_spaces (sty : Sty) (active : Bool) (h : Collapses sty.ws) (s : List Char) :
    NoTwo (appendText sty active s) := by
  cases active with
  | true => 
    have := C40_collapse sty h s
    rw [← transform_eq_cased] at this
    exact (this.noTwo_head (oneFor_white _) (white_transform _)).1
  | false =>
    obtain ⟨_, _, _, _, _, this⟩ := C40_collapse_leading sty h s
    rw [← transform_eq_cased] at this
    exact (this.noTwo_head (oneFor_white _) (white_transform _)).1

/-- Every other character stays, in order, whatever `white-space` is. -/
theorem C40_keeps_characters (sty : Sty) (active : Bool) (s : List Char) :
    solid (appendText sty active s) = (solid s).map (cased sty.trans) := by
  rw [appendText_solid, transform_eq_cased]

/-- A text that is collapsed already does not change. -/
theorem C40_idempotent (sty : Sty) (active : Bool) (h : Collapses sty.ws) (s : List Char) :
    appendText sty active (appendText sty active s) = appendText sty active s := by
  have hq : ∃ r, Squeeze (oneFor sty.ws) (transform sty.trans) r (appendText sty active s) ∧
      (active = false → ∀ c, r.head? = some c → ¬ White c) := by
    cases active with
    | true => exact ⟨s, (loop_squeeze sty ((collapsible_iff _).2 h) s).1, by simp⟩
    | false =>
      exact ⟨s.dropWhile isSpace, (loop_squeeze sty ((collapsible_iff _).2 h) _).1, fun _ => dropWhile_head s⟩
  obtain ⟨r, hq, hr⟩ := hq
  generalize hg : appendText sty active s = o at hq
  have hn := hq.noTwo_head (oneFor_white _) (white_transform _)
  have hw : ∀ c ∈ o, White c → c = ' ' ∨ (sty.ws = .preLine ∧ c = '\n') := by
    intro c hc hw
    rcases hq.out_chars c hc with ⟨r, e⟩ | ⟨d, hd, e⟩
    · subst e
      unfold oneFor
      split
      · next h => exact Or.inr ⟨h.1, rfl⟩
      · exact Or.inl rfl
    · subst e; exact absurd ((white_transform _ _).1 hw) hd
  have hf : ∀ c ∈ o, ¬ White c → transform sty.trans c = c := by
    intro c hc hw
    rcases hq.out_chars c hc with ⟨r, e⟩ | ⟨d, hd, e⟩
    · subst e; exact absurd (oneFor_white _ _) hw
    · subst e; exact transform_idem _ _
  have hfix := (loop_fixed sty o hn.1 hw hf).1
  unfold appendText
  cases active with
  | true => exact hfix
  | false =>
    have : o.dropWhile isSpace = o := by
      cases o with
      | nil => rfl
      | cons x o =>
        rw [List.dropWhile_cons_of_neg]
        intro hx
        obtain ⟨y, hy, hyw⟩ := hn.2 x rfl ((isSpace_iff x).1 hx)
        exact hr rfl y hy hyw
    simp only [Bool.false_eq_true, if_false, this]
    exact hfix

/-- Tightness: white space of the other values stays as it is. Not so at the begin of a line, see the next theorem. -/
theorem C40_preserved_partial (sty : Sty) (h : ¬ Collapses sty.ws) (s : List Char) :
    appendText sty true s = s.map (cased sty.trans) := by
  have : collapsible sty.ws = false := by
    cases hc : collapsible sty.ws with
    | false => rfl
    | true => exact absurd ((collapsible_iff _).1 hc) h
  unfold appendText
  rw [if_pos rfl, loop_pre _ this, transform_eq_cased]

example : appendText {} false "\n  a \t b\n".toList = "a b ".toList ∧
    appendText { ws := .preLine } true "a \n b".toList = "a\nb".toList ∧ Collapses .preLine := by decide +kernel

/-- The indentation of the first line of a `<pre>` is lost. -/
theorem C40_preserved_fails : ¬ ∀ (sty : Sty) (active : Bool) (s : List Char), ¬ Collapses sty.ws →
    appendText sty active s = s.map (cased sty.trans) := by
  intro h
  have := h { ws := .pre } false "  a".toList (by decide)
  exact absurd this (by decide +kernel)

/-- The text of a box: the characters of its prose. -/
def Box.text : Box → List Char
  | .mk _ _ (.prose is) _ => is.filterMap fun i => match i with
    | .ch c => some c
    | .strut _ => none
  | _ => []

def html : Elem := { id := 0, disp := .dflt .flow .block false }
def span (i : Nat) (ks : List Node) : Node := .el { id := i, disp := .dflt .flow .inline false } ks
def div (i : Nat) (ks : List Node) : Node := .el { id := i, disp := .dflt .flow .block false } ks

/-- Two spaces of two elements are both kept: `a <b> c</b>`. -/
theorem C40_across_elements_fails : ¬ ∀ (e : Elem) (ks : List Node) (b : Box), (∀ n ∈ ks, calmTables n = true) →
    Collapses e.sty.ws → buildRoot e ks = some b → NoTwo b.text := by
  intro h
  have h1 : ((buildRoot html [.text "a ".toList, span 1 [.text " c".toList]]).map Box.text) = some "a  c".toList := by
    decide +kernel
  obtain ⟨b, hb, ht⟩ := Option.map_eq_some_iff.1 h1
  have := h html _ b (by decide +kernel) (Or.inl rfl) hb
  rw [ht] at this
  exact this "a".toList "c".toList ' ' ' ' (by decide +kernel) ⟨Or.inl rfl, Or.inl rfl⟩

/-- The space between two inline elements is lost: `<b>a</b> <b>c</b>` shows "ac". -/
theorem C40_space_between_elements_fails :
    (buildRoot html [span 1 [.text "a".toList], .text " ".toList, span 2 [.text "c".toList]]).map Box.text =
      some "ac".toList := by decide +kernel

/-! ## C41: tables -/

theorem within_good {u : Bool} {t b : Box} (h : Within t b) : b.Good u → t.Good u := by
  have kids : ∀ (ks : List Box), GoodKids u ks → ∀ k ∈ ks, k.Good u := by
    intro ks
    induction ks with
    | nil => intro _ k hk; cases hk
    | cons a ks ih =>
      intro h k hk
      simp only [GoodKids] at h
      rcases List.mem_cons.1 hk with rfl | hk
      · exact h.1
      · exact ih h.2 k hk
  have items : ∀ (is : List Item), GoodItems u is → ∀ i ∈ is, i.Good u := by
    intro ks
    induction ks with
    | nil => intro _ k hk; cases hk
    | cons a ks ih =>
      intro h k hk
      simp only [GoodItems] at h
      rcases List.mem_cons.1 hk with rfl | hk
      · exact h.1
      · exact ih h.2 k hk
  induction h with
  | self => exact id
  | kid hk _ ih =>
    intro hb
    simp only [Box.Good] at hb
    exact ih (kids _ hb.2.2.1 _ hk)
  | strut hk _ ih =>
    intro hb
    simp only [Box.Good, Content.Good] at hb
    have := items _ hb.2.2.2 _ hk
    simp only [Item.Good] at this
    exact ih this

/-- The children of the box of a table are rows, groups of rows or columns; groups have nothing but rows, rows nothing
but cells. This is for every document and every table in it. -/
theorem C41_parts {e : Elem} {ks : List Node} {b t : Box} (h : buildRoot e ks = some b) (ht : Within t b)
    (hd : t.disp = .tableBox) : t.content = .none ∧ ∀ k ∈ t.kids, IsPart k := by
  have := within_good (u := false) ht (root_good (by simp) h)
  cases t with
  | mk d o c ks =>
    simp only [Box.Good] at this
    exact this.1 hd

example : ∃ b t, buildRoot html [.el { id := 1, disp := .dflt .table .block false } [.el { id := 2, disp := .internal .row } []]]
      = some b ∧ Within t b ∧ t.disp = .tableBox ∧ t.kids ≠ [] :=
  ⟨_, _, rfl, .kid (List.mem_singleton.2 rfl) (.kid (List.mem_singleton.2 rfl) (.self _)), rfl, fun h => nomatch h⟩

/-- The same for the children of a single row (`.row`), group (`.group`) or table (`.root`). -/
theorem C41_children_parts {m : Mode} {sty : Sty} {ks : List Node} {w : Wrap} (h : tableKids m sty {} ks = some w) :
    ∀ k ∈ w.finCell.finRow.out.kids, (m = .row → IsCell k) ∧ (m = .group → IsRow k) ∧ (m = .root → IsPart k) := by
  intro k hk
  have hp := (fin_good (rows_good false ks m sty {} w (wgood_init false m) (by simp) h)).1.parts k hk
  refine ⟨?_, ?_, ?_⟩ <;> intro e <;> subst e <;> exact hp

/-- Wrapping keeps every text and every box, once and in document order. `tameRows true` leaves out inline elements
without children that show something and parts of tables that stand in no table. -/
theorem C41_children_order_partial {m : Mode} {sty : Sty} {ks : List Node} {w : Wrap}
    (ht : tameRows true (m = .root) (m = .row) ks = true) (h : tableKids m sty {} ks = some w) :
    boxesToks w.finCell.finRow.out.kids = rowToks (m = .root) (m = .row) sty ks := by
  have := rows_post true ks m sty {} w ⟨⟨rfl, rfl⟩, by simp, by simp⟩ ht h
  rw [fin_kids this.ok, this.rel.2 rfl]
  rfl

/-- Without the second condition: once, in some order. -/
theorem C41_children_once_partial {m : Mode} {sty : Sty} {ks : List Node} {w : Wrap}
    (ht : tameRows false (m = .root) (m = .row) ks = true) (h : tableKids m sty {} ks = some w) :
    (boxesToks w.finCell.finRow.out.kids).Perm (rowToks (m = .root) (m = .row) sty ks) := by
  have := rows_post false ks m sty {} w ⟨⟨rfl, rfl⟩, by simp, by simp⟩ ht h
  rw [fin_kids this.ok]
  exact this.rel.1

def table (i : Nat) (ks : List Node) : Node := .el { id := i, disp := .dflt .table .block false } ks
def part (i : Internal) (n : Nat) (ks : List Node) : Node := .el { id := n, disp := .internal i } ks

/-- A table with stray text, a stray cell, a row with stray content and a column. -/
def tangled : List Node :=
  [.text "x".toList, part .cell 1 [.text "a".toList], part .column 2 [], 
   part .row 3 [.text "b".toList, part .cell 4 [.text "c".toList], div 5 [.text "d".toList]],
   part .caption 6 [.text "t".toList], span 7 [.text "e".toList]]

example : tameRows true true false tangled = true ∧
    (tableKids .root {} {} tangled).map (fun w => boxesToks w.finCell.finRow.out.kids) =
      some [.ch 'x', .op 1, .ch 'a', .cl 1, .op 2, .cl 2, .op 3, .ch 'b', .op 4, .ch 'c', .cl 4, .op 5, .ch 'd', .cl 5,
        .cl 3, .ch 'e'] ∧
    (tableKids .root {} {} tangled).map (fun w => w.finCell.finRow.out.kids.map Box.disp) =
      some [.own (.internal .row), .own (.internal .column), .own (.internal .row), .own (.internal .row)] := by
  decide +kernel

/-- A row outside of a table gets no cells: the box of a `display: table-row` element in a block has a block in it. -/
theorem C41_row_outside_table_fails : ¬ ∀ (e : Elem) (ks : List Node) (b t : Box), buildRoot e ks = some b → Within t b →
    t.disp = .own (.internal .row) → ∀ k ∈ t.kids, IsCell k := by
  intro h
  have h1 : buildRoot html [part .row 1 [div 2 []]] = some (.mk (.own html.disp) (some 0) .none
      [.mk (.own (.internal .row)) (some 1) .none [.mk (.own (.dflt .flow .block false)) (some 2) .none []]]) := by
    rfl
  have := h _ _ _ _ h1 (.kid (List.mem_singleton.2 rfl) (.self _)) rfl _ (List.mem_singleton.2 rfl)
  unfold IsCell at this
  exact absurd this (by decide)

/-! ## C83: everything once and in order -/

/-- What a document shows is what its box tree shows, in the same order. `tameKids true` leaves out inline elements
without children that show something (`<input>`), such elements with `display: table`, and parts of tables that stand
in no table. -/
theorem C83_order_partial {e : Elem} {ks : List Node} {b : Box} (hk : e.kind = .plain)
    (ht : tameKids true .flow ks = true) (h : buildRoot e ks = some b) :
    boxToks b = framed e.id (inside e (kidsToks false e.sty ks)) :=
  (root_rel hk ht h).2 rfl

/-- With stray parts of tables, too, everything is shown once; the order may be another one. -/
theorem C83_once_partial {e : Elem} {ks : List Node} {b : Box} (hk : e.kind = .plain)
    (ht : tameKids false .flow ks = true) (h : buildRoot e ks = some b) :
    (boxToks b).Perm (framed e.id (inside e (kidsToks false e.sty ks))) :=
  (root_rel hk ht h).1

/-- A list item with a marker, text around a block and an image. -/
def page : List Node :=
  [.text "a ".toList, span 1 [.text "b".toList, div 2 [.text "c".toList]],
   .el { id := 3, kind := .img, disp := .dflt .flow .inline false } [],
   .el { id := 4, disp := .dflt .flow .block true, marker := some { id := 5, text := some "*".toList } }
     [.text "d".toList, table 6 tangled]]

example : tameKids true .flow page = true ∧ (buildRoot html page).isSome = true ∧
    (buildRoot html page).map boxToks = some [.op 0, .ch 'a', .ch 'b', .op 2, .ch 'c', .cl 2, .op 3, .atom 3, .cl 3,
      .op 4, .ch '*', .ch 'd', .op 6, .op 6, .ch 't', .cl 6, .op 6, .ch 'x', .op 1, .ch 'a', .cl 1, .op 2, .cl 2, .op 3,
      .ch 'b', .op 4, .ch 'c', .cl 4, .op 5, .ch 'd', .cl 5, .cl 3, .ch 'e', .cl 6, .cl 6, .cl 4, .cl 0] := by
  decide +kernel

/-- A stray cell is shown before the text that precedes it. -/
theorem C83_order_fails : ¬ ∀ (e : Elem) (ks : List Node) (b : Box), e.kind = .plain → tameKids false .flow ks = true →
    buildRoot e ks = some b → boxToks b = framed e.id (inside e (kidsToks false e.sty ks)) := by
  intro h
  have h1 : (buildRoot html [.text "a".toList, part .cell 1 [.text "b".toList]]).map boxToks =
      some [.op 0, .op 1, .ch 'b', .cl 1, .ch 'a', .cl 0] := by decide +kernel
  obtain ⟨b, hb, ht⟩ := Option.map_eq_some_iff.1 h1
  have := h html _ b rfl (by decide +kernel) hb
  rw [ht] at this
  exact absurd this (by decide +kernel)

/-- The value of an inline `<input>` takes the place of the content of its parent, so of two of them only one is shown. -/
theorem C83_once_fails : ¬ ∀ (e : Elem) (ks : List Node) (b : Box), e.kind = .plain → buildRoot e ks = some b →
    (boxToks b).Perm (framed e.id (inside e (kidsToks false e.sty ks))) := by
  intro h
  have h1 : (buildRoot html [.el { id := 1, kind := .input (.text "a".toList), disp := .dflt .flow .inline false } [],
      .el { id := 2, kind := .input (.text "b".toList), disp := .dflt .flow .inline false } []]).map boxToks =
      some [.op 0, .ch 'b', .cl 0] := by decide +kernel
  obtain ⟨b, hb, ht⟩ := Option.map_eq_some_iff.1 h1
  have := (h html _ b rfl hb).length_eq
  rw [ht] at this
  exact absurd this (by decide +kernel)

/-- `text-transform` of an element with `display: contents` has no effect on its text; `nodeToks` says so as well. -/
theorem C83_contents_style_fails :
    (buildRoot html [.el { id := 1, disp := .contents, sty := { trans := .uppercase } } [.text "a".toList]]).map boxToks =
      some [.op 0, .ch 'a', .cl 0] := by decide +kernel

/-- `text-transform: capitalize` has no effect; `cased` says so as well. -/
theorem C83_capitalize_fails (active : Bool) (w : Ws) (s : List Char) :
    appendText { ws := w, trans := .capitalize } active s = appendText { ws := w, trans := .none } active s := by
  have : ∀ (r : Option Bool) (s : List Char), appendLoop { ws := w, trans := .capitalize } r s =
      appendLoop { ws := w, trans := .none } r s := by
    intro r s
    induction s generalizing r with
    | nil => cases r <;> rfl
    | cons c s ih => cases r <;> simp only [appendLoop, ih, transform]
  exact this _ _

/-! ## C84: no abort -/

/-- A box tree is built for every document in which no table has an inline `::before` or `::after`. -/
theorem C84_no_abort_partial (e : Elem) (ks : List Node) (h : calmKids ks = true) : ∃ b, buildRoot e ks = some b :=
  root_ends h

/-- A table with a `::before` that is a block. -/
def noted : Elem where
  id := 1
  disp := .dflt .table .block false
  before := some { id := 2, disp := .dflt .flow .block false, text := some "a".toList }

example : calmKids page = true ∧ calmKids [.el noted []] = true := by decide +kernel

/-- A table with an inline `::before` aborts the program. -/
theorem C84_no_abort_fails : ¬ ∀ (e : Elem) (ks : List Node), ∃ b, buildRoot e ks = some b := by
  intro h
  obtain ⟨b, hb⟩ := h html [.el { id := 1, disp := .dflt .table .block false, before := some { id := 2 } } []]
  have : (buildRoot html [.el { id := 1, disp := .dflt .table .block false, before := some { id := 2 } } []]).isNone =
      true := by decide +kernel
  rw [hb] at this
  cases this

/-! ## C85: boxes of one kind -/

/-- Every box holds boxes or content of its own (text, a picture), not both. -/
theorem C85_one_kind_partial {e : Elem} {ks : List Node} {b t : Box} (ht : tameKids false .flow ks = true)
    (h : buildRoot e ks = some b) (hw : Within t b) : t.kids = [] ∨ t.content = .none := by
  have := within_good (u := true) hw (root_good (fun _ => ht) h)
  cases t with
  | mk d o c ks =>
    simp only [Box.Good] at this
    exact this.2.1 trivial

example : tameKids false .flow page = true ∧ (buildRoot html page).map (fun b => b.kids.length) = some 4 := by
  decide +kernel

/-- With an inline `<input>` after a block both are there. -/
theorem C85_one_kind_fails : ¬ ∀ (e : Elem) (ks : List Node) (b : Box), buildRoot e ks = some b →
    b.kids = [] ∨ b.content = .none := by
  intro h
  have h1 : buildRoot html [div 1 [],
      .el { id := 2, kind := .input .widget, disp := .dflt .flow .inline false } []] =
      some (.mk (.own html.disp) (some 0) (.atom 2) [.mk (.own (.dflt .flow .block false)) (some 1) .none []]) := by rfl
  rcases h _ _ _ h1 with h2 | h2 <;> simp [Box.kids, Box.content] at h2

/-! ## C86: `<br>` -/

def br (i : Nat) : Node := .el { id := i, kind := .br, disp := .dflt .flow .inline false } []

/-- A `<br>` closes the line: what stands before it becomes a box, and the text that follows begins anew. -/
theorem C86_break_partial (cx : Ctx) (kids : List Box) (x : Item) (is : List Item) (i : Nat) (hx : cx.src ≠ .flex) :
    buildNode cx { kids := kids, inl := some (x :: is) } (br i) =
      some { kids := kids ++ [.mk (.own (.dflt .flow .block false)) none (.prose (x :: is)) []], inl := some [] } := by
  simp only [br, buildNode, buildElem, defaultDisplay]
  rw [if_neg hx, if_neg (by simp), if_neg (by simp [alwaysInlineBlock])]
  rfl

/-- Two texts with a `<br>` between them are two lines. -/
theorem C86_two_lines (e : Elem) (i : Nat) (s t : List Char) (hk : e.kind = .plain) (hd : e.disp = .dflt .flow .block false)
    (hb : e.before = none) (ha : e.after = none) (hs : ∃ c ∈ s, ¬ White c) (ht : ∃ c ∈ t, ¬ White c) :
    (buildRoot e [.text s, br i, .text t]).map (fun b => b.kids.map Box.text) =
      some [appendText e.sty false s, appendText e.sty false t] := by
  have nb : ∀ s : List Char, (∃ c ∈ s, ¬ White c) → blank s = false := by
    intro s ⟨c, hc, hw⟩
    cases hbl : blank s with
    | false => rfl
    | true =>
      have := blank_solid hbl
      have hm : c ∈ solid s := List.mem_filter.2 ⟨hc, by simp [hw]⟩
      rw [this] at hm; cases hm
  have ne : ∀ s : List Char, (∃ c ∈ s, ¬ White c) → ∃ x o, appendText e.sty false s = x :: o := by
    intro s ⟨c, hc, hw⟩
    cases hq : appendText e.sty false s with
    | cons x o => exact ⟨x, o, rfl⟩
    | nil =>
      have h1 := appendText_solid e.sty false s
      rw [hq] at h1
      have hm : c ∈ solid s := List.mem_filter.2 ⟨hc, by simp [hw]⟩
      have h2 : solid s = [] := by
        cases hss : solid s with
        | nil => rfl
        | cons a l => rw [hss] at h1; simp [solid] at h1
      rw [h2] at hm; cases hm
  have txt : ∀ (o : List Char), (o.map Item.ch).filterMap (fun i => match i with
      | .ch c => some c
      | .strut _ => none) = o := by
    intro o
    induction o with
    | nil => rfl
    | cons c o ih => simp [ih]
  obtain ⟨x, o, hxo⟩ := ne s hs
  obtain ⟨y, p, hyp⟩ := ne t ht
  unfold buildRoot blockFlow
  rw [hk]
  simp only [buildChildren, hb, ha, buildPseudo?, hd, Disp.item, Option.bind_some, Bool.false_eq_true, if_false]
  have e1 : buildNode { src := .block, sty := e.sty } {} (.text s) =
      some { inl := some (.ch x :: o.map .ch) } := by
    simp only [buildNode, buildText, nb s hs]
    simp [hxo]
  have e2 := C86_break_partial { src := .block, sty := e.sty } [] (.ch x) (o.map .ch) i (by simp)
  have e3 : buildNode { src := .block, sty := e.sty }
      { kids := [] ++ [.mk (.own (.dflt .flow .block false)) none (.prose (.ch x :: o.map .ch)) []], inl := some [] }
      (.text t) =
      some (St.mk [.mk (.own (.dflt .flow .block false)) none (.prose (.ch x :: o.map .ch)) []] .none
        (some (.ch y :: p.map .ch))) := by
    simp only [buildNode, buildText, nb t ht]
    simp [hyp]
  simp only [buildKids, e1, Option.bind_some]
  erw [e2]
  simp only [Option.bind_some, e3, Option.map_some, St.finalize, St.hasKids, List.isEmpty_cons, Bool.not_false,
    Bool.true_or, if_true, St.flush, St.add, Box.kids, List.map_append, List.map_cons, List.map_nil, Box.text]
  have hx := txt (x :: o)
  have hy := txt (y :: p)
  simp only [List.map_cons] at hx hy
  rw [hx, hy, hxo, hyp]
  rfl

example : (∃ c ∈ "a b".toList, ¬ White c) := ⟨'a', by decide, by decide⟩

/-- A second `<br>` does not leave an empty line. -/
theorem C86_empty_line_fails : ¬ ∀ (e : Elem) (ks ks' : List Node) (i j : Nat),
    (buildRoot e (ks ++ br i :: br j :: ks')).map (fun b => b.kids.length) ≠
      (buildRoot e (ks ++ br i :: ks')).map (fun b => b.kids.length) := by
  intro h
  exact h html [.text "a".toList] [.text "b".toList] 1 2 (by decide +kernel)

end Verif.Build
