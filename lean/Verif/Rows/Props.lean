import Verif.Rows.Lemmas
/-!
# Properties C247, C248 and C249: tables on pages
-/
namespace Verif.Rows
open Verif.Paginate (Appeal Adv Between)

theorem pages_good {t : Table} {lay : Nat → Nat → Int → RowOut} {top : Nat → Int} (ht : Sound t)
    (hsm : ∀ i, first t ≤ i → i < behind t → Small t i) (hl : Honest t lay) (hfit : Fits t top) :
    ∀ n s p, behind t - s ≤ n → first t ≤ s → s < behind t →
      ∃ l, pages t lay top n p (s - first t) = .ok l ∧ Cut t s l ∧
        (∀ pg ∈ l, ∀ i, i ∈ pg.rows → i + 1 ∈ pg.rows → ¬Asked t i) ∧ Full t lay top p s l := by
  intro n
  induction n with
  | zero => intro s p h1 h2 h3; omega
  | succ n ih =>
    intro s p h1 h2 h3
    obtain ⟨r, hr, -, hw, hp⟩ := discover_found ht h2 h3 hsm hl (hfit p s h2 h3)
    rw [pages, hr]
    simp only [Res.bind]
    cases hr1 : r.1 with
    | true =>
      obtain ⟨hrows, hask⟩ := hw hr1
      have hpg : shown t (s - first t) none = ⟨List.range' s (behind t - s - 1 + 1), t.repeats⟩ := by
        have : behind t - s - 1 + 1 = behind t - s := by omega
        rw [this, ← hrows]; rfl
      refine ⟨_, rfl, ?_, ?_, .last⟩
      · rw [hpg]
        exact .last (by omega)
      · intro pg hpgm i hi hi'
        rw [List.mem_singleton.1 hpgm, hpg] at hi hi'
        rw [List.mem_range'_1] at hi hi'
        have := hask (i - s) (by omega)
        rwa [show s + (i - s) = i by omega] at this
    | false =>
      obtain ⟨m, hm, hmb, hnext, hrows, hwhy, hask⟩ := hp hr1
      obtain ⟨l, hl', hcut, hall, hfull⟩ := ih (s + m) (p + 1) (by omega) (by omega) hmb
      have hpg : shown t (s - first t) (some r.2.endIdx) = ⟨List.range' s (m - 1 + 1), t.repeats⟩ := by
        rw [show m - 1 + 1 = m by omega, ← hrows]; rfl
      rw [hnext, hl', hpg]
      refine ⟨_, rfl, .cons (by omega) (by rw [show s + (m - 1) + 1 = s + m by omega]; exact hcut), ?_, ?_⟩
      · intro pg hpgm i hi hi'
        rcases List.mem_cons.1 hpgm with rfl | h
        · rw [List.mem_range'_1] at hi hi'
          have := hask (i - s) (by omega)
          rwa [show s + (i - s) = i by omega] at this
        · exact hall pg h i hi hi'
      · have hlen : (List.range' s (m - 1 + 1)).length = m := by rw [List.length_range']; omega
        refine .cons ?_ ?_
        · simp only [hlen]; exact hwhy
        · simp only [hlen]; exact hfull

theorem Cut.rows {t : Table} {s : Nat} {l : List Page} (h : Cut t s l) :
    l.flatMap (·.rows) = List.range' s (behind t - s) ∧ ∀ pg ∈ l, pg.rows ≠ [] ∧ pg.framed = t.repeats := by
  induction h with
  | last h =>
    refine ⟨?_, ?_⟩
    · rw [List.flatMap_cons, List.flatMap_nil, List.append_nil]
      simp only
      congr 1
      omega
    · intro pg hpg
      rw [List.mem_singleton.1 hpg]
      exact ⟨by simp, rfl⟩
  | cons h _ ih =>
    refine ⟨?_, ?_⟩
    · rw [List.flatMap_cons, ih.1]
      simp only
      rw [Nat.add_assoc, List.range'_append_1]
      congr 1
      omega
    · intro pg hpg
      rcases List.mem_cons.1 hpg with rfl | hpg
      · exact ⟨by simp, rfl⟩
      · exact ih.2 pg hpg

/-! ## C247 -/

/-- **C247 (in part).** A table of small rows that each find room on a page is printed in finitely many pages; every row is on
exactly one page, in order; no page is without rows; header and footer are on every page if they are repeated. -/
theorem C247_once_partial (t : Table) (lay : Nat → Nat → Int → RowOut) (top : Nat → Int) (ht : Sound t)
    (hsm : ∀ i, first t ≤ i → i < behind t → Small t i) (hl : Honest t lay) (hfit : Fits t top) :
    ∃ ps, pages t lay top (behind t - first t) 0 0 = .ok ps ∧
      ps.flatMap (·.rows) = List.range' (first t) (behind t - first t) ∧
      ∀ pg ∈ ps, pg.rows ≠ [] ∧ pg.framed = t.repeats := by
  obtain ⟨l, h1, h2, -, -⟩ := pages_good ht hsm hl hfit (behind t - first t) (first t) 0 (Nat.le_refl _) (Nat.le_refl _) ht.some
  rw [Nat.sub_self] at h1
  exact ⟨l, h1, h2.rows⟩

/-! A table with a header of 10, a footer of 10, and rows of 30, 30, 30, 30, 20 with a break asked for after the fourth. -/

private def plainRow (h : Int) (b : Breaks := {}) (g : Option (Nat × Breaks) := none) : RowInfo := ⟨[some ⟨true, 1⟩], h, some b, g⟩

private def sampleRows : List RowInfo :=
  [plainRow 10, plainRow 30, plainRow 30, plainRow 30, plainRow 30 { after := .page }, plainRow 20, plainRow 10]

private def sample : Table :=
  { row := fun i => sampleRows[i]?.getD (plainRow 0), height := 7, lo := 1, hi := 5, head := 10, foot := 10, width := 100, pageH := 100 }

/-- Rows that are done when there is room for them. -/
private def simpleLay (t : Table) : Nat → Nat → Int → RowOut := fun _ i y =>
  ⟨(t.row i).height, decide (y + (t.row i).height ≤ room t), !decide (y + (t.row i).height ≤ room t), [some .classB], [true]⟩

example : Sound sample ∧ (∀ i, first sample ≤ i → i < behind sample → Small sample i) ∧ Honest sample (simpleLay sample) ∧
    Fits sample (fun _ => 5) ∧
    pages sample (simpleLay sample) (fun _ => 5) 5 0 0 = .ok [⟨[1, 2], true⟩, ⟨[3, 4], true⟩, ⟨[5], true⟩] := by
  refine ⟨⟨by decide, by decide, by decide⟩, ?_, ?_, ?_, by decide +kernel⟩
  · intro i h1 h2
    have h1 : 1 ≤ i := h1
    have h2 : i < 6 := h2
    have : i = 1 ∨ i = 2 ∨ i = 3 ∨ i = 4 ∨ i = 5 := by omega
    rcases this with rfl | rfl | rfl | rfl | rfl <;>
      exact ⟨fun c hc => by
        have := List.mem_singleton.1 hc
        cases this
        exact ⟨rfl, rfl⟩, by decide, by decide⟩
  · intro s i y _ _
    exact ⟨rfl, fun h => decide_eq_true h⟩
  · intro p i h1 h2
    have h1 : 1 ≤ i := h1
    have h2 : i < 6 := h2
    have : i = 1 ∨ i = 2 ∨ i = 3 ∨ i = 4 ∨ i = 5 := by omega
    rcases this with rfl | rfl | rfl | rfl | rfl <;> exact of_decide_eq_true rfl

/-- A header of more than a quarter of the page is printed once, as the first row; one of a quarter is repeated. -/
example :
    (let t : Table := { row := fun i => plainRow (if i = 0 then 26 else 40), height := 4, lo := 1, hi := 3, head := 26, width := 100,
                        pageH := 100 }
     pages t (simpleLay t) (fun _ => 0) 4 0 0 = .ok [⟨[0, 1], false⟩, ⟨[2, 3], false⟩]) ∧
    (let t : Table := { row := fun i => plainRow (if i = 0 then 25 else 37), height := 4, lo := 1, hi := 3, head := 25, width := 100,
                        pageH := 100 }
     pages t (simpleLay t) (fun _ => 0) 4 0 0 = .ok [⟨[1, 2], true⟩, ⟨[3], true⟩]) := by
  decide +kernel

/-- A header and a footer of a quarter of the page and a row of half of it, a little below the top of the page. -/
private def tight : Table :=
  { row := fun i => if i = 1 then plainRow 50 else plainRow 25, height := 3, lo := 1, hi := 1, head := 25, foot := 25, width := 100,
    pageH := 100 }

/-- The pages of this table never end: the row finds no room under the header, so the break before it is number zero, from
which the number of header rows is subtracted; the next page begins with the header as if it were content, and the one after
that as the first one. -/
theorem C247_endless_fails : Small tight 1 ∧ Honest tight (simpleLay tight) ∧
    ∀ n, pages tight (simpleLay tight) (fun _ => 10) n 0 0 = .hang := by
  refine ⟨⟨fun c hc => ?_, by decide, by decide⟩, fun s i y _ _ => ⟨rfl, fun h => decide_eq_true h⟩, ?_⟩
  · have := List.mem_singleton.1 hc
    cases this
    exact ⟨rfl, rfl⟩
  · have d1 : discover tight (simpleLay tight) 10 0 = .ok (false, ⟨18446744073709551615, .empty, .withoutChildren, []⟩) := by
      decide +kernel
    have d2 : discover tight (simpleLay tight) 10 18446744073709551615 = .ok (false, ⟨0, .classB, .withoutChildren, []⟩) := by
      decide +kernel
    have : ∀ n p, pages tight (simpleLay tight) (fun _ => 10) n p 0 = .hang ∧
        pages tight (simpleLay tight) (fun _ => 10) n p 18446744073709551615 = .hang := by
      intro n
      induction n with
      | zero => exact fun p => ⟨rfl, rfl⟩
      | succ n ih =>
        intro p
        constructor
        · rw [pages, d1]
          simp only [Res.bind, Bool.false_eq_true, if_false, nextStart]
          rw [if_neg (by decide), (ih (p + 1)).2]
        · rw [pages, d2]
          simp only [Res.bind, Bool.false_eq_true, if_false, nextStart]
          rw [if_neg (by decide), (ih (p + 1)).1]
    exact fun n => (this n 0).1

/-- A row without cells that is higher than half the page: the code panics. -/
theorem C247_empty_row_fails : ∃ t : Table, ∃ lay : Nat → Nat → Int → RowOut, (t.row 0).slots = [none] ∧
    (∀ s i y, (lay s i y).kids = [none] ∧ (lay s i y).allDone = true) ∧ pages t lay (fun _ => 0) 1 0 0 = .panic :=
  ⟨{ row := fun _ => ⟨[none], 60, some {}, none⟩, height := 1, lo := 0, hi := 0, width := 100, pageH := 100 },
    fun _ _ _ => ⟨0, true, false, [none], [false]⟩, rfl, fun _ _ _ => ⟨rfl, rfl⟩, by decide +kernel⟩

/-- A row in which a cell begins that goes on into the next one is split between two pages, however low it is: a row of a tenth
of the page that does not find room at the end of the first page is on both. -/
theorem C247_span_fails : ∃ t : Table, ∃ lay : Nat → Nat → Int → RowOut, (t.row 0).slots = [some ⟨true, 2⟩] ∧ (t.row 0).height = 10 ∧
    t.pageH = 100 ∧ pages t lay (fun p => if p = 0 then 95 else 0) 2 0 0 = .ok [⟨[0], true⟩, ⟨[0, 1], true⟩] :=
  ⟨{ row := fun i => if i = 0 then ⟨[some ⟨true, 2⟩], 10, some {}, none⟩ else ⟨[some ⟨false, 2⟩], 10, some {}, none⟩,
      height := 2, lo := 0, hi := 1, width := 100, pageH := 100 },
    fun _ i y => if y = 95 then ⟨5, false, true, [some .classB], [false]⟩
      else if i = 0 then ⟨10, false, false, [some .classB], [false]⟩ else ⟨10, true, false, [some .classB], [true]⟩,
    rfl, rfl, rfl, by decide +kernel⟩

/-! ## C248 -/

/-- **C248 (in part).** Between two rows of one page no break is asked for. -/
theorem C248_asked_partial (t : Table) (lay : Nat → Nat → Int → RowOut) (top : Nat → Int) (ht : Sound t)
    (hsm : ∀ i, first t ≤ i → i < behind t → Small t i) (hl : Honest t lay) (hfit : Fits t top) :
    ∃ ps, pages t lay top (behind t - first t) 0 0 = .ok ps ∧
      ∀ pg ∈ ps, ∀ i, i ∈ pg.rows → i + 1 ∈ pg.rows → ¬Asked t i := by
  obtain ⟨l, h1, -, h3, -⟩ := pages_good ht hsm hl hfit (behind t - first t) (first t) 0 (Nat.le_refl _) (Nat.le_refl _) ht.some
  rw [Nat.sub_self] at h1
  exact ⟨l, h1, h3⟩

example : Asked sample 4 := .inl ⟨{ after := .page }, rfl, rfl⟩

/-- A break after a row with a cell that goes on into the next one is not made. -/
theorem C248_span_fails : ∃ t : Table, ∃ lay : Nat → Nat → Int → RowOut, Asked t 0 ∧ (t.row 0).slots = [some ⟨true, 2⟩, some ⟨true, 1⟩] ∧
    pages t lay (fun _ => 0) 2 0 0 = .ok [⟨[0, 1], true⟩] :=
  ⟨{ row := fun i => if i = 0 then ⟨[some ⟨true, 2⟩, some ⟨true, 1⟩], 10, some { after := .page }, none⟩
        else ⟨[some ⟨false, 2⟩, some ⟨true, 1⟩], 10, some {}, none⟩, height := 2, lo := 0, hi := 1, width := 100, pageH := 100 },
    fun _ i _ => if i = 0 then ⟨10, false, false, [some .classB, some .classB], [false, true]⟩
      else ⟨10, true, false, [some .classB, some .classB], [true, true]⟩,
    .inl ⟨{ after := .page }, rfl, rfl⟩, rfl, by decide +kernel⟩

/-! ## C249 -/

/-- **C249 (in part).** A page ends where a break is asked for or before a row for which there is no room; never earlier. -/
theorem C249_full_partial (t : Table) (lay : Nat → Nat → Int → RowOut) (top : Nat → Int) (ht : Sound t)
    (hsm : ∀ i, first t ≤ i → i < behind t → Small t i) (hl : Honest t lay) (hfit : Fits t top) :
    ∃ ps, pages t lay top (behind t - first t) 0 0 = .ok ps ∧ Full t lay top 0 (first t) ps := by
  obtain ⟨l, h1, -, -, h4⟩ := pages_good ht hsm hl hfit (behind t - first t) (first t) 0 (Nat.le_refl _) (Nat.le_refl _) ht.some
  rw [Nat.sub_self] at h1
  exact ⟨l, h1, h4⟩

/-- A group of two rows that is not to be split, and would find room on the second page, is split. -/
theorem C249_group_fails : ∃ t : Table, (∀ i, t.row i = plainRow 40 {} (some (if i = 0 then (0, {}) else (1, { avoid := true })))) ∧
    pages t (simpleLay t) (fun _ => 0) 3 0 0 = .ok [⟨[0, 1], true⟩, ⟨[2], true⟩] :=
  ⟨{ row := fun i => plainRow 40 {} (some (if i = 0 then (0, {}) else (1, { avoid := true }))), height := 3, lo := 0, hi := 2,
      width := 100, pageH := 100 }, fun _ => rfl, by decide +kernel⟩

/-- Rows that are to stay together are separated. -/
theorem C249_avoid_fails : ∃ t : Table, (∀ i, t.row i = plainRow 40 (if i = 1 then { after := .avoid } else {})) ∧
    pages t (simpleLay t) (fun _ => 0) 3 0 0 = .ok [⟨[0, 1], true⟩, ⟨[2], true⟩] :=
  ⟨{ row := fun i => plainRow 40 (if i = 1 then { after := .avoid } else {}), height := 3, lo := 0, hi := 2, width := 100,
      pageH := 100 }, fun _ => rfl, by decide +kernel⟩

end Verif.Rows
