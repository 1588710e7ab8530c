import Verif.Tree.Leaf
/-
The parts of tables, and the white space between them.
-/
namespace Verif.Tree
open Verif.Html (Str Attr Content)
open Spec

theorem out {m : M St} {s s' : St} {fs : List Frame} {D : List Tree} (h2 : Good s' fs D)
    (hm : m = .ok s') (hl : s'.lexer = s.lexer) :
    ∃ s', m = .ok s' ∧ s'.lexer = s.lexer ∧ Good s' fs D := ⟨s', hm, hl, h2⟩

/-! ### Entering -/

theorem clearStack_top {s : St} {f : Frame} {fs : List Frame} {D : List Tree} (g : Good s (f :: fs) D)
    {names : List Str} (hn : names.contains f.name = true) : clearStack s names = .ok s := by
  have h1 : clearTo names s.stack = .ok s.stack := by
    rw [g.stack, List.map_cons, clearTo, g.q, isIn_h, if_pos hn]
  rw [clearStack, h1]
  rfl

theorem opens_part {s : St} {f : Frame} {fs : List Frame} {D : List Tree} (g : Good s (f :: fs) D)
    {n : Str} {as : List Attr} (hd : distinct as = true) (ha : Allowed (around (f :: fs)) n)
    (hn : n ∈ parts) (d : Nat) :
    ∃ s', run (d + 2) none s (.opens n as false) = .ok s' ∧ s'.lexer = s.lexer ∧
      Good s' (newFrame s n as :: f :: fs) D := by
  have hb : ∀ n ∈ parts, n ∉ barred := by decide
  have hl := ha.link (hb n hn)
  rw [g.run d]
  have hins := insertHtml_eq g.toStk n hd
  have inTab : f.name = nm! "table" → ∀ m, modeFor n = some m → n ∉ marking ++ formats → n ≠ nm! "form" →
      handle (recAt d) s.mode s (.opens n as false) =
        (do let s ← clearStack s tableContext
            let s ← insertHtml s n as
            .ok { s with mode := m }) →
      ∃ s', handle (recAt d) s.mode s (.opens n as false) = .ok s' ∧ s'.lexer = s.lexer ∧
        Good s' (newFrame s n as :: f :: fs) D := by
    intro hf m hm h1 h2 hh
    rw [hh, clearStack_top g (by rw [hf]; decide)]
    simp only [ok_bind, hins]
    exact ⟨_, rfl, rfl, good_part g hl hm h1 h2 s.framesetOk⟩
  simp only [parts, List.mem_cons, List.not_mem_nil, or_false] at hn
  rcases hn with rfl | rfl | rfl | rfl | rfl | rfl | rfl | rfl
  · -- caption
    have hf : f.name = nm! "table" := by
      simpa [around] using ha.parent _ (show parents.lookup (nm! "caption") = some [nm! "table"] by decide)
    rw [g.mode'.2 .inTable (by rw [hf]; decide)]
    have hp : Stk (pushMarker s) (f :: fs) D := g.toStk.congr rfl rfl rfl rfl rfl
    refine ⟨{ opened (pushMarker s) f.el.id .html (nm! "caption") as with mode := .inCaption }, ?_, rfl, ?_⟩
    · show inTable (recAt d) s (.opens (nm! "caption") as false) = _
      rw [inTable, if_pos rfl, clearStack_top g (by rw [hf]; decide)]
      simp only [ok_bind, insertHtml_eq hp _ hd]
    · refine g.enter ((hp.opened .html (nm! "caption") as).congr rfl rfl rfl rfl rfl) hl rfl ?_ ?_ ?_ rfl
        g.skip (Or.inr ?_)
      · rw [marking_entry (F := newFrame s (nm! "caption") as)
          (show nm! "caption" ∈ marking by decide) rfl]
        rfl
      · show s.entries.length + 1 = afterMarker (s.entries ++ [.marker])
        rw [afterMarker_marker]
      · rw [if_neg (show (newFrame s (nm! "caption") as).name ≠ nm! "form" by
          show nm! "caption" ≠ nm! "form"; decide)]
        rfl
      · show modeFor (nm! "caption") = some .inCaption
        decide
  · -- colgroup
    have hf : f.name = nm! "table" := by
      simpa [around] using ha.parent _ (show parents.lookup (nm! "colgroup") = some [nm! "table"] by decide)
    refine inTab hf .inColumnGroup (by decide) (by decide) (by decide) ?_
    rw [g.mode'.2 .inTable (by rw [hf]; decide)]
    rfl
  · have hf : f.name = nm! "table" := by
      simpa [around] using ha.parent _ (show parents.lookup (nm! "tbody") = some [nm! "table"] by decide)
    refine inTab hf .inTableBody (by decide) (by decide) (by decide) ?_
    rw [g.mode'.2 .inTable (by rw [hf]; decide)]
    rfl
  · have hf : f.name = nm! "table" := by
      simpa [around] using ha.parent _ (show parents.lookup (nm! "thead") = some [nm! "table"] by decide)
    refine inTab hf .inTableBody (by decide) (by decide) (by decide) ?_
    rw [g.mode'.2 .inTable (by rw [hf]; decide)]
    rfl
  · have hf : f.name = nm! "table" := by
      simpa [around] using ha.parent _ (show parents.lookup (nm! "tfoot") = some [nm! "table"] by decide)
    refine inTab hf .inTableBody (by decide) (by decide) (by decide) ?_
    rw [g.mode'.2 .inTable (by rw [hf]; decide)]
    rfl
  · -- tr
    have hf : f.name ∈ [nm! "thead", nm! "tbody", nm! "tfoot"] :=
      ha.parent _ (show parents.lookup (nm! "tr") = some [nm! "thead", nm! "tbody", nm! "tfoot"] by decide)
    have hk : ∀ n ∈ [nm! "thead", nm! "tbody", nm! "tfoot"], modeFor n = some .inTableBody ∧
      tableBodyContext.contains n = true := by decide
    rw [g.mode'.2 .inTableBody (hk _ hf).1]
    refine out (good_part (as := as) g hl (m := .inRow) (by decide) (by decide) (by decide) s.framesetOk) ?_ rfl
    show inTableBody (recAt d) s (.opens (nm! "tr") as false) = _
    rw [inTableBody, if_pos rfl, clearStack_top g (hk _ hf).2]
    simp only [ok_bind, hins]
    rfl
  · have hf : f.name = nm! "tr" := by
      simpa [around] using ha.parent _ (show parents.lookup (nm! "td") = some [nm! "tr"] by decide)
    rw [g.mode'.2 .inRow (by rw [hf]; decide)]
    refine ⟨pushMarker { opened s f.el.id .html (nm! "td") as with mode := .inCell }, ?_, rfl, ?_⟩
    · show inRow (recAt d) s (.opens (nm! "td") as false) = _
      rw [inRow, if_pos (by decide), clearStack_top g (by rw [hf]; decide)]
      simp only [ok_bind, hins]
    · refine g.enter ((g.toStk.opened .html (nm! "td") as).congr rfl rfl rfl rfl rfl) hl rfl ?_ ?_ ?_ rfl
        g.skip (Or.inr ?_)
      · rw [marking_entry (F := newFrame s (nm! "td") as) (show nm! "td" ∈ marking by decide) rfl]
        rfl
      · show s.entries.length + 1 = afterMarker (s.entries ++ [.marker])
        rw [afterMarker_marker]
      · rw [if_neg (show (newFrame s (nm! "td") as).name ≠ nm! "form" by
          show nm! "td" ≠ nm! "form"; decide)]
        rfl
      · show modeFor (nm! "td") = some .inCell
        decide
  · have hf : f.name = nm! "tr" := by
      simpa [around] using ha.parent _ (show parents.lookup (nm! "th") = some [nm! "tr"] by decide)
    rw [g.mode'.2 .inRow (by rw [hf]; decide)]
    refine ⟨pushMarker { opened s f.el.id .html (nm! "th") as with mode := .inCell }, ?_, rfl, ?_⟩
    · show inRow (recAt d) s (.opens (nm! "th") as false) = _
      rw [inRow, if_pos (by decide), clearStack_top g (by rw [hf]; decide)]
      simp only [ok_bind, hins]
    · refine g.enter ((g.toStk.opened .html (nm! "th") as).congr rfl rfl rfl rfl rfl) hl rfl ?_ ?_ ?_ rfl
        g.skip (Or.inr ?_)
      · rw [marking_entry (F := newFrame s (nm! "th") as) (show nm! "th" ∈ marking by decide) rfl]
        rfl
      · show s.entries.length + 1 = afterMarker (s.entries ++ [.marker])
        rw [afterMarker_marker]
      · rw [if_neg (show (newFrame s (nm! "th") as).name ≠ nm! "form" by
          show nm! "th" ≠ nm! "form"; decide)]
        rfl
      · show modeFor (nm! "th") = some .inCell
        decide

/-! ### Leaving -/

theorem Path.long {n : Str} {r : List Str} (hp : Path (n :: r)) : r ≠ [] := by
  cases hp <;> simp

/-- The mode for the element around. -/
theorem Good.below {s : St} {f f' : Frame} {fs : List Frame} {D : List Tree}
    (g : Good s (f :: f' :: fs) D) (hn : f.name ≠ nm! "body") :
    ∃ m, resetMode true s.stack.tail = .ok m ∧ ∀ m', modeFor f'.name = some m' → m = m' := by
  obtain ⟨m, h1, -, h3⟩ := (g.path.tail hn).2.flow (st := s.stack.tail)
    (by rw [g.stack, List.map_cons, List.tail_cons, List.map_map]; rfl)
    (by
      intro e he
      rw [g.stack, List.map_cons, List.tail_cons] at he
      obtain ⟨x, hx, rfl⟩ := List.mem_map.mp he
      exact g.html x (List.mem_cons_of_mem _ hx))
  exact ⟨m, h1, h3⟩

theorem closes_part {s : St} {f f' : Frame} {fs : List Frame} {D : List Tree}
    (g : Good s (f :: f' :: fs) D) (hn : f.name ∈ nm! "table" :: parts) (d : Nat) :
    ∃ s', run (d + 2) none s (.closes f.name [] false) = .ok s' ∧ s'.lexer = s.lexer ∧
      Good s' (f'.add f.tree :: fs) D := by
  have hne : ∀ n ∈ nm! "table" :: parts, n ≠ nm! "body" ∧ n ≠ nm! "form" ∧ n ∉ impliedEnd := by decide
  obtain ⟨hnb, hnf, hni⟩ := hne _ hn
  obtain ⟨m, hm, hm'⟩ := g.below hnb
  have hlink := (g.path.tail hnb).1
  have hsc : ∀ ends, inScopeOf s ends f.name = .ok true := fun ends => inScopeOf_true g.toStk g.q
  have hpop : ∀ names, f.name ∈ names → popUntilOneOf s names = { s with stack := s.stack.tail } :=
    fun names hm => popUntilOneOf_eq g.toStk (by rw [g.q, isIn_h]; simpa using hm)
  have himp : impliedEnds s [] = .ok s := by
    refine impliedEnds_eq g.toStk ?_
    rw [g.q, isIn_h, isIn_h]
    simp [hni]
  have plainOut : f.name ∉ marking → f.name ∉ formats → ∀ m', m = m' →
      Good { s with stack := s.stack.tail, mode := m' } (f'.add f.tree :: fs) D := by
    rintro h1 h2 m' rfl
    refine g.leave hnb (g.toStk.closed.congr rfl rfl rfl rfl rfl) ?_ g.after (Or.inl ⟨hnf, rfl⟩) rfl
      g.skip (Or.inr hm)
    show s.entries = _
    rw [g.entries, entriesOf_cons, entry_none h1 h2]
    simp
  have markOut : f.name ∈ marking → ∀ m', m = m' →
      clearMarker { s with stack := s.stack.tail } =
        .ok { s with stack := s.stack.tail, entries := entriesOf (f' :: fs), after := afterMarker (entriesOf (f' :: fs)) } ∧
      Good { s with stack := s.stack.tail, entries := entriesOf (f' :: fs), after := afterMarker (entriesOf (f' :: fs)), mode := m' }
        (f'.add f.tree :: fs) D := by
    rintro h1 m' rfl
    have hen : s.entries = entriesOf (f' :: fs) ++ [.marker] := by
      rw [g.entries, entriesOf_cons, marking_entry h1 (g.html f (by simp))]
      rfl
    refine ⟨clearMarker_last (s := { s with stack := s.stack.tail }) hen, ?_⟩
    exact g.leave hnb (g.toStk.closed.congr rfl rfl rfl rfl rfl) rfl rfl (Or.inl ⟨hnf, rfl⟩) rfl
      g.skip (Or.inr hm)
  rw [g.run d]
  simp only [parts, List.mem_cons, List.not_mem_nil, or_false] at hn
  rcases hn with e | e | e | e | e | e | e | e | e
  · -- table
    rw [e] at hsc hpop plainOut
    rw [g.mode'.2 .inTable (by rw [e]; decide), e]
    refine ⟨{ s with stack := s.stack.tail, mode := m }, ?_, rfl, plainOut (by decide) (by decide) m rfl⟩
    show (do if ← inTableScope s (nm! "table") then reset (popUntilOneOf s [nm! "table"]) else .ok s) = _
    simp only [inTableScope, hsc, ok_bind, if_true, hpop [nm! "table"] (by simp), reset, g.head, hm]
  · -- caption
    have hf' : f'.name = nm! "table" := by
      simpa using hlink.parent _ (show parents.lookup f.name = some [nm! "table"] by rw [e]; decide)
    obtain ⟨h1, h2⟩ := markOut (by rw [e]; decide) .inTable (hm' _ (by rw [hf']; decide))
    rw [e] at hsc hpop
    rw [g.mode'.2 .inCaption (by rw [e]; decide), e]
    refine out h2 ?_ rfl
    show (do let (s, _) ← closeCaption s; .ok s) = _
    simp only [closeCaption, inTableScope, hsc, ok_bind, if_true, himp, hpop [nm! "caption"] (by simp), h1]
  · -- colgroup
    have hf' : f'.name = nm! "table" := by
      simpa using hlink.parent _ (show parents.lookup f.name = some [nm! "table"] by rw [e]; decide)
    have h2 := plainOut (by rw [e]; decide) (by rw [e]; decide) .inTable (hm' _ (by rw [hf']; decide))
    rw [g.mode'.2 .inColumnGroup (by rw [e]; decide), e]
    refine out h2 ?_ rfl
    have hcur : current s = .ok f.el := by rw [current, g.stack]; rfl
    show (do let cur ← current s; _) = _
    rw [hcur]
    simp only [ok_bind]
    rw [if_neg (by rw [g.q, e]; simp), pop_eq g.toStk]
    rfl
  all_goals first
    | (have hf' : f'.name = nm! "table" := by
        simpa using hlink.parent _ (show parents.lookup f.name = some [nm! "table"] by rw [e]; decide)
       have h2 := plainOut (by rw [e]; decide) (by rw [e]; decide) .inTable (hm' _ (by rw [hf']; decide))
       rw [e] at hsc
       rw [g.mode'.2 .inTableBody (by rw [e]; decide)]
       refine out h2 ?_ rfl
       have hcs := clearStack_top g (names := tableBodyContext) (by rw [e]; decide)
       rw [e]
       show (do if ← inTableScope s _ then leaveBody s else .ok s) = _
       simp only [inTableScope, hsc, ok_bind, if_true, leaveBody, hcs, pop_eq g.toStk]
       done)
    | (have hf' : f'.name ∈ [nm! "thead", nm! "tbody", nm! "tfoot"] :=
        hlink.parent _ (show parents.lookup f.name = some [nm! "thead", nm! "tbody", nm! "tfoot"] by
          rw [e]; decide)
       have hk : ∀ n ∈ [nm! "thead", nm! "tbody", nm! "tfoot"], modeFor n = some .inTableBody := by decide
       have h2 := plainOut (by rw [e]; decide) (by rw [e]; decide) .inTableBody (hm' _ (hk _ hf'))
       rw [e] at hsc
       rw [g.mode'.2 .inRow (by rw [e]; decide)]
       refine out h2 ?_ rfl
       have hcs := clearStack_top g (names := tableRowContext) (by rw [e]; decide)
       rw [e]
       show (do if ← inTableScope s _ then leaveRow s else .ok s) = _
       simp only [inTableScope, hsc, ok_bind, if_true, leaveRow, hcs, pop_eq g.toStk]
       done)
    | (have hf' : f'.name = nm! "tr" := by
        simpa using hlink.parent _ (show parents.lookup f.name = some [nm! "tr"] by rw [e]; decide)
       obtain ⟨h1, h2⟩ := markOut (by rw [e]; decide) .inRow (hm' _ (by rw [hf']; decide))
       rw [e] at hsc hpop
       rw [g.mode'.2 .inCell (by rw [e]; decide), e]
       refine out h2 ?_ rfl
       show (do
        if ← inTableScope s _ then do
          let s ← impliedEnds s
          let s ← clearMarker (popUntilOneOf s [_])
          .ok { s with mode := .inRow }
        else .ok s) = _
       simp only [inTableScope, hsc, ok_bind, if_true, himp, hpop [_] (List.mem_singleton.mpr rfl), h1]
       done)

end Verif.Tree
