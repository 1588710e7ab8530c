import Verif.Page.Lemmas

/-!
# Page rules: properties

C25 (which pages a rule is for), C26 (reading a selector list ends) and C59 (which of
several page rules wins).
-/
namespace Verif.Page
open Verif.Css Spec

/-! ## C25 -/

theorem match_iff (s : Sel) (page : Page) :
    s.match page = true ↔ (s.name = [] ∨ page.name = s.name) ∧ ∀ p ∈ s.pseudos, passes page p = true := by
  unfold Sel.match
  cases h : s.name with
  | nil => simp
  | cons a l => by_cases h2 : page.name = a :: l <;> simp [h2]

/-- C25: without `:left`, `:right` and `:blank`, a selector matches exactly the pages it is for.
    Missing: the three other pseudo-classes, see `C25_mirrored`. -/
theorem C25_first_partial (s : Sel) (hs : ∀ p ∈ s.pseudos, p = .first) (page : Page) :
    s.match page = true ↔ SelApplies s page := by
  rw [match_iff]
  refine and_congr_right fun _ => forall_congr' fun p => forall_congr' fun hp => ?_
  rw [hs p hp]
  simp [passes, Applies]

example : SelApplies ⟨u "x", [.first]⟩ ⟨u "x", 1, false⟩ ∧ ¬ SelApplies ⟨u "x", [.first]⟩ ⟨u "x", 2, false⟩ := by
  simp [SelApplies, Applies]

/-- `:first` alone is for the first page and no other. -/
theorem C25_first (page : Page) : Sel.match ⟨[], [.first]⟩ page = true ↔ page.number = 1 := by
  rw [match_iff]; simp [passes]

/-- Exchanges `:left` and `:right`. -/
def mirror : Pseudo → Pseudo
  | .left => .right
  | .right => .left
  | p => p

/-- What the code does, for every selector and page: left and right pages are exchanged and
    blank pages taken for the others. -/
theorem C25_mirrored (s : Sel) (page : Page) :
    s.match page = true ↔ SelApplies { s with pseudos := s.pseudos.map mirror } { page with blank := !page.blank } := by
  rw [match_iff]
  show _ ↔ (_ ∧ ∀ p ∈ s.pseudos.map mirror, _)
  simp only [List.forall_mem_map]
  refine and_congr_right fun _ => forall_congr' fun p => forall_congr' fun _ => ?_
  cases p <;> simp [passes, Applies, mirror]

/-- C25 is false: a rule for `:right` is applied on no odd page, one for `:left` on no even
    page, and one for `:blank` on no blank page. -/
theorem C25_right_fails (page : Page) (h : Applies page .right) : Sel.match ⟨[], [.right]⟩ page = false := by
  have : page.number % 2 = 1 := h
  simp [Sel.match, passes, this]

theorem C25_left_fails (page : Page) (h : Applies page .left) : Sel.match ⟨[], [.left]⟩ page = false := by
  have : page.number % 2 = 0 := h
  simp [Sel.match, passes, this]

theorem C25_blank_fails (page : Page) (h : Applies page .blank) : Sel.match ⟨[], [.blank]⟩ page = false := by
  have : page.blank = true := h
  simp [Sel.match, passes, this]

example : Applies ⟨[], 1, true⟩ .right ∧ Applies ⟨[], 2, true⟩ .left ∧ Applies ⟨[], 2, true⟩ .blank := by
  simp [Applies]

/-- Of the pages that are printed, `:blank` is applied to all, a rule with a name to none. -/
theorem C25_printed_fails (k : Nat) :
    Sel.match ⟨[], [.blank]⟩ (pageAfter k) = true ∧ ¬ SelApplies ⟨[], [.blank]⟩ (pageAfter k) ∧
    ∀ name ps, name ≠ [] → Sel.match ⟨name, ps⟩ (pageAfter k) = false := by
  refine ⟨by simp [Sel.match, passes, pageAfter], by simp [SelApplies, Applies, pageAfter], fun name ps h => ?_⟩
  cases name with
  | nil => exact absurd rfl h
  | cons a l => simp [Sel.match, pageAfter]

/-! ## C26 -/

/-- C26: on names, white space and the four pseudo-classes the reader ends.
    Missing: all other items, on which it does not end, see `C26_exact`. -/
theorem C26_ends_partial (c : List Sst) (h : Pieces c) (fuel : Nat) (hf : c.length < fuel) :
    ∃ sels, parseList fuel c = .ok sels := by
  have := (parseLoop_pieces fuel h (t := []) (.inl rfl)).1 rfl hf
  simpa [parseList] using this

/-- A selector written on its own is read as that selector. -/
theorem C26_single_partial (s : Sel) (hs : s.name ≠ [] ∨ s.pseudos ≠ []) (fuel : Nat) (hf : s.pseudos.length + 1 < fuel) :
    parseList fuel (written s) = .ok [s] := by
  cases fuel with
  | zero => omega
  | succ n =>
    have hp := parsePseudos_written (n + 1) s.pseudos (by omega)
    obtain ⟨name, ps⟩ := s
    cases n with
    | zero => omega
    | succ n =>
    cases name with
    | nil =>
      cases ps with
      | nil => simp at hs
      | cons p ps =>
        have hw : written ⟨[], p :: ps⟩ = Sst.tok ⟨.colon, u ":"⟩ :: .tok ⟨.ident, pseudoName p⟩ ::
            ps.flatMap fun p => [Sst.tok ⟨.colon, u ":"⟩, .tok ⟨.ident, pseudoName p⟩] := by simp [written]
        have he : ∀ r, eatWs (Sst.tok ⟨.colon, u ":"⟩ :: r) = Sst.tok ⟨.colon, u ":"⟩ :: r := fun r => by
          unfold eatWs; rfl
        have hn : ∀ r, parseName (Sst.tok ⟨.colon, u ":"⟩ :: r) = ([], Sst.tok ⟨.colon, u ":"⟩ :: r) := fun r => rfl
        simp only [List.flatMap_cons, List.cons_append, List.nil_append] at hp
        rw [hw, parseList, he]
        unfold parseLoop parse
        simp only [hn, he, hp]
        rfl
    | cons a l =>
      have hw : written ⟨a :: l, ps⟩ = Sst.tok ⟨.ident, a :: l⟩ ::
          ps.flatMap fun p => [Sst.tok ⟨.colon, u ":"⟩, .tok ⟨.ident, pseudoName p⟩] := by simp [written]
      have he : ∀ r, eatWs (Sst.tok ⟨.ident, a :: l⟩ :: r) = Sst.tok ⟨.ident, a :: l⟩ :: r := fun r => by
        unfold eatWs; rfl
      have he2 : eatWs (ps.flatMap fun p => [Sst.tok ⟨.colon, u ":"⟩, .tok ⟨.ident, pseudoName p⟩]) =
          ps.flatMap fun p => [Sst.tok ⟨.colon, u ":"⟩, .tok ⟨.ident, pseudoName p⟩] := by
        cases ps with
        | nil => rfl
        | cons b m => show eatWs (_ :: _) = _ :: _; unfold Css.eatWs; rfl
      have hn : ∀ r, parseName (Sst.tok ⟨.ident, a :: l⟩ :: r) = (a :: l, r) := fun r => rfl
      rw [hw, parseList, he]
      unfold parseLoop parse
      simp only [hn, he2, hp]
      rfl

example : parseList 9 (written ⟨u "chapter", [.first, .left]⟩) = .ok [⟨u "chapter", [.first, .left]⟩] :=
  C26_single_partial _ (.inl (by decide)) _ (by decide)

/-- C26 is false: after readable items, anything else keeps the reader busy for ever. -/
theorem C26_stuck_fails (pre : List Sst) (s : Sst) (rest : List Sst) (hp : Pieces pre) (hs : Stuck s rest) (fuel : Nat) :
    parseList fuel (pre ++ s :: rest) = .out :=
  (parseLoop_pieces fuel hp (.inr (.inl ⟨s, rest, rfl, hs⟩))).2.1 ⟨s, rest, rfl, hs⟩

theorem stuck_comma (d : Text) (rest : List Sst) : Stuck (.tok ⟨.comma, d⟩) rest :=
  ⟨rfl, (fun _ h => by cases h), (fun h => by cases h)⟩

theorem written_pieces (s : Sel) : Pieces (written s) := by
  have hp : Pieces (s.pseudos.flatMap fun p => [Sst.tok ⟨.colon, u ":"⟩, .tok ⟨.ident, pseudoName p⟩]) := by
    induction s.pseudos with
    | nil => exact .nil
    | cons p ps ih => exact .pseudo (w := []) p (by simp [Blank]) ih
  unfold written
  split
  · exact hp
  · exact .ident hp

/-- In particular no list of two or more selectors is ever read. -/
theorem C26_comma_fails (s : Sel) (d : Text) (rest : List Sst) (fuel : Nat) :
    parseList fuel (written s ++ .tok ⟨.comma, d⟩ :: rest) = .out :=
  C26_stuck_fails _ _ _ (written_pieces s) (stuck_comma d rest) fuel

/-- A colon with nothing behind it reads past the end. -/
theorem C26_colon_fails (pre : List Sst) (d : Text) (w : List Sst) (hp : Pieces pre) (hw : Blank w) (fuel : Nat)
    (hf : (pre ++ .tok ⟨.colon, d⟩ :: w).length < fuel) : parseList fuel (pre ++ .tok ⟨.colon, d⟩ :: w) = .crash :=
  (parseLoop_pieces fuel hp (.inr (.inr ⟨d, w, hw, rfl⟩))).2.2 ⟨d, w, hw, rfl⟩ hf

/-- These are all the cases: exactly on these inputs reading ends with a list. -/
theorem C26_exact (c : List Sst) : (∃ fuel sels, parseList fuel c = .ok sels) ↔ Pieces c := by
  constructor
  · rintro ⟨fuel, sels, h⟩
    obtain ⟨pre, t, rfl, hp, ht⟩ := pieces_tail _ c (Nat.le_refl _)
    rcases ht with rfl | ⟨s, r, rfl, hs⟩ | ⟨d, w, hw, rfl⟩
    · simpa using hp
    · rw [C26_stuck_fails pre s r hp hs] at h; cases h
    · exfalso
      have key : ∀ n {q : List Sst}, Pieces q → ∀ sels, parseLoop n (eatWs (q ++ .tok ⟨.colon, d⟩ :: w)) ≠ .ok sels := by
        intro n
        have ht : Tail (.tok ⟨.colon, d⟩ :: w) := .inr (.inr ⟨d, w, hw, rfl⟩)
        induction n with
        | zero => intro q _ sels h; cases h
        | succ n ih =>
          intro q hq sels h
          obtain ⟨q', hq', e, -, hh⟩ := pieces_eatWs hq ht
          rw [e] at h
          cases hc : q' ++ Sst.tok ⟨.colon, d⟩ :: w with
          | nil => simp at hc
          | cons s c =>
            rw [hc] at h
            unfold parseLoop at h
            rw [← hc] at h
            rcases parse_pieces (n := n + 1) hq' ht hh with h1 | ⟨-, h1⟩ | ⟨sel, pre', h1, h2, -⟩
            · rw [h1] at h; cases h
            · rw [h1] at h; cases h
            · rw [h1] at h
              dsimp only at h
              cases h3 : parseLoop n (eatWs (pre' ++ Sst.tok ⟨.colon, d⟩ :: w)) with
              | ok a => exact ih h2 a h3
              | crash => rw [h3] at h; cases h
              | out => rw [h3] at h; cases h
      exact key fuel hp sels h
  · intro h
    obtain ⟨sels, hs⟩ := C26_ends_partial c h (c.length + 1) (Nat.lt_succ_self _)
    exact ⟨_, sels, hs⟩

example : ¬ Pieces [.tok ⟨.ident, u "a"⟩, .tok ⟨.comma, u ","⟩, .tok ⟨.ident, u "b"⟩] := by
  intro h
  obtain ⟨fuel, sels, h⟩ := (C26_exact _).2 h
  have := C26_stuck_fails [.tok ⟨.ident, u "a"⟩] _ [.tok ⟨.ident, u "b"⟩] (.ident .nil) (stuck_comma (u ",") _) fuel
  rw [List.singleton_append, h] at this
  cases this

/-! ## C59 -/

theorem apply_decls (ds : List (Text × Text)) (v : Values) (p : Text) :
    ds.foldl (fun v d => fun p => if p = d.1 then some d.2 else v p) v p =
    match (ds.filter fun d => d.1 = p).getLast? with
    | some d => some d.2
    | none => v p := by
  induction ds generalizing v with
  | nil => rfl
  | cons d ds ih =>
    rw [List.foldl_cons, ih, List.filter_cons]
    by_cases h : d.1 = p
    · subst h
      simp only [if_true, decide_true]
      cases hl : (ds.filter fun x => x.1 = d.1) with
      | nil => simp
      | cons a l =>
        rw [List.getLast?_cons_cons]
        cases hg : (a :: l).getLast? with
        | none => simp at hg
        | some x => rfl
    · have h' : ¬ p = d.1 := fun e => h e.symm
      simp only [h', if_false, decide_eq_true_eq, h]

/-- The value of a property after rules: the last one declared in a matching rule. -/
theorem pageValues_last (rules : List Rule) (page : Page) (p : Text) :
    pageValues rules page p =
    (((rules.filter fun r => r.match page).flatMap (·.decls)).filter fun d => d.1 = p).getLast?.map (·.2) := by
  have key : ∀ (v : Values), (rules.foldl (fun v r => if r.match page then r.apply v else v) v) p =
      match (((rules.filter fun r => r.match page).flatMap (·.decls)).filter fun d => d.1 = p).getLast? with
      | some d => some d.2
      | none => v p := by
    induction rules with
    | nil => intro v; rfl
    | cons r rs ih =>
      intro v
      rw [List.foldl_cons, ih, List.filter_cons]
      by_cases h : r.match page = true
      · simp only [h, if_true, List.flatMap_cons, List.filter_append, List.getLast?_append]
        unfold Rule.apply
        rw [apply_decls]
        generalize ((rs.filter fun r => r.match page).flatMap (·.decls)).filter (fun d => decide (d.1 = p)) = l
        cases hl : l.getLast? <;> simp
      · simp [h]
  rw [pageValues, key]
  cases (((rules.filter fun r => r.match page).flatMap (·.decls)).filter fun d => d.1 = p).getLast? <;> rfl

/-- The rules where matching is as it should be. -/
def Plain (r : Rule) : Prop := ∀ s ∈ r.sels, ∀ p ∈ s.pseudos, p = .first

theorem rule_match {r : Rule} (h : Plain r) (page : Page) : r.match page = true ↔ RuleApplies r page := by
  unfold Rule.match RuleApplies
  cases hs : r.sels with
  | nil => simp
  | cons a l =>
    rw [← hs]
    have hne : r.sels.length ≠ 0 := by simp [hs]
    rw [if_neg hne, List.any_eq_true]
    constructor
    · rintro ⟨s, hm, ht⟩
      exact .inr ⟨s, hm, (C25_first_partial s (h s hm) page).1 ht⟩
    · rintro (h0 | ⟨s, hm, ht⟩)
      · simp [hs] at h0
      · exact ⟨s, hm, (C25_first_partial s (h s hm) page).2 ht⟩

theorem inForce_flatMap {rules : List Rule} {page : Page} {l : List (Weight × Text × Text)} (h : InForce page rules l)
    (hp : ∀ r ∈ rules, Plain r) : (rules.filter fun r => r.match page).flatMap (·.decls) = l.map (·.2) := by
  induction h with
  | nil => rfl
  | @skip r rs l hn _ ih =>
    have : r.match page = false := by
      cases hm : r.match page with
      | false => rfl
      | true => exact absurd ((rule_match (hp r (List.mem_cons_self ..)) page).1 hm) hn
    rw [List.filter_cons]
    simp only [this]
    exact ih fun r hr => hp r (List.mem_cons_of_mem _ hr)
  | @use r rs l w ha hw _ ih =>
    have := (rule_match (hp r (List.mem_cons_self ..)) page).2 ha
    rw [List.filter_cons]
    simp only [this, if_true, List.flatMap_cons, List.map_append, List.map_map]
    rw [ih fun r hr => hp r (List.mem_cons_of_mem _ hr)]
    congr 1
    rw [List.map_congr_left (g := id)]
    · simp
    · intro d _; rfl

theorem getLast_split {α : Type} (q : α → Bool) (l : List α) (x : α) :
    (l.filter q).getLast? = some x ↔ ∃ a b, l = a ++ x :: b ∧ q x = true ∧ ∀ y ∈ b, q y = false := by
  constructor
  · intro h
    rw [List.getLast?_eq_some_iff] at h
    obtain ⟨ys, hy⟩ := h
    rw [List.filter_eq_append_iff] at hy
    obtain ⟨a, b, rfl, -, hb⟩ := hy
    rw [List.filter_eq_cons_iff] at hb
    obtain ⟨c, d, rfl, hc, hq, hd⟩ := hb
    rw [List.filter_eq_nil_iff] at hd
    exact ⟨a ++ c, d, by simp, hq, fun y hy => by simpa using hd y hy⟩
  · rintro ⟨a, b, rfl, hq, hb⟩
    have : b.filter q = [] := by rw [List.filter_eq_nil_iff]; simpa using hb
    simp [List.filter_append, List.filter_cons, hq, this]

/-- C59: if no rule that is in force is followed by a less specific one, the value that wins
    is the one used; on pages and rules where matching is as it should be.
    Missing: rules followed by less specific ones (`C59_fails`), important declarations. -/
theorem C59_partial (rules : List Rule) (page : Page) (l : List (Weight × Text × Text)) (h : InForce page rules l)
    (hp : ∀ r ∈ rules, Plain r) (hs : l.Pairwise fun x y => ¬ y.1.lt x.1) (p v : Text) :
    pageValues rules page p = some v ↔ Wins l p v := by
  rw [pageValues_last, inForce_flatMap h hp, Option.map_eq_some_iff]
  constructor
  · rintro ⟨d, hd, rfl⟩
    rw [getLast_split] at hd
    obtain ⟨a, b, e, hq, hb⟩ := hd
    rw [List.map_eq_append_iff] at e
    obtain ⟨a', b', rfl, rfl, e⟩ := e
    rw [List.map_eq_cons_iff] at e
    obtain ⟨x, b'', rfl, rfl, rfl⟩ := e
    obtain ⟨w, p', v⟩ := x
    have hpe : p' = p := by simpa using hq
    subst hpe
    refine ⟨a', w, b'', rfl, fun x hx _ => ?_, fun x hx e => ?_⟩
    · exact (List.pairwise_append.1 hs).2.2 x hx _ (List.mem_cons_self ..)
    · have := hb x.2 (List.mem_map_of_mem hx)
      simp [e] at this
  · rintro ⟨a, w, b, rfl, -, hb⟩
    refine ⟨(p, v), ?_, rfl⟩
    rw [getLast_split]
    refine ⟨a.map (·.2), b.map (·.2), by simp, by simp, ?_⟩
    intro y hy
    obtain ⟨x, hx, rfl⟩ := List.mem_map.1 hy
    cases hq : decide (x.2.1 = p) with
    | false => rfl
    | true =>
      have h1 := hb x hx (by simpa using hq)
      have h2 := (List.pairwise_append.1 hs).2.1
      rw [List.pairwise_cons] at h2
      exact absurd h1 (h2.1 x hx)

/-- `@page { size: a } @page :first { size: b }` on the first page. -/
theorem sample_inForce : InForce (pageAfter 0) [⟨[], [(u "size", u "a")]⟩, ⟨[⟨[], [.first]⟩], [(u "size", u "b")]⟩]
    [(⟨0, 0, 0⟩, u "size", u "a"), (⟨0, 1, 0⟩, u "size", u "b")] := by
  have h1 : SelApplies ⟨[], [.first]⟩ (pageAfter 0) := by simp [SelApplies, Applies, pageAfter]
  have w1 : RuleWeight ⟨[⟨[], [.first]⟩], [(u "size", u "b")]⟩ (pageAfter 0) ⟨0, 1, 0⟩ :=
    .inr ⟨⟨[], [.first]⟩, by simp, h1, by decide, by simp [Weight.lt, selWeight]⟩
  exact .use (l := [(⟨0, 1, 0⟩, u "size", u "b")]) (.inl rfl) (.inl ⟨rfl, rfl⟩)
    (.use (l := []) (.inr ⟨_, by simp, h1⟩) w1 .nil)

example : pageValues [⟨[], [(u "size", u "a")]⟩, ⟨[⟨[], [.first]⟩], [(u "size", u "b")]⟩] (pageAfter 0) (u "size") =
    some (u "b") :=
  (C59_partial _ _ _ sample_inForce (by simp [Plain]) (by simp [Weight.lt]) _ _).2
    ⟨[(⟨0, 0, 0⟩, u "size", u "a")], ⟨0, 1, 0⟩, [], rfl, by simp [Weight.lt], by simp⟩

/-- C59 is false: `@page :first { size: b } @page { size: a }` gives the first page `a`. -/
theorem C59_fails : ∃ rules page l p v, InForce page rules l ∧ (∀ r ∈ rules, Plain r) ∧ Wins l p v ∧
    pageValues rules page p ≠ some v := by
  have h1 : SelApplies ⟨[], [.first]⟩ (pageAfter 0) := by simp [SelApplies, Applies, pageAfter]
  have w1 : RuleWeight ⟨[⟨[], [.first]⟩], [(u "size", u "b")]⟩ (pageAfter 0) ⟨0, 1, 0⟩ :=
    .inr ⟨⟨[], [.first]⟩, by simp, h1, by decide, by simp [Weight.lt, selWeight]⟩
  refine ⟨[⟨[⟨[], [.first]⟩], [(u "size", u "b")]⟩, ⟨[], [(u "size", u "a")]⟩], pageAfter 0, _, u "size", u "b",
    .use (.inr ⟨_, by simp, h1⟩) w1 (.use (.inl rfl) (.inl ⟨rfl, rfl⟩) .nil), by simp [Plain], ?_, by decide⟩
  exact ⟨[], ⟨0, 1, 0⟩, [(⟨0, 0, 0⟩, u "size", u "a")], rfl, by simp, by simp [Weight.lt]⟩

end Verif.Page
