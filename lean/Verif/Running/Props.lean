import Verif.Running.Lemmas
/-!
# Running elements: theorems

C35 the element in force is shown.
-/
namespace Verif.Running
open Spec

private theorem shown_eq (search : List Info → Nat → Option Nat) (pages : List (List Met)) (name : String) (target : Target)
    (n : Nat) (B O : List Info) (h : entries name 1 (pages.take n) = B ++ O) :
    shown search pages name target n =
      (if B ++ O = [] then none else
        match target with
        | .undefined => (B ++ O)[0]?
        | .start => (startLoop n none (B ++ O)).or (B ++ O)[0]?
        | .first | .firstExcept => (searchPage search (B ++ O) n)[0]?
        | .last => (searchPage search (B ++ O) n).getLast?).map Info.elem := by
  have e : lookup name (tableFrom 1 (pages.take n) []) = listed (B ++ O) := by
    rw [lookup_tableFrom name _ 1 [] [] rfl, List.nil_append, h]
  unfold shown match_
  rw [e]
  by_cases hn : B ++ O = []
  · simp only [listed, if_pos hn]
  · simp only [listed, if_neg hn]
    cases target <;> rfl

/-- A page the element is on, or one before which it was on at most once. -/
def Simple (pages : List (List Met)) (name : String) (n : Nat) : Prop :=
  onPage pages name n ≠ [] ∨ ((pages.take (n - 1)).flatMap (named name)).length ≤ 1

/-- `element(name, first)` shows the first element on the page, or the one in force; if the page has one or there
was at most one before. -/
theorem C35_first_partial (search : List Info → Nat → Option Nat) (hs : SearchOk search) (pages : List (List Met)) (name : String)
    (n : Nat) (h1 : 1 ≤ n) (h2 : n ≤ pages.length) (h : Simple pages name n) :
    shown search pages name .first n = first pages name n := by
  obtain ⟨B, O, hd, hB, hO, eB, eO⟩ := entries_split name pages n h1 h2
  have hp : B.Pairwise (fun a b => a.page ≤ b.page) := by
    have := entries_sorted name (pages.take n) 1
    rw [hd] at this
    exact (List.pairwise_append.1 this).1
  rw [shown_eq search pages name .first n B O hd]
  unfold first entry
  rw [← eB, ← eO]
  unfold Simple at h
  rw [← eB, ← eO] at h
  simp only [searchPage_eq search hs B O n hO hB hp]
  cases O with
  | nil =>
    simp only [List.map_nil, ne_eq, not_true, false_or, List.length_map] at h
    match B, h with
    | [], _ => rfl
    | [b], _ => rfl
  | cons o O => simp

/-- `element(name, last)` shows the last element on the page, or the one in force. -/
theorem C35_last_partial (search : List Info → Nat → Option Nat) (hs : SearchOk search) (pages : List (List Met)) (name : String)
    (n : Nat) (h1 : 1 ≤ n) (h2 : n ≤ pages.length) (h : Simple pages name n) :
    shown search pages name .last n = last pages name n := by
  obtain ⟨B, O, hd, hB, hO, eB, eO⟩ := entries_split name pages n h1 h2
  have hp : B.Pairwise (fun a b => a.page ≤ b.page) := by
    have := entries_sorted name (pages.take n) 1
    rw [hd] at this
    exact (List.pairwise_append.1 this).1
  rw [shown_eq search pages name .last n B O hd]
  unfold last entry
  rw [← eB, ← eO]
  unfold Simple at h
  rw [← eB, ← eO] at h
  simp only [searchPage_eq search hs B O n hO hB hp]
  cases O with
  | nil =>
    simp only [List.map_nil, ne_eq, not_true, false_or, List.length_map] at h
    match B, h with
    | [], _ => rfl
    | [b], _ => rfl
  | cons o O =>
    obtain ⟨v, hv⟩ : ∃ v, (o :: O).getLast? = some v := ⟨_, List.getLast?_cons⟩
    simp only [List.append_eq_nil_iff, reduceCtorEq, and_false, if_false, List.getLast?_map, hv]
    rfl

/-- `element(name, start)` shows the element in force when the page begins, or the first one on it. -/
theorem C35_start_partial (search : List Info → Nat → Option Nat) (pages : List (List Met)) (name : String)
    (n : Nat) (h1 : 1 ≤ n) (h2 : n ≤ pages.length) (h : Simple pages name n) :
    shown search pages name .start n = start pages name n := by
  obtain ⟨B, O, hd, hB, hO, eB, eO⟩ := entries_split name pages n h1 h2
  rw [shown_eq search pages name .start n B O hd]
  unfold start entry
  rw [← eB, ← eO]
  unfold Simple at h
  rw [← eB, ← eO] at h
  simp only [start_eq n B O hO hB]
  cases O with
  | nil =>
    simp only [List.map_nil, ne_eq, not_true, false_or, List.length_map] at h
    match B, h with
    | [], _ => rfl
    | [b], _ => rfl
  | cons o O =>
    simp only [List.append_eq_nil_iff, reduceCtorEq, and_false, if_false, List.getLast?_map, List.head?_map]
    cases B.getLast? <;> rfl

/-- `element(name)` shows the first element on the page it is on for the first time. -/
theorem C35_default_partial (search : List Info → Nat → Option Nat) (pages : List (List Met)) (name : String)
    (n : Nat) (h1 : 1 ≤ n) (h2 : n ≤ pages.length) (h : entry pages name n = none) :
    shown search pages name .undefined n = first pages name n := by
  obtain ⟨B, O, hd, hB, hO, eB, eO⟩ := entries_split name pages n h1 h2
  rw [shown_eq search pages name .undefined n B O hd]
  unfold first
  rw [h, ← eO]
  unfold entry at h
  rw [← eB] at h
  have : B = [] := by simpa using h
  subst this
  cases O <;> rfl

/-- A search as it is expected. -/
def someSearch (l : List Info) (page : Nat) : Option Nat := l.findIdx? (·.page = page)

theorem someSearch_ok : SearchOk someSearch := by
  intro l page _
  unfold someSearch
  cases h : l.findIdx? (fun x => decide (x.page = page)) with
  | none =>
    refine Or.inl ⟨rfl, fun x hx => ?_⟩
    rw [List.findIdx?_eq_none_iff] at h
    simpa using h x hx
  | some i =>
    rw [List.findIdx?_eq_some_iff_getElem] at h
    obtain ⟨hi, hp, _⟩ := h
    exact Or.inr ⟨i, l[i], rfl, List.getElem?_eq_getElem hi, by simpa using hp⟩

/-- Chapters beginning on the pages 1, 2 (twice) and 4. -/
private def book : List (List Met) := [[("h", 1)], [("h", 2), ("x", 9), ("h", 3)], [("x", 8)], [("h", 4)]]

example : Simple book "h" 2 ∧ Simple book "h" 4 ∧ Simple book "x" 3 ∧ ¬Simple book "h" 3 := by
  unfold Simple; decide +kernel
example : shown someSearch book "h" .first 2 = some 2 ∧ shown someSearch book "h" .last 2 = some 3 ∧
    shown someSearch book "h" .start 2 = some 1 ∧ shown someSearch book "h" .start 4 = some 3 := by decide +kernel

/-- On a page without a chapter the first one of the book is shown instead of the one in force. -/
theorem C35_gap_fails :
    shown someSearch book "h" .first 3 = some 1 ∧ first book "h" 3 = some 3 ∧
    shown someSearch book "h" .last 3 = some 1 ∧ last book "h" 3 = some 3 ∧
    shown someSearch book "h" .start 3 = some 1 ∧ start book "h" 3 = some 3 := by decide +kernel

/-- Without a second argument the first one of the book is shown on every page. -/
theorem C35_default_fails : shown someSearch book "h" .undefined 4 = some 1 ∧ first book "h" 4 = some 4 := by decide +kernel

/-- `first-except` shows the element on the page it begins on. -/
theorem C35_first_except_fails : shown someSearch book "h" .firstExcept 4 = some 4 ∧ firstExcept book "h" 4 = none := by decide +kernel

end Verif.Running
