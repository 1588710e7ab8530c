import Verif.Cascade.Expand
/-!
# Properties C12, C13, C51: the cascade

`Spec.lean` says which declaration should win (`Winner`).
-/
namespace Verif.Cascade
open Verif.Selector (Specificity)

/-- The declaration the cascade holds for a property. -/
def held (ds : List Decl) (n : Nat) : Option Decl := ((cascade ds).entries.lookup n).map (·.decl)

/-- **C12.** Whatever the declarations, the one held for a property is the winner. -/
theorem C12_held_iff_winner (ds : List Decl) (n : Nat) (d : Decl) : held ds n = some d ↔ Winner ds n d :=
  lookup_iff_winner ds n d

/-- A property has a value exactly when some valid declaration mentions it. -/
theorem C12_held_none_iff (ds : List Decl) (n : Nat) :
    held ds n = none ↔ ∀ d ∈ ds, d.name = n → d.bogus = true := by
  have h := (cascade_holds ds).none_ n
  unfold held
  rw [Option.map_eq_none_iff, h]
  constructor
  · intro he d hd hn
    cases hb : d.bogus with
    | true => rfl
    | false =>
      obtain ⟨o, ho⟩ := (mem_numbered ds 0 d).2 ⟨hd, hb⟩
      have : (⟨d, o⟩ : Entry) ∈ named (numbered ds 0) n := List.mem_filter.2 ⟨ho, by simpa using hn⟩
      rw [he] at this; cases this
  · intro hall
    rw [List.eq_nil_iff_forall_not_mem]
    intro x hx
    unfold named at hx
    have h1 := (List.mem_filter.1 hx).1
    have h2 := (List.mem_filter.1 hx).2
    have := numbered_mem_ds h1
    rw [hall _ this.1 (by simpa using h2)] at this
    exact absurd this.2 (by simp)

/-- Declarations of other properties have no influence. -/
theorem C12_other_properties (ds ds' : List Decl) (n : Nat)
    (h : ds.filter (·.name == n) = ds'.filter (·.name == n)) : held ds n = held ds' n := by
  have key : ∀ ds d, Winner ds n d → Winner (ds.filter (·.name == n)) n d := by
    rintro ds d ⟨pre, post, rfl, h1, h2, h3, h4⟩
    refine ⟨pre.filter (·.name == n), post.filter (·.name == n), ?_, h1, h2, ?_, ?_⟩
    · rw [List.filter_append, List.filter_cons]; simp [h1]
    · intro x hx; exact h3 x (List.mem_filter.1 hx).1
    · intro x hx; exact h4 x (List.mem_filter.1 hx).1
  have one : ∀ ds, held ds n = held (ds.filter (·.name == n)) n := by
    intro ds
    cases hd : held ds n with
    | some d => exact ((C12_held_iff_winner _ _ _).2 (key ds d ((C12_held_iff_winner _ _ _).1 hd))).symm
    | none =>
      rw [C12_held_none_iff] at hd
      refine ((C12_held_none_iff _ _).2 ?_).symm
      intro d hd'; exact hd d (List.mem_filter.1 hd').1
  rw [one ds, one ds', h]

/-- When no two valid declarations of the property have the same weight, the order in
which declarations are submitted does not matter. -/
theorem C12_submission_order (ds ds' : List Decl) (hp : ds.Perm ds') (n : Nat)
    (hd : ∀ x ∈ ds, ∀ y ∈ ds, x.name = n → y.name = n → x.bogus = false → y.bogus = false →
      weights x = weights y → x = y) : held ds n = held ds' n := by
  -- the winner is the unique maximum
  have max : ∀ ds d, held ds n = some d → d ∈ ds ∧ d.name = n ∧ d.bogus = false ∧
      ∀ x ∈ ds, x.name = n → x.bogus = false → ¬ Lower d x := by
    intro ds d h
    obtain ⟨pre, post, rfl, h1, h2, h3, h4⟩ := (C12_held_iff_winner _ _ _).1 h
    refine ⟨by simp, h1, h2, ?_⟩
    intro x hx hxn hxb
    simp only [List.mem_append, List.mem_cons] at hx
    rcases hx with hx | rfl | hx
    · exact h3 x hx hxn hxb
    · rw [lower_iff]; omega
    · have := h4 x hx hxn hxb
      rw [lower_iff] at this ⊢; omega
  cases h1 : held ds n with
  | none =>
    rw [C12_held_none_iff] at h1
    exact ((C12_held_none_iff _ _).2 fun d hd' => h1 d (hp.mem_iff.2 hd')).symm
  | some d =>
    obtain ⟨a1, a2, a3, a4⟩ := max ds d h1
    cases h2 : held ds' n with
    | none =>
      rw [C12_held_none_iff] at h2
      rw [h2 d (hp.mem_iff.1 a1) a2] at a3; cases a3
    | some d' =>
      obtain ⟨b1, b2, b3, b4⟩ := max ds' d' h2
      congr 1
      apply hd d a1 d' (hp.mem_iff.2 b1) a2 b2 a3 b3
      have x := a4 d' (hp.mem_iff.2 b1) b2 b3
      have y := b4 d (hp.mem_iff.1 a1) a2 a3
      rw [lower_iff] at x y
      rw [weights_iff]; omega

/-- Non-vacuity: three declarations of one property and one of another; the important one
of lower specificity wins wherever it stands. -/
def red : Decl := { name := 1, value := 10, specificity := ⟨1, 0, 0⟩ }
def green : Decl := { name := 1, value := 11, important := true }
def blue : Decl := { name := 1, value := 12, origin := .inline }
def other : Decl := { name := 2, value := 13, important := true, origin := .inline }
example : held [red, green, other, blue] 1 = some green := by decide
example : held [blue, other, green, red] 1 = some green := by decide
example : ∀ x ∈ [red, green, other, blue], ∀ y ∈ [red, green, other, blue], x.name = 1 → y.name = 1 →
    x.bogus = false → y.bogus = false → weights x = weights y → x = y := by decide
/-- Equal weights: the later one wins. -/
example : held [red, { red with value := 20 }] 1 = some { red with value := 20 } := by decide

/-! ## C13 -/

/-- What CSS asks: among important declarations the earlier origin wins. -/
def ImportantReversed : Prop :=
  ∀ x y : Decl, x.name = y.name → x.bogus = false → y.bogus = false → x.important = true → y.important = true →
    place x.origin < place y.origin → held [x, y] x.name = some x

/-- **C13 is false**: an important author declaration replaces an important user-agent
one. -/
theorem C13_fails : ¬ ImportantReversed := by
  intro h
  have := h { name := 1, value := 0, important := true, origin := .userAgent }
    { name := 1, value := 1, important := true, origin := .author } rfl rfl rfl rfl rfl (by decide)
  revert this; decide

/-- What holds: an important declaration beats any normal one of any origin and
specificity, in either order; between declarations of the same importance the later
origin wins.  Missing: the reversal for important ones, which is false. -/
theorem C13_importance_partial (x y : Decl) (hn : x.name = y.name) (hx : x.bogus = false) (hy : y.bogus = false)
    (h : (x.important = false ∧ y.important = true) ∨ (x.important = y.important ∧ place x.origin < place y.origin)) :
    held [x, y] x.name = some y ∧ held [y, x] x.name = some y := by
  have hl : Lower x y := by
    rw [lower_iff]
    rcases h with ⟨h1, h2⟩ | ⟨h1, h2⟩
    · simp [h1, h2]
    · rw [place_eq, place_eq] at h2; simp [h1, h2]
  have hnl : ¬ Lower y x := by rw [lower_iff] at hl ⊢; omega
  constructor
  · refine (C12_held_iff_winner _ _ _).2 ⟨[x], [], rfl, hn.symm, hy, ?_, by simp⟩
    intro z hz _ _; simp at hz; subst hz; exact hnl
  · refine (C12_held_iff_winner _ _ _).2 ⟨[], [x], rfl, hn.symm, hy, by simp, ?_⟩
    intro z hz _ _; simp at hz; subst hz; exact hl

example : held [red, green] 1 = some green ∧ held [green, red] 1 = some green :=
  C13_importance_partial red green rfl rfl rfl (.inl ⟨rfl, rfl⟩)

/-! ## C51: shorthands -/

/-- The declaration in force for a longhand once shorthands are expanded. -/
def inForce (expand : Decl → List (Nat × Nat)) (ds : List Decl) (n : Nat) : Option Decl :=
  ((expandShorthands expand (cascade ds).entries).lookup n).map (·.decl)

/-- **C51**, for shorthands whose set of longhands does not depend on the value: the
declaration in force for a longhand is the winner when every shorthand is replaced, in
place, by the longhands it stands for.

Missing from the full claim: `font` without a weight, a shorthand with `var()` that fails
to expand, and `gap`; see `C51_font_fails` and `C51_gap_fails`. -/
theorem C51_as_if_written_out_partial (expand : Decl → List (Nat × Nat)) (isShort : Nat → Bool)
    (longhands : Nat → List Nat) (ds : List Decl) (hr : Regular expand isShort longhands ds)
    (n : Nat) (hn : isShort n = false) (d : Decl) :
    inForce expand ds n = some d ↔ Winner (writtenOut expand ds) n d :=
  expand_iff_winner hr hn d

/-- Non-vacuity: `overflow` (name 100) stands for names 1 and 2.  `overflow-x: 7 !important`
survives `overflow: 5`, while `overflow-y: 8` before it does not. -/
def overflowExpand (d : Decl) : List (Nat × Nat) := if d.name = 100 then [(1, d.value), (2, d.value + 1)] else []
def overflowDecls : List Decl :=
  [{ name := 1, value := 7, important := true }, { name := 2, value := 8 },
   { name := 100, value := 4, shorthand := true }, { name := 100, value := 5, shorthand := true }, { name := 3, value := 9 }]
theorem overflow_regular : Regular overflowExpand (· == 100) (fun s => if s = 100 then [1, 2] else []) overflowDecls :=
  ⟨by decide, by intro s hs n hn; simp at hs; subst hs; simp at hn; rcases hn with rfl | rfl <;> rfl,
   by intro s; show (if s = 100 then [1, 2] else []).Nodup; split <;> decide, by decide⟩
example : (inForce overflowExpand overflowDecls 1).map (·.value) = some 7 ∧
    (inForce overflowExpand overflowDecls 2).map (·.value) = some 6 ∧
    (inForce overflowExpand overflowDecls 3).map (·.value) = some 9 := by decide

/-- The full claim with the longhands CSS gives each shorthand: a shorthand that comes
last at equal weight replaces an earlier declaration of any of its longhands. -/
def ResetsLonghands (expand : Decl → List (Nat × Nat)) (cssLonghands : Nat → List Nat) : Prop :=
  ∀ x s : Decl, x.shorthand = false → s.shorthand = true → x.bogus = false → s.bogus = false →
    weights x = weights s → x.name ∈ cssLonghands s.name → inForce expand [x, s] x.name ≠ some x

/-- `FontProperty::expandShorthand` (`props/fonts.cpp:350-359`): style 1, width 2, size 3,
family 4, and weight 5 only when written.  The value of `font` (name 100) here is odd when
a weight is written. -/
def fontExpand (d : Decl) : List (Nat × Nat) :=
  [(1, d.value), (2, d.value), (3, d.value), (4, d.value)] ++ if d.value % 2 = 1 then [(5, d.value)] else []

/-- `font: 12px serif` does not reset an earlier `font-weight: bold`. -/
theorem C51_font_fails : ¬ ResetsLonghands fontExpand (fun _ => [1, 2, 3, 4, 5]) := by
  intro h
  exact h { name := 5, value := 700 } { name := 100, value := 12, shorthand := true } rfl rfl rfl rfl rfl (by decide)
    (by decide)

/-- `gap` has a class (`props/align.cpp:301-352`) but `props/registry.cpp` does not register it,
so its declarations are bogus: whatever it would expand to, an earlier `row-gap` (name 1) stays
in force.  (`expandShorthand` there makes both longhands with the registration of `margin-top`.) -/
theorem C51_gap_fails (expand : Decl → List (Nat × Nat)) (v w : Nat) :
    inForce expand [{ name := 1, value := v }, { name := 100, value := w, shorthand := true, bogus := true }] 1 =
      some { name := 1, value := v } := by
  rfl

end Verif.Cascade
