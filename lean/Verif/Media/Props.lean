import Verif.Media.Fuel

/-!
# Media queries: properties

C24 (media queries hold as the formulas they are) and C60 (reading them ends and stays
within them).
-/
namespace Verif.Media
open Verif.Css Spec

/-! ## C24 -/

/-- C24: a media query list of the strict grammar is read, and on every medium it holds exactly
    when what it says is true of the medium: features compare with their values, `and`, `or`
    and commas combine, the empty list always holds, whatever the nesting.
    Missing: the forms shown below to be read otherwise. -/
theorem C24_partial (num : Kind → Sst → Option Int) (c : List Sst) (P : Media → Prop) (h : MediaText num true c P)
    (fuel : Nat) (hf : 3 * sizeOf c + 2 ≤ fuel) (m : Media) (hm : Real m) :
    ∃ b, applies num fuel c m = .ok b ∧ (b = true ↔ P m) := by
  rcases parseQuery_text fuel h with e | ⟨q, e, hq⟩
  · exact absurd e (parseQuery_ends num fuel c hf)
  · exact ⟨q.match m, by rw [applies, e], hq m hm⟩

/-- Numbers for the examples: a dimension or number is as many units as its text has characters. -/
def exampleNum (_ : Kind) (s : Sst) : Option Int :=
  match s with
  | .tok ⟨.dimension, d⟩ => some d.length
  | .tok ⟨.number, d⟩ => some d.length
  | _ => none

def word (t : Text) : Sst := .tok ⟨.ident, t⟩
def sp : Sst := .tok ⟨.ws, u " "⟩
def colon : Sst := .tok ⟨.colon, u ":"⟩
def comma : Sst := .tok ⟨.comma, u ","⟩
def dim (t : Text) : Sst := .tok ⟨.dimension, t⟩

theorem word_word {t : Text} (h : t.map lower = t) : Word (word t) t := ⟨t, rfl, h⟩

/-- `(min-width: 5px)` -/
def minWidth : Sst := .block [word (u "min-width"), colon, sp, dim (u "5px")]

theorem minWidth_text (strict : Bool) : ParenText exampleNum strict [minWidth] (fun m => 3 ≤ m .width) :=
  .feature (.min (w₀ := []) (w₁ := []) (w₂ := [sp]) (w₃ := []) (f := .width) (x := dim (u "5px")) (by simp [Blank])
    (by simp [Blank]) (by simp [Blank, sp, Sst.is]) (by simp [Blank]) ⟨_, rfl, by decide⟩ (by decide)
    (.num (k := .length) rfl (by simp) rfl) (fun _ => rfl) (fun _ => ⟨rfl, rfl⟩))

/-- `(hover)` -/
def hover : Sst := .block [word (u "hover")]

theorem hover_text (strict : Bool) : ParenText exampleNum strict [hover] (bare .hover) :=
  .feature (.bare (w₀ := []) (w₁ := []) (f := .hover) (by simp [Blank]) (by simp [Blank]) ⟨_, rfl, by decide⟩ (by decide)
    (fun _ => ⟨rfl, rfl, by decide, by decide⟩))

/-- `PRINT and (min-width: 5px), ((hover) or (min-width: 5px))` meets the hypotheses. -/
example : MediaText exampleNum true
    [word (u "PRINT"), sp, word (u "and"), sp, minWidth, comma, sp, .block [hover, sp, word (u "or"), sp, minWidth]]
    (fun m => ∃ P ∈ [(fun m : Media => m .type = typePrint ∧ ∀ Q ∈ [fun m : Media => 3 ≤ m .width], Q m),
      (fun m => bare .hover m ∨ ∃ Q ∈ [fun m : Media => 3 ≤ m .width], Q m)], P m) := by
  have hsp : Blank [sp] := by simp [Blank, sp, Sst.is]
  have hnil : Blank [] := by simp [Blank]
  refine .list (.cons (w₀ := []) (w₁ := []) (q := [word (u "PRINT"), sp, word (u "and"), sp, minWidth]) hnil hnil ?_
    (.one (w₀ := [sp]) (w₁ := []) (q := [.block [hover, sp, word (u "or"), sp, minWidth]]) hsp hnil ?_))
  · refine .type (s := word (u "PRINT")) (t := u "print") ⟨_, rfl, by decide⟩ rfl (fun _ => by decide) ?_
    exact .cons (w₀ := [sp]) (w₁ := [sp]) (p := [minWidth]) (rest := []) hsp (word_word (by decide)) hsp (minWidth_text true)
      (by simp) .nil
  · refine .condition (.single (.condition (w₀ := []) (c := [hover, sp, word (u "or"), sp, minWidth]) (w₁ := []) hnil hnil
      (fun _ => rfl) ?_))
    refine .ors (p := [hover]) (hover_text true) ?_
    exact .cons (w₀ := [sp]) (w₁ := [sp]) (p := [minWidth]) (rest := []) hsp (word_word (by decide)) hsp (minWidth_text true)
      (by simp) .nil

/-- A list of one media type without conditions. -/
theorem type_text {t : Text} {P : Media → Prop} (ht : typeMeans t = some P) (hl : t.map lower = t) :
    MediaText exampleNum false [word t] (fun m => ∃ Q ∈ [fun m => P m ∧ ∀ Q ∈ ([] : List (Media → Prop)), Q m], Q m) :=
  .list (.one (w₀ := []) (q := [word t]) (w₁ := []) (by simp [Blank]) (by simp [Blank])
    (.type (word_word hl) ht (by simp) .nil))

/-- C24 is false: `all` is for every medium, and the code applies it to none. -/
theorem C24_all_fails :
    MediaText exampleNum false [word (u "all")] (fun m => ∃ Q ∈ [fun _ => True ∧ ∀ Q ∈ ([] : List (Media → Prop)), Q m], Q m) ∧
    ∀ m, Real m → applies exampleNum 100 [word (u "all")] m = .ok false := by
  constructor
  · have := type_text (t := u "all") (P := fun _ => True) rfl (by decide)
    simpa using this
  · intro m hm
    have : parseQuery exampleNum 100 [word (u "all")] = .ok (.feature (typeFeature typeAll)) := by decide +kernel
    rw [applies, this]
    simp only [Query.match, Feature.match, typeFeature, discreteMatch]
    rcases hm with h | h <;> rw [h] <;> decide

/-- C24 is false: `not print` is applied when printing; after `not` and white space
    nothing is read. -/
theorem C24_not_fails :
    MediaText exampleNum false [word (u "not"), sp, word (u "print")]
      (fun m => ∃ Q ∈ [fun m => ¬ (m .type = typePrint ∧ ∀ Q ∈ ([] : List (Media → Prop)), Q m)], Q m) ∧
    ∀ m, Real m → applies exampleNum 100 [word (u "not"), sp, word (u "print")] m = .ok true := by
  constructor
  · exact .list (.one (w₀ := []) (q := [word (u "not"), sp, word (u "print")]) (w₁ := []) (by simp [Blank]) (by simp [Blank])
      (.notType (w := [sp]) (s := word (u "print")) (rest := []) rfl (word_word (by decide)) (by simp [Blank, sp, Sst.is]) (by simp)
        (word_word (by decide)) rfl .nil))
  · intro m hm
    have : parseQuery exampleNum 100 [word (u "not"), sp, word (u "print")] = .ok (.not (.feature (typeFeature typeOther))) := by
      decide +kernel
    rw [applies, this]
    simp only [Query.match, Feature.match, typeFeature, discreteMatch]
    rcases hm with h | h <;> rw [h] <;> decide

/-- C24 is false: `only print` is never applied. -/
theorem C24_only_fails :
    MediaText exampleNum false [word (u "only"), sp, word (u "print")]
      (fun m => ∃ Q ∈ [fun m => m .type = typePrint ∧ ∀ Q ∈ ([] : List (Media → Prop)), Q m], Q m) ∧
    ∀ m, Real m → applies exampleNum 100 [word (u "only"), sp, word (u "print")] m = .ok false := by
  constructor
  · exact .list (.one (w₀ := []) (q := [word (u "only"), sp, word (u "print")]) (w₁ := []) (by simp [Blank]) (by simp [Blank])
      (.onlyType (w := [sp]) (s := word (u "print")) (rest := []) rfl (word_word (by decide)) (by simp [Blank, sp, Sst.is]) (by simp)
        (word_word (by decide)) rfl .nil))
  · intro m hm
    have : parseQuery exampleNum 100 [word (u "only"), sp, word (u "print")] = .ok (.feature (typeFeature typeOther)) := by
      decide +kernel
    rw [applies, this]
    simp only [Query.match, Feature.match, typeFeature, discreteMatch]
    rcases hm with h | h <;> rw [h] <;> decide

/-- A medium on which the witnesses are tried: printing, a width of 3, everything else zero. -/
def paper : Media := fun f => if f = .type then typePrint else if f = .width then 3 else 0

theorem paper_real : Real paper := .inl rfl

/-- `print and (min-width: 5px) and (hover)` -/
def threeParts : List Sst :=
  [word (u "print"), sp, word (u "and"), sp, minWidth, sp, word (u "and"), sp, hover]

/-- C24 is false: only the first `and` of a chain is read when white space stands around the
    others; the rest of the query is dropped. -/
theorem C24_chain_fails :
    ∃ P, MediaText exampleNum false threeParts P ∧ ¬ P paper ∧ applies exampleNum 100 threeParts paper = .ok true := by
  have hsp : Blank [sp] := by simp [Blank, sp, Sst.is]
  refine ⟨_, .list (.one (w₀ := []) (q := threeParts) (w₁ := []) (by simp [Blank]) (by simp [Blank])
    (.type (t := u "print") (word_word (by decide)) rfl (by simp)
      (.cons (w₀ := [sp]) (w₁ := [sp]) (p := [minWidth]) hsp (word_word (by decide)) hsp (minWidth_text false) (by simp)
        (.cons (w₀ := [sp]) (w₁ := [sp]) (p := [hover]) (rest := []) hsp (word_word (by decide)) hsp (hover_text false) (by simp) .nil)))), ?_, ?_⟩
  · rintro ⟨Q, hQ, h⟩
    simp only [List.mem_singleton] at hQ
    subst hQ
    have := h.2 (bare .hover) (by simp)
    simp [bare, noFalseValue, paper] at this
  · decide +kernel

/-- C24 is false: white space after an opening parenthesis makes the feature false. -/
theorem C24_space_fails :
    ∃ P, MediaText exampleNum false [.block [sp, word (u "width")]] P ∧ P paper ∧
      applies exampleNum 100 [.block [sp, word (u "width")]] paper = .ok false := by
  refine ⟨_, .list (.one (w₀ := []) (q := [.block [sp, word (u "width")]]) (w₁ := []) (by simp [Blank]) (by simp [Blank])
    (.condition (.single (.feature (.bare (w₀ := [sp]) (w₁ := []) (f := .width) (by simp [Blank, sp, Sst.is]) (by simp [Blank])
      (word_word (by decide)) (by decide) (by simp)))))), ?_, ?_⟩
  · exact ⟨_, List.mem_singleton.2 rfl, .inr (by decide)⟩
  · decide +kernel

/-- C24 is false: names of features are matched with their case. -/
theorem C24_case_fails :
    ∃ P, MediaText exampleNum false [.block [word (u "WIDTH")]] P ∧ P paper ∧
      applies exampleNum 100 [.block [word (u "WIDTH")]] paper = .ok false := by
  refine ⟨_, .list (.one (w₀ := []) (q := [.block [word (u "WIDTH")]]) (w₁ := []) (by simp [Blank]) (by simp [Blank])
    (.condition (.single (.feature (.bare (w₀ := []) (w₁ := []) (f := .width) (by simp [Blank]) (by simp [Blank])
      ⟨_, rfl, by decide⟩ (by decide) (by simp)))))), ?_, ?_⟩
  · exact ⟨_, List.mem_singleton.2 rfl, .inr (by decide)⟩
  · decide +kernel

/-- C24 is false: `(orientation)` holds of every medium, but not for the code where the
    orientation is portrait. The same for `scan`, `color-gamut` and `prefers-color-scheme`. -/
theorem C24_bare_fails (f : Field) (hf : f ∈ noFalseValue) :
    ∃ P, MediaText exampleNum false [.block [word (nameOf f)]] P ∧ (∀ m, P m) ∧
      applies exampleNum 100 [.block [word (nameOf f)]] paper = .ok false := by
  refine ⟨_, .list (.one (w₀ := []) (q := [.block [word (nameOf f)]]) (w₁ := []) (by simp [Blank]) (by simp [Blank])
    (.condition (.single (.feature (.bare (w₀ := []) (w₁ := []) (f := f) (by simp [Blank]) (by simp [Blank])
      (word_word (lower_names f)) (by rintro rfl; simp [noFalseValue] at hf) (by simp)))))), ?_, ?_⟩
  · exact fun m => ⟨_, List.mem_singleton.2 rfl, .inl hf⟩
  · revert hf; cases f <;> decide +kernel

example : Field.orientation ∈ noFalseValue := by decide

/-- C24 is false: `(any-hover: none)` and `(any-pointer: none)` are never applied. -/
theorem C24_any_fails (f : Field) (hf : f ∈ [Field.anyHover, .anyPointer]) :
    ∃ P, MediaText exampleNum false [.block [word (nameOf f), colon, word (u "none")]] P ∧ P paper ∧
      applies exampleNum 100 [.block [word (nameOf f), colon, word (u "none")]] paper = .ok false := by
  refine ⟨_, .list (.one (w₀ := []) (q := [.block [word (nameOf f), colon, word (u "none")]]) (w₁ := []) (by simp [Blank]) (by simp [Blank])
    (.condition (.single (.feature (.equal (w₀ := []) (w₁ := []) (w₂ := []) (w₃ := []) (f := f) (v := 0) (x := word (u "none"))
      (by simp [Blank]) (by simp [Blank]) (by simp [Blank]) (by simp [Blank])
      (word_word (lower_names f)) (by rintro rfl; simp at hf)
      (.keyword (k := u "none") ?_ ?_ (word_word (by decide))) (by simp) (by simp)))))), ?_, ?_⟩
  · revert hf; cases f <;> decide
  · revert hf; cases f <;> decide
  · refine ⟨_, List.mem_singleton.2 rfl, ?_⟩
    revert hf; cases f <;> decide
  · revert hf; cases f <;> decide +kernel

/-- C24 is false: `(prefers-contrast: no-preference)` is never applied. -/
theorem C24_contrast_fails :
    ∃ P, MediaText exampleNum false [.block [word (u "prefers-contrast"), colon, word (u "no-preference")]] P ∧ P paper ∧
      applies exampleNum 100 [.block [word (u "prefers-contrast"), colon, word (u "no-preference")]] paper = .ok false := by
  refine ⟨_, .list (.one (w₀ := []) (q := [.block [word (u "prefers-contrast"), colon, word (u "no-preference")]]) (w₁ := [])
    (by simp [Blank]) (by simp [Blank])
    (.condition (.single (.feature (.equal (w₀ := []) (w₁ := []) (w₂ := []) (w₃ := []) (f := .contrast) (v := 0)
      (x := word (u "no-preference")) (by simp [Blank]) (by simp [Blank]) (by simp [Blank]) (by simp [Blank])
      (word_word (by decide)) (by decide)
      (.keyword (k := u "no-preference") rfl (by decide) (word_word (by decide))) (by simp) (by simp)))))), ?_, ?_⟩
  · exact ⟨_, List.mem_singleton.2 rfl, by decide⟩
  · decide +kernel

/-- `(width >= 5000px)` -/
def atLeast : List Sst :=
  [.block [word (u "width"), sp, .tok ⟨.delim, u ">"⟩, .tok ⟨.delim, u "="⟩, sp, dim (u "5000px")]]

/-- C24 is false: a comparison is read as the bare name of the feature. -/
theorem C24_compare_fails :
    ∃ P, MediaText exampleNum false atLeast P ∧ ¬ P paper ∧ applies exampleNum 100 atLeast paper = .ok true := by
  have hsp : Blank [sp] := by simp [Blank, sp, Sst.is]
  refine ⟨_, .list (.one (w₀ := []) (q := atLeast) (w₁ := []) (by simp [Blank]) (by simp [Blank])
    (.condition (.single (.feature (.atLeast (w₀ := []) (w₁ := [sp]) (w₂ := [sp]) (w₃ := []) (f := .width) (v := 6)
      (x := dim (u "5000px")) rfl (by simp [Blank]) hsp hsp (by simp [Blank])
      (word_word (by decide)) (by decide) rfl rfl (.num (k := .length) rfl (by simp) rfl)))))), ?_, ?_⟩
  · rintro ⟨Q, hQ, h⟩
    simp only [List.mem_singleton] at hQ
    subst hQ
    revert h; decide
  · decide +kernel

/-! ## C60 -/

/-- C60: reading any text ends, with a query or past the end of the text. -/
theorem C60_ends (num : Kind → Sst → Option Int) (c : List Sst) :
    ∃ k, ∀ fuel, k ≤ fuel → parseQuery num fuel c ≠ .out :=
  ⟨3 * sizeOf c + 2, fun fuel h => parseQuery_ends num fuel c h⟩

/-- C60: reading a text of the strict grammar ends with a query, within the text. -/
theorem C60_partial (num : Kind → Sst → Option Int) (c : List Sst) (P : Media → Prop) (h : MediaText num true c P) :
    ∃ k, ∀ fuel, k ≤ fuel → ∃ q, parseQuery num fuel c = .ok q := by
  refine ⟨3 * sizeOf c + 2, fun fuel hf => ?_⟩
  rcases parseQuery_text fuel h with e | ⟨q, e, -⟩
  · exact absurd e (parseQuery_ends num fuel c hf)
  · exact ⟨q, e⟩

example : MediaText exampleNum true [minWidth] (fun m => ∃ P ∈ [fun m : Media => 3 ≤ m .width], P m) :=
  .list (.one (w₀ := []) (q := [minWidth]) (w₁ := []) (by simp [Blank]) (by simp [Blank]) (.condition (.single (minWidth_text true))))

/-- C60 is false: some short texts are read past their end: `not`, `()`, `print and`, `print,`. -/
theorem C60_fails :
    parseQuery exampleNum 100 [word (u "not")] = .crash ∧
    parseQuery exampleNum 100 [.block []] = .crash ∧
    parseQuery exampleNum 100 [word (u "print"), sp, word (u "and")] = .crash ∧
    parseQuery exampleNum 100 [word (u "print"), comma] = .crash := by
  decide +kernel

end Verif.Media
