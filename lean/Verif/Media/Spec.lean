import Verif.Media.Model

/-!
# Media queries: what is meant

The grammar of Media Queries 4, section 3, together with what each form says of a medium.
With `strict` the forms are cut down to those the code reads as meant.
-/
namespace Verif.Media.Spec
open Verif.Css

/-- An identifier that is `name` up to case. -/
def Word (s : Sst) (name : Text) : Prop := ∃ d, s = .tok ⟨.ident, d⟩ ∧ d.map lower = name

/-- The name of a feature. -/
def nameOf : Field → Text
  | .type => u "type"
  | .width => u "width"
  | .height => u "height"
  | .aspectRatio => u "aspect-ratio"
  | .orientation => u "orientation"
  | .resolution => u "resolution"
  | .scan => u "scan"
  | .grid => u "grid"
  | .update => u "update"
  | .overflowBlock => u "overflow-block"
  | .overflowInline => u "overflow-inline"
  | .color => u "color"
  | .colorIndex => u "color-index"
  | .monochrome => u "monochrome"
  | .colorGamut => u "color-gamut"
  | .pointer => u "pointer"
  | .hover => u "hover"
  | .anyPointer => u "any-pointer"
  | .anyHover => u "any-hover"
  | .reducedMotion => u "prefers-reduced-motion"
  | .reducedTransparency => u "prefers-reduced-transparency"
  | .contrast => u "prefers-contrast"
  | .forcedColors => u "forced-colors"
  | .colorScheme => u "prefers-color-scheme"
  | .reducedData => u "prefers-reduced-data"
  | .deviceWidth => u "device-width"
  | .deviceHeight => u "device-height"
  | .deviceAspectRatio => u "device-aspect-ratio"

/-- The features whose value is a number, that can be compared, and of what kind it is. -/
def rangeKind : Field → Option Kind
  | .width => some .length
  | .height => some .length
  | .aspectRatio => some .number
  | .resolution => some .resolution
  | .color => some .integer
  | .colorIndex => some .integer
  | .monochrome => some .integer
  | .deviceWidth => some .length
  | .deviceHeight => some .length
  | .deviceAspectRatio => some .number
  | _ => none

/-- The keywords of the other features (`grid` takes 0 or 1). -/
def keywordsOf : Field → List (Text × Int)
  | .orientation => [(u "portrait", 0), (u "landscape", 1)]
  | .scan => [(u "interlace", 0), (u "progressive", 1)]
  | .update => [(u "none", 0), (u "slow", 1), (u "fast", 2)]
  | .overflowBlock => [(u "none", 0), (u "scroll", 1), (u "paged", 2)]
  | .overflowInline => [(u "none", 0), (u "scroll", 1)]
  | .colorGamut => [(u "srgb", 0), (u "p3", 1), (u "rec2020", 2)]
  | .pointer => [(u "none", 0), (u "coarse", 1), (u "fine", 2)]
  | .hover => [(u "none", 0), (u "hover", 1)]
  | .anyPointer => [(u "none", 0), (u "coarse", 1), (u "fine", 2)]
  | .anyHover => [(u "none", 0), (u "hover", 1)]
  | .reducedMotion => [(u "no-preference", 0), (u "reduce", 1)]
  | .reducedTransparency => [(u "no-preference", 0), (u "reduce", 1)]
  | .contrast => [(u "no-preference", 0), (u "more", 1), (u "less", 2)]
  | .forcedColors => [(u "none", 0), (u "active", 1)]
  | .colorScheme => [(u "light", 0), (u "dark", 1)]
  | .reducedData => [(u "no-preference", 0), (u "reduce", 1)]
  | _ => []

/-- The features that have no value `none`, `no-preference` or zero: their bare name always holds. -/
def noFalseValue : List Field := [.orientation, .scan, .colorGamut, .colorScheme]

/-- A feature's bare name holds unless its value is zero, `none` or `no-preference`. -/
def bare (f : Field) (m : Media) : Prop := f ∈ noFalseValue ∨ m f ≠ 0

/-- The item `s` denotes the value `v` of the feature; a resolution is a number with a unit. -/
inductive Value (num : Kind → Sst → Option Int) : Field → Sst → Int → Prop
  | num {f k s v} : rangeKind f = some k → (k = .resolution → s.is .dimension = true) → num k s = some v →
      Value num f s v
  | keyword {f s v k} : rangeKind f = none → (k, v) ∈ keywordsOf f → Word s k → Value num f s v
  | grid {s v} : num .integer s = some v → v = 0 ∨ v = 1 → Value num .grid s v

/-- The names that the code knows by another name, or not as features of their own. -/
def misnamed : List Field := [.type, .anyPointer, .anyHover]

/-- The inside of the parentheses of a feature, and what it says. -/
inductive FeatureText (num : Kind → Sst → Option Int) (strict : Bool) : List Sst → (Media → Prop) → Prop
  | bare {w₀ s w₁ f} : Blank w₀ → Blank w₁ → Word s (nameOf f) → f ≠ .type →
      (strict = true → w₀ = [] ∧ s = .tok ⟨.ident, nameOf f⟩ ∧ f ∉ misnamed ∧ f ∉ noFalseValue) →
      FeatureText num strict (w₀ ++ s :: w₁) (bare f)
  | equal {w₀ s w₁ d w₂ x w₃ f v} : Blank w₀ → Blank w₁ → Blank w₂ → Blank w₃ → Word s (nameOf f) → f ≠ .type →
      Value num f x v → (strict = true → x.is .ws = false) →
      (strict = true → w₀ = [] ∧ s = .tok ⟨.ident, nameOf f⟩ ∧ f ∉ misnamed ∧ ¬ (f = .contrast ∧ v = 0)) →
      FeatureText num strict (w₀ ++ s :: (w₁ ++ .tok ⟨.colon, d⟩ :: (w₂ ++ x :: w₃))) (fun m => m f = v)
  | min {w₀ s w₁ d w₂ x w₃ f v} : Blank w₀ → Blank w₁ → Blank w₂ → Blank w₃ → Word s (u "min-" ++ nameOf f) →
      rangeKind f ≠ none → Value num f x v → (strict = true → x.is .ws = false) →
      (strict = true → w₀ = [] ∧ s = .tok ⟨.ident, u "min-" ++ nameOf f⟩) →
      FeatureText num strict (w₀ ++ s :: (w₁ ++ .tok ⟨.colon, d⟩ :: (w₂ ++ x :: w₃))) (fun m => v ≤ m f)
  | max {w₀ s w₁ d w₂ x w₃ f v} : Blank w₀ → Blank w₁ → Blank w₂ → Blank w₃ → Word s (u "max-" ++ nameOf f) →
      rangeKind f ≠ none → Value num f x v → (strict = true → x.is .ws = false) →
      (strict = true → w₀ = [] ∧ s = .tok ⟨.ident, u "max-" ++ nameOf f⟩) →
      FeatureText num strict (w₀ ++ s :: (w₁ ++ .tok ⟨.colon, d⟩ :: (w₂ ++ x :: w₃))) (fun m => m f ≤ v)
  /-- `(width >= 600px)` -/
  | atLeast {w₀ s w₁ d₁ d₂ w₂ x w₃ f v} : strict = false → Blank w₀ → Blank w₁ → Blank w₂ → Blank w₃ →
      Word s (nameOf f) → rangeKind f ≠ none → d₁ = u ">" → d₂ = u "=" → Value num f x v →
      FeatureText num strict (w₀ ++ s :: (w₁ ++ .tok ⟨.delim, d₁⟩ :: .tok ⟨.delim, d₂⟩ :: (w₂ ++ x :: w₃)))
        (fun m => v ≤ m f)

mutual
/-- Something in parentheses. -/
inductive ParenText (num : Kind → Sst → Option Int) (strict : Bool) : List Sst → (Media → Prop) → Prop
  | feature {c P} : FeatureText num strict c P → ParenText num strict [.block c] P
  | condition {w₀ c w₁ P} : Blank w₀ → Blank w₁ → (strict = true → w₀ = []) → ConditionText num strict c P →
      ParenText num strict [.block (w₀ ++ c ++ w₁)] P

/-- `and (…) and (…)`; `first` tells whether it is the first of a chain. -/
inductive ChainText (num : Kind → Sst → Option Int) (strict : Bool) : Text → Bool → List Sst → List (Media → Prop) → Prop
  | nil {kw first} : ChainText num strict kw first [] []
  | cons {kw first w₀ s w₁ p rest P Ps} : Blank w₀ → Word s kw → Blank w₁ → ParenText num strict p P →
      (strict = true → first = false → w₀ = []) → ChainText num strict kw false rest Ps →
      ChainText num strict kw first (w₀ ++ s :: (w₁ ++ (p ++ rest))) (P :: Ps)

/-- `<media-condition>` -/
inductive ConditionText (num : Kind → Sst → Option Int) (strict : Bool) : List Sst → (Media → Prop) → Prop
  | single {p P} : ParenText num strict p P → ConditionText num strict p P
  | not {s w p P} : strict = false → Word s (u "not") → Blank w → ParenText num strict p P →
      ConditionText num strict (s :: (w ++ p)) (fun m => ¬ P m)
  | ands {p P rest Ps} : ParenText num strict p P → ChainText num strict (u "and") true rest Ps →
      ConditionText num strict (p ++ rest) (fun m => P m ∧ ∀ Q ∈ Ps, Q m)
  | ors {p P rest Ps} : ParenText num strict p P → ChainText num strict (u "or") true rest Ps →
      ConditionText num strict (p ++ rest) (fun m => P m ∨ ∃ Q ∈ Ps, Q m)
end

/-- The media types; the obsolete ones match nothing. -/
def typeMeans (t : Text) : Option (Media → Prop) :=
  if t = u "all" then some fun _ => True
  else if t = u "print" then some fun m => m .type = typePrint
  else if t = u "screen" then some fun m => m .type = typeScreen
  else if t ∈ [u "tty", u "tv", u "projection", u "handheld", u "braille", u "embossed", u "speech", u "aural"] then
    some fun _ => False
  else none

/-- `<media-query>` -/
inductive QueryText (num : Kind → Sst → Option Int) (strict : Bool) : List Sst → (Media → Prop) → Prop
  | condition {c P} : ConditionText num strict c P → QueryText num strict c P
  | type {s t P rest Ps} : Word s t → typeMeans t = some P → (strict = true → t ≠ u "all") →
      ChainText num strict (u "and") true rest Ps →
      QueryText num strict (s :: rest) (fun m => P m ∧ ∀ Q ∈ Ps, Q m)
  | notType {n w s t P rest Ps} : strict = false → Word n (u "not") → Blank w → w ≠ [] → Word s t →
      typeMeans t = some P → ChainText num strict (u "and") true rest Ps →
      QueryText num strict (n :: (w ++ s :: rest)) (fun m => ¬ (P m ∧ ∀ Q ∈ Ps, Q m))
  | onlyType {n w s t P rest Ps} : strict = false → Word n (u "only") → Blank w → w ≠ [] → Word s t →
      typeMeans t = some P → ChainText num strict (u "and") true rest Ps →
      QueryText num strict (n :: (w ++ s :: rest)) (fun m => P m ∧ ∀ Q ∈ Ps, Q m)

/-- `<media-query-list>`, not empty. -/
inductive ListText (num : Kind → Sst → Option Int) (strict : Bool) : List Sst → List (Media → Prop) → Prop
  | one {w₀ q w₁ P} : Blank w₀ → Blank w₁ → QueryText num strict q P → ListText num strict (w₀ ++ (q ++ w₁)) [P]
  | cons {w₀ q w₁ d rest P Ps} : Blank w₀ → Blank w₁ → QueryText num strict q P → ListText num strict rest Ps →
      ListText num strict (w₀ ++ (q ++ (w₁ ++ .tok ⟨.comma, d⟩ :: rest))) (P :: Ps)

/-- A media query list: the empty one always holds, others when one of their queries does. -/
inductive MediaText (num : Kind → Sst → Option Int) (strict : Bool) : List Sst → (Media → Prop) → Prop
  | empty {w} : Blank w → MediaText num strict w fun _ => True
  | list {c Ps} : ListText num strict c Ps → MediaText num strict c fun m => ∃ P ∈ Ps, P m

end Verif.Media.Spec
