import Verif.Hints.Model
/-!
# What HTML and SVG say of attributes that style an element
-/
namespace Verif.Hints
open Verif.Cascade (Decl)

/-- The declarations that come from attributes other than `style`. -/
def attrDecls (e : Env) (el : El) : List Decl := htmlHints e el ++ svgDecls e el

/-- Rules are of the user agent, the user or the author. -/
def OfSheets (rules : List Decl) : Prop :=
  ∀ x ∈ rules, x.origin = .userAgent ∨ x.origin = .user ∨ x.origin = .author

/-- Declarations of a `style` attribute. -/
def OfStyle (style : List Decl) : Prop := ∀ x ∈ style, x.origin = .inline ∧ x.specificity = .zero

/-- The author has a say on a property: in a style sheet or in the `style` attribute. -/
def AuthorSays (rules style : List Decl) (n : Nat) : Prop :=
  ∃ x ∈ rules ++ style, x.name = n ∧ x.bogus = false ∧ (x.origin = .author ∨ x.origin = .inline)

/-- No declaration of the property is important. -/
def NoneImportant (ds : List Decl) (n : Nat) : Prop :=
  ∀ x ∈ ds, x.name = n → x.bogus = false → x.important = false

/-- The last declaration of a property in a list. -/
def LastOf (ds : List Decl) (n : Nat) (d : Decl) : Prop :=
  ∃ pre post, ds = pre ++ d :: post ∧ d.name = n ∧ d.bogus = false ∧ ∀ x ∈ post, x.name = n → x.bogus = true

/-- The elements of HTML whose attribute `size` is a number of characters. -/
def hasCharacters (name : String) : Bool := name = "input"

/-- The elements of HTML for which `bgcolor` is a background (HTML, section 15.3). -/
def bgcolored : List String := ["body", "table", "thead", "tbody", "tfoot", "tr", "td", "th", "marquee"]

end Verif.Hints
