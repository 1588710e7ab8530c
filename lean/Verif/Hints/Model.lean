import Verif.Cascade.Model
import Verif.Svg.Model
import Verif.Hue.Model
import Verif.Keyword.Model
import Verif.Fonts.Model
/-!
# Attributes that style an element

`style/computer.cpp` 208–352 and `props/base.cpp` 757–845: the presentational hints of HTML, the `style` attribute, the
presentation attributes of SVG, the default size of a drawing and the attribute `align`, beside the declarations of
the style rules.

Attributes are given as the tokens of their text.  Declarations are those of `Verif.Cascade`, where properties and
values are numbers; `code` numbers the values.
-/
namespace Verif.Hints
open Verif.Values (Tok Out eatWs PL Calc)
open Verif.Cascade (Decl)
open Verif.Svg (Size parseSize sizeAttr dropWs)
open Verif.Keyword (readPlain)

/-- Namespaces. -/
inductive Ns where
  | html | svg | other
deriving DecidableEq

/-- An element with its attributes, each name once; `parent` is the namespace of its parent, none if that is the
document. -/
structure El where
  ns : Ns
  name : String
  attrs : List (String × List Tok)
  parent : Option Ns

/-- `getAttribute`, dom/element.cpp. -/
def El.attr (el : El) (n : String) : Option (List Tok) := (el.attrs.find? (·.1 == n)).map (·.2)

/-- `hasAttribute`, dom/element.cpp. -/
def El.has (el : El) (n : String) : Bool := el.attrs.any (·.1 == n)

/-- The values that attributes can have. -/
inductive Value where
  | colour (c : Verif.Hue.Colour)
  | size (s : Size)

/-- Readers of colours (`Verif.Hue`), the numbering of values, and the other presentation attributes of SVG with what
they read (props/svg.cpp, props/transform.cpp), by the lower case of their names. -/
structure Env where
  colour : List Tok → Out Verif.Hue.Colour
  code : Value → Nat
  other : String → List Tok → Option (Nat × Nat)

/-- Properties: `color`, `background-color`, `width`, `height`; all others follow. -/
def color : Nat := 0
def background : Nat := 1
def width : Nat := 2
def height : Nat := 3

/-- `parseValue(name, Str, {})`, props/base.cpp 790–795 and 757–788 without options: white space at the top is dropped
by `consumeDeclarationValue`, and everything must be read. -/
def parseStr (p : List Tok → Out α) (l : List Tok) : Option α :=
  match readPlain p (dropWs l) with
  | .value v => some v
  | _ => none

/-- The tokens of a text with `ch` behind it, as `Io::format("{}ch", size)` makes it: the letters join a number, a unit or
a word that stands at the end. -/
def withCh : List Tok → List Tok
  | [] => [.ident "ch".toList]
  | [.number s] => [.dim (s ++ "ch".toList)]
  | [.dim s] => [.dim (s ++ "ch".toList)]
  | [.ident s] => [.ident (s ++ "ch".toList)]
  | [t] => [t, .ident "ch".toList]
  | t :: u :: r => t :: withCh (u :: r)

/-- `cascadedValues.put(property, Origin::AUTHOR_PRESENTATIONAL_HINT, PRESENTATION_HINT_SPEC)`; the specificity is zero,
style/selector.cpp 1205. -/
def hint (p : Nat) : Option Nat → List Decl
  | some v => [{ name := p, value := v, origin := .presentationalHint }]
  | none => []

def readColour (e : Env) (l : List Tok) : Option Nat := (parseStr e.colour l).map fun c => e.code (.colour c)
def readSize (e : Env) (l : List Tok) : Option Nat := (parseStr parseSize l).map fun s => e.code (.size s)

/-- `_considerHtmlPresentationalHint`, style/computer.cpp 208–250. -/
def htmlHints (e : Env) (el : El) : List Decl :=
  if el.ns ≠ .html then [] else
    hint color ((el.attr "fgcolor").bind (readColour e)) ++
    hint background ((el.attr "bgcolor").bind (readColour e)) ++
    hint width ((el.attr "width").bind (readSize e)) ++
    hint height ((el.attr "height").bind (readSize e)) ++
    hint width ((el.attr "size").bind fun l => readSize e (withCh l))

/-- `parsePresentationAttribute`, props/base.cpp 840–844, and props/sizing.cpp 80–84, 125–129. -/
def presentation (e : Env) (a : String × List Tok) : List Decl :=
  if a.1.toLower = "width" then hint width ((sizeAttr a.2).map fun s => e.code (.size s))
  else if a.1.toLower = "height" then hint height ((sizeAttr a.2).map fun s => e.code (.size s))
  else match e.other a.1.toLower a.2 with
    | some (p, v) => hint (4 + p) (some v)
    | none => []

/-- So many pixels. -/
def pxSize (v : Rat) : Size := .calc (.one (.val (.length (.abs v .px))))

/-- `_applySvgElementSizingRules`, style/computer.cpp 310–335. -/
def svgSizing (e : Env) (el : El) : List Decl :=
  match el.parent with
  | none => []
  | some ns =>
    if ns = .svg then []
    else if el.has "viewBox" then []
    else
      (if el.has "width" then [] else hint width (some (e.code (.size (pxSize 300))))) ++
      (if el.has "height" then [] else hint height (some (e.code (.size (pxSize 150)))))

/-- `_considerSvgPresentationAttributes`, style/computer.cpp 338–352. -/
def svgDecls (e : Env) (el : El) : List Decl :=
  if el.ns ≠ .svg then [] else
    el.attrs.flatMap (presentation e) ++ (if el.name = "svg" then svgSizing e el else [])

/-- The declarations of an element in the order in which `computeValues` puts them, style/computer.cpp 361–371; `rules`
are those of the matching rules, `style` those of the `style` attribute. -/
def decls (e : Env) (rules style : List Decl) (el : El) : List Decl :=
  rules ++ htmlHints e el ++ style ++ svgDecls e el

/-- The end of `_considerElementAttributes`, style/computer.cpp 296–306, which is run after the cascade: `cascaded` is the
value of `text-align` that the declarations give.  (The attribute is given as its text.) -/
def alignAttr (align : Option String) (cascaded : Verif.Fonts.TextAlign) : Verif.Fonts.TextAlign :=
  match align with
  | some "left" => .left
  | some "right" => .right
  | some "center" => .blockCenter
  | some "justify" => .justify
  | _ => cascaded

end Verif.Hints
