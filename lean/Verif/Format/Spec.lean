import Verif.Format.Model
import Verif.SelParse.Props
import Verif.Css.LexProps
/-!
# Selectors as text: what is meant

A text stands for a selector if the lexer cuts it into tokens (`Verif.Css.lexAll`, C67) and the parser of selectors
(`Verif.SelParse.read`, C154) makes of these a selector that matches the same elements of every document and counts as much
in the cascade.  Only texts without brackets are looked at, whose component values are their tokens.
-/
namespace Verif.Format
open Verif.Css (Text Sst lexAll)
open Verif.Css.LexSpec (Start NameChar)
open Verif.Selector (Str Selector spec)
open Verif.SelParse (Namespaces read Agree)

/-- The text is read as a selector like `s`. -/
def ReadsAs (ns : Namespaces) (t : Text) (s : Selector) : Prop :=
  ∃ ts s', lexAll (t.length + 1) t = some ts ∧ (∀ k ∈ ts, k.type ≠ .func ∧ k.type ≠ .lpar ∧ k.type ≠ .lsquare ∧ k.type ≠ .lcurly) ∧
    read ns (ts.map Sst.tok) = .ok s' ∧ spec s' = spec s ∧ Agree s' s

/-- A name that needs no escapes. -/
def Plain (n : Str) : Prop := ∃ c w, n.map Char.toNat = c :: w ∧ Start c ∧ ∀ x ∈ w, NameChar x

/-- A class or an id. -/
inductive Mark : Selector → Prop
  | id {n} : Plain n → Mark (.id n)
  | class_ {n} : Plain n → Mark (.class_ n)

/-- Classes and ids: one, several in a row, several between commas, or two with a combinator. -/
inductive Flat : Selector → Prop
  | one {s} : Mark s → Flat s
  | row {l} : 2 ≤ l.length → (∀ s ∈ l, Mark s) → Flat (.and l)
  | list {l} : 2 ≤ l.length → (∀ s ∈ l, Mark s) → Flat (.or l)
  | pair {c s s'} : c ≠ .column → Mark s → Mark s' → Flat (.infix c s s')

end Verif.Format
