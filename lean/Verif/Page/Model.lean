import Verif.Css.Token

/-!
# Page rules: model

`/repo/src/vaev-engine/style/page.cpp` (`Page`, `PageSelector`), `PageRule::match` and
`PageRule::apply` of `/repo/src/vaev-engine/style/rules.cpp`, the page cascade of
`/repo/src/vaev-engine/style/computer.cpp` and the numbering of
`/repo/src/vaev-engine/driver/print.cpp`.

* The `Cursor` is the list of items not read yet; a rollback is going on with the old list.
* `Cursor::peek` at the end of the input has no defined result: `R.crash`.
-/
namespace Verif.Page
open Verif.Css

/-- `Page`, page.cpp lines 49–53. -/
structure Page where
  name : Text
  number : Nat
  blank : Bool
deriving DecidableEq, Repr

/-- `PagePseudo`, page.cpp lines 74–84. -/
inductive Pseudo where
  | first | blank | left | right
deriving DecidableEq, Repr

/-- `PageSelector`, page.cpp lines 86–88. -/
structure Sel where
  name : Text := []
  pseudos : List Pseudo := []
deriving DecidableEq, Repr

/-- The `switch` of `PageSelector::match`, page.cpp lines 150–167: `false` is `return false`. -/
def passes (page : Page) : Pseudo → Bool
  | .first => !(page.number != 1)
  | .blank => !page.blank
  | .left => !(page.number % 2 == 0)
  | .right => !(page.number % 2 == 1)

/-- `PageSelector::match`, page.cpp lines 145–171. -/
def Sel.match (s : Sel) (page : Page) : Bool :=
  if !s.name.isEmpty && page.name != s.name then false else s.pseudos.all (passes page)

/-! ## Reading -/

inductive R (α : Type) where
  | ok (a : α)
  | crash
  | out
deriving DecidableEq, Repr

/-- `_parsePagePseudo`, page.cpp lines 90–115. `ok none` is an error, after which the cursor
    stands where it stood. -/
def parsePseudo (c : List Sst) : R (Option (Pseudo × List Sst)) :=
  match c with
  | [] => .ok none
  | s :: c =>
    if s.is .colon then
      match eatWs c with
      | [] => .crash
      | .tok t :: rest =>
        if t.type = .ident then
          if t.data = u "first" then .ok (some (.first, rest))
          else if t.data = u "blank" then .ok (some (.blank, rest))
          else if t.data = u "left" then .ok (some (.left, rest))
          else if t.data = u "right" then .ok (some (.right, rest))
          else .ok none
        else .ok none
      | _ => .ok none
    else .ok none

/-- The loop of `PageSelector::parse`, page.cpp lines 125–128. -/
def parsePseudos : Nat → List Sst → R (List Pseudo × List Sst)
  | 0, _ => .out
  | n + 1, c =>
    match parsePseudo c with
    | .crash => .crash
    | .out => .out
    | .ok none => .ok ([], c)
    | .ok (some (p, c)) =>
      match parsePseudos n (eatWs c) with
      | .ok (ps, c) => .ok (p :: ps, c)
      | .crash => .crash
      | .out => .out

/-- The optional name of `PageSelector::parse`, page.cpp lines 120–122. -/
def parseName : List Sst → Text × List Sst
  | .tok t :: c => if t.type = .ident then (t.data, c) else ([], .tok t :: c)
  | c => ([], c)

/-- `PageSelector::parse`, page.cpp lines 117–131. The cursor is not at its end when it is
    called (line 137). -/
def parse (fuel : Nat) (c : List Sst) : R (Sel × List Sst) :=
  let r := parseName c
  match parsePseudos fuel (eatWs r.2) with
  | .ok (ps, c) => .ok (⟨r.1, ps⟩, c)
  | .crash => .crash
  | .out => .out

/-- The loop of `PageSelector::parseList`, page.cpp lines 137–140. -/
def parseLoop : Nat → List Sst → R (List Sel)
  | 0, _ => .out
  | _ + 1, [] => .ok []
  | n + 1, s :: c =>
    match parse (n + 1) (s :: c) with
    | .ok (sel, c) =>
      match parseLoop n (eatWs c) with
      | .ok sels => .ok (sel :: sels)
      | .crash => .crash
      | .out => .out
    | .crash => .crash
    | .out => .out

/-- `PageSelector::parseList`, page.cpp lines 133–143. -/
def parseList (fuel : Nat) (c : List Sst) : R (List Sel) := parseLoop fuel (eatWs c)

/-! ## Rules -/

/-- `PageRule`, rules.cpp lines 196–199, without its areas. A declaration is a property
    together with a value; importance is not looked at (rules.cpp lines 245–259). -/
structure Rule where
  sels : List Sel
  decls : List (Text × Text)
deriving DecidableEq, Repr

/-- `PageRule::match`, rules.cpp lines 233–243. -/
def Rule.match (r : Rule) (page : Page) : Bool :=
  if r.sels.length = 0 then true else r.sels.any fun s => s.match page

/-- The values of a page: property to value. -/
abbrev Values := Text → Option Text

/-- `PageRule::apply`, rules.cpp lines 245–259, for longhands. -/
def Rule.apply (r : Rule) (v : Values) : Values :=
  r.decls.foldl (fun v d => fun p => if p = d.1 then some d.2 else v p) v

/-- `Computer::computeValues(parent, page)`, computer.cpp lines 400–405 with `_evalRule`,
    lines 155–170, for page rules outside `@media`. -/
def pageValues (rules : List Rule) (page : Page) : Values :=
  rules.foldl (fun v r => if r.match page then r.apply v else v) fun _ => none

/-- The pages `collectBreakPointsAndRunningPositions` styles, print.cpp lines 156–162: the
    page after `k` pages. -/
def pageAfter (k : Nat) : Page := { name := [], number := k + 1, blank := false }

end Verif.Page
