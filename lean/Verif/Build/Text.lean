/-!
# Building boxes: text

`layout/builder/mod.cpp` 30–32 and 84–173. All paths are relative to `src/vaev-engine`. A text is a list of characters;
the spans (fonts and colours) of a prose are left out, so a prose is what was appended to it.
-/
namespace Verif.Build

/-- Karm's `isAsciiSpace`: space, tab, line feed, vertical tab, form feed, carriage return. -/
def isSpace (c : Char) : Bool :=
  c = ' ' || (9 ≤ c.toNat && c.toNat ≤ 13)

/-- `isSegmentBreak`, `mod.cpp` 30–32. -/
def isBreak (c : Char) : Bool :=
  c.toNat = 10 || c.toNat = 13 || c.toNat = 12 || c.toNat = 11

/-- `WhiteSpace`, `values/text.cpp`. -/
inductive Ws where
  | normal | pre | nowrap | preWrap | breakSpaces | preLine
  deriving DecidableEq, Repr

/-- `TextTransform`, `values/text.cpp`. -/
inductive Trans where
  | none | uppercase | lowercase | capitalize
  deriving DecidableEq, Repr

/-- The two computed values that the text of an element depends on. -/
structure Sty where
  ws : Ws := .normal
  trans : Trans := .none
  deriving DecidableEq, Repr

/-- Karm's `toAsciiUpper`. -/
def upper (c : Char) : Char :=
  if 97 ≤ c.toNat ∧ c.toNat ≤ 122 then Char.ofNat (c.toNat - 32) else c

/-- Karm's `toAsciiLower`. -/
def lower (c : Char) : Char :=
  if 65 ≤ c.toNat ∧ c.toNat ≤ 90 then Char.ofNat (c.toNat + 32) else c

/-- `_transformAndAppendRuneToProse`, `mod.cpp` 84–99. -/
def transform (t : Trans) (c : Char) : Char :=
  match t with
  | .uppercase => upper c
  | .lowercase => lower c
  | .none => c
  | .capitalize => c

/-- `whiteSpacesAreCollapsible`, `mod.cpp` 105–108. -/
def collapsible (w : Ws) : Bool :=
  w = .normal || w = .nowrap || w = .preLine

/-- What a collapsed run of white space leaves, `mod.cpp` 150–153. -/
def collapsed (w : Ws) (visited : Bool) : Char :=
  if w = .preLine ∧ visited then '\n' else ' '

/-- The loop of `_appendTextToInlineBox`, `mod.cpp` 114–160. `run` is `some visitedSegmentBreak` inside the inner loop
131–139 and `none` outside of it. -/
def appendLoop (sty : Sty) : Option Bool → List Char → List Char
  | none, [] => []
  | some visited, [] => [collapsed sty.ws visited]
  | none, c :: rest =>
    if !isSpace c then transform sty.trans c :: appendLoop sty none rest
    else if collapsible sty.ws then appendLoop sty (some (isBreak c)) rest
    else c :: appendLoop sty none rest
  | some visited, c :: rest =>
    if isSpace c then appendLoop sty (some (visited || isBreak c)) rest
    else collapsed sty.ws visited :: transform sty.trans c :: appendLoop sty none rest

/-- `_appendTextToInlineBox`, `mod.cpp` 103–161: what it appends. `active` tells whether the root inline box has
something in it already. -/
def appendText (sty : Sty) (active : Bool) (s : List Char) : List Char :=
  appendLoop sty none (if active then s else s.dropWhile isSpace)

/-- `mod.cpp` 164–169: the text has nothing but white space. -/
def blank (s : List Char) : Bool :=
  (s.dropWhile isSpace).isEmpty

end Verif.Build
