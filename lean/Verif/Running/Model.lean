/-!
# Running elements: model

`layout/base/running-position.cpp`, `driver/print.cpp` 246–273, `layout/builder/mod.cpp` 1052–1058. All paths are
relative to `src/vaev-engine`. Elements are numbers.
-/
namespace Verif.Running

/-- `RunningPositionInfo`, `running-position.cpp` 20–32. -/
structure Info where
  page : Nat
  elem : Nat
  deriving DecidableEq, Repr

/-- `ElementFunc::Target`, `values/content.cpp` 18–24. -/
inductive Target where
  | undefined | first | start | last | firstExcept
  deriving DecidableEq, Repr

/-- `RunningPositionMap`, `running-position.cpp` 35–36. -/
abbrev Table := List (String × List Info)

/-- `RunningPositionMap::add`, `running-position.cpp` 38–49. Boxes without an element add nothing and are left out. -/
def add (page : Nat) (name : String) (elem : Nat) : Table → Table
  | [] => [(name, [⟨page, elem⟩])]
  | (k, l) :: rest => if k = name then (k, l ++ [⟨page, elem⟩]) :: rest else (k, l) :: add page name elem rest

def lookup (name : String) : Table → Option (List Info)
  | [] => none
  | (k, l) :: rest => if k = name then some l else lookup name rest

/-- The loop from `l` down, `running-position.cpp` 98–100. -/
def left (list : List Info) (page : Nat) : Nat → Nat
  | 0 => 0
  | l + 1 =>
    match list[l]? with
    | some i => if i.page = page then left list page l else l + 1
    | none => l + 1

/-- The loop from `r` up, `running-position.cpp` 103–105, with at most `fuel` steps. -/
def right (list : List Info) (page : Nat) : Nat → Nat → Nat
  | 0, r => r
  | fuel + 1, r =>
    if r < list.length - 1 then
      match list[r + 1]? with
      | some i => if i.page = page then right list page fuel (r + 1) else r
      | none => r
    else r

/-- `_searchPage`, `running-position.cpp` 82–108. `search` is the binary search of Karm. `sub(list, a, b)` is the part
from `a` up to `b`. -/
def searchPage (search : List Info → Nat → Option Nat) (list : List Info) (page : Nat) : List Info :=
  match search list page with
  | none => list.take 1
  | some i => (list.take (right list page list.length i + 1)).drop (left list page i)

/-- The loop of `START`, `running-position.cpp` 61–66; `prev` is the entry before. -/
def startLoop (page : Nat) : Option Info → List Info → Option Info
  | _, [] => none
  | prev, e :: rest =>
    match prev with
    | some p => if e.page = page then some p else startLoop page (some e) rest
    | none => startLoop page (some e) rest

/-- `RunningPositionMap::match`, `running-position.cpp` 52–80: `none` is an error. Lists in the map are never
empty. -/
def match_ (search : List Info → Nat → Option Nat) (t : Table) (name : String) (target : Target) (page : Nat) : Option Info :=
  match lookup name t with
  | none => none
  | some list =>
    match target with
    | .undefined => list[0]?
    | .start => (startLoop page none list).or list[0]?
    | .first | .firstExcept => (searchPage search list page)[0]?
    | .last => (searchPage search list page).getLast?

/-- A running element met by the layout of a page: its name and the element. -/
abbrev Met := String × Nat

/-- The layout of a page adds the elements it meets, `layout/positioned.cpp` 283–291. -/
def addAll (page : Nat) (met : List Met) (t : Table) : Table := met.foldl (fun t m => add page m.1 m.2 t) t

/-- The map when the margins of a page are painted, `driver/print.cpp` 246–273: the pages from `page` on have met
`pages`. Pages are counted from 1. -/
def tableFrom (page : Nat) : List (List Met) → Table → Table
  | [], t => t
  | m :: rest, t => tableFrom (page + 1) rest (addAll page m t)

/-- The running element shown on page `n` (from 1) for `element(name, target)`, `layout/builder/mod.cpp` 1052–1058. -/
def shown (search : List Info → Nat → Option Nat) (pages : List (List Met)) (name : String) (target : Target) (n : Nat) : Option Nat :=
  (match_ search (tableFrom 1 (pages.take n) []) name target n).map Info.elem

end Verif.Running
