/-!
# Running elements: what is meant

CSS generated content for paged media, `element()`. Pages are given by the running elements on them, name and
element, in document order.
-/
namespace Verif.Running.Spec

/-- The elements with a name on a page. -/
def named (name : String) (page : List (String × Nat)) : List Nat :=
  (page.filter (·.1 = name)).map (·.2)

/-- The element in force when page `n` (from 1) begins: the last one on the pages before. -/
def entry (pages : List (List (String × Nat))) (name : String) (n : Nat) : Option Nat :=
  ((pages.take (n - 1)).flatMap (named name)).getLast?

/-- The elements on page `n`. -/
def onPage (pages : List (List (String × Nat))) (name : String) (n : Nat) : List Nat :=
  match pages[n - 1]? with
  | some p => named name p
  | none => []

/-- `first`: the first one on the page, or the one in force. -/
def first (pages : List (List (String × Nat))) (name : String) (n : Nat) : Option Nat :=
  (onPage pages name n).head?.or (entry pages name n)

/-- `last`: the last one on the page, or the one in force. -/
def last (pages : List (List (String × Nat))) (name : String) (n : Nat) : Option Nat :=
  (onPage pages name n).getLast?.or (entry pages name n)

/-- `start`: the one in force, or the first one on the page if there is none. (Whether the first one on the page
stands at its very top is not known here.) -/
def start (pages : List (List (String × Nat))) (name : String) (n : Nat) : Option Nat :=
  (entry pages name n).or (onPage pages name n).head?

/-- `first-except`: nothing on a page that has one, or the one in force. -/
def firstExcept (pages : List (List (String × Nat))) (name : String) (n : Nat) : Option Nat :=
  if onPage pages name n = [] then entry pages name n else none

end Verif.Running.Spec
