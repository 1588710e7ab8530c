import Verif.Browser.Model
/-
# What a browser owes

Written without the reducer: pages behind, the page, pages ahead.
-/

namespace Verif.Browser

/-- A history: the pages behind (nearest first), the page one is at, the pages ahead (nearest first). -/
structure Trail (U : Type) where
  behind : List (Nav U)
  here : Nav U
  ahead : List (Nav U)
deriving DecidableEq, Repr

/-- Going to a new page forgets what was ahead. -/
def Trail.visit {U : Type} (t : Trail U) (n : Nav U) : Trail U := ⟨t.here :: t.behind, n, []⟩

/-- One page back. -/
def Trail.back {U : Type} : Trail U → Trail U
  | ⟨b :: bs, h, a⟩ => ⟨bs, b, h :: a⟩
  | t => t

/-- One page forward. -/
def Trail.forward {U : Type} : Trail U → Trail U
  | ⟨bs, h, a :: as⟩ => ⟨h :: bs, a, as⟩
  | t => t

/-- All of a trail, oldest first. -/
def Trail.entries {U : Type} (t : Trail U) : List (Nav U) := t.behind.reverse ++ t.here :: t.ahead

/-- A trail, and the text in the address field. -/
structure Bar (U : Type) where
  trail : Trail U
  text : String
deriving DecidableEq, Repr

/-- What an event does to the trail and to the address field. -/
def Bar.after {U N : Type} (parse : String → U) (str : U → String) (b : Bar U) : Event U N → Bar U
  | .user (.navigate n) => { b with trail := b.trail.visit n }
  | .user .navigateLocation => { b with trail := b.trail.visit { url := parse b.text } }
  | .user .goBack => { b with trail := b.trail.back }
  | .user .goForward => { b with trail := b.trail.forward }
  | .user (.updateLocation x) => { b with text := x }
  | .arrives _ => { b with text := str b.trail.here.url }
  | _ => b

/-- The state of the browser says the same as a trail and a text. -/
structure Says {U N : Type} (s : State U N) (b : Bar U) : Prop where
  history : s.history = b.trail.entries
  index : s.currentIndex = b.trail.behind.length
  text : s.locationInput = b.text

section
variable {U N : Type} [DecidableEq N] (parse : String → U) (str : U → String)

/-- The action comes from a button of the screen, or the arrival is that of a load under way. -/
def ByButton (w : World U N) : Event U N → Prop
  | .user a => onScreen w.state a = true
  | .arrives _ => w.pending ≠ []

/-- Every action comes from a button of the screen, and every arrival is that of a load under way. -/
def ByButtons : World U N → List (Event U N) → Prop
  | _, [] => True
  | w, e :: es =>
    ByButton w e ∧
    ∀ w', step parse str w e = some w' → ByButtons w' es

/-- Whether an action goes somewhere else. -/
def moves : Action U N → Bool
  | .goBack => true
  | .goForward => true
  | .navigate _ => true
  | .navigateLocation => true
  | _ => false

/-- It is not that somebody goes somewhere else while a page is being loaded. -/
def Waits (w : World U N) : Event U N → Prop
  | .user a => moves a = true → w.pending = []
  | .arrives _ => True

/-- Nobody goes somewhere else while a page is being loaded. -/
def Patient : World U N → List (Event U N) → Prop
  | _, [] => True
  | w, e :: es =>
    Waits w e ∧
    ∀ w', step parse str w e = some w' → Patient w' es

end

/-! ### The inspector -/

/-- Every node below a node, in the order of the document, each with the elements it lies in (outermost
    first), and whether it is a text of nothing but white space. -/
inductive Entry (N : Type) where
  | mk (n : N) (above : List N) (blank : Bool)

def Entry.node {N} : Entry N → N | .mk n _ _ => n
def Entry.above {N} : Entry N → List N | .mk _ a _ => a
def Entry.blank {N} : Entry N → Bool | .mk _ _ b => b

mutual
def entries {N : Type} (above : List N) : Dom N → List (Entry N)
  | .doctype n => [.mk n above false]
  | .text n blank => [.mk n above blank]
  | .comment n => [.mk n above false]
  | .element n kids => .mk n above false :: entriesAll (above ++ [n]) kids
def entriesAll {N : Type} (above : List N) : List (Dom N) → List (Entry N)
  | [] => []
  | d :: ds => entries above d ++ entriesAll above ds
end

/-- The nodes the lines show, with how far each is moved in. -/
def shownNodes {N : Type} (ls : List (Line N)) : List (N × Nat) :=
  ls.filterMap fun
    | .node n i => some (n, i)
    | _ => none

/-- Whether a node is open after a list of what was done in the inspector: clicking on the arrow of
    the node turns it over, choosing a node with children opens it; nothing else matters. -/
def opened {N : Type} [DecidableEq N] (n : N) (was : Bool) : List (InspectAction N) → Bool
  | [] => was
  | .expand m :: as => opened n (if m = n then !was else was) as
  | .select m kids :: as => opened n (if m = n && kids then true else was) as
  | .changeFilter _ :: as => opened n was as

end Verif.Browser
