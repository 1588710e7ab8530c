/-
# The browser: its history, its loads and its inspector

`src/vaev-browser/model.cpp` (all of it), `src/vaev-browser/inspect.cpp` 19–56 and 87–92, 140–242,
the buttons of `src/vaev-browser/app.cpp` 96–145, 171–180 and 215–270, and
`src/vaev-engine/dom/window.cpp` 49–66.

Addresses are an abstract type `U` with a reader and a writer (`Ref::Url::parse`, `Url::str`, both
Karm). What a document is made of is left out: a window shows *the document of a navigation*. The
toolkit (`Karm.Ui`) is left out: it is taken to hand each pressed button's action to `reduce`, one
after another, and to hand over the action of a task when the task ends.
-/

namespace Verif.Browser

/-- `Ref::Uti`, as far as `loadLocationAsync` tells them apart (`window.cpp` 50–60). -/
inductive Uti where
  | publicOpen
  | publicModify
  | other
deriving DecidableEq, Repr

/-- `Navigate`, `model.cpp` 12–15. -/
structure Nav (U : Type) where
  url : U
  action : Uti := .publicOpen
deriving DecidableEq, Repr

/-- `Status`, `model.cpp` 17–20. -/
inductive Status where
  | loading
  | loaded
deriving DecidableEq, Repr

/-- `InspectState`, `inspect.cpp` 33–36. Nodes are an abstract type `N`; the set is a list. -/
structure Inspect (N : Type) where
  filter : String := ""
  expanded : List N := []
  selected : Option N := none
deriving DecidableEq, Repr

/-- `InspectorAction`, `inspect.cpp` 19–31; whether the node selected has children comes with the
    action. -/
inductive InspectAction (N : Type) where
  | expand (n : N)
  | select (n : N) (hasChildren : Bool)
  | changeFilter (f : String)
deriving DecidableEq, Repr

/-- `Set::add` (Karm): no second copy. -/
def setAdd {N : Type} [DecidableEq N] (n : N) (s : List N) : List N :=
  if n ∈ s then s else s ++ [n]

/-- `InspectState::apply`, `inspect.cpp` 38–55. -/
def Inspect.apply {N : Type} [DecidableEq N] (i : Inspect N) : InspectAction N → Inspect N
  | .expand n =>
    if n ∈ i.expanded then { i with expanded := i.expanded.filter (· ≠ n) }
    else { i with expanded := setAdd n i.expanded }
  | .select n kids =>
    { i with
      expanded := if kids then setAdd n i.expanded else i.expanded
      selected := some n }
  | .changeFilter f => { i with filter := f }

/-- `State`, `model.cpp` 22–50, without the window. `loadingOk` tells whether `loadingResult` is `Ok`. -/
structure State (U N : Type) where
  developerMode : Bool := false
  status : Status := .loaded
  loadingOk : Bool := true
  currentIndex : Nat := 0
  history : List (Nav U) := []
  inspect : Inspect N := {}
  wireframe : Bool := false
  locationInput : String := ""
deriving DecidableEq, Repr

/-- The number of values of `usize`. -/
def usizeMax : Nat := 2 ^ 64

/-- `currentIndex--` on a `usize`. -/
def dec (n : Nat) : Nat := (n + (usizeMax - 1)) % usizeMax

/-- `currentIndex++` and `currentIndex + 1` on a `usize`. -/
def inc (n : Nat) : Nat := (n + 1) % usizeMax

/-- `canGoBack`, `model.cpp` 39–41. -/
def State.canGoBack {U N} (s : State U N) : Bool := decide (s.currentIndex > 0)

/-- `canGoForward`, `model.cpp` 43–45. (The history is never empty, so that `len() - 1` does not wrap.) -/
def State.canGoForward {U N} (s : State U N) : Bool := decide (s.currentIndex < s.history.length - 1)

/-- `currentUrl`, `model.cpp` 47–49. `none` is the access outside of the vector, on which Karm panics. -/
def State.currentUrl {U N} (s : State U N) : Option (Nav U) := s.history[s.currentIndex]?

/-- `Action`, `model.cpp` 72–82. -/
inductive Action (U N : Type) where
  | reload
  | loaded (ok : Bool)
  | goBack
  | goForward
  | toggleWireframe
  | toggleDeveloperMode
  | inspector (a : InspectAction N)
  | navigate (n : Nav U)
  | updateLocation (text : String)
  | navigateLocation
deriving DecidableEq, Repr

section
variable {U N : Type} [DecidableEq N] (parse : String → U) (str : U → String)

/-- The case `Reload` of `reduce`, `model.cpp` 90–95: the new state and the navigation whose load is
    started; `none` is a panic. -/
def reduceReload (s : State U N) : Option (State U N × Option (Nav U)) :=
  match s.status with
  | .loading => some (s, none)
  | .loaded =>
    match s.currentUrl with
    | none => none
    | some n => some ({ s with status := .loading }, some n)

/-- The case `Navigate` of `reduce`, `model.cpp` 122–127. `trunc` (Karm) keeps the first entries. -/
def reduceNavigate (s : State U N) (n : Nav U) : Option (State U N × Option (Nav U)) :=
  reduceReload
    { s with
      history := s.history.take (inc s.currentIndex) ++ [n]
      currentIndex := inc s.currentIndex }

/-- `reduce`, `model.cpp` 88–138. -/
def reduce (s : State U N) : Action U N → Option (State U N × Option (Nav U))
  | .reload => reduceReload s
  | .loaded ok =>
    match s.currentUrl with
    | none => none
    | some n =>
      some ({ s with
              status := .loaded
              loadingOk := ok
              locationInput := str n.url }, none)
  | .goBack => reduceReload { s with currentIndex := dec s.currentIndex }
  | .goForward => reduceReload { s with currentIndex := inc s.currentIndex }
  | .toggleWireframe => some ({ s with wireframe := !s.wireframe }, none)
  | .toggleDeveloperMode => some ({ s with developerMode := !s.developerMode }, none)
  | .inspector a => some ({ s with inspect := s.inspect.apply a }, none)
  | .navigate n => reduceNavigate s n
  | .updateLocation text => some ({ s with locationInput := text }, none)
  | .navigateLocation => reduceNavigate s { url := parse s.locationInput }

/-- `Window::loadLocationAsync`, `window.cpp` 49–66: what is shown afterwards and whether it is `Ok`.
    `fetched` tells whether the document could be had. -/
def loadLocation (shown : Nav U) (n : Nav U) (fetched : Bool) : Nav U × Bool :=
  match n.action with
  | .publicOpen => if fetched then (n, true) else (shown, false)
  | .publicModify => if fetched then (n, true) else (shown, false)
  | .other => (shown, false)

/-- The browser and its surroundings: the state, the document in the window, and the loads under way
    (`navigateAsync`, `model.cpp` 84–86). -/
structure World (U N : Type) where
  state : State U N
  shown : Nav U
  pending : List (Nav U) := []
deriving DecidableEq, Repr

/-- What happens to a browser: somebody does something, or the oldest load under way ends. -/
inductive Event (U N : Type) where
  | user (a : Action U N)
  | arrives (fetched : Bool)
deriving DecidableEq, Repr

/-- One event; `none` is a panic. The end of a load hands `Loaded` over (`model.cpp` 85). -/
def step (w : World U N) : Event U N → Option (World U N)
  | .user a =>
    match reduce parse str w.state a with
    | none => none
    | some (s, task) => some { w with state := s, pending := w.pending ++ task.toList }
  | .arrives fetched =>
    match w.pending with
    | [] => some w
    | n :: rest =>
      let (shown, ok) := loadLocation w.shown n fetched
      match reduce parse str w.state (.loaded ok) with
      | none => none
      | some (s, task) => some { state := s, shown := shown, pending := rest ++ task.toList }

/-- Events one after another. -/
def run (w : World U N) : List (Event U N) → Option (World U N)
  | [] => some w
  | e :: es =>
    match step parse str w e with
    | none => none
    | some w' => run w' es

/-- The browser when it opens: the first document was loaded before (`main.cpp` 48–58), the history
    holds its address (`model.cpp` 33–37). -/
def start (first : U) (developerMode : Bool) : World U N :=
  { state :=
      { developerMode := developerMode
        history := [{ url := first }]
        locationInput := str first }
    shown := { url := first } }

/-- What is put in the place of the page: the document, or the notice that it could not be loaded
    (`webview`, `app.cpp` 184–186). `none` is the notice. -/
def World.view (w : World U N) : Option (Nav U) :=
  if w.state.loadingOk then some w.shown else none

/-- What can be pressed. The buttons *back* and *forward* are dead if there is nowhere to go
    (`app.cpp` 136–137, 177, 229, 231: `bindIf`); `Loaded` is no button. -/
def onScreen (s : State U N) : Action U N → Bool
  | .goBack => s.canGoBack
  | .goForward => s.canGoForward
  | .loaded _ => false
  | _ => true

/-- What can be done by keys: Alt and the left arrow go back, whatever there is to go back to
    (`app.cpp` 229: `bind`, not `bindIf`). -/
def byKey : Action U N → Bool
  | .goBack => true
  | .reload => true
  | .toggleDeveloperMode => true
  | .navigateLocation => true
  | _ => false

end

/-! ### The tree of the inspector -/

/-- A node as `inspect.cpp` tells them apart (156–186): a text knows whether it is white space. The
    document itself is the list of the nodes below it; there is none elsewhere. -/
inductive Dom (N : Type) where
  | doctype (n : N)
  | text (n : N) (blank : Bool)
  | comment (n : N)
  | element (n : N) (kids : List (Dom N))

/-- A line of the inspector: a node and how far it is moved in; or the closing tag of an element. -/
inductive Line (N : Type) where
  | document
  | node (n : N) (indent : Nat)
  | close (n : N) (indent : Nat)
deriving DecidableEq, Repr

section
variable {N : Type} [DecidableEq N]

mutual
/-- `node`, `inspect.cpp` 219–235, as the lines from top to bottom. A blank text has no line
    (165–168, 207–209), an element outside of the set is one line, and an open one ends with its footer
    (231, 188–192). Nodes of the other kinds have no children. -/
def lines (expanded : List N) (indent : Nat) : Dom N → List (Line N)
  | .doctype n => [.node n indent]
  | .text n blank => if blank then [] else [.node n indent]
  | .comment n => [.node n indent]
  | .element n kids =>
    if n ∈ expanded then
      .node n indent :: (linesAll expanded (indent + 1) kids ++ [.close n indent])
    else [.node n indent]
/-- The loop of `inspect.cpp` 227–230. -/
def linesAll (expanded : List N) (indent : Nat) : List (Dom N) → List (Line N)
  | [] => []
  | d :: ds => lines expanded indent d ++ linesAll expanded indent ds
end

/-- `node` on the document, `inspect.cpp` 219–235, 282: it is open at all times (220), and the nodes
    below it are not moved in (228). Its footer is empty (191). -/
def inspector (expanded : List N) (document : List (Dom N)) : List (Line N) :=
  .document :: linesAll expanded 0 document

end

end Verif.Browser
