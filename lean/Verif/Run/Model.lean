/-!
# Running: model

`src/mod.cpp` 191–340 and `src/vaev-engine/dom/window.cpp` 24–108 with `style/media.cpp` 140–155 and 200–237.

* Loading and saving go to a world that answers as it likes: its answers depend on all that happened before.
* A document is what was loaded; its pages are a function of it and of the documents of header and footer.
-/
namespace Verif.Run

/-- `Batch`, `mod.cpp` 30–35. -/
inductive Batch where
  | concat | separate
  deriving DecidableEq, Repr

/-- `Flow`, `mod.cpp` 37–43. -/
inductive Flow where
  | auto | paginate | continuous
  deriving DecidableEq, Repr

/-- The part of `Option`, `mod.cpp` 76–92, that is used here; `pdf` tells that the output format is PDF. -/
structure Opts where
  batch : Batch
  flow : Flow
  pdf : Bool
  header : Option String
  footer : Option String
  deriving DecidableEq, Repr

abbrev Doc := Nat
abbrev Page := Nat

/-- What the outside sees: a document is loaded (`none`: it could not be), an output is saved, with or without the request
to close the connection, successfully or not. -/
inductive Ev where
  | load (url : String) (doc : Option Doc)
  | put (url : String) (pages : List Page) (close : Bool) (ok : Bool)
  deriving DecidableEq, Repr

/-- The outside, and the parts of the program that are not modelled: the pages of a document with header and footer, the
picture of a document, whether the output format can be written at all and whether these pages can. -/
structure World where
  load : List Ev → String → Option Doc
  put : List Ev → String → List Page → Bool
  print : Doc → Option Doc → Option Doc → List Page
  render : Doc → Page
  create : Bool
  encode : List Page → Bool
  /-- `output / "{stem}.{suffix}"`, `mod.cpp` 312. -/
  name : String → String

/-- `Flow::AUTO`, `mod.cpp` 277–281. -/
def Opts.paginates (o : Opts) : Bool :=
  match o.flow with
  | .auto => o.pdf
  | .paginate => true
  | .continuous => false

/-- Loading of one document: the events so far grow by one. -/
def loadOne (w : World) (tr : List Ev) (u : String) : List Ev × Option Doc :=
  (tr ++ [.load u (w.load tr u)], w.load tr u)

/-- Loading of a header or footer, `mod.cpp` 206–211 and 215–220; the outer `Option` is the success. -/
def loadExtra (w : World) (tr : List Ev) : Option String → List Ev × Option (Option Doc)
  | none => (tr, some none)
  | some u =>
    match loadOne w tr u with
    | (tr, some d) => (tr, some (some d))
    | (tr, none) => (tr, none)

/-- `runSingleAsync`, `mod.cpp` 191–268: what happens and the pages that are printed. -/
def runSingle (w : World) (o : Opts) (tr : List Ev) (u : String) : List Ev × Option (List Page) :=
  match loadOne w tr u with
  | (tr, none) => (tr, none)
  | (tr, some d) =>
    if o.paginates then
      match loadExtra w tr o.header with
      | (tr, none) => (tr, none)
      | (tr, some h) =>
        match loadExtra w tr o.footer with
        | (tr, none) => (tr, none)
        | (tr, some f) => (tr, some (w.print d h f))
    else (tr, some [w.render d])

/-- The loop of `mod.cpp` 292–299. -/
def concatLoop (w : World) (o : Opts) (tr : List Ev) (acc : List Page) : List String → List Ev × Option (List Page)
  | [] => (tr, some acc)
  | u :: us =>
    match runSingle w o tr u with
    | (tr, none) => (tr, none)
    | (tr, some ps) => concatLoop w o tr (acc ++ ps) us

/-- Writing and saving, `mod.cpp` 300–309 and 323–335. -/
def save (w : World) (tr : List Ev) (url : String) (ps : List Page) (close : Bool) : List Ev × Bool :=
  if w.encode ps then (tr ++ [.put url ps close (w.put tr url ps)], w.put tr url ps) else (tr, false)

/-- The loop of `mod.cpp` 311–336. -/
def separateLoop (w : World) (o : Opts) (tr : List Ev) : List String → List Ev × Bool
  | [] => (tr, true)
  | u :: us =>
    if !w.create then (tr, false)
    else
      match runSingle w o tr u with
      | (tr, none) => (tr, false)
      | (tr, some ps) =>
        match save w tr (w.name u) ps us.isEmpty with
        | (tr, false) => (tr, false)
        | (tr, true) => separateLoop w o tr us

/-- `runBatchAsync`, `mod.cpp` 270–340. -/
def runBatch (w : World) (o : Opts) (inputs : List String) (output : String) : List Ev × Bool :=
  match o.batch with
  | .concat =>
    if !w.create then ([], false)
    else
      match concatLoop w o [] [] inputs with
      | (tr, none) => (tr, false)
      | (tr, some ps) => save w tr output ps true
  | .separate => separateLoop w o [] inputs

/-! ## Windows -/

inductive Orientation where
  | portrait | landscape
  deriving DecidableEq, Repr

/-- `Style::Media` as far as a window changes it; `rest` stands for the other features. -/
structure Media where
  width : Int
  height : Int
  deviceWidth : Int
  deviceHeight : Int
  orientation : Orientation
  rest : Nat := 0
  deriving DecidableEq, Repr

/-- `Media::forRender`, `style/media.cpp` 200–237. -/
def Media.forRender (w h : Int) : Media :=
  { width := w, height := h, deviceWidth := w, deviceHeight := h, orientation := .portrait }

/-- `Media::changeViewport`, `style/media.cpp` 140–155; the aspect ratios are left out. -/
def Media.changeViewport (m : Media) (w h : Int) : Media × Bool :=
  if m.width = w ∧ m.height = h then (m, false)
  else ({ m with width := w, height := h, deviceWidth := w, deviceHeight := h }, true)

/-- `Window`, `dom/window.cpp` 24–33. -/
structure Window (R : Type) where
  media : Media
  doc : Option Doc := none
  cache : Option R := none

/-- What is done with a window: `loaded d` is the end of `loadLocationAsync`, with `none` when it failed. -/
inductive Op where
  | loaded (d : Option Doc)
  | changeMedia (m : Media)
  | changeViewport (w h : Int)
  | ensureRender
  deriving DecidableEq, Repr

/-- `ensureRender`, `dom/window.cpp` 79–84: the window and what is shown; `none` is the panic of `upgrade`. -/
def ensureRender {R : Type} (render : Doc → Media → R) (w : Window R) : Option (Window R × R) :=
  match w.cache with
  | some r => some (w, r)
  | none =>
    match w.doc with
    | none => none
    | some d => some ({ w with cache := some (render d w.media) }, render d w.media)

/-- The operations, `dom/window.cpp` 39–64, 79–84, 98–100; a panic leaves the window as it was. -/
def step {R : Type} (render : Doc → Media → R) (w : Window R) : Op → Window R
  | .loaded none => w
  | .loaded (some d) => { w with doc := some d, cache := none }
  | .changeMedia m => { w with media := m, cache := none }
  | .changeViewport x y =>
    match w.media.changeViewport x y with
    | (m, true) => { w with media := m, cache := none }
    | (m, false) => { w with media := m }
  | .ensureRender =>
    match ensureRender render w with
    | none => w
    | some (w, _) => w

end Verif.Run
