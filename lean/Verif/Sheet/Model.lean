import Verif.Values.Model
import Verif.Run.Model

/-!
# Sheets: model

What the options of the command line make of the pages: `src/main.cpp`, `src/mod.cpp` 72–268,
`src/vaev-engine/driver/print.cpp`, `values/resolution.cpp` and `style/media.cpp` 200–292.

* Lengths are exact rationals in pixels; the rounding of `Au` and `f64` is not modelled.
* Of Karm, which is not in the repository, this is assumed: `Print::Settings::pageSize` is the minor axis of the
  paper by its major axis, the other way round in landscape; `Print::Settings::headerFooter` is true unless it is
  set; `Rect::shrink` moves each side by its inset; `Rect::fromTwoPoint` is the rectangle between two corners;
  `Insets{a, b, c}` is `a` at the top, `b` at both sides, `c` at the bottom, as in CSS.
* What layout makes of a document is not modelled here: the height of a header and the overflow of a document are
  functions of the document and the medium.
-/

namespace Verif.Sheet
open Verif.Values (Tok eqCi atof)
open Verif.Run (Flow Orientation)

/-! ## Resolutions -/

/-- `Resolution::Unit`, `values/resolution.cpp` 20–26. -/
inductive ResUnit where
  | dpi | dpcm | dppx | infinite
  deriving DecidableEq, Repr

/-- `Resolution`, `values/resolution.cpp` 19–31. -/
structure Resolution where
  val : Rat
  unit : ResUnit
  deriving DecidableEq, Repr

/-- `toDpi`, `values/resolution.cpp` 57–68; `none` is infinite. -/
def Resolution.toDpi (r : Resolution) : Option Rat :=
  match r.unit with
  | .dpi => some r.val
  | .dpcm => some (r.val * (254 / 100))
  | .dppx => some (r.val * 96)
  | .infinite => none

/-- `toDpcm`, `values/resolution.cpp` 70–81. -/
def Resolution.toDpcm (r : Resolution) : Option Rat :=
  match r.unit with
  | .dpi => some (r.val / (254 / 100))
  | .dpcm => some r.val
  | .dppx => some (r.val * 96 / (254 / 100))
  | .infinite => none

/-- `toDppx`, `values/resolution.cpp` 83–94. -/
def Resolution.toDppx (r : Resolution) : Option Rat :=
  match r.unit with
  | .dpi => some (r.val / 96)
  | .dpcm => some (r.val * (254 / 100) / 96)
  | .dppx => some r.val
  | .infinite => none

/-- `_parseResolutionUnit`, `values/resolution.cpp` 121–130. -/
def parseUnit (s : List Char) : Option ResUnit :=
  if eqCi s "dpi".toList then some .dpi
  else if eqCi s "dpcm".toList then some .dpcm
  else if eqCi s "dppx".toList || eqCi s "x".toList then some .dppx
  else none

/-- `ValueParser<Resolution>::parse`, `values/resolution.cpp` 132–146, on the text of an option: `parseValue(Str)`,
`values/base.cpp` 36–43, does not look at what is left. -/
def parseResolution (l : List Tok) : Option Resolution :=
  match l with
  | .dim s :: _ =>
    match atof s with
    | some (v, r) => (parseUnit r).map fun u => ⟨v, u⟩
    | none => (parseUnit s).map fun u => ⟨0, u⟩
  | _ => none

/-! ## Rectangles -/

structure Size where
  width : Rat
  height : Rat
  deriving DecidableEq, Repr

structure Rect where
  x : Rat
  y : Rat
  width : Rat
  height : Rat
  deriving DecidableEq, Repr

/-- `Math::Insets` (Karm). -/
structure Insets where
  top : Rat
  «end» : Rat
  bottom : Rat
  start : Rat
  deriving DecidableEq, Repr

def Rect.size (r : Rect) : Size := ⟨r.width, r.height⟩
def Rect.topStart (r : Rect) : Rat × Rat := (r.x, r.y)
def Rect.topEnd (r : Rect) : Rat × Rat := (r.x + r.width, r.y)
def Rect.bottomStart (r : Rect) : Rat × Rat := (r.x, r.y + r.height)
def Rect.bottomEnd (r : Rect) : Rat × Rat := (r.x + r.width, r.y + r.height)

/-- `Rect::shrink` (Karm). -/
def Rect.shrink (r : Rect) (i : Insets) : Rect :=
  ⟨r.x + i.start, r.y + i.top, r.width - (i.start + i.end), r.height - (i.top + i.bottom)⟩

def least (a b : Rat) : Rat := if a ≤ b then a else b
def most (a b : Rat) : Rat := if a ≤ b then b else a

/-- `Rect::fromTwoPoint` (Karm). -/
def fromTwoPoint (a b : Rat × Rat) : Rect :=
  ⟨least a.1 b.1, least a.2 b.2, most a.1 b.1 - least a.1 b.1, most a.2 b.2 - least a.2 b.2⟩

/-! ## Options -/

/-- `Print::PaperStock`. -/
structure Stock where
  minor : Rat
  major : Rat
  deriving DecidableEq, Repr

/-- `Print::MarginOption`. -/
inductive Preset where
  | default | none | minimum
  deriving DecidableEq, Repr

/-- `Union<Print::MarginOption, Math::Insets<…>>`. -/
inductive Margins where
  | preset (p : Preset)
  | custom (i : Insets)
  deriving DecidableEq, Repr

/-- `Extend`, `mod.cpp` 45–50. -/
inductive Extend where
  | crop | fit
  deriving DecidableEq, Repr

abbrev Doc := Nat
abbrev Color := Nat

/-- `Option`, `mod.cpp` 76–92, without the output format and the batch, which `Verif.Run` has.  The lengths are in
pixels; a `size` that is `none` is `auto`. -/
structure Opts where
  scale : Resolution := ⟨1, .dppx⟩
  density : Resolution := ⟨1, .dppx⟩
  width : Option Rat := none
  height : Option Rat := none
  background : Option Color := none
  stock : Stock
  orientation : Orientation := .portrait
  margins : Margins := .preset .default
  flow : Flow := .auto
  extend : Extend := .crop
  header : Option Doc := none
  footer : Option Doc := none
  headerSize : Option Rat := none
  footerSize : Option Rat := none
  deriving DecidableEq, Repr

/-- `Print::Settings`, as far as it is set here. -/
structure Settings where
  stock : Stock
  orientation : Orientation
  margins : Margins
  scale : Option Rat
  headerFooter : Bool := true
  deriving DecidableEq, Repr

/-- `derivePrintSettings`, `mod.cpp` 94–121. -/
def derivePrintSettings (o : Opts) : Settings :=
  { stock :=
      if o.width.isSome || o.height.isSome then ⟨o.width.getD o.stock.minor, o.height.getD o.stock.major⟩
      else o.stock
    orientation := o.orientation
    margins := o.margins
    scale := o.scale.toDppx }

/-- `Print::Settings::pageSize` (Karm). -/
def pageSize (s : Settings) : Size :=
  match s.orientation with
  | .portrait => ⟨s.stock.minor, s.stock.major⟩
  | .landscape => ⟨s.stock.major, s.stock.minor⟩

/-! ## Media -/

/-- The part of `Style::Media` that depends on the options. -/
structure Media where
  print : Bool
  width : Rat
  height : Rat
  orientation : Orientation
  resolution : Option Rat
  deriving DecidableEq, Repr

/-- `Media::forPrint`, `style/media.cpp` 239–277. -/
def forPrint (s : Settings) : Media :=
  { print := true, width := (pageSize s).width, height := (pageSize s).height, orientation := s.orientation
    resolution := s.scale }

/-- `Media::forRender`, `style/media.cpp` 200–237. -/
def forRender (size : Size) (scale : Resolution) : Media :=
  { print := false, width := size.width, height := size.height, orientation := .portrait, resolution := scale.toDppx }

/-- `Window::changeMedia` and `changeViewport`, `dom/window.cpp` 39–47, with `Media::changeViewport`,
`style/media.cpp` 140–155: the medium a window has afterwards. -/
def viewed (m : Media) (s : Size) : Media := { m with width := s.width, height := s.height }

/-- `Media::scaledViewport`, `style/media.cpp` 287–292; `none` if the scale is zero or infinite. -/
def scaledViewport (m : Media) : Option Size :=
  match m.resolution with
  | some k => if k = 0 then none else some ⟨m.width / k, m.height / k⟩
  | none => none

/-! ## Pages -/

/-- A margin of a page, as it is declared: `Width` with a `calc()` of one value.  Lengths are relative to fonts or to
the view, `em`, or absolute. -/
inductive Side where
  | auto
  | px (v : Rat)
  | relative (v : Rat)
  | percent (p : Rat)
  deriving DecidableEq, Repr

/-- `Margin`. -/
structure Sides where
  top : Side
  «end» : Side
  bottom : Side
  start : Side
  deriving DecidableEq, Repr

/-- `Resolver::resolve(Width, Au)`, `layout/base/values.cpp` 60–64, for the resolver `{}` of `driver/print.cpp` 133,
in which all metrics are zero. -/
def resolveSide (whole : Rat) : Side → Rat
  | .auto => 0
  | .px v => v
  | .relative v => v * 0
  | .percent p => whole * p / 100

/-- `_resolvePageMargin`, `driver/print.cpp` 125–154. -/
def resolvePageMargin (m : Margins) (css : Sides) (page : Rect) : Insets :=
  match m with
  | .preset .none => ⟨0, 0, 0, 0⟩
  | .preset .default =>
    ⟨resolveSide page.height css.top, resolveSide page.width css.end, resolveSide page.height css.bottom,
      resolveSide page.width css.start⟩
  | .preset .minimum => ⟨0, 0, 0, 0⟩
  | .custom i => i

/-- `PageLayoutInfos`, `driver/print.cpp` 23–31. -/
structure Info where
  number : Nat
  page : Rect
  decoration : Rect
  content : Rect
  deriving DecidableEq, Repr

/-- `HeaderFooterDecorator`, `mod.cpp` 134–139. -/
structure Decorator where
  header : Option Doc
  footer : Option Doc
  headerSize : Option Rat
  footerSize : Option Rat
  deriving DecidableEq, Repr

/-- `_memo`, `mod.cpp` 139. -/
abbrev Memo := List (Size × (Rat × Rat))

/-- One of the halves of the lambda in `layout`, `mod.cpp` 143–166.  `tall` is `ensureRender().frag->borderBox().height`
of a document in a medium; `changeMedia` before it drops what was rendered earlier. -/
def heightOf (tall : Doc → Media → Rat) (m : Media) (area : Size) (doc : Option Doc) : Option Rat → Rat
  | none =>
    match doc with
    | some d => tall d (viewed m area)
    | none => 0
  | some h => h

def lookup (memo : Memo) (s : Size) : Option (Rat × Rat) := (memo.find? (·.1 = s)).map (·.2)

/-- `lookupOrPut` (Karm) in `HeaderFooterDecorator::layout`, `mod.cpp` 141–167. -/
def heights (tall : Doc → Media → Rat) (d : Decorator) (m : Media) (memo : Memo) (area : Size) : Memo × (Rat × Rat) :=
  match lookup memo area with
  | some h => (memo, h)
  | none =>
    let h := (heightOf tall m area d.header d.headerSize, heightOf tall m area d.footer d.footerSize)
    (memo ++ [(area, h)], h)

/-- `HeaderFooterDecorator::layout`, `mod.cpp` 141–169: the area that is left for the content. -/
def decoLayout (tall : Doc → Media → Rat) (d : Decorator) (m : Media) (memo : Memo) (area : Rect) : Memo × Rect :=
  let r := heights tall d m memo area.size
  (r.1, area.shrink ⟨r.2.1, 0, r.2.2, 0⟩)

/-- One round of `collectBreakPointsAndRunningPositions`, `driver/print.cpp` 160–178, without the layout of the
content; `css` are the margins in the style of the page. -/
def collectOne (tall : Doc → Media → Rat) (s : Settings) (d : Decorator) (m : Media) (view : Size) (memo : Memo)
    (number : Nat) (css : Sides) : Memo × Info :=
  let page : Rect := ⟨0, 0, view.width, view.height⟩
  let decoration := page.shrink (resolvePageMargin s.margins css page)
  let r := decoLayout tall d m memo decoration
  (r.1, ⟨number, page, decoration, r.2⟩)

/-- `collectBreakPointsAndRunningPositions`, `driver/print.cpp` 156–216: one round for each page; how many there are is
left to the content. -/
def collect (tall : Doc → Media → Rat) (s : Settings) (d : Decorator) (m : Media) (view : Size) (css : Nat → Sides) :
    Nat → Nat → Memo → Memo × List Info
  | 0, _, memo => (memo, [])
  | n + 1, done, memo =>
    let r := collectOne tall s d m view memo (done + 1) (css (done + 1))
    let rs := collect tall s d m view css n (done + 1) r.1
    (rs.1, r.2 :: rs.2)

/-! ## Painting -/

/-- `PageArea`, `style/page.cpp` 18–47. -/
inductive Area where
  | footnote | top | topLeftCorner | topLeft | topCenter | topRight | topRightCorner | right | rightTop | rightMiddle
  | rightBottom | bottom | bottomRightCorner | bottomRight | bottomCenter | bottomLeft | bottomLeftCorner | left
  | leftBottom | leftMiddle | leftTop
  deriving DecidableEq, Repr

/-- What is painted on a page, in the coordinates of the document: a margin box in a rectangle; three in a row that
share one; a document with its corner at a point; the content. -/
inductive Item where
  | corner (a : Area) (r : Rect)
  | strip (main : Area) (subs : List Area) (r : Rect)
  | decoration (d : Doc) (m : Media) (x y : Rat)
  | content (r : Rect)
  deriving DecidableEq, Repr

/-- `_paintMargins`, `driver/print.cpp` 84–108, with `_paintCornerMargin` and `_paintMainMargin`, 45–82. -/
def paintMargins (page content : Rect) : List Item :=
  let tl := fromTwoPoint page.topStart content.topStart
  let tr := fromTwoPoint page.topEnd content.topEnd
  let bl := fromTwoPoint page.bottomStart content.bottomStart
  let br := fromTwoPoint page.bottomEnd content.bottomEnd
  [.corner .topLeftCorner tl, .corner .topRightCorner tr, .corner .bottomLeftCorner bl,
   .corner .bottomRightCorner br,
   .strip .top [.topLeft, .topCenter, .topRight] (fromTwoPoint tl.topEnd tr.bottomStart),
   .strip .bottom [.bottomLeft, .bottomCenter, .bottomRight] (fromTwoPoint bl.topEnd br.bottomStart),
   .strip .left [.leftTop, .leftMiddle, .leftBottom] (fromTwoPoint tl.bottomEnd bl.topStart),
   .strip .right [.rightTop, .rightMiddle, .rightBottom] (fromTwoPoint tr.bottomEnd br.topStart)]

/-- `HeaderFooterDecorator::decorate`, `mod.cpp` 171–188; `none` is the panic of `unwrap`. -/
def decorate (d : Decorator) (m : Media) (memo : Memo) (area : Rect) : Option (List Item) :=
  match lookup memo area.size with
  | none => none
  | some (h, f) =>
    some ((match d.header with
        | some doc => [.decoration doc (viewed m ⟨area.width, h⟩) area.x area.y]
        | none => []) ++
      (match d.footer with
        | some doc => [.decoration doc (viewed m ⟨area.width, f⟩) area.x (area.y + area.height - f)]
        | none => []))

/-- `Print::Page`, with the `Scene::Transform` of `driver/print.cpp` 280–286 and the `PageLayoutInfos` it was made from. -/
structure Sheet where
  info : Info
  size : Size
  zoom : Rat
  items : List Item
  deriving DecidableEq, Repr

/-- The painting of a page, `driver/print.cpp` 266–287. -/
def paintPage (s : Settings) (d : Decorator) (m : Media) (zoom : Rat) (memo : Memo) (i : Info) : Option Sheet :=
  match decorate d m memo i.decoration with
  | none => none
  | some deco =>
    some ⟨i, pageSize s, zoom,
      (if s.headerFooter && decide (s.margins ≠ .preset .none) then paintMargins i.page i.content else []) ++ deco ++
        [.content i.content]⟩

def paintAll (s : Settings) (d : Decorator) (m : Media) (zoom : Rat) (memo : Memo) : List Info → Option (List Sheet)
  | [] => some []
  | i :: is =>
    match paintPage s d m zoom memo i, paintAll s d m zoom memo is with
    | some p, some ps => some (p :: ps)
    | _, _ => none

/-- What becomes of printing: the pages, a division by zero or by infinity, or a panic. -/
inductive Printed where
  | pages (l : List Sheet)
  | noScale
  | panic
  deriving DecidableEq, Repr

/-- `runSingleAsync` when it paginates, `mod.cpp` 203–230, with `print`, `driver/print.cpp` 218–289: `css` are the
margins in the styles of the pages, by their numbers, and `n` is how many pages there are. -/
def printed (tall : Doc → Media → Rat) (o : Opts) (css : Nat → Sides) (n : Nat) : Printed :=
  let s := derivePrintSettings o
  let m := forPrint s
  let d : Decorator := ⟨o.header, o.footer, o.headerSize, o.footerSize⟩
  match scaledViewport m, m.resolution with
  | some view, some zoom =>
    let r := collect tall s d m view css n 0 []
    match paintAll s d m zoom r.1 r.2 with
    | some l => .pages l
    | none => .panic
  | _, _ => .noScale

/-! ## Pictures -/

/-- What the scene of a document is painted on. -/
inductive Ground where
  | clear (c : Color)
  | white
  | transparent
  deriving DecidableEq, Repr

/-- The one page of a document that is not paginated: its size, what it is painted on and the medium the document is
laid out in, with its corner at the corner of the page. -/
structure Picture where
  size : Size
  ground : Ground
  medium : Media
  deriving DecidableEq, Repr

/-- `deriveMedia`, `mod.cpp` 123–131. -/
def deriveMedia (o : Opts) : Media := forRender ⟨o.width.getD 800, o.height.getD 600⟩ o.scale

/-- `runSingleAsync` when it does not paginate, `mod.cpp` 231–265: `html` tells that the root is of HTML, `overflow`
is `scrollableOverflow` of the document in a medium. -/
def picture (overflow : Media → Rect) (o : Opts) (html : Bool) : Picture :=
  let m := deriveMedia o
  { size :=
      match o.extend with
      | .crop => ⟨m.width, m.height⟩
      | .fit => ⟨(overflow m).width, (overflow m).height⟩
    ground :=
      match o.background with
      | some c => .clear c
      | none => if html then .white else .transparent
    medium := m }

/-! ## The command line -/

/-- The options that are used in `main.cpp` itself.  `paper` is `none` for `--paper list`. -/
structure Args where
  verbose : Bool := false
  quiet : Bool := false
  sandboxed : Bool := false
  inputs : List String := ["-"]
  output : String := "-"
  format : Option String := none
  paper : Option Stock
  flow : Flow := .auto
  deriving DecidableEq, Repr

/-- The levels of the log that can be set. -/
inductive Level where
  | info | print | fatal
  deriving DecidableEq, Repr

/-- What the command does. -/
inductive Action where
  | listPapers
  | conflict
  | noSandbox
  | convert (level : Level) (inputs : List String) (output : String) (format : String) (stock : Stock) (paginates : Bool)
  deriving DecidableEq, Repr

/-- What of Karm the command line needs: `Ref::parseUrlOrPath` in the current directory, `path.suffix()` and
`Ref::Uti::fromSuffix`, and whether the sandbox can be entered. -/
structure Env where
  url : String → String
  suffix : String → String
  fromSuffix : String → String
  sandbox : Bool

def pdf : String := "public.pdf"

/-- The url of an input, `main.cpp` 187–192. -/
def inputUrl (e : Env) (i : String) : String := if i = "-" then "fd:stdin" else e.url i

/-- `entryPointAsync`, `main.cpp` 148–213, and `mod.cpp` 277–281. -/
def entry (e : Env) (a : Args) : Action :=
  match a.paper with
  | none => .listPapers
  | some stock =>
    if a.verbose && a.quiet then .conflict
    else if a.sandboxed && !e.sandbox then .noSandbox
    else
      let output := if a.output ≠ "-" then e.url a.output else "fd:stdout"
      let format := a.format.getD (if e.suffix output ≠ "" then e.fromSuffix (e.suffix output) else pdf)
      .convert (if a.quiet then .fatal else if a.verbose then .print else .info)
        (a.inputs.map (inputUrl e)) output format stock
        (match a.flow with
          | .auto => decide (format = pdf)
          | .paginate => true
          | .continuous => false)

/-! ## The sandbox -/

/-- `Http::pipeTransport`, `httpTransport` and `localTransport` (Karm), by the schemes they take. -/
inductive Transport where
  | pipe
  | http
  | local (schemes : List String)
  | anyLocal
  deriving DecidableEq, Repr

/-- `_createHttpTransport`, `mod.cpp` 52–67: the transports of which the first that takes a request serves it. -/
def transports (sandboxed : Bool) : List Transport :=
  if sandboxed then [.pipe, .local ["bundle", "fd", "data"]] else [.pipe, .http, .anyLocal]

/-- What the transports take (Karm): `pipe:` is the pipe, `http:` and `https:` the network, `file:`, `bundle:`, `fd:`
and `data:` are local. -/
def takes (scheme : String) : Transport → Bool
  | .pipe => scheme == "pipe"
  | .http => scheme == "http" || scheme == "https"
  | .local ss => ss.contains scheme
  | .anyLocal => ["file", "bundle", "fd", "data"].contains scheme

/-- Whether a request for a url of this scheme is served. -/
def served (sandboxed : Bool) (scheme : String) : Bool := (transports sandboxed).any (takes scheme)

/-- The world behind the client of `defaultHttpClient`, `mod.cpp` 69–74, through which all is loaded and saved. -/
def behind (scheme : String → String) (sandboxed : Bool) (w : Verif.Run.World) : Verif.Run.World :=
  { w with
    load := fun tr u => if served sandboxed (scheme u) then w.load tr u else none
    put := fun tr u ps => served sandboxed (scheme u) && w.put tr u ps }

end Verif.Sheet
