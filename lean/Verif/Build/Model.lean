import Verif.Build.Text
/-!
# Building boxes: model

`layout/builder/mod.cpp` 163–1083 and `layout/base/box.cpp`, with the display values of `values/display.cpp` 19–231. All
paths are relative to `src/vaev-engine`.

* `Option` stands for the effect: `none` is the panic of `BuilderContext::rootInlineBox` (`mod.cpp` 233–237), the only
  one that the building of boxes has.
* The references `_parent` and `_rootInlineBox` of a context are the state `St` that is passed on.
* A prose is the list of what was appended to it: characters and struts. A strut holds its box, while the code holds
  the index of the box among the children (`box.cpp` 49–53). Spans are left out. A prose with a strut in it counts as
  active (`box.cpp` 143–148), as Karm puts a rune for a strut.
* An `<svg>` element and its descendants are one atom (`mod.cpp` 373–419 are left out).
* Computed values are the display, `white-space`, `text-transform` and `caption-side`.
-/
namespace Verif.Build

/-- `Display::Internal`, `display.cpp` 29–45, without `TABLE_BOX`, which no declaration yields (382–413). The four ruby
values are one. -/
inductive Internal where
  | rowGroup | headerGroup | footerGroup | row | cell | columnGroup | column | caption | ruby
  deriving DecidableEq, Repr

/-- `Display::Inside`, `display.cpp` 65–75. -/
inductive Inside where
  | flow | flowRoot | flex | grid | ruby | table | math
  deriving DecidableEq, Repr

/-- `Display::Outside`, `display.cpp` 79–85. -/
inductive Outside where
  | block | inline | runIn
  deriving DecidableEq, Repr

/-- `Display`, `display.cpp` 106–129. -/
inductive Disp where
  | none
  | contents
  | internal (i : Internal)
  | dflt (ins : Inside) (out : Outside) (item : Bool)
  deriving DecidableEq, Repr

/-- What an `<input>` shows, `mod.cpp` 426–479. -/
inductive Input where
  | hidden
  | widget
  | text (value : List Char)
  deriving DecidableEq, Repr

/-- The elements that the builder tells apart; `void` are the other ones of `dom/element.cpp` 172–186. -/
inductive Kind where
  | plain | br | svg | img
  | input (i : Input)
  | void
  deriving DecidableEq, Repr

/-- A pseudo-element that is not skipped by `mod.cpp` 934–939; `text` is its text, `none` when its content is not a
string (941–966). -/
structure Pseudo where
  id : Nat
  disp : Disp := .dflt .flow .inline false
  sty : Sty := {}
  text : Option (List Char) := .none
  deriving Repr

structure Elem where
  id : Nat
  kind : Kind := .plain
  disp : Disp
  sty : Sty := {}
  marker : Option Pseudo := .none
  before : Option Pseudo := .none
  after : Option Pseudo := .none
  captionTop : Bool := true
  deriving Repr

/-- The document; `other` is a comment or the like. -/
inductive Node where
  | text (s : List Char)
  | other
  | el (e : Elem) (kids : List Node)

/-- The display of a box: that of its element or of `TABLE_BOX`. -/
inductive BDisp where
  | own (d : Disp)
  | tableBox
  deriving DecidableEq, Repr

mutual
/-- `Box`, `box.cpp` 22–27; `org` is the element or pseudo-element that it comes from. -/
inductive Box where
  | mk (disp : BDisp) (org : Option Nat) (content : Content) (kids : List Box)
/-- `Content`, `box.cpp` 12–20. -/
inductive Content where
  | none
  | prose (items : List Item)
  | atom (id : Nat)
/-- What a prose consists of. -/
inductive Item where
  | ch (c : Char)
  | strut (b : Box)
end

def Box.disp : Box → BDisp
  | .mk d _ _ _ => d

def Box.kids : Box → List Box
  | .mk _ _ _ k => k

def Box.content : Box → Content
  | .mk _ _ c _ => c

/-- The box `_parent` and the box `_rootInlineBox` that a context refers to, `mod.cpp` 187–188. -/
structure St where
  kids : List Box := []
  content : Content := .none
  inl : Option (List Item) := some []

/-- `Box::add`, `box.cpp` 49–53. -/
def St.add (st : St) (b : Box) : St :=
  match st.content with
  | .prose items => { st with content := .prose (items ++ [.strut b]) }
  | _ => { st with kids := st.kids ++ [b] }

def Item.isStrut : Item → Bool
  | .ch _ => false
  | .strut _ => true

/-- `_parent.children()` is not empty. -/
def St.hasKids (st : St) : Bool :=
  !st.kids.isEmpty || match st.content with
    | .prose items => items.any Item.isStrut
    | _ => false

def anonBlock : BDisp := .own (.dflt .flow .block false)

/-- `flushRootInlineBoxIntoAnonymousBox`, `mod.cpp` 191–208. -/
def St.flush (st : St) : St :=
  match st.inl with
  | some (i :: is) => { st with inl := some [] }.add (.mk anonBlock none (.prose (i :: is)) [])
  | _ => st

/-- `finalizeParentBoxAndFlushInline`, `mod.cpp` 210–223. -/
def St.finalize (st : St) : St :=
  match st.inl with
  | some (i :: is) =>
    if st.hasKids then st.flush
    else { kids := [], content := .prose (i :: is), inl := some [] }
  | _ => st

/-- `BuilderContext::From`, `mod.cpp` 178–183. -/
inductive From where
  | block | inline | flex | table
  deriving DecidableEq, Repr

/-- `from` and `parentComputedValues` of `BuilderContext`, `mod.cpp` 185–186. -/
structure Ctx where
  src : From := .block
  sty : Sty := {}
  deriving DecidableEq, Repr

/-- `addToInlineRoot`, `mod.cpp` 239–241. -/
def St.addInline (st : St) (b : Box) : Option St :=
  match st.inl with
  | some items => some { st with inl := some (items ++ [.strut b]) }
  | none => none

/-- `_buildText`, `mod.cpp` 322–348. -/
def buildText (cx : Ctx) (st : St) (s : List Char) (sty : Sty) : Option St :=
  match st.inl with
  | none => none
  | some items =>
    if (cx.src = .table || cx.src = .flex || cx.src = .block) && blank s then some st
    else
      let st' := { st with inl := some (items ++ (appendText sty (!items.isEmpty) s).map .ch) }
      some (if cx.src = .flex then st'.flush else st')

/-- `_buildVoidElement` with `_buildImage` and `_buildInputProse`, `mod.cpp` 350–368 and 421–483. -/
def buildVoid (st : St) (e : Elem) : St :=
  match e.kind with
  | .input .hidden => st
  | .input .widget => { st with content := .atom e.id }
  | .input (.text v) => { st with content := .prose (v.map .ch) }
  | .img => { st with content := .atom e.id }
  | _ => st

def Disp.isFlex : Disp → Bool
  | .dflt .flex _ _ => true
  | _ => false

def Disp.item : Disp → Bool
  | .dflt _ _ i => i
  | _ => false

/-- The test of `mod.cpp` 968–969. -/
def Disp.flowsInline : Disp → Bool
  | .dflt _ .inline _ => true
  | .contents => true
  | _ => false

/-- `_buildPseudoElement`, `mod.cpp` 926–997. -/
def buildPseudo (cx : Ctx) (st : St) (p : Pseudo) : Option St :=
  let gen (cx : Ctx) (st : St) : Option St :=
    match p.text with
    | none => some st
    | some t => buildText cx st t p.sty
  if p.disp = .none then some st
  else if p.disp.flowsInline then
    match st.inl with
    | none => none
    | some _ => gen cx st
  else
    let st := st.flush
    (gen { src := if p.disp.isFlex then .flex else .block, sty := p.sty } {}).map fun inner =>
      let inner := inner.finalize
      st.add (.mk (.own p.disp) (some p.id) inner.content inner.kids)

def buildPseudo? (cx : Ctx) (st : St) : Option Pseudo → Option St
  | none => some st
  | some p => buildPseudo cx st p

/-- What the builder of an element does with the children: the closures over the recursive calls. -/
structure Rec where
  /-- `_buildNode` for each child, `mod.cpp` 849–851. -/
  kids : Ctx → St → Option St
  /-- The captions, `mod.cpp` 738–747. -/
  captions : St → Option St
  /-- The children of a table, `mod.cpp` 762–764: the children of the table box. -/
  rows : Sty → Option (List Box)

/-- `_buildChildren`, `mod.cpp` 837–856. -/
def buildChildren (cx : Ctx) (st : St) (e : Elem) (rec : Rec) : Option St :=
  (if e.disp.item then buildPseudo? cx st e.marker else some st).bind fun st =>
  (buildPseudo? cx st e.before).bind fun st =>
  (rec.kids cx st).bind fun st =>
  buildPseudo? cx st e.after

/-- `buildBlockFlowFromElement`, `mod.cpp` 516–527. -/
def blockFlow (cx : Ctx) (st : St) (e : Elem) (rec : Rec) : Option St :=
  (match e.kind with
  | .br => some st
  | .svg => some { st with content := .atom e.id }
  | .plain => buildChildren cx st e rec
  | _ => some (buildVoid st e)).map St.finalize

/-- `createAndBuildBoxFromElement`, `mod.cpp` 529–547. -/
def boxFromElement (e : Elem) (disp : Disp) (rec : Rec) : Option Box :=
  (blockFlow { src := if disp.isFlex then .flex else .block, sty := e.sty } {} e rec).map fun st =>
    .mk (.own disp) (some e.id) st.content st.kids

/-- `_createTableWrapperAndBuildTable` and `_buildTableBox`, `mod.cpp` 737–807. -/
def tableFromElement (e : Elem) (disp : Disp) (rec : Rec) : Option Box :=
  let st : St := { inl := none }
  (if e.captionTop then rec.captions st else some st).bind fun st =>
  (buildPseudo? {} st e.before).bind fun st =>
  (rec.rows e.sty).bind fun rows =>
  let st := st.add (.mk .tableBox (some e.id) .none rows)
  (if e.captionTop then some st else rec.captions st).bind fun st =>
  (buildPseudo? {} st e.after).map fun st =>
    .mk (.own disp) (some e.id) st.content st.kids

/-- The box made by `_innerDisplayDispatchCreationOf…LevelBox`, `mod.cpp` 812–833. -/
def levelBox (e : Elem) (disp : Disp) (rec : Rec) : Option Box :=
  match disp with
  | .dflt .table _ _ => tableFromElement e disp rec
  | _ => boxFromElement e disp rec

/-- `Display::blockify`, `display.cpp` 271–299, on a default display. -/
def blockify : Disp → Disp
  | .dflt ins .block item => .dflt ins .block item
  | .dflt .flowRoot _ item => .dflt .flow .block item
  | .dflt ins _ item => .dflt ins .block item
  | d => d

/-- `_alwaysInlineBlock`, `mod.cpp` 490–492. -/
def alwaysInlineBlock (e : Elem) : Bool :=
  e.kind = .img || e.kind = .svg

/-- `createAndBuildInlineFlowfromElement`, `mod.cpp` 498–514. -/
def inlineFlow (cx : Ctx) (st : St) (e : Elem) (rec : Rec) : Option St :=
  match e.kind with
  | .br => some st.flush
  | .plain | .svg =>
    match st.inl with
    | none => none
    | some _ => buildChildren { src := .inline, sty := e.sty } st e rec
  | _ => some (buildVoid st e)

/-- `_buildChildDefaultDisplay`, `mod.cpp` 873–891. -/
def defaultDisplay (cx : Ctx) (st : St) (e : Elem) (ins : Inside) (out : Outside) (rec : Rec) : Option St :=
  if cx.src = .flex then (levelBox e (blockify e.disp) rec).map st.add
  else if out = .block then (levelBox e e.disp rec).map st.flush.add
  else if alwaysInlineBlock e || ins ≠ .flow then (levelBox e e.disp rec).bind st.addInline
  else inlineFlow cx st e rec

/-- `_buildNode` on an element, `mod.cpp` 858–871 and 896–906. -/
def buildElem (cx : Ctx) (st : St) (e : Elem) (rec : Rec) : Option St :=
  match e.disp with
  | .none => some st
  | .contents => buildChildren cx st e rec
  | .internal _ => (levelBox e e.disp rec).map st.add
  | .dflt ins out _ => defaultDisplay cx st e ins out rec

/-- `AnonymousTableBoxWrapper`, `mod.cpp` 553–559, with the box that `bc` refers to. -/
structure Wrap where
  out : St := { inl := none }
  row : Option St := none
  cell : Option St := none

/-- `createRowIfNone`, `mod.cpp` 561–568. -/
def Wrap.createRow (w : Wrap) : Wrap :=
  match w.row with
  | some _ => w
  | none => { w with row := some { inl := none } }

/-- `createCellIfNone`, `mod.cpp` 570–586. -/
def Wrap.createCell (w : Wrap) : Wrap :=
  match w.cell with
  | some _ => w
  | none => { w with cell := some {} }

def Content.isNone : Content → Bool
  | .none => true
  | _ => false

/-- `finalizeAndResetCell`, `mod.cpp` 588–601. -/
def Wrap.finCell (w : Wrap) : Wrap :=
  match w.cell with
  | none => w
  | some c =>
    let c := c.finalize
    if !c.content.isNone || !c.kids.isEmpty then
      let b := Box.mk (.own (.internal .cell)) none c.content c.kids
      match w.row with
      | some r => { w with row := some (r.add b), cell := none }
      | none => { w with out := w.out.add b, cell := none }
    else { w with cell := none }

/-- `finalizeAndResetRow`, `mod.cpp` 603–611. -/
def Wrap.finRow (w : Wrap) : Wrap :=
  match w.row with
  | none => w
  | some r =>
    if !r.content.isNone || !r.kids.isEmpty then
      { w with out := w.out.add (.mk (.own (.internal .row)) none r.content r.kids), row := none }
    else { w with row := none }

/-- Whose children are wrapped. -/
inductive Mode where
  | root | group | row
  deriving DecidableEq, Repr

/-- `predForAccepted`, `mod.cpp` 693–695, 713–715, 762–764; `isProperTableChild`, `display.cpp` 233–250. -/
def accepts : Mode → Internal → Bool
  | .root, .caption => true
  | .root, .row => true
  | .root, .column => true
  | .root, .rowGroup => true
  | .root, .headerGroup => true
  | .root, .footerGroup => true
  | .root, .columnGroup => true
  | .root, _ => false
  | .group, i => i = .row
  | .row, i => i = .cell

def acceptsDisp (m : Mode) : Disp → Option Internal
  | .internal i => if accepts m i then some i else none
  | _ => none

/-- The children of a column group, `mod.cpp` 700–707. Line 705 passes on the display of the group, so the box of a
column is built like that of a group. -/
def columns : List Node → List Box
  | [] => []
  | .el e ks :: rest =>
    if e.disp = .internal .column then .mk (.own e.disp) (some e.id) .none (columns ks) :: columns rest
    else columns rest
  | _ :: rest => columns rest

/-- `_buildTableInternal`, `mod.cpp` 684–735: the children of the box, or `none` when no box is added (723–731). `wrap`
is `_buildTableChildrenWhileWrappingIntoAnonymousBox` on the children of the element, `cols` the columns among them. -/
def tableInternal (i : Internal) (wrap : Mode → Option (List Box)) (cols : List Box) : Option (Option (List Box)) :=
  match i with
  | .rowGroup | .headerGroup | .footerGroup => (wrap .group).map some
  | .row => (wrap .row).map some
  | .columnGroup => some (some cols)
  | .column => some (some [])
  | _ => some none

mutual
/-- `_buildNode`, `mod.cpp` 894–910. -/
def buildNode (cx : Ctx) (st : St) : Node → Option St
  | .text s => buildText cx st s cx.sty
  | .other => some st
  | .el e ks =>
    buildElem cx st e {
      kids := fun cx st => buildKids cx st ks
      captions := fun st => buildCaptions st ks
      rows := fun sty => (tableKids .root sty {} ks).map fun w => w.finCell.finRow.out.kids }

/-- The loop of `_buildChildren`, `mod.cpp` 849–851. -/
def buildKids (cx : Ctx) (st : St) : List Node → Option St
  | [] => some st
  | n :: rest => (buildNode cx st n).bind fun st => buildKids cx st rest

/-- `searchAndBuildCaption`, `mod.cpp` 738–747. -/
def buildCaptions (st : St) : List Node → Option St
  | [] => some st
  | .el e ks :: rest =>
    (if e.disp = .internal .caption then buildNode {} st (.el e ks) else some st).bind fun st => buildCaptions st rest
  | _ :: rest => buildCaptions st rest

/-- The loop of `_buildTableChildrenWhileWrappingIntoAnonymousBox`, `mod.cpp` 634–677. -/
def tableKids (m : Mode) (sty : Sty) (w : Wrap) : List Node → Option Wrap
  | [] => some w
  | .text s :: rest =>
    let w := (if m = .row then w else w.createRow).createCell
    match w.cell with
    | none => none
    | some c =>
      (buildText { src := .table, sty := sty } c s sty).bind fun c => tableKids m sty { w with cell := some c } rest
  | .other :: rest => tableKids m sty w rest
  | .el e ks :: rest =>
    if m = .root ∧ e.disp = .internal .caption then tableKids m sty w rest
    else
      match acceptsDisp m e.disp with
      | some .cell =>
        let w := w.finCell.finRow
        (buildNode { src := .table, sty := sty } w.out (.el e ks)).bind fun st =>
          tableKids m sty { w with out := st } rest
      | some i =>
        let w := w.finCell.finRow
        (tableInternal i (fun m' => (tableKids m' e.sty {} ks).map fun w => w.finCell.finRow.out.kids)
            (columns ks)).bind fun b =>
          match b with
          | some kids =>
            tableKids m sty { w with out := w.out.add (.mk (.own e.disp) (some e.id) .none kids) } rest
          | none => tableKids m sty w rest
      | none =>
        if m = .row then
          let w := w.createCell
          match w.cell with
          | none => none
          | some c =>
            (buildNode { src := .table, sty := sty } c (.el e ks)).bind fun c =>
              tableKids m sty { w with cell := some c } rest
        else if e.disp = .internal .cell then
          let w := w.finCell.createRow
          match w.row with
          | none => none
          | some r =>
            (buildNode { src := .table, sty := sty } r (.el e ks)).bind fun r =>
              tableKids m sty { w with row := some r } rest
        else
          let w := w.createRow.createCell
          match w.cell with
          | none => none
          | some c =>
            (buildNode { src := .table, sty := sty } c (.el e ks)).bind fun c =>
              tableKids m sty { w with cell := some c } rest
end

/-- `buildElement`, `mod.cpp` 1003–1033, and `buildDocument`, 1074–1083. -/
def buildRoot (e : Elem) (ks : List Node) : Option Box :=
  (blockFlow { src := .block, sty := e.sty } {} e {
    kids := fun cx st => buildKids cx st ks
    captions := fun _ => none
    rows := fun _ => none }).map fun st =>
  .mk (.own e.disp) (some e.id) st.content st.kids

end Verif.Build
