/-!
# Pagination: model

Block layout with its break points, the discovery of the breaks and the printing of the pages.
All files are below `/repo/src/vaev-engine`.

What is modelled is the vertical direction of block layout. Not modelled: the horizontal direction,
tables (`layout/table.cpp` has its own way of breaking), `Au` overflow (heights are integers), and how
tall an inline, replaced, flex or SVG box comes out: that is given, see `Met.extent`.
-/
namespace Verif.Paginate

/-! ## Break points -/

/-- `layout/base/breaks.cpp` 68–75 (`MAX`, of `fromChildren`, is for tables only). -/
inductive Appeal where
  | empty | overflow | avoid | classB | forced
  deriving DecidableEq, Repr

/-- The numbers of the enumerators, `breaks.cpp` 69–73, on which `<=` compares. -/
def Appeal.rank : Appeal → Nat
  | .empty => 0 | .overflow => 1 | .avoid => 2 | .classB => 3 | .forced => 4

/-- `breaks.cpp` 77–81. -/
inductive Adv where
  | dont | withChildren | withoutChildren
  deriving DecidableEq, Repr

/-- `breaks.cpp` 67–87. `children` has no entry (`flat`) or, for block layout, just one (`deep`).
The member `completelyLaidOut` is never read and left out. -/
inductive Bp where
  | flat (endIdx : Nat) (appeal : Appeal) (adv : Adv)
  | deep (endIdx : Nat) (appeal : Appeal) (adv : Adv) (child : Bp)
  deriving DecidableEq, Repr

namespace Bp

def endIdx : Bp → Nat
  | flat e _ _ => e
  | deep e _ _ _ => e

def appeal : Bp → Appeal
  | flat _ a _ => a
  | deep _ a _ _ => a

def adv : Bp → Adv
  | flat _ _ v => v
  | deep _ _ v _ => v

def child : Bp → Option Bp
  | flat _ _ _ => none
  | deep _ _ _ c => some c

/-- The default values of the members, `breaks.cpp` 83–86; `currentBreakpoint` of
`layout/block.cpp` 272 starts so. -/
def initial : Bp := flat 0 .empty .withoutChildren

/-- `breaks.cpp` 89–96. -/
def bottomOfMonolithicBox (children : Nat) : Bp := flat children .classB .withoutChildren

/-- `breaks.cpp` 98–105. -/
def forcedAt (e : Nat) : Bp := flat e .forced .withoutChildren

/-- `breaks.cpp` 107–119. -/
def fromChild (c : Bp) (e : Nat) (isAvoid : Bool) : Bp :=
  deep e (if isAvoid then .avoid else c.appeal) .dont c

/-- `breaks.cpp` 145–153. -/
def classB (e : Nat) (isAvoid : Bool) : Bp :=
  flat e (if isAvoid then .avoid else .classB) .withoutChildren

/-- `breaks.cpp` 155–160. -/
def startOfDocument : Bp := flat 0 .empty .withoutChildren

/-- `breaks.cpp` 162–169. -/
def overflow : Bp := flat 0 .overflow .dont

/-- `breaks.cpp` 176–183. -/
def overrideIfBetter (cur other : Bp) : Bp :=
  if cur.appeal = .overflow ∧ other.appeal = .overflow then cur
  else if cur.appeal.rank ≤ other.appeal.rank then other
  else cur

end Bp

/-- `breaks.cpp` 194–200. -/
structure Trav where
  prev : Option Bp := none
  curr : Option Bp := none

namespace Trav

/-- `breaks.cpp` 206–214, with `j = 0`. -/
def traversePrev (t : Trav) (i : Nat) : Option Bp :=
  match t.prev with
  | none => none
  | some p =>
    match p.child with
    | none => none
    | some c => if i + 1 = p.endIdx ∨ (p.adv = .withChildren ∧ i = p.endIdx) then some c else none

/-- `breaks.cpp` 216–222, with `j = 0`. -/
def traverseCurr (t : Trav) (i : Nat) : Option Bp :=
  match t.curr with
  | none => none
  | some p =>
    match p.child with
    | none => none
    | some c => if i + 1 = p.endIdx then some c else none

/-- `breaks.cpp` 224–233. -/
def inside (t : Trav) (i : Nat) : Trav := ⟨t.traversePrev i, t.traverseCurr i⟩

/-- `breaks.cpp` 235–239. The subtraction is on `usize` and wraps. -/
def getStart (t : Trav) : Option Nat :=
  match t.prev with
  | none => none
  | some p =>
    some (if p.adv = .dont then (if p.endIdx = 0 then 18446744073709551615 else p.endIdx - 1) else p.endIdx)

/-- `breaks.cpp` 241–245. -/
def getEnd (t : Trav) : Option Nat := t.curr.map Bp.endIdx

end Trav

/-! ## The fragmentainer -/

/-- `breaks.cpp` 17–62: `size = none` for infinite dimensions; only the height is kept. -/
structure Fc where
  size : Option Int := none
  discovery : Bool := false
  monolithic : Bool := false

namespace Fc

/-- `breaks.cpp` 50–52. -/
def allowBreak (f : Fc) : Bool := f.size.isSome && !f.monolithic

/-- `breaks.cpp` 30–32. -/
def isDiscoveryMode (f : Fc) : Bool := f.allowBreak && f.discovery

/-- `breaks.cpp` 54–57. -/
def acceptsFit (f : Fc) (pos size pend : Int) : Bool :=
  match f.size with
  | none => true
  | some h => pos + size + pend ≤ h

/-- `min(knownSize.y, leftVerticalSpace)`, `breaks.cpp` 59–61, `layout/block.cpp` 124–131. -/
def clip (f : Fc) (pos size pend : Int) : Int :=
  match f.size with
  | none => size
  | some h => min size (h - pos - pend)

/-- `breaks.cpp` 38–40. -/
def enterMonolithicBox (f : Fc) : Fc := { f with monolithic := true }

end Fc

/-! ## Boxes -/

/-- `break-before`, `break-after`: `AVOID` and `AVOID_PAGE` are one here, all values without effect are
`auto`. -/
inductive Between where
  | auto | avoid | page
  deriving DecidableEq, Repr

/-- `position`, as far as block layout distinguishes. -/
inductive Pos where
  /-- static, relative, sticky -/
  | flow
  /-- absolute, fixed -/
  | out
  /-- `running(name)` -/
  | running
  deriving DecidableEq, Repr

/-- The vertical measures of a box. -/
structure Met where
  /-- `margin-top`, `margin-bottom`: `computeMargins`. -/
  mt : Int := 0
  mb : Int := 0
  /-- border and padding at the top, at the bottom -/
  top : Int := 0
  bottom : Int := 0
  /-- `relativePositionOffset(…).y`, 0 unless relatively positioned -/
  rel : Int := 0
  /-- the specified height of the border box, if any: `computeSpecifiedBorderBoxHeight` -/
  height : Option Int := none
  /-- the height of the content of a box that is not broken -/
  extent : Int := 0

/-- The style of a box. The measures may depend on the page: percentages and viewport units. -/
structure Style where
  before : Between := .auto
  after : Between := .auto
  /-- `break-inside: avoid` or `avoid-page` -/
  inside : Bool := false
  pos : Pos := .flow
  float : Bool := false
  /-- `isPseudoElement(MARKER)` -/
  marker : Bool := false
  met : Nat → Met := fun _ => {}

/-- A box: `mono` for boxes whose formatting context is inline, replaced, flex or SVG, with the boxes
inside of them that are laid out by block layout in turn; `block` for block layout.
`_constructFormatingContext`, `layout/base/layout-impl.cpp` 24–52. -/
inductive Box where
  | mono (s : Style) (id : Nat) (inner : List Box)
  | block (s : Style) (id : Nat) (kids : List Box)

namespace Box

def style : Box → Style
  | mono s _ _ => s
  | block s _ _ => s

def id : Box → Nat
  | mono _ i _ => i
  | block _ i _ => i

end Box

/-- `Box::isRemovedFromFlow`, `layout/base/box.cpp` 115–120. -/
def Style.removed (s : Style) : Bool := s.float || s.pos != .flow

/-! ## Layout -/

/-- A piece of content put on a page: its box and where the content box begins and how tall it is. -/
structure Frag where
  id : Nat
  y : Int
  h : Int
  deriving DecidableEq, Repr

/-- `layout/base/output.cpp` 51–84. Of the fragment just the pieces of content in it are kept: boxes that
are not broken, empty boxes, absolutely positioned boxes. -/
structure Out where
  size : Int := 0
  complete : Bool := false
  bp : Option Bp := none
  frags : List Frag := []

/-- `layout/base/input.cpp` 44–63. -/
structure In where
  page : Nat := 0
  y : Int := 0
  pend : Int := 0
  known : Option Int := none
  trav : Trav := {}

/-- The variables of the loop of `BlockFormatingContext::run`, `layout/block.cpp` 265–281. -/
structure St where
  blockSize : Int := 0
  lastMb : Int := 0
  cur : Bp := .initial
  complete : Bool := false
  frags : List Frag := []

/-- `_shouldAbortFragmentingBeforeLayout`, `layout/base/layout-impl.cpp` 243–260. -/
def abortBefore (fc : Fc) (inp : In) : Bool :=
  fc.isDiscoveryMode && !fc.acceptsFit inp.y 0 inp.pend

/-- `Output` of `layout-impl.cpp` 252–257 and `block.cpp` 115–120. -/
def overflowOut : Out := { size := 0, complete := false, bp := some .overflow, frags := [] }

/-- `fragmentEmptyBox`, `layout/block.cpp` 99–139. -/
def fragmentEmptyBox (fc : Fc) (id : Nat) (inp : In) : Out :=
  let k := inp.known.getD 0
  if fc.isDiscoveryMode then
    if fc.acceptsFit inp.y k inp.pend then { size := k, complete := true, bp := none, frags := [⟨id, inp.y, k⟩] }
    else overflowOut
  else
    let h := fc.clip inp.y k inp.pend
    { size := h, complete := k ≤ h, bp := none, frags := [⟨id, inp.y, h⟩] }

/-- `layoutContentBox`, `layout-impl.cpp` 263. -/
def startAt (fc : Fc) (inp : In) : Nat := if fc.allowBreak then inp.trav.getStart.getD 0 else 0

/-- `layoutContentBox`, `layout-impl.cpp` 264, and `endChildren` of `block.cpp` 275. -/
def stopAt (fc : Fc) (inp : In) (len : Nat) : Nat :=
  (if fc.allowBreak && !fc.isDiscoveryMode then inp.trav.getEnd else none).getD len

/-- `block.cpp` 345–353: the margins of a child and of its predecessor collapse. -/
def collapse (s : Style) (m : Met) (st : St) : Int :=
  if s.removed then st.blockSize
  else
    let maxPositive := max 0 (max m.mt st.lastMb)
    let minNegative := min 0 (min m.mt st.lastMb)
    st.blockSize + (maxPositive - minNegative.natAbs - st.lastMb)

/-- `maybeProcessChildBreakpoint`, `block.cpp` 17–34. -/
def maybeProcessChild (fc : Fc) (cur : Bp) (i : Nat) (avoid : Bool) : Option Bp → Bp
  | none => cur
  | some c => if fc.isDiscoveryMode then cur.overrideIfBetter (.fromChild c (i + 1) avoid) else cur

/-- `breakIsAvoided`, `block.cpp` 57–60. -/
def avoided (parent child : Style) (next : Option Box) : Bool :=
  parent.inside || child.after == .avoid || next.any (·.style.before == .avoid)

/-- `_adaptToContentBox`, `layout-impl.cpp` 308–327. -/
def adapt (m : Met) (inp : In) : In :=
  { inp with
    known := inp.known.map fun h => h - m.top - m.bottom
    y := inp.y + m.top
    pend := inp.pend + m.bottom }

/-- The body of the loop, `block.cpp` 330–352 and 365–378, up to the call of `layoutBorderBox`: what a
child is laid out with. -/
def childIn (inp : In) (s : Style) (i : Nat) (st : St) : In :=
  let m := s.met inp.page
  { page := inp.page
    y := inp.y + collapse s m st + m.rel
    pend := inp.pend
    known := m.height
    trav := inp.trav.inside i }

/-- The loop after `layoutBorderBox`, `block.cpp` 381–396. -/
def afterChild (fc : Fc) (parent : Style) (inp : In) (s : Style) (i : Nat) (st : St) (o : Out) : St :=
  let m := s.met inp.page
  let bs := collapse s m st
  let st := { st with blockSize := bs, frags := st.frags ++ o.frags, cur := maybeProcessChild fc st.cur i parent.inside o.bp }
  if s.removed || s.marker then st else { st with blockSize := bs + o.size + m.mb, lastMb := m.mb }

/-- `Output` of `block.cpp` 42–47, 72–79, 88–93: the layout ends early. -/
def early (st : St) (bp : Bp) : Out := { size := st.blockSize, complete := false, bp := some bp, frags := st.frags }

/-- `block.cpp` 420–433. -/
def finish (inp : In) (st : St) : Out :=
  { size := inp.known.getD st.blockSize, complete := st.complete, bp := some st.cur, frags := st.frags }

mutual

/-- `layoutBorderBox` with `layoutContentBox`, `layout-impl.cpp` 262–267 and 329–334. The boxes that are
not broken enter monolithic mode first (`layout/inline.cpp` 40, `replaced.cpp` 20, `flex.cpp` 1541,
`svg.cpp` 312) and leave it when they return, so that the checks of `acceptsFit` within them
(`inline.cpp` 186–198, `replaced.cpp` 42–57) never fire; where the boxes inside of them are put is not
modelled. -/
def layoutBox (fc : Fc) : Box → In → Out
  | .mono s id inner, inp0 =>
    let m := s.met inp0.page
    let inp := adapt m inp0
    if abortBefore fc inp then { overflowOut with size := m.top + m.bottom }
    else
      { size := m.extent + (m.top + m.bottom)
        complete := true
        bp := some (.bottomOfMonolithicBox inner.length)
        frags := ⟨id, inp.y, m.extent⟩ :: layoutInner fc.enterMonolithicBox inp inner }
  | .block s id kids, inp0 =>
    let m := s.met inp0.page
    let inp := adapt m inp0
    let out :=
      if abortBefore fc inp then overflowOut
      else
        match kids with
        | [] => fragmentEmptyBox fc id inp
        | kids => run fc s inp (startAt fc inp) (stopAt fc inp kids.length) kids 0 {}
    { out with size := out.size + (m.top + m.bottom) }

/-- The boxes inside of a box that is not broken. -/
def layoutInner (fc : Fc) (inp : In) : List Box → List Frag
  | [] => []
  | b :: rest =>
    (layoutBox fc b { page := inp.page, y := inp.y, pend := inp.pend, known := (b.style.met inp.page).height }).frags ++
      layoutInner fc inp rest

/-- The loop of `BlockFormatingContext::run`, `block.cpp` 283–433: `i` is the index of the first of the
children left. Simplified: a `stopAt` beyond the last child, which the code would read out of bounds for,
ends the loop. `block.cpp` 366–374 (horizontal) is left out. -/
def run (fc : Fc) (parent : Style) (inp : In) (start stop : Nat) : List Box → Nat → St → Out
  | [], _, st => finish inp st
  | c :: rest, i, st =>
    if i < start then run fc parent inp start stop rest (i + 1) st
    else if stop ≤ i then finish inp st
    else
      match c.style.pos with
      | .running => run fc parent inp start stop rest (i + 1) st
      | .out =>
        run fc parent inp start stop rest (i + 1)
          { st with frags := st.frags ++ [⟨c.id, inp.y + st.blockSize, 0⟩], complete := rest.isEmpty || st.complete }
      | .flow =>
        -- processBreakpointsBeforeChild, 85–97
        if c.style.before = .page ∧ start ≠ i then early st (.forcedAt i)
        else
          let o := layoutBox fc c (childIn inp c.style i st)
          let st := afterChild fc parent inp c.style i st o
          -- processBreakpointsAfterChild, 36–83
          if fc.isDiscoveryMode ∧ ¬o.complete then early st st.cur
          else
            let st :=
              if fc.isDiscoveryMode ∧ rest ≠ [] then
                { st with cur := st.cur.overrideIfBetter (.classB (i + 1) (avoided parent c.style rest.head?)) }
              else st
            if fc.isDiscoveryMode ∧ c.style.after = .page then early st (.forcedAt (i + 1))
            else
              -- 413–415
              run fc parent inp start stop rest (i + 1)
                (if fc.allowBreak ∧ i + 1 = stop then { st with complete := o.complete && rest.isEmpty } else st)

end

/-! ## Pages -/

/-- The content area of a page: `infos.pageContent`, `driver/print.cpp` 163–182. -/
structure Page where
  top : Int
  height : Int

/-- `layoutRoot`, `layout-impl.cpp` 336–356. The known height of the root is the specified one. -/
def layoutRoot (fc : Fc) (root : Box) (n : Nat) (y : Int) (t : Trav) : Out :=
  layoutBox fc root { page := n, y := y, known := (root.style.met n).height, trav := t }

/-- What becomes of the search for the breaks: it ends with one break for each page, it panics on
`unwrap`, or it is still going on. -/
inductive Found where
  | pages (bps : List Bp)
  | panic
  | goesOn
  deriving DecidableEq

/-- One discovery, `driver/print.cpp` 182–197. -/
def discoverPage (pages : Nat → Page) (root : Box) (n : Nat) (prev : Bp) : Out :=
  layoutRoot { size := some (pages n).height, discovery := true } root n (pages n).top { prev := some prev }

/-- `collectBreakPointsAndRunningPositions`, `driver/print.cpp` 151–211: at most `fuel` pages; `n` is the
number of pages so far. -/
def discover (pages : Nat → Page) (root : Box) : Nat → Nat → Bp → Found
  | 0, _, _ => .goesOn
  | fuel + 1, n, prev =>
    let o := discoverPage pages root n prev
    if o.complete then .pages [.classB 1 false]
    else
      match o.bp with
      | none => .panic
      | some b =>
        match discover pages root fuel (n + 1) b with
        | .pages bps => .pages (b :: bps)
        | r => r

/-- One page printed, `driver/print.cpp` 247–265: `last` is the page `contentTree.fc` was set to last, by
the search for the breaks. -/
def printPage (last : Page) (pages : Nat → Page) (root : Box) (n : Nat) (prev curr : Bp) : List Frag :=
  (layoutRoot { size := some last.height } root n (pages n).top ⟨some prev, some curr⟩).frags

/-- `print`, `driver/print.cpp` 246–288. -/
def printFrom (last : Page) (pages : Nat → Page) (root : Box) : Nat → Bp → List Bp → List (List Frag)
  | _, _, [] => []
  | n, prev, b :: bps => printPage last pages root n prev b :: printFrom last pages root (n + 1) b bps

def print (pages : Nat → Page) (root : Box) (bps : List Bp) : List (List Frag) :=
  printFrom (pages (bps.length - 1)) pages root 0 .startOfDocument bps

/-- `render`, `driver/render.cpp` 38–51: no pages, infinite dimensions. -/
def renderFlow (root : Box) : List Frag := (layoutRoot {} root 0 0 {}).frags

end Verif.Paginate
