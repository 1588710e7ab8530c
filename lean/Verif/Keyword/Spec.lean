import Verif.Keyword.Model
import Verif.Short.Lemmas

/-!
# Declarations: what is meant

The words of CSS, with tables of their own, and the texts of lists of counters, generated content,
alignments and `vertical-align`.  The values are token lists as the parser of style sheets hands
them over, with no white space outside functions (`Plain`).
-/

namespace Verif.Keyword
open Verif.Values Verif.Short

/-! ## Keywords -/

/-- The values of the properties according to CSS (Fragmentation 3, 2.2, Logical Properties, Text 3,
Overflow 3, Flexbox 1, Inline 3, Lists 3, Transforms 1, UI 4). -/
def css : Prop' → List (String × Kw)
  | .breakBefore | .breakAfter =>
    [("auto", .auto), ("avoid", .avoid), ("avoid-page", .avoidPage), ("page", .page),
     ("left", .left), ("right", .right), ("recto", .recto), ("verso", .verso),
     ("avoid-column", .avoidColumn), ("column", .column), ("avoid-region", .avoidRegion),
     ("region", .region)]
  | .breakInside =>
    [("auto", .auto), ("avoid", .avoid), ("avoid-page", .avoidPage),
     ("avoid-column", .avoidColumn), ("avoid-region", .avoidRegion)]
  | .float =>
    [("none", .none), ("left", .left), ("right", .right), ("inline-start", .inlineStart),
     ("inline-end", .inlineEnd)]
  | .clear =>
    [("none", .none), ("left", .left), ("right", .right), ("both", .both),
     ("inline-start", .inlineStart), ("inline-end", .inlineEnd)]
  | .tableLayout => [("auto", .auto), ("fixed", .fixed)]
  | .captionSide => [("top", .top), ("bottom", .bottom)]
  | .borderCollapse => [("separate", .separate), ("collapse", .collapse)]
  | .visibility => [("visible", .visible), ("hidden", .hidden), ("collapse", .collapse)]
  | .boxSizing => [("content-box", .contentBox), ("border-box", .borderBox)]
  | .textAlign =>
    [("start", .start), ("end", .end), ("left", .left), ("right", .right), ("center", .center),
     ("justify", .justify), ("match-parent", .matchParent), ("justify-all", .justifyAll)]
  | .textTransform =>
    [("none", .none), ("capitalize", .capitalize), ("uppercase", .uppercase),
     ("lowercase", .lowercase), ("full-width", .fullWidth), ("full-size-kana", .fullSizeKana)]
  | .whiteSpace =>
    [("normal", .normal), ("pre", .pre), ("nowrap", .nowrap), ("pre-wrap", .preWrap),
     ("break-spaces", .breakSpaces), ("pre-line", .preLine)]
  | .overflowX | .overflowY | .overflowBlock | .overflowInline =>
    [("visible", .visible), ("hidden", .hidden), ("clip", .clip), ("scroll", .scroll),
     ("auto", .auto)]
  | .flexDirection =>
    [("row", .row), ("row-reverse", .rowReverse), ("column", .column),
     ("column-reverse", .columnReverse)]
  | .flexWrap => [("nowrap", .nowrap), ("wrap", .wrap), ("wrap-reverse", .wrapReverse)]
  | .dominantBaseline =>
    [("auto", .auto), ("text-bottom", .textBottom), ("alphabetic", .alphabetic),
     ("ideographic", .ideographic), ("middle", .middle), ("central", .central),
     ("mathematical", .mathematical), ("hanging", .hanging), ("text-top", .textTop)]
  | .baselineSource => [("auto", .auto), ("first", .first), ("last", .last)]
  | .alignmentBaseline =>
    [("baseline", .baseline), ("text-bottom", .textBottom), ("alphabetic", .alphabetic),
     ("ideographic", .ideographic), ("middle", .middle), ("central", .central),
     ("mathematical", .mathematical), ("text-top", .textTop)]
  | .markerSide => [("match-self", .matchSelf), ("match-parent", .matchParent)]
  | .transformBox =>
    [("content-box", .contentBox), ("border-box", .borderBox), ("fill-box", .fillBox),
     ("stroke-box", .strokeBox), ("view-box", .viewBox)]

/-- Words of CSS that the code does not take. -/
def missing : List (Prop' × String) :=
  [(.textAlign, "match-parent"), (.textAlign, "justify-all"), (.textTransform, "capitalize"),
   (.textTransform, "lowercase"), (.textTransform, "full-width"),
   (.textTransform, "full-size-kana"), (.overflowX, "clip"), (.overflowY, "clip"),
   (.overflowBlock, "clip"), (.overflowInline, "clip"), (.dominantBaseline, "hanging")]

/-- Words that the code takes and CSS does not have, or only as a legacy spelling. -/
def extra : List (Prop' × String × Kw) :=
  [(.textAlign, "-vaev-block-center", .blockCenter), (.textAlign, "-webkit-center", .blockCenter),
   (.textAlign, "-moz-center", .blockCenter), (.textTransform, "lowsercase", .lowercase),
   (.overflowX, "overlay", .auto), (.overflowY, "overlay", .auto),
   (.overflowBlock, "overlay", .auto), (.overflowInline, "overlay", .auto),
   (.dominantBaseline, "baseline", .baseline)]

/-- The words CSS has for every property, with what they say. -/
def wideWords : List (String × Wide) :=
  [("inherit", .inherit), ("initial", .initial), ("unset", .unset), ("revert", .revert)]

/-- Not one of those, in any case of letters. -/
def NotWide (t : Tok) : Prop := ∀ p ∈ wideWords, ¬ Word p.1 t

/-! ## Ending -/

/-- A parser that, where it finds a value, gets ahead. -/
def Moves (p : List Tok → Out α) : Prop :=
  ∀ t l v r, p (t :: l) = (some v, r) → r.length < (t :: l).length

/-! ## Counters -/

/-- An integer, as it may be written. -/
inductive IntTok : Tok → Int → Prop
  | plain (ds : List (Fin 10)) (h : ds ≠ []) : IntTok (.number (ds.map digitChar)) (decimal ds)
  | plus (ds : List (Fin 10)) (h : ds ≠ []) :
    IntTok (.number ('+' :: ds.map digitChar)) (decimal ds)
  | minus (ds : List (Fin 10)) (h : ds ≠ []) :
    IntTok (.number ('-' :: ds.map digitChar)) (-(decimal ds : Int))

/-- Counters, each with its integer. -/
inductive Pairs : List Tok → List (List Char × Int) → Prop
  | nil : Pairs [] []
  | cons (s : List Char) (hi : IntTok t z) (h : Pairs l cs) : Pairs (.ident s :: t :: l) ((s, z) :: cs)

/-- Counters as CSS has them: the integer may be left out, and is `d` then. -/
inductive CounterText (d : Int) : List Tok → List (List Char × Int) → Prop
  | nil : CounterText d [] []
  | pair (s : List Char) (hi : IntTok t z) (h : CounterText d l cs) :
    CounterText d (.ident s :: t :: l) ((s, z) :: cs)
  | bare (s : List Char) (h : CounterText d l cs) : CounterText d (.ident s :: l) ((s, d) :: cs)

/-! ## Alignment -/

/-- The words of CSS Box Alignment for positions and distributions. -/
def alignWords : List (String × AKey) :=
  [("normal", .normal), ("stretch", .stretch), ("center", .center), ("start", .start),
   ("end", .end), ("flex-start", .flexStart), ("flex-end", .flexEnd), ("left", .left),
   ("right", .right), ("self-start", .selfStart), ("self-end", .selfEnd),
   ("space-between", .spaceBetween), ("space-around", .spaceAround),
   ("space-evenly", .spaceEvenly), ("auto", .auto)]

/-- The words of the code alone. -/
def alignOwn : List (String × AKey) :=
  [("first-baseline", .firstBaseline), ("last-baseline", .lastBaseline)]

def prefixWords : List (String × Prefix) :=
  [("unsafe", .unsafe'), ("safe", .safe), ("legacy", .legacy)]

/-- What is taken as an alignment. -/
inductive AlignText : List Tok → Prefix × AKey → Prop
  | key (h : (k, v) ∈ alignWords ++ alignOwn) (hw : Word k t) : AlignText [t] (.noPrefix, v)
  | both (hp : (j, p) ∈ prefixWords) (hj : Word j u) (h : (k, v) ∈ alignWords ++ alignOwn)
    (hw : Word k t) : AlignText [u, t] (p, v)
  | lone (hp : (j, p) ∈ prefixWords) (hj : Word j u) : AlignText [u] (p, .noKeyword)

/-! ## vertical-align -/

/-- A part of a value of `vertical-align`. -/
inductive VPart where
  | source (k : Kw)
  | alignment (k : Kw)
  | shift (s : Shift)

def VPart.kind : VPart → Nat
  | .source _ => 0
  | .alignment _ => 1
  | .shift _ => 2

def shiftWords : List (String × Shift) :=
  [("sub", .sub), ("super", .super), ("top", .top), ("center", .center), ("bottom", .bottom)]

/-- How a part is written; a length or percentage is what `Verif.Values` says it is. -/
inductive VWrites : VPart → Tok → Prop
  | first (h : Word "first" t) : VWrites (.source .first) t
  | last (h : Word "last" t) : VWrites (.source .last) t
  | alignment (h : (k, v) ∈ css .alignmentBaseline) (hw : Word k t) : VWrites (.alignment v) t
  | word (h : (k, v) ∈ shiftWords) (hw : Word k t) : VWrites (.shift v) t
  | amount (h : Reads parseCalc t c) (hn : ∀ w, t ≠ .ident w) : VWrites (.shift (.by' c)) t

def VPart.source? : VPart → Option Kw
  | .source k => some k
  | _ => none
def VPart.alignment? : VPart → Option Kw
  | .alignment k => some k
  | _ => none
def VPart.shift? : VPart → Option Shift
  | .shift k => some k
  | _ => none

/-- The value that parts make. -/
def valignOf (ps : List VPart) : VAlign :=
  ⟨ps.findSome? VPart.source?, ps.findSome? VPart.alignment?, ps.findSome? VPart.shift?⟩

/-- The declaration of a longhand that a part is. -/
def VPart.long : VPart → VLong
  | .source k => .source k
  | .alignment k => .alignment k
  | .shift s => .shift s

end Verif.Keyword
