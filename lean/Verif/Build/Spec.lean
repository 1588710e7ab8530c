import Verif.Build.Model
import Verif.Build.TextSpec
/-!
# Building boxes: specification

What a box tree shows and what a document should show, both as sequences of marks. Nothing here refers to the functions
that build boxes.
-/
namespace Verif.Build

/-- A mark: the begin and the end of the box of an element, a character that is not white space, a picture. -/
inductive Tok where
  | op (id : Nat)
  | cl (id : Nat)
  | ch (c : Char)
  | atom (id : Nat)
  deriving DecidableEq, Repr

/-! ## Reading a box tree -/

def opens : Option Nat → List Tok
  | some i => [.op i]
  | none => []

def closes : Option Nat → List Tok
  | some i => [.cl i]
  | none => []

mutual
/-- What a box shows, from its begin to its end. Anonymous boxes leave no mark. -/
def boxToks : Box → List Tok
  | .mk _ org c ks => opens org ++ boxesToks ks ++ contentToks c ++ closes org
def boxesToks : List Box → List Tok
  | [] => []
  | b :: bs => boxToks b ++ boxesToks bs
def contentToks : Content → List Tok
  | .none => []
  | .prose is => itemsToks is
  | .atom i => [.atom i]
def itemsToks : List Item → List Tok
  | [] => []
  | i :: is => itemToks i ++ itemsToks is
def itemToks : Item → List Tok
  | .ch c => if White c then [] else [.ch c]
  | .strut b => boxToks b
end

/-! ## Reading a document -/

/-- The characters of a text that are to be seen. -/
def textToks (sty : Sty) (s : List Char) : List Tok :=
  ((solid s).map (cased sty.trans)).map .ch

/-- What a pseudo-element shows: an inline one its text, another one a box with its text. -/
def pseudoToks : Option Pseudo → List Tok
  | none => []
  | some p =>
    let t := match p.text with
      | some s => textToks p.sty s
      | none => []
    match p.disp with
    | .none => []
    | .contents => t
    | .dflt _ .inline _ => t
    | _ => .op p.id :: (t ++ [.cl p.id])

/-- The marker is shown for list items only. -/
def markerToks (e : Elem) : List Tok :=
  match e.disp with
  | .dflt _ _ true => pseudoToks e.marker
  | _ => []

/-- What is inside the box of an element; `kids` is what its children show. -/
def inside (e : Elem) (kids : List Tok) : List Tok :=
  match e.kind with
  | .br | .void | .input .hidden => []
  | .svg | .img | .input .widget => [.atom e.id]
  | .input (.text v) => (solid v).map .ch
  | .plain => markerToks e ++ pseudoToks e.before ++ kids ++ pseudoToks e.after

def framed (id : Nat) (t : List Tok) : List Tok := .op id :: (t ++ [.cl id])

/-- A table: the wrapper with the captions on their side, the box of the table in it. -/
def tableToks (e : Elem) (caps rows : List Tok) : List Tok :=
  framed e.id ((if e.captionTop then caps else []) ++ pseudoToks e.before ++ framed e.id rows ++
    (if e.captionTop then [] else caps) ++ pseudoToks e.after)

/-- The element gets a box of its own, given that its parent is a flex container or not. -/
def boxed (flex : Bool) (e : Elem) (ins : Inside) (out : Outside) : Bool :=
  flex || out = .block || ins ≠ .flow || e.kind = .img || e.kind = .svg

mutual
/-- What a node shows; `flex` tells that the nearest box is a flex container, `sty` is the style of its text. -/
def nodeToks (flex : Bool) (sty : Sty) : Node → List Tok
  | .text s => textToks sty s
  | .other => []
  | .el e ks =>
    match e.disp with
    | .none => []
    | .contents => pseudoToks e.before ++ kidsToks flex sty ks ++ pseudoToks e.after
    | .internal _ => framed e.id (inside e (kidsToks false e.sty ks))
    | .dflt ins out _ =>
      if ins = .table ∧ e.kind = .plain then tableToks e (captionToks ks) (rowToks true false e.sty ks)
      else if boxed flex e ins out then framed e.id (inside e (kidsToks (ins = .flex) e.sty ks))
      else inside e (kidsToks false e.sty ks)
def kidsToks (flex : Bool) (sty : Sty) : List Node → List Tok
  | [] => []
  | n :: rest => nodeToks flex sty n ++ kidsToks flex sty rest
/-- The captions of a table. -/
def captionToks : List Node → List Tok
  | [] => []
  | .el e ks :: rest =>
    (if e.disp = .internal .caption then framed e.id (inside e (kidsToks false e.sty ks)) else []) ++ captionToks rest
  | _ :: rest => captionToks rest
/-- The children of a table (`root`), of a row group or of a row (`row`), captions of a table left out. Parts of a
table show their own parts, anything else what it shows elsewhere. -/
def rowToks (root row : Bool) (sty : Sty) : List Node → List Tok
  | [] => []
  | .text s :: rest => textToks sty s ++ rowToks root row sty rest
  | .other :: rest => rowToks root row sty rest
  | .el e ks :: rest =>
    (if e.disp = .internal .caption ∧ root then []
    else if e.disp = .internal .row ∧ !row then framed e.id (rowToks false true e.sty ks)
    else if (e.disp = .internal .rowGroup ∨ e.disp = .internal .headerGroup ∨ e.disp = .internal .footerGroup) ∧ root then
      framed e.id (rowToks false false e.sty ks)
    else if e.disp = .internal .columnGroup ∧ root then framed e.id (columnToks ks)
    else if e.disp = .internal .column ∧ root then framed e.id []
    else nodeToks false sty (.el e ks)) ++ rowToks root row sty rest
/-- The columns of a column group show nothing but that they are there. -/
def columnToks : List Node → List Tok
  | [] => []
  | .el e ks :: rest =>
    (if e.disp = .internal .column then framed e.id (columnToks ks) else []) ++ columnToks rest
  | _ :: rest => columnToks rest
end

/-! ## Documents without surprises -/

/-- Where a node stands: in running text, in a flex container, or as a part of a table that stands where such a part
belongs. -/
inductive Place where
  | flow | flex | slot
  deriving DecidableEq, Repr

mutual
/-- `strict`: parts of tables stand only inside of tables. In any case: elements without children that show something
do not flow like text (an `<input>` with `display: inline`), and such elements are not tables. -/
def tame (strict : Bool) (p : Place) : Node → Bool
  | .text _ => true
  | .other => true
  | .el e ks =>
    match e.disp with
    | .none => true
    | .contents => tameKids strict p ks
    | .internal _ => (!strict || p ≠ .flow) && (e.kind ≠ .plain || tameKids strict .flow ks)
    | .dflt ins out _ =>
      if ins = .table then e.kind = .plain && tameCaptions strict ks && tameRows strict true false ks
      else if boxed (p = .flex) e ins out then
        e.kind ≠ .plain || tameKids strict (if ins = .flex then .flex else .flow) ks
      else (e.kind = .plain && tameKids strict .flow ks) || e.kind = .br || e.kind = .void || e.kind = .input .hidden
def tameKids (strict : Bool) (p : Place) : List Node → Bool
  | [] => true
  | n :: rest => tame strict p n && tameKids strict p rest
def tameCaptions (strict : Bool) : List Node → Bool
  | [] => true
  | .el e ks :: rest =>
    (e.disp ≠ .internal .caption || tame strict .slot (.el e ks)) && tameCaptions strict rest
  | _ :: rest => tameCaptions strict rest
def tameRows (strict : Bool) (root row : Bool) : List Node → Bool
  | [] => true
  | .el e ks :: rest =>
    (if e.disp = .internal .caption ∧ root then true
    else if e.disp = .internal .row ∧ !row then tameRows strict false true ks
    else if (e.disp = .internal .rowGroup ∨ e.disp = .internal .headerGroup ∨ e.disp = .internal .footerGroup) ∧ root then
      tameRows strict false false ks
    else if (e.disp = .internal .columnGroup ∨ e.disp = .internal .column) ∧ root then true
    else if e.disp = .internal .cell then tame strict .slot (.el e ks)
    else tame strict .flow (.el e ks)) && tameRows strict root row rest
  | _ :: rest => tameRows strict root row rest
end

/-! ## The parts of a table, boxes of one kind -/

/-- A cell of a table. -/
def IsCell (b : Box) : Prop := b.disp = .own (.internal .cell)

/-- A row with nothing but cells in it. -/
def IsRow (b : Box) : Prop :=
  b.disp = .own (.internal .row) ∧ b.content = .none ∧ ∀ c ∈ b.kids, IsCell c

/-- A row group with nothing but such rows in it. -/
def IsGroup (b : Box) : Prop :=
  (b.disp = .own (.internal .rowGroup) ∨ b.disp = .own (.internal .headerGroup) ∨
    b.disp = .own (.internal .footerGroup)) ∧ b.content = .none ∧ ∀ r ∈ b.kids, IsRow r

/-- A column, or a column group with nothing but columns in it. -/
def IsColumns (b : Box) : Prop :=
  (b.disp = .own (.internal .column) ∨ b.disp = .own (.internal .columnGroup)) ∧ b.content = .none ∧
    ∀ c ∈ b.kids, c.disp = .own (.internal .column)

def IsPart (b : Box) : Prop := IsRow b ∨ IsGroup b ∨ IsColumns b

mutual
/-- Everywhere inside of the box, the box of a table holds nothing but parts of a table; and if `uniform`, every box
holds boxes or inline content, not both. -/
def Box.Good (uniform : Bool) : Box → Prop
  | .mk d _ c ks =>
    (d = .tableBox → c = .none ∧ ∀ k ∈ ks, IsPart k) ∧ (uniform = true → ks = [] ∨ c = .none) ∧ GoodKids uniform ks ∧
      c.Good uniform
def GoodKids (uniform : Bool) : List Box → Prop
  | [] => True
  | b :: bs => b.Good uniform ∧ GoodKids uniform bs
def Content.Good (uniform : Bool) : Content → Prop
  | .none => True
  | .prose is => GoodItems uniform is
  | .atom _ => True
def GoodItems (uniform : Bool) : List Item → Prop
  | [] => True
  | i :: is => i.Good uniform ∧ GoodItems uniform is
def Item.Good (uniform : Bool) : Item → Prop
  | .ch _ => True
  | .strut b => b.Good uniform
end

/-- The box itself and every box inside of it, as a child or as a part of a text. -/
inductive Within : Box → Box → Prop where
  | self (b : Box) : Within b b
  | kid {t k d o c ks} : k ∈ ks → Within t k → Within t (.mk d o c ks)
  | strut {t k d o is ks} : .strut k ∈ is → Within t k → Within t (.mk d o (.prose is) ks)

/-! ## Documents that do not stop the program -/

/-- The pseudo-element is not shown inline. -/
def calm : Option Pseudo → Bool
  | none => true
  | some p => match p.disp with
    | .contents => false
    | .dflt _ .inline _ => false
    | _ => true

def isTable : Disp → Bool
  | .dflt .table _ _ => true
  | _ => false

mutual
/-- No table has an inline `::before` or `::after`. -/
def calmTables : Node → Bool
  | .text _ => true
  | .other => true
  | .el e ks => (!isTable e.disp || (calm e.before && calm e.after)) && calmKids ks
def calmKids : List Node → Bool
  | [] => true
  | n :: rest => calmTables n && calmKids rest
end

end Verif.Build
