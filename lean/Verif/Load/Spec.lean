import Verif.Load.Model
/-!
# Loading: specification

Nothing here refers to the functions that load.
-/
namespace Verif.Load

mutual
/-- All elements of a document in document order, each with its children. -/
def elements : Node → List (Elem × List Node)
  | .text _ => []
  | .el e ks => (e, ks) :: elementsOf ks
def elementsOf : List Node → List (Elem × List Node)
  | [] => []
  | n :: ns => elements n ++ elementsOf ns
end

/-- The texts inside of an element without element children. -/
def plainText : List Node → String
  | [] => ""
  | .text s :: rest => s ++ plainText rest
  | .el _ _ :: rest => plainText rest

def IsText : Node → Prop
  | .text _ => True
  | .el _ _ => False

/-- `<img>`, `<style>` and `<link>` elements have no element children. The HTML parser makes no others. -/
def Simple (root : List Node) : Prop :=
  ∀ p ∈ elementsOf root, p.1.tag ≠ .other → ∀ k ∈ p.2, IsText k

/-- The sheet that an element stands for, if its content can be obtained. -/
inductive SheetOf (net : Net) : Elem × List Node → Sheet → Prop where
  | style {e ks} : e.tag = .style → SheetOf net (e, ks) ⟨.author, some e.id, plainText ks⟩
  | link {e ks u t} : e.tag = .link → e.rel = some "stylesheet" → e.href = some u → net.sheet e.id u = some t →
      SheetOf net (e, ks) ⟨.author, some e.id, t⟩

/-- `Picked R as bs`: `bs` are the values that `R` gives for members of `as`, in order, members without a value left
out. -/
inductive Picked {α β : Type} (R : α → β → Prop) : List α → List β → Prop where
  | nil : Picked R [] []
  | take {a b as bs} : R a b → Picked R as bs → Picked R (a :: as) (b :: bs)
  | skip {a as bs} : (∀ b, ¬ R a b) → Picked R as bs → Picked R (a :: as) bs

/-- The picture that an `<img>` element is to have. -/
def pictureOf (net : Net) (e : Elem) : Picture :=
  match e.src with
  | none => .placeholder
  | some u =>
    match net.image e.id u with
    | some p => .fetched p
    | none => .placeholder

/-! ## Fonts -/

/-- A source that yields a font: its format, if it names one, can be read, its address makes sense, and the font can be
fetched. -/
def Usable (net : FontNet) (s : Source) (e : String × Nat) : Prop :=
  ∃ u fmt, s = .url u fmt ∧
    (∀ f, fmt = some f → f.map Char.toLower ≠ "woff" ∧ f.map Char.toLower ≠ "woff2" ∧ f.map Char.toLower ≠ "svg" ∧
      f.map Char.toLower ≠ "embedded-opentype") ∧
    net.resolve u = some e.1 ∧ net.font e.1 = some e.2

/-- A local source whose font the system has. -/
def Here (net : FontNet) (s : Source) : Prop := ∃ n, s = .local n ∧ net.known n = true

/-- The first source of the list that is usable or here. -/
inductive First (net : FontNet) : List Source → Source → Prop where
  | head {s ss} : (∃ e, Usable net s e) ∨ Here net s → First net (s :: ss) s
  | tail {s ss t} : (∀ e, ¬ Usable net s e) → ¬ Here net s → First net ss t → First net (s :: ss) t

/-! ## Images in images -/

/-- `v` is an image of the SVG document at `u`. -/
def Shows (links : Links) (v u : String) : Prop := ∃ us, links u = some us ∧ v ∈ us

end Verif.Load
