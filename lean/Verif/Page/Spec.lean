import Verif.Page.Model

/-!
# Page rules: what is meant

CSS Paged Media 3, sections 4.1–4.4.
-/
namespace Verif.Page.Spec
open Verif.Css

/-- The pages a page pseudo-class stands for, in a document whose first page is a right page. -/
def Applies (page : Page) : Pseudo → Prop
  | .first => page.number = 1
  | .right => page.number % 2 = 1
  | .left => page.number % 2 = 0
  | .blank => page.blank = true

/-- The pages a selector stands for. -/
def SelApplies (s : Sel) (page : Page) : Prop :=
  (s.name = [] ∨ page.name = s.name) ∧ ∀ p ∈ s.pseudos, Applies page p

/-- The pages a rule is for: an empty selector list is for all pages. -/
def RuleApplies (r : Rule) (page : Page) : Prop := r.sels = [] ∨ ∃ s ∈ r.sels, SelApplies s page

/-- The pseudo-class as written. -/
def pseudoName : Pseudo → Text
  | .first => u "first"
  | .blank => u "blank"
  | .left => u "left"
  | .right => u "right"

/-! ## The selector list -/

/-- The items the reader can get past: white space, names, known pseudo-classes. -/
inductive Pieces : List Sst → Prop
  | nil : Pieces []
  | ws {s c} : s.is .ws = true → Pieces c → Pieces (s :: c)
  | ident {d c} : Pieces c → Pieces (.tok ⟨.ident, d⟩ :: c)
  | pseudo {d w c} (p : Pseudo) : Blank w → Pieces c →
      Pieces (.tok ⟨.colon, d⟩ :: (w ++ .tok ⟨.ident, pseudoName p⟩ :: c))

/-- An item that begins none of these: not white space, not a name, and not a colon
    followed by a known pseudo-class or by nothing at all. -/
def Stuck (s : Sst) (c : List Sst) : Prop :=
  s.is .ws = false ∧ (∀ d, s ≠ .tok ⟨.ident, d⟩) ∧
  (s.is .colon = true → eatWs c ≠ [] ∧ ∀ p r, eatWs c ≠ .tok ⟨.ident, pseudoName p⟩ :: r)

/-- A selector as an author writes it, e.g. `chapter:first:left`. -/
def written (s : Sel) : List Sst :=
  (if s.name = [] then [] else [.tok ⟨.ident, s.name⟩]) ++
  s.pseudos.flatMap fun p => [.tok ⟨.colon, u ":"⟩, .tok ⟨.ident, pseudoName p⟩]

/-! ## Which declaration wins -/

/-- Specificity of a page selector: a name, then `:first` and `:blank`, then `:left` and
    `:right` (section 4.4). -/
structure Weight where
  named : Nat
  firsts : Nat
  sides : Nat
deriving DecidableEq, Repr

def Weight.lt (a b : Weight) : Prop :=
  a.named < b.named ∨ a.named = b.named ∧ (a.firsts < b.firsts ∨ a.firsts = b.firsts ∧ a.sides < b.sides)

def selWeight (s : Sel) : Weight where
  named := if s.name = [] then 0 else 1
  firsts := s.pseudos.countP fun p => p = .first ∨ p = .blank
  sides := s.pseudos.countP fun p => p = .left ∨ p = .right

/-- `w` is the specificity a rule has on a page: that of its most specific selector there. -/
def RuleWeight (r : Rule) (page : Page) (w : Weight) : Prop :=
  (r.sels = [] ∧ w = ⟨0, 0, 0⟩) ∨
  ∃ s ∈ r.sels, SelApplies s page ∧ selWeight s = w ∧ ∀ t ∈ r.sels, SelApplies t page → ¬ w.lt (selWeight t)

/-- The declarations in force on a page, with their weights, in order. -/
inductive InForce (page : Page) : List Rule → List (Weight × Text × Text) → Prop
  | nil : InForce page [] []
  | skip {r rs l} : ¬ RuleApplies r page → InForce page rs l → InForce page (r :: rs) l
  | use {r rs l w} : RuleApplies r page → RuleWeight r page w → InForce page rs l →
      InForce page (r :: rs) (r.decls.map (fun d => (w, d.1, d.2)) ++ l)

/-- The value that wins for a property: of the declarations for it the heaviest, and of
    equally heavy ones the last. -/
def Wins (l : List (Weight × Text × Text)) (p v : Text) : Prop :=
  ∃ a w b, l = a ++ (w, p, v) :: b ∧ (∀ x ∈ a, x.2.1 = p → ¬ w.lt x.1) ∧ (∀ x ∈ b, x.2.1 = p → x.1.lt w)

end Verif.Page.Spec
