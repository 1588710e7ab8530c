import Verif.Paginate.Model
/-!
# Pagination: what is meant

Of the model only boxes, styles and pages are used here.
-/
namespace Verif.Paginate.Spec

mutual

/-- The pieces of content of a box in document order: boxes that are not broken with what is inside of
them, and boxes that are empty. -/
def content : Box → List Nat
  | .mono _ id inner => id :: innerContent inner
  | .block _ id [] => [id]
  | .block _ _ (k :: ks) => kidsContent (k :: ks)

def innerContent : List Box → List Nat
  | [] => []
  | b :: rest => content b ++ innerContent rest

/-- Absolutely positioned children count as one piece. Running elements belong to the margins of pages, not
to the content. -/
def kidsContent : List Box → List Nat
  | [] => []
  | c :: rest =>
    (match c.style.pos with
      | .flow => content c
      | .out => [c.id]
      | .running => []) ++ kidsContent rest

end

mutual

/-- No box has `break-before: page`, but for the first child of its parent. -/
def Unforced : Box → Prop
  | .mono _ _ inner => UnforcedInner inner
  | .block _ _ kids => UnforcedKids True kids

def UnforcedInner : List Box → Prop
  | [] => True
  | b :: rest => Unforced b ∧ UnforcedInner rest

def UnforcedKids (first : Prop) : List Box → Prop
  | [] => True
  | c :: rest =>
    (c.style.pos = .flow → (first ∨ c.style.before ≠ .page) ∧ Unforced c) ∧ UnforcedKids False rest

end

mutual

/-- Documents whose breaks the code gets right: nowhere `avoid`; the last child of a box is not a running
element and has no `break-after: page`; within boxes that are not broken no `break-before: page`. -/
def Plain : Box → Prop
  | .mono _ _ inner => UnforcedInner inner
  | .block s _ kids => s.inside = false ∧ PlainKids kids

def PlainKids : List Box → Prop
  | [] => True
  | c :: rest =>
    (c.style.before ≠ .avoid ∧ c.style.after ≠ .avoid) ∧
    (c.style.pos = .flow → Plain c ∧ (rest = [] → c.style.after ≠ .page)) ∧
    (c.style.pos = .running → rest ≠ []) ∧
    PlainKids rest

end

/-- The root is a box that is not broken, an empty box, or a box with one child (as `html` with `body`). -/
def SingleRoot : Box → Prop
  | .mono _ _ _ => True
  | .block _ _ kids => kids.length ≤ 1

mutual

/-- Page `n`, `H` tall, has room for a box put at `y` with `pend` more to come below it, wherever the page
begins in the box: whichever child comes first on the page, its margin, borders and paddings still fit, and
it fits as a whole if it is empty. -/
def Roomy (n : Nat) (H : Int) : Box → Int → Int → Prop
  | .mono s _ _, y, pend => y + (s.met n).top + (pend + (s.met n).bottom) ≤ H
  | .block s _ [], y, pend =>
    y + (s.met n).top + (pend + (s.met n).bottom) ≤ H ∧
    ∀ h, (s.met n).height = some h → y + h + pend ≤ H
  | .block s _ (k :: ks), y, pend =>
    y + (s.met n).top + (pend + (s.met n).bottom) ≤ H ∧
    RoomyKids n H (k :: ks) (y + (s.met n).top) (pend + (s.met n).bottom)

def RoomyKids (n : Nat) (H : Int) : List Box → Int → Int → Prop
  | [], _, _ => True
  | c :: rest, y, pend =>
    (c.style.pos = .flow →
      Roomy n H c (y + (if c.style.float then 0 else (c.style.met n).mt) + (c.style.met n).rel) pend) ∧
    RoomyKids n H rest y pend

end

mutual

/-- The number of boxes. -/
def count : Box → Nat
  | .mono _ _ _ => 1
  | .block _ _ kids => 1 + countAll kids

def countAll : List Box → Nat
  | [] => 0
  | b :: rest => count b + countAll rest

end

end Verif.Paginate.Spec
