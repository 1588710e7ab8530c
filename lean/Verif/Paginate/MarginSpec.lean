import Verif.Paginate.Spec
/-!
# Margins: what is meant

Where boxes stand that are laid out one below the other. Of the model only boxes, styles and the type of
what is put on a page are used here.
-/
namespace Verif.Paginate.Spec

/-- The space two adjoining margins make: the larger positive one plus the more negative one (CSS 2, 8.3.1). -/
def gap (a b : Int) : Int := max 0 (max a b) + min 0 (min a b)

mutual

/-- The height of the border box. -/
def height (n : Nat) : Box → Int
  | .mono s _ _ => (s.met n).top + (s.met n).extent + (s.met n).bottom
  | .block s _ kids =>
    match (s.met n).height with
    | some h => h
    | none => (s.met n).top + stack n 0 kids + (s.met n).bottom

/-- The height of what stands below a border box whose bottom margin is `prev`, this margin included: each
border box adds its height once, between two of them is the gap of their margins. Floats, positioned boxes
and list markers take no space. -/
def stack (n : Nat) (prev : Int) : List Box → Int
  | [] => prev
  | c :: rest =>
    if c.style.pos = .flow ∧ c.style.float = false ∧ c.style.marker = false then
      gap prev (c.style.met n).mt + height n c + stack n (c.style.met n).mb rest
    else stack n prev rest

end

mutual

/-- Where the content of a box stands whose border box begins at `y`. -/
def spots (n : Nat) (y : Int) : Box → List Frag
  | .mono s id _ => [⟨id, y + (s.met n).top, (s.met n).extent⟩]
  | .block s id [] =>
    [⟨id, y + (s.met n).top, match (s.met n).height with | some h => h - (s.met n).top - (s.met n).bottom | none => 0⟩]
  | .block s _ (k :: ks) => below n (y + (s.met n).top) 0 (k :: ks)

/-- Where the content of boxes stands that follow a border box ending at `y` with bottom margin `prev`. -/
def below (n : Nat) (y prev : Int) : List Box → List Frag
  | [] => []
  | c :: rest =>
    match c.style.pos with
    | .running => below n y prev rest
    | .out => ⟨c.id, y + prev, 0⟩ :: below n y prev rest
    | .flow =>
      if c.style.float = true ∨ c.style.marker = true then
        spots n (y + prev + (c.style.met n).rel) c ++ below n y prev rest
      else
        spots n (y + gap prev (c.style.met n).mt + (c.style.met n).rel) c ++
          below n (y + gap prev (c.style.met n).mt + height n c) (c.style.met n).mb rest

end

mutual

/-- Boxes that are not broken have no boxes inside, and list markers have no top margin. -/
def Tidy (n : Nat) : Box → Prop
  | .mono _ _ inner => inner = []
  | .block _ _ kids => TidyKids n kids

def TidyKids (n : Nat) : List Box → Prop
  | [] => True
  | c :: rest => (c.style.marker = true → (c.style.met n).mt = 0) ∧ Tidy n c ∧ TidyKids n rest

end

end Verif.Paginate.Spec
