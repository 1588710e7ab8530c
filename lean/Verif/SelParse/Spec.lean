import Verif.SelParse.Model
import Verif.Selector.Spec
/-!
# Reading selectors: what is meant

The grammar of Selectors 4 (and of `An+B`, CSS Syntax 3, section 6) over component values, with the
selector each text stands for; what a selector means is said by `Verif.Selector.Means`. Combinators
group to the left: `a b > c` is a `c` whose parent is a `b` that has an `a` above it.

With `strict` the grammar is cut down to what the code reads as meant.
-/
namespace Verif.SelParse.Spec
open Verif.Css (Sst Tok TT Text u eatWs)
open Verif.Selector (Str Selector QSel NsPat AnB AttrSel AttrMatch Comb)

def ident (x : Text) : Sst := .tok ⟨.ident, x⟩
def delim (d : Nat) : Sst := .tok ⟨.delim, [d]⟩
def colon : Sst := .tok ⟨.colon, [58]⟩
def comma : Sst := .tok ⟨.comma, [44]⟩
def number (x : Text) : Sst := .tok ⟨.number, x⟩
def dimension (x : Text) : Sst := .tok ⟨.dimension, x⟩

/-- White space or none; the lexer makes one token of white space. -/
def Gap (w : List Sst) : Prop := w = [] ∨ ∃ d, w = [.tok ⟨.ws, d⟩]

/-- Lower case of ASCII letters. -/
def low (c : Nat) : Nat := if 65 ≤ c ∧ c ≤ 90 then c + 32 else c

/-- A keyword, in any case. -/
def Keyword (strict : Bool) (x : Text) (w : String) : Prop :=
  x.map low = w.toList.map Char.toNat ∧ (strict = true → x = w.toList.map Char.toNat)

/-- The characters with these numbers. -/
def chars (x : Text) : Str := x.map Char.ofNat

/-- The name an identifier spells. A backslash before a character that is no hexadecimal digit and no
line break stands for this character; of the other escapes nothing is said here. -/
inductive Name (strict : Bool) : Text → Str → Prop
  | plain {x} : 92 ∉ x → Name strict x (chars x)
  | escaped {a c b} : strict = false → 92 ∉ a → 92 ∉ b → ¬ (48 ≤ c ∧ c ≤ 57) → ¬ (65 ≤ c ∧ c ≤ 70) → ¬ (97 ≤ c ∧ c ≤ 102) →
      c ≠ 10 → c ≠ 12 → c ≠ 13 → Name strict (a ++ 92 :: c :: b) (chars (a ++ c :: b))

/-! ## `An+B` -/

/-- Decimal digits and the number they spell. -/
def Digits (d : Text) (v : Nat) : Prop :=
  d ≠ [] ∧ (∀ c ∈ d, 48 ≤ c ∧ c ≤ 57) ∧ v = d.foldl (fun v c => 10 * v + (c - 48)) 0

/-- A sign, or none. -/
inductive Sign : Text → Int → Prop
  | none : Sign [] 1
  | plus : Sign [43] 1
  | minus : Sign [45] (-1)

/-- The letter `n`. -/
def IsN (strict : Bool) (c : Nat) : Prop := c = 110 ∨ strict = false ∧ c = 78

/-- What spells `A`, with what follows the `n` in its token. -/
inductive Head (strict : Bool) (suffix : Text) : List Sst → Int → Prop
  | one {c} : IsN strict c → Head strict suffix [ident (c :: suffix)] 1
  | plus {c} : IsN strict c → Head strict suffix [delim 43, ident (c :: suffix)] 1
  | minus {c} : IsN strict c → Head strict suffix [ident (45 :: c :: suffix)] (-1)
  | dim {s σ d v c} : IsN strict c → Sign s σ → Digits d v →
      Head strict suffix [dimension (s ++ (d ++ c :: suffix))] (σ * v)

/-- `An+B`; `closed` tells that it does not end with the letter. -/
inductive Anb (strict : Bool) : Bool → List Sst → AnB → Prop
  | odd {x} : Keyword strict x "odd" → Anb strict true [ident x] ⟨2, 1⟩
  | even {x} : Keyword strict x "even" → Anb strict true [ident x] ⟨2, 0⟩
  | int {s σ d v} : Sign s σ → Digits d v → Anb strict true [number (s ++ d)] ⟨0, σ * v⟩
  | bare {t a} : Head strict [] t a → Anb strict false t ⟨a, 0⟩
  | signed {t a g s σ d v} : Head strict [] t a → Gap g → Sign s σ → s ≠ [] → Digits d v →
      Anb strict true (t ++ (g ++ [number (s ++ d)])) ⟨a, σ * v⟩
  | plus {t a g g' d v} : Head strict [] t a → Gap g → Gap g' → Digits d v →
      Anb strict true (t ++ (g ++ delim 43 :: (g' ++ [number d]))) ⟨a, v⟩
  | minus {t a g g' d v} : Head strict [] t a → Gap g → Gap g' → Digits d v →
      Anb strict true (t ++ (g ++ delim 45 :: (g' ++ [number d]))) ⟨a, -v⟩
  | dash {t a g d v} : Head strict [45] t a → Gap g → Digits d v → Anb strict true (t ++ (g ++ [number d])) ⟨a, -v⟩
  | digits {t a d v} : Head strict (45 :: d) t a → Digits d v → Anb strict true t ⟨a, -v⟩

/-! ## Simple selectors -/

/-- The prefix `p` is bound to the namespace `y`. -/
def Bound (ns : Namespaces) (p y : Str) : Prop :=
  ∃ a b, ns.prefixes = a ++ (p, y) :: b ∧ ∀ q ∈ a, q.1 ≠ p

/-- Type selectors and the universal selector; without a prefix they are of the default namespace. -/
inductive TypeText (strict : Bool) (ns : Namespaces) : List Sst → QSel → Prop
  | name {x n} : Name strict x n → TypeText strict ns [ident x] ⟨.exact ns.default, some n⟩
  | all : TypeText strict ns [delim 42] ⟨.exact ns.default, none⟩
  | inName {p q y x n} : Name strict p q → Bound ns q y → Name strict x n →
      TypeText strict ns [ident p, delim 124, ident x] ⟨.exact y, some n⟩
  | inAll {p q y} : Name strict p q → Bound ns q y → TypeText strict ns [ident p, delim 124, delim 42] ⟨.exact y, none⟩
  | anyName {x n} : Name strict x n → TypeText strict ns [delim 42, delim 124, ident x] ⟨.universal, some n⟩
  | anyAll : TypeText strict ns [delim 42, delim 124, delim 42] ⟨.universal, none⟩
  | noName {x n} : strict = false → Name strict x n → TypeText strict ns [delim 124, ident x] ⟨.null, some n⟩
  | noAll : strict = false → TypeText strict ns [delim 124, delim 42] ⟨.null, none⟩

/-- The name of an attribute. -/
inductive AttrName (strict : Bool) (ns : Namespaces) : List Sst → QSel → Prop
  | name {x n} : Name strict x n → AttrName strict ns [ident x] ⟨.null, some n⟩
  | inName {p q y x n} : Name strict p q → Bound ns q y → Name strict x n →
      AttrName strict ns [ident p, delim 124, ident x] ⟨.exact y, some n⟩
  | anyName {x n} : Name strict x n → AttrName strict ns [delim 42, delim 124, ident x] ⟨.universal, some n⟩
  | noName {x n} : Name strict x n → AttrName strict ns [delim 124, ident x] ⟨.null, some n⟩

inductive AttrOp : List Sst → AttrMatch → Prop
  | exact : AttrOp [delim 61] .exact
  | contains : AttrOp [delim 126, delim 61] .contains
  | hyphenated : AttrOp [delim 124, delim 61] .hyphenated
  | startWith : AttrOp [delim 94, delim 61] .startWith
  | endWith : AttrOp [delim 36, delim 61] .endWith
  | contain : AttrOp [delim 42, delim 61] .contain

/-- The value: a string (whose token holds its characters) or a name. -/
inductive AttrVal (strict : Bool) : Sst → Str → Prop
  | string {x} : AttrVal strict (.tok ⟨.string, x⟩) (chars x)
  | name {x n} : Name strict x n → AttrVal strict (ident x) n

inductive AttrFlag (strict : Bool) : List Sst → Bool → Prop
  | none : AttrFlag strict [] false
  | sensitive {x} : Keyword strict x "s" → AttrFlag strict [ident x] false
  | insensitive {x} : Keyword strict x "i" → AttrFlag strict [ident x] true

/-- What stands in the brackets of an attribute selector. -/
inductive AttrText (strict : Bool) (ns : Namespaces) : List Sst → AttrSel → Prop
  | present {g t q g'} : Gap g → AttrName strict ns t q → Gap g' → AttrText strict ns (g ++ (t ++ g')) ⟨q, false, .present, []⟩
  | test {g t q g₁ o m g₂ v x g₃ f i g₄} : Gap g → AttrName strict ns t q → Gap g₁ → AttrOp o m → Gap g₂ → AttrVal strict v x →
      Gap g₃ → AttrFlag strict f i → Gap g₄ → (strict = true → m = .hyphenated → g₁ ≠ []) →
      AttrText strict ns (g ++ (t ++ (g₁ ++ (o ++ (g₂ ++ v :: (g₃ ++ (f ++ g₄))))))) ⟨q, i, m, x⟩

/-- The pseudo-classes that take no argument; those on what a reader does never match in print. -/
def plainPseudo : List (String × Selector) :=
  [("link", .link), ("root", .root), ("first-child", .firstChild), ("last-child", .lastChild),
   ("first-of-type", .firstOfType), ("last-of-type", .lastOfType),
   ("hover", .otherPseudo), ("active", .otherPseudo), ("focus", .otherPseudo)]

/-- The pseudo-elements, and whether one colon will do. -/
def elements : List (String × Bool) := [("before", true), ("after", true), ("marker", false)]

/-! ## Selectors -/

/-- All of these hold. -/
def allOf : List Selector → Selector
  | [s] => s
  | l => .and l

/-- One of these holds. -/
def anyOf : List Selector → Selector
  | [s] => s
  | l => .or l

/-- A compound selector followed by others, grouped to the left. -/
def chain (k : List Selector) (l : List (Comb × List Selector)) : Selector :=
  l.foldl (fun s p => .infix p.1 s (allOf p.2)) (allOf k)

/-- The code groups `a b > c` as `a (b > c)` and `a + b ~ c` as `a + (b ~ c)`, unless `b` is made of
several simple selectors: neither is what is meant. -/
def Grouped : List (Comb × List Selector) → Prop
  | (o, k) :: (o', k') :: l =>
    ¬ (k.length = 1 ∧ (o = .descendant ∧ o' = .child ∨ o = .adjacent ∧ o' = .subsequent)) ∧ Grouped ((o', k') :: l)
  | _ => True

/-- A token that is no white space, or something in brackets. -/
def NotSpace : Sst → Prop
  | .tok t => t.type ≠ .ws
  | .func _ _ => True
  | .block _ => True
  | _ => False

/-- Its second value is no white space. -/
def Open (t : List Sst) : Prop := ∃ x y z, t = x :: y :: z ∧ NotSpace y

/-- A combinator before a compound selector `t`. -/
inductive CombText (strict : Bool) (t : List Sst) : List Sst → Comb → Prop
  | descendant {d} : (strict = true → ∀ c r, t ≠ .block c :: r) → CombText strict t [.tok ⟨.ws, d⟩] .descendant
  | child {g g'} : Gap g → Gap g' → (strict = true → g = [] ∨ g' ≠ [] ∨ Open t) →
      CombText strict t (g ++ delim 62 :: g') .child
  | adjacent {g g'} : Gap g → Gap g' → (strict = true → g = [] ∨ g' ≠ [] ∨ Open t) →
      CombText strict t (g ++ delim 43 :: g') .adjacent
  | subsequent {g g'} : Gap g → Gap g' → (strict = true → g = [] ∨ g' ≠ [] ∨ Open t) →
      CombText strict t (g ++ delim 126 :: g') .subsequent

mutual
/-- Simple selectors other than type selectors. -/
inductive Simple (strict : Bool) (ns : Namespaces) : List Sst → Selector → Prop
  | id {x n} : Name strict x n → Simple strict ns [.tok ⟨.hash, 35 :: x⟩] (.id n)
  | class_ {x n} : Name strict x n → Simple strict ns [delim 46, ident x] (.class_ n)
  | attr {c a} : AttrText strict ns c a → Simple strict ns [.block c] (.attr a)
  | pseudo {x w s} : (w, s) ∈ plainPseudo → Keyword strict x w → Simple strict ns [colon, ident x] s
  | element {x w b} : (w, b) ∈ elements → Keyword strict x w →
      Simple strict ns [colon, colon, ident x] (.pseudoElement ("::".toList ++ w.toList))
  | legacy {x w} : (w, true) ∈ elements → Keyword strict x w →
      Simple strict ns [colon, ident x] (.pseudoElement ("::".toList ++ w.toList))
  | not {x c s} : Keyword false x "not(" → ListText strict ns c s → Simple strict ns [colon, .func ⟨.func, x⟩ c] (.not s)
  | nthChild {x g t a g' b} : Keyword strict x "nth-child(" → Gap g → Anb strict b t a → Gap g' →
      Simple strict ns [colon, .func ⟨.func, x⟩ (g ++ (t ++ g'))] (.nthChild false (some (a, none)))
  | nthLastChild {x g t a g' b} : Keyword strict x "nth-last-child(" → Gap g → Anb strict b t a → Gap g' →
      Simple strict ns [colon, .func ⟨.func, x⟩ (g ++ (t ++ g'))] (.nthChild true (some (a, none)))
  | nthOfType {x g t a g' b} : Keyword strict x "nth-of-type(" → Gap g → Anb strict b t a → Gap g' →
      Simple strict ns [colon, .func ⟨.func, x⟩ (g ++ (t ++ g'))] (.nthOfType false (some a))
  | nthLastOfType {x g t a g' b} : Keyword strict x "nth-last-of-type(" → Gap g → Anb strict b t a → Gap g' →
      Simple strict ns [colon, .func ⟨.func, x⟩ (g ++ (t ++ g'))] (.nthOfType true (some a))
  | nthChildOf {x g t a g' y c s b} : Keyword strict x "nth-child(" → Gap g → Anb strict b t a →
      (strict = true → b = true) → Gap g' → Keyword false y "of" → ListText strict ns c s →
      Simple strict ns [colon, .func ⟨.func, x⟩ (g ++ (t ++ (g' ++ ident y :: c)))] (.nthChild false (some (a, some s)))
  | nthLastChildOf {x g t a g' y c s b} : Keyword strict x "nth-last-child(" → Gap g → Anb strict b t a →
      (strict = true → b = true) → Gap g' → Keyword false y "of" → ListText strict ns c s →
      Simple strict ns [colon, .func ⟨.func, x⟩ (g ++ (t ++ (g' ++ ident y :: c)))] (.nthChild true (some (a, some s)))

/-- Simple selectors in a row. -/
inductive Simples (strict : Bool) (ns : Namespaces) : List Sst → List Selector → Prop
  | nil : Simples strict ns [] []
  | cons {t s t' l} : Simple strict ns t s → Simples strict ns t' l → Simples strict ns (t ++ t') (s :: l)

/-- A compound selector. -/
inductive Compound (strict : Bool) (ns : Namespaces) : List Sst → List Selector → Prop
  | bare {t s t' l} : Simple strict ns t s → Simples strict ns t' l → Compound strict ns (t ++ t') (s :: l)
  | typed {t q t' l} : TypeText strict ns t q → Simples strict ns t' l → Compound strict ns (t ++ t') (.type q :: l)

/-- Combinators, each with a compound selector behind it. -/
inductive More (strict : Bool) (ns : Namespaces) : List Sst → List (Comb × List Selector) → Prop
  | nil : More strict ns [] []
  | cons {c o t k r l} : Compound strict ns t k → CombText strict t c o → More strict ns r l →
      More strict ns (c ++ (t ++ r)) ((o, k) :: l)

/-- A complex selector. -/
inductive Complex (strict : Bool) (ns : Namespaces) : List Sst → Selector → Prop
  | mk {t k r l} : Compound strict ns t k → More strict ns r l → (strict = true → Grouped l) →
      Complex strict ns (t ++ r) (chain k l)

/-- Complex selectors between commas. -/
inductive Complexes (strict : Bool) (ns : Namespaces) : List Sst → List Selector → Prop
  | one {t s} : Complex strict ns t s → Complexes strict ns t [s]
  | more {t s g g' r l} : Complex strict ns t s → Gap g → Gap g' → (strict = true → g = [] ∨ g' ≠ [] ∨ Open r) →
      Complexes strict ns r l → Complexes strict ns (t ++ (g ++ comma :: (g' ++ r))) (s :: l)

/-- A selector list. -/
inductive ListText (strict : Bool) (ns : Namespaces) : List Sst → Selector → Prop
  | mk {g t g' l} : Gap g → Complexes strict ns t l → Gap g' → ListText strict ns (g ++ (t ++ g')) (anyOf l)
end

/-! ## Texts the code does not run off -/

mutual
/-- A token as the lexer makes it; what stands in brackets is safe, and a function has something in
its brackets. -/
def SafeOne : Sst → Prop
  | .tok t => (t.type = .number → t.data ≠ []) ∧ (t.type = .ident → ∃ c ∈ t.data, ¬ (48 ≤ c ∧ c ≤ 57))
  | .func t c => Safe c ∧ (t.type = .func ∧ Keyword false t.data "not(" ∨ eatWs c ≠ [])
  | .block c => Safe c
  | _ => True

/-- Something follows each `.`, `:` and `|`, something other than white space follows each `=`, and
no bracket or function follows a `+` or `-`. -/
def Safe : List Sst → Prop
  | [] => True
  | s :: r => SafeOne s ∧ (s = delim 46 ∨ s.is .colon = true ∨ s = delim 124 → r ≠ []) ∧ (s = delim 61 → eatWs r ≠ []) ∧
      (s = delim 43 ∨ s = delim 45 → ∀ s' r', eatWs r = s' :: r' → ∃ t, s' = .tok t ∧ t.data ≠ []) ∧ Safe r
end

end Verif.SelParse.Spec
