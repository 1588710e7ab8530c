import Verif.Rules.Model
import Verif.SelParse.Spec
import Verif.Media.Spec
import Verif.Page.Spec
import Verif.SelParse.Props
/-!
# The rules of a style sheet: what is meant

CSS Syntax 3 (section 9), CSS Cascade 5 (section 2), CSS Conditional 3, CSS Namespaces 3, CSS Paged
Media 3, CSS Counter Styles 3 and CSS Fonts 4: what a style sheet contributes on a medium, in the
order it is written.

With `strict` it is cut down to what the code reads as meant.  Rules nested in style rules are not
spoken of.
-/
namespace Verif.Rules.Spec
open Verif.Css (Sst Tok TT Text u Blank)
open Verif.Selector (Str Selector)
open Verif.SelParse (Namespaces)
open Verif.SelParse.Spec (low Name chars ident)
open Verif.Media (Kind)

/-- A thing that a style sheet contributes. -/
inductive Contribution (δ : Type) where
  | style (s : Selector) (ds : List δ)
  | page (p : Page.Page → Prop) (ds : List δ) (areas : List (Text × List δ))
  | counter (name : Text) (body : List Sst)
  | font (body : List Sst)

/-- The numbers of the characters. -/
def codes (w : String) : Text := w.toList.map Char.toNat

/-- An at-keyword, in any case. -/
def At (strict : Bool) (t : Tok) (w : String) : Prop :=
  t.type = .atKeyword ∧ t.data.map low = 64 :: codes w ∧ (strict = true → t.data = 64 :: codes w)

/-- The at-rules that are spoken of here. -/
def known : List String := ["media", "import", "font-face", "counter-style", "page", "supports", "namespace"]

/-- The declarations of a block: those that are understood. -/
inductive Decls {δ : Type} (prop : Sst → Option δ) : List Sst → List δ → Prop
  | nil : Decls prop [] []
  | known {t c i x r l} : prop (.decl t c i) = some x → Decls prop r l → Decls prop (.decl t c i :: r) (x :: l)
  | unknown {t c i r l} : prop (.decl t c i) = none → Decls prop r l → Decls prop (.decl t c i :: r) l

/-- A text that begins with nothing a selector begins with. -/
def NoSelector (pre : List Sst) : Prop :=
  ∃ g c, pre = g ++ c ∧ Blank g ∧ (c = [] ∨ ∃ s r, c = s :: r ∧ (∀ l, s ≠ .block l) ∧ s.is .ws = false ∧ s.is .hash = false ∧
    s.is .ident = false ∧ s.is .delim = false ∧ s.is .colon = false)

/-- The uri of a namespace. -/
inductive UriText : Sst → Str → Prop
  | string {x} : UriText (.tok ⟨.string, x⟩) (chars x)
  | url {x} : UriText (.tok ⟨.url, codes "url(" ++ x ++ codes ")"⟩) (chars x)
  | func {f g x g'} : f.map low = codes "url(" → Blank g → Blank g' →
      UriText (.func ⟨.func, f⟩ (g ++ .tok ⟨.string, x⟩ :: g')) (chars x)

/-- What stands between `@namespace` and the semicolon. -/
inductive NsText (strict : Bool) : List Sst → Option Str → Str → Prop
  | default {g s y g'} : Blank g → Blank g' → UriText s y → NsText strict (g ++ s :: g') none y
  | named {g p q g' s y g''} : Blank g → Blank g' → Blank g'' → Name strict p q → UriText s y →
      NsText strict (g ++ ident p :: (g' ++ s :: g'')) (some q) y

/-- The namespaces when this one has been declared: the newest declaration of a prefix holds. -/
def declare (ns : Namespaces) : Option Str → Str → Namespaces
  | none, y => ⟨y, ns.prefixes⟩
  | some q, y => ⟨ns.default, (q, y) :: ns.prefixes⟩

/-- What stands between `@page` and the block: nothing, or a selector. -/
inductive PageText (strict : Bool) : List Sst → (Page.Page → Prop) → Prop
  | all {g} : Blank g → PageText strict g fun _ => True
  | one {g s g'} : Blank g → Blank g' → s.name ≠ [] ∨ s.pseudos ≠ [] → (strict = true → ∀ p ∈ s.pseudos, p = .first) →
      PageText strict (g ++ (Page.Spec.written s ++ g')) (Page.Spec.SelApplies s)

/-- The margin boxes of a page, and the place for footnotes. -/
def boxes : List String :=
  ["top-left-corner", "top-left", "top-center", "top-right", "top-right-corner",
   "left-top", "left-middle", "left-bottom", "right-top", "right-middle", "right-bottom",
   "bottom-left-corner", "bottom-left", "bottom-center", "bottom-right", "bottom-right-corner", "footnote"]

/-- Names of its own that the engine takes for boxes. -/
def vendor : List String := ["-vaev-top", "-vaev-right", "-vaev-bottom", "-vaev-left"]

/-- The block of a page rule: declarations for the page and blocks for its boxes. -/
inductive PageBody {δ : Type} (strict : Bool) (prop : Sst → Option δ) : List Sst → List δ → List (Text × List δ) → Prop
  | nil : PageBody strict prop [] [] []
  | known {t c i x r l a} : prop (.decl t c i) = some x → PageBody strict prop r l a →
      PageBody strict prop (.decl t c i :: r) (x :: l) a
  | unknown {t c i r l a} : prop (.decl t c i) = none → PageBody strict prop r l a → PageBody strict prop (.decl t c i :: r) l a
  | box {t pre c b ds r l a} : b ∈ boxes → At strict t b → Decls prop c ds → PageBody strict prop r l a →
      PageBody strict prop (.rule t pre c :: r) l ((codes b, ds) :: a)
  | other {t pre c r l a} : t.type = .atKeyword → (∀ b ∈ boxes, t.data.map low ≠ 64 :: codes b) →
      (strict = true → (∃ x, t.data = 64 :: x) ∧ ∀ b ∈ vendor, t.data ≠ 64 :: codes b) →
      PageBody strict prop r l a → PageBody strict prop (.rule t pre c :: r) l a

/-- What a list of rules contributes on the medium `m`. `early` tells that only `@import` and
`@namespace` came before, `top` that the rules are in no block, `ns` which namespaces are declared.
`incl` is what a sheet that is imported contributes, `supported` which conditions of `@supports` hold. -/
inductive Sheet {δ : Type} (strict : Bool) (num : Kind → Sst → Option Int) (prop : Sst → Option δ)
    (incl : List Sst → List (Contribution δ)) (supported : List Sst → Prop) (m : Media.Media) :
    Bool → Bool → Namespaces → List Sst → List (Contribution δ) → Prop
  | nil {early top ns} : Sheet strict num prop incl supported m early top ns [] []
  | style {early top ns pre body s ds rest l} : SelParse.Spec.ListText strict ns pre s → Decls prop body ds →
      Sheet strict num prop incl supported m false top ns rest l →
      Sheet strict num prop incl supported m early top ns (.rule ⟨.nil, []⟩ pre body :: rest) (.style s ds :: l)
  /-- A rule that has no selector is left out. -/
  | invalid {early top ns pre body rest l} : NoSelector pre →
      Sheet strict num prop incl supported m false top ns rest l →
      Sheet strict num prop incl supported m early top ns (.rule ⟨.nil, []⟩ pre body :: rest) l
  /-- A block of `@media` whose query holds contributes what is in it. -/
  | media {early top ns t pre P body lb rest l} : At strict t "media" → Media.Spec.MediaText num strict pre P → P m →
      Sheet strict num prop incl supported m false false ns body lb →
      Sheet strict num prop incl supported m false top ns rest l →
      Sheet strict num prop incl supported m early top ns (.rule t pre body :: rest) (lb ++ l)
  | mediaNot {early top ns t pre P body lb rest l} : At strict t "media" → Media.Spec.MediaText num strict pre P → ¬ P m →
      Sheet strict num prop incl supported m false false ns body lb →
      Sheet strict num prop incl supported m false top ns rest l →
      Sheet strict num prop incl supported m early top ns (.rule t pre body :: rest) l
  | font {early top ns t pre body rest l} : At strict t "font-face" → Blank pre → (strict = true → top = true) →
      Sheet strict num prop incl supported m false top ns rest l →
      Sheet strict num prop incl supported m early top ns (.rule t pre body :: rest) (.font body :: l)
  | counter {early top ns t g x g' body rest l} : At strict t "counter-style" → Blank g → Blank g' →
      (strict = true → top = true) → Sheet strict num prop incl supported m false top ns rest l →
      Sheet strict num prop incl supported m early top ns (.rule t (g ++ ident x :: g') body :: rest) (.counter x body :: l)
  | page {early top ns t pre p body ds areas rest l} : At strict t "page" → PageText strict pre p →
      PageBody strict prop body ds areas → Sheet strict num prop incl supported m false top ns rest l →
      Sheet strict num prop incl supported m early top ns (.rule t pre body :: rest) (.page p ds areas :: l)
  /-- `@import` contributes the sheet it names. -/
  | imports {top ns t pre rest l} : At strict t "import" → (strict = true → incl pre = []) →
      Sheet strict num prop incl supported m true top ns rest l →
      Sheet strict num prop incl supported m true top ns (.rule t pre [] :: rest) (incl pre ++ l)
  | supports {early top ns t pre body lb rest l} : strict = false → At strict t "supports" → supported pre →
      Sheet strict num prop incl supported m false false ns body lb →
      Sheet strict num prop incl supported m false top ns rest l →
      Sheet strict num prop incl supported m early top ns (.rule t pre body :: rest) (lb ++ l)
  | supportsNot {early top ns t pre body rest l} : At strict t "supports" → ¬ supported pre →
      Sheet strict num prop incl supported m false top ns rest l →
      Sheet strict num prop incl supported m early top ns (.rule t pre body :: rest) l
  /-- `@namespace` holds for the selectors that come after it. -/
  | declares {top ns t pre p y rest l} : At strict t "namespace" → NsText strict pre p y →
      Sheet strict num prop incl supported m true top (declare ns p y) rest l →
      Sheet strict num prop incl supported m true top ns (.rule t pre [] :: rest) l
  /-- Behind other rules it is left out. -/
  | misplaced {top ns t pre p y rest l} : strict = false → At strict t "namespace" → NsText strict pre p y →
      Sheet strict num prop incl supported m false top ns rest l →
      Sheet strict num prop incl supported m false top ns (.rule t pre [] :: rest) l
  /-- An at-rule that is not known is left out. -/
  | other {early top ns t pre body rest l} : t.type = .atKeyword → (∀ w ∈ known, t.data.map low ≠ 64 :: codes w) →
      (strict = true → NoSelector pre) → Sheet strict num prop incl supported m false top ns rest l →
      Sheet strict num prop incl supported m early top ns (.rule t pre body :: rest) l

/-- The style rules among the contributions. -/
def styles {δ : Type} : List (Contribution δ) → List (Selector × List δ)
  | [] => []
  | .style s ds :: l => (s, ds) :: styles l
  | _ :: l => styles l

/-- The counter styles among the contributions. -/
def counters {δ : Type} : List (Contribution δ) → List (Text × List Sst)
  | [] => []
  | .counter n b :: l => (n, b) :: counters l
  | _ :: l => counters l

/-- The font faces among the contributions. -/
def fonts {δ : Type} : List (Contribution δ) → List (List Sst)
  | [] => []
  | .font b :: l => b :: fonts l
  | _ :: l => fonts l

/-- The page rules that are for this page. -/
inductive PagesOf {δ : Type} (page : Page.Page) : List (Contribution δ) → List (List δ × List (Text × List δ)) → Prop
  | nil : PagesOf page [] []
  | yes {p ds a l x} : p page → PagesOf page l x → PagesOf page (.page p ds a :: l) ((ds, a) :: x)
  | no {p ds a l x} : ¬ p page → PagesOf page l x → PagesOf page (.page p ds a :: l) x
  | style {s ds l x} : PagesOf page l x → PagesOf page (.style s ds :: l) x
  | counter {n b l x} : PagesOf page l x → PagesOf page (.counter n b :: l) x
  | font {b l x} : PagesOf page l x → PagesOf page (.font b :: l) x

/-- A style rule that changes nothing: it has no declaration, or matches no element. -/
def Idle {δ : Type} (r : Selector × List δ) : Prop := r.2 = [] ∨ ∀ k data n e pe, ¬ Selector.Means k data r.1 n e pe

/-- The same rules in the same order: the selectors mean the same and are as specific, and the
declarations are the same.  Rules that change nothing are passed over. -/
inductive Same {δ : Type} : List (Selector × List δ) → List (Selector × List δ) → Prop
  | nil : Same [] []
  | cons {s' s ds l' l} : SelParse.Agree s' s → Selector.spec s' = Selector.spec s → Same l' l → Same ((s', ds) :: l') ((s, ds) :: l)
  | idle {r l' l} : Idle r → Same l' l → Same (r :: l') l

/-- The at-rule with this keyword. -/
def keyword (w : String) : Tok := ⟨.atKeyword, 64 :: codes w⟩

/-- The namespaces when these have been declared, one after the other. -/
def declareAll (ns : Namespaces) : List (Option Str × Str) → Namespaces
  | [] => ns
  | d :: l => declareAll (declare ns d.1 d.2) l

/-- `@namespace` rules, one after the other. -/
inductive NsRules : List Sst → List (Option Str × Str) → Prop
  | nil : NsRules [] []
  | cons {pre p y r l} : NsText true pre p y → NsRules r l → NsRules (.rule (keyword "namespace") pre [] :: r) ((p, y) :: l)

mutual
/-- A rule that the reader does not run off or stop at: the query of `@media` is one it reads, the
name of `@counter-style` is there, `@namespace` says something, a page selector has no comma, and the
selector of any other rule is safe. -/
def FitOne (num : Kind → Sst → Option Int) : Sst → Prop
  | .rule t pre c =>
    (t.data = 64 :: codes "media" → (∃ P, Media.Spec.MediaText num true pre P) ∧ Fit num c) ∧
    (t.data = 64 :: codes "counter-style" → ∃ g x r, pre = g ++ ident x :: r ∧ Blank g) ∧
    (t.data = 64 :: codes "page" → Page.Spec.Pieces pre) ∧
    (t.data = 64 :: codes "namespace" → ¬ Blank pre) ∧
    ((∀ w ∈ known, t.data ≠ 64 :: codes w) → SelParse.Spec.Safe pre)
  | _ => True

def Fit (num : Kind → Sst → Option Int) : List Sst → Prop
  | [] => True
  | s :: r => FitOne num s ∧ Fit num r
end

end Verif.Rules.Spec
