import Verif.SelParse.Mono
import Verif.Media.Model
import Verif.Page.Model
/-!
# The rules of a style sheet: model

`/repo/src/vaev-engine/style/rules.cpp`, `style/stylesheet.cpp` lines 24–42, `style/page.cpp` lines
178–213, and the walks over the rules in `style/computer.cpp` (lines 155–170, 480–494 and 516–541)
and `loader/loader-impl.cpp` (lines 60–72).

* The input is what the parser (`Verif.Css.Parser`) makes of the text: a list of `Sst`.
* What a prefix is read as is said by the models of selectors (`Verif.SelParse`), of media queries
  (`Verif.Media`) and of page selectors (`Verif.Page`).
* `Env.prop` is `RegisteredPropertySet::parseDeclaration(…, TOP_LEVEL)`: what the property registry
  makes of a declaration, if anything (`Verif.Registry`).
* The contents of `@font-face` and `@counter-style` are kept as they are written.
* `crash` is a panic or reading where there is nothing; `hang` is a reader that does not stop.
* Log messages are left out.
-/
namespace Verif.Rules
open Verif.Css (Sst Tok TT Text u eatWs)
open Verif.Selector (Str Selector)
open Verif.SelParse (Namespaces str)

inductive Res (α : Type) where
  | ok (a : α)
  | crash
  | hang

def Res.bind {α β : Type} : Res α → (α → Res β) → Res β
  | .ok a, f => f a
  | .crash, _ => .crash
  | .hang, _ => .hang

/-- What the reading of a style sheet depends on; `fuel` bounds the steps of the readers of media
queries and page selectors. -/
structure Env (δ : Type) where
  num : Media.Kind → Sst → Option Int
  prop : Sst → Option δ
  fuel : Nat

/-- `Rule`, rules.cpp lines 269–281, with the types it is the union of, lines 24–27, 86–87, 98–100,
113–114, 126–128, 149–151 and 196–199. -/
inductive Rule (δ : Type) where
  | style (selector : Selector) (props : List δ)
  | font (content : List Sst)
  | counter (name : Text) (content : List Sst)
  | media (query : Media.Query) (rules : List (Rule δ))
  | import_
  | namespace_ (pre : Option Str) (url : Str)
  | page (selectors : List Page.Sel) (props : List δ) (areas : List (Text × List δ))

/-- The declarations of a block that the registry understands, rules.cpp lines 50–58. -/
def propsOf {δ : Type} (prop : Sst → Option δ) (content : List Sst) : List δ :=
  content.filterMap fun
    | .decl t c i => prop (.decl t c i)
    | _ => none

/-- `StyleRule::parse`, rules.cpp lines 29–62. -/
noncomputable def parseStyle {δ : Type} (e : Env δ) (ns : Namespaces) (pre content : List Sst) : Res (Rule δ) :=
  match SelParse.read ns pre with
  | .ok s => .ok (.style s (propsOf e.prop content))
  | .err => .ok (.style .empty (propsOf e.prop content))
  | .fault => .crash
  | .fuel => .hang

/-- `CounterRule::parse`, rules.cpp lines 130–141, with `ValueParser<CustomIdent>`,
values/primitives.cpp lines 121–137: `unwrap` panics on an error. -/
def parseCounter {δ : Type} (pre content : List Sst) : Res (Rule δ) :=
  match eatWs pre with
  | .tok t :: _ => if t.type = .ident then .ok (.counter t.data content) else .crash
  | _ => .crash

/-- `parseUrlIntoString`, values/primitives.cpp lines 142–162: of `url(x)` the `x`. The length less
five wraps around if the token is shorter; `sub` (Karm) is taken to stop at the end. -/
def parseUrl : List Sst → Option Str
  | .tok t :: _ =>
    if t.type = .url then
      some (str (if t.data.length < 5 then t.data.drop 4 else (t.data.drop 4).take (t.data.length - 5)))
    else none
  | .func t c :: _ =>
    if t.same ⟨.func, u "url("⟩ then
      match eatWs c with
      | .tok s :: _ => if s.type = .string then some (str s.data) else none
      | _ => none
    else none
  | _ => none

/-- The string or the url of `NamespaceRule::parse`, rules.cpp lines 172–176. -/
def parseUri (c : List Sst) : Option Str :=
  match c with
  | .tok t :: _ => if t.type = .string then some (str t.data) else parseUrl c
  | _ => parseUrl c

/-- The prefix of `NamespaceRule::parse`, if there is one, and what is behind it, rules.cpp lines
164–168. -/
def nsPrefix (s : Sst) (r : List Sst) : Option Str × List Sst :=
  match s with
  | .tok t => if t.type = .ident then (some (str t.data), r) else (none, s :: r)
  | _ => (none, s :: r)

/-- `NamespaceRule::parse`, rules.cpp lines 153–189. `Map::put` replaces what the prefix was bound
to: as only lookups are made, the new pair is put in front. -/
def parseNamespace {δ : Type} (ns : Namespaces) (pre : List Sst) : Res (Rule δ × Namespaces) :=
  match eatWs pre with
  | [] => .crash
  | s :: r =>
    match parseUri (eatWs (nsPrefix s r).2) with
    | none => .ok (.namespace_ none [], ns)
    | some y =>
      match (nsPrefix s r).1 with
      | some q => .ok (.namespace_ (some q) y, { ns with prefixes := (q, y) :: ns.prefixes })
      | none => .ok (.namespace_ none y, { ns with default := y })

/-- `FOREACH_PAGE_AREA`, page.cpp lines 18–40. -/
def areaNames : List String :=
  ["footnote", "-vaev-top", "top-left-corner", "top-left", "top-center", "top-right", "top-right-corner",
   "-vaev-right", "right-top", "right-middle", "right-bottom", "-vaev-bottom", "bottom-right-corner", "bottom-right",
   "bottom-center", "bottom-left", "bottom-left-corner", "-vaev-left", "left-bottom", "left-middle", "left-top"]

/-- `PageAreaRule::parse`, page.cpp lines 182–213: the name is what follows the `@`. -/
def parseArea {δ : Type} (prop : Sst → Option δ) (t : Tok) (content : List Sst) : Option (Text × List δ) :=
  if (areaNames.map u).contains (t.data.drop 1) then some (t.data.drop 1, propsOf prop content) else none

/-- The areas of a page rule, rules.cpp lines 221–225. -/
def areasOf {δ : Type} (prop : Sst → Option δ) (content : List Sst) : List (Text × List δ) :=
  content.filterMap fun
    | .rule t _ c => if t.type = .atKeyword then parseArea prop t c else none
    | _ => none

/-- `PageRule::parse`, rules.cpp lines 201–232. -/
def parsePage {δ : Type} (e : Env δ) (pre content : List Sst) : Res (Rule δ) :=
  match Page.parseList e.fuel pre with
  | .ok sels => .ok (.page sels (propsOf e.prop content) (areasOf e.prop content))
  | .crash => .crash
  | .out => .hang

mutual
/-- `Rule::parse`, rules.cpp lines 283–307, and `MediaRule::parse`, lines 316–341. The keyword is
compared letter by letter. -/
noncomputable def parseRule {δ : Type} (e : Env δ) (ns : Namespaces) : Sst → Res (Rule δ × Namespaces)
  | .rule t pre content =>
    if t.data = u "@media" then
      match Media.parseQuery e.num e.fuel pre with
      | .ok q => (parseRules e ns content).bind fun r => .ok (.media q r.1, r.2)
      | .crash => .crash
      | .out => .hang
    else if t.data = u "@import" then .ok (.import_, ns)
    else if t.data = u "@font-face" then .ok (.font content, ns)
    else if t.data = u "@counter-style" then (parseCounter pre content).bind fun r => .ok (r, ns)
    else if t.data = u "@page" then (parsePage e pre content).bind fun r => .ok (r, ns)
    else if t.data = u "@supports" then .ok (.style (.type ⟨.universal, none⟩) [], ns)
    else if t.data = u "@namespace" then parseNamespace ns pre
    else (parseStyle e ns pre content).bind fun r => .ok (r, ns)
  | _ => .crash

/-- The loops of `StyleSheet::parse`, stylesheet.cpp lines 31–37, and of `MediaRule::parse`,
rules.cpp lines 331–338: what is no rule is passed over. -/
noncomputable def parseRules {δ : Type} (e : Env δ) (ns : Namespaces) : List Sst → Res (List (Rule δ) × Namespaces)
  | [] => .ok ([], ns)
  | .rule t pre content :: r =>
    (parseRule e ns (.rule t pre content)).bind fun x =>
      (parseRules e x.2 r).bind fun y => .ok (x.1 :: y.1, y.2)
  | _ :: r => parseRules e ns r
end

/-- `StyleSheet::parse`, stylesheet.cpp lines 24–42. -/
noncomputable def parseSheet {δ : Type} (e : Env δ) (items : List Sst) : Res (List (Rule δ)) :=
  (parseRules e {} items).bind fun r => .ok r.1

/-! ## What the rules are used for -/

mutual
/-- `_addRuleToLookup`, computer.cpp lines 524–541. -/
def lookupRule {δ : Type} (m : Media.Media) : Rule δ → List (Selector × List δ)
  | .style s ds => [(s, ds)]
  | .media q rs => if q.match m then lookupRules m rs else []
  | _ => []

/-- The loops of `build`, computer.cpp lines 516–522, and of lines 531–533. -/
def lookupRules {δ : Type} (m : Media.Media) : List (Rule δ) → List (Selector × List δ)
  | [] => []
  | r :: rs => lookupRule m r ++ lookupRules m rs
end

/-- `PageRule::match`, rules.cpp lines 234–244. -/
def pageMatch (sels : List Page.Sel) (page : Page.Page) : Bool :=
  if sels.length = 0 then true else sels.any fun s => s.match page

mutual
/-- `_evalRule`, computer.cpp lines 155–170: the declarations that are applied to the page and to its
areas. -/
def pageRule {δ : Type} (m : Media.Media) (page : Page.Page) : Rule δ → List (List δ × List (Text × List δ))
  | .page sels ds areas => if pageMatch sels page then [(ds, areas)] else []
  | .media q rs => if q.match m then pageRules m page rs else []
  | _ => []

def pageRules {δ : Type} (m : Media.Media) (page : Page.Page) : List (Rule δ) → List (List δ × List (Text × List δ))
  | [] => []
  | r :: rs => pageRule m page r ++ pageRules m page rs
end

/-- `_resolveCounterStyle`, computer.cpp lines 480–494: the counter styles, the last of a name being
the one that is kept. -/
def counterRules {δ : Type} (rules : List (Rule δ)) : List (Text × List Sst) :=
  rules.filterMap fun
    | .counter n c => some (n, c)
    | _ => none

/-- `_evalFontfaceRules`, loader-impl.cpp lines 60–72. -/
def fontRules {δ : Type} (rules : List (Rule δ)) : List (List Sst) :=
  rules.filterMap fun
    | .font c => some c
    | _ => none

end Verif.Rules
