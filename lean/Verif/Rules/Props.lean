import Verif.Rules.Reads
/-!
# The rules of a style sheet: the properties

C216 (style rules), C217 (namespaces), C218 (page rules and margin boxes), C219 (counter styles and
font faces) and C220 (every style sheet is read).
-/
namespace Verif.Rules
open Verif.Css (Sst Tok TT Text u eatWs Blank eatWs_blank)
open Verif.Selector (Str Selector Means NameMeans htmlNs)
open Verif.SelParse (Namespaces str read read_simple typeText_reads)
open Verif.SelParse.Spec (low Name chars ident)
open Spec

section
variable {δ : Type} (num : Media.Kind → Sst → Option Int) (prop : Sst → Option δ) (incl : List Sst → List (Contribution δ))
  (supported : List Sst → Prop) (m : Media.Media)

theorem parseSheet_ok {e : Env δ} {items : List Sst} {rules : List (Rule δ)} {ns : Namespaces}
    (h : parseRules e {} items = .ok (rules, ns)) : parseSheet e items = .ok rules := by
  rw [parseSheet, h]; rfl

/-! ## C216: style rules -/

/-- **C216**: the style rules in force are those written outside `@media`, and in blocks of `@media` all
of whose queries hold, in the order they are written, each with its selector and its declarations.

Missing, with the witnesses below: at-rules that are not known, keywords in capitals, `@supports` whose
condition holds, `@import`. -/
theorem C216_styles_partial (hm : Media.Real m) (items : List Sst) (l : List (Contribution δ))
    (h : Sheet true num prop incl supported m true true {} items l) :
    ∃ k, ∀ fuel, k ≤ fuel → ∃ rules, parseSheet ⟨num, prop, fuel⟩ items = .ok rules ∧ Same (lookupRules m rules) (styles l) := by
  obtain ⟨k, hk⟩ := sheet_reads hm h
  refine ⟨k, fun fuel hf => ?_⟩
  obtain ⟨rules, ns', h1, -, h2⟩ := hk fuel hf
  exact ⟨rules, parseSheet_ok h1, h2.styles⟩

/-- `p` -/
def pText : List Sst := [ident [112]]

def pSel : Selector := .type ⟨.exact htmlNs, some ['p']⟩

theorem p_list (b : Bool) : SelParse.Spec.ListText b {} pText pSel :=
  SelParse.one_compound (t := pText) (k := [pSel]) (.typed (t' := []) (.name (SelParse.name_one b (by decide))) .nil)

theorem p_read : read {} pText = .ok pSel := read_simple (typeText_reads (.name (SelParse.name_one true (by decide))))

theorem p_not_idle (x : δ) : ¬ Idle (pSel, [x]) := by
  rintro (h | h)
  · simp at h
  · exact h (fun _ => []) (fun _ => .other) 0 ⟨⟨some htmlNs, ['p']⟩, [], []⟩ none (by simp [pSel, Means, NameMeans])

theorem Spec.Same.nil_left {l : List (Selector × List δ)} (h : Same [] l) : l = [] := by cases h; rfl

theorem not_same_nil {r : Selector × List δ} (h : ¬ Idle r) : ¬ Same [r] [] := by
  intro h'
  cases h' with
  | idle hi _ => exact h hi

theorem not_same_short (s s' : Selector) (x : δ) : ¬ Same [(s', [])] [(s, [x])] := by
  intro h
  cases h with
  | idle _ h => cases h.nil_left

/-- **C216 is false as stated**: an at-rule that is not known, `@x p { … }`, is taken for `p { … }`. -/
theorem C216_unknown_fails (t : Tok) (c : List Sst) (i : Bool) (x : δ) (hx : prop (.decl t c i) = some x) (fuel : Nat) :
    Sheet false num prop incl supported m true true {} [.rule ⟨.atKeyword, 64 :: codes "x"⟩ pText [.decl t c i]] [] ∧
    ∃ rules, parseSheet ⟨num, prop, fuel⟩ [.rule ⟨.atKeyword, 64 :: codes "x"⟩ pText [.decl t c i]] = .ok rules ∧
      ¬ Same (lookupRules m rules) [] := by
  refine ⟨.other rfl (by decide) (by simp) .nil, [.style pSel [x]], ?_, ?_⟩
  · refine parseSheet_ok (ns := {}) ?_
    rw [parseRules, rule_other _ _ _ _ _ (show ∀ w ∈ known, (64 :: codes "x" : Text) ≠ 64 :: codes w by decide), parseStyle, p_read]
    simp [Res.bind, parseRules, propsOf, hx]
  · exact not_same_nil (p_not_idle x)

/-- **C216 is false as stated**: `@MEDIA` is not known. -/
theorem C216_case_fails (t : Tok) (c : List Sst) (i : Bool) (x : δ) (hx : prop (.decl t c i) = some x) (fuel : Nat) :
    Sheet false num prop incl supported m true true {} [.rule ⟨.atKeyword, 64 :: codes "MEDIA"⟩ [] [.rule ⟨.nil, []⟩ pText [.decl t c i]]]
      [.style pSel [x]] ∧
    ∃ rules, parseSheet ⟨num, prop, fuel⟩ [.rule ⟨.atKeyword, 64 :: codes "MEDIA"⟩ [] [.rule ⟨.nil, []⟩ pText [.decl t c i]]] = .ok rules ∧
      ¬ Same (lookupRules m rules) [(pSel, [x])] := by
  refine ⟨Sheet.media (lb := [.style pSel [x]]) (l := []) (P := fun _ => True) ⟨rfl, by decide, by simp⟩ (.empty (by simp [Blank])) trivial
    (.style (p_list false) (.known hx .nil) .nil) .nil, [.style .empty []], ?_, not_same_short _ _ x⟩
  refine parseSheet_ok (ns := {}) ?_
  rw [parseRules, rule_other _ _ _ _ _ (show ∀ w ∈ known, (64 :: codes "MEDIA" : Text) ≠ 64 :: codes w by decide),
    parseStyle_idle _ (show NoSelector [] from ⟨[], [], rfl, by simp [Blank], .inl rfl⟩)]
  simp [Res.bind, parseRules, propsOf]

/-- **C216 is false as stated**: what is in `@supports` is left out, whatever the condition. -/
theorem C216_supports_fails (t : Tok) (c : List Sst) (i : Bool) (x : δ) (hx : prop (.decl t c i) = some x) (fuel : Nat)
    (cond : List Sst) (hc : supported cond) :
    Sheet false num prop incl supported m true true {} [.rule (keyword "supports") cond [.rule ⟨.nil, []⟩ pText [.decl t c i]]]
      [.style pSel [x]] ∧
    ∃ rules, parseSheet ⟨num, prop, fuel⟩ [.rule (keyword "supports") cond [.rule ⟨.nil, []⟩ pText [.decl t c i]]] = .ok rules ∧
      ¬ Same (lookupRules m rules) [(pSel, [x])] := by
  refine ⟨Sheet.supports (lb := [.style pSel [x]]) (l := []) rfl ⟨rfl, by decide, fun _ => rfl⟩ hc
    (.style (p_list false) (.known hx .nil) .nil) .nil, [.style (.type ⟨.universal, none⟩) []], ?_, not_same_short _ _ x⟩
  refine parseSheet_ok (ns := {}) ?_
  rw [parseRules, rule_supports _ _ _ _ _ rfl]
  simp [Res.bind, parseRules]

/-- **C216 is false as stated**: `@import` brings nothing in, whatever the sheet it names contains. -/
theorem C216_import_fails (x : δ) (uri : List Sst) (hu : incl uri = [.style pSel [x]]) (fuel : Nat) :
    Sheet false num prop incl supported m true true {} [.rule (keyword "import") uri []] [.style pSel [x]] ∧
    ∃ rules, parseSheet ⟨num, prop, fuel⟩ [.rule (keyword "import") uri []] = .ok rules ∧
      ¬ Same (lookupRules m rules) [(pSel, [x])] := by
  refine ⟨?_, [.import_], ?_, fun h => by cases h.nil_left⟩
  · have := Sheet.imports (num := num) (prop := prop) (supported := supported) (m := m) (strict := false) (top := true) (ns := {})
      (t := keyword "import") (pre := uri) (incl := incl) (rest := []) (l := []) ⟨rfl, by decide, fun _ => rfl⟩ (by simp) .nil
    rwa [hu] at this
  · refine parseSheet_ok (ns := {}) ?_
    rw [parseRules, rule_import _ _ _ _ _ rfl]
    simp [Res.bind, parseRules]

/-! ## C217: namespaces -/

/-- **C217**: a selector behind `@namespace` rules is read with the namespaces that they declare, the
newest declaration of a prefix or of the default holding.

Missing, with the witnesses below: `@namespace` behind other rules, or in a block, is to be left out. -/
theorem C217_declared_partial (decls : List Sst) (ds : List (Option Str × Str)) (hd : NsRules decls ds)
    (pre body : List Sst) (s : Selector) (hs : SelParse.Spec.ListText true (declareAll {} ds) pre s) (fuel : Nat) :
    ∃ rules s', parseSheet ⟨num, prop, fuel⟩ (decls ++ [.rule ⟨.nil, []⟩ pre body]) = .ok (rules ++ [.style s' (propsOf prop body)]) ∧
      lookupRules m rules = [] ∧ SelParse.Agree s' s ∧ Selector.spec s' = Selector.spec s := by
  obtain ⟨s', h1, -, h2, h3⟩ := SelParse.C154_means_partial _ pre s hs
  suffices h : ∀ ns, read (declareAll ns ds) pre = .ok s' → ∃ rules, parseRules ⟨num, prop, fuel⟩ ns (decls ++ [.rule ⟨.nil, []⟩ pre body]) =
      .ok (rules ++ [.style s' (propsOf prop body)], declareAll ns ds) ∧ lookupRules m rules = [] by
    obtain ⟨rules, h4, h5⟩ := h {} h1
    exact ⟨rules, s', parseSheet_ok h4, h5, h3, h2⟩
  clear h1 hs
  induction hd with
  | nil =>
    intro ns h1
    refine ⟨[], ?_, rfl⟩
    rw [declareAll] at h1
    rw [List.nil_append, parseRules, rule_other _ _ _ _ _ nil_known, parseStyle, h1]
    simp [Res.bind, parseRules, declareAll]
  | @cons p' p y r l hn _ ih =>
    intro ns h1
    obtain ⟨rules, h4, h5⟩ := ih (declare ns p y) h1
    refine ⟨.namespace_ p y :: rules, ?_, by simp [lookupRules, lookupRule, h5]⟩
    rw [List.cons_append, parseRules, rule_namespace _ _ _ _ _ rfl, ns_reads hn]
    simp only [Res.bind, h4]
    rfl

/-- `@namespace "x";` -/
def xNamespace : Sst := .rule (keyword "namespace") [.tok ⟨.ws, [32]⟩, .tok ⟨.string, [120]⟩] []

theorem x_text (b : Bool) : NsText b [.tok ⟨.ws, [32]⟩, .tok ⟨.string, [120]⟩] none ['x'] :=
  .default (g := [.tok ⟨.ws, [32]⟩]) (g' := []) (by simp [Blank, Sst.is]) (by simp [Blank]) .string

theorem parse_x (ns : Namespaces) : parseNamespace (δ := δ) ns [.tok ⟨.ws, [32]⟩, .tok ⟨.string, [120]⟩] =
    .ok (.namespace_ none ['x'], declare ns none ['x']) := ns_reads (x_text true) ns

theorem p_read_x : read (declare {} none ['x']) pText = .ok (.type ⟨.exact ['x'], some ['p']⟩) := by
  have h : ∀ ns : Namespaces, read ns pText = .ok (.type ⟨.exact ns.default, some ['p']⟩) := fun ns =>
    read_simple (typeText_reads (.name (SelParse.name_one true (by decide))))
  rw [h]
  rfl

theorem means_p (y : Str) (k : Dom.Kids) (data : Nat → Selector.NodeData) (n : Nat) (e : Selector.Element) (pe : Option Str) :
    Means k data (.type ⟨.exact y, some ['p']⟩) n e pe ↔ e.qname = ⟨some y, ['p']⟩ := by
  obtain ⟨⟨a, b⟩, _, _⟩ := e
  simp [Means, NameMeans, eq_comm]

theorem not_same_x (x : δ) : ¬ Same [(Selector.type ⟨.exact ['x'], some ['p']⟩, [x])] [(pSel, [x])] := by
  have ne : ['x'] ≠ htmlNs := by decide +kernel
  intro h
  cases h with
  | cons h _ _ =>
    have h1 := h (fun _ => []) (fun _ => .other) (by simp) 0 ⟨⟨some ['x'], ['p']⟩, [], []⟩ none
    rw [pSel, means_p, means_p] at h1
    have h2 := h1.mp rfl
    injection h2 with h3
    injection h3 with h3
    exact ne h3
  | idle hi _ =>
    rcases hi with h | h
    · simp at h
    · exact h (fun _ => []) (fun _ => .other) 0 ⟨⟨some ['x'], ['p']⟩, [], []⟩ none ((means_p ..).mpr rfl)

/-- **C217 is false as stated**: `@namespace` behind a style rule changes the selectors that follow. -/
theorem C217_late_fails (t : Tok) (c : List Sst) (i : Bool) (x : δ) (hx : prop (.decl t c i) = some x) (fuel : Nat) :
    Sheet false num prop incl supported m true true {} [.rule ⟨.nil, []⟩ pText [], xNamespace, .rule ⟨.nil, []⟩ pText [.decl t c i]]
      [.style pSel [], .style pSel [x]] ∧
    ∃ rules, parseSheet ⟨num, prop, fuel⟩ [.rule ⟨.nil, []⟩ pText [], xNamespace, .rule ⟨.nil, []⟩ pText [.decl t c i]] = .ok rules ∧
      ¬ Same (lookupRules m rules) [(pSel, []), (pSel, [x])] := by
  refine ⟨.style (p_list false) .nil (.misplaced rfl ⟨rfl, by decide, fun _ => rfl⟩ (x_text false) (.style (p_list false) (.known hx .nil) .nil)),
    [.style pSel [], .namespace_ none ['x'], .style (.type ⟨.exact ['x'], some ['p']⟩) [x]], ?_, ?_⟩
  · refine parseSheet_ok (ns := declare {} none ['x']) ?_
    rw [parseRules, rule_other _ _ _ _ _ nil_known, parseStyle, p_read]
    simp only [Res.bind]
    rw [xNamespace, parseRules, rule_namespace _ _ _ _ _ rfl, parse_x]
    simp only [Res.bind]
    rw [parseRules, rule_other _ _ _ _ _ nil_known, parseStyle, p_read_x]
    simp [Res.bind, parseRules, propsOf, hx]
  · intro h
    simp only [lookupRules, lookupRule, List.cons_append, List.nil_append] at h
    cases h with
    | cons _ _ h => exact not_same_x x h
    | idle _ h =>
      cases h with
      | idle _ h => cases h.nil_left

/-- **C217 is false as stated**: so does one in a block of `@media`, even if its query does not hold. -/
theorem C217_nested_fails (t : Tok) (c : List Sst) (i : Bool) (x : δ) (hx : prop (.decl t c i) = some x) (fuel : Nat) (q : List Sst) (P : Media.Media → Prop)
    (hq : Media.Spec.MediaText num true q P) (hq' : Media.Spec.MediaText num false q P) (hp : ¬ P m) (hm : Media.Real m)
    (hf : 3 * sizeOf q + 2 ≤ fuel) :
    Sheet false num prop incl supported m true true {} [.rule (keyword "media") q [xNamespace], .rule ⟨.nil, []⟩ pText [.decl t c i]]
      [.style pSel [x]] ∧
    ∃ rules, parseSheet ⟨num, prop, fuel⟩ [.rule (keyword "media") q [xNamespace], .rule ⟨.nil, []⟩ pText [.decl t c i]] = .ok rules ∧
      ¬ Same (lookupRules m rules) [(pSel, [x])] := by
  rcases Media.parseQuery_text fuel hq with e | ⟨q', e, hm'⟩
  · exact absurd e (Media.parseQuery_ends num fuel q hf)
  have hb : q'.match m = false := by
    cases hb : q'.match m with
    | false => rfl
    | true => exact absurd ((hm' m hm).mp hb) hp
  refine ⟨.mediaNot ⟨rfl, by decide, fun _ => rfl⟩ hq' hp (.misplaced rfl ⟨rfl, by decide, fun _ => rfl⟩ (x_text false) .nil)
    (.style (p_list false) (.known hx .nil) .nil),
    [.media q' [.namespace_ none ['x']], .style (.type ⟨.exact ['x'], some ['p']⟩) [x]], ?_, ?_⟩
  · refine parseSheet_ok (ns := declare {} none ['x']) ?_
    rw [parseRules, rule_media ⟨num, prop, fuel⟩ _ _ _ _ rfl e, xNamespace, parseRules, rule_namespace _ _ _ _ _ rfl, parse_x]
    simp only [Res.bind]
    rw [parseRules]
    simp only
    rw [parseRules, rule_other _ _ _ _ _ nil_known, parseStyle, p_read_x]
    simp [Res.bind, parseRules, propsOf, hx]
  · simp only [lookupRules, lookupRule, hb]
    exact not_same_x x

/-! ## C218: page rules and margin boxes -/

/-- **C218**: the declarations applied to a page and to its margin boxes are those of the page rules for
this page, outside `@media` or in blocks whose queries hold, in order.

Missing: `:left`, `:right` and `:blank`, which are mirrored (C25), lists of page selectors, which are
never read to their end (C26), and what C216 misses. -/
theorem C218_pages_partial (hm : Media.Real m) (items : List Sst) (l : List (Contribution δ))
    (h : Sheet true num prop incl supported m true true {} items l) :
    ∃ k, ∀ fuel, k ≤ fuel → ∃ rules, parseSheet ⟨num, prop, fuel⟩ items = .ok rules ∧
      ∀ page, ∃ x, PagesOf page l x ∧ pageRules m page rules = x := by
  obtain ⟨k, hk⟩ := sheet_reads hm h
  refine ⟨k, fun fuel hf => ?_⟩
  obtain ⟨rules, ns', h1, -, h2⟩ := hk fuel hf
  refine ⟨rules, parseSheet_ok h1, fun page => ?_⟩
  obtain ⟨x, hx⟩ := pagesOf_exists page l
  exact ⟨x, hx, h2.pages page x hx⟩

/-- **C218 is false as stated**: the names of margin boxes are taken with case: what is said of
`@TOP-LEFT` is lost. -/
theorem C218_case_fails (t : Tok) (c : List Sst) (i : Bool) (x : δ) (hx : prop (.decl t c i) = some x) (fuel : Nat) (page : Page.Page) :
    ∃ items, Sheet false num prop incl supported m true true {} items [.page (fun _ => True) [] [(codes "top-left", [x])]] ∧
      ∃ rules, parseSheet ⟨num, prop, fuel + 1⟩ items = .ok rules ∧ pageRules m page rules = [([], [])] := by
  refine ⟨[.rule (keyword "page") [] [.rule ⟨.atKeyword, 64 :: codes "TOP-LEFT"⟩ [] [.decl t c i]]],
    .page ⟨rfl, by decide, fun _ => rfl⟩ (.all (by simp [Blank])) (.box (by decide) ⟨rfl, by decide, by simp⟩ (.known hx .nil) .nil) .nil,
    [.page [] [] []], ?_, by simp [pageRules, pageRule, pageMatch]⟩
  refine parseSheet_ok (ns := {}) ?_
  rw [parseRules, rule_page _ _ _ _ _ rfl, parsePage]
  have h1 : Page.parseList (fuel + 1) [] = .ok [] := rfl
  have h2 : areasOf prop [.rule ⟨.atKeyword, 64 :: codes "TOP-LEFT"⟩ [] [.decl t c i]] = [] := by
    have : parseArea prop ⟨.atKeyword, 64 :: codes "TOP-LEFT"⟩ [.decl t c i] = none := by
      rw [parseArea, if_neg (by simp only; decide)]
    simp [areasOf, this]
  simp [h1, h2, Res.bind, parseRules, propsOf]

/-! ## C219: counter styles and font faces -/

/-- **C219**: the counter styles and the font faces of a style sheet are those that are written, in
order.  Missing: those in blocks of `@media` (below). -/
theorem C219_top_partial (hm : Media.Real m) (items : List Sst) (l : List (Contribution δ))
    (h : Sheet true num prop incl supported m true true {} items l) :
    ∃ k, ∀ fuel, k ≤ fuel → ∃ rules, parseSheet ⟨num, prop, fuel⟩ items = .ok rules ∧
      counterRules rules = counters l ∧ fontRules rules = fonts l := by
  obtain ⟨k, hk⟩ := sheet_reads hm h
  refine ⟨k, fun fuel hf => ?_⟩
  obtain ⟨rules, ns', h1, -, h2⟩ := hk fuel hf
  exact ⟨rules, parseSheet_ok h1, h2.counters rfl, h2.fonts rfl⟩

/-- **C219 is false as stated**: what is in a block of `@media` is not found, even if its query holds. -/
theorem C219_nested_fails (body : List Sst) (name : Text) (fuel : Nat) :
    ∃ items, Sheet false num prop incl supported m true true {} items [.counter name body, .font body] ∧
      ∃ rules, parseSheet ⟨num, prop, fuel⟩ items = .ok rules ∧ counterRules rules = [] ∧ fontRules rules = [] := by
  refine ⟨[.rule (keyword "media") [] [.rule (keyword "counter-style") ([] ++ ident name :: []) body, .rule (keyword "font-face") [] body]],
    Sheet.media (lb := [.counter name body, .font body]) (l := []) (P := fun _ => True) ⟨rfl, by decide, fun _ => rfl⟩ (.empty (by simp [Blank])) trivial
      (.counter ⟨rfl, by decide, fun _ => rfl⟩ (by simp [Blank]) (by simp [Blank]) (by simp)
        (.font ⟨rfl, by decide, fun _ => rfl⟩ (by simp [Blank]) (by simp) .nil)) .nil,
    [.media .none [.counter name body, .font body]], ?_, rfl, rfl⟩
  refine parseSheet_ok (ns := {}) ?_
  have hq : Media.parseQuery num fuel [] = .ok .none := rfl
  rw [parseRules, rule_media ⟨num, prop, fuel⟩ _ _ _ _ rfl hq, parseRules, rule_counter _ _ _ _ _ rfl]
  have hc : parseCounter (δ := δ) ([] ++ ident name :: []) body = .ok (.counter name body) := by
    rw [parseCounter, List.nil_append, ident, eatWs_tok (by simp)]; rfl
  rw [hc]
  simp only [Res.bind]
  rw [parseRules, rule_font _ _ _ _ _ rfl]
  simp [Res.bind, parseRules]

/-! ## C220: every style sheet is read -/

theorem parseRules_other {e : Env δ} {ns : Namespaces} (s : Sst) (r : List Sst) (h : ∀ t p c, s ≠ .rule t p c) :
    parseRules e ns (s :: r) = parseRules e ns r := by
  cases s with
  | rule t p c => exact absurd rfl (h t p c)
  | _ => rw [parseRules] <;> simp

theorem fitOne_reads (t : Tok) (pre c : List Sst)
    (ih : Fit num c → ∃ k, ∀ fuel, k ≤ fuel → ∀ ns, ∃ r, parseRules ⟨num, prop, fuel⟩ ns c = .ok r) (h : FitOne num (.rule t pre c)) :
    ∃ k, ∀ fuel, k ≤ fuel → ∀ ns, ∃ r, parseRule ⟨num, prop, fuel⟩ ns (.rule t pre c) = .ok r := by
    rw [FitOne] at h
    obtain ⟨h1, h2, h3, h4, h5⟩ := h
    by_cases e1 : t.data = 64 :: codes "media"
    · obtain ⟨⟨P, hP⟩, hc⟩ := h1 e1
      obtain ⟨k, hk⟩ := ih hc
      refine ⟨max k (3 * sizeOf pre + 2), fun fuel hf ns => ?_⟩
      rcases Media.parseQuery_text fuel hP with e | ⟨q, e, -⟩
      · exact absurd e (Media.parseQuery_ends num fuel pre (by omega))
      · obtain ⟨r, hr⟩ := hk fuel (by omega) ns
        exact ⟨_, by rw [rule_media ⟨num, prop, fuel⟩ _ _ _ _ e1 e, hr]; rfl⟩
    by_cases e2 : t.data = 64 :: codes "import"
    · exact ⟨0, fun fuel _ ns => ⟨_, rule_import _ _ _ _ _ e2⟩⟩
    by_cases e3 : t.data = 64 :: codes "font-face"
    · exact ⟨0, fun fuel _ ns => ⟨_, rule_font _ _ _ _ _ e3⟩⟩
    by_cases e4 : t.data = 64 :: codes "counter-style"
    · obtain ⟨g, x, r, rfl, hg⟩ := h2 e4
      refine ⟨0, fun fuel _ ns => ⟨(.counter x c, ns), ?_⟩⟩
      rw [rule_counter _ _ _ _ _ e4, parseCounter, eatWs_blank hg, ident, eatWs_tok (by simp)]
      rfl
    by_cases e5 : t.data = 64 :: codes "page"
    · refine ⟨pre.length + 1, fun fuel hf ns => ?_⟩
      obtain ⟨sels, hs⟩ := Page.C26_ends_partial pre (h3 e5) fuel (by omega)
      refine ⟨(.page sels (propsOf prop c) (areasOf prop c), ns), ?_⟩
      rw [rule_page _ _ _ _ _ e5, parsePage]
      simp only [hs, Res.bind]
    by_cases e6 : t.data = 64 :: codes "supports"
    · exact ⟨0, fun fuel _ ns => ⟨_, rule_supports _ _ _ _ _ e6⟩⟩
    by_cases e7 : t.data = 64 :: codes "namespace"
    · refine ⟨0, fun fuel _ ns => ?_⟩
      rw [rule_namespace _ _ _ _ _ e7, parseNamespace]
      obtain ⟨w, hw, hp⟩ := Css.eatWs_split pre
      cases he : eatWs pre with
      | nil => rw [he, List.append_nil] at hp; rw [hp] at h4; exact absurd hw (h4 e7)
      | cons s r =>
        simp only
        split
        · exact ⟨_, rfl⟩
        · split <;> exact ⟨_, rfl⟩
    · refine ⟨0, fun fuel _ ns => ?_⟩
      have hk : ∀ w ∈ known, t.data ≠ 64 :: codes w := by
        intro w hw
        simp only [known, List.mem_cons, List.not_mem_nil, or_false] at hw
        rcases hw with rfl | rfl | rfl | rfl | rfl | rfl | rfl <;> assumption
      rw [rule_other _ _ _ _ _ hk, parseStyle]
      have hs := SelParse.C156_stays_partial ns pre (h5 hk)
      have hn := SelParse.read_fuel ns pre
      cases hr : read ns pre with
      | ok s => exact ⟨_, rfl⟩
      | err => exact ⟨_, rfl⟩
      | fault => exact absurd hr hs
      | fuel => exact absurd hr hn

theorem fit_reads (n : Nat) : ∀ items : List Sst, sizeOf items ≤ n → Fit num items →
    ∃ k, ∀ fuel, k ≤ fuel → ∀ ns, ∃ r, parseRules ⟨num, prop, fuel⟩ ns items = .ok r := by
  induction n with
  | zero =>
    intro items hn
    cases items <;> simp at hn
  | succ n ihn =>
    intro items hn h
    match items, hn, h with
    | [], _, _ => exact ⟨0, fun fuel _ ns => ⟨_, by rw [parseRules]⟩⟩
    | s :: r, hn, h =>
      rw [Fit] at h
      obtain ⟨k', hk'⟩ := ihn r (by simp at hn; omega) h.2
      by_cases hs : ∃ t pre c, s = .rule t pre c
      · obtain ⟨t, pre, c, rfl⟩ := hs
        obtain ⟨k, hk⟩ := fitOne_reads num prop t pre c (ihn c (by simp at hn; omega)) h.1
        refine ⟨max k k', fun fuel hf ns => ?_⟩
        obtain ⟨x, hx⟩ := hk fuel (by omega) ns
        obtain ⟨y, hy⟩ := hk' fuel (by omega) x.2
        exact ⟨(x.1 :: y.1, y.2), by rw [parseRules, hx]; simp only [Res.bind, hy]⟩
      · refine ⟨k', fun fuel hf ns => ?_⟩
        obtain ⟨y, hy⟩ := hk' fuel hf ns
        exact ⟨y, (parseRules_other _ _ (fun t p c e => hs ⟨t, p, c, e⟩)).trans hy⟩

/-- **C220**: a style sheet is read to its end, without a crash, whatever is in it, if its preludes are
of the kinds named by `Fit`. -/
theorem C220_read_partial (items : List Sst) (h : Fit num items) :
    ∃ k, ∀ fuel, k ≤ fuel → ∃ rules, parseSheet ⟨num, prop, fuel⟩ items = .ok rules := by
  obtain ⟨k, hk⟩ := fit_reads num prop _ items (Nat.le_refl _) h
  refine ⟨k, fun fuel hf => ?_⟩
  obtain ⟨r, hr⟩ := hk fuel hf {}
  exact ⟨r.1, parseSheet_ok hr⟩

/-- **C220 is false as stated**: `@counter-style` without a name ends the program, whatever follows. -/
theorem C220_counter_fails (pre body rest : List Sst) (hp : ∀ x r, eatWs pre ≠ ident x :: r) (fuel : Nat) :
    parseSheet ⟨num, prop, fuel⟩ (.rule (keyword "counter-style") pre body :: rest) = .crash := by
  have : parseCounter (δ := δ) pre body = .crash := by
    unfold parseCounter
    split
    · rename_i t r he
      split
      · rename_i ht
        obtain ⟨ty, d⟩ := t
        cases ht
        exact absurd he (hp d r)
      · rfl
    · rfl
  rw [parseSheet, parseRules, rule_counter _ _ _ _ _ rfl, this]
  rfl

example : ∀ x r, eatWs [.tok ⟨.ws, [32]⟩] ≠ ident x :: r := by simp [eatWs, Sst.is]

/-- **C220 is false as stated**: `@namespace` without anything reads where there is nothing. -/
theorem C220_namespace_fails (pre body rest : List Sst) (hp : Blank pre) (fuel : Nat) :
    parseSheet ⟨num, prop, fuel⟩ (.rule (keyword "namespace") pre body :: rest) = .crash := by
  rw [parseSheet, parseRules, rule_namespace _ _ _ _ _ rfl, parseNamespace, eatWs_all hp]
  rfl

/-- **C220 is false as stated**: a style rule whose selector ends too early, such as `a: { }`, ends the program (see
`C156_fails` for such selectors), whatever follows. -/
theorem C220_selector_fails (sel body rest : List Sst) (hs : read {} sel = .fault) (fuel : Nat) :
    parseSheet ⟨num, prop, fuel⟩ (.rule ⟨.nil, []⟩ sel body :: rest) = .crash := by
  rw [parseSheet, parseRules, rule_other _ _ _ _ _ (by intro w _; simp), parseStyle, hs]
  rfl

example : read {} [ident [97], SelParse.Spec.colon] = .fault := SelParse.C156_fails _ (by simp)

/-- **C220 is false as stated**: `@page :first, :left` is never read to its end. -/
theorem C220_page_fails (s : Page.Sel) (d : Text) (pre body rest : List Sst) (fuel : Nat) :
    parseSheet ⟨num, prop, fuel⟩ (.rule (keyword "page") (Page.Spec.written s ++ .tok ⟨.comma, d⟩ :: pre) body :: rest) = .hang := by
  rw [parseSheet, parseRules, rule_page _ _ _ _ _ rfl, parsePage, Page.C26_comma_fails s d pre fuel]
  rfl

/-! ## The hypotheses are met -/

/-- `@namespace s "x"; @charset "u"; @media { @media (hover) { p { c } } } s|p { c } @page :first { c @top-left { c } }
@font-face { c } @counter-style k { c } @supports q { }`, where only declarations like `c` are known. -/
def sample (c : Sst) : List Sst :=
  [.rule (keyword "namespace") [.tok ⟨.ws, [32]⟩, ident [115], .tok ⟨.ws, [32]⟩, .tok ⟨.string, [120]⟩] [],
   .rule (keyword "charset") [.tok ⟨.ws, [32]⟩, .tok ⟨.string, [117]⟩] [],
   .rule (keyword "media") [] [.rule (keyword "media") [Media.hover] [.rule ⟨.nil, []⟩ pText [c]]],
   .rule ⟨.nil, []⟩ [ident [115], SelParse.Spec.delim 124, ident [112]] [c],
   .rule (keyword "page") ([] ++ (Page.Spec.written ⟨[], [.first]⟩ ++ [])) [c, .rule (keyword "top-left") [] [c]],
   .rule (keyword "font-face") [] [c],
   .rule (keyword "counter-style") ([] ++ ident [107] :: []) [c],
   .rule (keyword "supports") [ident [113]] []]

theorem p_list' (b : Bool) (ns : Namespaces) : SelParse.Spec.ListText b ns pText (.type ⟨.exact ns.default, some ['p']⟩) :=
  SelParse.one_compound (t := pText) (k := [.type ⟨.exact ns.default, some ['p']⟩])
    (.typed (t' := []) (.name (SelParse.name_one b (by decide))) .nil)

/-- The sample contributes, on paper that can be hovered over: the rule in the nested blocks, the rule
with a prefix, the page rule, the font face and the counter style. -/
theorem sample_sheet (hm : m .hover ≠ 0) (t : Tok) (d : List Sst) (i : Bool) (x : δ) (hx : prop (.decl t d i) = some x) :
    Sheet true Media.exampleNum prop (fun _ => []) (fun _ => False) m true true {} (sample (.decl t d i))
      [.style pSel [x], .style (.type ⟨.exact ['x'], some ['p']⟩) [x],
       .page (Page.Spec.SelApplies ⟨[], [.first]⟩) [x] [(codes "top-left", [x])], .font [.decl t d i], .counter [107] [.decl t d i]] := by
  have hat : ∀ w : String, (64 :: codes w).map low = 64 :: codes w → At true (keyword w) w := fun w h => ⟨rfl, h, fun _ => rfl⟩
  have hb : Blank ([] : List Sst) := by simp [Blank]
  have hw : Blank [Sst.tok ⟨.ws, [32]⟩] := by simp [Blank, Sst.is]
  have hd : Decls prop [.decl t d i] [x] := .known hx .nil
  refine .declares (p := some ['s']) (y := ['x']) (hat "namespace" (by decide))
    (.named (g := [_]) (g' := [_]) (g'' := []) hw hw hb (SelParse.name_one true (by decide)) .string) ?_
  refine .other rfl (by decide) (fun _ => ⟨[_], [_], rfl, hw, .inr ⟨_, [], rfl, by simp, by simp [Sst.is], by simp [Sst.is], by simp [Sst.is],
    by simp [Sst.is], by simp [Sst.is]⟩⟩) ?_
  refine Sheet.media (lb := [.style pSel [x]]) (P := fun _ => True) (hat "media" (by decide)) (.empty hb) trivial ?_ ?_
  · refine Sheet.media (lb := [.style pSel [x]]) (l := []) (hat "media" (by decide))
      (.list (.one (w₀ := []) (w₁ := []) (q := [Media.hover]) hb hb (.condition (.single (Media.hover_text true))))) ⟨_, List.mem_singleton.2 rfl, .inr hm⟩
      (.style (p_list' true _) hd .nil) .nil
  refine .style (SelParse.one_compound (k := [_]) (.typed (t := [_, _, _]) (t' := []) (.inName (SelParse.name_one true (by decide))
    ⟨[], [], rfl, by simp⟩ (SelParse.name_one true (by decide))) .nil)) hd ?_
  refine .page (hat "page" (by decide)) (.one hb hb (.inr (by simp)) (fun _ => by simp))
    (.known hx (.box (by decide) (hat "top-left" (by decide)) hd .nil)) ?_
  refine .font (hat "font-face" (by decide)) hb (fun _ => rfl) ?_
  refine .counter (hat "counter-style" (by decide)) hb hb (fun _ => rfl) ?_
  exact .supportsNot (hat "supports" (by decide)) id .nil

example (d : Sst) : Fit Media.exampleNum [.rule ⟨.nil, []⟩ pText [d], .rule (keyword "counter-style") ([] ++ ident [107] :: []) [d]] := by
  have hs : SelParse.Spec.Safe pText := by
    simp [pText, SelParse.Spec.Safe, SelParse.Spec.SafeOne, ident, SelParse.Spec.delim, Sst.is]
  have h0 : ∀ w, ([] : Text) ≠ 64 :: codes w := by simp
  have h1 : ∀ w ∈ known, w ≠ "counter-style" → (64 :: codes "counter-style" : Text) ≠ 64 :: codes w := by decide
  refine ⟨⟨fun h => absurd h (h0 _), fun h => absurd h (h0 _), fun h => absurd h (h0 _), fun h => absurd h (h0 _), fun _ => hs⟩, ⟨?_, ?_, ?_, ?_, ?_⟩,
    trivial⟩
  · exact fun h => absurd h (h1 "media" (by decide) (by decide))
  · exact fun _ => ⟨[], _, [], rfl, by simp [Blank]⟩
  · exact fun h => absurd h (h1 "page" (by decide) (by decide))
  · exact fun h => absurd h (h1 "namespace" (by decide) (by decide))
  · exact fun h => absurd rfl (h "counter-style" (by decide))

example : NsRules [.rule (keyword "namespace") ([.tok ⟨.ws, [32]⟩] ++ ident [115] :: ([] ++ .tok ⟨.string, [120]⟩ :: [])) []] [(some ['s'], ['x'])] :=
  .cons (.named (by simp [Blank, Sst.is]) (by simp [Blank]) (by simp [Blank]) (SelParse.name_one true (by decide)) .string) .nil

end

end Verif.Rules
