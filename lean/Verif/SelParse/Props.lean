import Verif.SelParse.Whole
import Verif.SelParse.Faults
import Verif.SelParse.Loose
import Verif.Selector.Props
/-!
# Properties C154–C159: reading selectors

`Spec.lean` gives the grammar: `ListText false ns c s` says that the text `c` is a selector list and
that it stands for `s`. `ListText true` is the part of it that the code reads as meant. What `s` means
on a document is `Verif.Selector.Means` (C08).
-/
namespace Verif.SelParse
open Verif.Css (Sst Tok TT Text u eatWs)
open Verif.Dom (Kids InSubtree Heap Edit LegalHistory specEdits runEdits rep_init grounded_init)
open Verif.Selector
open Spec (Gap Keyword Name Digits Sign Anb TypeText ListText Complexes Complex More Compound Simples Simple CombText Grouped Bound
  allOf anyOf chain delim comma colon ident number dimension Safe SafeOne NotSpace Open)

/-- Two selectors match the same elements and pseudo-elements of every tree. -/
def Agree (s s' : Selector) : Prop :=
  ∀ (k : Kids) (data : Nat → NodeData), (∀ c p q, c ∈ k p → c ∈ k q → p = q) →
    ∀ n e pe, Means k data s n e pe ↔ Means k data s' n e pe

/-! ## C154: a selector means what is written -/

/-- **C154**, for the texts of the strict grammar: the text of a selector list is read, and what is
read matches the same elements as what is written, and counts as much in the cascade.

Missing from the full claim, with the witnesses below: `a b > c` and `a + b ~ c` when `b` is one simple
selector; a space before `[`; a combinator with a space before it and none behind it; `|=` behind a
name; `:nth-child(n of …)`; escapes; names of pseudo-classes in capitals; `|name`. -/
theorem C154_means_partial (ns : Namespaces) (c : List Sst) (s : Selector) (h : ListText true ns c s) :
    ∃ s', read ns c = .ok s' ∧ s'.Complete ∧ spec s' = spec s ∧ Agree s' s := by
  obtain ⟨l, v, rfl, hr, hv⟩ := read_list h
  have := Rel.anyOf hv
  exact ⟨_, hr, this.complete, this.spec, this.means⟩

/-- **C154** and C08 together: a rule whose selector is in the strict grammar is matched against an
element of a document exactly when the selector as written means this element. -/
theorem C154_match_partial (ns : Namespaces) (c : List Sst) (s : Selector) (h : ListText true ns c s)
    (es : List Edit) (hl : LegalHistory Kids.init es) (d : Doc) (hd : runEdits Heap.init es = some d.heap)
    (ha : Unmixed (specEdits Kids.init es) d.data ∨ s.NoAdjacent)
    (n : Nat) (e : Element) (hn : d.data n = .element e) (pe : Option Str) :
    ∃ s', read ns c = .ok s' ∧ ∃ N, ∀ fuel, N ≤ fuel → ∃ b, matchSel d fuel s' n e pe = .ok b ∧
      (b = true ↔ Means (specEdits Kids.init es) d.data s n e pe) := by
  obtain ⟨l, v, rfl, hr, hv⟩ := read_list h
  have hrel := Rel.anyOf hv
  refine ⟨_, hr, ?_⟩
  obtain ⟨N, hN⟩ := C08_match_iff_meaning_partial es hl d hd _ hrel.complete (ha.imp_right hrel.adj) n e hn pe
  refine ⟨N, fun f hf => ?_⟩
  obtain ⟨b, hb, hi⟩ := hN f hf
  refine ⟨b, hb, hi.trans (hrel.means _ _ ?_ n e pe)⟩
  exact fun c p q => (good_of_history hl hd).rep.unique

/-- The strict grammar is part of the grammar. -/
theorem C154_strict_is_grammar (ns : Namespaces) (c : List Sst) (s : Selector) (h : ListText true ns c s) : ListText false ns c s := h.loose

def ws : Sst := .tok ⟨.ws, [32]⟩
def cls (c : Nat) : List Sst := [delim 46, ident [c]]

theorem gap_ws : Gap [ws] := .inr ⟨_, rfl⟩
theorem gap_nil : Gap [] := .inl rfl
theorem name_one (b : Bool) {c : Nat} (h : c ≠ 92) : Name b [c] [Char.ofNat c] := .plain (by simpa using h.symm)

theorem cls_simple (b : Bool) (ns : Namespaces) {c : Nat} (h : c ≠ 92) : Simple b ns (cls c) (.class_ [Char.ofNat c]) :=
  .class_ (name_one b h)

theorem cls_compound (b : Bool) (ns : Namespaces) {c : Nat} (h : c ≠ 92) : Compound b ns (cls c) [.class_ [Char.ofNat c]] :=
  .bare (t' := []) (cls_simple b ns h) .nil

theorem one_complex {b : Bool} {ns : Namespaces} {t s} (h : Complex b ns t s) : ListText b ns t s := by
  have := ListText.mk (g := []) (g' := []) gap_nil (.one h) gap_nil
  simpa [anyOf] using this

theorem one_compound {b : Bool} {ns : Namespaces} {t k} (h : Compound b ns t k) : ListText b ns t (allOf k) := by
  have := one_complex (.mk (r := []) (l := []) h .nil (fun _ => trivial))
  simpa [chain] using this

/-- `.a > .b.c + :not(.d), p:nth-child(2n+1 of .e) ` is in the strict grammar. -/
example : ListText true {}
    ([ws] ++ ((cls 97 ++ (([ws] ++ delim 62 :: [ws]) ++ ((cls 98 ++ (cls 99 ++ [])) ++ (([] ++ delim 43 :: []) ++
        (([colon, .func ⟨.func, u "not("⟩ (cls 100)] ++ []) ++ []))))) ++
      ([] ++ comma :: ([ws] ++ (([ident [112]] ++ ([colon, .func ⟨.func, u "nth-child("⟩
        ([] ++ ([dimension ([] ++ ([50] ++ 110 :: []))] ++ ([] ++ [number ([43] ++ [49])]) ++ ([ws] ++ ident (u "of") :: ([ws] ++ (cls 101 ++ [])))))] ++ [])) ++ []))) ++ [ws]))
    (anyOf [.infix .adjacent (.infix .child (.class_ ['a']) (.and [.class_ ['b'], .class_ ['c']])) (.not (.class_ ['d'])),
      .and [.type ⟨.exact htmlNs, some ['p']⟩, .nthChild false (some (⟨1 * 2, 1 * 1⟩, some (.class_ ['e'])))]]) := by
  refine .mk gap_ws (.more (.mk (cls_compound true _ (by decide)) (.cons (.bare (cls_simple true _ (by decide))
    (.cons (cls_simple true _ (by decide)) .nil)) (.child gap_ws gap_ws (fun _ => .inr (.inl (by simp)))) (.cons (.bare (.not ⟨rfl, fun h => by cases h⟩ ?_) .nil)
      (.adjacent gap_nil gap_nil (fun _ => .inl rfl)) .nil)) (fun _ => ⟨by simp, trivial⟩)) gap_nil gap_ws (fun _ => .inl rfl) (.one ?_)) gap_ws
  · exact one_compound (cls_compound true _ (by decide))
  · refine .mk (k := [_, _]) (l := []) (.typed (.name (name_one true (by decide))) (.cons (.nthChildOf ⟨rfl, fun _ => rfl⟩ gap_nil (b := true)
      ?_ (fun _ => rfl) gap_ws ⟨rfl, fun h => by cases h⟩ ?_) .nil)) .nil (fun _ => trivial)
    · exact .signed (.dim (.inl rfl) .none ⟨by simp, by simp, rfl⟩) gap_nil .plus (by simp) ⟨by simp, by simp, rfl⟩
    · exact .mk gap_ws (.one (.mk (k := [_]) (r := []) (l := []) (cls_compound true _ (by decide)) .nil (fun _ => trivial))) gap_nil

/-- An element of HTML. -/
def tag (s : List Char) (classes : List Str := []) : Element := ⟨⟨some htmlNs, s⟩, [], classes⟩

/-- A document whose root (0) holds an element `.a.b` (1), which holds an element `.c` (2). -/
def nestEdits : List Edit := [.append 0 1, .append 1 2]
def nestData : Nat → NodeData
  | 0 => .element (tag ['h'])
  | 1 => .element (tag ['p'] [['a'], ['b']])
  | 2 => .element (tag ['b'] [['c']])
  | _ => .other
def nestDoc : Doc := ⟨(runEdits Heap.init nestEdits).getD Heap.init, nestData⟩

theorem nest_legal : LegalHistory Kids.init nestEdits := by
  refine ⟨?_, ?_, trivial⟩
  · exact Verif.Dom.not_inSubtree_of (fun m => m == 1) rfl (by intro m _ c hc; simp [Kids.init] at hc) rfl
  · refine Verif.Dom.not_inSubtree_of (fun m => m == 2) rfl ?_ rfl
    intro m hm c hc; simp at hm; subst hm
    simp [Edit.spec, Kids.set, Kids.detach, Kids.init] at hc

theorem nest_run : runEdits Heap.init nestEdits = some nestDoc.heap := by
  obtain ⟨h, e, -⟩ := rep_init.edits grounded_init nestEdits nest_legal
  simp [nestDoc, e]

theorem nest_kids (p : Nat) : specEdits Kids.init nestEdits p = if p = 0 then [1] else if p = 1 then [2] else [] := by
  simp only [specEdits, nestEdits, List.foldl, Edit.spec, Kids.set, Kids.detach, Kids.init]
  by_cases h0 : p = 0
  · subst h0; decide
  · by_cases h1 : p = 1
    · subst h1; decide
    · simp [h0, h1]

/-- `.a .b > .c`. -/
def grouping : List Sst := cls 97 ++ ([ws] ++ (cls 98 ++ (([ws] ++ delim 62 :: [ws]) ++ (cls 99 ++ []))))

/-- **C154 is false as stated**: `.a .b > .c` is the text of a selector that does not mean the element
`.c` of the document, whose parent `.b` has no `.a` above it; the code reads it as a `.b > .c` with an
`.a` above it, and matches. Observed: selector.cpp 22–33 orders the combinators, so that
`_parseSelectorElement` (968–975) takes `> .c` to `.b` first. -/
theorem C154_grouping_fails : ∃ (s s' : Selector) (n : Nat) (e : Element),
    ListText false {} grouping s ∧ read {} grouping = .ok s' ∧
    LegalHistory Kids.init nestEdits ∧ runEdits Heap.init nestEdits = some nestDoc.heap ∧ nestDoc.data n = .element e ∧
    ¬ Means (specEdits Kids.init nestEdits) nestDoc.data s n e none ∧
    ∃ N, ∀ fuel, N ≤ fuel → matchSel nestDoc fuel s' n e none = .ok true := by
  refine ⟨.infix .child (.infix .descendant (.class_ ['a']) (.class_ ['b'])) (.class_ ['c']),
    .infix .descendant (.class_ ['a']) (.infix .child (.class_ ['b']) (.class_ ['c'])), 2, tag ['b'] [['c']],
    ?_, read_of_parse (n := 40) rfl (by simp), nest_legal, nest_run, rfl, ?_, ?_⟩
  · exact one_complex (.mk (cls_compound _ _ (by decide)) (.cons (cls_compound _ _ (by decide)) (.descendant (fun h => by cases h))
      (.cons (cls_compound _ _ (by decide)) (.child gap_ws gap_ws (fun h => by cases h)) .nil)) (fun h => by cases h))
  · rintro ⟨-, a, ea, ha, hea, -, a', ea', ⟨c', hc', hin⟩, hea', hm⟩
    rw [nest_kids] at ha
    have ha1 : a = 1 := by
      by_cases h0 : a = 0
      · subst h0; simp at ha
      · by_cases h1 : a = 1
        · exact h1
        · simp [h0, h1] at ha
    subst ha1
    rw [nest_kids] at hc'
    by_cases h0 : a' = 0
    · subst h0
      cases hea'
      simp [Means, tag] at hm
    · by_cases h1 : a' = 1
      · subst h1
        simp at hc'
        subst hc'
        cases hin with
        | @child m _ hin hc =>
          rw [nest_kids] at hc
          have hm0 : m = 0 := by
            by_cases h0 : m = 0
            · exact h0
            · by_cases h1 : m = 1
              · subst h1; simp at hc
              · simp [h0, h1] at hc
          subst hm0
          cases hin with
          | @child m _ hin hc =>
            rw [nest_kids] at hc
            by_cases h0 : m = 0
            · subst h0; simp at hc
            · by_cases h1 : m = 1
              · subst h1; simp at hc
              · simp [h0, h1] at hc
      · simp [h0, h1] at hc'
  · have hm : Means (specEdits Kids.init nestEdits) nestDoc.data
        (.infix .descendant (.class_ ['a']) (.infix .child (.class_ ['b']) (.class_ ['c']))) 2 (tag ['b'] [['c']]) none := by
      refine ⟨⟨by simp [Means, tag], 1, tag ['p'] [['a'], ['b']], ?_, rfl, by simp [Means, tag]⟩, 1, tag ['p'] [['a'], ['b']], ⟨2, ?_, .root⟩, rfl, by simp [Means, tag]⟩
      · rw [nest_kids]; simp
      · rw [nest_kids]; simp
    obtain ⟨N, hN⟩ := C08_match_iff_meaning_partial nestEdits nest_legal nestDoc nest_run
      (.infix .descendant (.class_ ['a']) (.infix .child (.class_ ['b']) (.class_ ['c'])))
      (by simp [Selector.Complete]) (.inr (by simp [Selector.NoAdjacent])) 2 (tag ['b'] [['c']]) rfl none
    refine ⟨N, fun f hf => ?_⟩
    obtain ⟨b, hb, hi⟩ := hN f hf
    rw [hb, hi.mpr hm]

/-- A text of the grammar that the code does not read as meant. -/
def Misread (c : List Sst) : Prop := ∃ s, ListText false {} c s ∧ ¬ ∃ s', read {} c = .ok s' ∧ Agree s' s

theorem misread_err {c s} (h : ListText false {} c s) {n : Nat} (hr : parse n {} c = .err) : Misread c := by
  refine ⟨s, h, ?_⟩
  rintro ⟨s', h', -⟩
  rw [read_of_parse hr (by simp)] at h'
  cases h'

theorem misread_ok {c s s'} (h : ListText false {} c s) {n : Nat} (hr : parse n {} c = .ok s') (ha : ¬ Agree s' s) : Misread c := by
  refine ⟨s, h, ?_⟩
  rintro ⟨s'', h', h''⟩
  rw [read_of_parse hr (by simp)] at h'
  cases h'
  exact ha h''

/-- One element alone. -/
theorem not_agree {s s' : Selector} (e : Element) (h : ¬ (Means (fun _ => []) (fun _ => .element e) s 0 e none ↔
    Means (fun _ => []) (fun _ => .element e) s' 0 e none)) : ¬ Agree s s' :=
  fun ha => h (ha _ _ (by simp) 0 e none)

/-- `.a + .b ~ .c` is read as `.a + (.b ~ .c)`: of `.b`, `.a`, `.c` in a row it matches the last. -/
theorem C154_siblings_fails :
    Misread (cls 97 ++ (([ws] ++ delim 43 :: [ws]) ++ (cls 98 ++ (([ws] ++ delim 126 :: [ws]) ++ (cls 99 ++ []))))) := by
  refine misread_ok (n := 40) (s := .infix .subsequent (.infix .adjacent (.class_ ['a']) (.class_ ['b'])) (.class_ ['c']))
    (s' := .infix .adjacent (.class_ ['a']) (.infix .subsequent (.class_ ['b']) (.class_ ['c']))) (one_complex (.mk (cls_compound _ _ (by decide)) (.cons (cls_compound _ _ (by decide))
    (.adjacent gap_ws gap_ws (fun h => by cases h)) (.cons (cls_compound _ _ (by decide)) (.subsequent gap_ws gap_ws (fun h => by cases h)) .nil))
    (fun h => by cases h))) rfl fun ha => ?_
  have hk : ∀ c p q, c ∈ (fun p => if p = 0 then [1, 2, 3] else []) p → c ∈ (fun p => if p = 0 then [1, 2, 3] else []) q → p = q := by
    intro c p q h h'
    by_cases h0 : p = 0 <;> by_cases h1 : q = 0 <;> simp_all
  have := (ha (fun p => if p = 0 then [1, 2, 3] else []) (fun m => .element (tag ['p'] [[if m = 1 then 'b' else if m = 2 then 'a' else 'c']]))
    hk 3 (tag ['p'] [['c']]) none).mp ?_
  · obtain ⟨-, p, a, ea, pre, mid, post, hs, hea, hb, p', a', ea', pre', mid', post', hs', hmid', hea', ha'⟩ := this
    have hp : p' = 0 := by
      by_cases h0 : p' = 0
      · exact h0
      · simp [h0] at hs'
    subst hp
    cases hea
    cases hea'
    have ha1 : a = 1 := by
      by_cases h1 : a = 1
      · exact h1
      · have : ¬ (a = 1) := h1
        by_cases h2 : a = 2 <;> simp [Means, tag, h1, h2] at hb
    subst ha1
    rcases pre' with _ | ⟨x, _ | ⟨y, pre'⟩⟩ <;> simp at hs'
    · obtain ⟨rfl, h⟩ := hs'
      simp [Means, tag] at ha'
    · obtain ⟨rfl, rfl, h⟩ := hs'
      rcases mid' with _ | ⟨z, _ | ⟨w, mid'⟩⟩ <;> simp at h
    · obtain ⟨rfl, rfl, h⟩ := hs'
      rcases pre' with _ | ⟨z, pre'⟩ <;> simp at h
  · refine ⟨⟨by simp [Means, tag], 0, 1, tag ['p'] [['b']], [], [2], [], by simp, rfl, by simp [Means, tag]⟩,
      0, 2, tag ['p'] [['a']], [1], [], [], by simp, by simp, rfl, by simp [Means, tag]⟩

/-- `.a [x]`, an element with the attribute `x` below an `.a`, is read as `.a[x]`. -/
theorem C154_space_fails : Misread (cls 97 ++ ([ws] ++ ([.block [ident [120]]] ++ []))) := by
  refine misread_ok (n := 40) (s := .infix .descendant (.class_ ['a']) (.attr ⟨⟨.null, some ['x']⟩, false, .present, []⟩))
    (s' := .and [.class_ ['a'], .attr ⟨⟨.null, some ['x']⟩, false, .present, []⟩]) (one_complex (.mk (cls_compound _ _ (by decide)) (.cons (.bare (t' := []) (.attr
    (.present (g := []) (g' := []) gap_nil (.name (name_one false (by decide))) gap_nil)) .nil) (.descendant (fun h => by cases h)) .nil)
    (fun h => by cases h))) rfl
    (not_agree ⟨⟨some htmlNs, ['p']⟩, [(⟨none, ['x']⟩, [])], [['a']]⟩ fun h => ?_)
  obtain ⟨-, a, ea, ⟨c, hc, -⟩, -⟩ := h.mp ⟨by simp [Means], ⟨[], ⟨by simp, [], ⟨none, ['x']⟩, [], rfl,
    ⟨.inr (.inl ⟨rfl, rfl⟩), .inr rfl⟩, by simp⟩, trivial⟩, trivial⟩
  cases hc

/-- `.a >b ` is not read. -/
theorem C154_tight_fails : Misread (cls 97 ++ (([ws] ++ delim 62 :: []) ++ ([ident [98]] ++ [])) ++ [ws]) := by
  have h : ListText false {} ([] ++ ((cls 97 ++ (([ws] ++ delim 62 :: []) ++ ([ident [98]] ++ []))) ++ [ws])) _ :=
    .mk gap_nil (.one (.mk (cls_compound _ _ (by decide)) (.cons (.typed (t' := []) (.name (name_one false (by decide))) .nil)
      (.child gap_ws gap_nil (fun h => by cases h)) .nil) (fun h => by cases h))) gap_ws
  exact misread_err (n := 40) h rfl

/-- `[l|=e]` is not read. -/
theorem C154_hyphen_fails : Misread [.block [ident [108], delim 124, delim 61, ident [101]]] := by
  have h : Spec.AttrText false {} ([] ++ ([ident [108]] ++ ([] ++ ([delim 124, delim 61] ++ ([] ++ ident [101] :: ([] ++ ([] ++ []))))))) _ :=
    .test gap_nil (.name (name_one false (by decide))) gap_nil .hyphenated gap_nil (.name (name_one false (by decide))) gap_nil .none gap_nil
      (fun h => by cases h)
  exact misread_err (n := 40) (one_compound (.bare (t' := []) (.attr h) .nil)) rfl

/-- `:nth-child(n of .a)` is not read. -/
theorem C154_nth_of_fails : Misread [colon, .func ⟨.func, u "nth-child("⟩ ([] ++ ([ident [110]] ++ ([ws] ++ ident (u "of") :: ([ws] ++ (cls 97 ++ [])))))] := by
  have hl : ListText false {} ([ws] ++ (cls 97 ++ [])) _ :=
    .mk gap_ws (.one (.mk (r := []) (l := []) (cls_compound _ _ (by decide)) .nil (fun _ => trivial))) gap_nil
  refine misread_err (n := 40) (one_compound (.bare (t' := []) (.nthChildOf ⟨rfl, fun _ => rfl⟩ gap_nil (b := false) (.bare (.one (.inl rfl)))
    (fun h => by cases h) gap_ws ⟨rfl, fun _ => rfl⟩ hl) .nil)) rfl

/-- `.m\:f`, the class `m:f`, is read as the class `m\:f`. -/
theorem C154_escape_fails : Misread [delim 46, ident [109, 92, 58, 102]] := by
  refine misread_ok (n := 40) (s := .class_ ['m', ':', 'f']) (s' := .class_ ['m', '\\', ':', 'f']) (one_compound (.bare (t' := []) (.class_ (.escaped (a := [109]) (c := 58) (b := [102]) rfl (by decide) (by decide)
    (by decide) (by decide) (by decide) (by decide) (by decide) (by decide))) .nil)) rfl (not_agree (tag ['p'] [['m', ':', 'f']]) ?_)
  simp only [Means, tag, allOf]
  decide

/-- `:First-child` matches nothing. -/
theorem C154_case_fails : Misread [colon, ident [70, 105, 114, 115, 116, 45, 99, 104, 105, 108, 100]] := by
  refine misread_ok (n := 40) (one_compound (.bare (t' := []) (.pseudo (w := "first-child") (s := .firstChild) (by simp [Spec.plainPseudo])
    ⟨by decide, fun h => by cases h⟩) .nil)) rfl (not_agree (tag ['p']) fun h => ?_)
  exact h.mpr ⟨[], .inr ⟨by simp, rfl⟩, by simp⟩

/-- `|a`, an `a` in no namespace, matches nothing. -/
theorem C154_no_namespace_fails : Misread [delim 124, ident [97]] := by
  refine misread_ok (n := 40) (one_compound (.typed (t' := []) (.noName rfl (name_one false (by decide))) .nil)) rfl
    (not_agree ⟨⟨none, ['a']⟩, [], []⟩ fun h => ?_)
  exact (h.mpr ⟨.inr (.inl ⟨rfl, rfl⟩), .inr rfl⟩).1

/-! ## C155: reading a selector always ends -/

/-- **C155**: whatever the text, reading it ends; the number of calls below one another is at most
eight times the size of the text, and the outcome is then the same however many are allowed. -/
theorem C155_ends (ns : Namespaces) (c : List Sst) :
    ∃ v, v ≠ .fuel ∧ ∀ n, 8 * sizeOf c + 1 ≤ n → parse n ns c = v :=
  ⟨read ns c, read_fuel ns c, fun _ h => parse_mono h (read_fuel ns c)⟩

/-- A round of the reader on something it makes nothing of is an error, not another round. -/
example : read {} (cls 97 ++ [delim 36]) = .err := read_of_parse (n := 40) rfl (by simp)

/-! ## C156: reading a selector stays within its text -/

/-- **C156**, for texts in which something follows each `.`, `:`, `|` and `=`, and something other than
white space stands in the brackets of each function: nothing is read behind the end of the text. -/
theorem C156_stays_partial (ns : Namespaces) (c : List Sst) (h : Safe c) : read ns c ≠ .fault := (stays ns _).parse c h

/-- `.a:nth-child(2) > |b[c=d], ::` is safe up to its last colons, and not with them. -/
example : Safe (cls 97 ++ [colon, .func ⟨.func, u "nth-child("⟩ [number [50]], ws, delim 62, ws, delim 124, ident [98],
    .block [ident [99], delim 61, ident [100]], comma, ws]) := by
  simp [Safe, SafeOne, cls, delim, colon, ident, number, ws, comma, Sst.is, eatWs, Keyword]

/-- **C156 is false as stated**: at the end of `.`, `a:`, `a|`, `[a=]` and `:nth-child()` the code reads
what is behind the end of the text, and at `:nth-child(n + (1))` the first character of an empty text.
Observed: selector.cpp 914, 924, 688, 757, 414 and 304. -/
theorem C156_fails : ∀ c ∈ ([[delim 46], cls 97 ++ [ws, delim 46], [ident [97], colon], [ident [97], delim 124],
    [.block [ident [97], delim 61]], [colon, .func ⟨.func, u "nth-child("⟩ []],
    [colon, .func ⟨.func, u "nth-child("⟩ [ident [110], ws, delim 43, ws, .block [number [49]]]]] : List (List Sst)), read {} c = .fault := by
  intro c hc
  simp only [List.mem_cons, List.not_mem_nil, or_false] at hc
  rcases hc with rfl | rfl | rfl | rfl | rfl | rfl | rfl <;> exact read_of_parse (n := 40) rfl (by simp)

/-! ## C157: the numbers of `:nth-child()` -/

/-- One simple selector alone. -/
theorem read_simple {ns : Namespaces} {t s} (h : SimpleReads ns t s) : read ns t = .ok s := by
  have h1 := elem_stop (op := .nop) h noBar_nil (by simp [peekOp, Op.rank])
  rw [List.append_nil] at h1
  have h2 : Reads (fun n => parse n ns t) s := by
    refine Reads.succ ((h1.bind (g := fun n p => loop n ns p.1 p.2) (loop_nil s)).congr fun n => ?_)
    rw [parse, if_neg]
    obtain ⟨x, tl, rfl, _⟩ := h.head
    simp
  obtain ⟨N, hN⟩ := h2
  exact read_of_parse (hN N (Nat.le_refl _)) (by simp)

/-- The functions that take `An+B`, with the selector they stand for. -/
def nthFuncs : List (String × (AnB → Selector)) :=
  [("nth-child(", fun a => .nthChild false (some (a, none))), ("nth-last-child(", fun a => .nthChild true (some (a, none))),
   ("nth-of-type(", fun a => .nthOfType false (some a)), ("nth-last-of-type(", fun a => .nthOfType true (some a))]

/-- **C157**, for lower case: `An+B` in any of its spellings, with white space around it, gives the `A`
and the `B` that are written.

Missing from the full claim: capitals, and that nothing else is taken for `An+B` (below). -/
theorem C157_anb_partial (ns : Namespaces) (w : String) (f : AnB → Selector) (hw : (w, f) ∈ nthFuncs) (b : Bool) (g t g' : List Sst) (a : AnB)
    (hg : Gap g) (h : Anb true b t a) (hg' : Gap g') : read ns [colon, .func ⟨.func, u w⟩ (g ++ (t ++ g'))] = .ok (f a) := by
  have key : ∀ s : Selector, s.Complete → (Tok.mk .func (u w)).same ⟨.func, u "not("⟩ = false →
      pseudoClass ((u w).take ((u w).length - 1)) (some (a, none)) = s → read ns [colon, .func ⟨.func, u w⟩ (g ++ (t ++ g'))] = .ok s := by
    intro s hs hn he
    refine read_simple (colon_reads (by simp [tokOf]) hs (pseudo_func rfl hn ?_)).toSimpleReads
    rw [← he]
    exact nth_plain hg h hg'
  simp only [nthFuncs, List.mem_cons, Prod.mk.injEq, List.not_mem_nil, or_false] at hw
  rcases hw with ⟨rfl, rfl⟩ | ⟨rfl, rfl⟩ | ⟨rfl, rfl⟩ | ⟨rfl, rfl⟩ <;>
    exact key _ (by simp [Selector.Complete]) (by decide) rfl

/-- `:nth-last-child( -2n- 13 )`. -/
example : read {} [colon, .func ⟨.func, u "nth-last-child("⟩ ([ws] ++ (([dimension ([45] ++ ([50] ++ 110 :: [45]))] ++ ([ws] ++ [number [49, 51]])) ++ [ws]))] =
    .ok (.nthChild true (some (⟨-1 * 2, -13⟩, none))) :=
  C157_anb_partial {} "nth-last-child(" (fun a => .nthChild true (some (a, none))) (by simp [nthFuncs]) true _ _ _ _ gap_ws
    (.dash (d := [49, 51]) (v := 13) (.dim (d := [50]) (v := 2) (.inl rfl) .minus ⟨by simp, by simp, rfl⟩) gap_ws ⟨by simp, by simp, rfl⟩) gap_ws

/-- **C157 is false as stated**: `2N` and `ODD` are `An+B` and are not read. -/
theorem C157_case_fails : Anb false false [dimension [50, 78]] ⟨2, 0⟩ ∧ Anb false true [ident [79, 68, 68]] ⟨2, 1⟩ ∧
    read {} [colon, .func ⟨.func, u "nth-child("⟩ [dimension [50, 78]]] = .err ∧
    read {} [colon, .func ⟨.func, u "nth-child("⟩ [ident [79, 68, 68]]] = .err :=
  ⟨.bare (.dim (s := []) (d := [50]) (.inr ⟨rfl, rfl⟩) .none ⟨by simp, by simp, rfl⟩), .odd ⟨rfl, fun h => by cases h⟩,
    read_of_parse (n := 40) rfl (by simp), read_of_parse (n := 40) rfl (by simp)⟩

theorem head_ne {b : Bool} {x : Text} {t a} (h : Spec.Head b x t a) : t ≠ [] := by cases h <;> simp

theorem n1_not_anb (b : Bool) (a : AnB) : ¬ Anb false b [ident [110, 49]] a := by
  intro h
  generalize ht : [ident [110, 49]] = t at h
  have two : ∀ {t l : List Sst}, t ≠ [] → l ≠ [] → [ident [110, 49]] ≠ t ++ l := by
    intro t l h h' he
    have := congrArg List.length he
    have := List.length_pos_iff.mpr h
    have := List.length_pos_iff.mpr h'
    simp at *
    omega
  cases h with
  | odd h =>
    simp [ident] at ht
    subst ht
    exact absurd h.1 (by decide)
  | even h =>
    simp [ident] at ht
    subst ht
    exact absurd h.1 (by decide)
  | int => simp [ident, number] at ht
  | bare h => cases h <;> simp [ident, dimension] at ht
  | signed h => exact two (head_ne h) (by simp) ht
  | plus h => exact two (head_ne h) (by simp) ht
  | minus h => exact two (head_ne h) (by simp) ht
  | dash h => exact two (head_ne h) (by simp) ht
  | digits h =>
    cases h with
    | one h => simp [ident] at ht
    | plus h => simp [ident] at ht
    | minus h => simp [ident] at ht
    | dim h => simp [ident, dimension] at ht

/-- `:nth-child(n1)` is no `An+B` and is read as `n+1`. -/
theorem C157_junk_fails : (∀ b a, ¬ Anb false b [ident [110, 49]] a) ∧
    read {} [colon, .func ⟨.func, u "nth-child("⟩ [ident [110, 49]]] = .ok (.nthChild false (some (⟨1, 1⟩, none))) :=
  ⟨n1_not_anb, read_of_parse (n := 40) rfl (by simp)⟩

/-! ## C158: the namespace of type selectors -/

/-- **C158**, for style sheets that declare a default namespace: a name without prefix matches the
elements with this name in the default namespace, a prefixed one those in the namespace the prefix is
bound to, and `*|` those in any. -/
theorem C158_types_partial (ns : Namespaces) (x : Text) (hx : 92 ∉ x) :
    (∃ s, read ns [ident x] = .ok s ∧ ∀ k data n e pe, Means k data s n e pe ↔ e.qname = ⟨some ns.default, Spec.chars x⟩) ∧
    (∃ s, read ns [delim 42, delim 124, ident x] = .ok s ∧ ∀ k data n e pe, Means k data s n e pe ↔ e.qname.name = Spec.chars x) ∧
    (∀ p y, 92 ∉ p → Bound ns (Spec.chars p) y →
      ∃ s, read ns [ident p, delim 124, ident x] = .ok s ∧ ∀ k data n e pe, Means k data s n e pe ↔ e.qname = ⟨some y, Spec.chars x⟩) := by
  refine ⟨⟨_, read_simple (typeText_reads (.name (.plain hx))), fun k data n e pe => ?_⟩,
    ⟨_, read_simple (typeText_reads (.anyName (.plain hx))), fun k data n e pe => ?_⟩,
    fun p y hp hb => ⟨_, read_simple (typeText_reads (.inName (.plain hp) hb (.plain hx))), fun k data n e pe => ?_⟩⟩
  · obtain ⟨⟨a, b⟩, _, _⟩ := e
    simp [Means, NameMeans, eq_comm]
  · obtain ⟨⟨a, b⟩, _, _⟩ := e
    simp [Means, NameMeans, eq_comm]
  · obtain ⟨⟨a, b⟩, _, _⟩ := e
    simp [Means, NameMeans, eq_comm]

example : Bound ⟨['x'], [(['s'], ['y']), (['t'], ['z'])]⟩ ['t'] ['z'] := ⟨[(['s'], ['y'])], [], rfl, by simp⟩

def svgNs : Str := "http://www.w3.org/2000/svg".toList

/-- **C158 is false as stated**: in a style sheet that declares no default namespace, `circle` and `*`
do not match the `circle` of SVG. Observed: namespace.cpp 11 makes the namespace of HTML the default. -/
theorem C158_fails : ∃ s s', read {} [ident [99, 105, 114, 99, 108, 101]] = .ok s ∧ read {} [delim 42] = .ok s' ∧
    ∀ k data n pe, ¬ Means k data s n ⟨⟨some svgNs, "circle".toList⟩, [], []⟩ pe ∧
      ¬ Means k data s' n ⟨⟨some svgNs, "circle".toList⟩, [], []⟩ pe := by
  have ne : svgNs ≠ htmlNs := by decide +kernel
  refine ⟨_, _, read_simple (typeText_reads (.name (.plain (by decide)))), read_simple (typeText_reads .all), fun k data n pe => ⟨?_, ?_⟩⟩
  · rintro ⟨h | ⟨h, -⟩ | ⟨y, h, h'⟩, -⟩
    · cases h
    · cases h
    · cases h
      exact ne (Option.some.inj h')
  · rintro ⟨h | ⟨h, -⟩ | ⟨y, h, h'⟩, -⟩
    · cases h
    · cases h
    · cases h
      exact ne (Option.some.inj h')

/-! ## C159: what is no selector is refused -/

/-- **C159**, for the start of a text: a text that is empty or blank is refused, and so is one that
begins with a comma, a number, a string, a function or anything else no selector begins with.

Missing from the full claim: a text that breaks off, or begins with a combinator (below). -/
theorem C159_start_partial (ns : Namespaces) (g : List Sst) (hg : ∀ x ∈ g, x.is .ws = true) (c : List Sst)
    (hc : c = [] ∨ ∃ s r, c = s :: r ∧ (∀ l, s ≠ .block l) ∧ s.is .ws = false ∧ s.is .hash = false ∧ s.is .ident = false ∧
      s.is .delim = false ∧ s.is .colon = false) : read ns (g ++ c) = .err := by
  have he : ∀ n g, (∀ x ∈ g, x.is .ws = true) → g.length + 2 ≤ n → elem n ns .nop (g ++ c) = .err := by
    intro n
    induction n with
    | zero => intro g _ h; omega
    | succ n ih =>
      intro g hg hn
      match g with
      | [] =>
        rcases hc with rfl | ⟨s, r, rfl, h1, h2, h3, h4, h5, h6⟩
        · rw [List.nil_append, elem]
        · rw [List.nil_append, elem, h2]
          have : simple n ns s r = .err := by
            cases n with
            | zero => simp at hn
            | succ n =>
              rw [simple.eq_def]
              simp only
              split
              · rename_i t
                simp only [Sst.is, beq_eq_false_iff_ne] at h3 h4 h5 h6
                split <;> first | rfl | (rename_i hh; exact absurd hh (by assumption))
              · rename_i l; exact absurd rfl (h1 l)
              · rfl
          rw [this]
          rfl
      | x :: g =>
        rw [List.cons_append, elem, if_pos (hg x (by simp))]
        exact ih g (fun y hy => hg y (List.mem_cons_of_mem _ hy)) (by simp at hn; omega)
  refine read_of_parse (n := g.length + 3) ?_ (by simp)
  rw [parse]
  split
  · rfl
  · rw [he _ g hg (by omega)]
    rfl

example : read {} [ws, comma, ident [97]] = .err :=
  C159_start_partial {} [ws] (by simp [ws, Sst.is]) [comma, ident [97]] (.inr ⟨_, _, rfl, by simp [comma], rfl, rfl, rfl, rfl, rfl⟩)

/-- **C159 is false as stated**: `t, .a .b .c, ` is taken for `t, .a .b .c`. -/
theorem C159_comma_fails : ∃ s, read {} ([ident [116], comma, ws] ++ cls 97 ++ [ws] ++ cls 98 ++ [ws] ++ cls 99 ++ [comma, ws]) = .ok s ∧
    read {} ([ident [116], comma, ws] ++ cls 97 ++ [ws] ++ cls 98 ++ [ws] ++ cls 99) = .ok s :=
  ⟨_, read_of_parse (n := 60) rfl (by simp), read_of_parse (n := 60) rfl (by simp)⟩

/-- `> .a` is taken for a selector that matches nothing, and so `:not(> .a)` for one that matches every
element. -/
theorem C159_combinator_fails : ∃ s, read {} [colon, .func ⟨.func, u "not("⟩ ([delim 62, ws] ++ cls 97)] = .ok s ∧
    ∀ k data n e pe, Means k data s n e pe :=
  ⟨_, read_of_parse (n := 60) rfl (by simp), fun k data n e pe => by simp [Means]⟩

/-- An unknown pseudo-class is taken for one that matches nothing: `:q` is no error, and `:not(:q)`
matches every element. -/
theorem C159_unknown_fails : ∃ s, read {} [colon, .func ⟨.func, u "not("⟩ [colon, ident [113]]] = .ok s ∧
    ∀ k data n e pe, Means k data s n e pe :=
  ⟨.not .otherPseudo, read_of_parse (n := 60) rfl (by simp), fun k data n e pe => by simp [Means]⟩

end Verif.SelParse
