import Verif.Selector.Correct
import Verif.Dom.Props
/-!
# Properties C08–C10 and C48–C50: selectors

`Spec.lean` gives the declarative meaning (`Means`) of selectors on child lists.
-/
namespace Verif.Selector
open Verif.Dom (Kids InSubtree Rep Chain Heap Edit LegalHistory specEdits runEdits rep_init grounded_init
  chain_exists bounded_edits Bounded)

theorem good_of_history {es : List Edit} (hl : LegalHistory Kids.init es) {d : Doc}
    (hd : runEdits Heap.init es = some d.heap) : Good d (specEdits Kids.init es) := by
  obtain ⟨h, e, r, ht, hh⟩ := rep_init.edits grounded_init es hl
  rw [hd] at e; cases e
  obtain ⟨M, hM⟩ := bounded_edits (k := Kids.init) (M := 0) (by intro p c hc; simp [Kids.init] at hc) es
  exact ⟨r, chain_exists hM hh⟩

/-! ## Sample document: `<0> <1.a class="x y"/> text <3.b id="i"/> </0>` -/

def sampleEdits : List Edit := [.append 0 1, .append 0 2, .append 0 3]
def name (s : String) : QSel := ⟨.universal, some s.toList⟩
def elem (s : String) (attrs : List (QName × Str) := []) (classes : List Str := []) : Element :=
  ⟨⟨some htmlNs, s.toList⟩, attrs, classes⟩
def sampleData : Nat → NodeData
  | 0 => .element (elem "p")
  | 1 => .element (elem "a" [] ["x".toList, "y".toList])
  | 3 => .element (elem "b" [(⟨none, "id".toList⟩, "i".toList)])
  | _ => .other
def sampleHeap : Heap := (runEdits Heap.init sampleEdits).getD Heap.init
def sampleDoc : Doc := ⟨sampleHeap, sampleData⟩

theorem sample_legal : LegalHistory Kids.init sampleEdits := by
  refine ⟨?_, ?_, ?_, trivial⟩
  · exact Verif.Dom.not_inSubtree_of (fun m => m == 1) rfl (by intro m _ c hc; simp [Kids.init] at hc) rfl
  · refine Verif.Dom.not_inSubtree_of (fun m => m == 2) rfl ?_ rfl
    intro m hm c hc; simp at hm; subst hm
    simp [Edit.spec, Kids.set, Kids.detach, Kids.init] at hc
  · refine Verif.Dom.not_inSubtree_of (fun m => m == 3) rfl ?_ rfl
    intro m hm c hc; simp at hm; subst hm
    simp [Edit.spec, Kids.set, Kids.detach, Kids.init] at hc

theorem sample_run : runEdits Heap.init sampleEdits = some sampleDoc.heap := by
  obtain ⟨h, e, -⟩ := rep_init.edits grounded_init sampleEdits sample_legal
  simp [sampleDoc, sampleHeap, e]

theorem sample_kids : specEdits Kids.init sampleEdits 0 = [1, 2, 3] := by decide

/-- **C08**, for selectors without `+` on any document, and for all selectors on
documents where no text or comment stands right before an element.  The document is
any one built by legal edits, with any contents; the answer (for enough steps of the
walks over links) is the declarative meaning.

Missing from the full claim: `+` in documents with mixed content, where it is false
(`C08_fails`). -/
theorem C08_match_iff_meaning_partial (es : List Edit) (hl : LegalHistory Kids.init es) (d : Doc)
    (hd : runEdits Heap.init es = some d.heap) (s : Selector) (hc : s.Complete)
    (ha : Unmixed (specEdits Kids.init es) d.data ∨ s.NoAdjacent)
    (n : Nat) (e : Element) (hn : d.data n = .element e) (pe : Option Str) :
    ∃ N, ∀ fuel, N ≤ fuel → ∃ b, matchSel d fuel s n e pe = .ok b ∧
      (b = true ↔ Means (specEdits Kids.init es) d.data s n e pe) := by
  obtain ⟨N, hN⟩ := matchSel_ok (good_of_history hl hd) s hc ha n e pe hn
  exact ⟨N, fun f hf => ⟨_, hN f hf, tt_iff⟩⟩

/-- `p > :not(b) ~ b#i` on the sample document. -/
def sampleSel : Selector :=
  .infix .subsequent (.infix .child (.type (name "p")) (.not (.type (name "b"))))
    (.and [.type (name "b"), .id "i".toList])

example : LegalHistory Kids.init sampleEdits ∧ runEdits Heap.init sampleEdits = some sampleDoc.heap ∧
    sampleSel.Complete ∧ sampleSel.NoAdjacent ∧ sampleDoc.data 3 = .element (elem "b" [(⟨none, "id".toList⟩, "i".toList)]) :=
  ⟨sample_legal, sample_run, by simp [sampleSel, Selector.Complete, AllComplete],
    by simp [sampleSel, Selector.NoAdjacent, AllNoAdjacent], rfl⟩

/-- `a + b`. -/
def adjSel : Selector := .infix .adjacent (.type (name "a")) (.type (name "b"))

theorem sample_prev : (sampleDoc.heap 3).prevSibling = some 2 := by
  have h := Verif.Dom.siblings_of_split (pre := [1, 2]) (post := []) (good_of_history sample_legal sample_run).rep sample_kids
  exact h.1

/-- **C08 is false as stated**: in `<a/> text <b/>` the element `b` is the next sibling
element of `a`, but `a + b` does not match it, however long the walk may take.
Observed: `matcher.cpp:46-54` looks at the previous node, not the previous element. -/
theorem C08_fails : ∃ (es : List Edit) (d : Doc) (s : Selector) (n : Nat) (e : Element),
    LegalHistory Kids.init es ∧ runEdits Heap.init es = some d.heap ∧ s.Complete ∧ d.data n = .element e ∧
    Means (specEdits Kids.init es) d.data s n e none ∧ ∀ fuel, matchSel d fuel s n e none = .ok false := by
  refine ⟨sampleEdits, sampleDoc, adjSel, 3, elem "b" [(⟨none, "id".toList⟩, "i".toList)],
    sample_legal, sample_run, by simp [adjSel, Selector.Complete], rfl, ?_, ?_⟩
  · simp only [adjSel, Means]
    refine ⟨⟨.inl rfl, .inr rfl⟩, 0, 1, elem "a" [] ["x".toList, "y".toList], [], [2], [], sample_kids, ?_, rfl,
      .inl rfl, .inr rfl⟩
    intro m hm; simp at hm; subst hm; rfl
  · intro fuel
    have h1 : (name "b").matches (elem "b" [(⟨none, "id".toList⟩, "i".toList)]).qname = true := by decide
    have h2 : sampleDoc.elem? 2 = none := rfl
    simp only [adjSel, matchSel, h1, Except.bind, onPrev, sample_prev, h2]
    simp

/-- **C09.**  A position is accepted by `An+B` exactly when it is `A*n + B` for a
natural number `n`. -/
theorem C09_anb_progression (a b : Int) (i : Nat) :
    (AnB.mk a b).matches i = true ↔ ∃ n : Nat, a * n + b = i := anb_iff ⟨a, b⟩ i

example : (AnB.mk (-2) 7).matches 3 = true ∧ (AnB.mk (-2) 7).matches 9 = false := by decide

/-- **C09** on documents: `:nth-child(An+B)` holds of an element exactly when one plus
the number of element siblings before it is in the progression, and
`:nth-last-child(An+B)` when one plus the number of those after it is. -/
theorem C09_nth_child (es : List Edit) (hl : LegalHistory Kids.init es) (d : Doc)
    (hd : runEdits Heap.init es = some d.heap) (a b : Int) (p n : Nat) (pre post : List Nat) (e : Element)
    (pe : Option Str) (hk : specEdits Kids.init es p = pre ++ n :: post) (hn : d.data n = .element e) :
    ∃ N, ∀ fuel, N ≤ fuel →
      (matchSel d fuel (.nthChild false (some (⟨a, b⟩, none))) n e pe = .ok true ↔
        ∃ i : Nat, a * i + b = (pre.countP fun m => d.data m != .other) + 1) ∧
      (matchSel d fuel (.nthChild true (some (⟨a, b⟩, none))) n e pe = .ok true ↔
        ∃ i : Nat, a * i + b = (post.countP fun m => d.data m != .other) + 1) := by
  have g := good_of_history hl hd
  have hcount : ∀ (rev : Bool) (l : List Nat), SiblingsOn (specEdits Kids.init es) rev n l → ∃ N, ∀ fuel, N ≤ fuel →
      (matchSel d fuel (.nthChild rev (some (⟨a, b⟩, none))) n e pe = .ok true ↔
        ∃ i : Nat, a * i + b = (l.countP fun m => d.data m != .other) + 1) := by
    intro rev l hs
    refine ⟨l.length + 1, fun f hf => ?_⟩
    have := count_ok g (p := fun m => .ok (d.elem? m).isSome) (P := fun m => (d.elem? m).isSome) hs f hf (fun _ _ => rfl)
    simp only [matchSel, matchNthPlain, this, Except.bind, Except.ok.injEq, anb_iff]
    have : (l.countP fun m => (d.elem? m).isSome) = l.countP fun m => d.data m != .other := by
      congr 1; funext m; unfold Doc.elem?; cases d.data m <;> simp
    rw [this]; simp
  obtain ⟨N1, h1⟩ := hcount false pre (.inl ⟨p, post, by simpa using hk⟩)
  obtain ⟨N2, h2⟩ := hcount true post (.inl ⟨p, pre, by simpa using hk⟩)
  exact ⟨max N1 N2, fun f hf => ⟨h1 f (by omega), h2 f (by omega)⟩⟩

example : specEdits Kids.init sampleEdits 0 = [1, 2] ++ 3 :: [] ∧
    ([1, 2].countP fun m => sampleDoc.data m != .other) = 1 := by decide

/-! ## Specificity -/

/-- What a simple selector counts as. -/
inductive Kind | id | classLike | type | nothing
deriving DecidableEq

mutual
/-- The simple selectors occurring in a selector, by kind.  `:nth-child(… of S)` counts
as one pseudo-class. -/
def simples : Selector → List Kind
  | .and l | .or l => simplesAll l
  | .not s => simples s
  | .where_ _ => []
  | .infix _ l r => simples l ++ simples r
  | .id _ => [.id]
  | .class_ _ | .attr _ => [.classLike]
  | .type q => if q.name = none then [.nothing] else [.type]
  | .pseudoElement _ | .empty => [.nothing]
  | _ => [.classLike]
def simplesAll : List Selector → List Kind
  | [] => []
  | s :: l => simples s ++ simplesAll l
end

mutual
theorem spec_simples : ∀ s : Selector,
    spec s = ⟨(simples s).count .id, (simples s).count .classLike, (simples s).count .type⟩
  | .and l => by rw [spec, simples]; exact specList_simples l
  | .or l => by rw [spec, simples]; exact specList_simples l
  | .not s => by rw [spec, simples, spec_simples s]; simp [Specificity.add, Specificity.zero]
  | .where_ s => by simp [spec, simples, Specificity.zero]
  | .infix c l r => by rw [spec, simples, spec_simples l, spec_simples r]; simp [Specificity.add]
  | .type q => by
    rw [spec, simples]; cases q.name <;> simp [Specificity.zero] <;> decide
  | .empty => by simp only [spec, simples, Specificity.zero]; decide
  | .id _ => by simp only [spec, simples]; decide
  | .class_ _ => by simp only [spec, simples]; decide
  | .pseudoElement _ => by simp only [spec, simples, Specificity.zero]; decide
  | .attr _ => by simp only [spec, simples]; decide
  | .link => by simp only [spec, simples]; decide
  | .root => by simp only [spec, simples]; decide
  | .nthChild _ _ => by simp only [spec, simples]; decide
  | .nthOfType _ _ => by simp only [spec, simples]; decide
  | .firstOfType => by simp only [spec, simples]; decide
  | .lastOfType => by simp only [spec, simples]; decide
  | .firstChild => by simp only [spec, simples]; decide
  | .lastChild => by simp only [spec, simples]; decide
  | .otherPseudo => by simp only [spec, simples]; decide
theorem specList_simples : ∀ l : List Selector,
    specList l = ⟨(simplesAll l).count .id, (simplesAll l).count .classLike, (simplesAll l).count .type⟩
  | [] => by simp [specList, simplesAll, Specificity.zero]
  | s :: l => by rw [specList, simplesAll, spec_simples s, specList_simples l]; simp [Specificity.add]
end

/-- Lexicographic order on specificities. -/
def SpecLe (x y : Specificity) : Prop :=
  x.a < y.a ∨ (x.a = y.a ∧ (x.b < y.b ∨ (x.b = y.b ∧ x.c ≤ y.c)))

/-- **C10** (counting).  The specificity of a selector that is not a list is reported
whenever it matches, and counts its id, class-like and named type parts. -/
theorem C10_specificity_counts (d : Doc) (fuel : Nat) (s : Selector) (n : Nat) (e : Element) (pe : Option Str)
    (hs : ∀ l, s ≠ .or l) (r : Option Specificity) (h : matchSelector d fuel s n e pe = .ok r) :
    (matchSel d fuel s n e pe = .ok true ∧
      r = some ⟨(simples s).count .id, (simples s).count .classLike, (simples s).count .type⟩) ∨
    (matchSel d fuel s n e pe = .ok false ∧ r = none) := by
  rw [matchSelector.eq_def] at h
  split at h
  · exact absurd rfl (hs _)
  · cases hm : matchSel d fuel s n e pe with
    | error f => rw [hm] at h; cases h
    | ok b =>
      rw [hm] at h
      cases b
      · exact .inr ⟨rfl, by cases h; rfl⟩
      · exact .inl ⟨rfl, by cases h; simp [spec_simples]⟩

theorem specLe_refl (x : Specificity) : SpecLe x x := .inr ⟨rfl, .inr ⟨rfl, Nat.le_refl _⟩⟩
theorem specLe_trans {x y z : Specificity} (h : SpecLe x y) (h' : SpecLe y z) : SpecLe x z := by
  unfold SpecLe at *; omega
theorem lt_specLe {x y : Specificity} : (x.lt y = true → SpecLe x y) ∧ (x.lt y = false → SpecLe y x) := by
  unfold Specificity.lt SpecLe
  simp
  omega

theorem maxSpec_spec (acc : Option Specificity) (y : Specificity) : ∃ z, maxSpec acc y = some z ∧ SpecLe y z ∧
    (∀ x, acc = some x → SpecLe x z) ∧ (z = y ∨ acc = some z) := by
  unfold maxSpec
  cases acc with
  | none => exact ⟨y, rfl, specLe_refl y, by simp, .inl rfl⟩
  | some x =>
    by_cases h : x.lt y = true
    · exact ⟨y, by simp [h], specLe_refl y, by intro x' hx; cases hx; exact lt_specLe.1 h, .inl rfl⟩
    · exact ⟨x, by simp [h], lt_specLe.2 (by simpa using h), by intro x' hx; cases hx; exact specLe_refl x, .inr rfl⟩

theorem matchList_spec (d : Doc) (fuel n : Nat) (e : Element) (pe : Option Str) (l : List Selector) :
    ∀ (acc r : Option Specificity), matchList d fuel n e pe l acc = .ok r →
      (r = none ↔ acc = none ∧ ∀ s ∈ l, matchSel d fuel s n e pe = .ok false) ∧
      ∀ z, r = some z → (acc = some z ∨ ∃ s ∈ l, matchSel d fuel s n e pe = .ok true ∧ spec s = z) ∧
        (∀ x, acc = some x → SpecLe x z) ∧ ∀ s ∈ l, matchSel d fuel s n e pe = .ok true → SpecLe (spec s) z := by
  induction l with
  | nil =>
    intro acc r h
    simp only [matchList] at h
    cases h
    exact ⟨by simp, fun z hz => ⟨.inl hz, fun x hx => by rw [hz] at hx; cases hx; exact specLe_refl z, by simp⟩⟩
  | cons s l ih =>
    intro acc r h
    simp only [matchList] at h
    cases hm : matchSel d fuel s n e pe with
    | error f => rw [hm] at h; cases h
    | ok b =>
      rw [hm] at h
      simp only [Except.bind] at h
      cases b with
      | false =>
        obtain ⟨h1, h2⟩ := ih acc r (by simpa using h)
        refine ⟨by rw [h1]; simp [hm], fun z hz => ?_⟩
        obtain ⟨h3, h4, h5⟩ := h2 z hz
        refine ⟨?_, h4, ?_⟩
        · rcases h3 with h | ⟨x, hx, h⟩
          · exact .inl h
          · exact .inr ⟨x, by simp [hx], h⟩
        · intro x hx hmx
          rcases List.mem_cons.1 hx with rfl | hx
          · rw [hm] at hmx; cases hmx
          · exact h5 x hx hmx
      | true =>
        obtain ⟨w, hw, hw1, hw2, hw3⟩ := maxSpec_spec acc (spec s)
        simp only [if_true, hw] at h
        obtain ⟨h1, h2⟩ := ih (some w) r h
        refine ⟨by rw [h1]; simp [hm], fun z hz => ?_⟩
        obtain ⟨h3, h4, h5⟩ := h2 z hz
        have hwz := h4 w rfl
        refine ⟨?_, fun x hx => specLe_trans (hw2 x hx) hwz, ?_⟩
        · rcases h3 with h | ⟨x, hx, h⟩
          · cases h
            rcases hw3 with h | h
            · exact .inr ⟨s, by simp, hm, h.symm⟩
            · exact .inl h
          · exact .inr ⟨x, by simp [hx], h⟩
        · intro x hx hmx
          rcases List.mem_cons.1 hx with rfl | hx
          · exact specLe_trans hw1 hwz
          · exact h5 x hx hmx

/-- **C10** (lists).  When the matcher answers for a selector list, it reports nothing
exactly when no member matches; otherwise it reports the specificity of a matching
member, and no matching member has a greater one. -/
theorem C10_list_takes_best_match (d : Doc) (fuel : Nat) (l : List Selector) (n : Nat) (e : Element) (pe : Option Str)
    (r : Option Specificity) (h : matchSelector d fuel (.or l) n e pe = .ok r) :
    (r = none ↔ ∀ s ∈ l, matchSel d fuel s n e pe = .ok false) ∧
    ∀ z, r = some z → (∃ s ∈ l, matchSel d fuel s n e pe = .ok true ∧ spec s = z) ∧
      ∀ s ∈ l, matchSel d fuel s n e pe = .ok true → SpecLe (spec s) z := by
  obtain ⟨h1, h2⟩ := matchList_spec d fuel n e pe l none r h
  refine ⟨by rw [h1]; simp, fun z hz => ?_⟩
  obtain ⟨h3, _, h4⟩ := h2 z hz
  exact ⟨by simpa using h3, h4⟩

example : ∃ r, matchSelector sampleDoc 5 (.or [.type (name "a"), .class_ "x".toList, .id "i".toList]) 1
    (elem "a" [] ["x".toList, "y".toList]) none = .ok r ∧ r = some ⟨0, 1, 0⟩ := by
  refine ⟨_, rfl, ?_⟩
  decide

/-- `matchSelector` answers something exactly when `_matchSelector` answers yes; this
is why the model of `:nth-child(… of S)` may ask the latter. -/
theorem matchSelector_isSome (d : Doc) (fuel : Nat) (s : Selector) (n : Nat) (e : Element) (pe : Option Str)
    (b : Bool) (h : matchSel d fuel s n e pe = .ok b) (r : Option Specificity)
    (hr : matchSelector d fuel s n e pe = .ok r) : r.isSome = b := by
  by_cases hs : ∃ l, s = .or l
  · obtain ⟨l, rfl⟩ := hs
    have h1 := (C10_list_takes_best_match d fuel l n e pe r hr).1
    have h2 := (C10_list_takes_best_match d fuel l n e pe r hr).2
    simp only [matchSel] at h
    have key : ∀ l, matchAny d fuel l n e pe = .ok b →
        (b = true → ∃ s ∈ l, matchSel d fuel s n e pe = .ok true) ∧
        (b = false → ∀ s ∈ l, matchSel d fuel s n e pe = .ok false) := by
      intro l
      induction l with
      | nil => intro h; simp only [matchAny] at h; cases h; simp
      | cons s l ih =>
        intro h
        simp only [matchAny] at h
        cases hm : matchSel d fuel s n e pe with
        | error f => rw [hm] at h; cases h
        | ok c =>
          rw [hm] at h
          simp only [Except.bind] at h
          cases c with
          | true => cases h; exact ⟨fun _ => ⟨s, by simp, hm⟩, by simp⟩
          | false =>
            obtain ⟨i1, i2⟩ := ih (by simpa using h)
            refine ⟨fun hb => ?_, fun hb x hx => ?_⟩
            · obtain ⟨x, hx, h⟩ := i1 hb; exact ⟨x, by simp [hx], h⟩
            · rcases List.mem_cons.1 hx with rfl | hx
              · exact hm
              · exact i2 hb x hx
    obtain ⟨k1, k2⟩ := key l h
    cases b with
    | true =>
      obtain ⟨x, hx, hm⟩ := k1 rfl
      cases r with
      | some _ => rfl
      | none => have := h1.1 rfl x hx; rw [hm] at this; cases this
    | false =>
      rw [h1.2 (k2 rfl)]; rfl
  · have := C10_specificity_counts d fuel s n e pe (fun l hl => hs ⟨l, hl⟩) r hr
    rw [h] at this
    rcases this with ⟨h1, rfl⟩ | ⟨h1, rfl⟩ <;> cases h1 <;> rfl

/-! ## C48: specificity rules of Selectors 4 -/

mutual
/-- Specificity by Selectors 4 §17: a list inside a functional pseudo-class counts as
its most specific member; pseudo-elements count as types. -/
def spec4 : Selector → Specificity
  | .and l => spec4Sum l
  | .or l => spec4Max l
  | .not s => spec4 s
  | .where_ _ => .zero
  | .infix _ l r => (spec4 l).add (spec4 r)
  | .id _ => ⟨1, 0, 0⟩
  | .class_ _ | .attr _ => ⟨0, 1, 0⟩
  | .type q => if q.name = none then .zero else ⟨0, 0, 1⟩
  | .pseudoElement _ => ⟨0, 0, 1⟩
  | .empty => .zero
  | .nthChild _ (some (_, some s)) => Specificity.add ⟨0, 1, 0⟩ (spec4 s)
  | _ => ⟨0, 1, 0⟩
def spec4Sum : List Selector → Specificity
  | [] => .zero
  | s :: l => (spec4 s).add (spec4Sum l)
def spec4Max : List Selector → Specificity
  | [] => .zero
  | s :: l => if (spec4 s).lt (spec4Max l) then spec4Max l else spec4 s
end

mutual
/-- No pseudo-element, no `of S`, and no list with more than one member. -/
def Selector.Simple3 : Selector → Prop
  | .and l => AllSimple3 l
  | .or l => match l with
    | [s] => s.Simple3
    | _ => False
  | .not s => s.Simple3
  | .infix _ l r => l.Simple3 ∧ r.Simple3
  | .pseudoElement _ => False
  | .nthChild _ (some (_, some _)) => False
  | _ => True
def AllSimple3 : List Selector → Prop
  | [] => True
  | s :: l => s.Simple3 ∧ AllSimple3 l
end

theorem add_zero (x : Specificity) : x.add .zero = x := by simp [Specificity.add, Specificity.zero]
theorem zero_add (x : Specificity) : Specificity.zero.add x = x := by simp [Specificity.add, Specificity.zero]
theorem not_lt_zero (x : Specificity) : x.lt .zero = false := by simp [Specificity.lt, Specificity.zero]

mutual
theorem spec_eq_spec4 : ∀ s : Selector, s.Simple3 → spec s = spec4 s
  | .and l, h => by simp only [spec, spec4]; exact specList_eq_spec4 l (by simpa [Selector.Simple3] using h)
  | .or [], h => by simp [Selector.Simple3] at h
  | .or [s], h => by
    have := spec_eq_spec4 s (by simpa [Selector.Simple3] using h)
    simp [spec, spec4, specList, spec4Max, this, add_zero, not_lt_zero]
  | .or (_ :: _ :: _), h => by simp [Selector.Simple3] at h
  | .not s, h => by
    rw [spec, spec4, spec_eq_spec4 s (by simpa [Selector.Simple3] using h), zero_add]
  | .where_ _, _ => by simp [spec, spec4]
  | .infix _ l r, h => by
    simp only [Selector.Simple3] at h
    rw [spec, spec4, spec_eq_spec4 l h.1, spec_eq_spec4 r h.2]
  | .type q, _ => by simp only [spec, spec4]; cases q.name <;> simp
  | .empty, _ => by simp [spec, spec4]
  | .id _, _ => by simp [spec, spec4]
  | .class_ _, _ => by simp [spec, spec4]
  | .pseudoElement _, h => by simp [Selector.Simple3] at h
  | .attr _, _ => by simp [spec, spec4]
  | .link, _ => by simp [spec, spec4]
  | .root, _ => by simp [spec, spec4]
  | .nthChild _ none, _ => by simp [spec, spec4]
  | .nthChild _ (some (_, none)), _ => by simp [spec, spec4]
  | .nthChild _ (some (_, some _)), h => by simp [Selector.Simple3] at h
  | .nthOfType _ _, _ => by simp [spec, spec4]
  | .firstOfType, _ => by simp [spec, spec4]
  | .lastOfType, _ => by simp [spec, spec4]
  | .firstChild, _ => by simp [spec, spec4]
  | .lastChild, _ => by simp [spec, spec4]
  | .otherPseudo, _ => by simp [spec, spec4]
theorem specList_eq_spec4 : ∀ l : List Selector, AllSimple3 l → specList l = spec4Sum l
  | [], _ => by simp [specList, spec4Sum]
  | s :: l, h => by
    simp only [AllSimple3] at h
    rw [specList, spec4Sum, spec_eq_spec4 s h.1, specList_eq_spec4 l h.2]
end

/-- **C48**, for selectors without pseudo-elements, `of S`, or lists inside `:not()`. -/
theorem C48_specificity_standard_partial (s : Selector) (h : s.Simple3) : spec s = spec4 s := spec_eq_spec4 s h

example : sampleSel.Simple3 ∧ spec sampleSel = ⟨1, 0, 3⟩ := by
  refine ⟨by simp [sampleSel, Selector.Simple3, AllSimple3], by decide⟩

/-- **C48 is false as stated**: `:not(.a, .b)` is counted as two classes, and
`p::before` as one type. -/
theorem C48_fails :
    spec (.not (.or [.class_ "a".toList, .class_ "b".toList])) = ⟨0, 2, 0⟩ ∧
    spec4 (.not (.or [.class_ "a".toList, .class_ "b".toList])) = ⟨0, 1, 0⟩ ∧
    spec (.and [.type (name "p"), .pseudoElement "before".toList]) = ⟨0, 0, 1⟩ ∧
    spec4 (.and [.type (name "p"), .pseudoElement "before".toList]) = ⟨0, 0, 2⟩ := by decide

/-! ## C49: `:root` -/

/-- `n` is the root element: an element that has no element as parent. -/
def IsRoot (k : Kids) (data : Nat → NodeData) (n : Nat) : Prop :=
  (∃ e, data n = .element e) ∧ ∀ p, n ∈ k p → data p = .other

/-- **C49**, for documents in which exactly the root is an `html` element. -/
theorem C49_root_partial (k : Kids) (d : Doc) (fuel : Nat) (n : Nat) (e : Element) (pe : Option Str)
    (hn : d.data n = .element e)
    (hr : ∀ m e', d.data m = .element e' → (e'.qname = htmlTag ↔ IsRoot k d.data m)) :
    matchSel d fuel .root n e pe = .ok true ↔ IsRoot k d.data n := by
  simp only [matchSel, Except.ok.injEq, beq_iff_eq]
  exact hr n e hn

/-- A document `<html><p/></html>` meets the hypothesis of `C49_root_partial`. -/
example : ∃ (k : Kids) (data : Nat → NodeData),
    (∃ n, IsRoot k data n) ∧ (∃ n e, data n = .element e ∧ ¬ IsRoot k data n) ∧
    ∀ m e', data m = .element e' → (e'.qname = htmlTag ↔ IsRoot k data m) := by
  refine ⟨fun p => if p = 0 then [1] else if p = 1 then [2] else [], fun n =>
    if n = 1 then .element (elem "html") else if n = 2 then .element (elem "p") else .other, ⟨1, ⟨⟨_, rfl⟩, ?_⟩⟩,
    ⟨2, elem "p", rfl, ?_⟩, ?_⟩
  · intro p hp
    by_cases h0 : p = 0
    · subst h0; rfl
    · by_cases h1 : p = 1
      · subst h1; simp at hp
      · simp [h0, h1] at hp
  · rintro ⟨-, h⟩; exact absurd (h 1 (by simp)) (by simp)
  · intro m e' h
    by_cases h1 : m = 1
    · subst h1
      simp at h; subst h
      refine ⟨fun _ => ⟨⟨_, rfl⟩, ?_⟩, fun _ => by decide⟩
      intro p hp
      by_cases h0 : p = 0
      · subst h0; rfl
      · by_cases h1 : p = 1
        · subst h1; simp at hp
        · simp [h0, h1] at hp
    · by_cases h2 : m = 2
      · subst h2
        simp at h; subst h
        refine ⟨fun h => absurd h (by decide), ?_⟩
        rintro ⟨-, h⟩; exact absurd (h 1 (by simp)) (by simp)
      · simp [h1, h2] at h

/-- **C49 is false as stated**: the root `svg` of an SVG document is not matched, and an
`html` element inside another element is.  Observed: `matcher.cpp:313-314`. -/
theorem C49_fails :
    (∃ (k : Kids) (d : Doc) (e : Element), d.data 1 = .element e ∧ IsRoot k d.data 1 ∧
      ∀ fuel, matchSel d fuel .root 1 e none = .ok false) ∧
    (∃ (k : Kids) (d : Doc) (e : Element), d.data 1 = .element e ∧ ¬ IsRoot k d.data 1 ∧
      ∀ fuel, matchSel d fuel .root 1 e none = .ok true) := by
  constructor
  · refine ⟨fun _ => [], ⟨Heap.init, fun _ => .element (elem "svg")⟩, elem "svg", rfl, ⟨⟨_, rfl⟩, by simp⟩, ?_⟩
    intro fuel; simp only [matchSel]; exact congrArg _ (by decide)
  · refine ⟨fun p => if p = 0 then [1] else [], ⟨Heap.init, fun _ => .element (elem "html")⟩, elem "html", rfl, ?_, ?_⟩
    · rintro ⟨-, h⟩; exact absurd (h 0 (by simp)) (by simp)
    · intro fuel; simp only [matchSel]; exact congrArg _ (by decide)

/-! ## C50: matching does not crash -/

theorem bind_no_panic {α β} {x : Except Fault α} {f : α → Except Fault β} (hx : x ≠ .error .panic)
    (hf : ∀ a, x = .ok a → f a ≠ .error .panic) : x.bind f ≠ .error .panic := by
  cases x with
  | error e => cases e <;> simp_all [Except.bind]
  | ok a => simpa [Except.bind] using hf a rfl

theorem climb_no_panic {d : Doc} {p : Nat → Answer} (hp : ∀ m, p m ≠ .error .panic) (f : Nat) :
    ∀ n, climb d p f n ≠ .error .panic := by
  induction f with
  | zero => intro n; simp [climb]
  | succ f ih =>
    intro n; simp only [climb]
    split
    · simp
    · split
      · exact ih _
      · exact bind_no_panic (hp _) fun b _ => by cases b <;> simp [ih]

theorem scanPrev_no_panic {d : Doc} {p : Nat → Answer} (hp : ∀ m, p m ≠ .error .panic) (f : Nat) :
    ∀ n, scanPrev d p f n ≠ .error .panic := by
  induction f with
  | zero => intro n; simp [scanPrev]
  | succ f ih =>
    intro n; simp only [scanPrev]
    split
    · simp
    · split
      · exact ih _
      · exact bind_no_panic (hp _) fun b _ => by cases b <;> simp [ih]

theorem count_no_panic {d : Doc} {rev : Bool} {p : Nat → Answer} (hp : ∀ m, p m ≠ .error .panic) (f : Nat) :
    ∀ n, countSiblings d rev p f n ≠ .error .panic := by
  induction f with
  | zero => intro n; simp [countSiblings]
  | succ f ih =>
    intro n; simp only [countSiblings]
    split
    · simp
    · exact bind_no_panic (hp _) fun b _ => bind_no_panic (ih _) fun _ _ => by simp

theorem nthPlain_no_panic {d : Doc} {fuel anb n rev} : matchNthPlain d fuel anb n rev ≠ .error .panic :=
  bind_no_panic (count_no_panic (by simp) _ _) (by simp)
theorem nthOfType_no_panic {d : Doc} {fuel anb e n rev} : matchNthOfType d fuel anb e n rev ≠ .error .panic :=
  bind_no_panic (count_no_panic (by simp) _ _) (by simp)

mutual
theorem sel_no_panic {d : Doc} {fuel : Nat} : ∀ (s : Selector), s.Complete → ∀ n e pe,
    matchSel d fuel s n e pe ≠ .error .panic
  | .and l, h, n, e, pe => by simp only [matchSel]; exact all_no_panic l (by simpa [Selector.Complete] using h) n e pe
  | .or l, h, n, e, pe => by simp only [matchSel]; exact any_no_panic l (by simpa [Selector.Complete] using h) n e pe
  | .not s, h, n, e, pe => by
    have := sel_no_panic (d := d) (fuel := fuel) s (by simpa [Selector.Complete] using h) n e pe
    simp only [matchSel]
    cases hm : matchSel d fuel s n e pe with
    | error f => cases f <;> simp_all [Except.map]
    | ok b => simp [Except.map]
  | .where_ s, h, _, _, _ => by simp [Selector.Complete] at h
  | .infix c l r, h, n, e, pe => by
    simp only [Selector.Complete] at h
    have hl := sel_no_panic (d := d) (fuel := fuel) l h.1
    have hp : ∀ m, (match d.elem? m with
        | some e' => matchSel d fuel l m e' none
        | none => .ok false) ≠ .error .panic := by
      intro m; split
      · exact hl _ _ _
      · simp
    simp only [matchSel]
    refine bind_no_panic (sel_no_panic r h.2 n e pe) fun b _ => ?_
    split
    · simp
    · cases c
      · exact climb_no_panic hp _ _
      · simp only [onParent]; split
        · simp
        · split
          · simp
          · exact hp _
      · simp only [onPrev]; split
        · simp
        · split
          · simp
          · exact hp _
      · exact scanPrev_no_panic hp _ _
      · simp
  | .type _, _, _, _, _ | .empty, _, _, _, _ | .id _, _, _, _, _ | .class_ _, _, _, _, _ | .pseudoElement _, _, _, _, _
  | .attr _, _, _, _, _ | .link, _, _, _, _ | .root, _, _, _, _ | .otherPseudo, _, _, _, _ => by simp [matchSel]
  | .nthChild _ none, h, _, _, _ => by simp [Selector.Complete] at h
  | .nthChild _ (some (_, none)), _, _, _, _ => by simp only [matchSel]; exact nthPlain_no_panic
  | .nthChild _ (some (_, some s)), h, n, e, pe => by
    have hs := sel_no_panic (d := d) (fuel := fuel) s (by simpa [Selector.Complete] using h)
    simp only [matchSel]
    refine bind_no_panic (hs n e none) fun b _ => ?_
    split
    · simp
    · refine bind_no_panic (count_no_panic ?_ _ _) (by simp)
      intro m; split
      · exact hs _ _ _
      · simp
  | .nthOfType _ none, h, _, _, _ => by simp [Selector.Complete] at h
  | .nthOfType _ (some _), _, _, _, _ => by simp only [matchSel]; exact nthOfType_no_panic
  | .firstOfType, _, _, _, _ => by simp only [matchSel]; exact nthOfType_no_panic
  | .lastOfType, _, _, _, _ => by simp only [matchSel]; exact nthOfType_no_panic
  | .firstChild, _, _, _, _ => by simp only [matchSel]; exact nthPlain_no_panic
  | .lastChild, _, _, _, _ => by simp only [matchSel]; exact nthPlain_no_panic
theorem all_no_panic {d : Doc} {fuel : Nat} : ∀ (l : List Selector), AllComplete l → ∀ n e pe,
    matchAll d fuel l n e pe ≠ .error .panic
  | [], _, _, _, _ => by simp [matchAll]
  | s :: l, h, n, e, pe => by
    simp only [AllComplete] at h
    simp only [matchAll]
    refine bind_no_panic (sel_no_panic s h.1 n e pe) fun b _ => ?_
    split
    · exact all_no_panic l h.2 n e pe
    · simp
theorem any_no_panic {d : Doc} {fuel : Nat} : ∀ (l : List Selector), AllComplete l → ∀ n e pe,
    matchAny d fuel l n e pe ≠ .error .panic
  | [], _, _, _, _ => by simp [matchAny]
  | s :: l, h, n, e, pe => by
    simp only [AllComplete] at h
    simp only [matchAny]
    refine bind_no_panic (sel_no_panic s h.1 n e pe) fun b _ => ?_
    split
    · simp
    · exact any_no_panic l h.2 n e pe
end

/-- **C50**, for selectors whose `:nth-*` have their argument: matching never panics, on
any heap whatever (even one that legal edits cannot make), with any fuel. -/
theorem C50_no_panic_partial (d : Doc) (fuel : Nat) (s : Selector) (hc : s.Complete) (n : Nat) (e : Element)
    (pe : Option Str) : matchSel d fuel s n e pe ≠ .error .panic := sel_no_panic s hc n e pe

/-- **C50 is false as stated**: `:nth-child` written without parentheses is accepted by
the parser (`selector.cpp:941`) and panics on every element (`matcher.cpp:328-338`). -/
theorem C50_fails (d : Doc) (fuel n : Nat) (e : Element) (pe : Option Str) (rev : Bool) :
    matchSel d fuel (.nthChild rev none) n e pe = .error .panic := by simp [matchSel]

end Verif.Selector
