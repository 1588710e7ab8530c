import Verif.Format.Lemmas
/-!
# Property C252: selectors printed as text
-/
namespace Verif.Format
open Verif.Css (Text Tok TT Sst u lexAll)
open Verif.Css.LexSpec (Spelled Start NameChar)
open Verif.Selector (Str Selector Comb QSel NsPat htmlNs Means spec NodeData Element)
open Verif.SelParse (Namespaces read Agree one_complex one_compound gap_nil)
open Verif.SelParse.Spec (ListText Complex More CombText allOf anyOf chain)

/-- The tokens of classes, ids, combinators and commas. -/
def Loose (ts : List Tok) : Prop := ∀ k ∈ ts, k.type ≠ .func ∧ k.type ≠ .lpar ∧ k.type ≠ .lsquare ∧ k.type ≠ .lcurly

theorem loose_marks (s : Selector) : Loose (marks s) := by
  intro k hk
  unfold marks at hk
  split at hk
  · simp only [List.mem_cons, List.not_mem_nil, or_false] at hk
    subst hk
    exact ⟨nofun, nofun, nofun, nofun⟩
  · simp only [List.mem_cons, List.not_mem_nil, or_false] at hk
    rcases hk with rfl | rfl <;> exact ⟨nofun, nofun, nofun, nofun⟩
  · exact absurd hk (by simp)

theorem Loose.append {a b : List Tok} (h : Loose a) (h' : Loose b) : Loose (a ++ b) := by
  intro k hk
  rcases List.mem_append.1 hk with hk | hk
  · exact h k hk
  · exact h' k hk

theorem loose_comma : ∀ l : List Selector, Loose (commaMarks l)
  | [] => by intro k hk; exact absurd hk (by simp [commaMarks])
  | [s] => loose_marks s
  | s :: s' :: l => by
    refine (loose_marks s).append ?_
    intro k hk
    rcases List.mem_cons.1 hk with rfl | hk
    · exact ⟨nofun, nofun, nofun, nofun⟩
    · exact loose_comma (s' :: l) k hk

theorem loose_flat : ∀ l : List Selector, Loose (l.flatMap marks)
  | [] => by intro k hk; exact absurd hk (by simp)
  | s :: l => by
    rw [List.flatMap_cons]
    exact (loose_marks s).append (loose_flat l)

theorem reads {ns : Namespaces} {ts : List Tok} {t : Text} {s : Selector} (hs : Spelled true ts t)
    (hl : ListText true ns (ts.map Sst.tok) s) (ht : Loose ts) : ReadsAs ns t s := by
  obtain ⟨s', h1, _, h2, h3⟩ := Verif.SelParse.C154_means_partial ns _ s hl
  exact ⟨ts, s', Verif.Css.C70_text_read_partial hs, ht, h1, h2, h3⟩

theorem pair_reads {K : Karm} {ns : Namespaces} {c : Comb} {x : Nat} {s s' : Selector} (h : Mark s) (h' : Mark s')
    (hx : x = 44 ∨ x = 32 ∨ x = 62 ∨ x = 43 ∨ x = 126) (hl : Loose (between (some x)))
    (hc : CombText true ((marks s').map Sst.tok) ((between (some x)).map Sst.tok) c) :
    ReadsAs ns (repr K s ++ x :: repr K s') (.infix c s s') := by
  have h1 := mark_spelled (K := K) h' (.inl rfl) .nil
  rw [List.append_nil] at h1
  have h2 := mark_spelled (K := K) h (.inr ⟨x, _, rfl, by omega⟩) (between_spelled h' hx h1)
  rw [List.append_nil] at h2
  refine reads h2 ?_ ((loose_marks s).append (hl.append (loose_marks s')))
  have hm := More.cons (mark_compound (ns := ns) h') hc .nil
  have := Complex.mk (mark_compound (ns := ns) h) hm (fun _ => trivial)
  rw [List.append_nil] at this
  rw [List.map_append, List.map_append]
  exact one_complex this

/-- **C252 (in part).** The text printed for a selector of classes and ids is read as the same selector: for one of them, for
several that one element must have, for several between commas, and for two with a combinator between them.  Missing: type
selectors (`C252_type_fails`, `C252_star_fails`, `C252_null_fails`), more than one combinator, and combinators or commas
together with several classes (`C252_nested_fails`), `:not` and `:where` (`C252_not_fails`), attributes and pseudo-classes,
whose text is not modelled. -/
theorem C252_back_partial (K : Karm) (ns : Namespaces) (s : Selector) (h : Flat s) : ReadsAs ns (unparse K s) s := by
  cases h with
  | one hm =>
    have h1 := mark_spelled (K := K) hm (.inl rfl) .nil
    rw [List.append_nil, List.append_nil] at h1
    have he : unparse K s = repr K s := by cases hm <;> rfl
    rw [he]
    exact reads h1 (one_complex (mark_complex hm)) (loose_marks s)
  | @row l hl hm =>
    refine reads (row_spelled hm).1 ?_ (loose_flat l)
    match l, hl, hm with
    | s :: s' :: l, _, hm =>
      have hr := marks_simples (ns := ns) (l := s' :: l) fun x hx => hm x (List.mem_cons_of_mem _ hx)
      have := Verif.SelParse.Spec.Compound.bare (mark_simple (ns := ns) (hm s (List.mem_cons_self ..))) hr
      rw [List.flatMap_cons, List.map_append]
      exact one_compound this
  | @list l hl hm =>
    have hne : l ≠ [] := by rintro rfl; simp at hl
    refine reads (commas_spelled hm hne).1 ?_ (loose_comma l)
    have := ListText.mk (g := []) (g' := []) gap_nil (comma_complexes (ns := ns) hne hm) gap_nil
    rw [List.append_nil] at this
    match l, hl, this with
    | s :: s' :: l, _, this => exact this
  | @pair c s s' hc hm hm' =>
    have one : ∀ x : Nat, Loose [⟨.delim, [x]⟩] := by
      intro x k hk
      simp only [List.mem_cons, List.not_mem_nil, or_false] at hk
      subst hk
      exact ⟨nofun, nofun, nofun, nofun⟩
    cases c with
    | descendant =>
      refine pair_reads hm hm' (by omega) ?_ (.descendant ?_)
      · intro k hk
        simp only [between, List.mem_cons, List.not_mem_nil, or_false] at hk
        subst hk
        exact ⟨nofun, nofun, nofun, nofun⟩
      · intro _ c r he
        cases hm' <;> simp [marks] at he
    | child => exact pair_reads hm hm' (by omega) (one 62) (.child gap_nil gap_nil (fun _ => .inl rfl))
    | adjacent => exact pair_reads hm hm' (by omega) (one 43) (.adjacent gap_nil gap_nil (fun _ => .inl rfl))
    | subsequent => exact pair_reads hm hm' (by omega) (one 126) (.subsequent gap_nil gap_nil (fun _ => .inl rfl))
    | column => exact absurd rfl hc

/-- `.a,#b-1`. -/
def sample : Selector := .or [.class_ ['a'], .id ['b', '-', '1']]

example : Flat sample := by
  refine .list (by decide) fun s hs => ?_
  simp only [List.mem_cons, List.not_mem_nil, or_false] at hs
  rcases hs with rfl | rfl
  · exact .class_ ⟨97, [], rfl, by unfold Start; omega, by simp⟩
  · refine .id ⟨98, [45, 49], rfl, by unfold Start; omega, fun x hx => ?_⟩
    simp only [List.mem_cons, List.not_mem_nil, or_false] at hx
    unfold NameChar Start Verif.Css.LexSpec.Digit
    omega

example (K : Karm) : unparse K sample = u ".a,#b-1" := rfl

/-- A text is not read as a selector if it is read as something else. -/
theorem not_reads {ns : Namespaces} {t : Text} {s : Selector} {ts : List Tok} {v : Verif.SelParse.Out Selector} {n : Nat}
    (h1 : lexAll (t.length + 1) t = some ts) (h2 : Verif.SelParse.parse n ns (ts.map Sst.tok) = v) (hf : v ≠ .fuel)
    (hv : ∀ s', v = .ok s' → ¬ Agree s' s) : ¬ ReadsAs ns t s := by
  rintro ⟨ts', s', h1', _, h2', _, h4⟩
  rw [h1] at h1'
  cases h1'
  rw [Verif.SelParse.read_of_parse h2 hf] at h2'
  exact hv s' h2' h4

/-- **C252.** It is false of type selectors, for instance of `p`: the namespace is printed where a prefix belongs, and the
text, `http://www.w3.org/1999/xhtml|p`, cannot be read. -/
theorem C252_type_fails (K : Karm) :
    (∀ n, unparse K (.type ⟨.exact htmlNs, some n⟩) = u "http://www.w3.org/1999/xhtml|" ++ points n) ∧
    ¬ ReadsAs {} (unparse K (.type ⟨.exact htmlNs, some ['p']⟩)) (.type ⟨.exact htmlNs, some ['p']⟩) := by
  have e : ∀ n, unparse K (.type ⟨.exact htmlNs, some n⟩) = u "http://www.w3.org/1999/xhtml|" ++ points n := by
    intro n
    have h : points htmlNs ++ [124] = u "http://www.w3.org/1999/xhtml|" := by decide +kernel
    rw [← h, List.append_assoc]
    rfl
  refine ⟨e, ?_⟩
  rw [e]
  exact not_reads (n := 60) (v := .err)
    (ts := [⟨.ident, u "http"⟩, ⟨.colon, u ":"⟩, ⟨.delim, u "/"⟩, ⟨.delim, u "/"⟩, ⟨.ident, u "www"⟩, ⟨.delim, u "."⟩, ⟨.ident, u "w3"⟩,
      ⟨.delim, u "."⟩, ⟨.ident, u "org"⟩, ⟨.delim, u "/"⟩, ⟨.number, u "1999"⟩, ⟨.delim, u "/"⟩, ⟨.ident, u "xhtml"⟩, ⟨.delim, u "|"⟩,
      ⟨.ident, u "p"⟩])
    (by decide +kernel) (by rfl) (by simp) (by simp)

/-- An element `a` in the namespace `y`, or in none. -/
def elementIn (y : Option Str) : Element := ⟨⟨y, ['a']⟩, [], []⟩

/-- **C252.** It is false of `*|*`, which is printed as `*`: that is read as all elements of the default namespace only. -/
theorem C252_star_fails (K : Karm) :
    ¬ ReadsAs {} (unparse K (.type ⟨.universal, none⟩)) (.type ⟨.universal, none⟩) := by
  have e : unparse K (.type ⟨.universal, none⟩) = u "*" := rfl
  rw [e]
  refine not_reads (n := 60) (ts := [⟨.delim, u "*"⟩]) (v := .ok (.type ⟨.exact htmlNs, none⟩)) (by decide +kernel) (by rfl) (by simp) ?_
  intro s' hs
  cases hs
  exact Verif.SelParse.not_agree (elementIn none) (by simp [Means, elementIn, Verif.Selector.NameMeans])

/-- **C252.** It is false of names in no namespace: `|a` is printed as `a`, which is read as `a` of the default namespace. -/
theorem C252_null_fails (K : Karm) :
    ¬ ReadsAs {} (unparse K (.type ⟨.null, some ['a']⟩)) (.type ⟨.null, some ['a']⟩) := by
  have e : unparse K (.type ⟨.null, some ['a']⟩) = u "a" := rfl
  rw [e]
  refine not_reads (n := 60) (ts := [⟨.ident, u "a"⟩]) (v := .ok (.type ⟨.exact htmlNs, some ['a']⟩)) (by decide +kernel) (by rfl) (by simp) ?_
  intro s' hs
  cases hs
  exact Verif.SelParse.not_agree (elementIn none) (by simp [Means, elementIn, Verif.Selector.NameMeans])

/-- A selector made of others. -/
inductive Made : Selector → Prop
  | and {l} : Made (.and l)
  | or {l} : Made (.or l)
  | not {s} : Made (.not s)
  | where_ {s} : Made (.where_ s)
  | infix {c s s'} : Made (.infix c s s')

theorem made_paren {K : Karm} {s : Selector} (h : Made s) : (repr K s).head? = some 40 := by
  cases h <;> simp [repr]

/-- **C252.** It is false of selectors in selectors, for instance of `.a.b .c`, `.a > .b > .c` and `.a.b, .c`: those inside are
printed in parentheses with the names of operators, so the text begins with a `(` as no selector does. -/
theorem C252_nested_fails (K : Karm) (s : Selector) (h : Made s) (c : Comb) (t : Selector) (l : List Selector) :
    (unparse K (.infix c s t)).head? = some 40 ∧ (unparse K (.or (s :: l))).head? = some 40 := by
  have hp := made_paren (K := K) h
  cases hr : repr K s with
  | nil => rw [hr] at hp; simp at hp
  | cons x w =>
    rw [hr] at hp
    simp only [List.head?_cons, Option.some.injEq] at hp
    subst hp
    constructor
    · cases c <;> simp [unparse, repr, hr]
    · cases l <;> simp [unparse, reprs, commas, hr]

/-- **C252.** Nor are `:not()` and `:where()` printed as such. -/
theorem C252_not_fails (K : Karm) (s : Selector) :
    (unparse K (.not s)).head? = some 40 ∧ (unparse K (.where_ s)).head? = some 40 := by
  simp [unparse, repr]

end Verif.Format
