import Verif.Format.Spec
/-!
# Selectors as text: lemmas
-/
namespace Verif.Format
open Verif.Css (Text Tok TT Sst u)
open Verif.Css.LexSpec
open Verif.Selector (Str Selector Comb)
open Verif.SelParse (Namespaces one_complex one_compound gap_nil)
open Verif.SelParse.Spec (ListText Complexes Complex More Compound Simples CombText Gap allOf anyOf chain comma delim chars)

/-- The tokens of a class or id. -/
def marks : Selector → List Tok
  | .id n => [⟨.hash, 35 :: points n⟩]
  | .class_ n => [⟨.delim, [46]⟩, ⟨.ident, points n⟩]
  | _ => []

/-- What may follow a name: nothing, or one of `. # , > + ~` and a space. -/
def Ends (r : Text) : Prop := r = [] ∨ ∃ x r', r = x :: r' ∧ (x = 46 ∨ x = 35 ∨ x = 44 ∨ x = 62 ∨ x = 43 ∨ x = 126 ∨ x = 32)

theorem ends_name {r : Text} (h : Ends r) : NameEnds r ∧ ¬Begins (· = 40) r := by
  rcases h with rfl | ⟨x, r', rfl, h⟩
  · exact ⟨⟨fun h => h, fun h => h⟩, fun h => h⟩
  · refine ⟨⟨?_, ?_⟩, ?_⟩
    · show ¬NameChar x
      unfold NameChar Start Digit
      omega
    · intro he
      unfold Escape at he
      split at he
      · rename_i heq; injection heq; omega
      · exact he
    · show ¬ (x = 40)
      omega

theorem chars_points (n : Str) : chars (points n) = n := by
  simp [chars, points, Function.comp_def, Char.ofNat_toNat]

theorem name_of {r w : Text} (h : ∀ x ∈ w, NameChar x) : Verif.Css.LexSpec.Name true r w := by
  induction w with
  | nil => exact .nil
  | cons c w ih => exact .plain (h c (List.mem_cons_self ..)) (ih fun x hx => h x (List.mem_cons_of_mem _ hx))

theorem start_name {c : Nat} (h : Start c) : NameChar c := .inl h

theorem no_slash {c : Nat} (h : NameChar c) : c ≠ 92 := by
  unfold NameChar Start Digit at h
  omega

theorem plain_slash {n : Str} (h : Plain n) : 92 ∉ points n := by
  obtain ⟨c, w, he, hc, hw⟩ := h
  unfold points
  rw [he]
  intro hm
  rcases List.mem_cons.1 hm with h | h
  · exact no_slash (start_name hc) h.symm
  · exact no_slash (hw _ h) rfl

/-- A class or id begins with `.` or `#` and a letter. -/
theorem mark_begins {K : Karm} {s : Selector} (h : Mark s) :
    ∃ x c w, repr K s = x :: c :: w ∧ (x = 46 ∨ x = 35) ∧ Start c := by
  cases h with
  | id hn =>
    obtain ⟨c, w, he, hc, _⟩ := hn
    exact ⟨35, c, w, by unfold repr points; rw [he], .inr rfl, hc⟩
  | class_ hn =>
    obtain ⟨c, w, he, hc, _⟩ := hn
    exact ⟨46, c, w, by unfold repr points; rw [he], .inl rfl, hc⟩

theorem mark_ends {K : Karm} {s : Selector} (h : Mark s) (r : Text) : Ends (repr K s ++ r) := by
  obtain ⟨x, c, w, he, hx, _⟩ := mark_begins (K := K) h
  exact .inr ⟨x, c :: (w ++ r), by rw [he]; rfl, by omega⟩

theorem not_num {x c : Nat} {r : Text} (hx : x = 46 ∨ x = 62 ∨ x = 126) (hc : ¬Digit c) : ¬StartsNum (x :: c :: r) := by
  rintro ⟨sg, r1, he, hs, h⟩
  have hd : ¬Digit x := by unfold Digit; omega
  rcases hs with rfl | rfl | rfl
  · simp only [List.nil_append] at he
    subst he
    rcases h with h | ⟨r', he, h⟩
    · exact hd h
    · injection he with _ he
      subst he
      exact hc h
  · injection he with he _; omega
  · injection he with he _; omega

theorem mark_spelled {K : Karm} {s : Selector} (h : Mark s) {r : Text} {ts : List Tok} (hr : Ends r) (ht : Spelled true ts r) :
    Spelled true (marks s ++ ts) (repr K s ++ r) := by
  obtain ⟨hn, h40⟩ := ends_name hr
  cases h with
  | @id n hp =>
    have hp' := hp
    obtain ⟨c, w, he, hc, hw⟩ := hp
    simp only [repr, marks, points, he]
    exact .cons (w := 35 :: (c :: w)) (.hash (by simp) (.plain (start_name hc) (name_of hw)) hn) ht
  | @class_ n hp =>
    obtain ⟨c, w, he, hc, hw⟩ := hp
    simp only [repr, marks, points, he]
    have hd : ¬Digit c := by unfold Start at hc; unfold Digit; omega
    refine .cons (w := [46]) (r := (c :: w) ++ r) ?_ (.cons (w := c :: w) ?_ ht)
    · refine .delim ?_ ?_ (by decide) (by decide) (not_num (.inl rfl) hd) ?_ (fun h => by omega) (fun h => by omega) (fun h => by omega)
        (fun h => by omega) (fun h => by omega)
      · unfold White Newline; omega
      · intro t; cases t <;> decide
      · intro h
        rcases h with h | h
        · exact h
        · have h : Start 46 := h
          unfold Start at h
          omega
    · refine .ident (.start hc (name_of hw)) hn h40 ?_
      intro he
      injection he with he _
      unfold Start at hc
      omega

/-- What stands between two classes or ids: nothing, a comma, or a combinator. -/
def between : Option Nat → List Tok
  | some 44 => [⟨.comma, [44]⟩]
  | some 32 => [⟨.ws, [32]⟩]
  | some x => [⟨.delim, [x]⟩]
  | none => []

theorem between_spelled {K : Karm} {s : Selector} (h : Mark s) {x : Nat} (hx : x = 44 ∨ x = 32 ∨ x = 62 ∨ x = 43 ∨ x = 126)
    {ts : List Tok} {r : Text} (ht : Spelled true ts (repr K s ++ r)) :
    Spelled true (between (some x) ++ ts) (x :: (repr K s ++ r)) := by
  obtain ⟨y, c, w, he, hy, hc⟩ := mark_begins (K := K) h
  rw [he] at ht ⊢
  have hd : ¬Digit c := by unfold Start at hc; unfold Digit; omega
  have hdy : ¬Digit y := by unfold Digit; omega
  have del : (x = 62 ∨ x = 43 ∨ x = 126) → Spelled true (⟨.delim, [x]⟩ :: ts) (x :: (y :: c :: w ++ r)) := by
    intro hx
    refine .cons (w := [x]) (.delim ?_ ?_ (by omega) (by omega) ?_ ?_ (by omega) (by omega) (by omega) (by omega) (by omega)) ht
    · unfold White Newline; omega
    · intro t hm
      simp only [Verif.Css.LexSpec.punct, List.mem_cons, Prod.mk.injEq, List.not_mem_nil, or_false] at hm
      omega
    · rintro ⟨sg, r1, he, hs, h⟩
      rcases hs with rfl | rfl | rfl
      · simp only [List.nil_append] at he
        subst he
        rcases h with h | ⟨r', he, h⟩
        · have h : Digit x := h
          unfold Digit at h; omega
        · injection he with he _; omega
      · injection he with _ he
        have he : y :: c :: (w ++ r) = r1 := he
        subst he
        rcases h with h | ⟨r', he, h⟩
        · exact hdy h
        · injection he with _ he
          subst he
          exact hd h
      · injection he with he _; omega
    · intro h
      rcases h with h | h
      · unfold Escape at h
        split at h
        · rename_i heq; injection heq; omega
        · exact h
      · split at h
        · rename_i heq; injection heq; omega
        · rename_i heq; injection heq with he _; subst he; unfold Start at h; omega
        · exact h
  rcases hx with rfl | rfl | hx
  · exact .cons (w := [44]) (.punct (by decide)) ht
  · refine .cons (w := [32]) (.ws (by simp) (by simp [White]) ?_) ht
    show ¬White y
    unfold White Newline
    omega
  · have : between (some x) = [⟨.delim, [x]⟩] := by rcases hx with rfl | rfl | rfl <;> rfl
    rw [this]
    exact del hx

/-! ## Grammar -/

theorem mark_simple {ns : Namespaces} {s : Selector} (h : Mark s) :
    Verif.SelParse.Spec.Simple true ns ((marks s).map Sst.tok) s := by
  cases h with
  | @id n hp =>
    have := Verif.SelParse.Spec.Simple.id (strict := true) (ns := ns) (.plain (plain_slash hp))
    rw [chars_points] at this
    exact this
  | @class_ n hp =>
    have := Verif.SelParse.Spec.Simple.class_ (strict := true) (ns := ns) (.plain (plain_slash hp))
    rw [chars_points] at this
    exact this

theorem mark_compound {ns : Namespaces} {s : Selector} (h : Mark s) : Compound true ns ((marks s).map Sst.tok) [s] := by
  have := Compound.bare (mark_simple (ns := ns) h) .nil
  rwa [List.append_nil] at this

theorem mark_complex {ns : Namespaces} {s : Selector} (h : Mark s) : Complex true ns ((marks s).map Sst.tok) s := by
  have := Complex.mk (mark_compound (ns := ns) h) .nil (fun _ => trivial)
  rwa [List.append_nil] at this

theorem marks_simples {ns : Namespaces} : ∀ {l : List Selector}, (∀ s ∈ l, Mark s) →
    Simples true ns ((l.flatMap marks).map Sst.tok) l
  | [], _ => .nil
  | s :: l, h => by
    rw [List.flatMap_cons, List.map_append]
    exact .cons (mark_simple (h s (List.mem_cons_self ..))) (marks_simples fun x hx => h x (List.mem_cons_of_mem _ hx))

/-- The tokens of several between commas. -/
def commaMarks : List Selector → List Tok
  | [] => []
  | [s] => marks s
  | s :: l => marks s ++ ⟨.comma, [44]⟩ :: commaMarks l

theorem comma_complexes {ns : Namespaces} : ∀ {l : List Selector}, l ≠ [] → (∀ s ∈ l, Mark s) →
    Complexes true ns ((commaMarks l).map Sst.tok) l
  | [], h, _ => absurd rfl h
  | [s], _, h => .one (mark_complex (h s (List.mem_cons_self ..)))
  | s :: s' :: l, _, h => by
    have ih := comma_complexes (l := s' :: l) (ns := ns) (by simp) fun x hx => h x (List.mem_cons_of_mem _ hx)
    have := Complexes.more (mark_complex (ns := ns) (h s (List.mem_cons_self ..))) gap_nil gap_nil (fun _ => .inl rfl) ih
    rw [commaMarks, List.map_append, List.map_cons]
    exact this
    simp

theorem row_spelled {K : Karm} : ∀ {l : List Selector}, (∀ s ∈ l, Mark s) →
    Spelled true (l.flatMap marks) (reprs K l).flatten ∧ Ends (reprs K l).flatten
  | [], _ => ⟨.nil, .inl rfl⟩
  | s :: l, h => by
    have hs := h s (List.mem_cons_self ..)
    have ih := row_spelled (K := K) (l := l) fun x hx => h x (List.mem_cons_of_mem _ hx)
    rw [reprs, List.flatten_cons, List.flatMap_cons]
    exact ⟨mark_spelled hs ih.2 ih.1, mark_ends hs _⟩

theorem commas_spelled {K : Karm} : ∀ {l : List Selector}, (∀ s ∈ l, Mark s) → l ≠ [] →
    Spelled true (commaMarks l) (commas (reprs K l)) ∧ ∃ s r, s ∈ l ∧ commas (reprs K l) = repr K s ++ r
  | [], _, h => absurd rfl h
  | [s], h, _ => by
    have hs := h s (List.mem_cons_self ..)
    have := mark_spelled (K := K) hs (.inl rfl) .nil
    rw [List.append_nil, List.append_nil] at this
    exact ⟨this, s, [], List.mem_cons_self .., (List.append_nil _).symm⟩
  | s :: s' :: l, h, _ => by
    have hs := h s (List.mem_cons_self ..)
    have ih := commas_spelled (K := K) (l := s' :: l) (fun x hx => h x (List.mem_cons_of_mem _ hx)) (by simp)
    obtain ⟨h1, t, r, hm, he⟩ := ih
    have ht := h t (List.mem_cons_of_mem _ hm)
    have e : commas (reprs K (s :: s' :: l)) = repr K s ++ 44 :: commas (reprs K (s' :: l)) := rfl
    rw [e]
    refine ⟨?_, s, _, List.mem_cons_self .., rfl⟩
    rw [he] at h1 ⊢
    have := between_spelled (x := 44) ht (.inl rfl) h1
    exact mark_spelled hs (.inr ⟨44, _, rfl, by omega⟩) this

end Verif.Format
