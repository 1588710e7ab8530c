import Verif.Tree.Page
import Verif.Html.Props
/-
From the source of a page to its tokens, with the tree builder telling the tokenizer where text
begins.
-/
namespace Verif.Tree
open Verif.Html (Str Attr Content Token)
open Verif.Html.Spec (Item Agrees itemMeanings itemSrcs Unix)
open Spec

theorem Runs.build {d : Nat} : ∀ {ms : List Mark} {s s' : St}, Runs d s ms s' →
    build d s (ms.map (·.1)) = .ok s' := by
  intro ms
  induction ms with
  | nil => intro s s' h; cases h; rfl
  | cons m ms ih =>
    obtain ⟨t, a⟩ := m
    rintro s s' ⟨s1, h1, -, h2⟩
    show (do let s ← feed d s t; Tree.build d s _) = _
    rw [h1]
    exact ih h2

theorem build_append {d : Nat} : ∀ {ts us : List Tok} {s s1 : St}, build d s ts = .ok s1 →
    build d s (ts ++ us) = build d s1 us := by
  intro ts
  induction ts with
  | nil => intro us s s1 h; cases h; rfl
  | cons t ts ih =>
    intro us s s1 h
    rw [List.cons_append]
    rw [build] at h ⊢
    cases hf : feed d s t with
    | error e => rw [hf] at h; cases h
    | ok s2 => rw [hf] at h; exact ih h

theorem Runs.split {d : Nat} : ∀ {l r : List Mark} {s s' : St}, Runs d s (l ++ r) s' →
    ∃ s1, Runs d s l s1 ∧ Runs d s1 r s' := by
  intro l
  induction l with
  | nil => intro r s s' h; exact ⟨s, rfl, h⟩
  | cons m l ih =>
    obtain ⟨t, a⟩ := m
    rintro r s s' ⟨s1, h1, h2, h3⟩
    obtain ⟨s2, h4, h5⟩ := ih h3
    exact ⟨s2, ⟨s1, h1, h2, h4⟩, h5⟩

theorem marks_means : ∀ i : Item, ∃ ms, (∀ is, itemMarks (i :: is) = ms ++ itemMarks is) ∧
    ms.map (·.1) = i.means.map Tok.of := by
  intro i
  have h : ∀ (l : List Token), (l.map (fun t => calm (Tok.of t))).map (·.1) = l.map Tok.of := by
    intro l; simp [calm]
  cases i with
  | raw k t bs e =>
    refine ⟨_, fun is => rfl, ?_⟩
    simp [Html.Spec.Item.means, calm, Tok.of, Html.Spec.char]
  | text p => exact ⟨_, fun is => rfl, h _⟩
  | opens t => exact ⟨_, fun is => rfl, h _⟩
  | closes t => exact ⟨_, fun is => rfl, h _⟩
  | comment x => exact ⟨_, fun is => rfl, h _⟩
  | doctype x => exact ⟨_, fun is => rfl, h _⟩

theorem itemMarks_means (is : List Item) :
    (itemMarks is).map (·.1) = (itemMeanings is).map Tok.of := by
  induction is with
  | nil => rfl
  | cons i is ih =>
    obtain ⟨ms, h1, h2⟩ := marks_means i
    rw [h1, List.map_append, h2, ih, ← List.map_append]
    rfl

theorem sink_ok {d : Nat} {ts : List Token} {s : St} (h : build d {} (ts.map Tok.of) = .ok s) :
    sink d ts = s.lexer := by
  rw [sink, h]

/-- The tokenizer is asked for what the items say. -/
theorem runs_agrees {d : Nat} : ∀ (is : List Item) {before : List Token} {s s' : St}
    {rest : List Mark}, build d {} (before.map Tok.of) = .ok s → Runs d s (itemMarks is ++ rest) s' →
    Agrees (sink d) before is := by
  intro is
  induction is with
  | nil => intros; trivial
  | cons i is ih =>
    intro before s s' rest hb hr
    obtain ⟨ms, h1, h2⟩ := marks_means i
    have hr0 := hr
    rw [h1, List.append_assoc] at hr
    obtain ⟨s1, h3, h4⟩ := hr.split
    have h5 := h3.build
    rw [h2] at h5
    have hb1 : build d {} ((before ++ i.means).map Tok.of) = .ok s1 := by
      rw [List.map_append, build_append hb, h5]
    have hrest := ih hb1 h4
    cases i with
    | text p => exact hrest
    | closes t => exact hrest
    | comment x => exact hrest
    | doctype x => exact hrest
    | opens t =>
      refine ⟨?_, hrest⟩
      obtain ⟨s2, k1, k2, -⟩ := hr0
      rw [sink_ok (s := s2)]
      · exact k2
      · rw [List.map_append, build_append hb]
        show (do let s ← feed d s _; build d s []) = _
        rw [k1]
        rfl
    | raw k t bs e =>
      refine ⟨?_, hrest⟩
      obtain ⟨s2, k1, k2, -⟩ := hr0
      rw [sink_ok (s := s2)]
      · exact k2
      · rw [List.map_append, build_append hb]
        show (do let s ← feed d s _; build d s []) = _
        rw [k1]
        rfl

theorem source_runs {d : Nat} {is : List Item} {doc : Str} {s' : St}
    (hok : ∀ i ∈ is, i.Ok) (hd : Unix doc (itemSrcs is))
    (hr : Runs d {} (itemMarks is ++ [calm .eof]) s') : parse d doc = .ok s' := by
  have hag : Agrees (sink d) [] is := runs_agrees is (s := {}) rfl hr
  have := Html.C114_document_partial (sink d) hok hag hd
  rw [parse]
  show build d {} ((Html.tokens (Html.program (sink d)) doc).map Tok.of) = _
  rw [this, List.map_append, ← itemMarks_means]
  exact hr.build ▸ (by simp [calm, Tok.of, Html.Spec.eof])

end Verif.Tree
