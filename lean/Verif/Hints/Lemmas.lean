import Verif.Cascade.Props
import Verif.Svg.Attrs
import Verif.Hints.Spec
/-! # Lemmas about attributes that style an element -/
namespace Verif.Hints
open Verif.Cascade

theorem lower_asymm {x y : Decl} (h : Lower x y) : ¬ Lower y x := by
  rw [lower_iff] at *; omega

theorem winner_insert {a b hs : List Decl} {n : Nat} {d : Decl} (h : Winner (a ++ b) n d)
    (hh : ∀ x ∈ hs, x.name = n → x.bogus = false → Lower x d) : Winner (a ++ hs ++ b) n d := by
  obtain ⟨pre, post, he, hn, hb, h1, h2⟩ := h
  rcases List.append_eq_append_iff.1 he with ⟨l, h3, h4⟩ | ⟨l, h3, h4⟩
  · refine ⟨a ++ hs ++ l, post, ?_, hn, hb, ?_, h2⟩
    · rw [h4]; simp
    · intro x hx hxn hxb
      simp only [List.mem_append] at hx
      rcases hx with (hx | hx) | hx
      · exact h1 x (by rw [h3]; simp [hx]) hxn hxb
      · exact lower_asymm (hh x hx hxn hxb)
      · exact h1 x (by rw [h3]; simp [hx]) hxn hxb
  · cases l with
    | nil =>
      simp only [List.nil_append, List.append_nil] at h3 h4
      refine ⟨a ++ hs, post, ?_, hn, hb, ?_, h2⟩
      · rw [← h4]
      · intro x hx hxn hxb
        rcases List.mem_append.1 hx with hx | hx
        · exact h1 x (by rw [← h3]; exact hx) hxn hxb
        · exact lower_asymm (hh x hx hxn hxb)
    | cons y l =>
      injection h4 with h5 h6
      subst h5
      refine ⟨pre, l ++ hs ++ b, ?_, hn, hb, h1, ?_⟩
      · rw [h3]; simp
      · intro x hx hxn hxb
        simp only [List.mem_append] at hx
        rcases hx with (hx | hx) | hx
        · exact h2 x (by rw [h6]; simp [hx]) hxn hxb
        · exact hh x hx hxn hxb
        · exact h2 x (by rw [h6]; simp [hx]) hxn hxb

/-- What comes from an attribute. -/
def IsHint (d : Decl) : Prop :=
  d.origin = .presentationalHint ∧ d.important = false ∧ d.bogus = false ∧ d.specificity = .zero

theorem hint_mem {p : Nat} {v : Option Nat} {d : Decl} (h : d ∈ hint p v) : IsHint d ∧ d.name = p ∧ v = some d.value := by
  cases v with
  | none => simp [hint] at h
  | some v =>
    simp only [hint, List.mem_singleton] at h
    subst h
    exact ⟨⟨rfl, rfl, rfl, rfl⟩, rfl, rfl⟩

theorem htmlHints_isHint {e : Env} {el : El} {d : Decl} (h : d ∈ htmlHints e el) : IsHint d := by
  unfold htmlHints at h
  split at h
  · cases h
  · simp only [List.mem_append] at h
    rcases h with (((h | h) | h) | h) | h <;> exact (hint_mem h).1

theorem svgDecls_isHint {e : Env} {el : El} {d : Decl} (h : d ∈ svgDecls e el) : IsHint d := by
  unfold svgDecls at h
  split at h
  · cases h
  · rcases List.mem_append.1 h with h | h
    · obtain ⟨a, _, h⟩ := List.mem_flatMap.1 h
      unfold presentation at h
      split at h
      · exact (hint_mem h).1
      · split at h
        · exact (hint_mem h).1
        · split at h
          · exact (hint_mem h).1
          · cases h
    · split at h
      · unfold svgSizing at h
        split at h
        · cases h
        · split at h
          · cases h
          · split at h
            · cases h
            · rcases List.mem_append.1 h with h | h
              · split at h
                · cases h
                · exact (hint_mem h).1
              · split at h
                · cases h
                · exact (hint_mem h).1
      · cases h

theorem attr_isHint {e : Env} {el : El} {d : Decl} (h : d ∈ attrDecls e el) : IsHint d := by
  rcases List.mem_append.1 h with h | h
  · exact htmlHints_isHint h
  · exact svgDecls_isHint h

theorem not_both (e : Env) (el : El) : htmlHints e el = [] ∨ svgDecls e el = [] := by
  cases h : el.ns with
  | html => right; simp [svgDecls, h]
  | svg => left; simp [htmlHints, h]
  | other => left; simp [htmlHints, h]

/-- A hint gives way to a declaration that is important or of an author. -/
theorem hint_lower {h d : Decl} (hh : IsHint h) (hd : d.important = true ∨ d.origin = .author ∨ d.origin = .inline) :
    Lower h d := by
  obtain ⟨h1, h2, _, h4⟩ := hh
  rw [lower_iff, h1, h2]
  rcases hd with hd | hd | hd
  · left; rw [hd]; decide
  · cases hi : d.important with
    | true => left; decide
    | false => right; rw [hd]; exact ⟨rfl, .inl (by decide)⟩
  · cases hi : d.important with
    | true => left; decide
    | false => right; rw [hd]; exact ⟨rfl, .inl (by decide)⟩

end Verif.Hints
