import Verif.Xml.DocSound
import Verif.Xml.Eval

/-! # XML declarations that are accepted are of the grammar -/
namespace Verif.Xml
open Spec

theorem parseDeclAttr_sound {name : String} {value : Text → Text} {P : Text → Prop}
    (hp : ∀ s, value s ≠ [] → value s <+: s ∧ P (value s)) {s rest v : Text}
    (h : parseDeclAttr (u name) value s = some (v, rest)) :
    ∃ p, s = p ++ rest ∧ DeclAttr .loose name P p v := by
  unfold parseDeclAttr at h
  split at h
  · cases h
  rename_i s1 h1
  split at h
  · cases h
  rename_i s2 h2
  split at h
  · cases h
  rename_i q s3 h3
  split at h
  · cases h
  rename_i hq
  simp only at h
  split at h
  · cases h
  rename_i hv
  split at h
  · cases h
  rename_i q' s4 h4
  split at h
  · rename_i hqq
    cases h
    obtain ⟨w₁, hw₁, e₁⟩ := parseS_split s
    obtain ⟨w₂, hw₂, e₂⟩ := parseS_split s1
    obtain ⟨w₃, hw₃, e₃⟩ := parseS_split s2
    have hne : value s3 ≠ [] := by
      intro h0
      rw [h0] at hv
      exact hv rfl
    obtain ⟨⟨t, ht⟩, hP⟩ := hp s3 hne
    generalize hvv : value s3 = v at *
    subst ht
    rw [List.drop_left] at h4
    subst h4 hqq
    refine ⟨_, ?_, .mk (q := q') hw₁ (fun h => absurd rfl h) hw₂ hw₃ (by omega) hP⟩
    have x1 := skip_some.1 h1
    have x2 := skip_some.1 h2
    rw [x1] at e₁
    rw [x2] at e₂
    rw [h3] at e₃
    rw [e₁, e₂, e₃]
    simp
  · cases h

theorem mem_takeWhile_holds {p : Rune → Bool} {l : Text} {r : Rune} (h : r ∈ l.takeWhile p) : p r = true := by
  induction l with
  | nil => simp at h
  | cons c cs ih =>
    rw [List.takeWhile_cons] at h
    split at h
    · rcases List.mem_cons.1 h with rfl | h
      · assumption
      · exact ih h
    · simp at h

theorem versionText_sound (s : Text) (h : versionText s ≠ []) : versionText s <+: s ∧ Version (versionText s) := by
  unfold versionText at h ⊢
  split at h
  · rename_i hp
    rw [if_pos hp]
    simp only at h ⊢
    split at h
    · exact absurd rfl h
    · rename_i hd
      rw [if_neg hd]
      obtain ⟨t, rfl⟩ := List.isPrefixOf_iff_prefix.1 hp
      have hdrop : (u "1." ++ t).drop 2 = t := rfl
      rw [hdrop] at hd ⊢
      refine ⟨(List.prefix_append_right_inj _).2 (List.takeWhile_prefix _), _, ?_, ?_, rfl⟩
      · intro h0; rw [h0] at hd; exact hd rfl
      · intro r hr
        have := mem_takeWhile_holds hr
        simpa using this
  · exact absurd rfl h

theorem letter_iff (r : Rune) : isAlpha r = true ↔ Letter r := by
  simp [isAlpha, Letter]

theorem encodingText_sound (s : Text) (h : encodingText s ≠ []) : encodingText s <+: s ∧ Encoding (encodingText s) := by
  unfold encodingText at h ⊢
  split at h
  · exact absurd rfl h
  · split at h
    · rename_i c cs hc
      simp only [hc, if_true]
      refine ⟨List.cons_prefix_cons.2 ⟨rfl, List.takeWhile_prefix _⟩, c, _, rfl, (letter_iff c).1 hc, ?_⟩
      intro r hr
      have := mem_takeWhile_holds hr
      simp only [Bool.or_eq_true, Bool.and_eq_true, decide_eq_true_eq, beq_iff_eq, letter_iff] at this
      rcases this with (((h | h) | h) | h) | h
      · exact .inl h
      · exact .inr (.inl h)
      · exact .inr (.inr (.inr (.inl h)))
      · exact .inr (.inr (.inl h))
      · exact .inr (.inr (.inr (.inr h)))
    · exact absurd rfl h

theorem standaloneText_sound (s : Text) (h : standaloneText s ≠ []) :
    standaloneText s <+: s ∧ Standalone (standaloneText s) := by
  unfold standaloneText at h ⊢
  split at h
  · rename_i hp
    rw [if_pos hp]
    exact ⟨List.isPrefixOf_iff_prefix.1 hp, .inl rfl⟩
  · rename_i hp
    rw [if_neg hp]
    split at h
    · rename_i hq
      rw [if_pos hq]
      exact ⟨List.isPrefixOf_iff_prefix.1 hq, .inr rfl⟩
    · exact absurd rfl h

theorem optAttr_sound {name : String} {value : Text → Text} {P : Text → Prop}
    (hp : ∀ s, value s ≠ [] → value s <+: s ∧ P (value s)) (s : Text) :
    ∃ p, s = p ++ (optAttr (parseDeclAttr (u name) value s) s).2 ∧
      Opt (DeclAttr .loose name P) p (optAttr (parseDeclAttr (u name) value s) s).1 := by
  cases h : parseDeclAttr (u name) value s with
  | none => exact ⟨[], rfl, .no⟩
  | some r =>
    obtain ⟨v, rest⟩ := r
    obtain ⟨p, e, hd⟩ := parseDeclAttr_sound hp h
    exact ⟨p, e, .yes hd⟩

theorem parseXmlDecl_sound {s rest : Text} {d : Decl} (h : parseXmlDecl s = some (d, rest)) :
    ∃ p, s = p ++ rest ∧ p ≠ [] ∧ DeclText .loose p d := by
  unfold parseXmlDecl at h
  split at h
  · cases h
  rename_i s1 h1
  split at h
  · cases h
  rename_i v s2 h2
  simp only [Option.map_eq_some_iff, Prod.mk.injEq] at h
  obtain ⟨a, h3, rfl, rfl⟩ := h
  obtain ⟨sv, ev, hv⟩ := parseDeclAttr_sound versionText_sound h2
  obtain ⟨se, ee, he⟩ := optAttr_sound (name := "encoding") encodingText_sound s2
  generalize optAttr (parseDeclAttr (u "encoding") encodingText s2) s2 = r1 at *
  obtain ⟨ss, es, hs⟩ := optAttr_sound (name := "standalone") standaloneText_sound r1.2
  generalize optAttr (parseDeclAttr (u "standalone") standaloneText r1.2) r1.2 = r2 at *
  obtain ⟨w, hw, ew⟩ := parseS_split r2.2
  refine ⟨_, ?_, ?_, .some hv he hs hw⟩
  · rw [skip_some.1 h1, ev, ee, es, ew, skip_some.1 h3]
    simp
  · simp [u]

/-- C20 for the declaration: a document is accepted only when what stands for
    its XML declaration is one of the grammar (white space before the names may be missing),
    and the version, encoding and standalone flag read are the ones written there. -/
theorem C20_declaration_partial (ns : Option Text) (s rest : Text) (d : Doc) (h : readXml ns s = .ok d rest) :
    ∃ p t, s = p ++ t ∧ DeclText .loose p d.decl ∧ ((∃ t, s = u "<?xml" ++ t) → p ≠ []) := by
  have hp : ∃ b t, parseProlog (s.length + 2) s = .ok (d.decl, b) t := by
    unfold readXml parseDocument at h
    split at h
    · cases h
    · cases h
    rename_i decl before s1 h1
    split at h
    · cases h
    · cases h
    split at h
    · cases h
    · cases h
    cases h
    exact ⟨_, _, h1⟩
  obtain ⟨b, t, hp⟩ := hp
  have hs : ∃ s1, (if (u "<?xml").isPrefixOf s then parseXmlDecl s else some ({}, s)) = some (d.decl, s1) := by
    unfold parseProlog at hp
    simp only at hp
    split at hp
    · cases hp
    rename_i decl s1 h1
    split at hp
    · cases hp
    · cases hp
    split at hp
    · cases hp
    · cases hp; exact ⟨_, h1⟩
    split at hp
    · cases hp
    · cases hp
    cases hp
    exact ⟨_, h1⟩
  obtain ⟨s1, hs⟩ := hs
  split at hs
  · obtain ⟨p, e, hne, hd⟩ := parseXmlDecl_sound hs
    exact ⟨p, s1, e, hd, fun _ => hne⟩
  · rename_i hn
    simp only [Option.some.injEq, Prod.mk.injEq] at hs
    refine ⟨[], s, rfl, hs.1 ▸ .none, fun ⟨t, ht⟩ => absurd ?_ hn⟩
    rw [ht]
    exact List.isPrefixOf_iff_prefix.2 (List.prefix_append _ _)

example : (match readXml none (u "<?xml version=\"1.1\" encoding='utf-8'?><a/>") with
    | .ok d _ => decide (d.decl = ⟨some (u "1.1"), some (u "utf-8"), none⟩)
    | _ => false) = true := by decide +kernel

/-- A version without digits after the point is an error. -/
example : readXml none (u "<?xml version=\"1.\"?><a/>") = .err := by decide +kernel

end Verif.Xml
