import Verif.Xml.DocLemmas

/-! # Documents: what is accepted, and that reading ends -/
namespace Verif.Xml
open Spec

/-! ## Every step leaves an end of its text -/

theorem skip_suffix {p s r : Text} (h : skip p s = some r) : r <:+ s := ⟨p, (skip_some.1 h).symm⟩

theorem parseS_suffix (s : Text) : parseS s <:+ s := by
  obtain ⟨w, _, h⟩ := parseS_split s
  exact ⟨w, h.symm⟩

theorem parseAttValue_suffix {fuel : Nat} {s v rest : Text} (h : parseAttValue fuel s = .ok v rest) : rest <:+ s := by
  obtain ⟨q, src, -, rfl, -⟩ := parseAttValue_ok h
  exact ⟨[q] ++ src ++ [q], by simp⟩

theorem parseName_suffix {s n rest : Text} (h : parseName s = some (n, rest)) : rest <:+ s :=
  ⟨n, (parseName_some h).1.symm⟩

theorem miscLoop_suffix {fuel : Nat} {s rest : Text} {acc ns : List Node} (h : miscLoop fuel s acc = .ok ns rest) :
    rest <:+ s := by
  obtain ⟨src, ms, h1, -, -⟩ := miscLoop_ok h
  exact ⟨src, h1.symm⟩

theorem parseDeclAttr_suffix {name : Text} {value : Text → Text} {s v rest : Text}
    (h : parseDeclAttr name value s = some (v, rest)) : rest <:+ s := by
  unfold parseDeclAttr at h
  split at h
  · cases h
  rename_i s1 h1
  split at h
  · cases h
  rename_i s2 h2
  split at h
  · cases h
  rename_i q s3 h3
  have e1 := (skip_suffix h1).trans (parseS_suffix s)
  have e2 := ((skip_suffix h2).trans (parseS_suffix s1)).trans e1
  have e3 : q :: s3 <:+ s := h3 ▸ (parseS_suffix s2).trans e2
  have e4 : s3 <:+ s := (List.suffix_cons q s3).trans e3
  split at h
  · cases h
  simp only at h
  split at h
  · cases h
  split at h
  · cases h
  rename_i q' s4 h4
  split at h
  · cases h
    have e5 : q' :: rest <:+ s3 := h4 ▸ List.drop_suffix _ _
    exact ((List.suffix_cons _ _).trans e5).trans e4
  · cases h

theorem optAttr_suffix {r : Option (Text × Text)} {s : Text} (h : ∀ v rest, r = some (v, rest) → rest <:+ s) :
    (optAttr r s).2 <:+ s := by
  unfold optAttr
  split
  · exact h _ _ rfl
  · exact List.suffix_refl _

theorem parseXmlDecl_suffix {s rest : Text} {d : Decl} (h : parseXmlDecl s = some (d, rest)) : rest <:+ s := by
  unfold parseXmlDecl at h
  split at h
  · cases h
  rename_i s1 h1
  split at h
  · cases h
  rename_i v s2 h2
  have e2 := (parseDeclAttr_suffix h2).trans (skip_suffix h1)
  simp only [Option.map_eq_some_iff, Prod.mk.injEq] at h
  obtain ⟨a, h3, -, rfl⟩ := h
  have e5 := (skip_suffix h3).trans (parseS_suffix _)
  have e4 := optAttr_suffix (r := parseDeclAttr (u "encoding") encodingText s2) (s := s2) (fun v rest h => parseDeclAttr_suffix h)
  have e6 := optAttr_suffix (s := (optAttr (parseDeclAttr (u "encoding") encodingText s2) s2).2)
    (r := parseDeclAttr (u "standalone") standaloneText (optAttr (parseDeclAttr (u "encoding") encodingText s2) s2).2)
    (fun v rest h => parseDeclAttr_suffix h)
  exact ((e5.trans e6).trans e4).trans e2

theorem parseExternalId_suffix {fuel : Nat} {s rest p v p' : Text} (h : parseExternalId fuel s = (.ok (p, v) rest, p')) :
    rest <:+ s := by
  unfold parseExternalId at h
  split at h
  · rename_i s1 h1
    split at h
    · rename_i h2
      cases h
      exact ((parseAttValue_suffix h2).trans (parseS_suffix _)).trans (skip_suffix h1)
    · cases h
    · cases h
  · split at h
    · cases h
    rename_i s1 h1
    split at h
    · cases h
    · cases h
    rename_i p1 s2 h2
    split at h
    · rename_i h3
      cases h
      exact ((parseAttValue_suffix h3).trans (parseS_suffix _)).trans
        (((parseAttValue_suffix h2).trans (parseS_suffix _)).trans (skip_suffix h1))
    · cases h
    · cases h

theorem parseExternalId_fuel {fuel : Nat} {s : Text} (h : s.length ≤ fuel) : (parseExternalId fuel s).1 ≠ .out := by
  unfold parseExternalId
  split
  · rename_i s1 h1
    have l1 := (skip_suffix h1).length_le
    have l2 := (parseS_suffix s1).length_le
    have := parseAttValue_fuel (fuel := fuel) (s := parseS s1) (by omega)
    split <;> simp_all
  · split
    · simp
    rename_i s1 h1
    have l1 := (skip_suffix h1).length_le
    have l2 := (parseS_suffix s1).length_le
    have := parseAttValue_fuel (fuel := fuel) (s := parseS s1) (by omega)
    split
    · simp
    · simp_all
    rename_i p1 s2 h2
    have l3 := (parseAttValue_suffix h2).length_le
    have l4 := (parseS_suffix s2).length_le
    have := parseAttValue_fuel (fuel := fuel) (s := parseS s2) (by omega)
    split <;> simp_all

theorem parseDoctype_suffix {fuel : Nat} {s rest : Text} {n : Node} (h : parseDoctype fuel s = .ok n rest) :
    rest <:+ s := by
  unfold parseDoctype at h
  split at h
  · cases h
  rename_i s1 h1
  split at h
  · cases h
  rename_i name s2 h2
  have e2 : s2 <:+ s :=
    ((parseName_suffix h2).trans (parseS_suffix _)).trans (skip_suffix h1)
  simp only at h
  split at h
  · cases h
  · rename_i p v s3 p' h3
    split at h
    · cases h
    · rename_i h4
      cases h
      exact ((skip_suffix h4).trans (parseS_suffix _)).trans
        ((parseExternalId_suffix h3).trans ((parseS_suffix _).trans e2))
  · split at h
    · cases h
    · rename_i h4
      cases h
      exact ((skip_suffix h4).trans (parseS_suffix _)).trans ((parseS_suffix _).trans e2)

theorem parseDoctype_fuel {fuel : Nat} {s : Text} (h : s.length ≤ fuel) : parseDoctype fuel s ≠ .out := by
  unfold parseDoctype
  split
  · simp
  rename_i s1 h1
  split
  · simp
  rename_i name s2 h2
  have e2 : s2 <:+ s :=
    ((parseName_suffix h2).trans (parseS_suffix _)).trans (skip_suffix h1)
  have l := ((parseS_suffix s2).trans e2).length_le
  have hf := parseExternalId_fuel (fuel := fuel) (s := parseS s2) (by omega)
  simp only
  split
  · rename_i h3
    rw [h3] at hf
    exact absurd rfl hf
  · split <;> simp
  · split <;> simp

theorem parseProlog_suffix {fuel : Nat} {s rest : Text} {d : Decl} {ns : List Node}
    (h : parseProlog fuel s = .ok (d, ns) rest) : rest <:+ s := by
  unfold parseProlog at h
  simp only at h
  split at h
  · cases h
  rename_i decl s1 h1
  have e1 : s1 <:+ s := by
    split at h1
    · exact parseXmlDecl_suffix h1
    · cases h1; exact List.suffix_refl _
  split at h
  · cases h
  · cases h
  rename_i before s2 h2
  have e2 := (miscLoop_suffix h2).trans e1
  split at h
  · cases h
  · cases h; exact e2
  rename_i dt s3 h3
  have e3 := (parseDoctype_suffix h3).trans e2
  split at h
  · cases h
  · cases h
  rename_i more s4 h4
  cases h
  exact (miscLoop_suffix h4).trans e3

theorem parseProlog_fuel {fuel : Nat} {s : Text} (h : s.length < fuel) : parseProlog fuel s ≠ .out := by
  unfold parseProlog
  simp only
  split
  · simp
  rename_i decl s1 h1
  have e1 : s1 <:+ s := by
    split at h1
    · exact parseXmlDecl_suffix h1
    · cases h1; exact List.suffix_refl _
  have l1 := e1.length_le
  have f1 := miscLoop_fuel (fuel := fuel) (s := s1) (acc := []) (by omega)
  split
  · simp_all
  · simp
  rename_i before s2 h2
  have l2 := (miscLoop_suffix h2).length_le
  have f2 := parseDoctype_fuel (fuel := fuel) (s := s2) (by omega)
  split
  · simp_all
  · simp
  rename_i dt s3 h3
  have l3 := (parseDoctype_suffix h3).length_le
  have f3 := miscLoop_fuel (fuel := fuel) (s := s3) (acc := []) (by omega)
  split
  · simp_all
  · simp
  · simp

theorem parseDocument_fuel {fuel : Nat} {ns : Option Text} {s : Text} (h : s.length < fuel) :
    parseDocument fuel ns s ≠ .out := by
  unfold parseDocument
  have f0 := parseProlog_fuel h
  split
  · simp_all
  · simp
  rename_i decl before s1 h1
  have l1 := (parseProlog_suffix h1).length_le
  have f1 := (element_fuel fuel).1 (Agree.make ns) (s := s1) (by omega)
  split
  · simp_all
  · simp
  rename_i root s2 h2
  have l2 := parseElement_length (Agree.make ns) h2
  have f2 := miscLoop_fuel (fuel := fuel) (s := s2) (acc := []) (by omega)
  split
  · simp_all
  · simp
  · simp

/-- What an accepted document looks like. -/
theorem document_sound {fuel : Nat} {ns : Option Text} {s rest : Text} {d : Doc}
    (h : parseDocument fuel ns s = .ok d rest) :
    ∃ pre es b root a, d.kids = b ++ [root] ++ a ∧
      ((∃ post, s = pre ++ es ++ post ++ rest ∧ MiscText .loose post a ∧ ElementText .loose ⟨ns, []⟩ es root) ∨
       (s = pre ++ es ∧ rest = [] ∧ a = [] ∧ Cut ⟨ns, []⟩ es root)) := by
  unfold parseDocument at h
  split at h
  · cases h
  · cases h
  rename_i decl before s1 h1
  obtain ⟨pre, hpre⟩ := parseProlog_suffix h1
  split at h
  · cases h
  · cases h
  rename_i root s2 h2
  split at h
  · cases h
  · cases h
  rename_i after s3 h3
  cases h
  obtain ⟨post, ms, hs2, hms, hpost⟩ := miscLoop_ok h3
  rw [List.nil_append] at hms
  subst hms
  rcases (element_sound fuel).1 (Agree.make ns) h2 with ⟨src, hsrc, hel⟩ | ⟨hnil, hcut⟩
  · exact ⟨pre, src, before, root, after, rfl, .inl ⟨post, by rw [← hpre, hsrc, hs2]; simp, hpost, hel⟩⟩
  · rw [hnil] at hs2
    obtain ⟨rfl, rfl⟩ := List.append_eq_nil_iff.1 hs2.symm
    refine ⟨pre, s1, before, root, after, rfl, .inr ⟨hpre.symm, rfl, ?_, hcut⟩⟩
    generalize hp : ([] : Text) = p at hpost
    cases hpost with
    | nil => rfl
    | space => cases hp
    | comment hc => obtain ⟨t, rfl⟩ := hc.head; cases hp
    | pi hc => obtain ⟨t, rfl⟩ := hc.head; cases hp

end Verif.Xml
