import Verif.Xml.ElementLemmas

/-! # The parser never needs more steps than the text has runes: helper lemmas -/
namespace Verif.Xml
open Spec

theorem textLoop_fuel {fuel : Nat} : ∀ {s sb : Text}, s.length < fuel → textLoop fuel s sb ≠ .out := by
  induction fuel with
  | zero => intro s sb h; omega
  | succ fuel ih =>
    intro s sb h
    rw [textLoop]
    split
    · rename_i t s1 h1
      obtain ⟨src, h2, h3, -⟩ := textItem_some h1
      have : src.length ≠ 0 := fun e => h3 (List.length_eq_zero_iff.1 e)
      rw [h2, List.length_append] at h
      exact ih (by omega)
    · intro h; cases h

theorem attValueLoop_fuel {q : Rune} {fuel : Nat} : ∀ {s sb : Text}, s.length < fuel →
    attValueLoop q fuel s sb ≠ .out := by
  induction fuel with
  | zero => intro s sb h; omega
  | succ fuel ih =>
    intro s sb h
    unfold attValueLoop
    split
    · intro h; cases h
    · rename_i c cs
      split
      · intro h; cases h
      · split
        · rename_i r s1 h1
          obtain ⟨src, h2, h3⟩ := parseReference_some h1
          obtain ⟨m, hm⟩ := h3.head
          rw [h2, hm, List.length_append, List.length_cons] at h
          exact ih (by omega)
        · rw [List.length_cons] at h
          exact ih (by omega)

theorem parseAttValue_fuel {fuel : Nat} {s : Text} (h : s.length ≤ fuel) : parseAttValue fuel s ≠ .out := by
  unfold parseAttValue
  split
  · intro h; cases h
  · rename_i q cs
    split
    · intro h; cases h
    · rw [List.length_cons] at h
      exact attValueLoop_fuel (by omega)

theorem parseNameValue_fuel {fuel : Nat} {s : Text} (h : s.length ≤ fuel) : parseNameValue fuel s ≠ .out := by
  unfold parseNameValue
  split
  · intro h; cases h
  rename_i n s1 h1
  split
  · intro h; cases h
  rename_i s2 h2
  obtain ⟨t, h3, -, -⟩ := parseQName_some h1
  rw [skip_some] at h2
  have hl := parseAttValue_fuel (fuel := fuel) (s := s2) (by
    rw [h3, h2] at h
    simp only [List.length_append] at h
    omega)
  split
  · intro h; cases h
  · intro h; cases h
  · contradiction

theorem parseNameValue_length {fuel : Nat} {s rest : Text} {nv : Name × Text}
    (h : parseNameValue fuel s = .ok nv rest) : (parseS rest).length < s.length := by
  obtain ⟨n, v⟩ := nv
  obtain ⟨name, q, src, -, -, -, rfl⟩ := parseNameValue_ok h
  have := parseS_length rest
  simp only [List.length_append, u_eq, List.length_cons, List.length_nil]
  omega

theorem parseNs_fuel {fuel : Nat} : ∀ {c : Context} {s : Text}, s.length < fuel → parseNs fuel c s ≠ .out := by
  induction fuel with
  | zero => intro c s h; omega
  | succ fuel ih =>
    intro c s h
    rw [parseNs]
    split
    · intro h; cases h
    · split
      · rename_i n v s1 h1
        have := parseNameValue_length h1
        exact ih (by omega)
      · intro h; cases h
      · rename_i h1
        exact absurd h1 (parseNameValue_fuel (by omega))

theorem attrsLoop_fuel {close : Text} {c : Context} {fuel : Nat} : ∀ {acc : Attrs} {s : Text}, s.length < fuel →
    attrsLoop close c fuel acc s ≠ .out := by
  induction fuel with
  | zero => intro acc s h; omega
  | succ fuel ih =>
    intro acc s h
    rw [attrsLoop]
    split
    · intro h; cases h
    · split
      · intro h; cases h
      · split
        · intro h; cases h
        · rename_i h1
          exact absurd h1 (parseNameValue_fuel (by omega))
        · rename_i n v s1 h1
          split
          · intro h; cases h
          · have := parseNameValue_length h1
            exact ih (by omega)

theorem parseTag_fuel {close : Text} {c : Context} {fuel : Nat} {s : Text} (h : s.length ≤ fuel) :
    parseTag close fuel c s ≠ .out := by
  unfold parseTag
  split
  · intro h; cases h
  rename_i s1 h1
  have hl := skip_length h1
  simp only [u_lt, List.length_cons, List.length_nil] at hl
  split
  · intro h; cases h
  rename_i n s2 h2
  obtain ⟨t, h3, -, -⟩ := parseQName_some h2
  have hs : (parseS s2).length < fuel := by
    have := parseS_length s2
    have h4 := congrArg List.length h3
    rw [List.length_append] at h4
    omega
  simp only
  split
  · intro h; cases h
  · rename_i h4
    exact absurd h4 (parseNs_fuel hs)
  · split
    · intro h; cases h
    · split
      · intro h; cases h
      · rename_i h4
        exact absurd h4 (attrsLoop_fuel hs)
      · intro h; cases h

theorem parseTag_length {close : Text} (hc : Close close) {c child : Context} {fuel : Nat} {s rest : Text} {q : QName}
    {bs : Attrs} (h : parseTag close fuel c s = .ok (q, bs, child) rest) :
    rest = [] ∧ s ≠ [] ∨ rest.length + 2 ≤ s.length := by
  obtain ⟨src, tail, as, h1, h2, -, h4, -⟩ := parseTag_ok hc h
  have hl : src.length ≠ 0 := fun e => h4 (List.length_eq_zero_iff.1 e)
  rcases h2 with rfl | ⟨rfl, h2⟩
  · right
    obtain ⟨x, xs, rfl, -⟩ := hc.head
    rw [h1]
    simp only [List.length_append, List.length_cons]
    omega
  · left
    refine ⟨h2, ?_⟩
    rw [h1, List.append_nil]
    exact h4

theorem textLoop_length {fuel : Nat} {s sb t rest : Text} (h : textLoop fuel s sb = .ok t rest) :
    rest.length ≤ s.length := by
  obtain ⟨src, _, rfl, -, -⟩ := textLoop_ok h
  simp

theorem parseElement_length {fuel : Nat} {c : Context} {sc : Scope} {s rest : Text} {n : Node} (ha : Agree c sc)
    (h : parseElement fuel c s = .ok n rest) : rest.length < s.length := by
  rcases (element_sound fuel).1 ha h with ⟨src, h1, h2⟩ | ⟨h1, as, q, bs, h2, -⟩
  · obtain ⟨x, t, rfl, -⟩ := h2.head
    rw [h1]
    simp
    omega
  · obtain ⟨x, t, rfl, -⟩ := h2.head
    rw [h1]
    simp

theorem element_fuel (fuel : Nat) :
    (∀ {c : Context} {sc : Scope} {s : Text}, Agree c sc → s.length < fuel → parseElement fuel c s ≠ .out) ∧
    (∀ {c : Context} {sc : Scope} {s : Text} {acc : List Node}, Agree c sc → s.length + 1 < fuel →
      contentLoop fuel c s acc ≠ .out) := by
  induction fuel with
  | zero => exact ⟨fun _ h => by omega, fun _ h => by omega⟩
  | succ fuel ih =>
    obtain ⟨ihe, ihc⟩ := ih
    -- text and content after an item
    have hafter : ∀ {c : Context} {sc : Scope} {s : Text} {acc : List Node}, Agree c sc → s.length + 1 < fuel →
        afterText fuel c s acc ≠ .out := by
      intro c sc s acc ha h
      unfold afterText
      split
      · rename_i t s1 ht
        have := textLoop_length ht
        exact ihc ha (by omega)
      · intro h; cases h
      · rename_i ht
        exact absurd ht (textLoop_fuel (by omega))
    refine ⟨?_, ?_⟩
    · intro c sc s ha h
      rw [parseElement]
      split
      · rename_i ht
        exact absurd ht (parseTag_fuel (by omega))
      · intro h; cases h
      · split
        · rename_i ht
          exact absurd ht (parseTag_fuel (by omega))
        · intro h; cases h
        · rename_i q bs child s1 ht
          have hlen := parseTag_length (.inl rfl) ht
          obtain ⟨src, tail, as, -, -, rfl, -, -⟩ := parseTag_ok (.inl rfl) ht
          have hs1 : s1.length < fuel := by
            rcases hlen with ⟨rfl, hne⟩ | hlen
            · have : s.length ≠ 0 := fun e => hne (List.length_eq_zero_iff.1 e)
              simp only [List.length_nil]
              omega
            · omega
          split
          · rename_i htl
            exact absurd htl (textLoop_fuel hs1)
          · intro h; cases h
          · rename_i t s2 htl
            have hs2 := textLoop_length htl
            split
            · rename_i hcl
              exfalso
              rcases hlen with ⟨rfl, hne⟩ | hlen
              · -- the text ended inside the start tag: it would have been read as empty
                have hs2' : s2 = [] := by simpa using hs2
                subst hs2'
                have hne' : s.length ≠ 0 := fun e => hne (List.length_eq_zero_iff.1 e)
                by_cases h1 : s.length = 1
                · -- one rune is no tag
                  rename_i herr _
                  obtain ⟨src, tail, as', h2, h3, -, -, h5⟩ := parseTag_ok (.inl rfl) ht
                  obtain ⟨x, t, h6, -⟩ := (h5 sc ha).head
                  rw [h2, h6] at h1
                  simp at h1
                · exact ihc (ha.see as) (by simp only [List.length_nil]; omega) hcl
              · exact ihc (ha.see as) (by omega) hcl
            · intro h; cases h
            · split
              · intro h; cases h
              · intro h; cases h
    · intro c sc s acc ha h
      rw [contentLoop]
      split
      · rename_i he
        exact absurd he (ihe ha (by omega))
      · rename_i n s1 he
        have := parseElement_length ha he
        exact hafter (acc := acc ++ [n]) ha (by omega)
      · split
        · rename_i x s1 hp
          obtain ⟨src, h1, h2⟩ := parsePi_some hp
          obtain ⟨t, rfl⟩ := h2.head
          have hl := congrArg List.length h1
          simp only [List.length_append, List.length_cons] at hl
          exact hafter (s := s1) (acc := acc) ha (by omega)
        · split
          · rename_i d s1 hp
            obtain ⟨src, h1, h2⟩ := parseComment_some hp
            obtain ⟨t, rfl⟩ := h2.head
            have hl := congrArg List.length h1
            simp only [List.length_append, List.length_cons] at hl
            exact hafter (s := s1) (acc := acc ++ [.comment d]) ha (by omega)
          · intro h; cases h

end Verif.Xml
