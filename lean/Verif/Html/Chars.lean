import Verif.Html.Spec
/-
Facts about characters and about comparing strings.
-/
namespace Verif.Html
open Spec

theorem toNat_ofNat {n : Nat} (h : n.isValidChar) : (Char.ofNat n).toNat = n := by
  unfold Char.ofNat
  rw [dif_pos h]
  rfl

theorem char_ext {a b : Char} (h : a.toNat = b.toNat) : a = b := Char.toNat_inj.mp h

theorem upper_iff {c : Char} : isUpper c = true ↔ Upper c := by
  simp [isUpper, Upper, decide_eq_true_eq]

theorem upper_iff' {c : Char} : isUpper c = false ↔ ¬ Upper c := by
  rw [← upper_iff]; cases isUpper c <;> simp

theorem lower_iff {c : Char} : isLower c = true ↔ Lower c := by
  simp [isLower, Lower, decide_eq_true_eq]

theorem digit_iff {c : Char} : isDigit c = true ↔ Digit c := by
  simp [isDigit, Digit, decide_eq_true_eq]

theorem space_iff {c : Char} : isSpace c = true ↔ Space c := by
  simp [isSpace, Space, or_assoc]

theorem space_iff' {c : Char} : isSpace c = false ↔ ¬ Space c := by
  rw [← space_iff]; cases isSpace c <;> simp

theorem alpha_iff {c : Char} : isAlpha c = true ↔ Upper c ∨ Lower c := by
  simp [isAlpha, upper_iff, lower_iff]

theorem toLower_upper {c : Char} (h : Upper c) : (toLower c).toNat = c.toNat + 32 := by
  unfold toLower
  rw [if_pos (upper_iff.mpr h)]
  refine toNat_ofNat (Or.inl ?_)
  have := h.2
  have e : 'Z'.toNat = 90 := rfl
  omega

theorem toLower_other {c : Char} (h : ¬ Upper c) : toLower c = c := by
  unfold toLower
  rw [if_neg (by simpa [upper_iff] using h)]

theorem lower_of_upper {c : Char} (h : Upper c) : Lower (toLower c) := by
  have e := toLower_upper h
  obtain ⟨h1, h2⟩ := h
  have a1 : 'A'.toNat = 65 := rfl
  have a2 : 'Z'.toNat = 90 := rfl
  have a3 : 'a'.toNat = 97 := rfl
  have a4 : 'z'.toNat = 122 := rfl
  constructor <;> omega

theorem nameChar_of_lower {c : Char} (h : Lower c) : NameChar c := by
  obtain ⟨h1, h2⟩ := h
  have a3 : 'a'.toNat = 97 := rfl
  have a4 : 'z'.toNat = 122 := rfl
  refine ⟨?_, ?_, ?_, ?_, ?_⟩
  · rintro ⟨g1, g2⟩
    have a2 : 'Z'.toNat = 90 := rfl
    omega
  · rintro (rfl | rfl | rfl | rfl) <;> exact absurd h1 (by decide)
  · rintro rfl; exact absurd h1 (by decide)
  · rintro rfl; exact absurd h1 (by decide)
  · rintro rfl; exact absurd h1 (by decide)

theorem nameChar_replacement : NameChar replacement := by
  refine ⟨?_, ?_, ?_, ?_, ?_⟩
  · intro h; exact absurd h.2 (by decide)
  · intro h; revert h; unfold Space; decide
  all_goals decide

theorem lower_of_alpha {c : Char} (h : isAlpha c = true) (hu : ¬ Upper c) : Lower c := by
  rcases alpha_iff.mp h with h | h
  · exact absurd h hu
  · exact h

theorem tagName_snoc {b : Str} {c : Char} (h : TagName b) (hc : NameChar c) :
    TagName (b ++ [c]) := by
  obtain ⟨⟨d, r, e, hd⟩, hall⟩ := h
  refine ⟨⟨d, r ++ [c], by rw [e]; rfl, hd⟩, ?_⟩
  intro x hx
  rcases List.mem_append.mp hx with h | h
  · exact hall x h
  · rw [List.mem_singleton.mp h]; exact hc

theorem tagName_one {c : Char} (h : Lower c) : TagName [c] :=
  ⟨⟨c, [], rfl, h⟩, by intro x hx; rw [List.mem_singleton.mp hx]; exact nameChar_of_lower h⟩

theorem tagName_ne {b : Str} (h : TagName b) : b ≠ [] := by
  obtain ⟨⟨d, r, e, _⟩, _⟩ := h
  rw [e]; simp

theorem attrName_snoc {b : Str} {c : Char} (h : AttrName b) (hc : NameChar c) (he : c ≠ '=') :
    AttrName (b ++ [c]) := by
  obtain ⟨hne, hall, ht⟩ := h
  refine ⟨by simp, ?_, ?_⟩
  · intro x hx
    rcases List.mem_append.mp hx with h | h
    · exact hall x h
    · rw [List.mem_singleton.mp h]; exact hc
  · cases b with
    | nil => exact absurd rfl hne
    | cons d r =>
      intro x hx
      have hx' : x ∈ r ++ [c] := hx
      rcases List.mem_append.mp hx' with h | h
      · exact ht x h
      · rw [List.mem_singleton.mp h]; exact he

theorem attrName_one {c : Char} (h : NameChar c) : AttrName [c] :=
  ⟨by simp, by intro x hx; rw [List.mem_singleton.mp hx]; exact h, by intro x hx; cases hx⟩

/-! ### Comparing -/

theorem startWith_yes_iff {eq : Char → Char → Bool} : ∀ {a b : Str},
    startWith eq a b = .yes ↔ a.length = b.length ∧ ∀ p ∈ a.zip b, eq p.1 p.2 = true
  | [], [] => by simp [startWith]
  | _ :: _, [] => by simp [startWith]
  | [], _ :: _ => by simp [startWith]
  | x :: a, y :: b => by
    unfold startWith
    by_cases h : eq x y = true
    · rw [if_pos h, startWith_yes_iff (a := a) (b := b)]
      simp [h]
    · rw [if_neg h]
      simp [h]

theorem startWith_exact_yes : ∀ {a b : Str}, startWith exact a b = .yes ↔ a = b
  | [], [] => by simp [startWith]
  | _ :: _, [] => by simp [startWith]
  | [], _ :: _ => by simp [startWith]
  | x :: a, y :: b => by
    unfold startWith
    by_cases h : x = y
    · subst h; simp [exact, startWith_exact_yes (a := a) (b := b)]
    · simp [exact, h]

/-- `part`: the second is a proper beginning of the first. -/
theorem startWith_exact_part : ∀ {a b : Str},
    startWith exact a b = .part ↔ ∃ c r, a = b ++ c :: r
  | [], [] => by simp [startWith]
  | x :: a, [] => by simp [startWith]
  | [], _ :: _ => by simp [startWith]
  | x :: a, y :: b => by
    unfold startWith
    by_cases h : x = y
    · subst h; simp [exact, startWith_exact_part (a := a) (b := b)]
    · simp [exact, h]

/-- Names in lower case are the same without regard to case only if they are the same. -/
theorem startWith_ci_lower : ∀ {a b : Str}, (∀ c ∈ a, ¬ Upper c) → (∀ c ∈ b, ¬ Upper c) →
    (startWith eqCi a b = .yes ↔ a = b)
  | [], [], _, _ => by simp [startWith]
  | _ :: _, [], _, _ => by simp [startWith]
  | [], _ :: _, _, _ => by simp [startWith]
  | x :: a, y :: b, ha, hb => by
    have hx : toLower x = x := toLower_other (ha x (by simp))
    have hy : toLower y = y := toLower_other (hb y (by simp))
    have ih := startWith_ci_lower (a := a) (b := b) (fun c hc => ha c (by simp [hc]))
      (fun c hc => hb c (by simp [hc]))
    unfold startWith
    by_cases h : x = y
    · subst h; simp [eqCi, ih]
    · simp [eqCi, hx, hy, h]

end Verif.Html
