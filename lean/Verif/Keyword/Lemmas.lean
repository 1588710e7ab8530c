import Verif.Keyword.Spec

/-!
# Declarations: lemmas about reading
-/

namespace Verif.Keyword
open Verif.Values Verif.Short

theorem plain_cons {t : Tok} {l : List Tok} : Plain (t :: l) ↔ t ≠ .ws ∧ Plain l := by
  simp [Plain]

theorem plain_nil : Plain [] := by simp [Plain]

theorem plain_one {t : Tok} (h : t ≠ .ws) : Plain [t] := plain_cons.2 ⟨h, plain_nil⟩

/-- The table of the model has the words of CSS. -/
theorem wide_some {w : List Char} {d : Wide} (h : kwLookup wideKw w = some d) :
    ∃ k, (k, d) ∈ wideWords ∧ Cased w k.toList := by
  obtain ⟨k, hk, hc⟩ := kwLookup_some h
  refine ⟨k, ?_, hc⟩
  simp only [wideKw, wideWords, List.mem_cons, List.not_mem_nil, or_false] at hk ⊢
  rcases hk with hk | hk | hk | hk <;> simp [hk]

theorem wide_lookup : ∀ p ∈ wideWords, kwLookup wideKw p.1.toList = some p.2 := by decide +kernel

theorem skip_notWide {t : Tok} (h : NotWide t) (r : List Tok) : skipAny wideKw (t :: r) = none := by
  by_cases ht : ∃ w, t = .ident w
  · obtain ⟨w, rfl⟩ := ht
    rw [skipAny_ident]
    cases hk : kwLookup wideKw w with
    | none => rfl
    | some d =>
      obtain ⟨k, hm, hc⟩ := wide_some hk
      exact absurd (.mk hc) (h _ hm)
  · exact skipAny_none _ (fun w r' e => ht ⟨w, (List.cons.inj e).1⟩)

/-- A word is not one for all properties if those have no such word. -/
theorem notWide_word {k : String} {t : Tok} (h : Word k t) (hk : kwLookup wideKw k.toList = none) :
    NotWide t := by
  intro p hp hw
  have h1 := skipAny_word (table := wideKw) h []
  have h2 := skipAny_word (table := wideKw) hw []
  rw [h1, hk, wide_lookup p hp] at h2
  cases h2

theorem notWide_other {t : Tok} (h : ∀ w, t ≠ .ident w) : NotWide t := by
  intro p _ hw
  cases hw with
  | mk => exact h _ rfl

/-- Not the function `toggle()`. -/
def NotToggle (t : Tok) : Prop := ∀ name c, t = .func name c → eqCi name "toggle(".toList = false

theorem notToggle_word {k : String} {t : Tok} (h : Word k t) : NotToggle t := by
  cases h with
  | mk => intro n c e; cases e

theorem toggle_not {t : Tok} (h : NotToggle t) (p : List Tok → Out α) (n : Nat) (l : List Tok) :
    parseToggle p n (t :: l) = some none := by
  unfold parseToggle
  split
  · next name c r e =>
    obtain ⟨rfl, rfl⟩ := List.cons.inj e
    rw [h name c rfl]; rfl
  · rfl

theorem read_plain {t : Tok} {l : List Tok} (hl : Plain (t :: l)) (hw : NotWide t)
    (ht : NotToggle t) (p : List Tok → Out α) (n : Nat) :
    readDecl p n (t :: l) = some (readPlain p (t :: l)) := by
  unfold readDecl
  rw [hl.eatWs, skip_notWide hw, toggle_not ht]

theorem readPlain_value {p : List Tok → Out α} {l : List Tok} {v : α} (h : p l = (some v, [])) :
    readPlain p l = .value v := by
  unfold readPlain; rw [h]; rfl

theorem readPlain_none {p : List Tok → Out α} {l r : List Tok} (h : p l = (none, r)) :
    readPlain p l = .unread := by
  unfold readPlain; rw [h]

theorem readPlain_rest {p : List Tok → Out α} {l r : List Tok} {v : α} {t : Tok}
    (h : p l = (some v, t :: r)) (ht : t ≠ .ws) : readPlain p l = .unread := by
  unfold readPlain; rw [h]
  simp only
  unfold eatWs
  split
  · next e => exact absurd (List.cons.inj e).1 ht
  · rfl

/-- A value that was read was read by the parser of the property, all of it. -/
theorem read_value {p : List Tok → Out α} {n : Nat} {l : List Tok} {v : α}
    (h : readDecl p n l = some (.value v)) :
    skipAny wideKw (eatWs l) = none ∧ parseToggle p n (eatWs l) = some none ∧
      ∃ r, p (eatWs l) = (some v, r) ∧ eatWs r = [] := by
  unfold readDecl at h
  split at h
  · cases h
  · next hw =>
    split at h
    · cases h
    · cases h
    · next ht =>
      refine ⟨hw, ht, ?_⟩
      unfold readPlain at h
      split at h
      · next v' r hp =>
        split at h
        · next he =>
          cases h
          exact ⟨r, hp, List.isEmpty_iff.1 he⟩
        · cases h
      · cases h

theorem eatWs_nil_of_suffix {l r : List Tok} (h : Plain l) (hs : r <:+ l) (he : eatWs r = []) :
    r = [] := by
  have : Plain r := fun t ht => h t (hs.subset ht)
  rw [this.eatWs] at he
  exact he

/-! ## toggle() -/

theorem skipComma_length (l : List Tok) : (skipComma l).length ≤ l.length := by
  have hw : ∀ l : List Tok, (eatWs l).length ≤ l.length := by
    intro l
    induction l with
    | nil => exact Nat.le_refl _
    | cons t l ih =>
      unfold eatWs
      split
      · next r e => cases e; simp only [List.length_cons]; omega
      · exact Nat.le_refl _
  unfold skipComma
  split
  · next r h =>
    have h1 := hw l
    have h2 := hw r
    rw [h] at h1
    simp only [List.length_cons] at h1
    omega
  · exact hw l

theorem toggle_ends {p : List Tok → Out α} (hm : Moves p) :
    ∀ (n : Nat) (acc : List α) (l : List Tok), l.length < n →
      ∃ o, toggleLoop p n acc l = some o ∧ ∀ m ≥ n, toggleLoop p m acc l = some o := by
  intro n
  induction n with
  | zero => intro acc l h; exact absurd h (Nat.not_lt_zero _)
  | succ n ih =>
    intro acc l h
    cases l with
    | nil =>
      refine ⟨some acc, rfl, fun m hmn => ?_⟩
      obtain ⟨m, rfl⟩ : ∃ k, m = k + 1 := ⟨m - 1, by omega⟩
      rfl
    | cons t l =>
      cases hp : p (t :: l) with
      | mk o r =>
        cases o with
        | none =>
          refine ⟨none, by simp only [toggleLoop, hp], fun m hmn => ?_⟩
          obtain ⟨m, rfl⟩ : ∃ k, m = k + 1 := ⟨m - 1, by omega⟩
          simp only [toggleLoop, hp]
        | some v =>
          have hlt := hm t l v r hp
          have hs := skipComma_length r
          obtain ⟨o, h1, h2⟩ := ih (acc ++ [v]) (skipComma r) (by
            simp only [List.length_cons] at h hlt; omega)
          refine ⟨o, by simp only [toggleLoop, hp]; exact h1, fun m hmn => ?_⟩
          obtain ⟨m, rfl⟩ : ∃ k, m = k + 1 := ⟨m - 1, by omega⟩
          simp only [toggleLoop, hp]
          exact h2 m (by omega)

theorem moves_oneTok {p : List Tok → Out α} (h : OneTok p) : Moves p := by
  intro t l v r hp
  obtain ⟨t', e, _⟩ := h.one hp
  cases e
  simp

/-! ## Integers -/

theorem readSign_digits {ds : List (Fin 10)} :
    readSign (ds.map digitChar) = (false, ds.map digitChar) := by
  cases ds with
  | nil => rfl
  | cons d ds =>
    have := digitChar_ne d
    rw [List.map_cons, readSign.eq_def]
    split
    · next e => exact absurd (List.cons.inj e).1 this.1
    · next e => exact absurd (List.cons.inj e).1 this.2.1
    · rfl

theorem all_digits (ds : List (Fin 10)) : (ds.map digitChar).all Char.isDigit = true := by
  rw [List.all_map, List.all_eq_true]
  intro d _
  exact digitChar_isDigit d

theorem int_reads {t : Tok} {z : Int} (h : IntTok t z) : Reads parseInteger t z := by
  intro r
  cases h with
  | plain ds h =>
    simp only [parseInteger, wholeInt, readSign_digits, all_digits, digitsVal_eq]
    simp [h]
  | plus ds h =>
    have : readSign ('+' :: ds.map digitChar) = (false, ds.map digitChar) := rfl
    simp only [parseInteger, wholeInt, this, all_digits, digitsVal_eq]
    simp [h]
  | minus ds h =>
    have : readSign ('-' :: ds.map digitChar) = (true, ds.map digitChar) := rfl
    simp only [parseInteger, wholeInt, this, all_digits, digitsVal_eq]
    simp [h]

theorem IntTok.number {t : Tok} {z : Int} (h : IntTok t z) : ∃ s, t = .number s := by
  cases h <;> exact ⟨_, rfl⟩

end Verif.Keyword
