import Verif.Media.Spec

namespace Verif.Media
open Verif.Css Spec

/-! ## Words -/

theorem isIdent_iff {s : Sst} {name : Text} (h : name.map lower = name) : s.isIdent name = true ↔ Word s name := by
  cases s <;> simp [Sst.isIdent, Word]
  rename_i t
  obtain ⟨ty, d⟩ := t
  simp [Tok.same, eqCi, h]
  constructor
  · rintro ⟨rfl, e⟩; exact ⟨d, ⟨rfl, rfl⟩, e⟩
  · rintro ⟨d', ⟨rfl, rfl⟩, e⟩; exact ⟨rfl, e⟩

theorem Spec.Word.unique {s : Sst} {a b : Text} (h : Word s a) (h' : Word s b) : a = b := by
  obtain ⟨d, rfl, rfl⟩ := h
  obtain ⟨d', e, rfl⟩ := h'
  cases e; rfl

theorem Spec.Word.not {s : Sst} {a b : Text} (h : Word s a) (hb : b.map lower = b) (hn : a ≠ b) : s.isIdent b = false := by
  cases e : s.isIdent b with
  | false => rfl
  | true => exact absurd (h.unique ((isIdent_iff hb).1 e)) hn

theorem Spec.Word.is {s : Sst} {a : Text} (h : Word s a) (ha : a.map lower = a) : s.isIdent a = true := (isIdent_iff ha).2 h

theorem Spec.Word.notWs {s : Sst} {a : Text} (h : Word s a) : s.is .ws = false := by
  obtain ⟨d, rfl, -⟩ := h; rfl

theorem eatWs_cons {s : Sst} (h : s.is .ws = false) (c : List Sst) : eatWs (s :: c) = s :: c := by
  unfold eatWs; rw [h]; rfl

theorem eatWs_blank_nil {w : List Sst} (h : Blank w) : eatWs w = [] := by
  have := eatWs_blank h []
  simpa [eatWs] using this

/-! ## Features -/

/-- How the code reads the value of a feature. -/
def shapeOf (f : Field) : Shape :=
  match rangeKind f with
  | some k => .num k
  | none =>
    if f = .grid then .bool
    else if f = .contrast then .keywords [(u "less", 2), (u "more", 1)]
    else .keywords (keywordsOf f)

theorem find_name {f : Field} (h : f ∉ misnamed) :
    features.find? (fun e => e.1 == nameOf f) = some (nameOf f, f, shapeOf f) := by
  revert h
  cases f <;> decide +kernel

theorem explode_exact {f : Field} (h : f ∉ misnamed) : explode (nameOf f) = (.exact, nameOf f) := by
  revert h
  cases f <;> decide +kernel

theorem explode_min (t : Text) : explode (u "min-" ++ t) = (.min, t) := by
  simp [explode, u]

theorem explode_max (t : Text) : explode (u "max-" ++ t) = (.max, t) := by
  simp [explode, u]

theorem range_named {f : Field} (h : rangeKind f ≠ none) : f ∉ misnamed := by
  revert h
  cases f <;> decide

theorem lower_names (f : Field) : (nameOf f).map lower = nameOf f := by cases f <;> decide +kernel

theorem keyword_lower (f : Field) : ∀ k ∈ keywordsOf f, k.1.map lower = k.1 := by cases f <;> decide +kernel

theorem keyword_find (f : Field) : ∀ k ∈ keywordsOf f, (keywordsOf f).find? (fun e => decide (e.1 = k.1)) = some k := by
  cases f <;> decide +kernel

theorem find_congr {α : Type} {p q : α → Bool} {l : List α} (h : ∀ a ∈ l, p a = q a) : l.find? p = l.find? q := by
  induction l with
  | nil => rfl
  | cons a l ih =>
    rw [List.find?_cons, List.find?_cons, h a (List.mem_cons_self ..), ih fun b hb => h b (List.mem_cons_of_mem _ hb)]

theorem word_find {s : Sst} {k : Text} (h : Word s k) {l : List (Text × Int)} (hl : ∀ e ∈ l, e.1.map lower = e.1) :
    l.find? (fun e => s.isIdent e.1) = l.find? (fun e => decide (e.1 = k)) := by
  apply find_congr
  intro e he
  by_cases hk : e.1 = k
  · simp only [hk, decide_true]
    exact h.is (hk ▸ hl e he)
  · simp only [hk, decide_false]
    exact h.not (hl e he) fun e' => hk e'.symm

theorem readKeyword_eq {num : Kind → Sst → Option Int} {f : Field} {x : Sst} {v : Int} (h : Value num f x v)
    (hr : rangeKind f ≠ none → False) (hc : ¬ (f = .contrast ∧ v = 0)) (w : List Sst) :
    readValue num (shapeOf f) (x :: w) = some (v, w) := by
  cases h with
  | num hk => exact (hr (by simp [hk])).elim
  | @keyword _ _ _ k hk hm hw =>
    by_cases hg : f = .grid
    · subst hg; simp [keywordsOf] at hm
    · by_cases hco : f = .contrast
      · subst hco
        have hv : v ≠ 0 := fun e => hc ⟨rfl, e⟩
        have hf := word_find hw (l := [(u "less", (2 : Int)), (u "more", 1)]) (by decide +kernel)
        have : shapeOf .contrast = .keywords [(u "less", 2), (u "more", 1)] := by decide +kernel
        rw [this, readValue, readKeyword, hf]
        simp only [keywordsOf, List.mem_cons, Prod.mk.injEq, List.not_mem_nil, or_false] at hm
        rcases hm with ⟨rfl, rfl⟩ | ⟨rfl, rfl⟩ | ⟨rfl, rfl⟩
        · exact absurd rfl hv
        · rfl
        · rfl
      · have : shapeOf f = .keywords (keywordsOf f) := by simp [shapeOf, hk, hg, hco]
        rw [this, readValue, readKeyword, word_find hw (keyword_lower f), keyword_find f (k, v) hm]
        rfl
  | grid hn hv =>
    have : shapeOf .grid = .bool := by decide
    rw [this]
    rcases hv with rfl | rfl <;> simp [readValue, hn]

/-- What is left of a feature: white space, or a resolution and what stands behind it. -/
def Idle (w : List Sst) : Prop := Blank w ∨ ∃ s r, w = s :: r ∧ s.is .dimension = true

theorem readValue_eq {num : Kind → Sst → Option Int} {f : Field} {x : Sst} {v : Int} (h : Value num f x v)
    (hc : ¬ (f = .contrast ∧ v = 0)) {w : List Sst} (hw : Blank w) :
    ∃ w', readValue num (shapeOf f) (x :: w) = some (v, w') ∧ Idle w' := by
  cases h with
  | @num _ k _ _ hk hd hn =>
    cases k with
    | resolution => exact ⟨x :: w, by simp [shapeOf, hk, readValue, hn, hd rfl], .inr ⟨x, w, rfl, hd rfl⟩⟩
    | length => exact ⟨w, by simp [shapeOf, hk, readValue, hn], .inl hw⟩
    | number => exact ⟨w, by simp [shapeOf, hk, readValue, hn], .inl hw⟩
    | integer => exact ⟨w, by simp [shapeOf, hk, readValue, hn], .inl hw⟩
  | keyword hk hm hw' => exact ⟨w, readKeyword_eq (.keyword hk hm hw') (fun h => absurd h (by simp [hk])) hc w, .inl hw⟩
  | grid hn hv => exact ⟨w, readKeyword_eq (.grid hn hv) (fun h => absurd h (by decide)) hc w, .inl hw⟩

theorem make_bare {f : Field} (h : f ∉ noFalseValue) (m : Media) : (make f (shapeOf f) .bool 0).match m = true ↔ bare f m := by
  have hb : bare f m ↔ m f ≠ 0 := ⟨fun hb => hb.resolve_left h, .inr⟩
  rw [hb]
  unfold make
  split <;> simp [makeRange, makeDiscrete, Feature.match, rangeMatch, discreteMatch]

theorem make_exact (f : Field) (v : Int) (m : Media) : (make f (shapeOf f) .exact v).match m = true ↔ m f = v := by
  unfold make
  split <;> simp [makeRange, makeDiscrete, Feature.match, rangeMatch, discreteMatch]
  omega

theorem make_min {f : Field} (h : rangeKind f ≠ none) (v : Int) (m : Media) :
    (make f (shapeOf f) .min v).match m = true ↔ v ≤ m f := by
  cases hk : rangeKind f with
  | none => exact absurd hk h
  | some k => simp [shapeOf, hk, make, makeRange, Feature.match, rangeMatch]

theorem make_max {f : Field} (h : rangeKind f ≠ none) (v : Int) (m : Media) :
    (make f (shapeOf f) .max v).match m = true ↔ m f ≤ v := by
  cases hk : rangeKind f with
  | none => exact absurd hk h
  | some k => simp [shapeOf, hk, make, makeRange, Feature.match, rangeMatch]

/-- Reading a feature whose name is known. -/
theorem parseFeature_eq {num : Kind → Sst → Option Int} {d name : Text} {p : Prefix} {f : Field}
    (he : explode d = (p, name)) (hf : features.find? (fun e => e.1 == name) = some (name, f, shapeOf f)) {w₁ : List Sst}
    (h₁ : Blank w₁) :
    parseFeature num (.tok ⟨.ident, d⟩ :: w₁) = (make f (shapeOf f) .bool 0, []) ∧
    ∀ {w₂ : List Sst} {dc : Text} {x : Sst} {v : Int} {w₃ w₄ : List Sst}, Blank w₂ → x.is .ws = false →
      readValue num (shapeOf f) (x :: w₃) = some (v, w₄) →
      parseFeature num (.tok ⟨.ident, d⟩ :: (w₁ ++ .tok ⟨.colon, dc⟩ :: (w₂ ++ x :: w₃))) = (make f (shapeOf f) p v, w₄) := by
  constructor
  · unfold parseFeature
    simp only [if_true, he, hf, eatWs_blank_nil h₁]
  · intro w₂ dc x v w₃ w₄ h₂ hx hr
    have e1 : eatWs (w₁ ++ .tok ⟨.colon, dc⟩ :: (w₂ ++ x :: w₃)) = .tok ⟨.colon, dc⟩ :: (w₂ ++ x :: w₃) := by
      rw [eatWs_blank h₁]; exact eatWs_cons rfl _
    have e2 : eatWs (w₂ ++ x :: w₃) = x :: w₃ := by rw [eatWs_blank h₂]; exact eatWs_cons hx _
    have hc : (Sst.tok ⟨.colon, dc⟩).is .colon = true := rfl
    unfold parseFeature
    simp only [if_true, he, hf, e1, hc, e2, hr]

theorem not_type {d : Text} (h : ∀ k ∈ typeKeywords, d.map lower ≠ k.1) (r : List Sst) :
    readKeyword typeKeywords (.tok ⟨.ident, d⟩ :: r) = none := by
  have hw : Word (.tok ⟨.ident, d⟩) (d.map lower) := ⟨d, rfl, rfl⟩
  rw [readKeyword, word_find hw (by decide +kernel), List.find?_eq_none.2]
  · rfl
  · intro k hk; simpa using fun e => h k hk e.symm

/-- The names of features, also with `min-` and `max-`, are not keywords of queries. -/
theorem names_apart (f : Field) (p : Text) (hp : p ∈ [[], u "min-", u "max-"]) :
    (p ++ nameOf f).map lower ≠ u "not" ∧ (p ++ nameOf f).map lower ≠ u "only" ∧
    ∀ k ∈ typeKeywords, (p ++ nameOf f).map lower ≠ k.1 := by
  simp only [List.mem_cons, List.not_mem_nil, or_false] at hp
  rcases hp with rfl | rfl | rfl <;> cases f <;> decide +kernel

/-- The inside of a feature's parentheses. -/
theorem parseFeature_text {num : Kind → Sst → Option Int} {c : List Sst} {P : Media → Prop} (h : FeatureText num true c P) :
    ∃ d r F w, c = .tok ⟨.ident, d⟩ :: r ∧ parseFeature num c = (F, w) ∧ Idle w ∧ (∀ m, F.match m = true ↔ P m) ∧
      d.map lower ≠ u "not" ∧ d.map lower ≠ u "only" ∧ ∀ k ∈ typeKeywords, d.map lower ≠ k.1 := by
  cases h with
  | @bare w₀ s w₁ f h₀ h₁ _ _ hs =>
    obtain ⟨rfl, rfl, hm, hb⟩ := hs rfl
    have := names_apart f [] (by simp)
    exact ⟨nameOf f, w₁, _, [], rfl, (parseFeature_eq (explode_exact hm) (find_name hm) h₁).1, .inl (by simp [Blank]), make_bare hb, this⟩
  | @equal w₀ s w₁ d w₂ x w₃ f v h₀ h₁ h₂ h₃ _ _ hv hx hs =>
    obtain ⟨rfl, rfl, hm, hc⟩ := hs rfl
    have := names_apart f [] (by simp)
    obtain ⟨w₄, hrd, hid⟩ := readValue_eq hv hc h₃
    exact ⟨nameOf f, _, _, w₄, rfl, (parseFeature_eq (explode_exact hm) (find_name hm) h₁).2 h₂ (hx rfl) hrd, hid,
      make_exact f v, this⟩
  | @min w₀ s w₁ d w₂ x w₃ f v h₀ h₁ h₂ h₃ _ hr hv hx hs =>
    obtain ⟨rfl, rfl⟩ := hs rfl
    have := names_apart f (u "min-") (by simp)
    have hc : ¬ (f = .contrast ∧ v = 0) := by rintro ⟨rfl, -⟩; exact hr rfl
    obtain ⟨w₄, hrd, hid⟩ := readValue_eq hv hc h₃
    exact ⟨u "min-" ++ nameOf f, _, _, w₄, rfl,
      (parseFeature_eq (explode_min _) (find_name (range_named hr)) h₁).2 h₂ (hx rfl) hrd, hid, make_min hr v, this⟩
  | @max w₀ s w₁ d w₂ x w₃ f v h₀ h₁ h₂ h₃ _ hr hv hx hs =>
    obtain ⟨rfl, rfl⟩ := hs rfl
    have := names_apart f (u "max-") (by simp)
    have hc : ¬ (f = .contrast ∧ v = 0) := by rintro ⟨rfl, -⟩; exact hr rfl
    obtain ⟨w₄, hrd, hid⟩ := readValue_eq hv hc h₃
    exact ⟨u "max-" ++ nameOf f, _, _, w₄, rfl,
      (parseFeature_eq (explode_max _) (find_name (range_named hr)) h₁).2 h₂ (hx rfl) hrd, hid, make_max hr v, this⟩
  | atLeast h => cases h

end Verif.Media
