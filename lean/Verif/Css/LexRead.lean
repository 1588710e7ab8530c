import Verif.Css.LexTile
/-!
# Reading what is written: helper lemmas
-/
namespace Verif.Css
open LexSpec

theorem isHex_iff (c : Nat) : isHex c = true ↔ Hex c := by
  unfold isHex isDigit Hex nibble
  split
  · simp; omega
  · split
    · simp; omega
    · split
      · simp; omega
      · simp; omega

theorem isNewline_iff (c : Nat) : isNewline c = true ↔ Newline c := by
  unfold isNewline Newline
  simp; omega

theorem isSpace_iff (c : Nat) : isSpace c = true ↔ White c := by
  unfold isSpace White
  simp [isNewline_iff, or_assoc]

theorem isDigit_iff (c : Nat) : isDigit c = true ↔ Digit c := by
  unfold isDigit Digit
  simp

theorem isStart_iff (c : Nat) : isStart c = true ↔ Start c := by
  unfold isStart isAlpha Start
  simp; omega

theorem isName_iff (c : Nat) : isName c = true ↔ NameChar c := by
  unfold isName isAlpha isDigit NameChar Start Digit
  simp; omega

theorem neg_of {b : Bool} {p : Prop} (h : b = true ↔ p) (k : ¬p) : b = false := by
  cases b with
  | false => rfl
  | true => exact absurd (h.1 rfl) k

theorem LexSpec.Hex.range {c : Nat} (h : Hex c) : (48 ≤ c ∧ c ≤ 57) ∨ (97 ≤ c ∧ c ≤ 102) ∨ (65 ≤ c ∧ c ≤ 70) := by
  rw [← isHex_iff] at h
  unfold isHex isDigit at h
  simp at h; omega

theorem LexSpec.White.not_hex {c : Nat} (h : White c) : ¬Hex c := by
  intro k
  have := k.range
  unfold White Newline at h
  omega

theorem LexSpec.Newline.not_hex {c : Nat} (h : Newline c) : ¬Hex c := White.not_hex (Or.inr (Or.inr h))

theorem eatHex_digits : ∀ (n : Nat) (ds r : Text), (∀ d ∈ ds, Hex d) → ds.length ≤ n →
    (ds.length = n ∨ ¬Begins Hex r) → eatHex n (ds ++ r) = r
  | 0, [], r, _, _, _ => by cases r <;> rfl
  | n + 1, [], [], _, _, _ => rfl
  | n + 1, [], c :: r, _, _, k => by
    have : ¬Hex c := by
      rcases k with k | k
      · simp at k
      · exact k
    show (if isHex c then _ else _) = _
    rw [neg_of (isHex_iff c) this]; rfl
  | n + 1, d :: ds, r, h, hl, k => by
    show (if isHex d then _ else _) = _
    rw [(isHex_iff d).2 (h d (List.mem_cons_self ..)), if_pos rfl]
    exact eatHex_digits n ds r (fun x hx => h x (List.mem_cons_of_mem _ hx)) (by simp at hl; omega)
      (by rcases k with k | k
          · left; simp at k; omega
          · exact Or.inr k)

theorem LexSpec.HexEnd.not_hex {full : Prop} {sp r : Text} (h : HexEnd true full sp r) : full ∨ ¬Begins Hex (sp ++ r) := by
  rcases h with ⟨c, rfl, hc, _⟩ | ⟨h, _⟩ | ⟨rfl, _, h⟩
  · exact Or.inr hc.not_hex
  · cases h
  · exact h

/-- The white space behind an escape is skipped. -/
theorem skip_space {full : Prop} {sp r : Text} (h : HexEnd true full sp r) :
    (match sp ++ r with
      | w :: r' => if isSpace w = true then r' else w :: r'
      | [] => []) = r := by
  rcases h with ⟨c, rfl, hc, _⟩ | ⟨h, _⟩ | ⟨rfl, h, _⟩
  · show (if isSpace c then _ else _) = _
    rw [(isSpace_iff c).2 hc]; rfl
  · cases h
  · cases r with
    | nil => rfl
    | cons c r =>
      show (if isSpace c then _ else _) = _
      rw [neg_of (isSpace_iff c) h]; rfl

theorem mEscape_cons (c : Nat) (r : Text) : mEscape (92 :: c :: r) =
    if isNewline c then none
    else if isHex c then
      match eatHex 5 r with
      | w :: r' => if isSpace w then some r' else some (w :: r')
      | [] => some []
    else some (r.dropWhile fun c => !(isHex c || isNewline c)) := rfl

theorem mEscape_hex {ds sp r : Text} (h0 : ds ≠ []) (h1 : ds.length ≤ 6) (hd : ∀ d ∈ ds, Hex d)
    (he : HexEnd true (ds.length = 6) sp r) : mEscape (92 :: (ds ++ sp ++ r)) = some r := by
  cases ds with
  | nil => exact absurd rfl h0
  | cons d ds =>
    have hx := hd d (List.mem_cons_self ..)
    have h5 : eatHex 5 (ds ++ (sp ++ r)) = sp ++ r :=
      eatHex_digits 5 ds _ (fun x hx => hd x (List.mem_cons_of_mem _ hx)) (by simp at h1; omega)
        (by rcases he.not_hex with k | k
            · left; simp at k; omega
            · exact Or.inr k)
    simp only [List.cons_append, List.append_assoc]
    rw [mEscape_cons]
    rw [if_neg (by rw [isNewline_iff]; exact fun k => k.not_hex hx), if_pos ((isHex_iff d).2 hx), h5]
    have := skip_space he
    revert this
    cases sp ++ r with
    | nil => intro this; dsimp only at this ⊢; rw [← this]
    | cons w t =>
      intro this
      dsimp only at this ⊢
      split
      · rename_i k; rw [if_pos k] at this; rw [this]
      · rename_i k; rw [if_neg k] at this; rw [this]

theorem dropWhile_stop {p : Nat → Bool} {m : Text} {h : Nat} {t : Text} (hm : ∀ x ∈ m, p x = true) (hh : p h = false) :
    (m ++ h :: t).dropWhile p = h :: t := by
  induction m with
  | nil => simp [List.dropWhile, hh]
  | cons x m ih =>
    simp [List.dropWhile, hm x (List.mem_cons_self ..)]
    exact ih fun y hy => hm y (List.mem_cons_of_mem _ hy)

theorem dropWhile_all {p : Nat → Bool} {m : Text} (hm : ∀ x ∈ m, p x = true) (r : Text) :
    (m ++ r).dropWhile p = r.dropWhile p := by
  induction m with
  | nil => rfl
  | cons x m ih =>
    simp [List.dropWhile, hm x (List.mem_cons_self ..)]
    exact ih fun y hy => hm y (List.mem_cons_of_mem _ hy)

theorem LexSpec.NameChar.not_newline {c : Nat} (h : NameChar c) : ¬Newline c := by
  unfold NameChar Start Digit at h
  unfold Newline
  omega

theorem LexSpec.NameChar.not_white {c : Nat} (h : NameChar c) : ¬White c := by
  unfold NameChar Start Digit at h
  unfold White Newline
  omega

theorem mEscape_char {c h : Nat} {m t : Text} (h1 : ¬Newline c) (h2 : ¬Hex c) (hm : ∀ x ∈ m, NameChar x ∧ ¬Hex x)
    (hh : Hex h) : mEscape (92 :: c :: (m ++ h :: t)) = some (h :: t) := by
  rw [mEscape_cons]
  rw [if_neg (by rw [isNewline_iff]; exact h1), if_neg (by rw [isHex_iff]; exact h2)]
  rw [dropWhile_stop]
  · intro x hx
    rw [neg_of (isHex_iff x) (hm x hx).2, neg_of (isNewline_iff x) (hm x hx).1.not_newline]; rfl
  · rw [(isHex_iff h).2 hh]; rfl

theorem mEscape_none {r : Text} (h : ¬Escape r) : mEscape r = none := by
  unfold mEscape
  split
  · rename_i c r
    rw [if_pos]
    rw [isNewline_iff]
    exact Classical.not_not.1 h
  · rfl

theorem mEscape_other {c : Nat} {r : Text} (h : c ≠ 92) : mEscape (c :: r) = none := by
  apply mEscape_none
  intro k
  unfold Escape at k
  split at k
  · rename_i e; injection e with e _; exact h e
  · exact k

theorem LexSpec.NameChar.ne_backslash {c : Nat} (h : NameChar c) : c ≠ 92 := by
  unfold NameChar Start Digit at h
  omega

theorem LexSpec.Name.ne_escape_plain {c : Nat} {w : Text} : ¬(NameChar 92) := fun h => h.ne_backslash rfl

/-- A name that begins with an escape: the escape is taken and a name is left. -/
theorem name_escape {r w : Text} (h : Name true r (92 :: w)) :
    ∃ w', mEscape (92 :: w ++ r) = some (w' ++ r) ∧ Name true r w' ∧ w'.length ≤ w.length := by
  generalize e : 92 :: w = x at h
  cases h with
  | nil => cases e
  | plain k _ => injection e with e _; exact absurd e.symm k.ne_backslash
  | hex a b c d k =>
    rename_i ds sp w'
    injection e with _ e
    refine ⟨w', ?_, k, by rw [e]; simp; omega⟩
    have := mEscape_hex a b c d
    simpa using this
  | charThen a b c d k =>
    rename_i c' m h' w'
    injection e with _ e
    refine ⟨h' :: w', ?_, k, by rw [e]; simp; omega⟩
    have := mEscape_char (t := w' ++ r) a b c d
    simpa using this
  | char k => cases k

theorem eatName_end {r : Text} (h : NameEnds r) : ∀ n, eatName n r = r := by
  intro n
  cases n with
  | zero => cases r <;> rfl
  | succ n =>
    cases r with
    | nil => rfl
    | cons c r =>
      show (match mEscape (c :: r) with | some r' => _ | none => _) = _
      rw [mEscape_none h.2]
      show (if isName c then _ else _) = _
      rw [neg_of (isName_iff c) h.1]; rfl

theorem eatName_name {r : Text} (hr : NameEnds r) : ∀ (n : Nat) (w : Text), Name true r w → (w ++ r).length ≤ n →
    eatName n (w ++ r) = r
  | n, [], _, _ => eatName_end hr n
  | 0, c :: w, _, hl => by simp at hl
  | n + 1, c :: w, h, hl => by
    by_cases hc : c = 92
    · subst hc
      obtain ⟨w', e, k, l⟩ := name_escape h
      show (match mEscape (92 :: w ++ r) with | some r' => _ | none => _) = _
      rw [e]
      exact eatName_name hr n w' k (by simp at hl ⊢; omega)
    · show (match mEscape (c :: (w ++ r)) with | some r' => _ | none => _) = _
      rw [mEscape_other hc]
      show (if isName c then _ else _) = _
      cases h with
      | plain k kw =>
        rw [(isName_iff c).2 k, if_pos rfl]
        exact eatName_name hr n w kw (by simp at hl ⊢; omega)
      | hex => exact absurd rfl hc
      | charThen => exact absurd rfl hc
      | char => exact absurd rfl hc

theorem mIdent_of {s t r : Text} (h : mIdentStart s = some t) (k : eatName t.length t = r) : mIdent s = some r := by
  unfold mIdent
  rw [h]
  exact congrArg some k

theorem LexSpec.Start.ne {c : Nat} (h : Start c) : c ≠ 45 ∧ c ≠ 92 := by
  unfold Start at h; omega

theorem mIdentStart_start {c : Nat} {s : Text} (h : Start c) : mIdentStart (c :: s) = some s := by
  have hc := h.ne
  unfold mIdentStart
  split
  · rename_i e; injection e with e _; exact absurd e hc.1
  · rename_i e; injection e with e _; exact absurd e hc.1
  · rename_i e; injection e with e1 e2
    subst e1 e2
    rw [mEscape_other hc.2]
    show (if isStart c then _ else _) = _
    rw [(isStart_iff c).2 h]; rfl
  · rename_i e; cases e

theorem mIdentStart_dash {c : Nat} {s : Text} (h : Start c) : mIdentStart (45 :: c :: s) = some s := by
  have hc := h.ne
  unfold mIdentStart
  split
  · rename_i e; injection e with _ e; injection e with e _; exact absurd e hc.1
  · rename_i e; injection e with _ e; injection e with e1 e2
    subst e1 e2
    rw [mEscape_other hc.2]
    show (if isStart c then _ else _) = _
    rw [(isStart_iff c).2 h]; rfl
  · rename_i k e; injection e with e1 e2; subst e1 e2
    exact absurd rfl (k _ _ rfl)
  · rename_i e; cases e

theorem mIdentStart_escape {s t : Text} (h : mEscape (92 :: s) = some t) : mIdentStart (92 :: s) = some t := by
  unfold mIdentStart
  split
  · rename_i e; injection e with e _; cases e
  · rename_i e; injection e with e _; cases e
  · rename_i e; injection e with e1 e2
    subst e1 e2
    rw [h]
  · rename_i e; cases e

theorem mIdentStart_dashEscape {s t : Text} (h : mEscape (92 :: s) = some t) : mIdentStart (45 :: 92 :: s) = some t := by
  unfold mIdentStart
  split
  · rename_i e; injection e with _ e; injection e with e _; cases e
  · rename_i e; injection e with _ e; injection e with e1 e2
    subst e1 e2
    rw [h]
  · rename_i k e; injection e with e1 e2; subst e1 e2
    exact absurd rfl (k _ _ rfl)
  · rename_i e; cases e

theorem mIdent_ident {r w : Text} (h : Ident true r w) (hr : NameEnds r) : mIdent (w ++ r) = some r := by
  cases h with
  | dashes k => exact mIdent_of rfl (eatName_name hr _ _ k (Nat.le_refl _))
  | start a k => exact mIdent_of (mIdentStart_start a) (eatName_name hr _ _ k (Nat.le_refl _))
  | dashStart a k => exact mIdent_of (mIdentStart_dash a) (eatName_name hr _ _ k (Nat.le_refl _))
  | escape k =>
    obtain ⟨w', e, k', _⟩ := name_escape k
    exact mIdent_of (mIdentStart_escape e) (eatName_name hr _ _ k' (Nat.le_refl _))
  | dashEscape k =>
    obtain ⟨w', e, k', _⟩ := name_escape k
    exact mIdent_of (mIdentStart_dashEscape e) (eatName_name hr _ _ k' (Nat.le_refl _))

theorem mIdent_none {s : Text} (h : ¬StartsIdent s) : mIdent s = none := by
  have : mIdentStart s = none := by
    unfold StartsIdent at h
    rw [not_or] at h
    unfold mIdentStart
    split
    · exact absurd (Or.inl rfl) h.2
    · rename_i c r _
      have h2 : ¬(c = 45 ∨ Start c ∨ Escape (c :: r)) := h.2
      rw [not_or, not_or] at h2
      rw [mEscape_none h2.2.2]
      show (if isStart c then _ else _) = _
      rw [neg_of (isStart_iff c) h2.2.1]; rfl
    · rename_i c r k1 k2
      rw [mEscape_none h.1]
      show (if isStart c then _ else _) = _
      have h2 := h.2
      split at h2
      · rename_i e; injection e with e1 e2; exact (k2 _ _ e1 e2).elim
      · rename_i e; injection e with e1 e2; subst e1
        rw [neg_of (isStart_iff _) h2]; rfl
      · rename_i e; cases e
    · rfl
  unfold mIdent
  rw [this]; rfl

end Verif.Css
