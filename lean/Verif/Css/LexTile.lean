import Verif.Css.Lexer
import Verif.Css.LexSpec
/-!
# What the lexer leaves is the end of what it was given: helper lemmas
-/
namespace Verif.Css
open LexSpec

/-- `r` is what is left of `s` behind at least one character. -/
def Cut (s r : Text) : Prop := ∃ w, w ≠ [] ∧ s = w ++ r

theorem Cut.suffix {s r : Text} (h : Cut s r) : r <:+ s := by
  obtain ⟨w, _, e⟩ := h
  exact ⟨w, e.symm⟩

theorem Cut.cons {c : Nat} {s r : Text} (h : r <:+ s) : Cut (c :: s) r := by
  obtain ⟨w, e⟩ := h
  exact ⟨c :: w, by simp, by rw [← e]; rfl⟩

theorem Cut.then_ {s r t : Text} (h : Cut s r) (k : t <:+ r) : Cut s t := by
  obtain ⟨w, hw, rfl⟩ := h
  obtain ⟨v, rfl⟩ := k
  exact ⟨w ++ v, by simp [hw], by simp⟩

theorem Cut.after {s r t : Text} (h : r <:+ s) (k : Cut r t) : Cut s t := by
  obtain ⟨w, rfl⟩ := h
  obtain ⟨v, hv, rfl⟩ := k
  exact ⟨w ++ v, by simp [hv], by simp⟩

theorem Cut.length {s r : Text} (h : Cut s r) : r.length < s.length := by
  obtain ⟨w, hw, rfl⟩ := h
  have := List.length_pos_iff.2 hw
  simp; omega

theorem span_append (w r : Text) : span (w ++ r) r = w := by
  simp [span]

theorem suffix_of_dropWhile (p : Nat → Bool) (r : Text) : r.dropWhile p <:+ r := List.dropWhile_suffix p

theorem eatHex_suffix : ∀ (n : Nat) (r : Text), eatHex n r <:+ r
  | 0, r => by cases r <;> exact List.suffix_rfl
  | n + 1, [] => List.suffix_rfl
  | n + 1, c :: r => by
    unfold eatHex
    split
    · exact (eatHex_suffix n r).trans (List.suffix_cons c r)
    · exact List.suffix_rfl

theorem mEscape_cut {s r : Text} (h : mEscape s = some r) : Cut s r := by
  unfold mEscape at h
  split at h
  · rename_i c r0
    split at h
    · cases h
    · split at h
      · have e := eatHex_suffix 5 r0
        split at h
        · rename_i w r' hw
          rw [hw] at e
          split at h
          · cases h
            exact Cut.cons (((List.suffix_cons w _).trans e).trans (List.suffix_cons c r0))
          · cases h
            exact Cut.cons (e.trans (List.suffix_cons c r0))
        · cases h
          exact Cut.cons (List.nil_suffix)
      · cases h
        exact Cut.cons ((suffix_of_dropWhile _ _).trans (List.suffix_cons c r0))
  · cases h

theorem eatName_suffix : ∀ (n : Nat) (r : Text), eatName n r <:+ r
  | 0, r => by cases r <;> exact List.suffix_rfl
  | n + 1, [] => List.suffix_rfl
  | n + 1, c :: r => by
    unfold eatName
    split
    · rename_i r' h
      exact (eatName_suffix n r').trans (mEscape_cut h).suffix
    · split
      · exact (eatName_suffix n r).trans (List.suffix_cons c r)
      · exact List.suffix_rfl

theorem mIdentStart_cut {s r : Text} (h : mIdentStart s = some r) : Cut s r := by
  unfold mIdentStart at h
  split at h
  · cases h; exact Cut.cons (List.suffix_cons _ _)
  · split at h
    · rename_i r' k
      cases h
      exact Cut.cons (mEscape_cut k).suffix
    · split at h
      · cases h; exact Cut.cons (List.suffix_cons _ _)
      · cases h
  · split at h
    · rename_i r' k
      cases h
      exact mEscape_cut k
    · split at h
      · cases h; exact Cut.cons List.suffix_rfl
      · cases h
  · cases h

theorem mIdent_cut {s r : Text} (h : mIdent s = some r) : Cut s r := by
  obtain ⟨t, ht, rfl⟩ := Option.map_eq_some_iff.1 h
  exact (mIdentStart_cut ht).then_ (eatName_suffix _ _)

theorem mHash_cut {s r : Text} (h : mHash s = some r) : Cut s r := by
  unfold mHash at h
  split at h
  · dsimp only at h
    split at h
    · cases h
    · cases h
      exact Cut.cons (eatName_suffix _ _)
  · cases h

theorem mAt_cut {s r : Text} (h : mAt s = some r) : Cut s r := by
  unfold mAt at h
  split at h
  · exact Cut.cons (mIdent_cut h).suffix
  · cases h

theorem mDigits_cut {s r : Text} (h : mDigits s = some r) : Cut s r := by
  unfold mDigits at h
  split at h
  · split at h
    · cases h; exact Cut.cons (suffix_of_dropWhile _ _)
    · cases h
  · cases h

theorem eatSign_suffix (s : Text) : eatSign s <:+ s := by
  unfold eatSign
  split
  · split
    · exact List.suffix_cons _ _
    · exact List.suffix_rfl
  · exact List.suffix_rfl

theorem mFraction_cut {s r : Text} (h : mFraction s = some r) : Cut s r := by
  unfold mFraction at h
  split at h
  · exact Cut.cons (mDigits_cut h).suffix
  · cases h

theorem mExponent_cut {s r : Text} (h : mExponent s = some r) : Cut s r := by
  unfold mExponent at h
  split at h
  · split at h
    · exact Cut.cons ((mDigits_cut h).suffix.trans (eatSign_suffix _))
    · cases h
  · cases h

theorem getD_suffix {m : Matcher} (hm : ∀ {s r}, m s = some r → Cut s r) (s : Text) : (m s).getD s <:+ s := by
  cases h : m s with
  | none => exact List.suffix_rfl
  | some r => exact (hm h).suffix

theorem mNumber_cut {s r : Text} (h : mNumber s = some r) : Cut s r := by
  obtain ⟨t, ht, rfl⟩ := Option.map_eq_some_iff.1 h
  refine Cut.then_ (Cut.after (eatSign_suffix s) ?_) (getD_suffix mExponent_cut t)
  split at ht
  · rename_i r' k
    cases ht
    exact (mDigits_cut k).then_ (getD_suffix mFraction_cut r')
  · exact mFraction_cut ht

theorem eatUrl_suffix : ∀ (n : Nat) (r : Text), eatUrl n r <:+ r
  | 0, r => by cases r <;> exact List.suffix_rfl
  | n + 1, [] => List.suffix_rfl
  | n + 1, c :: r => by
    unfold eatUrl
    split
    · rename_i r' h
      exact (eatUrl_suffix n r').trans (mEscape_cut h).suffix
    · split
      · exact (eatUrl_suffix n r).trans (List.suffix_cons c r)
      · exact List.suffix_rfl

theorem mUrl_cut {s r : Text} (h : mUrl s = some r) : Cut s r := by
  unfold mUrl at h
  dsimp only at h
  split at h
  · rename_i r' k
    have e : r' = r := Option.some.inj h
    subst e
    refine Cut.after (r := 41 :: r') ?_ (Cut.cons List.suffix_rfl)
    rw [← k]
    exact ((suffix_of_dropWhile _ _).trans (eatUrl_suffix _ _)).trans (suffix_of_dropWhile _ _)
  · cases h

theorem mCommentEnd_cut : ∀ {s r : Text}, mCommentEnd s = some r → Cut s r
  | [], _, h => by cases h
  | c :: s, r, h => by
    unfold mCommentEnd at h
    split at h
    · rename_i r' e
      cases h
      injection e with e1 e2
      subst e1 e2
      exact Cut.cons (List.suffix_cons _ _)
    · rename_i e
      injection e with e1 e2
      subst e2
      exact Cut.cons (mCommentEnd_cut h).suffix
    · cases h

theorem mWord_cut {w s r : Text} (hw : w ≠ []) (h : mWord w s = some r) : Cut s r := by
  unfold mWord at h
  split at h
  · rename_i k
    cases h
    rw [List.isPrefixOf_iff_prefix] at k
    obtain ⟨t, rfl⟩ := k
    exact ⟨w, hw, by simp⟩
  · cases h

theorem eatHex_cons_length (n : Nat) (c : Nat) (r : Text) (h : (eatHex n (c :: r)).length ≠ (c :: r).length) :
    eatHex n (c :: r) <:+ r := by
  cases n with
  | zero => exact absurd rfl h
  | succ n =>
    unfold eatHex at h ⊢
    split
    · exact eatHex_suffix n r
    · rename_i k; rw [if_neg k] at h; exact absurd rfl h

theorem escapeCode_suffix (c : Nat) (r : Text) : (escapeCode (c :: r)).2 <:+ r := by
  unfold escapeCode
  dsimp only
  split
  · exact List.suffix_rfl
  · rename_i h
    have e := eatHex_cons_length 5 c r h
    generalize eatHex 5 (c :: r) = t at e
    have : (match t with
      | w :: r' => if isSpace w = true then r' else w :: r'
      | [] => []) <:+ r := by
      split
      · split
        · exact (List.suffix_cons _ _).trans e
        · exact e
      · exact List.nil_suffix
    split
    · exact this
    · split
      · exact this
      · exact this

theorem stringLoop_suffix (q : Nat) : ∀ (n : Nat) (acc s : Text), (stringLoop q n acc s).2 <:+ s
  | 0, acc, s => by cases s <;> exact List.suffix_rfl
  | n + 1, acc, [] => List.suffix_rfl
  | n + 1, acc, c :: r => by
    unfold stringLoop
    split
    · exact List.suffix_cons _ _
    · split
      · exact List.suffix_rfl
      · split
        · split
          · exact List.IsSuffix.trans (stringLoop_suffix q n acc []) List.nil_suffix
          · rename_i d r' 
            split
            · exact ((stringLoop_suffix q n acc r').trans (List.suffix_cons _ _)).trans (List.suffix_cons _ _)
            · exact (((stringLoop_suffix q n _ _).trans (escapeCode_suffix d r')).trans (List.suffix_cons _ _)).trans
                (List.suffix_cons _ _)
        · exact (stringLoop_suffix q n _ r).trans (List.suffix_cons _ _)

theorem stringLoop_type (q : Nat) : ∀ (n : Nat) (acc s : Text),
    (stringLoop q n acc s).1.type = .string ∨ (stringLoop q n acc s).1.type = .badString
  | 0, acc, s => by cases s <;> exact Or.inl rfl
  | n + 1, acc, [] => Or.inl rfl
  | n + 1, acc, c :: r => by
    unfold stringLoop
    split
    · exact Or.inl rfl
    · split
      · exact Or.inr rfl
      · split
        · split
          · exact stringLoop_type q n acc []
          · split
            · exact stringLoop_type q n acc _
            · exact stringLoop_type q n _ _
        · exact stringLoop_type q n _ r

/-- What one token takes. -/
def Piece (s : Text) (x : Tok × Text) : Prop :=
  Cut s x.2 ∧ x.1.type ≠ .eof ∧ (x.1.type ≠ .string → x.1.type ≠ .badString → x.1.data = span s x.2)

theorem Piece.mk' {s r : Text} {t : TT} (h : Cut s r) (ht : t ≠ .eof) : Piece s (⟨t, span s r⟩, r) :=
  ⟨h, ht, fun _ _ => rfl⟩

theorem single_ne_eof {c : Nat} {t : TT} (h : single c = some t) : t ≠ .eof := by
  unfold single at h
  repeat' (split at h)
  all_goals (first | (cases h; decide) | cases h)

theorem span_one (c : Nat) (r : Text) : span (c :: r) r = [c] := span_append [c] r

theorem next_piece (c : Nat) (r : Text) : Piece (c :: r) (next (c :: r)) := by
  have one : ∀ t : TT, t ≠ .eof → Piece (c :: r) (⟨t, [c]⟩, r) := fun t ht => by
    rw [← span_one c r]; exact Piece.mk' (Cut.cons List.suffix_rfl) ht
  unfold next
  split
  · rename_i e; cases e
  rename_i c' r' e
  injection e with e1 e2
  subst e1 e2
  split
  · exact Piece.mk' (Cut.cons (suffix_of_dropWhile _ _)) (by decide)
  split
  · rename_i t h
    exact one t (single_ne_eof h)
  split
  · rename_i h; exact Piece.mk' (mHash_cut h) (by decide)
  split
  · rename_i h; exact Piece.mk' (mWord_cut (by decide) h) (by decide)
  split
  · rename_i h; exact Piece.mk' (mWord_cut (by decide) h) (by decide)
  split
  · rename_i h; exact Piece.mk' ((mWord_cut (by decide) h).then_ (getD_suffix mCommentEnd_cut _)) (by decide)
  split
  · rename_i h
    have := mNumber_cut h
    split
    · rename_i k; exact Piece.mk' (this.then_ (mIdent_cut k).suffix) (by decide)
    · split
      · exact Piece.mk' (this.then_ (List.suffix_cons _ _)) (by decide)
      · exact Piece.mk' this (by decide)
  split
  · rename_i h
    have := mIdent_cut h
    unfold nextIdent
    split
    · rename_i r0
      have k := this.then_ (List.suffix_cons 40 r0)
      split
      · split
        · exact Piece.mk' k (by decide)
        · exact Piece.mk' k (by decide)
        · exact Piece.mk' (k.then_ (getD_suffix mUrl_cut _)) (by decide)
      · exact Piece.mk' k (by decide)
    · exact Piece.mk' this (by decide)
  split
  · rename_i h; exact Piece.mk' (mAt_cut h) (by decide)
  split
  · have := stringLoop_type c r.length [] r
    refine ⟨Cut.cons (stringLoop_suffix _ _ _ _), ?_, ?_⟩
    · rcases this with h | h <;> rw [h] <;> decide
    · intro a b
      rcases this with h | h
      · exact absurd h a
      · exact absurd h b
  · exact one .delim (by decide)

theorem lexAll_tiles : ∀ (n : Nat) (s : Text), s.length < n → ∃ ts, lexAll n s = some ts ∧ Tiles ts s
  | 0, _, h => by omega
  | _ + 1, [], _ => ⟨[], rfl, .nil⟩
  | n + 1, c :: r, h => by
    obtain ⟨hc, he, hd⟩ := next_piece c r
    have hl := hc.length
    obtain ⟨ts, h1, h2⟩ := lexAll_tiles n (next (c :: r)).2 (by omega)
    refine ⟨(next (c :: r)).1 :: ts, by rw [lexAll, h1]; rfl, ?_⟩
    obtain ⟨w, hw, e⟩ := hc
    rw [e] at hd ⊢
    rw [← e] at hd ⊢
    have hs : span (c :: r) (next (c :: r)).2 = w := by
      conv => lhs; arg 1; rw [e]
      exact span_append _ _
    have := Tiles.cons (t := (next (c :: r)).1) hw he (fun a b => (hd a b).trans hs) h2
    rw [← e] at this
    exact this

end Verif.Css
