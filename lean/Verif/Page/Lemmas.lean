import Verif.Page.Spec

namespace Verif.Page
open Verif.Css Spec

theorem is_colon {s : Sst} (h : s.is .colon = true) : ∃ d, s = .tok ⟨.colon, d⟩ := by
  cases s <;> simp [Sst.is] at h
  rename_i t; obtain ⟨ty, d⟩ := t; simp at h; subst h; exact ⟨d, rfl⟩

theorem parsePseudo_name (d : Text) {w : List Sst} (hw : Blank w) (p : Pseudo) (c : List Sst) :
    parsePseudo (.tok ⟨.colon, d⟩ :: (w ++ .tok ⟨.ident, pseudoName p⟩ :: c)) = .ok (some (p, c)) := by
  have h0 : eatWs (.tok ⟨.ident, pseudoName p⟩ :: c) = .tok ⟨.ident, pseudoName p⟩ :: c := by
    unfold eatWs; simp [Sst.is]
  have h : eatWs (w ++ .tok ⟨.ident, pseudoName p⟩ :: c) = .tok ⟨.ident, pseudoName p⟩ :: c := by
    rw [eatWs_blank hw, h0]
  unfold parsePseudo
  dsimp only
  rw [if_pos (by rfl), h]
  cases p <;> simp [pseudoName, u]

theorem parsePseudo_dead (d : Text) {w : List Sst} (hw : Blank w) : parsePseudo (.tok ⟨.colon, d⟩ :: w) = .crash := by
  have h : eatWs w = [] := by
    have := eatWs_blank hw []
    simpa [eatWs] using this
  unfold parsePseudo
  dsimp only
  rw [if_pos (by rfl), h]

/-- The only ways `parsePseudo` succeeds. -/
theorem parsePseudo_some {c r : List Sst} {p : Pseudo} (h : parsePseudo c = .ok (some (p, r))) :
    ∃ d w, Blank w ∧ c = .tok ⟨.colon, d⟩ :: (w ++ .tok ⟨.ident, pseudoName p⟩ :: r) := by
  unfold parsePseudo at h
  split at h
  · cases h
  · rename_i s c
    split at h
    · rename_i hs
      obtain ⟨d, rfl⟩ := is_colon hs
      obtain ⟨w, hw, e⟩ := eatWs_split c
      split at h
      · cases h
      · rename_i t rest ht
        obtain ⟨ty, td⟩ := t
        refine ⟨d, w, hw, ?_⟩
        rw [ht] at e
        repeat' split at h
        all_goals first | (cases h; done) | skip
        all_goals
          rename_i h1 _
          simp only [R.ok.injEq, Option.some.injEq, Prod.mk.injEq] at h
          obtain ⟨rfl, rfl⟩ := h
          rw [e]
          simp_all [pseudoName]
      · cases h
    · cases h

theorem parsePseudo_crash {c : List Sst} (h : parsePseudo c = .crash) : ∃ d w, Blank w ∧ c = .tok ⟨.colon, d⟩ :: w := by
  unfold parsePseudo at h
  split at h
  · cases h
  · rename_i s c
    split at h
    · rename_i hs
      obtain ⟨d, rfl⟩ := is_colon hs
      obtain ⟨w, hw, e⟩ := eatWs_split c
      split at h
      · rename_i h0
        rw [h0, List.append_nil] at e
        exact ⟨d, w, hw, by rw [e]⟩
      · repeat' split at h
        all_goals cases h
      · cases h
    · cases h

theorem parsePseudo_out {c : List Sst} : parsePseudo c ≠ .out := by
  unfold parsePseudo
  repeat' split
  all_goals simp


/-- A tail the reader stops before: the end, a stuck item, or a colon at the end. -/
def Tail (t : List Sst) : Prop := t = [] ∨ (∃ s c, t = s :: c ∧ Stuck s c) ∨ ∃ d w, Blank w ∧ t = .tok ⟨.colon, d⟩ :: w

theorem Tail.eatWs {t : List Sst} (h : Tail t) : eatWs t = t := by
  rcases h with rfl | ⟨s, c, rfl, h⟩ | ⟨d, w, _, rfl⟩
  · rfl
  · unfold Css.eatWs; rw [h.1]; rfl
  · unfold Css.eatWs; rfl

theorem stuck_pseudo {s : Sst} {c : List Sst} (h : Stuck s c) : parsePseudo (s :: c) = .ok none := by
  cases hp : parsePseudo (s :: c) with
  | out => exact absurd hp parsePseudo_out
  | crash =>
    obtain ⟨d, w, hw, e⟩ := parsePseudo_crash hp
    cases e
    have := eatWs_blank hw []
    exact absurd (by simpa [Css.eatWs] using this) (h.2.2 rfl).1
  | ok o =>
    cases o with
    | none => rfl
    | some pr =>
      obtain ⟨p, r⟩ := pr
      obtain ⟨d, w, hw, e⟩ := parsePseudo_some hp
      cases e
      refine absurd ?_ ((h.2.2 rfl).2 p r)
      rw [eatWs_blank hw]; unfold Css.eatWs; rfl

/-- The pieces after leading white space. -/
theorem pieces_eatWs {pre t : List Sst} (h : Pieces pre) (ht : Tail t) :
    ∃ pre', Pieces pre' ∧ eatWs (pre ++ t) = pre' ++ t ∧ pre'.length ≤ pre.length ∧ (∀ s r, pre' = s :: r → s.is .ws = false) := by
  induction h with
  | nil => exact ⟨[], .nil, ht.eatWs, Nat.le_refl _, by simp⟩
  | ws hs h ih =>
    obtain ⟨pre', h1, h2, h3, h4⟩ := ih
    refine ⟨pre', h1, ?_, Nat.le_succ_of_le h3, h4⟩
    rw [List.cons_append]; unfold Css.eatWs; rw [if_pos hs, h2]
  | ident h ih => exact ⟨_, .ident h, by unfold Css.eatWs; rfl, Nat.le_refl _, by rintro _ _ ⟨⟩; rfl⟩
  | pseudo p hw h ih => exact ⟨_, .pseudo p hw h, by unfold Css.eatWs; rfl, Nat.le_refl _, by rintro _ _ ⟨⟩; rfl⟩

/-- The pseudo-class loop stays on pieces: it ends before the tail unless the tail crashes it. -/
theorem parsePseudos_pieces (n : Nat) : ∀ {pre t : List Sst}, Pieces pre → Tail t →
    parsePseudos n (eatWs (pre ++ t)) = .out ∨
    ((∃ d w, Blank w ∧ t = .tok ⟨.colon, d⟩ :: w) ∧ parsePseudos n (eatWs (pre ++ t)) = .crash) ∨
    ∃ ps pre', parsePseudos n (eatWs (pre ++ t)) = .ok (ps, pre' ++ t) ∧ Pieces pre' ∧ pre'.length ≤ pre.length ∧
      (pre' = [] → parsePseudo t = .ok none) := by
  induction n with
  | zero => intro pre t _ _; exact .inl rfl
  | succ n ih =>
    intro pre t hp ht
    obtain ⟨q, hq, e, hl, hh⟩ := pieces_eatWs hp ht
    rw [e]
    unfold parsePseudos
    cases hq with
    | nil =>
      rcases ht with rfl | ⟨s, c, rfl, h⟩ | ⟨d, w, hw, rfl⟩
      · exact .inr (.inr ⟨[], [], rfl, .nil, Nat.zero_le _, fun _ => rfl⟩)
      · rw [List.nil_append, stuck_pseudo h]
        exact .inr (.inr ⟨[], [], rfl, .nil, Nat.zero_le _, fun _ => rfl⟩)
      · rw [List.nil_append, parsePseudo_dead d hw]
        exact .inr (.inl ⟨⟨d, w, hw, rfl⟩, rfl⟩)
    | ws hs _ => rw [hh _ _ rfl] at hs; cases hs
    | ident h => exact .inr (.inr ⟨[], _, rfl, .ident h, hl, by simp⟩)
    | @pseudo d w c p hw h =>
      have e2 : parsePseudo (.tok ⟨.colon, d⟩ :: (w ++ .tok ⟨.ident, pseudoName p⟩ :: c) ++ t) = .ok (some (p, c ++ t)) := by
        rw [List.cons_append, List.append_assoc, List.cons_append]
        exact parsePseudo_name d hw p _
      rw [e2]
      have hlen : c.length ≤ pre.length := by
        simp only [List.length_cons, List.length_append] at hl; omega
      rcases ih h ht with h1 | ⟨h0, h1⟩ | ⟨ps, pre', h1, h2, h3, h4⟩
      · left; simp only [h1]
      · right; left; exact ⟨h0, by simp only [h1]⟩
      · right; right; exact ⟨p :: ps, pre', by simp only [h1], h2, Nat.le_trans h3 hlen, h4⟩

theorem parsePseudos_fuel (n : Nat) : ∀ {c : List Sst}, c.length < n → parsePseudos n c ≠ .out := by
  induction n with
  | zero => intro c h; omega
  | succ n ih =>
    intro c h
    unfold parsePseudos
    cases hp : parsePseudo c with
    | out => exact absurd hp parsePseudo_out
    | crash => simp
    | ok o =>
      cases o with
      | none => simp
      | some pr =>
        obtain ⟨p, r⟩ := pr
        obtain ⟨d, w, hw, e⟩ := parsePseudo_some hp
        have hr : (eatWs r).length < n := by
          have := eatWs_length r
          subst e
          simp only [List.length_cons, List.length_append] at h
          omega
        have := ih hr
        dsimp only
        cases h2 : parsePseudos n (eatWs r) with
        | out => exact absurd h2 this
        | crash => simp
        | ok a => simp

/-- One selector: what is left, and that something was read unless nothing could be. -/
theorem parse_pieces {n : Nat} {pre t : List Sst} (h : Pieces pre) (ht : Tail t) (hh : ∀ s r, pre = s :: r → s.is .ws = false) :
    parse n (pre ++ t) = .out ∨
    ((∃ d w, Blank w ∧ t = .tok ⟨.colon, d⟩ :: w) ∧ parse n (pre ++ t) = .crash) ∨
    ∃ sel pre', parse n (pre ++ t) = .ok (sel, pre' ++ t) ∧ Pieces pre' ∧ (pre ≠ [] → pre'.length < pre.length) ∧
      (pre' = [] → parsePseudo t = .ok none) ∧ (pre = [] → pre' = []) := by
  unfold parse
  cases h with
  | nil =>
    have e : parseName ([] ++ t) = ([], t) := by
      rw [List.nil_append]
      unfold parseName
      split
      · rename_i k c
        rw [if_neg]
        intro hk
        obtain ⟨ty, d⟩ := k
        subst hk
        rcases ht with e | ⟨s, c, e, h⟩ | ⟨d, w, hw, e⟩
        · cases e
        · cases e; exact h.2.1 d rfl
        · cases e
      · rfl
    rw [e]
    rcases parsePseudos_pieces n (pre := []) .nil ht with h1 | ⟨h0, h1⟩ | ⟨ps, pre', h1, h2, h3, h4⟩
    · left; simp only [List.nil_append] at h1; simp only [h1]
    · right; left; simp only [List.nil_append] at h1; exact ⟨h0, by simp only [h1]⟩
    · right; right
      simp only [List.nil_append] at h1
      exact ⟨⟨[], ps⟩, pre', by simp only [h1], h2, by simp, h4, fun _ => by
        cases pre' with
        | nil => rfl
        | cons a l => simp at h3⟩
  | ws hs _ => rw [hh _ _ rfl] at hs; cases hs
  | @ident d c h =>
    have e : parseName (.tok ⟨.ident, d⟩ :: c ++ t) = (d, c ++ t) := rfl
    rw [e]
    rcases parsePseudos_pieces n h ht with h1 | ⟨h0, h1⟩ | ⟨ps, pre', h1, h2, h3, h4⟩
    · left; simp only [h1]
    · right; left; exact ⟨h0, by simp only [h1]⟩
    · right; right
      exact ⟨⟨d, ps⟩, pre', by simp only [h1], h2, fun _ => by simp only [List.length_cons]; omega, h4, by simp⟩
  | @pseudo d w c p hw h =>
    have e : parseName (.tok ⟨.colon, d⟩ :: (w ++ .tok ⟨.ident, pseudoName p⟩ :: c) ++ t) =
        ([], .tok ⟨.colon, d⟩ :: (w ++ .tok ⟨.ident, pseudoName p⟩ :: c) ++ t) := rfl
    rw [e]
    have e1 : eatWs (.tok ⟨.colon, d⟩ :: (w ++ .tok ⟨.ident, pseudoName p⟩ :: c) ++ t) =
        .tok ⟨.colon, d⟩ :: (w ++ .tok ⟨.ident, pseudoName p⟩ :: (c ++ t)) := by
      simp only [List.cons_append, List.append_assoc]; unfold Css.eatWs; rfl
    dsimp only
    rw [e1]
    cases n with
    | zero => left; rfl
    | succ n =>
      unfold parsePseudos
      rw [parsePseudo_name d hw p]
      rcases parsePseudos_pieces n h ht with h1 | ⟨h0, h1⟩ | ⟨ps, pre', h1, h2, h3, h4⟩
      · left; simp only [h1]
      · right; left; exact ⟨h0, by simp only [h1]⟩
      · right; right
        refine ⟨⟨[], p :: ps⟩, pre', by simp only [h1], h2, fun _ => ?_, h4, by simp⟩
        simp only [List.length_cons, List.length_append]; omega

theorem parse_fuel {n : Nat} {c : List Sst} (h : c.length < n) : parse n c ≠ .out := by
  unfold parse
  have hl : (eatWs (parseName c).2).length < n := by
    have h1 := eatWs_length (parseName c).2
    have h2 : (parseName c).2.length ≤ c.length := by
      unfold parseName
      split
      · split
        · simp
        · simp
      · simp
    omega
  have := parsePseudos_fuel n hl
  dsimp only
  cases h2 : parsePseudos n (eatWs (parseName c).2) with
  | out => exact absurd h2 this
  | crash => simp
  | ok a => simp

/-- The list loop on pieces followed by a tail. -/
theorem parseLoop_pieces (n : Nat) : ∀ {pre t : List Sst}, Pieces pre → Tail t →
    (t = [] → pre.length < n → ∃ sels, parseLoop n (eatWs (pre ++ t)) = .ok sels) ∧
    ((∃ s c, t = s :: c ∧ Stuck s c) → parseLoop n (eatWs (pre ++ t)) = .out) ∧
    ((∃ d w, Blank w ∧ t = .tok ⟨.colon, d⟩ :: w) → (pre ++ t).length < n → parseLoop n (eatWs (pre ++ t)) = .crash) := by
  induction n with
  | zero => intro pre t _ _; exact ⟨fun _ h => absurd h (by omega), fun _ => rfl, fun _ h => absurd h (by omega)⟩
  | succ n ih =>
    intro pre t hp ht
    obtain ⟨q, hq, e, hl, hh⟩ := pieces_eatWs hp ht
    rw [e]
    have hout : (q ++ t).length < n + 1 → parse (n + 1) (q ++ t) ≠ .out := fun h => parse_fuel h
    by_cases hnil : q ++ t = []
    · rw [hnil]
      rw [List.append_eq_nil_iff] at hnil
      obtain ⟨-, rfl⟩ := hnil
      exact ⟨fun _ _ => ⟨[], rfl⟩, (by rintro ⟨s, c, h, -⟩; cases h), (by rintro ⟨d, w, -, h⟩; cases h)⟩
    · have hstep : parseLoop (n + 1) (q ++ t) = match parse (n + 1) (q ++ t) with
          | .ok (sel, c) =>
            match parseLoop n (eatWs c) with
            | .ok sels => .ok (sel :: sels)
            | .crash => .crash
            | .out => .out
          | .crash => .crash
          | .out => .out := by
        cases hc : q ++ t with
        | nil => exact absurd hc hnil
        | cons s c => rfl
      rw [hstep]
      rcases parse_pieces (n := n + 1) hq ht hh with h1 | ⟨⟨d, w, hw, rfl⟩, h1⟩ | ⟨sel, pre', h1, h2, h3, h4, h5⟩
      · refine ⟨?_, fun _ => by rw [h1], ?_⟩
        · rintro rfl hlt
          exact absurd h1 (hout (by simp only [List.append_nil]; omega))
        · rintro _ hlt
          exact absurd h1 (hout (by simp only [List.length_append] at hlt ⊢; omega))
      · refine ⟨by rintro ⟨⟩, ?_, fun _ _ => by rw [h1]⟩
        rintro ⟨s, c, e, hs⟩
        cases e
        have := eatWs_blank hw []
        exact absurd (by simpa [Css.eatWs] using this) (hs.2.2 rfl).1
      · rw [h1]
        obtain ⟨i1, i2, i3⟩ := ih h2 ht
        refine ⟨?_, ?_, ?_⟩
        · rintro rfl hlt
          have hq' : q ≠ [] := by simpa using hnil
          obtain ⟨sels, hs⟩ := i1 rfl (by have := h3 hq'; omega)
          exact ⟨sel :: sels, by dsimp only; rw [hs]⟩
        · intro hs
          dsimp only; rw [i2 hs]
        · rintro ⟨d, w, hw, rfl⟩ hlt
          have hq' : q ≠ [] := by
            intro hq'
            have := h4 (h5 hq')
            rw [parsePseudo_dead d hw] at this
            cases this
          dsimp only
          rw [i3 ⟨d, w, hw, rfl⟩ (by have := h3 hq'; simp only [List.length_append] at hlt ⊢; omega)]

/-- Every input is pieces followed by a tail. -/
theorem pieces_tail (n : Nat) : ∀ c : List Sst, c.length ≤ n → ∃ pre t, c = pre ++ t ∧ Pieces pre ∧ Tail t := by
  induction n with
  | zero => intro c h; exact ⟨[], [], by simpa using h, .nil, .inl rfl⟩
  | succ n ih =>
    intro c h
    cases c with
    | nil => exact ⟨[], [], rfl, .nil, .inl rfl⟩
    | cons s c =>
      simp only [List.length_cons, Nat.add_le_add_iff_right] at h
      by_cases hw : s.is .ws = true
      · obtain ⟨pre, t, rfl, hp, ht⟩ := ih c h
        exact ⟨s :: pre, t, rfl, .ws hw hp, ht⟩
      · by_cases hi : ∃ d, s = .tok ⟨.ident, d⟩
        · obtain ⟨d, rfl⟩ := hi
          obtain ⟨pre, t, rfl, hp, ht⟩ := ih c h
          exact ⟨_ :: pre, t, rfl, .ident hp, ht⟩
        · have hs : ∀ hst : _, Stuck s c → ∃ pre t, s :: c = pre ++ t ∧ Pieces pre ∧ Tail t :=
            fun (_ : True) hst => ⟨[], s :: c, rfl, .nil, .inr (.inl ⟨s, c, rfl, hst⟩)⟩
          by_cases hc : s.is .colon = true
          · obtain ⟨d, rfl⟩ := is_colon hc
            obtain ⟨w, hw', e⟩ := eatWs_split c
            by_cases h0 : eatWs c = []
            · rw [h0, List.append_nil] at e
              exact ⟨[], _, rfl, .nil, .inr (.inr ⟨d, w, hw', by rw [e]⟩)⟩
            · by_cases hp : ∃ p r, eatWs c = .tok ⟨.ident, pseudoName p⟩ :: r
              · obtain ⟨p, r, er⟩ := hp
                rw [er] at e
                have hr : r.length ≤ n := by
                  rw [e] at h
                  simp only [List.length_append, List.length_cons] at h
                  omega
                obtain ⟨pre, t, rfl, hp, ht⟩ := ih r hr
                exact ⟨.tok ⟨.colon, d⟩ :: (w ++ .tok ⟨.ident, pseudoName p⟩ :: pre), t, by rw [e]; simp, .pseudo p hw' hp, ht⟩
              · exact hs trivial ⟨by simpa using hw, fun d' e' => hi ⟨d', e'⟩, fun _ => ⟨h0, fun p r er => hp ⟨p, r, er⟩⟩⟩
          · exact hs trivial ⟨by simpa using hw, fun d e => hi ⟨d, e⟩, fun h => absurd h hc⟩

/-- A written selector is read back. -/
theorem parsePseudos_written (n : Nat) (ps : List Pseudo) (h : ps.length < n) :
    parsePseudos n (ps.flatMap fun p => [.tok ⟨.colon, u ":"⟩, .tok ⟨.ident, pseudoName p⟩]) = .ok (ps, []) := by
  induction ps generalizing n with
  | nil =>
    cases n with
    | zero => simp at h
    | succ n => rfl
  | cons p ps ih =>
    cases n with
    | zero => simp at h
    | succ n =>
      simp only [List.length_cons, Nat.add_lt_add_iff_right] at h
      show parsePseudos (n + 1) (.tok ⟨.colon, u ":"⟩ :: ([] ++ .tok ⟨.ident, pseudoName p⟩ ::
        (ps.flatMap fun p => [Sst.tok ⟨.colon, u ":"⟩, .tok ⟨.ident, pseudoName p⟩]))) = _
      unfold parsePseudos
      rw [parsePseudo_name (u ":") (by simp [Blank]) p]
      have e : eatWs (ps.flatMap fun p => [Sst.tok ⟨.colon, u ":"⟩, .tok ⟨.ident, pseudoName p⟩]) =
          ps.flatMap fun p => [Sst.tok ⟨.colon, u ":"⟩, .tok ⟨.ident, pseudoName p⟩] := by
        cases ps with
        | nil => rfl
        | cons a l => show eatWs (_ :: _) = _ :: _; unfold Css.eatWs; rfl
      dsimp only
      rw [e, ih n h]

end Verif.Page
