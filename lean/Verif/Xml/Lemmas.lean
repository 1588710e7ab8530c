import Verif.Xml.Spec

/-! # The scanner: helper lemmas -/
namespace Verif.Xml
open Spec

/-- The modes in which a text is read in one way only. -/
class Clean (m : Mode) : Prop where
  ne : m ≠ .loose

instance : Clean .strict := ⟨by decide⟩
instance : Clean .clean := ⟨by decide⟩

theorem skip_append (p s : Text) : skip p (p ++ s) = some s := by
  simp [skip]

theorem skip_some {p s r : Text} : skip p s = some r ↔ s = p ++ r := by
  constructor
  · intro h
    unfold skip at h
    split at h
    · rename_i hp
      obtain ⟨t, rfl⟩ := List.isPrefixOf_iff_prefix.1 hp
      simp at h
      rw [h]
    · cases h
  · rintro rfl
    exact skip_append p r

theorem skip_none {p s : Text} : skip p s = none ↔ ∀ r, s ≠ p ++ r := by
  constructor
  · intro h r hs
    rw [hs, skip_append] at h
    cases h
  · intro h
    cases hs : skip p s with
    | none => rfl
    | some r => exact absurd (skip_some.1 hs) (h r)

theorem skip_length {p s r : Text} (h : skip p s = some r) : s.length = p.length + r.length := by
  rw [skip_some.1 h, List.length_append]

theorem skip_one_ne {a c : Rune} {s : Text} (h : c ≠ a) : skip [a] (c :: s) = none := by
  simp [skip, List.isPrefixOf, Ne.symm h]

theorem skip_nil {a : Rune} {p : Text} : skip (a :: p) [] = none := by simp [skip, List.isPrefixOf]

theorem skip_head_ne {a c : Rune} {p s : Text} (h : c ≠ a) : skip (a :: p) (c :: s) = none := by
  simp [skip, List.isPrefixOf, Ne.symm h]

theorem skip_cons {a : Rune} {p s : Text} : skip (a :: p) (a :: s) = skip p s := by
  simp [skip, List.isPrefixOf]

theorem u_lt : u "<" = [60] := rfl
theorem u_gt : u ">" = [62] := rfl
theorem u_egt : u "/>" = [47, 62] := rfl
theorem u_lts : u "</" = [60, 47] := rfl
theorem u_eq : u "=" = [61] := rfl
theorem u_amp : u "&" = [38] := rfl
theorem u_ampn : u "&#" = [38, 35] := rfl
theorem u_semi : u ";" = [59] := rfl
theorem u_x : u "x" = [120] := rfl
theorem u_pi : u "<?" = [60, 63] := rfl
theorem u_pie : u "?>" = [63, 62] := rfl
theorem u_com : u "<!--" = [60, 33, 45, 45] := rfl
theorem u_come : u "-->" = [45, 45, 62] := rfl
theorem u_cd : u "<![CDATA[" = [60, 33, 91, 67, 68, 65, 84, 65, 91] := rfl
theorem u_cde : u "]]>" = [93, 93, 62] := rfl

/-! ## Characters -/

theorem isS_iff (r : Rune) : isS r = true ↔ Space r := by
  simp only [isS, Space, Bool.or_eq_true, beq_iff_eq]
  omega

theorem isChar_iff (r : Rune) : isChar r = true ↔ Spec.Char r := by
  simp only [isChar, Spec.Char, Bool.or_eq_true, Bool.and_eq_true, beq_iff_eq, decide_eq_true_eq]
  omega

theorem isNameStart_iff (r : Rune) : isNameStart r = true ↔ NameStart r ∨ r = 58 := by
  simp only [isNameStart, within, nameStartRanges, NameStart, List.any_cons, List.any_nil, Bool.or_eq_true,
    Bool.and_eq_true, decide_eq_true_eq, Bool.or_false]
  omega

theorem isNameChar_iff (r : Rune) : isNameChar r = true ↔ NamePart r ∨ r = 58 := by
  unfold isNameChar
  rw [Bool.or_eq_true, isNameStart_iff]
  simp only [within, NamePart, List.any_cons, List.any_nil, Bool.or_eq_true,
    Bool.and_eq_true, decide_eq_true_eq, Bool.or_false]
  generalize NameStart r = P
  by_cases hP : P
  · simp [hP]
  · simp only [hP, false_or]
    omega

theorem colon_not_part : ¬ NamePart 58 := by
  unfold NamePart NameStart; omega

theorem start_part {r : Rune} (h : NameStart r) : NamePart r := .inl h

theorem Spec.NCName.any {t : Text} (h : NCName t) : AnyName t :=
  ⟨by obtain ⟨c, cs, h, hc⟩ := h.1; exact ⟨c, cs, h, .inl hc⟩, fun r hr => .inl (h.2 r hr)⟩

/-- The text does not go on with a character of a name. -/
def Ends (s : Text) : Prop := ∀ c cs, s = c :: cs → isNameChar c = false

theorem takeWhile_append_stop {p : Rune → Bool} {a s : Text} (ha : ∀ r ∈ a, p r = true)
    (hs : ∀ c cs, s = c :: cs → p c = false) :
    (a ++ s).takeWhile p = a ∧ (a ++ s).dropWhile p = s := by
  induction a with
  | nil =>
    cases s with
    | nil => simp
    | cons c cs => simp [hs c cs rfl]
  | cons x a ih =>
    have := ih (fun r hr => ha r (List.mem_cons_of_mem _ hr))
    simp [ha x (List.mem_cons_self ..), this]

theorem dropWhile_stop (p : Rune → Bool) (s : Text) : ∀ c cs, s.dropWhile p = c :: cs → p c = false := by
  induction s with
  | nil => simp
  | cons x s ih =>
    intro c cs h
    rw [List.dropWhile_cons] at h
    split at h
    · exact ih c cs h
    · simp only [List.cons.injEq] at h
      rename_i hx
      rw [← h.1]
      simpa using hx

theorem takeWhile_all (p : Rune → Bool) (s : Text) : ∀ r ∈ s.takeWhile p, p r = true := by
  induction s with
  | nil => simp
  | cons x s ih =>
    intro r hr
    rw [List.takeWhile_cons] at hr
    split at hr
    · rcases List.mem_cons.1 hr with rfl | hr
      · assumption
      · exact ih r hr
    · cases hr

theorem parseName_eq {n s : Text} (hn : AnyName n) (hs : Ends s) : parseName (n ++ s) = some (n, s) := by
  obtain ⟨⟨c, cs, rfl, hc⟩, hall⟩ := hn
  have h := takeWhile_append_stop (p := isNameChar) (a := cs) (s := s)
    (fun r hr => (isNameChar_iff r).2 (hall r (List.mem_cons_of_mem _ hr))) hs
  simp [parseName, (isNameStart_iff c).2 hc, h]

theorem parseName_some {s n rest : Text} (h : parseName s = some (n, rest)) :
    s = n ++ rest ∧ AnyName n ∧ Ends rest := by
  unfold parseName at h
  split at h
  · cases h
  · rename_i c cs
    split at h
    · rename_i hc
      simp only [Option.some.injEq, Prod.mk.injEq] at h
      obtain ⟨rfl, rfl⟩ := h
      refine ⟨by simp [List.takeWhile_append_dropWhile], ⟨⟨c, _, rfl, (isNameStart_iff c).1 hc⟩, ?_⟩,
        dropWhile_stop _ _⟩
      intro r hr
      rcases List.mem_cons.1 hr with rfl | hr
      · rcases (isNameStart_iff r).1 hc with h | h
        · exact .inl (start_part h)
        · exact .inr h
      · exact (isNameChar_iff r).1 (takeWhile_all _ _ r hr)
    · cases h

theorem parseName_none {c : Rune} {s : Text} (h : isNameStart c = false) : parseName (c :: s) = none := by
  simp [parseName, h]

theorem parseS_append {w s : Text} (hw : Spaces w) (hs : ∀ c cs, s = c :: cs → isS c = false) :
    parseS (w ++ s) = s :=
  (takeWhile_append_stop (fun r hr => (isS_iff r).2 (hw r hr)) hs).2

theorem parseS_split (s : Text) : ∃ w, Spaces w ∧ s = w ++ parseS s :=
  ⟨s.takeWhile isS, fun r hr => (isS_iff r).1 (takeWhile_all _ _ r hr), by
    simp [parseS, List.takeWhile_append_dropWhile]⟩

theorem parseS_length (s : Text) : (parseS s).length ≤ s.length := by
  obtain ⟨w, _, h⟩ := parseS_split s
  have := congrArg List.length h
  rw [List.length_append] at this
  omega

theorem parseS_id {s : Text} (hs : ∀ c cs, s = c :: cs → isS c = false) : parseS s = s :=
  parseS_append (w := []) (by simp [Spaces]) hs

/-! ## Qualified names -/

theorem idxOf?_none {l : Text} (h : (58 : Rune) ∉ l) : l.idxOf? 58 = none := by
  simpa [List.idxOf?_eq_none_iff] using h

theorem idxOf?_split {l : Text} {i : Nat} (h : l.idxOf? 58 = some i) :
    ∃ p q, l = p ++ 58 :: q ∧ p.length = i ∧ 58 ∉ p := by
  induction l generalizing i with
  | nil => simp at h
  | cons c l ih =>
    rw [List.idxOf?_cons] at h
    split at h
    · rename_i hc
      simp only [Option.some.injEq] at h
      refine ⟨[], l, ?_, by simpa using h, by simp⟩
      simp only [beq_iff_eq] at hc
      simp [hc]
    · rename_i hc
      cases hi : l.idxOf? 58 with
      | none => rw [hi] at h; cases h
      | some j =>
        rw [hi] at h
        simp only [Option.map_some, Option.some.injEq] at h
        obtain ⟨p, q, hl, hp, hn⟩ := ih hi
        refine ⟨c :: p, q, by rw [hl]; rfl, by simp [hp, h], ?_⟩
        simp only [beq_iff_eq] at hc
        simp [hn, Ne.symm hc]

theorem idxOf?_append {p q : Text} (h : 58 ∉ p) : (p ++ 58 :: q).idxOf? 58 = some p.length := by
  induction p with
  | nil => simp [List.idxOf?_cons]
  | cons c p ih =>
    have hc : ¬ c = 58 := fun e => h (by simp [e])
    have hp : 58 ∉ p := fun e => h (by simp [e])
    rw [List.cons_append, List.idxOf?_cons, ih hp]
    simp [hc]

theorem splitName_eq {m : Mode} {t : Text} {n : Name} (h : NameText m t n) : splitName t = some n := by
  have nc : ∀ {l : Text}, (∀ r ∈ l, NamePart r) → (58 : Rune) ∉ l := fun h hm => colon_not_part (h _ hm)
  cases h with
  | plain hl => simp only [splitName, idxOf?_none (nc hl.2)]
  | @prefixed p l hp hne hl _ =>
    have h1 : l.contains 58 = false := by
      have := nc hl
      simp [this]
    have h2 : p.length ≠ 0 := by
      obtain ⟨c, cs, h, _⟩ := hp.1
      simp [h]
    have h3 : l.length ≠ 0 := by simpa using hne
    have hd : (p ++ 58 :: l).drop (p.length + 1) = l := by simp
    simp only [splitName, idxOf?_append (nc hp.2), hd, h1]
    rw [if_neg (by simp), if_neg (by simp only [List.length_append, List.length_cons]; omega)]
    simp

theorem splitName_some {t : Text} {n : Name} (ht : AnyName t) (h : splitName t = some n) :
    NameText .loose t n := by
  unfold splitName at h
  split at h
  · rename_i hi
    simp only [Option.some.injEq] at h
    subst h
    have hn : 58 ∉ t := by simpa [List.idxOf?_eq_none_iff] using hi
    refine .plain ⟨?_, fun r hr => ?_⟩
    · obtain ⟨c, cs, rfl, hc⟩ := ht.1
      refine ⟨c, cs, rfl, ?_⟩
      rcases hc with hc | rfl
      · exact hc
      · simp at hn
    · rcases ht.2 r hr with h | rfl
      · exact h
      · exact absurd hr hn
  · rename_i i hi
    obtain ⟨p, q, rfl, rfl, hp⟩ := idxOf?_split hi
    have hd : (p ++ 58 :: q).drop (p.length + 1) = q := by simp
    rw [hd] at h
    split at h
    · cases h
    rename_i hc
    split at h
    · cases h
    rename_i hne
    simp only [Option.some.injEq] at h
    subst h
    have hq : 58 ∉ q := by simpa using hc
    simp only [List.length_append, List.length_cons] at hne
    rw [show (p ++ 58 :: q).take p.length = p by simp]
    refine .prefixed ⟨?_, fun r hr => ?_⟩ ?_ (fun r hr => ?_) (by simp)
    · obtain ⟨c, cs, hcs, hc⟩ := ht.1
      cases p with
      | nil => simp at hne
      | cons x p =>
        rw [List.cons_append] at hcs
        simp only [List.cons.injEq] at hcs
        refine ⟨x, p, rfl, ?_⟩
        rw [hcs.1]
        rcases hc with hc | hc
        · exact hc
        · exact absurd (by simp [hcs.1, hc]) hp
    · rcases ht.2 r (by simp [hr]) with h | rfl
      · exact h
      · exact absurd hr hp
    · rintro rfl
      simp at hne
    · rcases ht.2 r (by simp [hr]) with h | rfl
      · exact h
      · exact absurd hr hq

theorem Spec.NameText.any {m : Mode} {t : Text} {n : Name} (h : NameText m t n) : AnyName t := by
  cases h with
  | plain hl => exact NCName.any hl
  | @prefixed p l hp hne hl _ =>
    obtain ⟨c, cs, rfl, hc⟩ := hp.1
    refine ⟨⟨c, _, rfl, .inl hc⟩, fun r hr => ?_⟩
    simp only [List.mem_append, List.mem_cons] at hr
    rcases hr with hr | rfl | hr
    · exact .inl (hp.2 r (by simpa using hr))
    · exact .inr rfl
    · exact .inl (hl r hr)

theorem Spec.NameText.ne_nil {m : Mode} {t : Text} {n : Name} (h : NameText m t n) :
    ∃ c cs, t = c :: cs ∧ isNameStart c = true := by
  obtain ⟨c, cs, h, hc⟩ := h.any.1
  exact ⟨c, cs, h, (isNameStart_iff c).2 hc⟩

theorem parseQName_eq {m : Mode} {t s : Text} {n : Name} (h : NameText m t n) (hs : Ends s) :
    parseQName (t ++ s) = some (n, s) := by
  simp only [parseQName, parseName_eq h.any hs, splitName_eq h, Option.map_some]

theorem parseQName_some {s rest : Text} {n : Name} (h : parseQName s = some (n, rest)) :
    ∃ t, s = t ++ rest ∧ NameText .loose t n ∧ Ends rest := by
  unfold parseQName at h
  split at h
  · cases h
  · rename_i t rest' ht
    obtain ⟨h1, h2, h3⟩ := parseName_some ht
    cases hsp : splitName t with
    | none => rw [hsp] at h; cases h
    | some n' =>
      rw [hsp] at h
      simp only [Option.map_some, Option.some.injEq, Prod.mk.injEq] at h
      obtain ⟨rfl, rfl⟩ := h
      exact ⟨t, h1, splitName_some h2 hsp, h3⟩

theorem parseQName_none {c : Rune} {s : Text} (h : isNameStart c = false) : parseQName (c :: s) = none := by
  simp [parseQName, parseName_none h]

/-! ## Reading up to a mark -/

theorem until_some {mark : Text} {ok : Rune → Bool} (hm : mark ≠ []) {s d rest : Text}
    (h : until_ mark ok s = some (d, rest)) :
    s = d ++ mark ++ rest ∧ (∀ r ∈ d, ok r = true) ∧ ∀ a b, d ++ mark = a ++ mark ++ b → a.length ≥ d.length := by
  induction s generalizing d with
  | nil =>
    cases mark with
    | nil => exact absurd rfl hm
    | cons a p => simp [until_, skip_nil] at h
  | cons c s ih =>
    unfold until_ at h
    split at h
    · rename_i r hs
      simp only [Option.some.injEq, Prod.mk.injEq] at h
      obtain ⟨rfl, rfl⟩ := h
      exact ⟨by simpa using skip_some.1 hs, by simp, by simp⟩
    · rename_i hs
      split at h
      · rename_i hok
        cases hu : until_ mark ok s with
        | none => rw [hu] at h; cases h
        | some r =>
          obtain ⟨d', rest'⟩ := r
          rw [hu] at h
          simp only [Option.map_some, Option.some.injEq, Prod.mk.injEq] at h
          obtain ⟨rfl, rfl⟩ := h
          obtain ⟨h1, h2, h3⟩ := ih hu
          refine ⟨by rw [h1]; simp, ?_, ?_⟩
          · intro r hr
            rcases List.mem_cons.1 hr with rfl | hr
            · exact hok
            · exact h2 r hr
          · intro a b hab
            cases a with
            | nil =>
              exfalso
              refine skip_none.1 hs (b ++ rest') ?_
              rw [h1]
              simp only [List.nil_append] at hab
              rw [← List.append_assoc, ← hab]
              simp
            | cons x a =>
              simp only [List.cons_append, List.cons.injEq] at hab
              have := h3 a b (by simpa using hab.2)
              simpa using this
      · cases h

theorem until_eq {mark : Text} {ok : Rune → Bool} {d rest : Text} (hd : ∀ r ∈ d, ok r = true)
    (hw : ∀ a b, d ++ mark ++ rest = a ++ mark ++ b → a.length ≥ d.length) :
    until_ mark ok (d ++ mark ++ rest) = some (d, rest) := by
  induction d with
  | nil =>
    have : until_ mark ok (mark ++ rest) = some ([], rest) := by
      cases hm : mark ++ rest with
      | nil =>
        simp only [List.append_eq_nil_iff] at hm
        rw [hm.1, hm.2]
        simp [until_, skip]
      | cons c s =>
        have : skip mark (c :: s) = some rest := by rw [← hm]; exact skip_append _ _
        simp [until_, this]
    simpa using this
  | cons c d ih =>
    have hs : skip mark (c :: (d ++ mark ++ rest)) = none := by
      rw [skip_none]
      intro r hr
      have := hw [] r (by simpa using hr)
      simp at this
    have := ih (fun r hr => hd r (List.mem_cons_of_mem _ hr)) (fun a b hab => by
      have := hw (c :: a) b (by simp only [List.cons_append, hab])
      simpa using this)
    show until_ mark ok (c :: (d ++ mark ++ rest)) = _
    rw [until_, hs]
    simp only [hd c (List.mem_cons_self ..), this, if_true, Option.map_some]

/-- A mark of two or three runes ending in `>` that does not occur before it. -/
theorem first_mark {mark d rest : Text} (m : Text) (hm : mark = m ++ [62]) (hmm : 62 ∉ m)
    (hw : Without mark d) : ∀ a b, d ++ mark ++ rest = a ++ mark ++ b → a.length ≥ d.length := by
  intro a b h
  by_cases hlt : a.length ≥ d.length
  · exact hlt
  exfalso
  -- the occurrence starts inside `d`; its `>` is inside `d` or inside the mark before its end
  rw [hm] at h
  have hlen : a.length < d.length := by omega
  by_cases hin : a.length + m.length < d.length
  · -- the whole mark lies inside `d`
    refine hw a (d.drop (a.length + m.length + 1)) ?_
    have h' := congrArg (List.take (a.length + (m.length + 1))) h
    have e1 : List.take (a.length + (m.length + 1)) (a ++ (m ++ [62]) ++ b) = a ++ (m ++ [62]) := by
      rw [List.take_left' (by simp)]
    have e2 : List.take (a.length + (m.length + 1)) (d ++ (m ++ [62]) ++ rest) = d.take (a.length + (m.length + 1)) := by
      rw [List.append_assoc, List.take_append_of_le_length (by omega)]
    rw [e1, e2] at h'
    rw [hm, ← h', ← Nat.add_assoc, List.take_append_drop]
  · -- its `>` would be one of `m`
    have hg : (a ++ (m ++ [62]) ++ b)[a.length + m.length]? = some 62 := by
      rw [List.append_assoc, List.getElem?_append_right (by omega), List.append_assoc,
        List.getElem?_append_right (by omega)]
      simp
    rw [← h, List.append_assoc, List.getElem?_append_right (by omega), List.append_assoc,
      List.getElem?_append_left (by omega)] at hg
    exact hmm (List.mem_of_getElem? hg)

theorem without_of_first {mark d : Text}
    (h : ∀ a b, d ++ mark = a ++ mark ++ b → a.length ≥ d.length) (hm : mark ≠ []) : Without mark d := by
  rintro a b rfl
  have h1 := h a (b ++ mark) (by simp)
  have h2 : mark.length ≠ 0 := fun e => hm (List.length_eq_zero_iff.1 e)
  rw [List.length_append, List.length_append] at h1
  omega

end Verif.Xml
