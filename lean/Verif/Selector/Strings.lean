import Verif.Selector.Spec
/-! String matching lemmas for attribute selectors. -/
namespace Verif.Selector

theorem nil_or_snoc {α} (l : List α) : l = [] ∨ ∃ l' a, l = l' ++ [a] := by
  rcases List.eq_nil_or_concat l with h | ⟨l', a, h⟩
  · exact .inl h
  · exact .inr ⟨l', a, by simpa using h⟩

theorem toNat_ofNat_valid (n : Nat) (h : n.isValidChar) : (Char.ofNat n).toNat = n := by
  unfold Char.ofNat
  rw [dif_pos h]
  simp [Char.ofNatAux, Char.toNat, UInt32.toNat]

theorem char_ext {a b : Char} (h : a.toNat = b.toNat) : a = b := by
  apply Char.ext; exact UInt32.toNat_inj.1 h

theorem lower_toNat (c : Char) : (lower c).toNat = if 65 ≤ c.toNat ∧ c.toNat ≤ 90 then c.toNat + 32 else c.toNat := by
  unfold lower
  have h1 : ('A' ≤ c) ↔ 65 ≤ c.toNat := Iff.rfl
  have h2 : (c ≤ 'Z') ↔ c.toNat ≤ 90 := Iff.rfl
  simp only [h1, h2]
  split
  · exact toNat_ofNat_valid _ (by left; omega)
  · rfl

theorem cmp_iff {i a b} : cmp i a b = true ↔ SameChar i a b := by
  unfold cmp SameChar
  cases i with
  | false => simp
  | true =>
    simp only [if_true, beq_iff_eq, true_and]
    constructor
    · intro h
      have h := congrArg Char.toNat h
      rw [lower_toNat, lower_toNat] at h
      by_cases e : a.toNat = b.toNat
      · exact .inl (char_ext e)
      · right
        split at h <;> split at h
        · omega
        · exact ⟨a.toNat - 65, by omega, by omega⟩
        · exact ⟨b.toNat - 65, by omega, by omega⟩
        · omega
    · rintro (rfl | ⟨j, hj, h⟩)
      · rfl
      · apply char_ext
        rw [lower_toNat, lower_toNat]
        rcases h with ⟨h1, h2⟩ | ⟨h1, h2⟩ <;> rw [h1, h2] <;> split <;> split <;> omega

theorem sameStr_nil {i} : SameStr i [] [] := by simp [SameStr]

theorem sameStr_cons {i a b as bs} : SameStr i (a :: as) (b :: bs) ↔ cmp i a b = true ∧ SameStr i as bs := by
  rw [cmp_iff]; simp [SameStr]

theorem sameStr_nil_left {i b} : SameStr i [] b ↔ b = [] := by
  cases b <;> simp [SameStr]

theorem sameStr_nil_right {i a} : SameStr i a [] ↔ a = [] := by
  cases a <;> simp [SameStr]

theorem SameStr.length {i a b} (h : SameStr i a b) : a.length = b.length := by
  induction a generalizing b with
  | nil => rw [sameStr_nil_left] at h; rw [h]
  | cons x a ih =>
    cases b with
    | nil => simp [SameStr] at h
    | cons y b => simp [ih h.2]

theorem sameStr_append {i a b c d} (h : SameStr i a b) (h' : SameStr i c d) : SameStr i (a ++ c) (b ++ d) := by
  induction a generalizing b with
  | nil => rw [sameStr_nil_left] at h; subst h; exact h'
  | cons x a ih =>
    cases b with
    | nil => simp [SameStr] at h
    | cons y b => exact ⟨h.1, ih h.2⟩

theorem sameStr_reverse' {i a b} (h : SameStr i a b) : SameStr i a.reverse b.reverse := by
  induction a generalizing b with
  | nil => rw [sameStr_nil_left] at h; subst h; trivial
  | cons x a ih =>
    cases b with
    | nil => simp [SameStr] at h
    | cons y b =>
      rw [List.reverse_cons, List.reverse_cons]
      exact sameStr_append (ih h.2) ⟨h.1, trivial⟩

theorem sameStr_reverse {i a b} : SameStr i a.reverse b.reverse ↔ SameStr i a b :=
  ⟨fun h => by simpa using sameStr_reverse' h, sameStr_reverse'⟩

theorem isSpace_iff (c : Char) : isSpace c = true ↔ Blank c := by
  unfold isSpace Blank
  simp only [Bool.or_eq_true, beq_iff_eq]
  constructor
  · rintro (((((rfl | rfl) | rfl) | rfl) | rfl) | rfl) <;> first | exact .inl rfl | (right; decide)
  · rintro (rfl | ⟨h1, h2⟩)
    · simp
    · have : ∀ d : Char, d.toNat = c.toNat → c = d := fun d h => char_ext h.symm
      have hc : c.toNat = 9 ∨ c.toNat = 10 ∨ c.toNat = 11 ∨ c.toNat = 12 ∨ c.toNat = 13 := by omega
      rcases hc with h | h | h | h | h
      · rw [this '\t' (by rw [h]; decide)]; decide
      · rw [this '\n' (by rw [h]; decide)]; decide
      · rw [this (Char.ofNat 11) (by rw [h]; decide)]; decide
      · rw [this (Char.ofNat 12) (by rw [h]; decide)]; decide
      · rw [this '\r' (by rw [h]; decide)]; decide

theorem isSpace_false (c : Char) : isSpace c = false ↔ ¬ Blank c := by
  rw [← isSpace_iff]; simp

theorem wordOf_iff {w s : Str} : WordOf w s ↔ w ≠ [] ∧ (∀ c ∈ w, isSpace c = false) ∧
    ∃ pre post, s = pre ++ w ++ post ∧
      (pre = [] ∨ ∃ p c, pre = p ++ [c] ∧ isSpace c = true) ∧
      (post = [] ∨ ∃ c p, post = c :: p ∧ isSpace c = true) := by
  simp only [isSpace_iff, isSpace_false]; rfl

theorem find_first {α} (p : α → Bool) (l : List α) (x : α) :
    l.find? p = some x ↔ p x = true ∧ ∃ pre post, l = pre ++ x :: post ∧ ∀ y ∈ pre, p y = false := by
  rw [List.find?_eq_some_iff_append]
  simp

theorem attrValue_iff (s : AttrSel) (e : Element) (v : Str) : attrValue s e = some v ↔ AttrHas s.qname e v := by
  unfold attrValue AttrHas
  have key : ∀ (p : QName × Str → Bool), (∀ x, p x = true ↔ NameMeans s.qname x.1) →
      ((e.attrs.find? p).map (·.2) = some v ↔
      ∃ pre q post, e.attrs = pre ++ (q, v) :: post ∧ NameMeans s.qname q ∧ ∀ x ∈ pre, ¬ NameMeans s.qname x.1) := by
    intro p hp
    rw [Option.map_eq_some_iff]
    constructor
    · rintro ⟨⟨q, v'⟩, h, rfl⟩
      obtain ⟨h1, pre, post, h2, h3⟩ := (find_first _ _ _).1 h
      exact ⟨pre, q, post, h2, (hp _).1 h1, fun x hx hm => by have := h3 x hx; rw [(hp x).2 hm] at this; cases this⟩
    · rintro ⟨pre, q, post, h1, h2, h3⟩
      refine ⟨(q, v), (find_first _ _ _).2 ⟨(hp _).2 h2, pre, post, h1, fun y hy => ?_⟩, rfl⟩
      cases hpy : p y with
      | false => rfl
      | true => exact absurd ((hp y).1 hpy) (h3 y hy)
  cases hn : s.qname.name with
  | none => simp
  | some name =>
    simp only [ne_eq, reduceCtorEq, not_false_eq_true, true_and]
    cases hs : s.qname.ns with
    | universal =>
      simp only [Element.attrUnqualified]
      exact key _ fun x => by simp [NameMeans, hn, hs, @eq_comm _ name]
    | null =>
      simp only [Element.attr]
      exact key _ fun x => by rcases x with ⟨⟨ns', nm⟩, _⟩; simp [NameMeans, hn, hs, @eq_comm _ name]
    | exact ns =>
      simp only [Element.attr]
      exact key _ fun x => by rcases x with ⟨⟨ns', nm⟩, _⟩; simp [NameMeans, hn, hs, @eq_comm _ name]

theorem idValue_iff (e : Element) (v : Str) :
    e.attrUnqualified "id".toList = some v ↔ AttrHas ⟨.universal, some "id".toList⟩ e v :=
  attrValue_iff ⟨⟨.universal, some "id".toList⟩, false, .present, []⟩ e v

theorem startWith_yes {i v s} : startWith (cmp i) v s = .yes ↔ SameStr i v s := by
  induction v generalizing s with
  | nil => cases s <;> simp [startWith, sameStr_nil_left]
  | cons a v ih =>
    cases s with
    | nil => simp [startWith, sameStr_nil_right]
    | cons b s =>
      simp only [startWith, sameStr_cons]
      by_cases h : cmp i a b = true <;> simp [h, ih]

theorem startWith_prefix {i v s} : startWith (cmp i) v s ≠ .no ↔ ∃ x y, v = x ++ y ∧ SameStr i x s := by
  induction v generalizing s with
  | nil =>
    cases s with
    | nil => simp [startWith, sameStr_nil_right]
    | cons b s => simp [startWith, sameStr_nil_left]
  | cons a v ih =>
    cases s with
    | nil => simp [startWith, sameStr_nil_right]
    | cons b s =>
      simp only [startWith]
      by_cases h : cmp i a b = true
      · simp only [h, if_true, ih]
        constructor
        · rintro ⟨x, y, rfl, hs⟩
          exact ⟨a :: x, y, rfl, sameStr_cons.2 ⟨h, hs⟩⟩
        · rintro ⟨x, y, e, hs⟩
          cases x with
          | nil => simp [sameStr_nil_left] at hs
          | cons c x =>
            simp at e
            obtain ⟨rfl, rfl⟩ := e
            exact ⟨x, y, rfl, (sameStr_cons.1 hs).2⟩
      · simp only [h]
        constructor
        · intro h; simp at h
        · rintro ⟨x, y, e, hs⟩
          cases x with
          | nil => simp [sameStr_nil_left] at hs
          | cons c x =>
            simp at e
            obtain ⟨rfl, rfl⟩ := e
            exact absurd (sameStr_cons.1 hs).1 h

theorem endWith_suffix {i v s} : endWith (cmp i) v s ≠ .no ↔ ∃ x y, v = x ++ y ∧ SameStr i y s := by
  unfold endWith
  rw [startWith_prefix]
  constructor
  · rintro ⟨x, y, e, hs⟩
    refine ⟨y.reverse, x.reverse, ?_, ?_⟩
    · rw [← List.reverse_append, ← e, List.reverse_reverse]
    · rw [← sameStr_reverse, List.reverse_reverse]; exact hs
  · rintro ⟨x, y, rfl, hs⟩
    exact ⟨y.reverse, x.reverse, by simp, sameStr_reverse.2 hs⟩

theorem containsSub_iff {i v s} : containsSub (cmp i) v s = true ↔
    ∃ x y z, v = x ++ y ++ z ∧ SameStr i y s := by
  induction v with
  | nil =>
    simp only [containsSub, bne_iff_ne, startWith_prefix]
    constructor
    · rintro ⟨x, y, e, hs⟩; exact ⟨[], x, y, by simpa using e, hs⟩
    · rintro ⟨x, y, z, e, hs⟩
      simp at e; obtain ⟨rfl, rfl, rfl⟩ := e
      exact ⟨[], [], rfl, hs⟩
  | cons a v ih =>
    simp only [containsSub, Bool.or_eq_true, bne_iff_ne, startWith_prefix, ih]
    constructor
    · rintro (⟨x, y, e, hs⟩ | ⟨x, y, z, rfl, hs⟩)
      · exact ⟨[], x, y, by simpa using e, hs⟩
      · exact ⟨a :: x, y, z, by simp, hs⟩
    · rintro ⟨x, y, z, e, hs⟩
      cases x with
      | nil => exact .inl ⟨y, z, by simpa using e, hs⟩
      | cons c x =>
        simp at e
        obtain ⟨rfl, rfl⟩ := e
        exact .inr ⟨x, y, z, by simp, hs⟩

theorem startWith_part {i v s} (h : startWith (cmp i) v s = .part) :
    (v[s.length]? = some '-' ↔ ∃ x y, v = x ++ '-' :: y ∧ SameStr i x s) := by
  have h1 : startWith (cmp i) v s ≠ .no := by rw [h]; simp
  obtain ⟨x, y, rfl, hs⟩ := startWith_prefix.1 h1
  have hl := hs.length
  constructor
  · intro hg
    rw [← hl, List.getElem?_append_right (Nat.le_refl _), Nat.sub_self] at hg
    cases y with
    | nil => simp at hg
    | cons c y => simp at hg; subst hg; exact ⟨x, y, rfl, hs⟩
  · rintro ⟨x', y', e, hs'⟩
    have hl' := hs'.length
    have : x = x' := List.append_inj_left e (by omega)
    subst this
    have := List.append_cancel_left e
    subst this
    rw [← hl]; simp

theorem takeWord_eq (s : Str) : s = (takeWord s).1 ++ (takeWord s).2 ∧ (∀ c ∈ (takeWord s).1, isSpace c = false) ∧
    ((takeWord s).2 = [] ∨ ∃ c p, (takeWord s).2 = c :: p ∧ isSpace c = true) := by
  induction s with
  | nil => simp [takeWord]
  | cons c s ih =>
    simp only [takeWord]
    by_cases h : isSpace c = true
    · simp [h]
    · simp only [h]
      refine ⟨by simpa using ih.1, ?_, ih.2.2⟩
      simpa [h] using ih.2.1

theorem skipSpaces_eq (s : Str) : ∃ sp, s = sp ++ skipSpaces s ∧ (∀ c ∈ sp, isSpace c = true) ∧
    (skipSpaces s = [] ∨ ∃ c p, skipSpaces s = c :: p ∧ isSpace c = false) := by
  induction s with
  | nil => exact ⟨[], by simp [skipSpaces]⟩
  | cons c s ih =>
    simp only [skipSpaces]
    by_cases h : isSpace c = true
    · obtain ⟨sp, e, hs, hr⟩ := ih
      exact ⟨c :: sp, by simp [h, ← e], by simpa [h] using hs, by simpa [h] using hr⟩
    · exact ⟨[], by simp [h], by simp, .inr ⟨c, s, by simp [h], by simpa using h⟩⟩

/-- Words of `sp ++ w ++ r` where `sp` is spaces, `w` a maximal word. -/
theorem wordOf_step {sp w r x : Str} (hsp : ∀ c ∈ sp, isSpace c = true) (hw : ∀ c ∈ w, isSpace c = false)
    (hr : r = [] ∨ ∃ c p, r = c :: p ∧ isSpace c = true) :
    WordOf x (sp ++ w ++ r) ↔ (w ≠ [] ∧ x = w) ∨ WordOf x r := by
  simp only [wordOf_iff]
  constructor
  · rintro ⟨hne, hx, pre, post, e, hpre, hpost⟩
    -- position of x
    rcases List.append_eq_append_iff.1 (show sp ++ (w ++ r) = pre ++ (x ++ post) by simpa using e) with
      ⟨a, rfl, e2⟩ | ⟨a, rfl, e2⟩
    · -- pre = sp ++ a, w ++ r = a ++ (x ++ post)
      rcases List.append_eq_append_iff.1 e2 with ⟨b, rfl, e3⟩ | ⟨b, rfl, e3⟩
      · -- a = w ++ b, r = b ++ (x ++ post)
        right
        refine ⟨hne, hx, b, post, by simp [e3], ?_, hpost⟩
        rcases nil_or_snoc b with rfl | ⟨b', c, rfl⟩
        · exact .inl rfl
        · rcases hpre with h | ⟨p, c', h, hc⟩
          · simp at h
          · right
            refine ⟨b', c, rfl, ?_⟩
            have : sp ++ (w ++ (b' ++ [c])) = p ++ [c'] := h
            rw [← List.append_assoc, ← List.append_assoc] at this
            have := (List.append_inj' this rfl).2
            simp at this; rw [this]; exact hc
      · -- w = a ++ b, x ++ post = b ++ r
        left
        have ha : a = [] := by
          rcases nil_or_snoc a with rfl | ⟨a', c, rfl⟩
          · rfl
          · rcases hpre with h | ⟨p, c', h, hc⟩
            · simp at h
            · exfalso
              have : (sp ++ a') ++ [c] = p ++ [c'] := by simpa using h
              have := (List.append_inj' this rfl).2
              simp at this
              have hcw := hw c (by simp)
              rw [this] at hcw; rw [hcw] at hc; cases hc
        subst ha
        simp only [List.nil_append] at *
        rcases List.append_eq_append_iff.1 e3 with ⟨c, rfl, e4⟩ | ⟨c, rfl, e4⟩
        · -- b = x ++ c, post = c ++ r
          cases c with
          | nil => simp [hne]
          | cons ch c =>
            exfalso
            rcases hpost with h | ⟨c', p, h, hc⟩
            · rw [e4] at h; simp at h
            · rw [e4] at h; simp at h
              have hcw := hw ch (by simp)
              rw [h.1] at hcw; rw [hcw] at hc; cases hc
        · -- x = b ++ c, r = c ++ post
          cases c with
          | nil =>
            simp only [List.append_nil] at *
            exact ⟨hne, trivial⟩
          | cons ch c =>
            exfalso
            rcases hr with h | ⟨c', p, h, hc⟩
            · rw [e4] at h; simp at h
            · rw [e4] at h; simp at h
              have := hx ch (by simp)
              rw [h.1] at this; rw [this] at hc; cases hc
    · -- sp = pre ++ a, x ++ post = a ++ (w ++ r)
      have ha : a = [] := by
        cases a with
        | nil => rfl
        | cons c a =>
          exfalso
          cases x with
          | nil => exact hne rfl
          | cons d x =>
            simp at e2
            have h1 := hsp c (by simp)
            have h2 := hx d (by simp)
            rw [e2.1] at h2; rw [h2] at h1; cases h1
      subst ha
      simp only [List.nil_append, List.append_nil] at *
      rcases List.append_eq_append_iff.1 e2 with ⟨c, rfl, e4⟩ | ⟨c, rfl, e4⟩
      · cases c with
        | nil => left; exact ⟨by simpa using hne, by simp⟩
        | cons ch c =>
          exfalso
          rcases hpost with h | ⟨c', p, h, hc⟩
          · rw [e4] at h; simp at h
          · rw [e4] at h; simp at h
            have hcw := hw ch (by simp)
            rw [h.1] at hcw; rw [hcw] at hc; cases hc
      · cases c with
        | nil =>
          simp only [List.append_nil] at *
          left; exact ⟨hne, trivial⟩
        | cons ch c =>
          exfalso
          rcases hr with h | ⟨c', p, h, hc⟩
          · rw [e4] at h; simp at h
          · rw [e4] at h; simp at h
            have := hx ch (by simp)
            rw [h.1] at this; rw [this] at hc; cases hc
  · rintro (⟨hne, rfl⟩ | ⟨hne, hx, pre, post, e, hpre, hpost⟩)
    · refine ⟨hne, hw, sp, r, rfl, ?_, hr⟩
      rcases nil_or_snoc sp with rfl | ⟨b', c, rfl⟩
      · exact .inl rfl
      · exact .inr ⟨b', c, rfl, hsp c (by simp)⟩
    · refine ⟨hne, hx, sp ++ w ++ pre, post, by simp [e], ?_, hpost⟩
      rcases hpre with rfl | ⟨p, c, rfl, hc⟩
      · -- r starts with x, but r is empty or starts with a space
        exfalso
        cases x with
        | nil => exact hne rfl
        | cons d x =>
          rcases hr with h | ⟨c', p, h, hc⟩
          · rw [e] at h; simp at h
          · rw [e] at h; simp at h
            have := hx d (by simp)
            rw [h.1] at this; rw [this] at hc; cases hc
      · exact .inr ⟨sp ++ w ++ p, c, by simp, hc⟩

theorem matchesWordLoop_iff {i word} : ∀ f s, s.length < f →
    (matchesWordLoop (cmp i) word f s = true ↔ ∃ w, WordOf w s ∧ SameStr i w word) := by
  intro f
  induction f with
  | zero => intro s h; omega
  | succ f ih =>
    intro s hf
    cases s with
    | nil =>
      simp only [matchesWordLoop]
      constructor
      · intro h; cases h
      · rintro ⟨w, ⟨hne, -, pre, post, e, -⟩, -⟩
        simp at e; exact absurd e.2.1 hne
    | cons c s =>
      simp only [matchesWordLoop]
      obtain ⟨sp, e1, h1, h1'⟩ := skipSpaces_eq (c :: s)
      obtain ⟨e2, h2, h3⟩ := takeWord_eq (skipSpaces (c :: s))
      have hlen : (takeWord (skipSpaces (c :: s))).2.length < f := by
        have l1 := congrArg List.length e1
        have l2 := congrArg List.length e2
        simp only [List.length_append] at l1 l2
        have hpos : 0 < (takeWord (skipSpaces (c :: s))).1.length ∨ 0 < sp.length := by
          cases sp with
          | cons => right; simp
          | nil =>
            left
            simp at e1
            have hc : isSpace c = false := by
              rcases h1' with h | ⟨c', p, h, hc⟩
              · rw [← e1] at h; cases h
              · rw [← e1] at h; simp at h; rw [h.1]; exact hc
            rw [← e1]; simp [takeWord, hc]
        omega
      have key : ∀ x, WordOf x (c :: s) ↔ ((takeWord (skipSpaces (c :: s))).1 ≠ [] ∧
          x = (takeWord (skipSpaces (c :: s))).1) ∨ WordOf x (takeWord (skipSpaces (c :: s))).2 := by
        intro x
        have := wordOf_step (x := x) h1 h2 h3
        rw [List.append_assoc, ← e2, ← e1] at this
        exact this
      by_cases hc : (takeWord (skipSpaces (c :: s))).1 ≠ [] ∧
          startWith (cmp i) (takeWord (skipSpaces (c :: s))).1 word = .yes
      · rw [if_pos hc]
        constructor
        · intro _
          exact ⟨_, (key _).2 (.inl ⟨hc.1, rfl⟩), startWith_yes.1 hc.2⟩
        · intro _; rfl
      · rw [if_neg hc, ih _ hlen]
        constructor
        · rintro ⟨w, hw, hs⟩; exact ⟨w, (key w).2 (.inr hw), hs⟩
        · rintro ⟨w, hw, hs⟩
          rcases (key w).1 hw with ⟨h, rfl⟩ | h
          · exact absurd ⟨h, startWith_yes.2 hs⟩ hc
          · exact ⟨w, h, hs⟩

theorem matchesWord_iff {i s word} : matchesWord (cmp i) s word = true ↔ ∃ w, WordOf w s ∧ SameStr i w word :=
  matchesWordLoop_iff _ _ (by omega)

theorem sameStr_space {i w s} (h : SameStr i w s) (hs : ' ' ∈ s) : ' ' ∈ w := by
  induction w generalizing s with
  | nil => rw [sameStr_nil_left] at h; subst h; cases hs
  | cons a w ih =>
    cases s with
    | nil => cases hs
    | cons b s =>
      rcases List.mem_cons.1 hs with rfl | hs
      · rcases h.1 with rfl | ⟨-, j, hj, h⟩
        · simp
        · have : (' ' : Char).toNat = 32 := by decide
          omega
      · exact List.mem_cons.2 (.inr (ih h.2 hs))

/-- Attribute selectors do what they say. -/
theorem matchAttr_iff (s : AttrSel) (e : Element) : matchAttr s e = true ↔ AttrMeans s e := by
  unfold matchAttr AttrMeans
  simp only [← attrValue_iff]
  cases hv : attrValue s e with
  | none => cases s.op <;> simp
  | some v =>
    cases s.op with
    | present => simp
    | exact => simp [startWith_yes]
    | contains =>
      simp only [Option.some.injEq, exists_eq_left']
      split
      · rename_i h
        simp only [List.contains_iff_mem] at h
        constructor
        · intro h; cases h
        · rintro ⟨w, hw, hs⟩
          have := sameStr_space hs h
          have := hw.2.1 _ this
          exact absurd (.inl rfl) this
      · split
        · rename_i h
          have h : s.value = [] := List.length_eq_zero_iff.1 h
          constructor
          · intro h; cases h
          · rintro ⟨w, hw, hs⟩
            rw [h, sameStr_nil_right] at hs
            exact absurd hs hw.1
        · exact matchesWord_iff
    | hyphenated =>
      simp only [Option.some.injEq, exists_eq_left']
      split
      · rename_i h
        simp [startWith_yes.1 h]
      · rename_i h
        constructor
        · intro h; cases h
        · rintro (hs | ⟨x, y, rfl, hs⟩)
          · rw [startWith_yes.2 hs] at h; cases h
          · exact absurd h (startWith_prefix.2 ⟨x, _, rfl, hs⟩)
      · rename_i h
        rw [beq_iff_eq, startWith_part h]
        constructor
        · exact .inr
        · rintro (hs | h)
          · rw [startWith_yes.2 hs] at h; cases h
          · exact h
    | startWith =>
      simp only [Option.some.injEq, exists_eq_left']
      split
      · rename_i h; simp [List.length_eq_zero_iff.1 h]
      · rename_i h
        rw [bne_iff_ne, startWith_prefix]
        simp [show s.value ≠ [] from fun e => h (by simp [e])]
    | endWith =>
      simp only [Option.some.injEq, exists_eq_left']
      split
      · rename_i h; simp [List.length_eq_zero_iff.1 h]
      · rename_i h
        rw [bne_iff_ne, endWith_suffix]
        simp [show s.value ≠ [] from fun e => h (by simp [e])]
    | contain =>
      simp only [Option.some.injEq, exists_eq_left']
      split
      · rename_i h; simp [List.length_eq_zero_iff.1 h]
      · rename_i h
        rw [containsSub_iff]
        simp [show s.value ≠ [] from fun e => h (by simp [e])]

end Verif.Selector
