import Verif.Build.TextSpec
/-!
# Building boxes: lemmas on white space
-/
namespace Verif.Build

theorem isSpace_iff (c : Char) : isSpace c = true ↔ White c := by
  unfold isSpace White
  have h9 : c = '\t' ↔ c.toNat = 9 := by
    constructor
    · intro h; subst h; rfl
    · intro h; apply Char.ext; apply UInt32.toNat_inj.1; exact h
  have h10 : c = '\n' ↔ c.toNat = 10 := by
    constructor
    · intro h; subst h; rfl
    · intro h; apply Char.ext; apply UInt32.toNat_inj.1; exact h
  have h13 : c = '\r' ↔ c.toNat = 13 := by
    constructor
    · intro h; subst h; rfl
    · intro h; apply Char.ext; apply UInt32.toNat_inj.1; exact h
  have h32 : c = ' ' ↔ c.toNat = 32 := by
    constructor
    · intro h; subst h; rfl
    · intro h; apply Char.ext; apply UInt32.toNat_inj.1; exact h
  rw [h9, h10, h13]
  simp only [Bool.or_eq_true, decide_eq_true_eq, Bool.and_eq_true, h32]
  omega

theorem isSpace_eq (c : Char) : isSpace c = decide (White c) := by
  by_cases h : White c
  · rw [(isSpace_iff c).2 h]; simp [h]
  · have : isSpace c = false := by
      cases hc : isSpace c
      · rfl
      · exact absurd ((isSpace_iff c).1 hc) h
    rw [this]; simp [h]

theorem isBreak_eq (c : Char) : isBreak c = decide (LineEnd c) := by
  have h10 : c = '\n' ↔ c.toNat = 10 := by
    constructor
    · intro h; subst h; rfl
    · intro h; apply Char.ext; apply UInt32.toNat_inj.1; exact h
  have h13 : c = '\r' ↔ c.toNat = 13 := by
    constructor
    · intro h; subst h; rfl
    · intro h; apply Char.ext; apply UInt32.toNat_inj.1; exact h
  unfold isBreak
  rw [Bool.eq_iff_iff]
  simp only [Bool.or_eq_true, decide_eq_true_eq, LineEnd, h10, h13]
  omega

theorem toNat_ofNat {n : Nat} (h : n < 55296) : (Char.ofNat n).toNat = n := by
  have hv : n.isValidChar := Or.inl h
  unfold Char.ofNat
  rw [dif_pos hv]
  show (UInt32.ofNatLT n _).toNat = n
  rfl

theorem upper_toNat (c : Char) : (upper c).toNat = if 97 ≤ c.toNat ∧ c.toNat ≤ 122 then c.toNat - 32 else c.toNat := by
  unfold upper
  split
  · next h => exact toNat_ofNat (by omega)
  · rfl

theorem lower_toNat (c : Char) : (lower c).toNat = if 65 ≤ c.toNat ∧ c.toNat ≤ 90 then c.toNat + 32 else c.toNat := by
  unfold lower
  split
  · next h => exact toNat_ofNat (by omega)
  · rfl

theorem toNat_inj {a b : Char} (h : a.toNat = b.toNat) : a = b :=
  Char.ext (UInt32.toNat_inj.1 h)

theorem toUpper_toNat (c : Char) : c.toUpper.toNat = if 97 ≤ c.toNat ∧ c.toNat ≤ 122 then c.toNat - 32 else c.toNat := by
  unfold Char.toUpper
  split
  · next h =>
    have h1 : 97 ≤ c.toNat ∧ c.toNat ≤ 122 := h
    rw [if_pos h1]
    show (c.val + ('A'.val - 'a'.val)).toNat = _
    rw [UInt32.toNat_add]
    show (c.toNat + 4294967264) % 4294967296 = _
    omega
  · next h =>
    have h1 : ¬ (97 ≤ c.toNat ∧ c.toNat ≤ 122) := h
    rw [if_neg h1]

theorem toLower_toNat (c : Char) : c.toLower.toNat = if 65 ≤ c.toNat ∧ c.toNat ≤ 90 then c.toNat + 32 else c.toNat := by
  unfold Char.toLower
  split
  · next h =>
    have h1 : 65 ≤ c.toNat ∧ c.toNat ≤ 90 := h
    rw [if_pos h1]
    show (c.val + ('a'.val - 'A'.val)).toNat = _
    rw [UInt32.toNat_add]
    show (c.toNat + 32) % 4294967296 = _
    omega
  · next h =>
    have h1 : ¬ (65 ≤ c.toNat ∧ c.toNat ≤ 90) := h
    rw [if_neg h1]

theorem transform_eq_cased (t : Trans) : transform t = cased t := by
  funext c
  cases t with
  | none => rfl
  | capitalize => rfl
  | uppercase =>
    apply toNat_inj
    simp only [transform, cased, upper_toNat, toUpper_toNat]
  | lowercase =>
    apply toNat_inj
    simp only [transform, cased, lower_toNat, toLower_toNat]

theorem isSpace_toNat (c : Char) : isSpace c = (decide (c.toNat = 32) || decide (9 ≤ c.toNat) && decide (c.toNat ≤ 13)) := by
  have h32 : c = ' ' ↔ c.toNat = 32 := by
    constructor
    · intro h; subst h; rfl
    · intro h; exact toNat_inj h
  unfold isSpace
  rw [Bool.eq_iff_iff]
  simp [h32]

theorem isSpace_transform (t : Trans) (c : Char) : isSpace (transform t c) = isSpace c := by
  cases t with
  | none => rfl
  | capitalize => rfl
  | uppercase =>
    simp only [transform, isSpace_toNat, upper_toNat]
    rw [Bool.eq_iff_iff]
    simp only [Bool.or_eq_true, decide_eq_true_eq, Bool.and_eq_true]
    split <;> omega
  | lowercase =>
    simp only [transform, isSpace_toNat, lower_toNat]
    rw [Bool.eq_iff_iff]
    simp only [Bool.or_eq_true, decide_eq_true_eq, Bool.and_eq_true]
    split <;> omega

theorem transform_idem (t : Trans) (c : Char) : transform t (transform t c) = transform t c := by
  cases t with
  | none => rfl
  | capitalize => rfl
  | uppercase =>
    apply toNat_inj
    simp only [transform, upper_toNat]
    (repeat' split) <;> omega
  | lowercase =>
    apply toNat_inj
    simp only [transform, lower_toNat]
    (repeat' split) <;> omega

theorem transform_space (t : Trans) {c : Char} (h : isSpace c = true) : transform t c = c := by
  rw [isSpace_toNat] at h
  simp only [Bool.or_eq_true, decide_eq_true_eq, Bool.and_eq_true] at h
  cases t with
  | none => rfl
  | capitalize => rfl
  | uppercase =>
    apply toNat_inj
    simp only [transform, upper_toNat]
    split <;> omega
  | lowercase =>
    apply toNat_inj
    simp only [transform, lower_toNat]
    split <;> omega

theorem white_transform (t : Trans) (c : Char) : White (transform t c) ↔ White c := by
  rw [← isSpace_iff, ← isSpace_iff, isSpace_transform]

theorem collapsed_white (w : Ws) (b : Bool) : isSpace (collapsed w b) = true := by
  unfold collapsed
  split <;> rfl

theorem oneFor_white (w : Ws) (r : List Char) : White (oneFor w r) := by
  unfold oneFor
  split
  · exact Or.inr (Or.inr (Or.inl rfl))
  · exact Or.inl rfl

/-- Both forms of the loop at once: inside a run the run read so far is `r`. -/
theorem loop_squeeze (sty : Sty) (hc : collapsible sty.ws = true) (s : List Char) :
    Squeeze (oneFor sty.ws) (transform sty.trans) s (appendLoop sty none s) ∧
    ∀ r : List Char, r ≠ [] → (∀ c ∈ r, White c) →
      Squeeze (oneFor sty.ws) (transform sty.trans) (r ++ s)
        (appendLoop sty (some (r.any fun c => decide (LineEnd c))) s) := by
  induction s with
  | nil =>
    refine ⟨.nil, fun r hr hw => ?_⟩
    have h := Squeeze.run (one := oneFor sty.ws) (f := transform sty.trans) hr hw (s := []) (by simp) .nil
    simp only [appendLoop, collapsed]
    simpa [oneFor] using h
  | cons c s ih =>
    have hd : ∀ r : List Char, r ≠ [] → (∀ c ∈ r, White c) → isSpace c = true →
        Squeeze (oneFor sty.ws) (transform sty.trans) (r ++ c :: s)
          (appendLoop sty (some ((r.any fun c => decide (LineEnd c)) || isBreak c)) s) := by
      intro r hr hw hsp
      have h := ih.2 (r ++ [c]) (by simp) (by
        intro x hx
        rcases List.mem_append.1 hx with hx | hx
        · exact hw x hx
        · have : x = c := by simpa using hx
          subst this; exact (isSpace_iff x).1 hsp)
      rw [List.append_assoc] at h
      simpa [isBreak_eq] using h
    constructor
    · cases hsp : isSpace c with
      | false =>
        have : appendLoop sty none (c :: s) = transform sty.trans c :: appendLoop sty none s := by
          simp [appendLoop, hsp]
        rw [this]
        exact .char (fun h => by rw [(isSpace_iff c).2 h] at hsp; cases hsp) ih.1
      | true =>
        have : appendLoop sty none (c :: s) = appendLoop sty (some (isBreak c)) s := by
          simp [appendLoop, hsp, hc]
        rw [this]
        have h := ih.2 [c] (by simp) (by intro x hx; have : x = c := by simpa using hx
                                         subst this; exact (isSpace_iff x).1 hsp)
        simpa [isBreak_eq] using h
    · intro r hr hw
      cases hsp : isSpace c with
      | true =>
        have h := hd r hr hw hsp
        simpa [appendLoop, hsp] using h
      | false =>
        have hn : ¬ White c := fun h => by rw [(isSpace_iff c).2 h] at hsp; cases hsp
        have h := Squeeze.run (one := oneFor sty.ws) (f := transform sty.trans) hr hw (s := c :: s)
          (by intro x hx; have : c = x := by simpa using hx
              subst this; exact hn) (.char hn ih.1)
        simpa [appendLoop, hsp, collapsed, oneFor] using h

theorem loop_pre (sty : Sty) (hc : collapsible sty.ws = false) (s : List Char) :
    appendLoop sty none s = s.map (transform sty.trans) := by
  induction s with
  | nil => rfl
  | cons c s ih =>
    cases hsp : isSpace c with
    | false => simp [appendLoop, hsp, ih]
    | true => simp [appendLoop, hsp, hc, ih, transform_space _ hsp]

theorem Squeeze.noTwo_head {one : List Char → Char} {f : Char → Char} (hone : ∀ r, White (one r))
    (hf : ∀ c, White (f c) ↔ White c) {s o : List Char} (h : Squeeze one f s o) :
    NoTwo o ∧ (∀ x, o.head? = some x → White x → ∃ y, s.head? = some y ∧ White y) := by
  induction h with
  | nil => exact ⟨fun a b x y e => by simp at e, by simp⟩
  | @char c s o hc _ ih =>
    refine ⟨fun a b x y e hxy => ?_, ?_⟩
    · cases a with
      | nil =>
        injection e with e1 e2
        subst e1
        exact hc ((hf _).1 hxy.1)
      | cons a0 a =>
        injection e with e1 e2
        exact ih.1 a b x y e2 hxy
    · intro x hx hw
      have : f c = x := by simpa using hx
      subst this
      exact absurd ((hf _).1 hw) hc
  | @run r s o hr hw hs _ ih =>
    refine ⟨fun a b x y e hxy => ?_, ?_⟩
    · cases a with
      | nil =>
        injection e with e1 e2
        obtain ⟨z, hz, hzw⟩ := ih.2 y (by rw [e2]; rfl) hxy.2
        exact hs z hz hzw
      | cons a0 a =>
        injection e with e1 e2
        exact ih.1 a b x y e2 hxy
    · intro x hx _
      cases r with
      | nil => exact absurd rfl hr
      | cons r0 r => exact ⟨r0, rfl, hw r0 (by simp)⟩

theorem Squeeze.solid_eq {one : List Char → Char} {f : Char → Char} (hone : ∀ r, White (one r))
    (hf : ∀ c, White (f c) ↔ White c) {s o : List Char} (h : Squeeze one f s o) : solid o = (solid s).map f := by
  induction h with
  | nil => rfl
  | @char c s o hc _ ih =>
    have : ¬ White (f c) := fun h => hc ((hf c).1 h)
    unfold solid at ih ⊢
    rw [List.filter_cons_of_pos (by simpa using this), List.filter_cons_of_pos (by simpa using hc), ih]
    rfl
  | @run r s o hr hw hs _ ih =>
    unfold solid at ih ⊢
    rw [List.filter_cons_of_neg (by simpa using hone r), List.filter_append, ih]
    have : r.filter (fun c => !decide (White c)) = [] := by
      rw [List.filter_eq_nil_iff]
      intro c hc
      simpa using hw c hc
    rw [this, List.nil_append]

theorem collapsed_eq (w : Ws) (c : Char) (hc : c = ' ' ∨ (w = .preLine ∧ c = '\n')) : collapsed w (isBreak c) = c := by
  rcases hc with hc | ⟨hw, hc⟩
  · subst hc; unfold collapsed
    rw [if_neg]
    rintro ⟨_, h⟩; exact absurd h (by decide)
  · subst hc hw; rfl

/-- A squeezed text is left as it is by the loop. -/
theorem loop_fixed (sty : Sty) (o : List Char) (hn : NoTwo o)
    (hw : ∀ c ∈ o, White c → c = ' ' ∨ (sty.ws = .preLine ∧ c = '\n'))
    (hf : ∀ c ∈ o, ¬ White c → transform sty.trans c = c) :
    appendLoop sty none o = o ∧
    ∀ x, White x → (∀ y, o.head? = some y → ¬ White y) → (x = ' ' ∨ (sty.ws = .preLine ∧ x = '\n')) →
      appendLoop sty (some (isBreak x)) o = x :: o := by
  induction o with
  | nil =>
    refine ⟨rfl, fun x _ _ hx => ?_⟩
    simp only [appendLoop, collapsed_eq _ _ hx]
  | cons c o ih =>
    have ih := ih (fun a b x y e => hn (c :: a) b x y (by rw [e]; rfl)) (fun x hx => hw x (by simp [hx]))
      (fun x hx => hf x (by simp [hx]))
    have htail : isSpace c = true → ∀ y, o.head? = some y → ¬ White y := by
      intro hsp y hy hyw
      cases o with
      | nil => cases hy
      | cons o0 o =>
        have : o0 = y := by simpa using hy
        subst this
        exact hn [] o c o0 rfl ⟨(isSpace_iff c).1 hsp, hyw⟩
    constructor
    · cases hsp : isSpace c with
      | false =>
        have hnw : ¬ White c := fun h => by rw [(isSpace_iff c).2 h] at hsp; cases hsp
        simp [appendLoop, hsp, ih.1, hf c (by simp) hnw]
      | true =>
        have hcw := hw c (by simp) ((isSpace_iff c).1 hsp)
        by_cases hc : collapsible sty.ws = true
        · have : appendLoop sty none (c :: o) = appendLoop sty (some (isBreak c)) o := by
            simp [appendLoop, hsp, hc]
          rw [this]
          exact ih.2 c ((isSpace_iff c).1 hsp) (htail hsp) hcw
        · have : appendLoop sty none (c :: o) = c :: appendLoop sty none o := by
            simp [appendLoop, hsp, hc]
          rw [this, ih.1]
    · intro x hx hh hx2
      have hnw : ¬ White c := hh c rfl
      have hsp : isSpace c = false := by rw [isSpace_eq]; simpa using hnw
      simp only [appendLoop, hsp]
      simp [collapsed_eq _ _ hx2, hf c (by simp) hnw, ih.1]

theorem Squeeze.out_chars {one : List Char → Char} {f : Char → Char} {s o : List Char} (h : Squeeze one f s o) :
    ∀ c ∈ o, (∃ r, c = one r) ∨ ∃ d, ¬ White d ∧ c = f d := by
  induction h with
  | nil => simp
  | @char c s o hc _ ih =>
    intro x hx
    rcases List.mem_cons.1 hx with hx | hx
    · exact Or.inr ⟨c, hc, hx⟩
    · exact ih x hx
  | @run r s o _ _ _ _ ih =>
    intro x hx
    rcases List.mem_cons.1 hx with hx | hx
    · exact Or.inl ⟨r, hx⟩
    · exact ih x hx

theorem dropWhile_head (s : List Char) : ∀ c, (s.dropWhile isSpace).head? = some c → ¬ White c := by
  induction s with
  | nil => simp
  | cons a s ih =>
    intro c h
    cases ha : isSpace a with
    | true => rw [List.dropWhile_cons_of_pos ha] at h; exact ih c h
    | false =>
      rw [List.dropWhile_cons_of_neg (by simp [ha])] at h
      have : a = c := by simpa using h
      subst this
      rw [isSpace_eq] at ha
      simpa using ha

theorem solid_dropWhile (s : List Char) : solid (s.dropWhile isSpace) = solid s := by
  induction s with
  | nil => rfl
  | cons a s ih =>
    cases ha : isSpace a with
    | true =>
      rw [List.dropWhile_cons_of_pos ha, ih]
      unfold solid
      rw [List.filter_cons_of_neg]
      simpa using (isSpace_iff a).1 ha
    | false => rw [List.dropWhile_cons_of_neg (by simp [ha])]

theorem solid_map (t : Trans) (s : List Char) : solid (s.map (transform t)) = (solid s).map (transform t) := by
  induction s with
  | nil => rfl
  | cons a s ih =>
    unfold solid at ih ⊢
    by_cases ha : White a
    · have hb := (white_transform t a).2 ha
      rw [List.map_cons, List.filter_cons_of_neg (by simpa using hb), List.filter_cons_of_neg (by simpa using ha), ih]
    · have hb : ¬ White (transform t a) := fun h => ha ((white_transform t a).1 h)
      rw [List.map_cons, List.filter_cons_of_pos (by simpa using hb), List.filter_cons_of_pos (by simpa using ha), ih]
      rfl

theorem solid_append (a b : List Char) : solid (a ++ b) = solid a ++ solid b := by
  unfold solid; exact List.filter_append ..

/-- Every kind of text keeps the characters that are not white space. -/
theorem appendText_solid (sty : Sty) (active : Bool) (s : List Char) :
    solid (appendText sty active s) = (solid s).map (transform sty.trans) := by
  have h2 : solid (if active = true then s else s.dropWhile isSpace) = solid s := by
    split
    · rfl
    · exact solid_dropWhile s
  unfold appendText
  cases hc : collapsible sty.ws with
  | false => rw [loop_pre _ hc, solid_map, h2]
  | true =>
    rw [(loop_squeeze sty hc _).1.solid_eq (oneFor_white _) (white_transform _), h2]

theorem blank_solid {s : List Char} (h : blank s = true) : solid s = [] := by
  unfold blank at h
  rw [← solid_dropWhile]
  rw [List.isEmpty_iff.1 h]
  rfl

theorem appendText_ne_nil {sty : Sty} {active : Bool} {s : List Char} (h : blank s = false) :
    appendText sty active s ≠ [] := by
  have : solid s ≠ [] := by
    intro e
    rw [← solid_dropWhile] at e
    unfold blank at h
    cases hd : s.dropWhile isSpace with
    | nil => rw [hd] at h; cases h
    | cons c t =>
      have := dropWhile_head s c (by rw [hd]; rfl)
      rw [hd] at e
      unfold solid at e
      rw [List.filter_cons_of_pos (by simpa using this)] at e
      cases e
  intro e
  have h2 := appendText_solid sty active s
  rw [e] at h2
  have : solid s = [] := by
    have h3 : (solid s).map (transform sty.trans) = [] := h2.symm
    simpa using h3
  contradiction

end Verif.Build
