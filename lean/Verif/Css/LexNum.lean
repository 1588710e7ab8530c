import Verif.Css.LexRead
/-!
# Reading numbers and strings: helper lemmas
-/
namespace Verif.Css
open LexSpec

theorem mDigits_digits {d r : Text} (h : Digits d) (hr : ¬Begins Digit r) : mDigits (d ++ r) = some r := by
  obtain ⟨h0, hd⟩ := h
  cases d with
  | nil => exact absurd rfl h0
  | cons c d =>
    show (if isDigit c then some ((d ++ r).dropWhile isDigit) else none) = _
    rw [(isDigit_iff c).2 (hd c (List.mem_cons_self ..)), if_pos rfl]
    rw [dropWhile_all fun x hx => (isDigit_iff x).2 (hd x (List.mem_cons_of_mem _ hx))]
    cases r with
    | nil => rfl
    | cons x r => simp [List.dropWhile, neg_of (isDigit_iff x) hr]

theorem mDigits_none {r : Text} (hr : ¬Begins Digit r) : mDigits r = none := by
  cases r with
  | nil => rfl
  | cons x r =>
    show (if isDigit x then _ else none) = _
    rw [neg_of (isDigit_iff x) hr]; rfl

theorem mDigits_begins {s r : Text} (h : mDigits s = some r) : Begins Digit s := by
  apply Classical.byContradiction
  intro k
  rw [mDigits_none k] at h
  cases h

/-- Not a sign. -/
def NoSign (r : Text) : Prop := ¬Begins (fun c => c = 43 ∨ c = 45) r

theorem eatSign_sign {sg r : Text} (h : Sign sg) (hr : NoSign r) : eatSign (sg ++ r) = r := by
  rcases h with rfl | rfl | rfl
  · cases r with
    | nil => rfl
    | cons c r =>
      have hr : ¬(c = 43 ∨ c = 45) := hr
      show (if _ then _ else _) = _
      rw [if_neg]
      simp; omega
  · rfl
  · rfl

theorem Digits.noSign {d r : Text} (h : Digits d) : NoSign (d ++ r) := by
  obtain ⟨h0, hd⟩ := h
  cases d with
  | nil => exact absurd rfl h0
  | cons c d =>
    have : Digit c := hd c (List.mem_cons_self ..)
    unfold Digit at this
    show ¬(c = 43 ∨ c = 45)
    omega

theorem Digits.begins {d r : Text} (h : Digits d) : Begins Digit (d ++ r) := by
  obtain ⟨h0, hd⟩ := h
  cases d with
  | nil => exact absurd rfl h0
  | cons c d => exact hd c (List.mem_cons_self ..)

theorem mFraction_frac {f r : Text} (h : Fraction f) (hr : ¬Begins Digit r) : mFraction (f ++ r) = some r := by
  obtain ⟨d, rfl, hd⟩ := h
  exact mDigits_digits hd hr

theorem mFraction_none {r : Text} (h : ∀ f r', r = f ++ r' → ¬Fraction f) : mFraction r = none := by
  unfold mFraction
  split
  · rename_i r
    apply mDigits_none
    intro k
    cases r with
    | nil => exact k
    | cons c r => exact h [46, c] r rfl ⟨[c], rfl, by simp, fun x hx => by simp at hx; subst hx; exact k⟩
  · rfl

theorem mExponent_exp {e r : Text} (h : Exponent e) (hr : ¬Begins Digit r) : mExponent (e ++ r) = some r := by
  obtain ⟨e, sg, d, rfl, he, hs, hd⟩ := h
  show (if _ then mDigits (eatSign (sg ++ d ++ r)) else none) = _
  rw [if_pos (by simp; exact he), List.append_assoc, eatSign_sign hs (Digits.noSign hd), mDigits_digits hd hr]

theorem sign_split (r : Text) : ∃ sg, Sign sg ∧ r = sg ++ eatSign r := by
  cases r with
  | nil => exact ⟨[], Or.inl rfl, rfl⟩
  | cons c r =>
    by_cases h : (c == 45 || c == 43) = true
    · refine ⟨[c], ?_, ?_⟩
      · simp at h
        rcases h with rfl | rfl
        · exact Or.inr (Or.inr rfl)
        · exact Or.inr (Or.inl rfl)
      · show _ = [c] ++ (if _ then _ else _)
        rw [if_pos h]; rfl
    · refine ⟨[], Or.inl rfl, ?_⟩
      show _ = (if _ then _ else _)
      rw [if_neg h]

theorem mExponent_none {r : Text} (h : ∀ e r', r = e ++ r' → ¬Exponent e) : mExponent r = none := by
  unfold mExponent
  split
  · rename_i e r
    split
    · rename_i he
      apply mDigits_none
      intro k
      obtain ⟨sg, hs, er⟩ := sign_split r
      cases hk : eatSign r with
      | nil => rw [hk] at k; exact k
      | cons c t =>
        rw [hk] at k er
        refine h (e :: (sg ++ [c])) t ?_ ⟨e, sg, [c], rfl, by simpa using he, hs, by simp, fun x hx => by simp at hx; subst hx; exact k⟩
        rw [er]; simp
    · rfl
  · rfl

theorem mNumber_eq (s : Text) : mNumber s =
    ((match mDigits (eatSign s) with
      | some r => some ((mFraction r).getD r)
      | none => mFraction (eatSign s)).map fun r => (mExponent r).getD r) := rfl

theorem Fraction.noSign {f r : Text} (h : Fraction f) : NoSign (f ++ r) := by
  obtain ⟨d, rfl, _⟩ := h
  show ¬((46 : Nat) = 43 ∨ (46 : Nat) = 45)
  omega

theorem Fraction.noDigit {f r : Text} (h : Fraction f) : ¬Begins Digit (f ++ r) := by
  obtain ⟨d, rfl, _⟩ := h
  show ¬(48 ≤ 46 ∧ _)
  omega

theorem Exponent.noDigit {f r : Text} (h : Exponent f) : ¬Begins Digit (f ++ r) := by
  obtain ⟨e, sg, d, rfl, he, _⟩ := h
  show ¬(48 ≤ e ∧ e ≤ 57)
  omega

theorem Exponent.noFrac {e r : Text} (h : Exponent e) : ∀ f r', e ++ r = f ++ r' → ¬Fraction f := by
  obtain ⟨e, sg, d, rfl, he, _⟩ := h
  intro f r' k ⟨d', h', _⟩
  rw [h'] at k
  injection k with k _
  omega

/-- The part before the exponent. -/
theorem mantissa {d f r : Text} (hd : d = [] ∨ Digits d) (hf : Fraction f) (hr : ¬Begins Digit r) :
    (match mDigits (d ++ (f ++ r)) with
      | some r => some ((mFraction r).getD r)
      | none => mFraction (d ++ (f ++ r))) = some r := by
  rcases hd with rfl | hd
  · rw [List.nil_append, mDigits_none (Fraction.noDigit hf)]
    exact mFraction_frac hf hr
  · rw [mDigits_digits hd (Fraction.noDigit hf)]
    show some ((mFraction (f ++ r)).getD _) = _
    rw [mFraction_frac hf hr]; rfl

theorem mNumber_num {r w : Text} (h : Num r w) : mNumber (w ++ r) = some r := by
  cases h with
  | int hs hd h1 h2 h3 =>
    rw [mNumber_eq, List.append_assoc, eatSign_sign hs (Digits.noSign hd), mDigits_digits hd h1]
    show ((some ((mFraction r).getD r)).map fun r => (mExponent r).getD r) = _
    rw [mFraction_none h2]
    show some ((mExponent r).getD r) = _
    rw [mExponent_none h3]; rfl
  | frac hs hd hf h1 h3 =>
    rename_i sg d f
    have : NoSign (d ++ (f ++ r)) := by
      rcases hd with rfl | hd
      · exact Fraction.noSign (f := f) hf
      · exact Digits.noSign hd
    rw [mNumber_eq, List.append_assoc, List.append_assoc, eatSign_sign hs this, mantissa hd hf h1]
    show some ((mExponent r).getD r) = _
    rw [mExponent_none h3]; rfl
  | intExp hs hd he h1 =>
    rename_i sg d e
    rw [mNumber_eq, List.append_assoc, List.append_assoc, eatSign_sign hs (Digits.noSign hd),
      mDigits_digits hd (Exponent.noDigit he)]
    show some ((mExponent ((mFraction (e ++ r)).getD (e ++ r))).getD _) = _
    rw [mFraction_none (Exponent.noFrac he)]
    show some ((mExponent (e ++ r)).getD _) = _
    rw [mExponent_exp he h1]; rfl
  | fracExp hs hd hf he h1 =>
    rename_i sg d f e
    have : NoSign (d ++ (f ++ (e ++ r))) := by
      rcases hd with rfl | hd
      · exact Fraction.noSign (f := f) hf
      · exact Digits.noSign hd
    rw [mNumber_eq, List.append_assoc, List.append_assoc, List.append_assoc, eatSign_sign hs this,
      mantissa hd hf (Exponent.noDigit he)]
    show some ((mExponent (e ++ r)).getD _) = _
    rw [mExponent_exp he h1]; rfl

theorem mNumber_none {s : Text} (h : ¬StartsNum s) : mNumber s = none := by
  obtain ⟨sg, hs, e⟩ := sign_split s
  have h1 : ¬Begins Digit (eatSign s) := fun k => h ⟨sg, _, e, hs, Or.inl k⟩
  have h2 : mFraction (eatSign s) = none := by
    apply mFraction_none
    intro f r' e' ⟨d, hd, hk⟩
    refine h ⟨sg, _, e, hs, Or.inr ⟨d ++ r', ?_, Digits.begins hk⟩⟩
    rw [e', hd]; rfl
  rw [mNumber_eq, mDigits_none h1]
  show (mFraction (eatSign s)).map _ = _
  rw [h2]; rfl

/-! ## Escapes in strings -/

theorem hexDigit_eq {c : Nat} (h : Hex c) : hexDigit c = (nibble c).getD 0 := by
  have := h.range
  unfold hexDigit nibble isDigit
  rcases this with k | k | k
  · rw [if_pos (by simp; omega), if_pos k]; rfl
  · rw [if_neg (by simp; omega), if_neg (by omega), if_neg (by omega), if_pos k]
    show _ = c - 97 + 10
    omega
  · rw [if_neg (by simp; omega), if_pos k.2, if_neg (by omega), if_neg (by omega), if_pos k]
    show _ = c - 65 + 10
    omega

theorem hexValue_fold : ∀ (ds : Text) (v : Nat), (∀ d ∈ ds, Hex d) →
    ds.foldl (fun v c => 16 * v + hexDigit c) v = v * 16 ^ ds.length + value ds
  | [], v, _ => by simp [value]
  | d :: ds, v, h => by
    rw [List.foldl_cons, hexValue_fold ds _ fun x hx => h x (List.mem_cons_of_mem _ hx),
      hexDigit_eq (h d (List.mem_cons_self ..))]
    simp only [value, List.length_cons, Nat.pow_succ, Nat.add_mul]
    rw [Nat.mul_comm 16 v, Nat.mul_assoc v 16, Nat.mul_comm 16 (16 ^ _)]
    omega

theorem hexValue_eq {ds : Text} (h : ∀ d ∈ ds, Hex d) : hexValue ds = value ds := by
  unfold hexValue
  rw [hexValue_fold ds 0 h]
  simp

theorem decoded_eq (v : Nat) (r : Text) :
    (if 0xD800 ≤ v ∧ v ≤ 0xDFFF then (0xFFFD, r) else if v = 0 ∨ v > 0x10FFFF then (0xFFFD, r) else (v, r)) =
      (decoded v, r) := by
  unfold decoded
  split
  · rw [if_neg (by omega)]
  · split
    · rw [if_neg (by omega)]
    · rw [if_pos (by omega)]

theorem escapeCode_hex {ds sp r : Text} (h0 : ds ≠ []) (h1 : ds.length ≤ 5) (hd : ∀ d ∈ ds, Hex d)
    (he : HexEnd true (ds.length = 6) sp r) : escapeCode (ds ++ sp ++ r) = (decoded (value ds), r) := by
  have hx : eatHex 5 (ds ++ (sp ++ r)) = sp ++ r := eatHex_digits 5 ds _ hd h1
    (Or.inr (by rcases he.not_hex with k | k
                · omega
                · exact k))
  have hl := List.length_pos_iff.2 h0
  rw [List.append_assoc]
  unfold escapeCode
  dsimp only
  rw [hx, if_neg (by simp; omega), span_append, hexValue_eq hd]
  exact (decoded_eq (value ds) _).trans (congrArg (Prod.mk _) (skip_space he))

theorem escapeCode_char {c : Nat} {r : Text} (h : ¬Hex c) : escapeCode (c :: r) = (c, r) := by
  unfold escapeCode
  dsimp only
  have : eatHex 5 (c :: r) = c :: r := by
    show (if isHex c then _ else _) = _
    rw [neg_of (isHex_iff c) h]; rfl
  rw [this, if_pos rfl]

theorem HexEnd.more {strict : Bool} {full : Prop} {sp w r : Text} {q : Nat} (h : HexEnd strict full sp (w ++ [q])) :
    HexEnd strict full sp (w ++ q :: r) := by
  have : ∀ p, Begins p (w ++ q :: r) = Begins p (w ++ [q]) := by
    intro p
    cases w <;> rfl
  unfold HexEnd at h ⊢
  rw [this, this, this]
  exact h

theorem stringLoop_cons (q n : Nat) (acc : Text) (c : Nat) (r : Text) : stringLoop q (n + 1) acc (c :: r) =
    if c = q then (⟨.string, acc⟩, r)
    else if isNewline c then (⟨.badString, acc⟩, c :: r)
    else if c = 92 then
      match r with
      | [] => stringLoop q n acc []
      | d :: r' =>
        if isNewline d then stringLoop q n acc r'
        else stringLoop q n (acc ++ [(escapeCode (d :: r')).1]) (escapeCode (d :: r')).2
    else stringLoop q n (acc ++ [c]) r := by
  cases r <;> rfl

theorem stringLoop_body {q : Nat} (hq : q = 34 ∨ q = 39) {w v : Text} (h : Body true q w v) :
    ∀ (n : Nat) (acc r : Text), w.length < n → stringLoop q n acc (w ++ q :: r) = (⟨.string, acc ++ v⟩, r) := by
  have nl : isNewline 92 = false := rfl
  induction h with
  | nil =>
    intro n acc r hn
    cases n with
    | zero => simp at hn
    | succ n =>
      rw [List.nil_append, stringLoop_cons, if_pos rfl, List.append_nil]
  | plain h1 h2 h3 _ ih =>
    intro n acc r hn
    cases n with
    | zero => simp at hn
    | succ n =>
      rw [List.cons_append, stringLoop_cons, if_neg h1, neg_of (isNewline_iff _) h2, if_neg (by simp), if_neg h3,
        ih n _ r (by simp at hn; omega), List.append_assoc]
      rfl
  | char h1 h2 _ ih =>
    intro n acc r hn
    cases n with
    | zero => simp at hn
    | succ n =>
      rw [List.cons_append, List.cons_append, stringLoop_cons, if_neg (by omega), nl, if_neg (by simp), if_pos rfl]
      dsimp only
      rw [neg_of (isNewline_iff _) h1, if_neg (by simp), escapeCode_char h2, ih n _ r (by simp at hn; omega),
        List.append_assoc]
      rfl
  | hex h0 h1 h2 hd he _ ih =>
    intro n acc r hn
    rename_i ds sp w v _
    cases n with
    | zero => simp at hn
    | succ n =>
      have e := escapeCode_hex h0 (h2 rfl) hd (HexEnd.more (r := r) he)
      have hx := hd
      cases ds with
      | nil => exact absurd rfl h0
      | cons d ds =>
        have hh := hd d (List.mem_cons_self ..)
        rw [show (92 :: (d :: ds ++ sp ++ w)) ++ q :: r = 92 :: d :: (ds ++ sp ++ (w ++ q :: r)) by simp,
          stringLoop_cons, if_neg (by omega), nl, if_neg (by simp), if_pos rfl]
        dsimp only
        rw [neg_of (isNewline_iff _) (fun k => k.not_hex hh), if_neg (by simp)]
        rw [show d :: (ds ++ sp ++ (w ++ q :: r)) = d :: ds ++ sp ++ (w ++ q :: r) by simp, e,
          ih n _ r (by simp at hn; omega), List.append_assoc]
        rfl
  | line h1 _ _ ih =>
    intro n acc r hn
    cases n with
    | zero => simp at hn
    | succ n =>
      rw [List.cons_append, List.cons_append, stringLoop_cons, if_neg (by omega), nl, if_neg (by simp), if_pos rfl]
      dsimp only
      rw [(isNewline_iff _).2 h1, if_pos rfl, ih n _ r (by simp at hn; omega)]
  | crlf h => cases h

end Verif.Css
