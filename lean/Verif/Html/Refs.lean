import Verif.Html.Feed
/-
Pieces of text and references, read in any of the states that hold them.
-/
namespace Verif.Html
open Spec

/-- The state a place is read in. -/
inductive Placed : Place → State → Prop
  | text : Placed .text .data
  | title : Placed .title .rcdata
  | double : Placed (.quoted '"') .valueDoubleQuoted
  | single : Placed (.quoted '\'') .valueSingleQuoted
  | bare : Placed .bare .valueUnquoted

theorem Placed.calm {p : Place} {st : State} (h : Placed p st) : Calm st := by
  cases h <;> simp [Calm]

theorem put_text {E : Env} {s : Lex} (h : s.state = .data ∨ s.state = .rcdata) (cs : Str) :
    put E cs s = emitChars E cs s := by unfold put; rw [if_pos h]

theorem put_value {E : Env} {s : Lex} (h : ¬ (s.state = .data ∨ s.state = .rcdata)) (cs : Str) :
    put E cs s = appends cs s := by unfold put; rw [if_neg h]

theorem put_state (E : Env) (cs : Str) (s : Lex) : (put E cs s).state = s.state := by
  unfold put
  split
  · rw [emitChars_full]
  · rfl

theorem lastTok_append : ∀ (a b : Str) (t : Option Token),
    lastTok (a ++ b) t = lastTok b (lastTok a t)
  | [], _, _ => rfl
  | c :: a, b, t => by simp only [List.cons_append, lastTok]; exact lastTok_append a b _

theorem put_append (E : Env) (a b : Str) (s : Lex) : put E (a ++ b) s = put E b (put E a s) := by
  by_cases h : s.state = .data ∨ s.state = .rcdata
  · rw [put_text h, put_text h, put_text (by rw [emitChars_full]; exact h)]
    simp [emitChars_full, lastTok_append]
  · rw [put_value h, put_value h, put_value (s := appends a s) h]
    simp [appends]

theorem put_traces {E : Env} {cs : Str} {s t : Lex} (h : Traces s t) :
    Traces (put E cs s) (put E cs t) := by
  obtain ⟨ret, temp, cur, m, rfl⟩ := h
  refine ⟨ret, temp, cur, m, ?_⟩
  by_cases h : s.state = .data ∨ s.state = .rcdata
  · rw [put_text h, put_text (s := { s with ret := ret, temp := temp, cur := cur, matched := m }) h,
      emitChars_full, emitChars_full]
  · rw [put_value h, put_value (s := { s with ret := ret, temp := temp, cur := cur, matched := m }) h]
    rfl

theorem Traces.state {s t : Lex} (h : Traces s t) : t.state = s.state := by
  obtain ⟨ret, temp, cur, m, rfl⟩ := h; rfl

theorem plain_step (E : Env) {p : Place} {s : Lex} (hp : Placed p s.state) {c : Char}
    (hc : ¬ p.stops c) : step E s c false = (put E [c] s, false) := by
  unfold step
  cases h : s.state <;> rw [h] at hp <;> cases hp <;> simp only [Place.stops, not_or] at hc
  · rw [put_text (by simp [h])]
    unfold onData
    simp only [if_neg hc.1, if_neg hc.2]
    by_cases h0 : c = '\x00'
    · rw [if_pos h0]; rfl
    · rw [if_neg h0]; rfl
  · rw [put_text (by simp [h])]
    unfold onRcdata
    rw [if_neg hc.1, if_neg hc.2.1, if_neg hc.2.2]
    rfl
  · rw [put_value (by simp [h])]
    show onValueQuoted .valueDoubleQuoted '"' E s c false = _
    unfold onValueQuoted
    rw [if_neg hc.2.1, if_neg hc.1, if_neg hc.2.2]
    rfl
  · rw [put_value (by simp [h])]
    show onValueQuoted .valueSingleQuoted '\'' E s c false = _
    unfold onValueQuoted
    rw [if_neg hc.2.1, if_neg hc.1, if_neg hc.2.2]
    rfl
  · rw [put_value (by simp [h])]
    unfold onValueUnquoted
    rw [if_neg (by rw [space_iff]; exact hc.2.1), if_neg hc.1, if_neg hc.2.2.1, if_neg hc.2.2.2]
    rfl

/-- The tokenizer in the middle of a reference. -/
def mid (s : Lex) (st : State) (temp : Str) (cur : Nat) (m : Option Nat) : Lex :=
  { s with ret := s.state, state := st, temp := temp, cur := cur, matched := m }

theorem mid_amp (E : Env) {s : Lex} (h : Calm s.state) (w : Str) :
    fin E s ('&' :: w) = fin E (mid s .characterReference s.temp s.cur s.matched) w :=
  fin_stay E w (amp_calm E h)

/-- The end of a reference. -/
def after (E : Env) (s : Lex) (temp : Str) (cur : Nat) (m : Option Nat) : Lex :=
  go s.state (flush E (mid s s.state temp cur m))

theorem go_flush (E : Env) {s : Lex} (st : State) (temp : Str) (cur : Nat) (m : Option Nat) :
    go s.state (flush E (mid s st temp cur m)) = after E s temp cur m := by
  unfold after flush
  have : inAttribute (mid s st temp cur m) = inAttribute (mid s s.state temp cur m) := rfl
  rw [this]
  split
  · rfl
  · rw [emitChars_full, emitChars_full]; rfl

theorem after_traces (E : Env) {s : Lex} (h : Calm s.state) (temp : Str) (cur : Nat)
    (m : Option Nat) : Traces (put E temp s) (after E s temp cur m) := by
  obtain ⟨t, e, ht⟩ := flush_put E h rfl temp cur m s.state
  unfold after mid
  rw [e]
  exact ht

theorem after_calm (E : Env) {s : Lex} (h : Calm s.state) (temp : Str) (cur : Nat)
    (m : Option Nat) : Calm (after E s temp cur m).state := h

/-! ### A lone ampersand -/

theorem lone_fin (E : Env) {s : Lex} (h : Calm s.state) {c : Char} (w : Str)
    (hc : ¬ AlphaNum c) (hh : c ≠ '#') :
    fin E s ('&' :: c :: w) = fin E (after E s ['&'] s.cur s.matched) (c :: w) := by
  rw [mid_amp E h]
  apply fin_again
  · show onCharacterReference E _ c false = _
    unfold onCharacterReference
    rw [if_neg (by rw [alphaNum_iff]; exact hc), if_neg hh]
    show (go s.state (flush E (mid s .characterReference ['&'] s.cur s.matched)), true) = _
    rw [go_flush]
  · exact h

/-! ### Numbers -/

/-- A number that stopped growing when it became too large. -/
def Num (n v : Nat) : Prop := n = v ∨ (0x10FFFF < n ∧ 0x10FFFF < v)

theorem num_step {n v base d : Nat} (hb : 1 ≤ base) (h : Num n v) :
    Num (if isUnicode n then n * base + d else n) (v * base + d) := by
  unfold Num at *
  have hv : v ≤ v * base := Nat.le_mul_of_pos_right v hb
  by_cases hu : n ≤ 0x10FFFF
  · rw [if_pos (by simpa [isUnicode] using hu)]
    rcases h with h | h
    · left; rw [h]
    · omega
  · rw [if_neg (by simpa [isUnicode] using hu)]
    rcases h with h | h <;> right <;> omega

theorem conv_none {n : Nat} (h : n < 128 ∨ 160 ≤ n) : conv.find? (fun p => p.1 == n) = none := by
  rw [List.find?_eq_none]
  intro p hp
  have : ∀ p ∈ conv, 128 ≤ p.1 ∧ p.1 < 160 := by decide
  have := this p hp
  simp only [beq_iff_eq]
  omega

theorem codePoint_num {n v : Nat} (h : Num n v) : Char.ofNat (codePoint n) = numbered v := by
  rcases h with rfl | ⟨h, h'⟩
  · unfold codePoint numbered
    by_cases h0 : n = 0
    · simp [h0]
    rw [if_neg h0]
    by_cases h1 : 0x10FFFF < n
    · rw [if_pos (by simpa [isUnicode] using h1), if_pos (Or.inr (Or.inl h1))]
    rw [if_neg (by simpa [isUnicode] using h1)]
    by_cases h2 : 0xD800 ≤ n ∧ n ≤ 0xDFFF
    · rw [if_pos (by simpa [isSurrogate] using h2), if_pos (Or.inr (Or.inr h2))]
    rw [if_neg (by simpa [isSurrogate] using h2), if_neg (by simp [h0]; omega)]
    by_cases h3 : 128 ≤ n ∧ n < 160
    · rw [if_pos h3]
      have key : ∀ k : Fin 32, (match conv.find? fun p => p.1 == k.val + 128 with
          | some p => p.2 | none => k.val + 128) = windows.getD k.val (k.val + 128) := by
        decide +kernel
      have := key ⟨n - 128, by omega⟩
      simp only [show n - 128 + 128 = n by omega] at this
      exact congrArg Char.ofNat this
    · rw [if_neg h3, conv_none (by omega)]
  · unfold codePoint numbered
    rw [if_neg (by omega), if_pos (by simpa [isUnicode] using h), if_pos (by omega)]

theorem numEnd_eqv (E : Env) {s : Lex} (h : Calm s.state) (temp : Str) (n : Nat) (m : Option Nat) :
    Eqv E (mid s .numericReferenceEnd temp n m)
      (after E s [Char.ofNat (codePoint n)] (codePoint n) m) := by
  intro c eof
  apply consume_again
  · show onNumericEnd E _ c eof = _
    unfold onNumericEnd
    show (go s.state (flush E (mid s .numericReferenceEnd [Char.ofNat (codePoint n)] (codePoint n) m)), true) = _
    rw [go_flush]
  · exact h

theorem dec_fin (E : Env) {s : Lex} (h : Calm s.state) (temp : Str) (m : Option Nat) (w : Str) :
    ∀ (ds : Str) (n v : Nat), (∀ c ∈ ds, Digit c) → Num n v →
      ∃ n', fin E (mid s .decReference temp n m) (ds ++ ';' :: w) =
        fin E (after E s [numbered (ds.foldl (fun n c => n * 10 + digit c) v)] n' m) w
  | [], n, v, _, hn => by
    refine ⟨codePoint n, ?_⟩
    have : fin E (mid s .decReference temp n m) (';' :: w) =
        fin E (mid s .numericReferenceEnd temp n m) w := fin_stay E w rfl
    rw [List.nil_append, this, fin_eqv (numEnd_eqv E h temp n m), codePoint_num hn]
    rfl
  | c :: ds, n, v, hd, hn => by
    have hc := hd c (by simp)
    obtain ⟨n', e⟩ := dec_fin E h temp m w ds _ _ (fun x hx => hd x (by simp [hx]))
      (num_step (base := 10) (d := digit c) (by omega) hn)
    refine ⟨n', ?_⟩
    rw [List.foldl_cons, ← e]
    apply fin_stay
    show onDec E _ c false = _
    unfold onDec
    rw [if_pos (digit_iff.mpr hc)]
    have hdig : c.toNat - '0'.toNat = digit c := by
      unfold digit; rw [if_pos hc.2]
    rw [hdig]
    unfold addDigit
    show stay (if isUnicode n then _ else _) = _
    split <;> rfl

theorem dec_ref (E : Env) {s : Lex} (h : Calm s.state) (w : Str) {ds : Str} (hne : ds ≠ [])
    (hd : ∀ c ∈ ds, Digit c) :
    ∃ n m, fin E s ('&' :: '#' :: ds ++ ';' :: w) =
      fin E (after E s [numbered (number 10 ds)] n m) w := by
  obtain ⟨c, r, rfl⟩ : ∃ c r, ds = c :: r := by
    cases ds with
    | nil => exact absurd rfl hne
    | cons c r => exact ⟨c, r, rfl⟩
  have hc := hd c (by simp)
  obtain ⟨n, e⟩ := dec_fin E h ['&', '#'] s.matched w (c :: r) 0 0 hd (Or.inl rfl)
  refine ⟨n, s.matched, ?_⟩
  show fin E s ('&' :: '#' :: (c :: r ++ ';' :: w)) = _
  rw [mid_amp E h]
  have h1 : fin E (mid s .characterReference s.temp s.cur s.matched) ('#' :: (c :: r ++ ';' :: w))
      = fin E (mid s .numericReference ['&', '#'] s.cur s.matched) (c :: r ++ ';' :: w) :=
    fin_stay E _ rfl
  rw [h1]
  unfold number
  rw [← e]
  show fin E (consume E _ c false) _ = fin E (consume E _ c false) _
  congr 1
  have hx : c ≠ 'x' ∧ c ≠ 'X' := by
    constructor <;> (intro e; subst e; exact absurd hc (by unfold Digit; decide))
  have hdg := digit_iff.mpr hc
  have s1 : step E (mid s .numericReference ['&', '#'] s.cur s.matched) c false =
      (mid s .decReferenceStart ['&', '#'] 0 s.matched, true) := by
    show onNumeric E _ c false = _
    unfold onNumeric
    rw [if_neg (by simp [hx])]
    rfl
  have s2 : step E (mid s .decReferenceStart ['&', '#'] 0 s.matched) c false =
      (mid s .decReference ['&', '#'] 0 s.matched, true) := by
    show onDecStart E _ c false = _
    unfold onDecStart
    rw [if_pos hdg]
    rfl
  have s3 : (step E (mid s .decReference ['&', '#'] 0 s.matched) c false).2 = false := by
    show (onDec E _ c false).2 = _
    unfold onDec
    rw [if_pos hdg]
    rfl
  simp [consume, consumeN, s1, s2, s3]

theorem hexDigit_cases {c : Char} (h : HexDigit c) :
    (isDigit c = true ∧ c.toNat - '0'.toNat = digit c) ∨
    (isDigit c = false ∧ isUpper c = true ∧ c.toNat - '7'.toNat = digit c) ∨
    (isDigit c = false ∧ isUpper c = false ∧ isLower c = true ∧ c.toNat - 'W'.toNat = digit c) := by
  unfold HexDigit Digit at h
  simp only [isDigit, isUpper, isLower, digit, Bool.and_eq_true, decide_eq_true_eq,
    Bool.and_eq_false_iff, decide_eq_false_iff_not,
    show '0'.toNat = 48 by decide, show '9'.toNat = 57 by decide, show 'A'.toNat = 65 by decide,
    show 'F'.toNat = 70 by decide, show 'a'.toNat = 97 by decide, show 'f'.toNat = 102 by decide,
    show '7'.toNat = 55 by decide, show 'W'.toNat = 87 by decide] at *
  rcases h with h | h | h
  · left; refine ⟨h, ?_⟩; rw [if_pos h.2]
  · right; left; refine ⟨by omega, by omega, ?_⟩; rw [if_neg (by omega), if_pos h.2]; omega
  · right; right; refine ⟨by omega, by omega, by omega, ?_⟩
    rw [if_neg (by omega), if_neg (by omega)]; omega

theorem hex_fin (E : Env) {s : Lex} (h : Calm s.state) (temp : Str) (m : Option Nat) (w : Str) :
    ∀ (ds : Str) (n v : Nat), (∀ c ∈ ds, HexDigit c) → Num n v →
      ∃ n', fin E (mid s .hexReference temp n m) (ds ++ ';' :: w) =
        fin E (after E s [numbered (ds.foldl (fun n c => n * 16 + digit c) v)] n' m) w
  | [], n, v, _, hn => by
    refine ⟨codePoint n, ?_⟩
    have : fin E (mid s .hexReference temp n m) (';' :: w) =
        fin E (mid s .numericReferenceEnd temp n m) w := fin_stay E w rfl
    rw [List.nil_append, this, fin_eqv (numEnd_eqv E h temp n m), codePoint_num hn]
    rfl
  | c :: ds, n, v, hd, hn => by
    have hc := hd c (by simp)
    obtain ⟨n', e⟩ := hex_fin E h temp m w ds _ _ (fun x hx => hd x (by simp [hx]))
      (num_step (base := 16) (d := digit c) (by omega) hn)
    refine ⟨n', ?_⟩
    rw [List.foldl_cons, ← e]
    apply fin_stay
    show onHex E _ c false = _
    unfold onHex
    rcases hexDigit_cases hc with ⟨h1, hdig⟩ | ⟨h1, h2, hdig⟩ | ⟨h1, h2, h3, hdig⟩
    · rw [if_pos h1, hdig]
      unfold addDigit
      show stay (if isUnicode n then _ else _) = _
      split <;> rfl
    · rw [if_neg (by simp [h1]), if_pos h2, hdig]
      unfold addDigit
      show stay (if isUnicode n then _ else _) = _
      split <;> rfl
    · rw [if_neg (by simp [h1]), if_neg (by simp [h2]), if_pos h3, hdig]
      unfold addDigit
      show stay (if isUnicode n then _ else _) = _
      split <;> rfl

theorem hexDigit_iff (c : Char) : isHexDigit c = true ↔ HexDigit c := by
  simp only [isHexDigit, isDigit, HexDigit, Digit, Bool.or_eq_true, Bool.and_eq_true,
    decide_eq_true_eq, show '0'.toNat = 48 by decide, show '9'.toNat = 57 by decide,
    show 'A'.toNat = 65 by decide, show 'F'.toNat = 70 by decide, show 'a'.toNat = 97 by decide,
    show 'f'.toNat = 102 by decide]
  exact or_assoc

theorem hex_ref (E : Env) {s : Lex} (h : Calm s.state) (w : Str) {x : Char} {ds : Str}
    (hx : x = 'x' ∨ x = 'X') (hne : ds ≠ []) (hd : ∀ c ∈ ds, HexDigit c) :
    ∃ n m, fin E s ('&' :: '#' :: x :: ds ++ ';' :: w) =
      fin E (after E s [numbered (number 16 ds)] n m) w := by
  obtain ⟨c, r, rfl⟩ : ∃ c r, ds = c :: r := by
    cases ds with
    | nil => exact absurd rfl hne
    | cons c r => exact ⟨c, r, rfl⟩
  have hc := hd c (by simp)
  obtain ⟨n, e⟩ := hex_fin E h ['&', '#', x] s.matched w (c :: r) 0 0 hd (Or.inl rfl)
  refine ⟨n, s.matched, ?_⟩
  show fin E s ('&' :: '#' :: x :: (c :: r ++ ';' :: w)) = _
  rw [mid_amp E h]
  have h1 : fin E (mid s .characterReference s.temp s.cur s.matched) ('#' :: x :: (c :: r ++ ';' :: w))
      = fin E (mid s .numericReference ['&', '#'] s.cur s.matched) (x :: (c :: r ++ ';' :: w)) :=
    fin_stay E _ rfl
  have h2 : fin E (mid s .numericReference ['&', '#'] s.cur s.matched) (x :: (c :: r ++ ';' :: w))
      = fin E (mid s .hexReferenceStart ['&', '#', x] 0 s.matched) (c :: r ++ ';' :: w) := by
    apply fin_stay
    show onNumeric E _ x false = _
    unfold onNumeric
    rw [if_pos hx]
    rfl
  rw [h1, h2]
  unfold number
  rw [← e]
  show fin E (consume E _ c false) _ = fin E (consume E _ c false) _
  congr 1
  have s2 : step E (mid s .hexReferenceStart ['&', '#', x] 0 s.matched) c false =
      (mid s .hexReference ['&', '#', x] 0 s.matched, true) := by
    show onHexStart E _ c false = _
    unfold onHexStart
    rw [if_pos ((hexDigit_iff c).mpr hc)]
    rfl
  have s3 : (step E (mid s .hexReference ['&', '#', x] 0 s.matched) c false).2 = false := by
    show (onHex E _ c false).2 = _
    unfold onHex
    rcases hexDigit_cases hc with ⟨h1, _⟩ | ⟨h1, h2, _⟩ | ⟨h1, h2, h3, _⟩
    · rw [if_pos h1]; rfl
    · rw [if_neg (by simp [h1]), if_pos h2]; rfl
    · rw [if_neg (by simp [h1]), if_neg (by simp [h2]), if_pos h3]; rfl
  simp [consume, consumeN, s2, s3]

end Verif.Html
