import Verif.Values.Spec
import Verif.Build.TextLemmas

/-!
# Values: lemmas on letters, numbers and single values
-/

namespace Verif.Values

open Verif.Build (toLower_toNat)

theorem toLower_eq_iff {a b : Char} : a.toLower = b.toLower ↔ SameLetter a b := by
  unfold SameLetter
  have ha := toLower_toNat a
  have hb := toLower_toNat b
  have e : ∀ x y : Char, x = y ↔ x.toNat = y.toNat :=
    fun x y => ⟨fun h => h ▸ rfl, fun h => Char.toNat_inj.mp h⟩
  rw [e a.toLower, e a b, ha, hb]
  split <;> split <;> omega

theorem eqCi_iff {w k : List Char} : eqCi w k = true ↔ Cased w k := by
  unfold eqCi
  induction w generalizing k with
  | nil =>
    cases k with
    | nil => simp [Cased.nil]
    | cons b k => simp; intro h; cases h
  | cons a w ih =>
    cases k with
    | nil => simp; intro h; cases h
    | cons b k =>
      simp only [List.map_cons, beq_iff_eq, List.cons.injEq] at ih ⊢
      rw [toLower_eq_iff, ih]
      exact ⟨fun h => .cons h.1 h.2, fun h => by cases h with | cons h1 h2 => exact ⟨h1, h2⟩⟩

theorem SameLetter.symm {a b : Char} (h : SameLetter a b) : SameLetter b a := by
  unfold SameLetter at *; rcases h with h | h | h
  · exact .inl h.symm
  · exact .inr (.inr h)
  · exact .inr (.inl h)

theorem Cased.refl (w : List Char) : Cased w w := by
  induction w with
  | nil => exact .nil
  | cons a w ih => exact .cons (.inl rfl) ih

theorem Cased.lower {w k : List Char} (h : Cased w k) : w.map Char.toLower = k.map Char.toLower := by
  have := eqCi_iff.mpr h
  simpa [eqCi] using this

/-- What matters of a text compared ignoring case is its lower-case form. -/
theorem Cased.eqCi_congr {w k : List Char} (h : Cased w k) (x : List Char) : eqCi w x = eqCi k x := by
  simp [eqCi, h.lower]

/-! ## Decimal literals -/

theorem digitChar_isDigit (d : Fin 10) : (digitChar d).isDigit = true := by
  revert d; decide

theorem digitChar_val (d : Fin 10) : (digitChar d).toNat - 48 = d.val := by
  revert d; decide

theorem digitChar_ne (d : Fin 10) : digitChar d ≠ '-' ∧ digitChar d ≠ '+' ∧ digitChar d ≠ '.' := by
  revert d; decide

theorem digitsVal_go (ds : List (Fin 10)) (n : Nat) :
    (ds.map digitChar).foldl (fun n c => 10 * n + (c.toNat - 48)) n
      = n * 10 ^ ds.length + decimal ds := by
  induction ds generalizing n with
  | nil => simp [decimal]
  | cons d ds ih =>
    simp only [List.map_cons, List.foldl_cons, ih, decimal, List.length_cons, digitChar_val]
    rw [Nat.pow_succ, Nat.add_mul, Nat.mul_comm 10 n, Nat.mul_assoc, Nat.mul_comm 10 (10 ^ _)]
    omega

theorem digitsVal_eq (ds : List (Fin 10)) : digitsVal (ds.map digitChar) = decimal ds := by
  unfold digitsVal; rw [digitsVal_go]; simp

/-- A text that does not go on with a digit. -/
def NoDigit (rest : List Char) : Prop := ∀ c r, rest = c :: r → c.isDigit = false

/-- A text that does not go on as a number. -/
def EndsNum (rest : List Char) : Prop := ∀ c r, rest = c :: r → c.isDigit = false ∧ c ≠ '.'

theorem digitsOf_append (ds : List (Fin 10)) {rest : List Char} (h : NoDigit rest) :
    digitsOf (ds.map digitChar ++ rest) = ds.map digitChar := by
  unfold digitsOf
  induction ds with
  | nil =>
    cases rest with
    | nil => rfl
    | cons c r => simp [List.takeWhile, h c r rfl]
  | cons d ds ih => simp [List.takeWhile, digitChar_isDigit, ih]

/-- `atof` after the sign. -/
def atofBody (sign : Bool × List Char) : Option (Rat × List Char) :=
  let whole := digitsOf sign.2
  let frac := readFrac (sign.2.drop whole.length)
  if whole.isEmpty && frac.1.isEmpty then none
  else
    let v : Rat := (digitsVal whole : Rat) + (digitsVal frac.1 : Rat) / (10 ^ frac.1.length : Nat)
    some (if sign.1 then -v else v, frac.2)

theorem atof_minus (s : List Char) : atof ('-' :: s) = atofBody (true, s) := rfl
theorem atof_plus (s : List Char) : atof ('+' :: s) = atofBody (false, s) := rfl
theorem atof_none {s : List Char} (h : ∀ c r, s = c :: r → c ≠ '-' ∧ c ≠ '+') :
    atof s = atofBody (false, s) := by
  have : readSign s = (false, s) := by
    unfold readSign
    split
    · exact absurd rfl (h _ _ rfl).1
    · exact absurd rfl (h _ _ rfl).2
    · rfl
  show atofBody (readSign s) = _
  rw [this]

theorem readFrac_none {rest : List Char} (he : EndsNum rest) : readFrac rest = ([], rest) := by
  unfold readFrac
  split
  · exact absurd rfl (he _ _ rfl).2
  · rfl

theorem atofBody_lit (neg : Bool) (whole frac : List (Fin 10)) (hd : whole ≠ [] ∨ frac ≠ [])
    {rest : List Char} (he : EndsNum rest) :
    atofBody (neg, whole.map digitChar ++ (if frac = [] then [] else '.' :: frac.map digitChar) ++ rest)
      = some (if neg then -((decimal whole : Rat) + (decimal frac : Rat) / ((10 ^ frac.length : Nat) : Rat))
          else (decimal whole : Rat) + (decimal frac : Rat) / ((10 ^ frac.length : Nat) : Rat), rest) := by
  have hn : NoDigit rest := fun c r h => (he c r h).1
  by_cases hf : frac = []
  · subst hf
    have hw : whole ≠ [] := by simpa using hd
    have hw' : (whole.map digitChar).isEmpty = false := by
      cases whole with
      | nil => exact absurd rfl hw
      | cons => rfl
    simp only [↓reduceIte, List.append_nil, atofBody]
    rw [digitsOf_append whole hn]
    simp only [List.drop_left, readFrac_none he]
    simp only [hw', Bool.false_and, Bool.false_eq_true, ↓reduceIte, digitsVal_eq]
    simp [decimal, digitsVal]
  · have hn' : NoDigit ('.' :: (frac.map digitChar ++ rest)) := by
      intro c r h; injection h with h _; subst h; rfl
    have hf' : (frac.map digitChar).isEmpty = false := by
      cases frac with
      | nil => exact absurd rfl hf
      | cons => rfl
    have hr : readFrac ('.' :: (frac.map digitChar ++ rest)) = (frac.map digitChar, rest) := by
      simp [readFrac, digitsOf_append frac hn, hf']
    simp only [if_neg hf, List.append_assoc, List.cons_append, atofBody]
    rw [digitsOf_append whole hn']
    rw [List.drop_left, hr]
    simp only [hf', Bool.false_eq_true, ↓reduceIte,
      Bool.and_false, digitsVal_eq, List.length_map]

/-- Reading a literal gives its value and leaves what follows. -/
theorem atof_lit (n : Lit) {rest : List Char} (he : EndsNum rest) :
    atof (n.text ++ rest) = some (n.value, rest) := by
  obtain ⟨sign, whole, frac, hd⟩ := n
  unfold Lit.text Lit.value
  cases sign with
  | none =>
    simp only [List.nil_append]
    rw [atof_none, atofBody_lit false whole frac hd he]
    · simp
    · intro c r h
      cases whole with
      | cons d ds =>
        simp only [List.map_cons, List.cons_append, List.cons.injEq] at h
        rw [← h.1]; exact ⟨(digitChar_ne d).1, (digitChar_ne d).2.1⟩
      | nil =>
        have hf : frac ≠ [] := by simpa using hd
        simp only [List.map_nil, List.nil_append, if_neg hf, List.cons_append, List.cons.injEq] at h
        rw [← h.1]; decide
  | some b =>
    cases b with
    | true =>
      simp only [List.cons_append, List.nil_append, atof_minus]
      rw [atofBody_lit true whole frac hd he]; simp
    | false =>
      simp only [List.cons_append, List.nil_append, atof_plus]
      rw [atofBody_lit false whole frac hd he]; simp

theorem atof_lit_end (n : Lit) : atof n.text = some (n.value, []) := by
  have := atof_lit n (rest := []) (fun c r h => by cases h)
  simpa using this

/-! ## Units -/

theorem valueOfCi_congr {names : List (List Char × α)} {w k : List Char} (h : Cased w k) :
    valueOfCi names w = valueOfCi names k := by
  unfold valueOfCi
  congr 1
  congr 1
  funext p
  exact h.eqCi_congr p.1

theorem absName : ∀ {x : String × AbsUnit × Rat}, x ∈ absTable →
    valueOfCi absNames x.1.toList = some x.2.1 ∧ ∀ c ∈ x.1.toList, 97 ≤ c.toNat ∧ c.toNat ≤ 122 := by
  have : ∀ x ∈ absTable, valueOfCi absNames x.1.toList = some x.2.1 ∧
      ∀ c ∈ x.1.toList, 97 ≤ c.toNat ∧ c.toNat ≤ 122 := by decide +kernel
  intro x h; exact this x h

theorem relName : ∀ {x : String × RelUnit}, x ∈ relTable →
    valueOfCi relNames x.1.toList = some x.2 ∧ valueOfCi absNames x.1.toList = none ∧
    ∀ c ∈ x.1.toList, 97 ≤ c.toNat ∧ c.toNat ≤ 122 := by
  have : ∀ x ∈ relTable, valueOfCi relNames x.1.toList = some x.2 ∧
      valueOfCi absNames x.1.toList = none ∧
      ∀ c ∈ x.1.toList, 97 ≤ c.toNat ∧ c.toNat ≤ 122 := by decide +kernel
  intro x h; exact this x h

/-- A unit name in any case does not go on as a number. -/
theorem endsNum_of_cased {w k : List Char} (h : Cased w k)
    (hk : ∀ c ∈ k, 97 ≤ c.toNat ∧ c.toNat ≤ 122) : EndsNum w := by
  intro c r hw
  subst hw
  cases h with
  | cons h1 h2 =>
    next b k =>
    have hb := hk b List.mem_cons_self
    have hc : 65 ≤ c.toNat := by
      rcases h1 with h | ⟨_, _, h⟩ | ⟨h, _, _⟩
      · subst h; omega
      · omega
      · omega
    constructor
    · simp only [Char.isDigit, Bool.and_eq_false_iff, decide_eq_false_iff_not]
      right
      intro hle
      have : c.toNat ≤ 57 := hle
      omega
    · intro h; subst h; revert hc; decide

/-- An absolute length as written is read as that number of that unit. -/
theorem parseLength_abs {k : String} {u : AbsUnit} {per : Rat} {w : List Char} (n : Lit)
    (hk : (k, u, per) ∈ absTable) (hw : Cased w k.toList) :
    Reads parseLength (.dim (n.text ++ w)) (.abs n.value u) := by
  intro r
  have h1 := absName hk
  have he := endsNum_of_cased hw h1.2
  simp only [parseLength, parseAbs, atof_lit n he, Option.getD_some, valueOfCi_congr hw, h1.1]

/-- A relative length as written is read as that number of that unit. -/
theorem parseLength_rel {k : String} {u : RelUnit} {w : List Char} (n : Lit)
    (hk : (k, u) ∈ relTable) (hw : Cased w k.toList) :
    Reads parseLength (.dim (n.text ++ w)) (.rel n.value u) := by
  intro r
  have h1 := relName hk
  have he := endsNum_of_cased hw h1.2.2
  simp only [parseLength, parseAbs, parseRel, atof_lit n he, Option.getD_some, valueOfCi_congr hw,
    h1.1, h1.2.1]

/-- The percent sign does not go on as a number. -/
theorem endsNum_percent : EndsNum ['%'] := by
  intro c r h; injection h with h _; subst h; decide

theorem parsePercent_lit (n : Lit) : Reads parsePercent (.percent (n.text ++ ['%'])) n.value := by
  intro r
  simp [parsePercent, atof_lit n endsNum_percent]

/-- Failing parsers of lengths do not move. -/
theorem parseLength_fail {l l' : List Tok} (h : parseLength l = (none, l')) : l' = l := by
  unfold parseLength at h
  split at h
  · split at h
    · cases h
    · cases h; rfl
  · next s r =>
    split at h
    · cases h
    · next l2 h2 =>
      have h2' : l2 = .dim s :: r := by
        simp only [parseAbs] at h2
        split at h2
        · cases h2
        · cases h2; rfl
      subst h2'
      simp only [parseRel] at h
      split at h
      · cases h
      · cases h; rfl
  · cases h; rfl

theorem parsePercent_fail {l l' : List Tok} (h : parsePercent l = (none, l')) : l' = l := by
  unfold parsePercent at h
  split at h
  · cases h
  · cases h; rfl

theorem parsePL_fail {l l' : List Tok} (h : parsePL l = (none, l')) : l' = l := by
  unfold parsePL at h
  split at h
  · cases h
  · next r h1 =>
    have := parsePercent_fail h1
    subst this
    split at h
    · cases h
    · next r' h2 => cases h; exact parseLength_fail h2

theorem parseCalc_fail {l l' : List Tok} (h : parseCalc l = (none, l')) : l' = l := by
  unfold parseCalc parseCalcOf at h
  split at h
  · split at h
    · split at h
      · cases h; rfl
      · split at h
        · cases h
        · split at h
          · cases h; rfl
          · cases h
    · cases h; rfl
  · split at h
    · cases h
    · next h2 => cases h; exact parsePL_fail h2

theorem parseWidth_fail {l l' : List Tok} (h : parseWidth l = (none, l')) : l' = l := by
  unfold parseWidth at h
  split at h
  · cases h
  · split at h
    · cases h
    · next h2 => cases h; exact parseCalc_fail h2

end Verif.Values
