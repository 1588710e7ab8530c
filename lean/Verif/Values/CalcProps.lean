import Verif.Values.Props

/-!
# Values: calc() (C96)
-/

namespace Verif.Values

theorem exactPx_abs {k : String} {u : AbsUnit} {per : Rat} (h : (k, u, per) ∈ absTable) (c : Ctx)
    (v : Rat) : exactPx c (.abs v u) = v * 96 / per := by
  have : ∀ x ∈ absTable, ∀ v : Rat, exactPx c (.abs v x.2.1) = v * 96 / x.2.2 := by
    simp only [absTable, List.mem_cons, List.not_mem_nil, or_false, forall_eq_or_imp, forall_eq,
      exactPx]
    refine ⟨?_, ?_, ?_, ?_, ?_, ?_, ?_⟩ <;> intro v <;> grind
  exact this _ h v

/-- An operand as written is read as such, and stands for the pixels it says. -/
theorem parseVal_written {c : Ctx} {relative v : Rat} {t : Tok} (h : Written c relative t v) :
    ∃ o, Reads (parseVal parsePL) t o ∧ operandPx (exactPx c) relative o = v := by
  cases h with
  | number n =>
    refine ⟨.num n.value, fun r => ?_, rfl⟩
    simp [parseVal, parseNumber, atof_lit_end]
  | percent n =>
    refine ⟨.val (.percent n.value), fun r => ?_, ?_⟩
    · simp only [parseVal, parsePL, parsePercent_lit n r]
    · simp only [operandPx]; grind
  | abs n hk hw =>
    refine ⟨.val (.length (.abs n.value _)), fun r => ?_, exactPx_abs hk c _⟩
    simp only [parseVal, parsePL, parsePercent, parseLength_abs n hk hw r]
  | rel n hk hw =>
    refine ⟨.val (.length (.rel n.value _)), fun r => ?_, rfl⟩
    simp only [parseVal, parsePL, parsePercent, parseLength_rel n hk hw r]

/-- The tokens of `calc( … )` around contents. -/
def calcOf (content : List Tok) : List Tok := [.func "calc(".toList content]

/-- Any amount of whitespace. -/
def spaces' (n : Nat) : List Tok := List.replicate n .ws

theorem parseOp_spaces (n : Nat) (l : List Tok) : parseOp (spaces' n ++ l) = parseOp l := by
  induction n with
  | zero => rfl
  | succ n ih => simpa [spaces', List.replicate_succ, parseOp] using ih

theorem eatWs_spaces (n : Nat) (l : List Tok) (h : ∀ r, l ≠ .ws :: r) : eatWs (spaces' n ++ l) = l := by
  induction n with
  | zero =>
    simp only [spaces', List.replicate_zero, List.nil_append]
    unfold eatWs
    split
    · next r => exact absurd rfl (h r)
    · rfl
  | succ n ih => simpa [spaces', List.replicate_succ, eatWs] using ih

theorem Written.ne_ws {c : Ctx} {relative v : Rat} {t : Tok} (h : Written c relative t v) :
    t ≠ .ws := by
  cases h <;> simp

/-- **C96.** A value with no `calc()` around it stands for itself. -/
theorem C96_plain (c : Ctx) (relative : Rat) {t : Tok} {v : Rat} (h : Written c relative t v)
    (hn : ∀ s, t ≠ .number s) : calcPx c relative [t] = some (some v) := by
  obtain ⟨o, ho, hv⟩ := parseVal_written h
  cases h with
  | number n => exact absurd rfl (hn _)
  | percent n =>
    have := ho []
    simp only [parseVal, parsePL, parsePercent_lit n []] at this
    obtain ⟨rfl⟩ := (Prod.mk.inj this).1
    simp [calcPx, declared, eatWs, parseCalc, parseCalcOf, parsePL, parsePercent_lit n [],
      resolveCalc, hv]
  | abs n hk hw =>
    simp [calcPx, declared, eatWs, parseCalc, parseCalcOf, parsePL, parsePercent,
      parseLength_abs n hk hw [], resolveCalc, operandPx, exactPx_abs hk]
  | rel n hk hw =>
    simp [calcPx, declared, eatWs, parseCalc, parseCalcOf, parsePL, parsePercent,
      parseLength_rel n hk hw [], resolveCalc, operandPx, exactPx]

/-- **C96.** `calc()` of one value is that value, however much whitespace follows it. -/
theorem C96_one (c : Ctx) (relative : Rat) {t : Tok} {v : Rat} (h : Written c relative t v)
    (k : Nat) : calcPx c relative (calcOf (t :: spaces' k)) = some (some v) := by
  obtain ⟨o, ho, hv⟩ := parseVal_written h
  have h1 := ho (spaces' k)
  have h2 : parseOp (spaces' k) = (none, []) := by
    have := parseOp_spaces k []
    rw [List.append_nil] at this
    rw [this]; rfl
  simp [calcPx, calcOf, declared, eatWs, parseCalc, parseCalcOf, h1, h2, resolveCalc, hv]

theorem Applied.parse {o : Char} {a b : Rat} {res : Option Rat} (h : Applied o a b res) :
    ∃ op, (∀ r, parseOp (.delim [o] :: r) = (some op, r)) ∧
      ∀ px relative l r, operandPx px relative l = a → operandPx px relative r = b →
        resolveCalc px relative (.two op l r) = res := by
  cases h with
  | add => exact ⟨.add, fun r => rfl, fun px rel l r hl hr => by simp [resolveCalc, hl, hr]⟩
  | sub => exact ⟨.sub, fun r => rfl, fun px rel l r hl hr => by simp [resolveCalc, hl, hr]⟩
  | mul => exact ⟨.mul, fun r => rfl, fun px rel l r hl hr => by simp [resolveCalc, hl, hr]⟩
  | div hb => exact ⟨.div, fun r => rfl, fun px rel l r hl hr => by simp [resolveCalc, hl, hr, hb]⟩
  | undef => exact ⟨.div, fun r => rfl, fun px rel l r hl hr => by simp [resolveCalc, hl, hr]⟩

/-- Two operands and what comes after them: the value is that of the two. -/
theorem calc_two (c : Ctx) (relative : Rat) {t u : Tok} {a b : Rat} {o : Char} {res : Option Rat}
    (ht : Written c relative t a) (hu : Written c relative u b) (ho : Applied o a b res)
    (i j : Nat) (junk : List Tok) :
    calcPx c relative (calcOf (t :: (spaces' i ++ .delim [o] :: (spaces' j ++ u :: junk)))) =
      some res := by
  obtain ⟨x, hx, hxa⟩ := parseVal_written ht
  obtain ⟨y, hy, hyb⟩ := parseVal_written hu
  obtain ⟨op, hop, hres⟩ := ho.parse
  have h1 := hx (spaces' i ++ .delim [o] :: (spaces' j ++ u :: junk))
  have h2 := hop (spaces' j ++ u :: junk)
  rw [← parseOp_spaces i] at h2
  have h3 : eatWs (spaces' j ++ u :: junk) = u :: junk :=
    eatWs_spaces j _ (fun r h => hu.ne_ws (List.cons.inj h).1)
  have h4 := hy junk
  simp [calcPx, calcOf, declared, eatWs, parseCalc, parseCalcOf, h1, h2, h3, h4,
    hres _ _ x y hxa hyb]

/-- **C96 (in part).** `calc()` of two values with an operator between them is their sum,
difference, product or quotient, however much whitespace stands around the operator and at the
end.  Longer expressions, parentheses and nested functions: see below. -/
theorem C96_two_partial (c : Ctx) (relative : Rat) {t u : Tok} {a b : Rat} {o : Char}
    {res : Option Rat} (ht : Written c relative t a) (hu : Written c relative u b)
    (ho : Applied o a b res) (i j k : Nat) :
    calcPx c relative (calcOf (t :: (spaces' i ++ .delim [o] :: (spaces' j ++ u :: spaces' k)))) =
      some res :=
  calc_two c relative ht hu ho i j (spaces' k)

/-- `50%`, of 400 pixels, and `10px` -/
example : Written page 400 (.percent "50%".toList) 200 ∧ Written page 400 (.dim "10px".toList) 10 ∧
    Applied '-' 200 10 (some 190) := by
  refine ⟨?_, ?_, ?_⟩
  · have := Written.percent (c := page) (relative := 400) (natLit 5 [0])
    have e : (natLit 5 [0]).text ++ ['%'] = "50%".toList := by decide +kernel
    have e2 : (400 : Rat) * (natLit 5 [0]).value / 100 = 200 := by decide +kernel
    rwa [e, e2] at this
  · have := Written.abs (c := page) (relative := 400) (natLit 1 [0]) (k := "px") (u := .px)
      (per := 96) (w := "px".toList) (by decide +kernel) (Cased.refl _)
    have e : (natLit 1 [0]).text ++ "px".toList = "10px".toList := by decide +kernel
    have e2 : (natLit 1 [0]).value * 96 / 96 = 10 := by decide +kernel
    rwa [e, e2] at this
  · have : (200 : Rat) - 10 = 190 := by decide +kernel
    rw [← this]; exact .sub

/-- **C96.** An operator with nothing after it makes the declaration invalid. -/
theorem C96_missing (c : Ctx) (relative : Rat) {t : Tok} {a b : Rat} {o : Char} {res : Option Rat}
    (ht : Written c relative t a) (ho : Applied o a b res) (i j : Nat) :
    calcPx c relative (calcOf (t :: (spaces' i ++ .delim [o] :: spaces' j))) = none := by
  obtain ⟨x, hx, -⟩ := parseVal_written ht
  obtain ⟨op, hop, -⟩ := ho.parse
  have h1 := hx (spaces' i ++ .delim [o] :: spaces' j)
  have h2 := hop (spaces' j)
  rw [← parseOp_spaces i] at h2
  have h3 : eatWs (spaces' j) = [] := by
    have := eatWs_spaces j [] (fun r h => by cases h)
    simpa using this
  have h4 : parseVal parsePL [] = (none, []) := rfl
  simp [calcPx, calcOf, declared, eatWs, parseCalc, parseCalcOf, h1, h2, h3, h4]

/-- **C96.** It is false that longer expressions have their value or are rejected: whatever
follows the second value is ignored. -/
theorem C96_rest_fails (c : Ctx) (relative : Rat) {t u : Tok} {a b : Rat} {o : Char}
    {res : Option Rat} (ht : Written c relative t a) (hu : Written c relative u b)
    (ho : Applied o a b res) (i j : Nat) (junk : List Tok) :
    calcPx c relative (calcOf (t :: (spaces' i ++ .delim [o] :: (spaces' j ++ u :: junk)))) =
      some res :=
  calc_two c relative ht hu ho i j junk

/-- `calc(1px + 2px + 3px)` is 3px. -/
example : calcPx page 400 (calcOf [.dim "1px".toList, .ws, .delim ['+'], .ws, .dim "2px".toList,
    .ws, .delim ['+'], .ws, .dim "3px".toList]) = some (some 3) := by decide +kernel

/-- **C96.** The same with a value and no operator: `calc(10px -5px)` is 10px. -/
theorem C96_minus_fails : calcPx page 400 (calcOf [.dim "10px".toList, .ws, .dim "-5px".toList]) =
    some (some 10) := by decide +kernel

/-- **C96.** It is false that an expression may be nested: one that begins with a parenthesis, a
function or whitespace is rejected. -/
theorem C96_nested_fails (c : Ctx) (relative : Rat) (t : Tok) (rest : List Tok)
    (h : t = .other ∨ t = .ws ∨ ∃ name args, t = .func name args) :
    calcPx c relative (calcOf (t :: rest)) = none := by
  rcases h with rfl | rfl | ⟨name, args, rfl⟩ <;>
  simp [calcPx, calcOf, declared, eatWs, parseCalc, parseCalcOf, parseVal, parsePL, parsePercent,
    parseLength]

/-- **C96.** It is false that the name may be in any case, or that a product of two lengths is
rejected. -/
theorem C96_case_fails : calcPx page 400 [.func "CALC(".toList [.dim "1px".toList]] = none ∧
    calcPx page 400 (calcOf [.dim "2px".toList, .ws, .delim ['*'], .ws, .dim "3px".toList]) =
      some (some 6) := by decide +kernel

end Verif.Values
