import Verif.Transform.Spec
import Verif.Short.FontProps
import Verif.Values.CalcProps

/-!
# Transforms: reading arguments and functions
-/

namespace Verif.Transform
open Verif.Values Verif.Short Spec

/-! ## Matrices -/

theorem apply_multiply (a b : Mat) (p : Pt) : (a.multiply b).apply p = b.apply (a.apply p) := by
  simp only [Mat.multiply, Mat.apply, Prod.mk.injEq]
  constructor <;> grind

theorem apply_translate (x y : Rat) (p : Pt) : (Mat.translate x y).apply p = (p.1 + x, p.2 + y) := by
  simp only [Mat.translate, Mat.apply, Prod.mk.injEq]
  constructor <;> grind

theorem apply_scale (x y : Rat) (p : Pt) : (Mat.scale x y).apply p = (x * p.1, y * p.2) := by
  simp only [Mat.scale, Mat.apply, Prod.mk.injEq]
  constructor <;> grind

theorem apply_skew (x y : Rat) (p : Pt) :
    (Mat.skew x y).apply p = (p.1 + p.2 * x, p.2 + p.1 * y) := by
  simp only [Mat.skew, Mat.apply, Prod.mk.injEq]
  constructor <;> grind

theorem apply_rotate (t : Trig) (a : Rat) (p : Pt) : (Mat.rotate t a).apply p =
    (p.1 * t.cos a - p.2 * t.sin a, p.1 * t.sin a + p.2 * t.cos a) := by
  simp only [Mat.rotate, Mat.apply, Prod.mk.injEq]
  constructor <;> grind

theorem apply_identity (p : Pt) : Mat.identity.apply p = p := by
  simp only [Mat.identity, Mat.apply, Prod.ext_iff]
  constructor <;> grind

/-! ## White space and commas -/

/-- Neither white space nor a comma. -/
def Solid (t : Tok) : Prop := t ≠ .ws ∧ t ≠ .comma

theorem eatWs_solid {t : Tok} (h : Solid t) (r : List Tok) : eatWs (t :: r) = t :: r := by
  unfold eatWs
  split
  · next e => exact absurd (List.cons.inj e).1 h.1
  · rfl

theorem eatWs_sp (n : Nat) (l : List Tok) : eatWs (gaps n ++ l) = eatWs l := by
  induction n with
  | zero => rfl
  | succ n ih => simpa [gaps, List.replicate_succ, eatWs] using ih

theorem eatWs_sp' (n : Nat) : eatWs (gaps n) = [] := by
  have := eatWs_sp n []
  rw [List.append_nil] at this
  rw [this]; rfl

theorem skipComma_sp (n : Nat) : skipComma (gaps n) = [] := by
  unfold skipComma; rw [eatWs_sp']

theorem skipComma_sep {s : List Tok} (h : Sep s) {t : Tok} (ht : Solid t) (r : List Tok) :
    skipComma (s ++ t :: r) = t :: r := by
  unfold skipComma
  cases h with
  | space n =>
    rw [eatWs_sp, eatWs_solid ht]
    split
    · next e => exact absurd (List.cons.inj e).1 ht.2
    · rfl
  | comma m n =>
    rw [List.append_assoc, eatWs_sp]
    simp only [List.cons_append, eatWs]
    rw [eatWs_sp, eatWs_solid ht]

theorem argsFrom_cons {c : List Tok} {t : Tok} {ts : List Tok} (h : ArgsFrom c (t :: ts)) :
    ∃ r, c = t :: r := by
  cases h with
  | last n => exact ⟨_, rfl⟩
  | more hs h => exact ⟨_, rfl⟩

/-! ## Arguments -/

/-- Nothing to be relative to. -/
def nowhere : Ctx := ⟨0, 0, 0, 0, 0, 0, 0, 0, 0, 0, 0, 0, 0, 0, 0, 0, true⟩

theorem painted_eq : painted = exactPx nowhere := by
  funext l
  cases l with
  | abs v u => cases u <;> simp only [painted, pixels, exactPx]
  | rel v u =>
    simp only [painted, exactPx]
    cases u <;> simp [worth, nowhere] <;> grind

theorem lengthTerm_written {w v : Rat} {t : Tok} (h : LengthTerm w t v) : Written nowhere w t v := by
  cases h with
  | number n => exact .number n
  | percent n => exact .percent n
  | abs n hk hs => exact .abs n hk hs

theorem lengthTerm_solid {w v : Rat} {t : Tok} (h : LengthTerm w t v) : Solid t := by
  cases h <;> exact ⟨by simp, by simp⟩

theorem amount_solid {w v : Rat} {t : Tok} (h : Amount w t v) : Solid t := by
  cases h with
  | computed h => cases h; exact ⟨by simp, by simp⟩
  | _ => exact ⟨by simp, by simp⟩

theorem parseLength_zero : Reads parseLength (.number ['0']) (.abs 0 .px) := by
  intro r
  have : eqCi ['0'] "0".toList = true := by decide
  simp only [parseLength, this, if_true]

theorem amount_reads {w v : Rat} {t : Tok} (h : Amount w t v) :
    ∃ c, Reads parseCalc t c ∧ resolveCalc painted w c = some v := by
  cases h with
  | zero =>
    refine ⟨.one (.val (.length (.abs 0 .px))), fun r => ?_, rfl⟩
    simp only [parseCalc, parseCalcOf, parsePL, parsePercent, parseLength_zero r]
  | percent n =>
    refine ⟨.one (.val (.percent n.value)), fun r => ?_, ?_⟩
    · simp only [parseCalc, parseCalcOf, parsePL, parsePercent_lit n r]
    · simp only [resolveCalc, operandPx]; grind
  | @abs _ u _ _ n hk hs =>
    refine ⟨.one (.val (.length (.abs n.value u))), fun r => ?_, ?_⟩
    · simp only [parseCalc, parseCalcOf, parsePL, parsePercent, parseLength_abs n hk hs r]
    · simp only [resolveCalc, operandPx, painted_eq, exactPx_abs hk]
  | computed h =>
    cases h with
    | @two ta va tb vb o _ i j k ha hb ho =>
      obtain ⟨x, hx, hxa⟩ := parseVal_written (lengthTerm_written ha)
      obtain ⟨y, hy, hyb⟩ := parseVal_written (lengthTerm_written hb)
      obtain ⟨op, hop, hres⟩ := ho.parse
      refine ⟨.two op x y, fun r => ?_, ?_⟩
      · have h1 := hx (gaps i ++ .delim [o] :: (gaps j ++ tb :: gaps k))
        have h2 := hop (gaps j ++ tb :: gaps k)
        rw [← parseOp_spaces i] at h2
        have h3 := eatWs_sp j (tb :: gaps k)
        rw [eatWs_solid (lengthTerm_solid hb)] at h3
        have h4 := hy (gaps k)
        simp only [spaces'] at h2
        simp only [gaps] at h1 h2 h3 h4
        simp only [parseCalc, parseCalcOf, if_true, gaps, h1, h2, h3, h4]
      · rw [painted_eq]; exact hres _ _ x y hxa hyb

/-- What `readCalc p` needs of a term: it is read, and has the value. -/
def TermOk (p : List Tok → Out α) (f : α → Rat) (T : Tok → Rat → Prop) : Prop :=
  ∀ t v, T t v → Solid t ∧ ∃ a, Reads (parseArg p) t a ∧ a.resolve f = v

theorem Applied.infix {o : Char} {a b : Rat} {res : Option Rat} (h : Applied o a b res) :
    ∃ op, (∀ r, parseOp (.delim [o] :: r) = (some op, r)) ∧ infixOp op a b = res := by
  cases h with
  | add => exact ⟨.add, fun r => rfl, rfl⟩
  | sub => exact ⟨.sub, fun r => rfl, rfl⟩
  | mul => exact ⟨.mul, fun r => rfl, rfl⟩
  | div hb => exact ⟨.div, fun r => rfl, by simp [infixOp, hb]⟩
  | undef => exact ⟨.div, fun r => rfl, by simp [infixOp]⟩

theorem calculated_reads {p : List Tok → Out α} {f : α → Rat} {T : Tok → Rat → Prop}
    (hT : TermOk p f T) {t : Tok} {v : Rat} (h : Calculated T t v) :
    Solid t ∧ ∃ c, Reads (readCalc p) t c ∧ c.resolve f = some v := by
  cases h with
  | @two ta va tb vb o _ i j k ha hb ho =>
    obtain ⟨-, x, hx, hxa⟩ := hT _ _ ha
    obtain ⟨hs, y, hy, hyb⟩ := hT _ _ hb
    obtain ⟨op, hop, hres⟩ := Applied.infix ho
    refine ⟨⟨by simp, by simp⟩, .two op x y, fun r => ?_, ?_⟩
    · have h1 := hx (gaps i ++ .delim [o] :: (gaps j ++ tb :: gaps k))
      have h2 := hop (gaps j ++ tb :: gaps k)
      rw [← parseOp_spaces i] at h2
      have h3 := eatWs_sp j (tb :: gaps k)
      rw [eatWs_solid hs] at h3
      have h4 := hy (gaps k)
      simp only [spaces'] at h2
      simp only [gaps] at h1 h2 h3 h4
      simp only [readCalc, if_true, gaps, h1, h2, h3, h4]
    · simp only [CalcOf.resolve, hxa, hyb, hres]

theorem literal_reads {t : Tok} {v : Rat} (h : Literal t v) :
    Solid t ∧ Reads parseNumber t v ∧ (∀ p : List Tok → Out α, Reads (parseArg p) t (.num v)) := by
  cases h with
  | mk n =>
    have : Reads parseNumber (.number n.text) n.value := fun r => by
      simp [parseNumber, atof_lit_end]
    refine ⟨⟨by simp, by simp⟩, this, fun p r => ?_⟩
    simp only [parseArg, this r]

theorem num_reads {t : Tok} {v : Rat} (h : Num t v) :
    Solid t ∧ ∃ c, Reads (readCalc parseNumber) t c ∧ c.resolve id = some v := by
  cases h with
  | lit h =>
    obtain ⟨hs, hr, -⟩ := literal_reads (α := Rat) h
    refine ⟨hs, .one (.val v), fun r => ?_, rfl⟩
    cases h with
    | mk n => simp only [readCalc, hr r]
  | computed h =>
    refine calculated_reads (fun t v h => ?_) h
    obtain ⟨hs, -, ha⟩ := literal_reads h
    exact ⟨hs, _, ha _, rfl⟩

theorem degrees_reads (g : Trig) {t : Tok} {v : Rat} (h : Degrees g.pi t v) :
    Solid t ∧ ∃ a, Reads parseAngle t a ∧ toRadian g a = v := by
  cases h with
  | @mk k one s n hk hs =>
    refine ⟨⟨by simp, by simp⟩, ?_⟩
    have tbl : ∃ u, (k, u) ∈ angleUnits ∧ toRadian g (n.value, u) = n.value * one := by
      simp only [radians, List.mem_cons, List.not_mem_nil, or_false, Prod.mk.injEq] at hk
      rcases hk with ⟨rfl, rfl⟩ | ⟨rfl, rfl⟩ | ⟨rfl, rfl⟩ | ⟨rfl, rfl⟩
      · exact ⟨.deg, by simp [angleUnits], by simp only [toRadian]; grind⟩
      · exact ⟨.grad, by simp [angleUnits], by simp only [toRadian]; grind⟩
      · exact ⟨.rad, by simp [angleUnits], by simp only [toRadian]; grind⟩
      · exact ⟨.turn, by simp [angleUnits], by simp only [toRadian]; grind⟩
    obtain ⟨u, hu, hv⟩ := tbl
    exact ⟨_, fun r => angle_text n hu hs r, hv⟩

theorem degrees_arg (g : Trig) {t : Tok} {v : Rat} (h : Degrees g.pi t v) :
    ∃ a, Reads (parseArg parseAngle) t a ∧ a.resolve (toRadian g) = v := by
  obtain ⟨-, a, ha, hv⟩ := degrees_reads g h
  refine ⟨.val a, fun r => ?_, hv⟩
  cases h with
  | mk n hk hs => simp only [parseArg, ha r]

theorem ang_reads (g : Trig) {t : Tok} {v : Rat} (h : Ang g.pi t v) :
    Solid t ∧ ∃ c, Reads (readCalc parseAngle) t c ∧ c.resolve (toRadian g) = some v := by
  cases h with
  | unit h =>
    obtain ⟨hs, a, ha, hv⟩ := degrees_reads g h
    refine ⟨hs, .one (.val a), fun r => ?_, by simp only [CalcOf.resolve, Arg.resolve, hv]⟩
    cases h with
    | mk n hk hs => simp only [readCalc, ha r]
  | computed h =>
    refine calculated_reads (fun t v h => ?_) h
    cases h with
    | number h =>
      obtain ⟨hs, -, ha⟩ := literal_reads h
      exact ⟨hs, _, ha _, rfl⟩
    | angle h => exact ⟨(degrees_reads g h).1, degrees_arg g h⟩

/-! ## Contents of functions -/

theorem eatWs_args {c : List Tok} {t : Tok} {ts : List Tok} (h : Args c (t :: ts)) (ht : Solid t) :
    ∃ r, eatWs c = t :: r ∧ ArgsFrom (t :: r) (t :: ts) := by
  cases h with
  | mk n h =>
    obtain ⟨r, rfl⟩ := argsFrom_cons h
    exact ⟨r, by rw [eatWs_sp, eatWs_solid ht], h⟩

theorem alone_args {p : List Tok → Out α} {c : List Tok} {t : Tok} {v : α} (h : Args c [t])
    (ht : Solid t) (hp : Reads p t v) : alone p c = some v := by
  obtain ⟨r, hr, hf⟩ := eatWs_args h ht
  unfold alone
  rw [hr, hp r]
  cases hf with
  | last n => simp only [eatWs_sp', List.isEmpty_nil, if_true]
  | more hs h => cases h

theorem oneOrTwo_one {p : List Tok → Out α} {only : α → β} {both : α → α → β} {c : List Tok}
    {t : Tok} {v : α} (h : Args c [t]) (ht : Solid t) (hp : Reads p t v) :
    oneOrTwo p only both c = some (only v) := by
  obtain ⟨r, hr, hf⟩ := eatWs_args h ht
  unfold oneOrTwo
  rw [hr, hp r]
  cases hf with
  | last n => simp only [skipComma_sp]
  | more hs h => cases h

theorem oneOrTwo_two {p : List Tok → Out α} {only : α → β} {both : α → α → β} {c : List Tok}
    {t u : Tok} {v w : α} (h : Args c [t, u]) (ht : Solid t) (hp : Reads p t v) (hu : Solid u)
    (hq : Reads p u w) : oneOrTwo p only both c = some (both v w) := by
  obtain ⟨r, hr, hf⟩ := eatWs_args h ht
  unfold oneOrTwo
  rw [hr, hp r]
  cases hf with
  | more hs h =>
    obtain ⟨r', rfl⟩ := argsFrom_cons h
    simp only [skipComma_sep hs hu, hq r']
    cases h with
    | last n => simp only [eatWs_sp', List.isEmpty_nil, if_true]
    | more hs h => cases h

/-- All tokens are numbers, with their values. -/
inductive Nums : List Tok → List (CalcOf Rat) → Prop
  | nil : Nums [] []
  | cons : Solid t → Reads (readCalc parseNumber) t c → Nums ts cs → Nums (t :: ts) (c :: cs)

theorem numbers_args : ∀ {ts : List Tok} {cs : List (CalcOf Rat)} {c : List Tok}, Nums ts cs →
    ArgsFrom c ts → numbers ts.length c = some cs := by
  intro ts
  induction ts with
  | nil => intro cs c _ h; cases h
  | cons t ts ih =>
    intro cs c hn h
    cases hn with
    | cons ht hr hn =>
      cases h with
      | last n =>
        cases hn
        simp [numbers, hr (gaps n)]
      | more hs h =>
        cases hn with
        | nil => cases h
        | cons hu hr' hn' =>
          obtain ⟨r', rfl⟩ := argsFrom_cons h
          have := ih (.cons hu hr' hn') h
          rw [List.length_cons, numbers, hr]
          simp only [List.isEmpty_cons, Bool.false_eq_true, if_false]
          rw [if_neg (by simp), skipComma_sep hs hu, this]
          rfl

end Verif.Transform
