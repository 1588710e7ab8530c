import Verif.Transform.Lemmas

/-!
# Transforms: reading functions and origins, and their matrices
-/

namespace Verif.Transform
open Verif.Values Verif.Short Spec

/-! ## Functions -/

/-- The names of functions, in small letters. -/
def names : List String :=
  ["matrix(", "translatex(", "translatey(", "translate(", "scalex(", "scaley(", "scale(", "rotate(",
   "skew(", "skewx(", "skewy("]

theorem fnOf_congr {nm k : List Char} (h : Cased nm k) (c : List Tok) : fnOf nm c = fnOf k c := by
  simp only [fnOf, h.eqCi_congr]

theorem fnOf_matrix (c : List Tok) : fnOf "matrix(".toList c =
    matrixFn (numbers 6 (eatWs c)) := by
  have h : eqCi "matrix(".toList "matrix(".toList = true := by decide +kernel
  simp only [fnOf, h, if_true]

theorem fnOf_translateX (c : List Tok) : fnOf "translatex(".toList c =
    (alone parseCalc c).map fun x => .translate x noLength := by
  have h1 : eqCi "translatex(".toList "matrix(".toList = false := by decide +kernel
  have h2 : eqCi "translatex(".toList "translateX(".toList = true := by decide +kernel
  simp only [fnOf, h1, h2, if_true, Bool.false_eq_true, if_false]

theorem fnOf_translateY (c : List Tok) : fnOf "translatey(".toList c =
    (alone parseCalc c).map fun y => .translate noLength y := by
  have h1 : eqCi "translatey(".toList "matrix(".toList = false := by decide +kernel
  have h2 : eqCi "translatey(".toList "translateX(".toList = false := by decide +kernel
  have h3 : eqCi "translatey(".toList "translateY(".toList = true := by decide +kernel
  simp only [fnOf, h1, h2, h3, if_true, Bool.false_eq_true, if_false]

theorem fnOf_translate (c : List Tok) : fnOf "translate(".toList c =
    oneOrTwo parseCalc (fun x => .translate x noLength) .translate c := by
  have h1 : eqCi "translate(".toList "matrix(".toList = false := by decide +kernel
  have h2 : eqCi "translate(".toList "translateX(".toList = false := by decide +kernel
  have h3 : eqCi "translate(".toList "translateY(".toList = false := by decide +kernel
  have h4 : eqCi "translate(".toList "translate(".toList = true := by decide +kernel
  simp only [fnOf, h1, h2, h3, h4, if_true, Bool.false_eq_true, if_false]

theorem fnOf_scaleX (c : List Tok) : fnOf "scalex(".toList c =
    (alone (readCalc parseNumber) c).map fun x => .scale x (.one (.val 1)) := by
  have h1 : eqCi "scalex(".toList "matrix(".toList = false := by decide +kernel
  have h2 : eqCi "scalex(".toList "translateX(".toList = false := by decide +kernel
  have h3 : eqCi "scalex(".toList "translateY(".toList = false := by decide +kernel
  have h4 : eqCi "scalex(".toList "translate(".toList = false := by decide +kernel
  have h5 : eqCi "scalex(".toList "scaleX(".toList = true := by decide +kernel
  simp only [fnOf, h1, h2, h3, h4, h5, if_true, Bool.false_eq_true, if_false]

theorem fnOf_scaleY (c : List Tok) : fnOf "scaley(".toList c =
    (alone (readCalc parseNumber) c).map fun y => .scale (.one (.val 1)) y := by
  have h1 : eqCi "scaley(".toList "matrix(".toList = false := by decide +kernel
  have h2 : eqCi "scaley(".toList "translateX(".toList = false := by decide +kernel
  have h3 : eqCi "scaley(".toList "translateY(".toList = false := by decide +kernel
  have h4 : eqCi "scaley(".toList "translate(".toList = false := by decide +kernel
  have h5 : eqCi "scaley(".toList "scaleX(".toList = false := by decide +kernel
  have h6 : eqCi "scaley(".toList "scaleY(".toList = true := by decide +kernel
  simp only [fnOf, h1, h2, h3, h4, h5, h6, if_true, Bool.false_eq_true, if_false]

theorem fnOf_scale (c : List Tok) : fnOf "scale(".toList c =
    oneOrTwo (readCalc parseNumber) (fun x => .scale x x) .scale c := by
  have h1 : eqCi "scale(".toList "matrix(".toList = false := by decide +kernel
  have h2 : eqCi "scale(".toList "translateX(".toList = false := by decide +kernel
  have h3 : eqCi "scale(".toList "translateY(".toList = false := by decide +kernel
  have h4 : eqCi "scale(".toList "translate(".toList = false := by decide +kernel
  have h5 : eqCi "scale(".toList "scaleX(".toList = false := by decide +kernel
  have h6 : eqCi "scale(".toList "scaleY(".toList = false := by decide +kernel
  have h7 : eqCi "scale(".toList "scale(".toList = true := by decide +kernel
  simp only [fnOf, h1, h2, h3, h4, h5, h6, h7, if_true, Bool.false_eq_true, if_false]

theorem fnOf_rotate (c : List Tok) : fnOf "rotate(".toList c =
    (alone (readCalc parseAngle) c).map .rotate := by
  have h1 : eqCi "rotate(".toList "matrix(".toList = false := by decide +kernel
  have h2 : eqCi "rotate(".toList "translateX(".toList = false := by decide +kernel
  have h3 : eqCi "rotate(".toList "translateY(".toList = false := by decide +kernel
  have h4 : eqCi "rotate(".toList "translate(".toList = false := by decide +kernel
  have h5 : eqCi "rotate(".toList "scaleX(".toList = false := by decide +kernel
  have h6 : eqCi "rotate(".toList "scaleY(".toList = false := by decide +kernel
  have h7 : eqCi "rotate(".toList "scale(".toList = false := by decide +kernel
  have h8 : eqCi "rotate(".toList "rotate(".toList = true := by decide +kernel
  simp only [fnOf, h1, h2, h3, h4, h5, h6, h7, h8, if_true, Bool.false_eq_true, if_false]

theorem fnOf_skew (c : List Tok) : fnOf "skew(".toList c =
    oneOrTwo (readCalc parseAngle) (fun x => .skew x (.one (.val (0, .deg)))) .skew c := by
  have h1 : eqCi "skew(".toList "matrix(".toList = false := by decide +kernel
  have h2 : eqCi "skew(".toList "translateX(".toList = false := by decide +kernel
  have h3 : eqCi "skew(".toList "translateY(".toList = false := by decide +kernel
  have h4 : eqCi "skew(".toList "translate(".toList = false := by decide +kernel
  have h5 : eqCi "skew(".toList "scaleX(".toList = false := by decide +kernel
  have h6 : eqCi "skew(".toList "scaleY(".toList = false := by decide +kernel
  have h7 : eqCi "skew(".toList "scale(".toList = false := by decide +kernel
  have h8 : eqCi "skew(".toList "rotate(".toList = false := by decide +kernel
  have h9 : eqCi "skew(".toList "skew(".toList = true := by decide +kernel
  simp only [fnOf, h1, h2, h3, h4, h5, h6, h7, h8, h9, if_true, Bool.false_eq_true, if_false]

theorem fnOf_skewX (c : List Tok) : fnOf "skewx(".toList c =
    (alone (readCalc parseAngle) c).map .skewX := by
  have h1 : eqCi "skewx(".toList "matrix(".toList = false := by decide +kernel
  have h2 : eqCi "skewx(".toList "translateX(".toList = false := by decide +kernel
  have h3 : eqCi "skewx(".toList "translateY(".toList = false := by decide +kernel
  have h4 : eqCi "skewx(".toList "translate(".toList = false := by decide +kernel
  have h5 : eqCi "skewx(".toList "scaleX(".toList = false := by decide +kernel
  have h6 : eqCi "skewx(".toList "scaleY(".toList = false := by decide +kernel
  have h7 : eqCi "skewx(".toList "scale(".toList = false := by decide +kernel
  have h8 : eqCi "skewx(".toList "rotate(".toList = false := by decide +kernel
  have h9 : eqCi "skewx(".toList "skew(".toList = false := by decide +kernel
  have h10 : eqCi "skewx(".toList "skewX(".toList = true := by decide +kernel
  simp only [fnOf, h1, h2, h3, h4, h5, h6, h7, h8, h9, h10, if_true, Bool.false_eq_true, if_false]

theorem fnOf_skewY (c : List Tok) : fnOf "skewy(".toList c =
    (alone (readCalc parseAngle) c).map .skewY := by
  have h1 : eqCi "skewy(".toList "matrix(".toList = false := by decide +kernel
  have h2 : eqCi "skewy(".toList "translateX(".toList = false := by decide +kernel
  have h3 : eqCi "skewy(".toList "translateY(".toList = false := by decide +kernel
  have h4 : eqCi "skewy(".toList "translate(".toList = false := by decide +kernel
  have h5 : eqCi "skewy(".toList "scaleX(".toList = false := by decide +kernel
  have h6 : eqCi "skewy(".toList "scaleY(".toList = false := by decide +kernel
  have h7 : eqCi "skewy(".toList "scale(".toList = false := by decide +kernel
  have h8 : eqCi "skewy(".toList "rotate(".toList = false := by decide +kernel
  have h9 : eqCi "skewy(".toList "skew(".toList = false := by decide +kernel
  have h10 : eqCi "skewy(".toList "skewX(".toList = false := by decide +kernel
  have h11 : eqCi "skewy(".toList "skewY(".toList = true := by decide +kernel
  simp only [fnOf, h1, h2, h3, h4, h5, h6, h7, h8, h9, h10, h11, if_true, Bool.false_eq_true,
    if_false]

theorem noLength_zero (w : Rat) : resolveCalc painted w noLength = some 0 := rfl

theorem one_resolve (f : α → Rat) (v : α) : (CalcOf.one (.val v)).resolve f = some (f v) := rfl

/-- A function that is written is read, and its matrix does what it says. -/
theorem moves_fn {t : Trig} {box : Rect} {k : Tok} {f : Pt → Pt}
    (h : Moves t box.width box.height k f) : ∃ nm c fn m, k = .func nm c ∧ fnOf nm c = some fn ∧
      matOf t box fn = some m ∧ ∀ p, m.apply p = f p := by
  cases h with
  | @matrix nm c ta tb tc td te tf a b c' d e f hn hc ha hb hc' hd he hf =>
    obtain ⟨sa, ca, ra, va⟩ := num_reads ha
    obtain ⟨sb, cb, rb, vb⟩ := num_reads hb
    obtain ⟨sc, cc, rc, vc⟩ := num_reads hc'
    obtain ⟨sd, cd, rd, vd⟩ := num_reads hd
    obtain ⟨se, ce, re, ve⟩ := num_reads he
    obtain ⟨sf, cf, rf, vf⟩ := num_reads hf
    obtain ⟨r, hr, hfrom⟩ := eatWs_args hc sa
    have := numbers_args (.cons sa ra (.cons sb rb (.cons sc rc (.cons sd rd (.cons se re
      (.cons sf rf .nil)))))) hfrom
    refine ⟨_, _, .matrix ca cb cc cd ce cf, ⟨a, b, c', d, e, f⟩, rfl, ?_, ?_, fun p => rfl⟩
    · rw [fnOf_congr hn, fnOf_matrix, hr]
      simp only [List.length_cons, List.length_nil, Nat.zero_add, Nat.reduceAdd] at this
      rw [this]
      rfl
    · simp [matOf, va, vb, vc, vd, ve, vf]
  | @translate nm c tx ty x y hn hc hx hy =>
    obtain ⟨cx, rx, vx⟩ := amount_reads hx
    obtain ⟨cy, ry, vy⟩ := amount_reads hy
    refine ⟨_, _, .translate cx cy, .translate x y, rfl, ?_, by simp [matOf, vx, vy],
      apply_translate x y⟩
    rw [fnOf_congr hn, fnOf_translate,
      oneOrTwo_two hc (amount_solid hx) rx (amount_solid hy) ry]
  | @translate1 nm c tx x hn hc hx =>
    obtain ⟨cx, rx, vx⟩ := amount_reads hx
    refine ⟨_, _, .translate cx noLength, .translate x 0, rfl, ?_,
      by simp [matOf, vx, noLength_zero], fun p => by
        rw [apply_translate]; simp [Rat.add_zero]⟩
    rw [fnOf_congr hn, fnOf_translate, oneOrTwo_one hc (amount_solid hx) rx]
  | @translateX nm c tx x hn hc hx =>
    obtain ⟨cx, rx, vx⟩ := amount_reads hx
    refine ⟨_, _, .translate cx noLength, .translate x 0, rfl, ?_,
      by simp [matOf, vx, noLength_zero], fun p => by
        rw [apply_translate]; simp [Rat.add_zero]⟩
    rw [fnOf_congr hn, fnOf_translateX, alone_args hc (amount_solid hx) rx]
    rfl
  | @translateY nm c ty y hn hc hy =>
    obtain ⟨cy, ry, vy⟩ := amount_reads hy
    refine ⟨_, _, .translate noLength cy, .translate 0 y, rfl, ?_,
      by simp [matOf, vy, noLength_zero], fun p => by
        rw [apply_translate]; simp [Rat.add_zero]⟩
    rw [fnOf_congr hn, fnOf_translateY, alone_args hc (amount_solid hy) ry]
    rfl
  | @scale nm c tx ty x y hn hc hx hy =>
    obtain ⟨sx, cx, rx, vx⟩ := num_reads hx
    obtain ⟨sy, cy, ry, vy⟩ := num_reads hy
    refine ⟨_, _, .scale cx cy, .scale x y, rfl, ?_, by simp [matOf, vx, vy], apply_scale x y⟩
    rw [fnOf_congr hn, fnOf_scale, oneOrTwo_two hc sx rx sy ry]
  | @scale1 nm c tx x hn hc hx =>
    obtain ⟨sx, cx, rx, vx⟩ := num_reads hx
    refine ⟨_, _, .scale cx cx, .scale x x, rfl, ?_, by simp [matOf, vx], apply_scale x x⟩
    rw [fnOf_congr hn, fnOf_scale, oneOrTwo_one hc sx rx]
  | @scaleX nm c tx x hn hc hx =>
    obtain ⟨sx, cx, rx, vx⟩ := num_reads hx
    refine ⟨_, _, .scale cx (.one (.val 1)), .scale x 1, rfl, ?_,
      by simp [matOf, vx, one_resolve], fun p => by
        rw [apply_scale]; simp [Rat.one_mul]⟩
    rw [fnOf_congr hn, fnOf_scaleX, alone_args hc sx rx]
    rfl
  | @scaleY nm c ty y hn hc hy =>
    obtain ⟨sy, cy, ry, vy⟩ := num_reads hy
    refine ⟨_, _, .scale (.one (.val 1)) cy, .scale 1 y, rfl, ?_,
      by simp [matOf, vy, one_resolve], fun p => by
        rw [apply_scale]; simp [Rat.one_mul]⟩
    rw [fnOf_congr hn, fnOf_scaleY, alone_args hc sy ry]
    rfl
  | @rotate nm c ta a hn hc ha =>
    obtain ⟨sa, ca, ra, va⟩ := ang_reads t ha
    refine ⟨_, _, .rotate ca, .rotate t a, rfl, ?_, by simp [matOf, va], apply_rotate t a⟩
    rw [fnOf_congr hn, fnOf_rotate, alone_args hc sa ra]
    rfl
  | @skew nm c tx ty x y hn hc hx hy =>
    obtain ⟨sx, cx, rx, vx⟩ := ang_reads t hx
    obtain ⟨sy, cy, ry, vy⟩ := ang_reads t hy
    refine ⟨_, _, .skew cx cy, .skew (t.tan x) (t.tan y), rfl, ?_, by simp [matOf, vx, vy],
      apply_skew _ _⟩
    rw [fnOf_congr hn, fnOf_skew, oneOrTwo_two hc sx rx sy ry]
  | @skew1 nm c tx x hn hc hx h0 =>
    obtain ⟨sx, cx, rx, vx⟩ := ang_reads t hx
    refine ⟨_, _, .skew cx (.one (.val (0, .deg))), .skew (t.tan x) 0, rfl, ?_, ?_, fun p => by
      rw [apply_skew]; simp [Rat.mul_zero, Rat.add_zero]⟩
    · rw [fnOf_congr hn, fnOf_skew, oneOrTwo_one hc sx rx]
    · have : toRadian t (0, .deg) = 0 := by simp only [toRadian]; grind
      simp [matOf, vx, one_resolve, this, h0]
  | @skewX nm c tx x hn hc hx =>
    obtain ⟨sx, cx, rx, vx⟩ := ang_reads t hx
    refine ⟨_, _, .skewX cx, .skew (t.tan x) 0, rfl, ?_, by simp [matOf, vx], fun p => by
      rw [apply_skew]; simp [Rat.mul_zero, Rat.add_zero]⟩
    rw [fnOf_congr hn, fnOf_skewX, alone_args hc sx rx]
    rfl
  | @skewY nm c ty y hn hc hy =>
    obtain ⟨sy, cy, ry, vy⟩ := ang_reads t hy
    refine ⟨_, _, .skewY cy, .skew 0 (t.tan y), rfl, ?_, by simp [matOf, vy], fun p => by
      rw [apply_skew]; simp [Rat.mul_zero, Rat.add_zero]⟩
    rw [fnOf_congr hn, fnOf_skewY, alone_args hc sy ry]
    rfl

/-! ## Lists of functions -/

/-- The functions `fs` have matrices that do what `gs` say. -/
inductive Does (t : Trig) (box : Rect) : List Fn → List (Pt → Pt) → Prop
  | nil : Does t box [] []
  | cons : matOf t box fn = some m → (∀ p, m.apply p = g p) → Does t box fs gs →
      Does t box (fn :: fs) (g :: gs)

theorem fnLoop_funcs : ∀ {ts : List Tok} {fs : List Fn} (k : Nat) (acc : List Fn),
    ts.length < k → (ts.map fun x => match x with | .func nm c => fnOf nm c | _ => none) = fs.map some →
      fnLoop k acc ts = (some (acc ++ fs), []) := by
  intro ts
  induction ts with
  | nil =>
    intro fs k acc hk h
    cases fs with
    | cons f fs => simp at h
    | nil =>
      cases k with
      | zero => simp [fnLoop]
      | succ k => simp [fnLoop]
  | cons x ts ih =>
    intro fs k acc hk h
    cases fs with
    | nil => simp at h
    | cons f fs =>
      rw [List.map_cons, List.map_cons, List.cons.injEq] at h
      cases k with
      | zero => simp at hk
      | succ k =>
        cases x with
        | func nm c =>
          have h1 : fnOf nm c = some f := h.1
          have hws : eatWs ts = ts := by
            cases ts with
            | nil => rfl
            | cons y ts =>
              cases y with
              | ws =>
                have := h.2
                cases fs <;> simp at this
              | _ => rfl
          simp only [fnLoop, h1, hws]
          rw [ih k (acc ++ [f]) (by simp at hk; omega) h.2]
          simp
        | _ => simp at h

theorem allMoves_fns {t : Trig} {box : Rect} : ∀ {ts : List Tok} {gs : List (Pt → Pt)},
    AllMoves t box.width box.height ts gs → ∃ fs, Does t box fs gs ∧
      (ts.map fun x => match x with | .func nm c => fnOf nm c | _ => none) = fs.map some := by
  intro ts
  induction ts with
  | nil => intro gs h; cases h; exact ⟨[], .nil, rfl⟩
  | cons x ts ih =>
    intro gs h
    cases h with
    | cons hx h =>
      obtain ⟨fs, hd, hm⟩ := ih h
      obtain ⟨nm, c, fn, m, rfl, h1, h2, h3⟩ := moves_fn hx
      exact ⟨fn :: fs, .cons h2 h3 hd, by simp [h1, hm]⟩

theorem matLoop_does {t : Trig} {box : Rect} : ∀ {fs : List Fn} {gs : List (Pt → Pt)} (r : Mat),
    Does t box fs gs → ∃ m, matLoop t box r fs = some m ∧ ∀ p, m.apply p = r.apply (after gs p) := by
  intro fs
  induction fs with
  | nil => intro gs r h; cases h; exact ⟨r, rfl, fun p => rfl⟩
  | cons f fs ih =>
    intro gs r h
    cases h with
    | @cons _ m g _ gs h1 h2 h =>
      obtain ⟨m', hm, ha⟩ := ih (m.multiply r) h
      refine ⟨m', by simp only [matLoop, h1, hm], fun p => ?_⟩
      rw [ha, apply_multiply, h2]
      rfl

theorem resolveTransform_does {t : Trig} {box : Rect} {fs : List Fn} {gs : List (Pt → Pt)} (o : Pt)
    (h : Does t box fs gs) : ∃ m, resolveTransform t box o fs = some m ∧
      ∀ p, m.apply p = about o (after gs) p := by
  obtain ⟨m, hm, ha⟩ := matLoop_does (.translate o.1 o.2) h
  refine ⟨(Mat.translate (-o.1) (-o.2)).multiply m, by
    simp only [resolveTransform, hm, Option.map_some], fun p => ?_⟩
  rw [apply_multiply, ha, apply_translate, apply_translate, about]
  have e : ((p.1 + -o.1, p.2 + -o.2) : Pt) = (p.1 - o.1, p.2 - o.2) := by
    rw [Rat.sub_eq_add_neg, Rat.sub_eq_add_neg]
  rw [e]
  simp only [Prod.mk.injEq]
  exact ⟨Rat.add_comm .., Rat.add_comm ..⟩

/-- White space does not begin a list of functions. -/
theorem allMoves_plain {t : Trig} {w h : Rat} {ts : List Tok} {gs : List (Pt → Pt)}
    (hm : AllMoves t w h ts gs) : Plain ts := by
  intro x hx
  induction hm with
  | nil => cases hx
  | cons hk hm ih =>
    rcases List.mem_cons.1 hx with rfl | hx
    · intro e; subst e; cases hk
    · exact ih hx

theorem parseTransform_list {t : Trig} {box : Rect} {ts : List Tok} {gs : List (Pt → Pt)}
    (hne : ts ≠ []) (hm : AllMoves t box.width box.height ts gs) :
    ∃ fs, parseTransform ts = (some (some fs), []) ∧ Does t box fs gs := by
  obtain ⟨fs, hd, hf⟩ := allMoves_fns hm
  refine ⟨fs, ?_, hd⟩
  cases ts with
  | nil => exact absurd rfl hne
  | cons x ts =>
    have hx : skipIdent "none".toList (x :: ts) = none := by
      cases hm with
      | cons hk hm => cases hk <;> rfl
    rw [parseTransform, hx, fnLoop_funcs _ _ (by simp) hf]
    simp

/-! ## Origins -/

theorem offX_reads {box : Rect} {t : Tok} {v : Rat} (h : AtX box t v) :
    t ≠ .ws ∧ ∃ o, Reads parseOffX t o ∧ originX box o = some v := by
  have word : ∀ {k : String} {o : OffX}, Word k t →
      kwLookup [("left", OffX.left), ("center", .center), ("right", .right)] k.toList = some o →
      Reads parseOffX t o := by
    intro k o hw hk r
    unfold parseOffX
    rw [skipAny_word hw, hk]
    rfl
  cases h with
  | left h => exact ⟨Word.ne_ws h, .left, word h (by decide +kernel), rfl⟩
  | center h => exact ⟨Word.ne_ws h, .center, word h (by decide +kernel), rfl⟩
  | right h => exact ⟨Word.ne_ws h, .right, word h (by decide +kernel), rfl⟩
  | amount h =>
    obtain ⟨c, hr, hv⟩ := amount_reads h
    refine ⟨(amount_solid h).1, .calc c, fun r => ?_, by simp only [originX, hv, Option.map_some]⟩
    unfold parseOffX
    have : skipAny [("left", OffX.left), ("center", .center), ("right", .right)] (t :: r) = none := by
      refine skipAny_none _ (fun w r' e => ?_)
      cases e
      cases h with
      | computed h => cases h
    rw [this]
    simp only [hr r]

theorem offY_reads {box : Rect} {t : Tok} {v : Rat} (h : AtY box t v) :
    t ≠ .ws ∧ ∃ o, Reads parseOffY t o ∧ originY box o = some v := by
  have word : ∀ {k : String} {o : OffY}, Word k t →
      kwLookup [("top", OffY.top), ("center", .center), ("bottom", .bottom)] k.toList = some o →
      Reads parseOffY t o := by
    intro k o hw hk r
    unfold parseOffY
    rw [skipAny_word hw, hk]
    rfl
  cases h with
  | top h => exact ⟨Word.ne_ws h, .top, word h (by decide +kernel), rfl⟩
  | center h => exact ⟨Word.ne_ws h, .center, word h (by decide +kernel), rfl⟩
  | bottom h => exact ⟨Word.ne_ws h, .bottom, word h (by decide +kernel), rfl⟩
  | amount h =>
    obtain ⟨c, hr, hv⟩ := amount_reads h
    refine ⟨(amount_solid h).1, .calc c, fun r => ?_, by simp only [originY, hv, Option.map_some]⟩
    unfold parseOffY
    have : skipAny [("top", OffY.top), ("center", .center), ("bottom", .bottom)] (t :: r) = none := by
      refine skipAny_none _ (fun w r' e => ?_)
      cases e
      cases h with
      | computed h => cases h
    rw [this]
    simp only [hr r]

theorem origin_text {box : Rect} {tx ty : Tok} {x y : Rat} (hx : AtX box tx x) (hy : AtY box ty y) :
    ∃ off, declared parseOrigin [tx, ty] = some off ∧ originOf box off = some (x, y) := by
  obtain ⟨wx, ox, rx, vx⟩ := offX_reads hx
  obtain ⟨wy, oy, ry, vy⟩ := offY_reads hy
  refine ⟨(ox, oy), ?_, by simp only [originOf, vx, vy]⟩
  rw [declared_plain (fun u hu => by
    rcases List.mem_cons.1 hu with rfl | hu
    · exact wx
    · rw [List.mem_singleton.1 hu]; exact wy)]
  simp only [parseOrigin, twoOffsets, rx [ty], ry [], List.isEmpty_cons, Bool.false_eq_true,
    if_false]

end Verif.Transform
