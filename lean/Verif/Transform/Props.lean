import Verif.Transform.Read

/-!
# Transforms: what they do to points (C175), what is refused (C176), origins (C177)
-/

namespace Verif.Transform
open Verif.Values Verif.Short Spec

/-! ## C175 -/

/-- **C175 (in part).** With `transform: f₁ f₂ … fₙ` and `transform-origin: x y` each point of the
box goes where `fₙ`, then …, then `f₂`, then `f₁` move it, seen from the origin.  Lengths relative
to fonts or the page are missing: see `C175_relative_fails`. -/
theorem C175_list_partial (t : Trig) (box : Rect) {ts : List Tok} {fs : List (Pt → Pt)} {tx ty : Tok}
    {x y : Rat} (hne : ts ≠ []) (hm : AllMoves t box.width box.height ts fs) (hx : AtX box tx x)
    (hy : AtY box ty y) (p : Pt) :
    place t box ts [tx, ty] p = some (about (x, y) (after fs) p) := by
  obtain ⟨off, ho, hv⟩ := origin_text hx hy
  obtain ⟨fns, hf, hd⟩ := parseTransform_list hne hm
  obtain ⟨m, hr, ha⟩ := resolveTransform_does (x, y) hd
  rw [place, (declared_plain (allMoves_plain hm)).2 hf, ho]
  simp only [applyTransform, hv, hr, Option.map_some, ha]

/-- **C175.** `transform: none` leaves everything where it is. -/
theorem C175_none (t : Trig) (box : Rect) {k : Tok} (hk : Word "none" k) {tx ty : Tok} {x y : Rat}
    (hx : AtX box tx x) (hy : AtY box ty y) (p : Pt) : place t box [k] [tx, ty] p = some p := by
  obtain ⟨off, ho, -⟩ := origin_text hx hy
  have : parseTransform [k] = (some none, []) := by
    simp only [parseTransform, List.isEmpty_cons, Bool.false_eq_true, if_false]
    rw [skipIdent_word hk]
    have : eqCi "none".toList "none".toList = true := by decide +kernel
    simp only [this, if_true]
  have hp : Plain [k] := by
    intro u hu; rw [List.mem_singleton.1 hu]; exact Word.ne_ws hk
  rw [place, (declared_plain hp).2 this, ho]

/-- A quarter turn for ninety degrees (`pi` is 180 here, to keep to whole numbers). -/
def quarter : Trig :=
  ⟨180, fun a => if a = 90 then 1 else 0, fun a => if a = 0 then 1 else 0, fun a => if a = 45 then 1 else 0⟩

/-- `translate(50%, 10px) rotate(90deg)` with `transform-origin: center 0` on a box of 100 times
40 at (0, 0): the corner goes up and right. -/
example : AllMoves quarter 100 40
    [.func "translate(".toList [.percent "50%".toList, .comma, .ws, .dim "10px".toList],
     .func "ROTATE(".toList [.dim "90deg".toList]]
    [fun p => (p.1 + 50, p.2 + 10),
     fun p => (p.1 * quarter.cos 90 - p.2 * quarter.sin 90,
       p.1 * quarter.sin 90 + p.2 * quarter.cos 90)] := by
  refine .cons ?_ (.cons ?_ .nil)
  · have h1 := Amount.percent (w := 100) (natLit 5 [0])
    have e1 : (natLit 5 [0]).text ++ ['%'] = "50%".toList := by decide +kernel
    have e2 : (100 : Rat) * (natLit 5 [0]).value / 100 = 50 := by decide +kernel
    rw [e1, e2] at h1
    have h2 := Amount.abs (w := 40) (natLit 1 [0]) (k := "px") (u := .px) (per := 96)
      (s := "px".toList) (by decide +kernel) (Cased.refl _)
    have e3 : (natLit 1 [0]).text ++ "px".toList = "10px".toList := by decide +kernel
    have e4 : (natLit 1 [0]).value * 96 / 96 = 10 := by decide +kernel
    rw [e3, e4] at h2
    exact .translate (Cased.refl _) (.mk 0 (.more (.comma 0 1) (.last 0))) h1 h2
  · have h1 := Degrees.mk (pi := quarter.pi) (natLit 9 [0]) (k := "deg") (one := 1) (s := "deg".toList)
      (by decide +kernel) (Cased.refl _)
    have e1 : (natLit 9 [0]).text ++ "deg".toList = "90deg".toList := by decide +kernel
    have e2 : (natLit 9 [0]).value * 1 = 90 := by decide +kernel
    rw [e1, e2] at h1
    exact .rotate (eqCi_iff.1 (by decide +kernel)) (.mk 0 (.last 0)) (.unit h1)

example : place quarter ⟨0, 0, 100, 40⟩
    [.func "translate(".toList [.percent "50%".toList, .comma, .ws, .dim "10px".toList],
     .func "ROTATE(".toList [.dim "90deg".toList]]
    [.ident "center".toList, .number ['0']] (0, 0) = some (100, -40) := by decide +kernel

/-- **C175.** It is false that lengths in fonts' sizes count: `translate(1em)` moves nothing,
whatever the size of the font, because painting resolves lengths without one. -/
theorem C175_relative_fails (t : Trig) (box : Rect) (k : String) (u : RelUnit) (n : Lit)
    (h : (k, u) ∈ relTable) (p : Pt) :
    place t box [.func "translate(".toList [.dim (n.text ++ k.toList)]]
      [.number ['0'], .number ['0']] p = some p := by
  have ho : ∃ off, declared parseOrigin [.number ['0'], .number ['0']] = some off ∧
      originOf box off = some (box.x + 0, box.y + 0) :=
    origin_text (.amount .zero) (.amount .zero)
  obtain ⟨off, ho, hv⟩ := ho
  have hr : Reads parseCalc (.dim (n.text ++ k.toList)) (.one (.val (.length (.rel n.value u)))) := by
    intro r
    simp only [parseCalc, parseCalcOf, parsePL, parsePercent,
      parseLength_rel n h (Cased.refl _) r]
  have hf : fnOf "translate(".toList [.dim (n.text ++ k.toList)] =
      some (.translate (.one (.val (.length (.rel n.value u)))) noLength) := by
    rw [fnOf_translate]
    exact oneOrTwo_one (.mk 0 (.last 0)) ⟨by simp, by simp⟩ hr
  have hl : parseTransform [.func "translate(".toList [.dim (n.text ++ k.toList)]] =
      (some (some [.translate (.one (.val (.length (.rel n.value u)))) noLength]), []) := by
    have := fnLoop_funcs (ts := [.func "translate(".toList [.dim (n.text ++ k.toList)]])
      (fs := [.translate (.one (.val (.length (.rel n.value u)))) noLength]) 2 [] (by simp)
      (by simp only [List.map_cons, List.map_nil, hf])
    simp only [parseTransform, skipIdent, List.isEmpty_cons, Bool.false_eq_true, if_false,
      List.length_cons, List.length_nil]
    rw [this]
    rfl
  have hd : Does t box [.translate (.one (.val (.length (.rel n.value u)))) noLength] [id] :=
    .cons (m := .translate 0 0) rfl (fun p => by
      rw [apply_translate]; simp [Rat.add_zero]) .nil
  obtain ⟨m, hm, ha⟩ := resolveTransform_does (box.x + 0, box.y + 0) hd
  have hp : Plain [.func "translate(".toList [.dim (n.text ++ k.toList)]] := by
    intro u hu; rw [List.mem_singleton.1 hu]; simp
  rw [place, (declared_plain hp).2 hl, ho]
  simp only [applyTransform, hv, hm, Option.map_some, ha, about, after, id]
  congr 1
  refine Prod.ext ?_ ?_ <;> grind

example : ("em", RelUnit.em) ∈ relTable := by decide +kernel

/-! ## C176 -/

theorem fnLoop_accepts : ∀ (k : Nat) (acc fs : List Fn) (l : List Tok), Plain l →
    fnLoop k acc l = (some fs, []) → fs.length = acc.length + l.length ∧
      ∀ x ∈ l, ∃ nm c f, x = .func nm c ∧ fnOf nm c = some f := by
  intro k
  induction k with
  | zero =>
    intro acc fs l _ h
    simp only [fnLoop, Prod.mk.injEq, Option.some.injEq] at h
    obtain ⟨rfl, rfl⟩ := h
    simp
  | succ k ih =>
    intro acc fs l hp h
    unfold fnLoop at h
    split at h
    · next nm c r =>
      split at h
      · next f hf =>
        rw [hp.tail.eatWs] at h
        obtain ⟨h1, h2⟩ := ih _ _ _ hp.tail h
        refine ⟨by simp at h1 ⊢; omega, fun x hx => ?_⟩
        rcases List.mem_cons.1 hx with rfl | hx
        · exact ⟨nm, c, f, rfl, hf⟩
        · exact h2 x hx
      · cases h
    · simp only [Prod.mk.injEq, Option.some.injEq] at h
      obtain ⟨rfl, rfl⟩ := h
      simp

theorem fnOf_name {nm : List Char} {c : List Tok} {f : Fn} (h : fnOf nm c = some f) :
    ∃ k ∈ names, Cased nm k.toList := by
  have e : ∀ {k k' : String}, eqCi nm k'.toList = true → eqCi k'.toList k.toList = true →
      k ∈ names → ∃ k ∈ names, Cased nm k.toList := by
    intro k k' h1 h2 h3
    refine ⟨k, h3, eqCi_iff.1 ?_⟩
    rw [(eqCi_iff.1 h1).eqCi_congr]
    exact h2
  unfold fnOf at h
  split at h
  · next h1 => exact e (k := "matrix(") h1 (by decide +kernel) (by decide +kernel)
  split at h
  · next h1 => exact e (k := "translatex(") h1 (by decide +kernel) (by decide +kernel)
  split at h
  · next h1 => exact e (k := "translatey(") h1 (by decide +kernel) (by decide +kernel)
  split at h
  · next h1 => exact e (k := "translate(") h1 (by decide +kernel) (by decide +kernel)
  split at h
  · next h1 => exact e (k := "scalex(") h1 (by decide +kernel) (by decide +kernel)
  split at h
  · next h1 => exact e (k := "scaley(") h1 (by decide +kernel) (by decide +kernel)
  split at h
  · next h1 => exact e (k := "scale(") h1 (by decide +kernel) (by decide +kernel)
  split at h
  · next h1 => exact e (k := "rotate(") h1 (by decide +kernel) (by decide +kernel)
  split at h
  · next h1 => exact e (k := "skew(") h1 (by decide +kernel) (by decide +kernel)
  split at h
  · next h1 => exact e (k := "skewx(") h1 (by decide +kernel) (by decide +kernel)
  split at h
  · next h1 => exact e (k := "skewy(") h1 (by decide +kernel) (by decide +kernel)
  · cases h

/-- **C176.** What is accepted as a list of functions is one: every part of it is a function with
one of the eleven names, and none is dropped. -/
theorem C176_functions {ts : List Tok} (hp : Plain ts) {fs : List Fn}
    (h : declared parseTransform ts = some (some fs)) : ts ≠ [] ∧ fs.length = ts.length ∧
      ∀ x ∈ ts, ∃ nm c k, x = .func nm c ∧ k ∈
        ["matrix(", "translate(", "translatex(", "translatey(", "scale(", "scalex(", "scaley(",
         "rotate(", "skew(", "skewx(", "skewy("] ∧ Cased nm k.toList := by
  have h := (declared_plain hp).1 h
  cases ts with
  | nil => cases h
  | cons x ts =>
    simp only [parseTransform, List.isEmpty_cons, Bool.false_eq_true, if_false] at h
    split at h
    · cases h
    · split at h
      · next fs' r hl =>
        simp only [Prod.mk.injEq, Option.some.injEq] at h
        obtain ⟨rfl, rfl⟩ := h
        obtain ⟨h1, h2⟩ := fnLoop_accepts _ _ _ _ hp hl
        refine ⟨by simp, by simpa using h1, fun y hy => ?_⟩
        obtain ⟨nm, c, f, rfl, hf⟩ := h2 y hy
        obtain ⟨k, hk, hc⟩ := fnOf_name hf
        refine ⟨nm, c, k, rfl, ?_, hc⟩
        have tbl : ∀ k ∈ names, k ∈
          ["matrix(", "translate(", "translatex(", "translatey(", "scale(", "scalex(", "scaley(",
           "rotate(", "skew(", "skewx(", "skewy("] := by decide +kernel
        exact tbl k hk
      · cases h

/-- A function that cannot be read makes the declaration invalid, wherever it stands. -/
theorem refused {ts : List Tok} (hp : Plain ts) {nm : List Char} {c : List Tok}
    (hm : .func nm c ∈ ts) (hf : fnOf nm c = none) : declared parseTransform ts = none := by
  cases h : declared parseTransform ts with
  | none => rfl
  | some v =>
    exfalso
    have h := (declared_plain hp).1 h
    cases ts with
    | nil => cases hm
    | cons x ts =>
      simp only [parseTransform, List.isEmpty_cons, Bool.false_eq_true, if_false] at h
      split at h
      · next r hs =>
        simp only [Prod.mk.injEq] at h
        obtain ⟨-, rfl⟩ := h
        cases x with
        | ident s =>
          simp only [skipIdent] at hs
          split at hs
          · cases hs
            rcases List.mem_cons.1 hm with h | h <;> cases h
          · cases hs
        | _ => cases hs
      · split at h
        · next fs' r hl =>
          simp only [Prod.mk.injEq, Option.some.injEq] at h
          obtain ⟨-, rfl⟩ := h
          obtain ⟨-, h2⟩ := fnLoop_accepts _ _ _ _ hp hl
          obtain ⟨nm', c', f, e, hf'⟩ := h2 _ hm
          cases e
          rw [hf] at hf'
          cases hf'
        · cases h

/-- **C176.** The other thing that is accepted is the single word `none`. -/
theorem C176_none {ts : List Tok} (hp : Plain ts) (h : declared parseTransform ts = some none) :
    ∃ k, ts = [k] ∧ Word "none" k := by
  have h := (declared_plain hp).1 h
  cases ts with
  | nil => cases h
  | cons x ts =>
    simp only [parseTransform, List.isEmpty_cons, Bool.false_eq_true, if_false] at h
    split at h
    · next r hs =>
      simp only [Prod.mk.injEq] at h
      obtain ⟨-, rfl⟩ := h
      cases x with
      | ident s =>
        simp only [skipIdent] at hs
        split at hs
        · next he =>
          cases hs
          exact ⟨_, rfl, .mk (eqCi_iff.1 he)⟩
        · cases hs
      | _ => cases hs
    · split at h <;> cases h

/-- **C176.** A function with another name makes the declaration invalid, wherever it stands. -/
theorem C176_unknown {ts : List Tok} (hp : Plain ts) {nm : List Char} {c : List Tok}
    (hm : .func nm c ∈ ts)
    (hn : ∀ k ∈ ["matrix(", "translate(", "translatex(", "translatey(", "scale(", "scalex(",
      "scaley(", "rotate(", "skew(", "skewx(", "skewy("], ¬ Cased nm k.toList) :
    declared parseTransform ts = none := by
  cases hf : fnOf nm c with
  | none => exact refused hp hm hf
  | some f =>
    obtain ⟨k, hk, hc⟩ := fnOf_name hf
    have tbl : ∀ k ∈ names, k ∈
      ["matrix(", "translate(", "translatex(", "translatey(", "scale(", "scalex(", "scaley(",
       "rotate(", "skew(", "skewx(", "skewy("] := by decide +kernel
    exact absurd hc (hn k (tbl k hk))

/-- `rotate3d(…)` is such a function. -/
example : ∀ k ∈ ["matrix(", "translate(", "translatex(", "translatey(", "scale(", "scalex(",
      "scaley(", "rotate(", "skew(", "skewx(", "skewy("], ¬ Cased "rotate3d(".toList k.toList := by
  have : ∀ k ∈ ["matrix(", "translate(", "translatex(", "translatey(", "scale(", "scalex(",
      "scaley(", "rotate(", "skew(", "skewx(", "skewy("],
      eqCi "rotate3d(".toList k.toList = false := by decide +kernel
  intro k hk hc
  have h := this k hk
  rw [eqCi_iff.2 hc] at h
  cases h

/-! ### The number of arguments -/

/-- Something is left behind an argument. -/
theorem eatWs_more {s c : List Tok} (hs : Sep s) {t : Tok} {ts : List Tok} (hc : ArgsFrom c (t :: ts))
    (ht : Solid t) : (eatWs (s ++ c)).isEmpty = false := by
  obtain ⟨r, rfl⟩ := argsFrom_cons hc
  cases hs with
  | space n => rw [eatWs_sp, eatWs_solid ht]; rfl
  | comma m n => rw [List.append_assoc, eatWs_sp]; rfl

theorem alone_two {p : List Tok → Out α} {c : List Tok} {t u : Tok} {ts : List Tok} {v : α}
    (h : Args c (t :: u :: ts)) (ht : Solid t) (hu : Solid u) (hp : Reads p t v) :
    alone p c = none := by
  obtain ⟨r, hr, hf⟩ := eatWs_args h ht
  unfold alone
  rw [hr, hp r]
  cases hf with
  | more hs hc => simp [eatWs_more hs hc hu]

theorem oneOrTwo_three {p : List Tok → Out α} {only : α → β} {both : α → α → β} {c : List Tok}
    {t u k : Tok} {ts : List Tok} {v w : α} (h : Args c (t :: u :: k :: ts)) (ht : Solid t)
    (hp : Reads p t v) (hu : Solid u) (hq : Reads p u w) (hk : Solid k) :
    oneOrTwo p only both c = none := by
  obtain ⟨r, hr, hf⟩ := eatWs_args h ht
  unfold oneOrTwo
  rw [hr, hp r]
  cases hf with
  | more hs hc =>
    obtain ⟨r', rfl⟩ := argsFrom_cons hc
    simp only [skipComma_sep hs hu, hq r']
    cases hc with
    | more hs' hc' => simp [eatWs_more hs' hc' hk]

theorem numbers_few : ∀ {ts : List Tok} {cs : List (CalcOf Rat)} {c : List Tok} (n : Nat), Nums ts cs →
    ArgsFrom c ts → ts.length < n → numbers n c = none := by
  intro ts
  induction ts with
  | nil => intro cs c n _ h; cases h
  | cons t ts ih =>
    intro cs c n hn h hl
    cases hn with
    | cons hs hr hn =>
      cases n with
      | zero => simp at hl
      | succ n =>
        cases h with
        | last m =>
          have : n ≠ 0 := by simp at hl; omega
          obtain ⟨n, rfl⟩ := Nat.exists_eq_succ_of_ne_zero this
          simp only [numbers, List.isEmpty_cons, Bool.false_eq_true, if_false, hr _,
            Nat.succ_ne_zero, if_false, skipComma_sp, List.isEmpty_nil, if_true, Option.map_none]
        | more hsep hc =>
          have : n ≠ 0 := by simp at hl; omega
          cases hn with
          | nil => cases hc
          | cons hs' hr' hn' =>
            obtain ⟨r, rfl⟩ := argsFrom_cons hc
            simp only [numbers, List.isEmpty_cons, Bool.false_eq_true, if_false, hr _, this,
              if_false, skipComma_sep hsep hs']
            rw [ih n (.cons hs' hr' hn') hc (by simp at hl ⊢; omega)]
            rfl

theorem nums_of {ts : List Tok} (h : ∀ t ∈ ts, ∃ v, Num t v) : ∃ cs, Nums ts cs := by
  induction ts with
  | nil => exact ⟨[], .nil⟩
  | cons t ts ih =>
    obtain ⟨cs, hc⟩ := ih (fun u hu => h u (List.mem_cons_of_mem _ hu))
    obtain ⟨v, hv⟩ := h t (by simp)
    obtain ⟨hs, c, hr, -⟩ := num_reads hv
    exact ⟨c :: cs, .cons hs hr hc⟩

/-- **C176 (in part).** A function with too many arguments, or `matrix()` with too few, makes the
declaration invalid.  That `matrix()` with too many does is false: see `C176_matrix_fails`. -/
theorem C176_count_partial (pi w : Rat) {ts : List Tok} (hp : Plain ts) {nm : List Char}
    {c args : List Tok} (hm : .func nm c ∈ ts) (ha : Args c args)
    (h : (Cased nm "matrix(".toList ∧ args.length < 6 ∧ ∀ a ∈ args, ∃ v, Num a v) ∨
      (Cased nm "translate(".toList ∧ 2 < args.length ∧ ∀ a ∈ args, ∃ v, Amount w a v) ∨
      (Cased nm "translatex(".toList ∧ 1 < args.length ∧ ∀ a ∈ args, ∃ v, Amount w a v) ∨
      (Cased nm "translatey(".toList ∧ 1 < args.length ∧ ∀ a ∈ args, ∃ v, Amount w a v) ∨
      (Cased nm "scale(".toList ∧ 2 < args.length ∧ ∀ a ∈ args, ∃ v, Num a v) ∨
      (Cased nm "scalex(".toList ∧ 1 < args.length ∧ ∀ a ∈ args, ∃ v, Num a v) ∨
      (Cased nm "scaley(".toList ∧ 1 < args.length ∧ ∀ a ∈ args, ∃ v, Num a v) ∨
      (Cased nm "rotate(".toList ∧ 1 < args.length ∧ ∀ a ∈ args, ∃ v, Ang pi a v) ∨
      (Cased nm "skew(".toList ∧ 2 < args.length ∧ ∀ a ∈ args, ∃ v, Ang pi a v) ∨
      (Cased nm "skewx(".toList ∧ 1 < args.length ∧ ∀ a ∈ args, ∃ v, Ang pi a v) ∨
      (Cased nm "skewy(".toList ∧ 1 < args.length ∧ ∀ a ∈ args, ∃ v, Ang pi a v)) :
    declared parseTransform ts = none := by
  refine refused hp hm ?_
  have one : ∀ {α : Type} {p : List Tok → Out α} {T : Tok → Rat → Prop}
      (_ : ∀ a v, T a v → Solid a ∧ ∃ x, Reads p a x), 1 < args.length →
      (∀ a ∈ args, ∃ v, T a v) → alone p c = none := by
    intro α p T hT hl hv
    match args, hl with
    | t :: u :: rest, _ =>
      obtain ⟨v1, h1⟩ := hv t (by simp)
      obtain ⟨v2, h2⟩ := hv u (by simp)
      obtain ⟨s1, x1, r1⟩ := hT _ _ h1
      exact alone_two ha s1 (hT _ _ h2).1 r1
  have two : ∀ {α β : Type} {p : List Tok → Out α} {only : α → β} {both : α → α → β}
      {T : Tok → Rat → Prop} (_ : ∀ a v, T a v → Solid a ∧ ∃ x, Reads p a x), 2 < args.length →
      (∀ a ∈ args, ∃ v, T a v) → oneOrTwo p only both c = none := by
    intro α β p only both T hT hl hv
    match args, hl with
    | t :: u :: k :: rest, _ =>
      obtain ⟨v1, h1⟩ := hv t (by simp)
      obtain ⟨v2, h2⟩ := hv u (by simp)
      obtain ⟨v3, h3⟩ := hv k (by simp)
      obtain ⟨s1, x1, r1⟩ := hT _ _ h1
      obtain ⟨s2, x2, r2⟩ := hT _ _ h2
      exact oneOrTwo_three ha s1 r1 s2 r2 (hT _ _ h3).1
  have hA : ∀ a v, Amount w a v → Solid a ∧ ∃ x, Reads parseCalc a x := fun a v h => by
    obtain ⟨x, hx, -⟩ := amount_reads h
    exact ⟨amount_solid h, x, hx⟩
  have hN : ∀ a v, Num a v → Solid a ∧ ∃ x, Reads (readCalc parseNumber) a x := fun a v h => by
    obtain ⟨hs, x, hx, -⟩ := num_reads h
    exact ⟨hs, x, hx⟩
  have hG : ∀ a v, Ang pi a v → Solid a ∧ ∃ x, Reads (readCalc parseAngle) a x := fun a v h => by
    obtain ⟨hs, x, hx, -⟩ := ang_reads ⟨pi, id, id, id⟩ h
    exact ⟨hs, x, hx⟩
  rcases h with ⟨hn, hl, hv⟩ | ⟨hn, hl, hv⟩ | ⟨hn, hl, hv⟩ | ⟨hn, hl, hv⟩ | ⟨hn, hl, hv⟩ |
    ⟨hn, hl, hv⟩ | ⟨hn, hl, hv⟩ | ⟨hn, hl, hv⟩ | ⟨hn, hl, hv⟩ | ⟨hn, hl, hv⟩ | ⟨hn, hl, hv⟩ <;>
    rw [fnOf_congr hn]
  · rw [fnOf_matrix]
    obtain ⟨cs, hc⟩ := nums_of hv
    cases args with
    | nil => cases ha with | mk n h => cases h
    | cons t rest =>
      cases hc with
      | cons hs hr hc =>
        obtain ⟨r, e, hf⟩ := eatWs_args ha hs
        rw [e, numbers_few 6 (.cons hs hr hc) hf hl]
        rfl
  · rw [fnOf_translate, two hA hl hv]
  · rw [fnOf_translateX, one hA hl hv]; rfl
  · rw [fnOf_translateY, one hA hl hv]; rfl
  · rw [fnOf_scale, two hN hl hv]
  · rw [fnOf_scaleX, one hN hl hv]; rfl
  · rw [fnOf_scaleY, one hN hl hv]; rfl
  · rw [fnOf_rotate, one hG hl hv]; rfl
  · rw [fnOf_skew, two hG hl hv]
  · rw [fnOf_skewX, one hG hl hv]; rfl
  · rw [fnOf_skewY, one hG hl hv]; rfl

/-- `scale(1, 2, 3)` -/
example : Args [.number ['1'], .comma, .ws, .number ['2'], .comma, .ws, .number ['3']]
    [.number ['1'], .number ['2'], .number ['3']] ∧ Num (.number ['1']) 1 := by
  refine ⟨.mk 0 (.more (.comma 0 1) (.more (.comma 0 1) (.last 0))), .lit ?_⟩
  have := Literal.mk (natLit 1 [])
  have e : (natLit 1 []).value = 1 := by decide +kernel
  rwa [e] at this

/-- **C176.** A function without arguments makes the declaration invalid. -/
theorem C176_empty {ts : List Tok} (hp : Plain ts) {nm : List Char} (n : Nat)
    (hm : .func nm (gaps n) ∈ ts) : declared parseTransform ts = none := by
  refine refused hp hm ?_
  have h2 : ∀ {α : Type} {p : List Tok → Out α}, p [] = (none, []) → alone p (gaps n) = none := by
    intro α p h; unfold alone; rw [eatWs_sp', h]
  have h3 : ∀ {α β : Type} {p : List Tok → Out α} {only : α → β} {both : α → α → β},
      p [] = (none, []) → oneOrTwo p only both (gaps n) = none := by
    intro α β p only both h; unfold oneOrTwo; rw [eatWs_sp', h]
  have h4 : matrixFn (numbers 6 (eatWs (gaps n))) = none := by rw [eatWs_sp']; rfl
  have pc : parseCalc [] = (none, []) := rfl
  have pn : readCalc parseNumber [] = (none, []) := rfl
  have pa : readCalc parseAngle [] = (none, []) := rfl
  simp only [fnOf, h4, h2 pc, h2 pn, h2 pa, h3 pc, h3 pn, h3 pa, Option.map_none, ite_self]

/-- **C176.** A number is no angle, a number other than zero no length, a percentage no factor: such
an argument makes the declaration invalid, whatever follows it. -/
theorem C176_units {ts : List Tok} (hp : Plain ts) {nm : List Char} {c : List Tok}
    (hm : .func nm c ∈ ts) (n : Lit) (r : List Tok)
    (h : (c = .number n.text :: r ∧ (Cased nm "rotate(".toList ∨ Cased nm "skew(".toList ∨
        Cased nm "skewx(".toList ∨ Cased nm "skewy(".toList)) ∨
      (c = .number n.text :: r ∧ n.text ≠ ['0'] ∧ (Cased nm "translate(".toList ∨
        Cased nm "translatex(".toList ∨ Cased nm "translatey(".toList)) ∨
      (c = .percent (n.text ++ ['%']) :: r ∧ (Cased nm "scale(".toList ∨
        Cased nm "scalex(".toList ∨ Cased nm "scaley(".toList ∨ Cased nm "matrix(".toList))) :
    declared parseTransform ts = none := by
  refine refused hp hm ?_
  rcases h with ⟨rfl, h⟩ | ⟨rfl, h0, h⟩ | ⟨rfl, h⟩
  · have e : readCalc parseAngle (.number n.text :: r) = (none, .number n.text :: r) := rfl
    have s : eatWs (.number n.text :: r) = .number n.text :: r := rfl
    rcases h with h | h | h | h <;> rw [fnOf_congr h]
    · rw [fnOf_rotate, alone, s, e]; rfl
    · rw [fnOf_skew, oneOrTwo, s, e]
    · rw [fnOf_skewX, alone, s, e]; rfl
    · rw [fnOf_skewY, alone, s, e]; rfl
  · have hz : eqCi n.text "0".toList = false := by
      cases hb : eqCi n.text "0".toList with
      | false => rfl
      | true =>
        exfalso
        apply h0
        have hc : Cased n.text ['0'] := eqCi_iff.1 hb
        generalize n.text = l at hc
        cases hc with
        | cons hx hl =>
          cases hl
          have z : Char.toNat '0' = 48 := by decide
          rcases hx with rfl | ⟨h1, -⟩ | ⟨h1, -, h3⟩
          · rfl
          · omega
          · omega
    have e : parseCalc (.number n.text :: r) = (none, .number n.text :: r) := by
      simp only [parseCalc, parseCalcOf, parsePL, parsePercent, parseLength, hz,
        Bool.false_eq_true, if_false]
    have s : eatWs (.number n.text :: r) = .number n.text :: r := rfl
    rcases h with h | h | h <;> rw [fnOf_congr h]
    · rw [fnOf_translate, oneOrTwo, s, e]
    · rw [fnOf_translateX, alone, s, e]; rfl
    · rw [fnOf_translateY, alone, s, e]; rfl
  · have e : readCalc parseNumber (.percent (n.text ++ ['%']) :: r) =
        (none, .percent (n.text ++ ['%']) :: r) := rfl
    have s : eatWs (.percent (n.text ++ ['%']) :: r) = .percent (n.text ++ ['%']) :: r := rfl
    rcases h with h | h | h | h <;> rw [fnOf_congr h]
    · rw [fnOf_scale, oneOrTwo, s, e]
    · rw [fnOf_scaleX, alone, s, e]; rfl
    · rw [fnOf_scaleY, alone, s, e]; rfl
    · rw [fnOf_matrix, s, numbers]
      simp only [List.isEmpty_cons, Bool.false_eq_true, if_false, e]
      rfl

/-- **C176.** It is false that `matrix()` with more than six numbers is refused: what follows the
sixth is not looked at. -/
theorem C176_matrix_fails (rest : List Tok) : declared parseTransform
    [.func "matrix(".toList ([.number ['1'], .comma, .number ['0'], .comma, .number ['0'], .comma,
      .number ['1'], .comma, .number ['0'], .comma, .number ['0']] ++ rest)] =
    some (some [.matrix (.one (.val 1)) (.one (.val 0)) (.one (.val 0)) (.one (.val 1))
      (.one (.val 0)) (.one (.val 0))]) := by
  have e0 : atof ['0'] = some (0, []) := by decide +kernel
  have e1 : atof ['1'] = some (1, []) := by decide +kernel
  have n0 : Reads (readCalc parseNumber) (.number ['0']) (.one (.val 0)) := fun r => by
    simp [readCalc, parseNumber, e0]
  have n1 : Reads (readCalc parseNumber) (.number ['1']) (.one (.val 1)) := fun r => by
    simp [readCalc, parseNumber, e1]
  refine (declared_plain (fun u hu => by rw [List.mem_singleton.1 hu]; simp)).2 ?_
  have hf : fnOf "matrix(".toList ([.number ['1'], .comma, .number ['0'], .comma, .number ['0'],
      .comma, .number ['1'], .comma, .number ['0'], .comma, .number ['0']] ++ rest) =
      some (.matrix (.one (.val 1)) (.one (.val 0)) (.one (.val 0)) (.one (.val 1))
      (.one (.val 0)) (.one (.val 0))) := by
    rw [fnOf_matrix]
    simp only [List.cons_append, List.nil_append, eatWs, numbers, List.isEmpty_cons,
      Bool.false_eq_true, if_false, n0 _, n1 _, skipComma, Nat.reduceEqDiff, if_true,
      Option.map_some, matrixFn]
  have := fnLoop_funcs (ts := [.func "matrix(".toList ([.number ['1'], .comma, .number ['0'],
      .comma, .number ['0'], .comma, .number ['1'], .comma, .number ['0'], .comma,
      .number ['0']] ++ rest)]) (fs := [.matrix (.one (.val 1)) (.one (.val 0)) (.one (.val 0))
      (.one (.val 1)) (.one (.val 0)) (.one (.val 0))]) 2 [] (by simp)
      (by simp only [List.map_cons, List.map_nil, hf])
  rw [parseTransform.eq_def]
  simp only [skipIdent, List.isEmpty_cons, Bool.false_eq_true, if_false, List.length_cons,
    List.length_nil]
  rw [this]
  rfl

end Verif.Transform
