import Verif.Values.CalcProps
import Verif.Values.DisplayProps

/-!
# Values: shorthands of four sides (C100) and of a border (C101)
-/

namespace Verif.Values

/-! ## C100 -/

theorem ReadsAll.head {p : List Tok → Out α} {ts : List Tok} {vs : List α} (h : ReadsAll p ts vs)
    (hw : ∀ v, ¬ Reads p .ws v) : eatWs ts = ts := by
  cases h with
  | nil => rfl
  | @cons t v ts vs h1 h2 =>
    cases t with
    | ws => exact absurd h1 (hw v)
    | _ => rfl

/-- **C100.** Whatever a single value is, a shorthand of four sides takes one to four of them and
no other number; they go to the top, right, bottom and left, a missing one as its opposite, the
right as the top. -/
theorem C100_sides {p : List Tok → Out α} (hend : p [] = (none, [])) (hws : ∀ v, ¬ Reads p .ws v)
    {ts : List Tok} {vs : List α} (h : ReadsAll p ts vs) :
    declared (parseSides p) ts = sidesOf vs := by
  unfold declared
  rw [h.head hws]
  cases h with
  | nil => rfl
  | cons h1 h =>
  cases h with
  | nil => simp [parseSides, h1 _, hend, sidesOf]
  | cons h2 h =>
  cases h with
  | nil => simp [parseSides, h1 _, h2 _, hend, sidesOf]
  | cons h3 h =>
  cases h with
  | nil => simp [parseSides, h1 _, h2 _, h3 _, hend, sidesOf]
  | cons h4 h =>
  cases h with
  | nil => simp [parseSides, h1 _, h2 _, h3 _, h4 _, sidesOf]
  | cons h5 h => simp [parseSides, h1 _, h2 _, h3 _, h4 _, sidesOf]

/-- A width as written: `auto`, or a length or percentage with the pixels it stands for. -/
inductive WrittenWidth (c : Ctx) (relative : Rat) : Tok → Option Rat → Prop
  | auto {w} : Cased w "auto".toList → WrittenWidth c relative (.ident w) none
  | px {t v} : Written c relative t v → (∀ s, t ≠ .number s) → WrittenWidth c relative t (some v)

/-- A width in pixels; `none` for `auto`. -/
def widthPx (c : Ctx) (relative : Rat) : Width → Option Rat
  | .auto => none
  | .calc v => resolveCalc (exactPx c) relative v

/-- `p` looks at one token only, and steps over it if and only if it is a value. -/
def OneTok (p : List Tok → Out α) : Prop :=
  p [] = (none, []) ∧ ∀ t, ∃ o, ∀ r, p (t :: r) = (o, if o.isSome then r else t :: r)

theorem parseLength_oneTok : OneTok parseLength := by
  refine ⟨rfl, fun t => ?_⟩
  cases t with
  | number s =>
    by_cases hz : eqCi s "0".toList = true
    · exact ⟨some (.abs 0 .px), fun r => by simp only [parseLength, if_pos hz]; rfl⟩
    · exact ⟨none, fun r => by simp only [parseLength, if_neg hz]; rfl⟩
  | dim s =>
    cases h2 : valueOfCi absNames ((atof s).getD (0, s)).2 with
    | some u =>
      exact ⟨some (.abs ((atof s).getD (0, s)).1 u), fun r => by
        simp only [parseLength, parseAbs, h2]; rfl⟩
    | none =>
      cases h3 : valueOfCi relNames ((atof s).getD (0, s)).2 with
      | some u =>
        exact ⟨some (.rel ((atof s).getD (0, s)).1 u), fun r => by
          simp only [parseLength, parseAbs, parseRel, h2, h3]; rfl⟩
      | none =>
        exact ⟨none, fun r => by simp only [parseLength, parseAbs, parseRel, h2, h3]; rfl⟩
  | ident s => exact ⟨none, fun r => rfl⟩
  | percent s => exact ⟨none, fun r => rfl⟩
  | func n c => exact ⟨none, fun r => rfl⟩
  | hash s => exact ⟨none, fun r => rfl⟩
  | delim s => exact ⟨none, fun r => rfl⟩
  | comma => exact ⟨none, fun r => rfl⟩
  | ws => exact ⟨none, fun r => rfl⟩
  | str s => exact ⟨none, fun r => rfl⟩
  | url s => exact ⟨none, fun r => rfl⟩
  | other => exact ⟨none, fun r => rfl⟩

theorem parsePL_oneTok : OneTok parsePL := by
  refine ⟨rfl, fun t => ?_⟩
  by_cases hp : ∃ s, t = .percent s
  · obtain ⟨s, rfl⟩ := hp
    exact ⟨_, fun r => rfl⟩
  · obtain ⟨o, ho⟩ := parseLength_oneTok.2 t
    have h1 : ∀ r, parsePercent (t :: r) = (none, t :: r) := by
      intro r
      cases t with
      | percent s => exact absurd ⟨s, rfl⟩ hp
      | _ => rfl
    cases o with
    | none => exact ⟨none, fun r => by simp [parsePL, h1, ho]⟩
    | some v => exact ⟨some (.length v), fun r => by simp [parsePL, h1, ho]⟩

theorem parseLen_oneTok : OneTok parseLen := by
  refine ⟨rfl, fun t => ?_⟩
  obtain ⟨o, ho⟩ := parseLength_oneTok.2 t
  cases o with
  | none => exact ⟨none, fun r => by simp [parseLen, ho]⟩
  | some v => exact ⟨some (.length v), fun r => by simp [parseLen, ho]⟩

theorem parseCalcOf_oneTok {p : List Tok → Out PL} (hp : OneTok p) : OneTok (parseCalcOf p) := by
  refine ⟨by simp [parseCalcOf, hp.1], fun t => ?_⟩
  by_cases hf : ∃ n c, t = .func n c
  · obtain ⟨name, content, rfl⟩ := hf
    by_cases hn : name = "calc(".toList
    · cases h1 : parseVal p content with
      | mk o c1 =>
      cases o with
      | none => exact ⟨none, fun r => by simp only [parseCalcOf, if_pos hn, h1]; rfl⟩
      | some lhs =>
        cases h2 : parseOp c1 with
        | mk o c2 =>
        cases o with
        | none =>
          exact ⟨some (.one lhs), fun r => by simp only [parseCalcOf, if_pos hn, h1, h2]; rfl⟩
        | some op =>
          cases h3 : parseVal p (eatWs c2) with
          | mk o c3 =>
          cases o with
          | none => exact ⟨none, fun r => by simp only [parseCalcOf, if_pos hn, h1, h2, h3]; rfl⟩
          | some rhs =>
            exact ⟨some (.two op lhs rhs), fun r => by
              simp only [parseCalcOf, if_pos hn, h1, h2, h3]; rfl⟩
    · exact ⟨none, fun r => by simp only [parseCalcOf, if_neg hn]; rfl⟩
  · obtain ⟨o, ho⟩ := hp.2 t
    have h1 : ∀ r, parseCalcOf p (t :: r) = match p (t :: r) with
        | (some v, r) => (some (.one (.val v)), r)
        | (none, r) => (none, r) := by
      intro r
      cases t with
      | func n c => exact absurd ⟨n, c, rfl⟩ hf
      | _ => rfl
    cases o with
    | none => exact ⟨none, fun r => by simp [h1, ho]⟩
    | some v => exact ⟨some (.one (.val v)), fun r => by simp [h1, ho]⟩

theorem parseWidth_oneTok : OneTok parseWidth := by
  refine ⟨rfl, fun t => ?_⟩
  by_cases ha : ∃ w, t = .ident w ∧ eqCi w "auto".toList = true
  · obtain ⟨w, rfl, hw⟩ := ha
    exact ⟨some .auto, fun r => by simp only [parseWidth, skipIdent, if_pos hw]; rfl⟩
  · have h1 : ∀ r, skipIdent "auto".toList (t :: r) = none := by
      intro r
      cases t with
      | ident w => simp only [skipIdent]; rw [if_neg (fun h => ha ⟨w, rfl, h⟩)]
      | _ => rfl
    obtain ⟨o, ho⟩ := (parseCalcOf_oneTok parsePL_oneTok).2 t
    have ho' : ∀ r, parseCalc (t :: r) = (o, if o.isSome then r else t :: r) := ho
    cases o with
    | none => exact ⟨none, fun r => by unfold parseWidth; rw [h1, ho']; rfl⟩
    | some v => exact ⟨some (.calc v), fun r => by unfold parseWidth; rw [h1, ho']; rfl⟩

/-- A value is one token, and no more is looked at. -/
theorem OneTok.one {p : List Tok → Out α} (hp : OneTok p) {l l' : List Tok} {v : α}
    (h : p l = (some v, l')) : ∃ t, l = t :: l' ∧ Reads p t v := by
  cases l with
  | nil => rw [hp.1] at h; cases h
  | cons t r =>
    obtain ⟨o, ho⟩ := hp.2 t
    rw [ho] at h
    obtain ⟨h1, h2⟩ := Prod.mk.inj h
    subst h1
    simp only [Option.isSome_some, ↓reduceIte] at h2 ho
    exact ⟨t, by rw [h2], ho⟩

theorem parseCalc_reads {t : Tok} {v : Calc} (h : parseCalc [t] = (some v, [])) :
    Reads parseCalc t v := by
  obtain ⟨t', ht, hr⟩ := OneTok.one (p := parseCalc) (parseCalcOf_oneTok parsePL_oneTok) h
  cases ht; exact hr

theorem parseCalc_ident (w : List Char) (r : List Tok) :
    parseCalc (.ident w :: r) = (none, .ident w :: r) := rfl

theorem parseWidth_written {c : Ctx} {relative : Rat} {t : Tok} {v : Option Rat}
    (h : WrittenWidth c relative t v) : ∃ w, Reads parseWidth t w ∧ widthPx c relative w = v := by
  cases h with
  | auto hw =>
    refine ⟨.auto, fun r => ?_, rfl⟩
    simp only [parseWidth, skipIdent, eqCi_iff.mpr hw, ↓reduceIte]
  | px h hn =>
    have := C96_plain c relative h hn
    simp only [calcPx, Option.map_eq_some_iff] at this
    obtain ⟨k, hk, hv⟩ := this
    have hne : eatWs [t] = [t] := by
      cases t with
      | ws => exact absurd rfl h.ne_ws
      | _ => rfl
    have hp : parseCalc [t] = (some k, []) := by
      unfold declared at hk
      rw [hne] at hk
      split at hk
      · next hp => cases hk; exact hp
      · cases hk
    refine ⟨.calc k, fun r => ?_, hv⟩
    have hi : skipIdent "auto".toList (t :: r) = none := by
      cases t with
      | ident w => rw [parseCalc_ident] at hp; cases hp
      | _ => rfl
    unfold parseWidth
    rw [hi]
    simp only [parseCalc_reads hp r]

/-- The widths of a list of tokens. -/
inductive WrittenWidths (c : Ctx) (relative : Rat) : List Tok → List (Option Rat) → Prop
  | nil : WrittenWidths c relative [] []
  | cons {t v ts vs} : WrittenWidth c relative t v → WrittenWidths c relative ts vs →
      WrittenWidths c relative (t :: ts) (v :: vs)

/-- The same function of each side. -/
def Sides.map (f : α → β) (s : Sides α) : Sides β := ⟨f s.top, f s.right, f s.bottom, f s.left⟩

theorem sidesOf_map (f : α → β) (vs : List α) : sidesOf (vs.map f) = (sidesOf vs).map (Sides.map f) := by
  rcases vs with _ | ⟨a, _ | ⟨b, _ | ⟨c, _ | ⟨d, _ | ⟨e, t⟩⟩⟩⟩⟩ <;> rfl

theorem parseWidth_ws (v : Width) : ¬ Reads parseWidth .ws v := by
  intro h
  have := h []
  simp [parseWidth, skipIdent, parseCalc, parseCalcOf, parsePL, parsePercent, parseLength] at this

/-- **C100.** The margins, paddings and insets so written: the sides have the pixels written. -/
theorem C100_margin (c : Ctx) (relative : Rat) {ts : List Tok} {vs : List (Option Rat)}
    (h : WrittenWidths c relative ts vs) :
    (declared (parseSides parseWidth) ts).map (Sides.map (widthPx c relative)) = sidesOf vs := by
  have : ∃ ws, ReadsAll parseWidth ts ws ∧ ws.map (widthPx c relative) = vs := by
    induction h with
    | nil => exact ⟨[], .nil, rfl⟩
    | cons h1 h2 ih =>
      obtain ⟨ws, h3, h4⟩ := ih
      obtain ⟨w, h5, h6⟩ := parseWidth_written h1
      exact ⟨w :: ws, .cons h5 h3, by simp [h4, h6]⟩
  obtain ⟨ws, h1, rfl⟩ := this
  rw [C100_sides (p := parseWidth) rfl parseWidth_ws h1, sidesOf_map]

/-- `margin: 10px AUTO` -/
example : WrittenWidths page 400 [.dim "10px".toList, .ident "AUTO".toList] [some 10, none] := by
  refine .cons ?_ (.cons (.auto (eqCi_iff.mp (by decide +kernel))) .nil)
  refine .px ?_ (fun s h => by cases h)
  have := Written.abs (c := page) (relative := 400) (natLit 1 [0]) (k := "px") (u := .px)
    (per := 96) (w := "px".toList) (by decide +kernel) (Cased.refl _)
  have e : (natLit 1 [0]).text ++ "px".toList = "10px".toList := by decide +kernel
  have e2 : (natLit 1 [0]).value * 96 / 96 = 10 := by decide +kernel
  rwa [e, e2] at this

theorem parseWidth_one {l l' : List Tok} {v : Width} (h : parseWidth l = (some v, l')) :
    ∃ t, l = t :: l' ∧ Reads parseWidth t v := parseWidth_oneTok.one h

/-- **C100.** Nothing else is accepted: what is, is one to four values, each a token. -/
theorem C100_only {ts : List Tok} {s : Sides Width}
    (h : declared (parseSides parseWidth) ts = some s) :
    ∃ vs, ReadsAll parseWidth (eatWs ts) vs ∧ sidesOf vs = some s := by
  unfold declared at h
  generalize eatWs ts = l at h ⊢
  split at h
  case h_2 => cases h
  next v hp =>
  cases h
  unfold parseSides at hp
  split at hp
  · cases hp
  split at hp
  · cases hp
  next t l1 h1 =>
  obtain ⟨t1, rfl, r1⟩ := parseWidth_one h1
  split at hp
  · next l2 h2 =>
    obtain ⟨h, rfl⟩ := Prod.mk.inj hp; cases h
    have := parseWidth_fail h2; subst this
    exact ⟨[t], .cons r1 .nil, rfl⟩
  next r l2 h2 =>
  obtain ⟨t2, rfl, r2⟩ := parseWidth_one h2
  split at hp
  · next l3 h3 =>
    obtain ⟨h, rfl⟩ := Prod.mk.inj hp; cases h
    have := parseWidth_fail h3; subst this
    exact ⟨[t, r], .cons r1 (.cons r2 .nil), rfl⟩
  next b l3 h3 =>
  obtain ⟨t3, rfl, r3⟩ := parseWidth_one h3
  split at hp
  · next l4 h4 =>
    obtain ⟨h, rfl⟩ := Prod.mk.inj hp; cases h
    have := parseWidth_fail h4; subst this
    exact ⟨[t, r, b], .cons r1 (.cons r2 (.cons r3 .nil)), rfl⟩
  next f l4 h4 =>
  obtain ⟨t4, rfl, r4⟩ := parseWidth_one h4
  obtain ⟨h, rfl⟩ := Prod.mk.inj hp; cases h
  exact ⟨[t, r, b, f], .cons r1 (.cons r2 (.cons r3 (.cons r4 .nil))), rfl⟩

/-! ## C101 -/

theorem lineWidth_ident {w : List Char} (h : kwLookup [("thin", LineWidth.thin), ("medium", .medium),
    ("thick", .thick)] w = none) (r : List Tok) :
    parseLineWidth (.ident w :: r) = (none, .ident w :: r) := by
  unfold parseLineWidth
  rw [skipAny_ident, h]
  rfl

theorem styleNames_eq : styleNames = styleKw := rfl

/-- The colour parser does not take keywords of border styles for colours. -/
def NotStyle (color : List Tok → Out κ) : Prop :=
  ∀ k s w, (k, s) ∈ styleKw → Cased w k.toList → ∀ r, color (.ident w :: r) = (none, .ident w :: r)

def Border.set (b : Border κ) : BPart κ → Border κ
  | .width w => { b with width := w }
  | .style s => { b with style := s }
  | .color c => { b with color := c }

theorem borderLoop_part {color : List Tok → Out κ} (hs : NotStyle color) {p : BPart κ} {t : Tok}
    (h : WritesPart color p t) (n : Nat) (b : Border κ) (r : List Tok) :
    borderLoop color (n + 1) b (t :: r) = borderLoop color n (b.set p) r := by
  have hw : t ≠ .ws → eatWs (t :: r) = t :: r := by
    intro h
    cases t with
    | ws => exact absurd rfl h
    | _ => rfl
  cases h with
  | width h =>
    have hne : t ≠ .ws := by
      rintro rfl
      have := h []
      simp [parseLineWidth, skipAny, skipIdent, parseCalcOf, parseLen, parseLength] at this
    simp only [borderLoop, hw hne, h r, Border.set]
  | @style k s w hk hc =>
    rw [styleNames_eq] at hk
    have hne : Tok.ident w ≠ .ws := by simp
    have tbl : ∀ x ∈ styleKw, kwLookup [("thin", LineWidth.thin), ("medium", .medium),
        ("thick", .thick)] x.1.toList = none ∧ kwLookup styleKw x.1.toList = some x.2 := by
      decide +kernel
    have t1 := tbl _ hk
    rw [← kwLookup_congr hc, ← kwLookup_congr hc] at t1
    have h3 : parseStyle (.ident w :: r) = (some s, r) := by
      unfold parseStyle
      rw [skipAny_ident, t1.2]; rfl
    simp only [borderLoop, hw hne, lineWidth_ident t1.1 r, hs k s w hk hc r, h3, Border.set]
  | color h hl hne => simp only [borderLoop, hw hne, hl r, h r, Border.set]

theorem borderLoop_parts {color : List Tok → Out κ} (hs : NotStyle color) {ps : List (BPart κ)}
    {ts : List Tok} (h : WritesParts color ps ts) (n : Nat) (hn : ts.length ≤ n) (b : Border κ) :
    borderLoop color n b ts = (some (ps.foldl Border.set b), []) := by
  induction h generalizing n b with
  | nil => cases n <;> rfl
  | cons h1 h2 ih =>
    cases n with
    | zero => simp at hn
    | succ n =>
      rw [borderLoop_part hs h1]
      exact ih n (by simpa using hn) _

/-- What is left of a border when all parts are set, one of each kind. -/
theorem foldl_set (ps : List (BPart κ)) (b : Border κ) (h : (ps.map BPart.kind).Nodup) :
    ps.foldl Border.set b =
      ⟨(ps.findSome? fun p => match p with | .width w => some w | _ => none).getD b.width,
       (ps.findSome? fun p => match p with | .style s => some s | _ => none).getD b.style,
       (ps.findSome? fun p => match p with | .color c => some c | _ => none).getD b.color⟩ := by
  induction ps generalizing b with
  | nil => rfl
  | cons p ps ih =>
    simp only [List.map_cons, List.nodup_cons] at h
    rw [List.foldl_cons, ih _ h.2]
    cases p with
    | width w =>
      have : ps.findSome? (fun p => match p with | .width w => some w | _ => none) = none := by
        rw [List.findSome?_eq_none_iff]
        intro q hq
        cases q with
        | width w' => exact absurd (List.mem_map.mpr ⟨_, hq, rfl⟩) h.1
        | style => rfl
        | color => rfl
      simp [Border.set, this]
    | style w =>
      have : ps.findSome? (fun p => match p with | .style w => some w | _ => none) = none := by
        rw [List.findSome?_eq_none_iff]
        intro q hq
        cases q with
        | style w' => exact absurd (List.mem_map.mpr ⟨_, hq, rfl⟩) h.1
        | width => rfl
        | color => rfl
      simp [Border.set, this]
    | color w =>
      have : ps.findSome? (fun p => match p with | .color w => some w | _ => none) = none := by
        rw [List.findSome?_eq_none_iff]
        intro q hq
        cases q with
        | color w' => exact absurd (List.mem_map.mpr ⟨_, hq, rfl⟩) h.1
        | style => rfl
        | width => rfl
      simp [Border.set, this]

/-- **C101 (in part).** The width, style and colour of a border, at most one of each and in any
order, are what is written; those not written are `medium`, `none` and the current colour.  That
nothing else is accepted is false: see below. -/
theorem C101_parts_partial {color : List Tok → Out κ} (hs : NotStyle color) (current : κ)
    {ps : List (BPart κ)} {ts : List Tok} (h : WritesParts color ps ts)
    (hn : (ps.map BPart.kind).Nodup) :
    declared (parseBorder color current) ts = some (borderOf current ps) := by
  have he : eatWs ts = ts := by
    cases h with
    | nil => rfl
    | @cons p t ps ts h1 h2 =>
      cases h1 with
      | width h =>
        cases t with
        | ws =>
          have := h []
          simp [parseLineWidth, skipAny, skipIdent, parseCalcOf, parseLen, parseLength] at this
        | _ => rfl
      | style => rfl
      | color _ _ hne =>
        cases t with
        | ws => exact absurd rfl hne
        | _ => rfl
  simp only [declared, he, parseBorder, borderLoop_parts hs h _ (Nat.le_succ _), foldl_set ps _ hn,
    borderOf]
  rfl

/-- **C101.** The order of the parts does not matter. -/
theorem C101_order {ps qs : List (BPart κ)} (hp : ps.Perm qs) (hn : (ps.map BPart.kind).Nodup)
    (current : κ) : borderOf current ps = borderOf current qs := by
  have key : ∀ b : Border κ, ps.foldl Border.set b = qs.foldl Border.set b := by
    clear current
    induction hp with
    | nil => intro b; rfl
    | cons x h ih =>
      intro b
      simp only [List.map_cons, List.nodup_cons] at hn
      exact ih hn.2 _
    | swap x y l =>
      intro b
      simp only [List.map_cons, List.nodup_cons, List.mem_cons, not_or] at hn
      simp only [List.foldl_cons]
      congr 1
      have hk : y.kind ≠ x.kind := hn.1.1
      cases x <;> cases y <;> first | rfl | exact absurd rfl hk
    | trans h1 h2 ih1 ih2 =>
      intro b
      rw [ih1 hn b]
      exact ih2 ((h1.map _).nodup_iff.mp hn) b
  have h1 := foldl_set ps ⟨.medium, .none, current⟩ hn
  have h2 := foldl_set qs ⟨.medium, .none, current⟩ ((hp.map _).nodup_iff.mp hn)
  have h3 := key ⟨.medium, .none, current⟩
  unfold borderOf
  rw [h1, h2] at h3
  exact h3

/-- Colours for the examples: hex, and `red`. -/
def someColor : List Tok → Out Color :=
  parseColor readHex (fun s => if s = "red".toList then some ⟨255, 0, 0, 255⟩ else none)
    (fun _ => false) (fun _ _ => none)

theorem someColor_notStyle : NotStyle someColor := by
  intro k s w hk hc r
  have tbl : ∀ x ∈ styleKw, eqCi x.1.toList "currentcolor".toList = false ∧
      eqCi x.1.toList "transparent".toList = false ∧ x.1.toList.map Char.toLower ≠ "red".toList := by
    decide +kernel
  have h := tbl _ hk
  simp only at h
  rw [← hc.eqCi_congr, ← hc.eqCi_congr, ← hc.lower] at h
  simp only [someColor, parseColor, h.1, h.2.1, Bool.false_eq_true, ↓reduceIte, if_neg h.2.2]

/-- `Solid red thin`: the parts in one of the orders. -/
example : WritesParts someColor [.style .solid, .color (.rgba ⟨255, 0, 0, 255⟩), .width .thin]
    [.ident "Solid".toList, .ident "red".toList, .ident "thin".toList] ∧
    ([BPart.style .solid, .color (Color.rgba ⟨255, 0, 0, 255⟩), .width .thin].map BPart.kind).Nodup := by
  refine ⟨.cons (.style (k := "solid") (by decide +kernel) (eqCi_iff.mp (by decide +kernel)))
    (.cons (.color (fun r => ?_) (fun r => ?_) (by simp)) (.cons (.width (fun r => ?_)) .nil)),
    by simp [BPart.kind]⟩
  · have h1 : eqCi "red".toList "currentcolor".toList = false := by decide +kernel
    have h2 : eqCi "red".toList "transparent".toList = false := by decide +kernel
    have h3 : "red".toList.map Char.toLower = "red".toList := by decide +kernel
    simp only [someColor, parseColor, h1, h2, h3, Bool.false_eq_true, ↓reduceIte]
  · exact lineWidth_ident (by decide +kernel) r
  · unfold parseLineWidth
    rw [skipAny_ident]
    have : kwLookup [("thin", LineWidth.thin), ("medium", .medium), ("thick", .thick)]
      "thin".toList = some .thin := by decide +kernel
    rw [this]; rfl

/-- **C101.** It is false that a border with a colour that is not one is rejected: wherever it
stands, a hash of the wrong length is stepped over. -/
theorem C101_hash_fails (atou : List Char → Option Nat) (named : List Char → Option Rgba)
    (system : List Char → Bool) (func : List Char → List Tok → Option Color)
    (hs : NotStyle (parseColor atou named system func)) (current : Color) (x : List Char)
    (hx : hexColor atou x = none) {k : String} {s : BStyle} {w : List Char} (hk : (k, s) ∈ styleKw)
    (hc : Cased w k.toList) :
    declared (parseBorder (parseColor atou named system func) current) [.hash x, .ident w] =
      some ⟨.medium, s, current⟩ := by
  have tbl : ∀ x ∈ styleKw, kwLookup styleKw x.1.toList = some x.2 := by decide +kernel
  have t1 := tbl _ hk
  simp only [← kwLookup_congr hc] at t1
  have h1 : parseLineWidth (.hash x :: [.ident w]) = (none, .hash x :: [.ident w]) := by
    simp [parseLineWidth, skipAny, skipIdent, parseCalcOf, parseLen, parseLength]
  have h3 : parseStyle [.ident w] = (some s, []) := by
    unfold parseStyle; rw [skipAny_ident, t1]; rfl
  simp [declared, eatWs, parseBorder, borderLoop, h1, parseColor, hx, h3]

example : hexColor readHex "#12345".toList = none := by decide +kernel

/-- **C101.** It is false that a border with two styles is rejected: the last counts. -/
theorem C101_twice_fails {color : List Tok → Out κ} (hs : NotStyle color) (current : κ)
    {k k' : String} {s s' : BStyle} (h : (k, s) ∈ styleKw) (h' : (k', s') ∈ styleKw) :
    declared (parseBorder color current) [.ident k.toList, .ident k'.toList] =
      some ⟨.medium, s', current⟩ := by
  have hw : WritesParts color [.style s, .style s'] [.ident k.toList, .ident k'.toList] :=
    .cons (.style h (Cased.refl _)) (.cons (.style h' (Cased.refl _)) .nil)
  simp [declared, eatWs, parseBorder, borderLoop_parts hs hw, Border.set]

/-- **C101.** It is false that `inset` is a style. -/
theorem C101_inset_fails :
    declared (parseBorder someColor .current) [.ident "inset".toList] = none := by
  unfold declared parseBorder
  simp only [eatWs, List.length_cons, List.length_nil, borderLoop]
  rw [lineWidth_ident (by decide +kernel)]
  have h1 : eqCi "inset".toList "currentcolor".toList = false := by decide +kernel
  have h2 : eqCi "inset".toList "transparent".toList = false := by decide +kernel
  have h3 : "inset".toList.map Char.toLower ≠ "red".toList := by decide +kernel
  have h4 : kwLookup styleKw "inset".toList = none := by decide +kernel
  have h5 : parseStyle [.ident "inset".toList] = (none, [.ident "inset".toList]) := by
    unfold parseStyle; rw [skipAny_ident, h4]; rfl
  simp only [someColor, parseColor, h1, h2, if_neg h3, Bool.false_eq_true, ↓reduceIte, h5]

end Verif.Values
