import Verif.Short.Lemmas

/-!
# Shorthands: outline (C169)
-/

namespace Verif.Short
open Verif.Values

/-- Whether a style has been given, and the outline so far. -/
abbrev OState (κ : Type) := Bool × Outline κ

/-- What a part does, as the code has it. -/
def oset (s : OState κ) : OPart κ → OState κ
  | .width w => (s.1, { s.2 with width := w })
  | .style x => (true, { s.2 with style := some x })
  | .color c => (s.1, { s.2 with color := some c })
  | .auto => (s.1, { s.2 with style := if s.1 then s.2.style else none, color := none })

/-- The colour parser does not take `auto` for a colour. -/
def NotAuto (color : List Tok → Out κ) : Prop :=
  ∀ t, Word "auto" t → ∀ r, color (t :: r) = (none, t :: r)

theorem calcLen_word {k : String} {t : Tok} (h : Word k t) (r : List Tok) :
    parseCalcOf parseLen (t :: r) = (none, t :: r) := by cases h; rfl

theorem parseStyle_eq (l : List Tok) : parseStyle l = parseKw styleKw l := by
  unfold parseStyle parseKw
  cases skipAny styleKw l <;> rfl

theorem lineWidth_calc {t : Tok} {c : Calc} (h : Reads parseLineWidth t (.calc c)) :
    Reads (parseCalcOf parseLen) t c := by
  have h1 := h []
  unfold parseLineWidth at h1
  split at h1
  · next v r e =>
    obtain ⟨e1, e2⟩ := Prod.mk.inj h1
    cases e1
    have h2 : parseKw [("thin", LineWidth.thin), ("medium", .medium), ("thick", .thick)] [t] =
        (some (.calc c), r) := by unfold parseKw; rw [e]
    obtain ⟨t', k, _, hm, _⟩ := parseKw_one h2
    simp at hm
  · split at h1
    · next c' r e =>
      obtain ⟨e1, e2⟩ := Prod.mk.inj h1
      cases e1
      obtain ⟨t', e', hr⟩ := (parseCalcOf_oneTok parseLen_oneTok).one e
      cases e'; exact hr
    · cases h1

theorem calcLen_ne_ws {t : Tok} {c : Calc} (h : Reads (parseCalcOf parseLen) t c) : t ≠ .ws := by
  rintro rfl; have := h []; cases this

theorem outlineLoop_part {color : List Tok → Out κ} (hs : NotStyle color) (ha : NotAuto color)
    {p : OPart κ} {t : Tok} (h : OWrites color p t) (hw : ∀ w, p = .width w → ∃ c, w = .calc c)
    (n : Nat) (ss : Bool) (v : Outline κ) (r : List Tok) :
    outlineLoop color (n + 1) ss v (t :: r) =
      outlineLoop color n (oset (ss, v) p).1 (oset (ss, v) p).2 r := by
  cases h with
  | width h =>
    obtain ⟨c, rfl⟩ := hw _ rfl
    simp only [outlineLoop, lineWidth_calc h _, oset]
  | @style k s _ hm h =>
    rw [styleNames_eq] at hm
    have tbl : ∀ x ∈ styleKw, kwLookup styleKw x.1.toList = some x.2 := by decide +kernel
    have h1 : color (t :: r) = (none, t :: r) := by
      cases h with
      | mk hc => exact hs k s _ hm hc r
    have h2 : parseStyle (t :: r) = (some s, r) := by
      rw [parseStyle_eq, parseKw_word h, tbl _ hm]; rfl
    simp only [outlineLoop, calcLen_word h, h1, h2, oset]
  | color h hl _ => simp only [outlineLoop, hl r, h r, oset]
  | auto h =>
    have h2 : parseStyle (t :: r) = (none, t :: r) := by
      rw [parseStyle_eq, parseKw_word h, show kwLookup styleKw "auto".toList = none by decide +kernel]
      rfl
    have h3 : skipIdent "auto".toList (t :: r) = some r := by
      rw [skipIdent_word h, if_pos (by decide +kernel)]
    simp only [outlineLoop, calcLen_word h, ha t h r, h2, h3, oset]

theorem outlineLoop_parts {color : List Tok → Out κ} (hs : NotStyle color) (ha : NotAuto color)
    {ps : List (OPart κ)} {ts : List Tok} (h : Texts (OWrites color) ps ts)
    (hw : ∀ w, .width w ∈ ps → ∃ c, w = .calc c) (n : Nat) (hn : ts.length ≤ n) (ss : Bool)
    (v : Outline κ) :
    outlineLoop color n ss v ts = (some (ps.foldl oset (ss, v)).2, []) := by
  induction h generalizing n ss v with
  | nil => cases n <;> rfl
  | cons h1 h2 ih =>
    cases n with
    | zero => simp at hn
    | succ n =>
      rw [outlineLoop_part hs ha h1 (fun w e => hw w (e ▸ List.mem_cons_self ..))]
      exact ih (fun w hm => hw w (List.mem_cons_of_mem _ hm)) n (by simpa using hn) _ _

theorem hasAuto_iff {ps : List (OPart κ)} : hasAuto ps = true ↔ OPart.auto ∈ ps := by
  unfold hasAuto
  rw [List.any_eq_true]
  constructor
  · rintro ⟨p, hp, h⟩
    cases p <;> first | exact hp | cases h
  · intro h; exact ⟨_, h, rfl⟩

theorem foldl_oset (ps : List (OPart κ)) (ss : Bool) (v : Outline κ)
    (h : (ps.map OPart.kind).Nodup)
    (hc : ∀ a c b, ps = a ++ .color c :: b → hasAuto b = false) :
    (ps.foldl oset (ss, v)).2 =
      ⟨(ps.findSome? OPart.width?).getD v.width,
       match ps.findSome? OPart.style? with
        | some s => some s
        | none => if hasAuto ps && !ss then none else v.style,
       match ps.findSome? OPart.color? with
        | some c => some c
        | none => if hasAuto ps then none else v.color⟩ := by
  induction ps generalizing ss v with
  | nil => rfl
  | cons p ps ih =>
    simp only [List.map_cons, List.nodup_cons] at h
    have none_of : ∀ {β : Type} (f : OPart κ → Option β) (k : Nat), (∀ q, f q ≠ none → q.kind = k) →
        p.kind = k → ps.findSome? f = none := by
      intro β f k hf hk
      rw [List.findSome?_eq_none_iff]
      intro q hq
      by_cases e : f q = none
      · exact e
      · exact absurd (List.mem_map.mpr ⟨q, hq, (hf q e).trans hk.symm⟩) h.1
    have fw : ∀ q : OPart κ, q.width? ≠ none → q.kind = 0 := by
      intro q; cases q <;> simp [OPart.width?, OPart.kind]
    have fs : ∀ q : OPart κ, q.style? ≠ none → q.kind = 1 := by
      intro q; cases q <;> simp [OPart.style?, OPart.kind]
    have fc : ∀ q : OPart κ, q.color? ≠ none → q.kind = 2 := by
      intro q; cases q <;> simp [OPart.color?, OPart.kind]
    have hc' : ∀ a c b, ps = a ++ .color c :: b → hasAuto b = false :=
      fun a c b e => hc (p :: a) c b (by rw [e]; rfl)
    rw [List.foldl_cons]
    have := ih (oset (ss, v) p).1 (oset (ss, v) p).2 h.2 hc'
    rw [show oset (ss, v) p = ((oset (ss, v) p).1, (oset (ss, v) p).2) from rfl, this]
    cases p with
    | width w =>
      simp [List.findSome?_cons, OPart.width?, OPart.style?, OPart.color?, oset, none_of _ 0 fw rfl,
        hasAuto]
    | style w =>
      simp [List.findSome?_cons, OPart.width?, OPart.style?, OPart.color?, oset, none_of _ 1 fs rfl,
        hasAuto]
    | color w =>
      have := hc [] w ps rfl
      simp only [hasAuto] at this
      simp [List.findSome?_cons, OPart.width?, OPart.style?, OPart.color?, oset, none_of _ 2 fc rfl,
        hasAuto, this]
    | auto =>
      have h1 : hasAuto ps = false := by
        cases e : hasAuto ps with
        | false => rfl
        | true => exact absurd (List.mem_map.mpr ⟨_, hasAuto_iff.1 e, rfl⟩) h.1
      have h2 : hasAuto (.auto :: ps) = true := rfl
      rw [h1, h2]
      cases ss <;>
        simp [List.findSome?_cons, OPart.width?, OPart.style?, OPart.color?, oset] <;>
        cases ps.findSome? OPart.color? <;> rfl

/-- **C169 (in part).** The width, style and colour of an outline and `auto`, at most one of each
and in any order, are what is written; those not written are `medium`, `none` (`auto`, if that is
written) and `auto`.  Missing: widths that are words, and a colour in front of `auto`. -/
theorem C169_outline_partial {color : List Tok → Out κ} (hs : NotStyle color) (ha : NotAuto color)
    {ps : List (OPart κ)} {ts : List Tok} (h : Texts (OWrites color) ps ts)
    (hn : (ps.map OPart.kind).Nodup) (hw : ∀ w, .width w ∈ ps → ∃ c, w = .calc c)
    (hc : ∀ a c b, ps = a ++ .color c :: b → hasAuto b = false) :
    declared (parseOutline color) ts = some (outlineOf ps) := by
  have he : eatWs ts = ts := by
    cases h with
    | nil => rfl
    | @cons p t ps ts h1 h2 =>
      have : t ≠ .ws := by
        cases h1 with
        | width h =>
          obtain ⟨c, rfl⟩ := hw _ (List.mem_cons_self ..)
          exact calcLen_ne_ws (lineWidth_calc h)
        | style _ h => exact h.ne_ws
        | color _ _ h => exact h
        | auto h => exact h.ne_ws
      cases t with
      | ws => exact absurd rfl this
      | _ => rfl
  unfold declared parseOutline
  rw [he, outlineLoop_parts hs ha h hw _ (Nat.le_succ _), foldl_oset ps _ _ hn hc]
  unfold outlineOf
  simp only [Bool.not_false, Bool.and_true, ite_self]
  cases ps.findSome? OPart.color? <;> rfl

/-- A parser of one colour, for the examples: any hash is black. -/
def black : List Tok → Out Nat
  | .hash _ :: r => (some 0, r)
  | l => (none, l)

/-- `outline: auto 2px #000` -/
example : NotStyle black ∧ NotAuto black ∧
    Texts (OWrites black) [.auto, .width (.calc (.one (.val (.length (.abs 2 .px))))), .color 0]
      [.ident "auto".toList, .dim "2px".toList, .hash "#000".toList] := by
  refine ⟨fun k s w _ _ r => rfl, fun t h r => by cases h; rfl, ?_⟩
  refine .cons (.auto (.mk (Cased.refl _))) (.cons (.width ?_) (.cons (.color (fun r => rfl) ?_ (by simp)) .nil))
  · have := (declared_one (parseCalcOf_oneTok parseLen_oneTok) (t := .dim "2px".toList) (by simp)
      (v := .one (.val (.length (.abs 2 .px))))).1 (by decide +kernel)
    intro r
    unfold parseLineWidth
    rw [skipAny_none _ (fun w r e => by cases e)]
    simp only [this r]
  · intro r; rfl

/-- A colour in front of `auto` is lost. -/
theorem C169_color_fails {color : List Tok → Out κ} (hs : NotStyle color) (ha : NotAuto color)
    {c : κ} {t a : Tok} (ht : OWrites color (.color c) t) (hau : Word "auto" a) :
    declared (parseOutline color) [t, a] = some ⟨.medium, none, none⟩ ∧
      outlineOf [.color c, .auto] = ⟨.medium, none, some c⟩ := by
  refine ⟨?_, rfl⟩
  have h := outlineLoop_parts hs ha (.cons ht (.cons (OWrites.auto hau) .nil)) (by simp) 3 (by simp)
    false ⟨.medium, some .none, none⟩
  have he : eatWs [t, a] = [t, a] := by
    cases ht with
    | color _ _ hne =>
      cases t with
      | ws => exact absurd rfl hne
      | _ => rfl
  unfold declared parseOutline
  rw [he]
  rw [show [t, a].length + 1 = 3 from rfl, h]
  rfl

/-- The widths that are words are not accepted, whatever they come with behind them. -/
theorem C169_width_fails {color : List Tok → Out κ} {k : String}
    (hk : k = "thin" ∨ k = "medium" ∨ k = "thick") {t : Tok} (h : Word k t)
    (hc : ∀ r, color (t :: r) = (none, t :: r)) (r : List Tok) :
    declared (parseOutline color) (t :: r) = none ∧ ∃ w, Reads parseLineWidth t w := by
  have h1 : kwLookup styleKw k.toList = none := by rcases hk with rfl | rfl | rfl <;> decide +kernel
  have h2 : eqCi k.toList "auto".toList = false := by rcases hk with rfl | rfl | rfl <;> decide +kernel
  have h3 : parseStyle (t :: r) = (none, t :: r) := by rw [parseStyle_eq, parseKw_word h, h1]; rfl
  have h4 : skipIdent "auto".toList (t :: r) = none := by rw [skipIdent_word h, h2]; rfl
  have he : eatWs (t :: r) = t :: r := by cases h; rfl
  constructor
  · unfold declared parseOutline
    rw [he]
    simp only [List.length_cons, outlineLoop, calcLen_word h, hc r, h3, h4]
  · have : ∃ w, kwLookup [("thin", LineWidth.thin), ("medium", .medium), ("thick", .thick)]
        k.toList = some w := by
      rcases hk with rfl | rfl | rfl
      · exact ⟨.thin, by decide +kernel⟩
      · exact ⟨.medium, by decide +kernel⟩
      · exact ⟨.thick, by decide +kernel⟩
    obtain ⟨w, hw⟩ := this
    refine ⟨w, fun r => ?_⟩
    unfold parseLineWidth
    rw [skipAny_word h, hw]
    rfl

end Verif.Short
