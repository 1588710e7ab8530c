import Verif.Short.Lemmas

/-!
# Shorthands: border-radius (C167)
-/

namespace Verif.Short
open Verif.Values

theorem parsePL_slash (r : List Tok) : parsePL (slash :: r) = (none, slash :: r) := rfl

theorem readsPL_ne_ws {t : Tok} {v : PL} (h : Reads parsePL t v) : t ≠ .ws := by
  rintro rfl; have := h []; cases this

theorem readsAll_eatWs {ts : List Tok} {vs : List PL} (h : ReadsAll parsePL ts vs) (r : List Tok)
    (hr : eatWs r = r) : eatWs (ts ++ r) = ts ++ r := by
  cases h with
  | nil => exact hr
  | @cons t _ _ _ h1 _ =>
    have := readsPL_ne_ws h1
    cases t with
    | ws => exact absurd rfl this
    | _ => rfl

/-- Reading up to four values: what the first part does. -/
theorem parseRadii_first {ts : List Tok} {vs : List PL} (h : ReadsAll parsePL ts vs)
    {l : List Tok} (hl : parsePL l = (none, l)) {s : Sides PL} (hs : sidesOf vs = some s) :
    parseRadii (ts ++ l) = postSlash l (some (.corners s.top s.right s.bottom s.left)) := by
  cases h with
  | nil => cases hs
  | cons h1 h =>
  cases h with
  | nil => cases hs; simp only [parseRadii, List.cons_append, List.nil_append, List.isEmpty_cons,
      Bool.false_eq_true, if_false, h1 _, hl]
  | cons h2 h =>
  cases h with
  | nil => cases hs; simp only [parseRadii, List.cons_append, List.nil_append, List.isEmpty_cons,
      Bool.false_eq_true, if_false, h1 _, h2 _, hl]
  | cons h3 h =>
  cases h with
  | nil => cases hs; simp only [parseRadii, List.cons_append, List.nil_append, List.isEmpty_cons,
      Bool.false_eq_true, if_false, h1 _, h2 _, h3 _, hl]
  | cons h4 h =>
  cases h with
  | nil => cases hs; simp only [parseRadii, List.cons_append, List.nil_append, List.isEmpty_cons,
      Bool.false_eq_true, if_false, h1 _, h2 _, h3 _, h4 _]
  | cons h5 h => cases hs

theorem postSlash_value {t : Tok} {v : PL} (h : Reads parsePL t v) (l : List Tok)
    (o : Option Radii) : postSlash (t :: l) o = (o, t :: l) := by
  have hne := readsPL_ne_ws h
  have : ∀ s, t ≠ .delim s := by
    rintro s rfl
    have := h []; cases this
  unfold postSlash
  cases t with
  | ws => exact absurd rfl hne
  | delim s => exact absurd rfl (this s)
  | _ => rfl

/-- With more than four values, some are left over. -/
theorem parseRadii_many {ts : List Tok} {vs : List PL} (h : ReadsAll parsePL ts vs)
    (hl : 4 < vs.length) (l : List Tok) : ∃ o t r, parseRadii (ts ++ l) = (o, t :: r) := by
  cases h with
  | nil => simp at hl
  | cons h1 h =>
  cases h with
  | nil => simp at hl
  | cons h2 h =>
  cases h with
  | nil => simp at hl
  | cons h3 h =>
  cases h with
  | nil => simp at hl
  | cons h4 h =>
  cases h with
  | nil => simp at hl
  | @cons t5 v5 ts vs h5 h =>
    simp only [parseRadii, List.cons_append, List.isEmpty_cons, Bool.false_eq_true, if_false,
      h1 _, h2 _, h3 _, h4 _]
    exact ⟨_, t5, ts ++ l, postSlash_value h5 _ _⟩

theorem sidesOf_isSome {vs : List α} (h0 : vs ≠ []) (h4 : vs.length ≤ 4) :
    ∃ s, sidesOf vs = some s := by
  rcases vs with _ | ⟨a, _ | ⟨b, _ | ⟨c, _ | ⟨d, _ | ⟨e, t⟩⟩⟩⟩⟩
  · exact absurd rfl h0
  · exact ⟨_, rfl⟩
  · exact ⟨_, rfl⟩
  · exact ⟨_, rfl⟩
  · exact ⟨_, rfl⟩
  · simp at h4

theorem sidesOf_none {vs : List α} (h4 : 4 < vs.length) : sidesOf vs = none := by
  rcases vs with _ | ⟨a, _ | ⟨b, _ | ⟨c, _ | ⟨d, _ | ⟨e, t⟩⟩⟩⟩⟩ <;> first | rfl | (simp at h4)

/-- The part behind the slash. -/
theorem postSlash_reads {ts : List Tok} {vs : List PL} (h : ReadsAll parsePL ts vs)
    {s : Sides PL} (hs : sidesOf vs = some s) (o : Option Radii) :
    postSlash (slash :: ts) o =
      (some { o.getD (.corners (.length (.abs 0 .px)) (.length (.abs 0 .px))
          (.length (.abs 0 .px)) (.length (.abs 0 .px))) with
        a := s.top, d := s.right, e := s.bottom, h := s.left }, []) := by
  have hw : ∀ {t : Tok} {v : PL} (r : List Tok), Reads parsePL t v → eatWs (t :: r) = t :: r := by
    intro t v r h
    cases t with
    | ws => exact absurd rfl (readsPL_ne_ws h)
    | _ => rfl
  have hn : parsePL [] = (none, []) := rfl
  have e0 : eatWs [] = [] := rfl
  have es : eatWs (slash :: ts) = slash :: ts := rfl
  unfold postSlash
  rw [es]
  simp only [slash, if_true]
  cases h with
  | nil => cases hs
  | cons h1 h =>
  cases h with
  | nil => cases hs; simp only [hw _ h1, h1 _, hn, e0]
  | cons h2 h =>
  cases h with
  | nil => cases hs; simp only [hw _ h1, h1 _, h2 _, hn, e0]
  | cons h3 h =>
  cases h with
  | nil => cases hs; simp only [hw _ h1, h1 _, h2 _, hw _ h3, h3 _, hn, e0]
  | cons h4 h =>
  cases h with
  | nil => cases hs; simp only [hw _ h1, h1 _, h2 _, hw _ h3, h3 _, hw _ h4, h4 _]
  | cons h5 h => cases hs

theorem postSlash_many {ts : List Tok} {vs : List PL} (h : ReadsAll parsePL ts vs)
    (hl : 4 < vs.length) (o : Option Radii) : ∃ o' t r, postSlash (slash :: ts) o = (o', t :: r) := by
  have hw : ∀ {t : Tok} {v : PL} (r : List Tok), Reads parsePL t v → eatWs (t :: r) = t :: r := by
    intro t v r h
    cases t with
    | ws => exact absurd rfl (readsPL_ne_ws h)
    | _ => rfl
  have es : eatWs (slash :: ts) = slash :: ts := rfl
  unfold postSlash
  rw [es]
  simp only [slash, if_true]
  cases h with
  | nil => simp at hl
  | cons h1 h =>
  cases h with
  | nil => simp at hl
  | cons h2 h =>
  cases h with
  | nil => simp at hl
  | cons h3 h =>
  cases h with
  | nil => simp at hl
  | cons h4 h =>
  cases h with
  | nil => simp at hl
  | @cons t5 v5 ts vs h5 h =>
    simp only [hw _ h1, h1 _, h2 _, hw _ h3, h3 _, hw _ h4, h4 _]
    exact ⟨_, t5, ts, rfl⟩

theorem declared_leftover {p : List Tok → Out α} {ts : List Tok} {o : Option α} {t : Tok}
    {r : List Tok} (he : eatWs ts = ts) (h : p ts = (o, t :: r)) : declared p ts = none := by
  unfold declared
  rw [he, h]
  cases o <;> rfl

/-- **C167 (in part).** One to four lengths or percentages, and no other number of them, are the
radii of the corners from the top start one on and round the box, a missing one as the opposite
corner's, the second as the first; each is the horizontal and the vertical radius.  Missing:
`calc()`, which is not read. -/
theorem C167_radius_partial {ts : List Tok} {vs : List PL} (h : ReadsAll parsePL ts vs) :
    (declared parseRadii ts).map Radii.all = (sidesOf vs).map fun s => corners s s := by
  have he : eatWs ts = ts := by simpa using readsAll_eatWs h [] rfl
  by_cases h0 : vs = []
  · subst h0; cases h; rfl
  · by_cases h4 : vs.length ≤ 4
    · obtain ⟨s, hs⟩ := sidesOf_isSome h0 h4
      have := parseRadii_first h (l := []) rfl hs
      rw [List.append_nil] at this
      unfold declared
      rw [he, this, hs]
      rfl
    · have h4 : 4 < vs.length := by omega
      obtain ⟨o, t, r, e⟩ := parseRadii_many h h4 []
      rw [List.append_nil] at e
      rw [declared_leftover he e, sidesOf_none h4]
      rfl

/-- **C167 (in part).** With a slash, the values in front of it are the horizontal radii of the
corners and those behind it the vertical ones.  Missing: that there must be values on both sides,
which is not asked for. -/
theorem C167_slash_partial {ts us : List Tok} {vs ws : List PL} (h : ReadsAll parsePL ts vs)
    (h' : ReadsAll parsePL us ws) (hv : vs ≠ []) (hw : ws ≠ []) :
    (declared parseRadii (ts ++ slash :: us)).map Radii.all =
      match sidesOf vs, sidesOf ws with
      | some a, some b => some (corners a b)
      | _, _ => none := by
  have he : eatWs (ts ++ slash :: us) = ts ++ slash :: us := readsAll_eatWs h _ rfl
  by_cases h4 : vs.length ≤ 4
  · obtain ⟨s, hs⟩ := sidesOf_isSome hv h4
    have := parseRadii_first h (l := slash :: us) (parsePL_slash us) hs
    by_cases h4' : ws.length ≤ 4
    · obtain ⟨s', hs'⟩ := sidesOf_isSome hw h4'
      unfold declared
      rw [he, this, hs, hs', postSlash_reads h' hs']
      rfl
    · have h4' : 4 < ws.length := by omega
      obtain ⟨o, t, r, e⟩ := postSlash_many h' h4' (some (.corners s.top s.right s.bottom s.left))
      rw [declared_leftover he (this.trans e), hs, sidesOf_none h4']
      rfl
  · have h4 : 4 < vs.length := by omega
    obtain ⟨o, t, r, e⟩ := parseRadii_many h h4 (slash :: us)
    rw [declared_leftover he e, sidesOf_none h4]
    rfl

/-- `border-radius: 10px 5% / 20px` -/
example : ReadsAll parsePL [.dim "10px".toList, .percent "5%".toList]
    [.length (.abs 10 .px), .percent 5] ∧
    ReadsAll parsePL [.dim "20px".toList] [.length (.abs 20 .px)] := by
  have one : ∀ {t : Tok} {v : PL}, t ≠ .ws → declared parsePL [t] = some v → Reads parsePL t v :=
    fun ht => (declared_one parsePL_oneTok ht).1
  exact ⟨.cons (one (by simp) (by decide +kernel)) (.cons (one (by simp) (by decide +kernel)) .nil),
    .cons (one (by simp) (by decide +kernel)) .nil⟩

/-- No radii at all in front of the slash, or none behind it, are accepted. -/
theorem C167_slash_fails :
    (declared parseRadii [slash, .dim "5px".toList]).isSome = true ∧
      (declared parseRadii [.dim "5px".toList, slash]).isSome = true := by
  decide +kernel

/-- No radius is a `calc()`, or any other function. -/
theorem C167_calc_fails (name : List Char) (content : List Tok) :
    declared parseRadii [.func name content] = none := rfl

end Verif.Short
