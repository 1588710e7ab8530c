import Verif.Keyword.AmountProps

/-!
# Declarations: position and background-attachment (C191)
-/

namespace Verif.Keyword
open Verif.Values Verif.Short

/-- The words of CSS for `position`. -/
def positionWords : List (String × Position) :=
  [("static", .static), ("relative", .relative), ("absolute", .absolute), ("sticky", .sticky),
   ("fixed", .fixed)]

/-- A value of `position` as it is read: a word, or `running()` with a name first in it. -/
inductive PositionTok : Tok → Position → Prop
  | word (h : (k, v) ∈ positionWords) (hw : Word k t) : PositionTok t v
  | running (h : Cased name "running(".toList) (s : List Char) (junk : List Tok) :
    PositionTok (.func name (.ident s :: junk)) (.running s)

def positionKw : List (String × Position) :=
  [("static", .static), ("relative", .relative), ("absolute", .absolute), ("fixed", .fixed),
   ("sticky", .sticky)]

theorem position_lookup : ∀ p ∈ positionWords, kwLookup positionKw p.1.toList = some p.2 ∧
    kwLookup wideKw p.1.toList = none := by decide +kernel

theorem position_words : ∀ p ∈ positionKw, p ∈ positionWords := by decide +kernel

/-- **C191.** `position` is one of its words or `running(name)`, exactly. -/
theorem C191_position {l : List Tok} (hl : Plain l) (v : Position) (n : Nat) :
    readDecl parsePosition n l = some (.value v) ↔ ∃ t, l = [t] ∧ PositionTok t v := by
  have hdef : ∀ l, parsePosition l = match skipAny positionKw l with
      | some (v, r) => (some v, r)
      | none => match l with
        | .func name content :: r =>
          if eqCi name "running(".toList then
            match parseName content with
            | (some s, _) => (some (.running s), r)
            | (none, _) => (none, l)
          else (none, l)
        | _ => (none, l) := fun _ => rfl
  constructor
  · intro h
    obtain ⟨_, _, r, hp, hr⟩ := read_value h
    rw [hl.eatWs, hdef] at hp
    split at hp
    · next v' r' hs =>
      cases hp
      have hk : parseKw positionKw l = (some v, r) := by unfold parseKw; rw [hs]
      obtain ⟨t, k, rfl, hm, hw⟩ := parseKw_one hk
      have := eatWs_nil_of_suffix hl (List.suffix_cons _ _) hr
      subst this
      exact ⟨t, rfl, .word (position_words _ hm) hw⟩
    · split at hp
      · split at hp
        · next he =>
          split at hp
          · next s _ hn =>
            cases hp
            have := eatWs_nil_of_suffix hl (List.suffix_cons _ _) hr
            subst this
            unfold parseName at hn
            split at hn
            · cases hn
              exact ⟨_, rfl, .running (eqCi_iff.1 he) _ _⟩
            · cases hn
          · cases hp
        · cases hp
      · cases hp
  · rintro ⟨t, rfl, h⟩
    cases h with
    | word h hw =>
      obtain ⟨h1, h2⟩ := position_lookup _ h
      rw [read_plain hl (notWide_word hw h2) (notToggle_word hw), readPlain_value]
      rw [hdef, skipAny_word hw, h1]
      rfl
    | running h s junk =>
      rw [read_plain hl (notWide_other (fun w e => by cases e))
        (fun nm c e => by cases e; rw [h.eqCi_congr]; decide +kernel), readPlain_value]
      rw [hdef, skipAny_none _ (fun w r e => by cases e)]
      simp only [eqCi_iff.2 h, if_true, parseName]

/-- `running(header)` -/
example : PositionTok (.func "running(".toList [.ident "header".toList])
    (.running "header".toList) := .running (Cased.refl _) _ _

/-- The words of `background-attachment`. -/
def attachWords : List (String × Kw) := [("fixed", .fixed), ("local", .local'), ("scroll", .scroll)]

/-- Words of a table, one after the other. -/
inductive Words (tb : List (String × Kw)) : List Tok → List Kw → Prop
  | nil : Words tb [] []
  | cons (h : (k, v) ∈ tb) (hw : Word k t) (hs : Words tb l vs) : Words tb (t :: l) (v :: vs)

def attachKw : List (String × Kw) := [("scroll", .scroll), ("fixed", .fixed), ("local", .local')]

theorem attach_lookup : ∀ p ∈ attachWords, kwLookup attachKw p.1.toList = some p.2 ∧
    kwLookup wideKw p.1.toList = none := by decide +kernel

theorem attach_words : ∀ p ∈ attachKw, p ∈ attachWords := by decide +kernel

theorem attach_step (n : Nat) (acc : List Kw) (t : Tok) (l : List Tok) :
    attachLoop (n + 1) acc (t :: l) = match parseKw attachKw (t :: l) with
      | (none, r) => (none, r)
      | (some k, r) => attachLoop n (acc ++ [k]) (eatWs r) := rfl

theorem Words.plain {tb : List (String × Kw)} {l : List Tok} {vs : List Kw} (h : Words tb l vs) :
    Plain l := by
  induction h with
  | nil => exact plain_nil
  | cons _ hw _ ih => exact plain_cons.2 ⟨hw.ne_ws, ih⟩

theorem attach_reads {l : List Tok} {vs : List Kw} (h : Words attachWords l vs) :
    ∀ (n : Nat) (acc : List Kw), l.length < n → attachLoop n acc l = (some (acc ++ vs), []) := by
  induction h with
  | nil =>
    intro n acc hn
    obtain ⟨n, rfl⟩ : ∃ m, n = m + 1 := ⟨n - 1, by omega⟩
    simp [attachLoop]
  | cons hm hw hs ih =>
    intro n acc hn
    obtain ⟨n, rfl⟩ : ∃ m, n = m + 1 := ⟨n - 1, by omega⟩
    rw [attach_step, parseKw_word hw, (attach_lookup _ hm).1]
    simp only [Option.isSome_some, if_true, hs.plain.eatWs]
    rw [ih _ _ (by simp only [List.length_cons] at hn; omega)]
    simp

theorem attach_only : ∀ (n : Nat) (acc vs : List Kw) (l r : List Tok), Plain l → l.length < n →
    attachLoop n acc l = (some vs, r) → ∃ ws, vs = acc ++ ws ∧ Words attachWords l ws := by
  intro n
  induction n with
  | zero => intro acc vs l r _ h; exact absurd h (Nat.not_lt_zero _)
  | succ n ih =>
    intro acc vs l r hl hn h
    cases l with
    | nil => simp only [attachLoop] at h; cases h; exact ⟨[], by simp, .nil⟩
    | cons t l =>
      rw [attach_step] at h
      split at h
      · cases h
      · next k r' hk =>
        obtain ⟨_, w, e, hm, hw⟩ := parseKw_one hk
        cases e
        rw [hl.tail.eatWs] at h
        obtain ⟨ws, e, hws⟩ := ih _ _ _ _ hl.tail (by simp only [List.length_cons] at hn; omega) h
        exact ⟨k :: ws, by simp [e], .cons (attach_words _ hm) hw hws⟩

/-- **C191.** `background-attachment` is read as words one after the other, one for a layer, and
nothing else is read. -/
theorem C191_attachment {t : Tok} {l : List Tok} (hl : Plain (t :: l)) (vs : List Kw) (n : Nat) :
    readDecl parseAttachment n (t :: l) = some (.value vs) ↔ Words attachWords (t :: l) vs := by
  constructor
  · intro h
    obtain ⟨_, _, r, hp, _⟩ := read_value h
    rw [hl.eatWs] at hp
    obtain ⟨ws, e, hws⟩ := attach_only _ _ _ _ _ hl (Nat.lt_succ_self _) hp
    rw [e]; exact hws
  · intro h
    have hr := attach_reads h ((t :: l).length + 1) [] (Nat.lt_succ_self _)
    cases h with
    | cons hm hw hs =>
      rw [read_plain hl (notWide_word hw (attach_lookup _ hm).2) (notToggle_word hw),
        readPlain_value]
      exact hr

example : Words attachWords [.ident "fixed".toList] [.fixed] :=
  .cons (k := "fixed") (by decide +kernel) (.mk (Cased.refl _)) .nil

/-- **C191.** It is false that layers are told apart by commas, as CSS has it. -/
theorem C191_layers_fails (a b : Tok) (vs : List Kw) (ha : a ≠ .ws) (hb : b ≠ .ws) (n : Nat) :
    readDecl parseAttachment n [a, .comma, b] ≠ some (.value vs) := by
  intro h
  have hl : Plain [a, .comma, b] :=
    plain_cons.2 ⟨ha, plain_cons.2 ⟨by simp, plain_one hb⟩⟩
  have := (C191_attachment hl vs n).1 h
  cases this with
  | cons _ _ hs =>
    cases hs with
    | cons _ hw _ => cases hw

end Verif.Keyword
