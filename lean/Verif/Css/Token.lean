/-!
# CSS tokens and the skeleton syntax tree: model

`/repo/src/vaev-engine/css/lexer.cpp` lines 12–87 (`Token`) and
`/repo/src/vaev-engine/css/parser.cpp` lines 19–108 (`Sst`).

* A text is a list of code points.
* Spans and diagnostics are left out.
-/
namespace Verif.Css

abbrev Text := List Nat

/-- The runes of a literal. -/
def u (s : String) : Text := s.toList.map Char.toNat

/-- `Token::Type`, lexer.cpp lines 12–49. -/
inductive TT where
  | nil | ident | func | atKeyword | hash | string | badString | url | badUrl | delim | number | percentage
  | dimension | ws | cdo | cdc | colon | semi | comma | lcurly | rcurly | lsquare | rsquare | lpar | rpar
  | comment | eof | invalid
deriving DecidableEq, Repr

/-- `Token`, lexer.cpp lines 42–65. -/
structure Tok where
  type : TT
  data : Text := []
deriving DecidableEq, Repr

/-- Lower case of an ASCII letter, for `eqCi` (Karm). -/
def lower (r : Nat) : Nat := if 65 ≤ r ∧ r ≤ 90 then r + 32 else r

/-- `eqCi` (Karm): equality up to ASCII case. -/
def eqCi (a b : Text) : Bool := a.map lower == b.map lower

/-- `Token::operator==(Token const&)`, lexer.cpp lines 84–86. -/
def Tok.same (a b : Tok) : Bool := a.type == b.type && eqCi a.data b.data

/-- `Sst`, parser.cpp lines 34–60. `rule` carries its `@` keyword (`Token::NIL` for a style
    rule), its prefix and its content; a bracketed block does not record which bracket
    opened it (parser.cpp lines 428–430). -/
inductive Sst where
  | rule (token : Tok) (pre : List Sst) (content : List Sst)
  | func (pre : Tok) (content : List Sst)
  | decl (token : Tok) (content : List Sst) (important : Bool)
  | tok (t : Tok)
  | block (content : List Sst)
deriving Repr

/-- `Sst::operator==(Token::Type)`, parser.cpp lines 99–102. -/
def Sst.is (s : Sst) (t : TT) : Bool :=
  match s with
  | .tok k => k.type == t
  | _ => false

/-- `Sst::operator==(Token const&)`, parser.cpp lines 104–107, for an identifier. -/
def Sst.isIdent (s : Sst) (name : Text) : Bool :=
  match s with
  | .tok k => k.same ⟨.ident, name⟩
  | _ => false

/-- `eatWhitespace`, /repo/src/vaev-engine/values/base.cpp lines 10–13. -/
def eatWs : List Sst → List Sst
  | [] => []
  | s :: rest => if s.is .ws then eatWs rest else s :: rest

theorem eatWs_length (c : List Sst) : (eatWs c).length ≤ c.length := by
  induction c with
  | nil => exact Nat.le_refl _
  | cons s rest ih =>
    unfold eatWs
    split
    · exact Nat.le_trans ih (Nat.le_succ _)
    · exact Nat.le_refl _

/-- White space tokens only. -/
def Blank (w : List Sst) : Prop := ∀ s ∈ w, s.is .ws = true

theorem eatWs_blank {w : List Sst} (h : Blank w) (c : List Sst) : eatWs (w ++ c) = eatWs c := by
  induction w with
  | nil => rfl
  | cons s w ih =>
    show (if s.is .ws then eatWs (w ++ c) else _) = _
    rw [if_pos (h s (List.mem_cons_self ..)), ih fun x hx => h x (List.mem_cons_of_mem _ hx)]

theorem eatWs_split (c : List Sst) : ∃ w, Blank w ∧ c = w ++ eatWs c := by
  induction c with
  | nil => exact ⟨[], by simp [Blank], rfl⟩
  | cons s c ih =>
    unfold eatWs
    by_cases h : s.is .ws = true
    · obtain ⟨w, hw, e⟩ := ih
      refine ⟨s :: w, ?_, ?_⟩
      · intro x hx
        rcases List.mem_cons.mp hx with rfl | hx
        · exact h
        · exact hw x hx
      · rw [if_pos h]
        show s :: c = s :: (w ++ eatWs c)
        rw [← e]
    · exact ⟨[], by simp [Blank], by rw [if_neg h]; rfl⟩

/-- What `eatWs` leaves does not begin with white space. -/
theorem eatWs_head {c : List Sst} {s : Sst} {r : List Sst} (h : eatWs c = s :: r) : s.is .ws = false := by
  induction c with
  | nil => cases h
  | cons x c ih =>
    unfold eatWs at h
    split at h
    · exact ih h
    · rename_i hn
      cases h
      simpa using hn

theorem eatWs_idem (c : List Sst) : eatWs (eatWs c) = eatWs c := by
  cases h : eatWs c with
  | nil => rfl
  | cons s r => unfold eatWs; simp [eatWs_head h]

end Verif.Css
