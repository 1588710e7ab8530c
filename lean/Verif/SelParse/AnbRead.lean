import Verif.SelParse.Ends
/-!
# `An+B` is read as written
-/
namespace Verif.SelParse
open Verif.Css (Sst Tok TT Text u eatWs)
open Verif.Selector (AnB)
open Spec (Digits Sign IsN Head Anb Gap Keyword ident number dimension delim)

theorem digit_iff {c : Nat} : isDigit c = true ↔ 48 ≤ c ∧ c ≤ 57 := by simp [isDigit]

theorem takeWhile_digits {d : Text} {v : Nat} (h : Digits d v) {t : Text} (ht : ∀ c r, t = c :: r → isDigit c = false) :
    (d ++ t).takeWhile isDigit = d ∧ (d ++ t).dropWhile isDigit = t := by
  have hd : ∀ c ∈ d, isDigit c = true := fun c hc => digit_iff.mpr (h.2.1 c hc)
  constructor
  · rw [List.takeWhile_append_of_pos hd]
    cases t with
    | nil => simp
    | cons c r => simp [ht c r rfl]
  · rw [List.dropWhile_append_of_pos hd]
    cases t with
    | nil => simp
    | cons c r => simp [ht c r rfl]

theorem atou_read {d : Text} {v : Nat} (h : Digits d v) {t : Text} (ht : ∀ c r, t = c :: r → isDigit c = false) :
    atou (d ++ t) = some (v, t) := by
  obtain ⟨h1, h2⟩ := takeWhile_digits h ht
  unfold atou
  rw [h1, h2, if_neg h.1, h.2.2]
  rfl

theorem atoi_read {s : Text} {σ : Int} {d : Text} {v : Nat} (hs : Sign s σ) (h : Digits d v) {t : Text}
    (ht : ∀ c r, t = c :: r → isDigit c = false) : atoi (s ++ (d ++ t)) = some (σ * v, t) := by
  have hu := atou_read h ht
  cases hs with
  | none =>
    have hd := h.2.1
    obtain ⟨c, r, rfl⟩ := List.exists_cons_of_ne_nil h.1
    have hc := hd c (List.mem_cons_self ..)
    rw [List.nil_append]
    unfold atoi
    split
    · rename_i e; simp at e; omega
    · rename_i e; simp at e; omega
    · rw [hu]; simp
  | plus => simp only [List.cons_append, List.nil_append, atoi, hu]; simp
  | minus => simp only [List.cons_append, List.nil_append, atoi, hu]; simp

theorem integer_read {s : Text} {σ : Int} {d : Text} {v : Nat} (hs : Sign s σ) (h : Digits d v) (r : List Sst) :
    integer (number (s ++ d) :: r) = .ok (σ * v, r) := by
  have := atoi_read hs h (t := []) (by simp)
  simp only [List.append_nil] at this
  simp [integer, number, Sst.is, tokOf, this]

theorem eat_gap {g : List Sst} (h : Gap g) (r : List Sst) : eatWs (g ++ r) = eatWs r := by
  rcases h with rfl | ⟨d, rfl⟩
  · rfl
  · simp [eatWs, Sst.is]

theorem eat_tok {t : Tok} (h : t.type ≠ .ws) (r : List Sst) : eatWs (.tok t :: r) = .tok t :: r := by
  simp [eatWs, Sst.is, h]

theorem tailDigits_read {p d : Text} {c : Nat} {v : Nat} (h : Digits d v) (hc : isDigit c = false) :
    tailDigits (p ++ c :: d) = d.length := by
  have hd : ∀ x ∈ d.reverse, isDigit x = true := fun x hx => digit_iff.mpr (h.2.1 x (by simpa using hx))
  unfold tailDigits
  rw [List.reverse_append, List.reverse_cons, List.append_assoc, List.takeWhile_append_of_pos hd]
  simp [hc]

theorem digits_pos {d : Text} {v : Nat} (h : Digits d v) : d.length ≠ 0 := by
  have := h.1
  cases d <;> simp_all

theorem isN_strict {c : Nat} (h : IsN true c) : c = 110 := by
  rcases h with h | ⟨h, _⟩
  · exact h
  · cases h

theorem bind_congr {α β : Type} (x : Out α) {f g : α → Out β} (h : ∀ a, f a = g a) : x.bind f = x.bind g := by
  have : f = g := funext h
  rw [this]

/-- `anb` at an identifier that is no keyword. -/
theorem anb_ident (d : Text) (r : List Sst) (ho : d ≠ u "odd") (he : d ≠ u "even") :
    anb (ident d :: r) = anbIdent d false r := by
  simp [anb, ident, eatWs, Sst.is, tokOf, ho, he]

theorem anb_plus (d : Text) (r : List Sst) : anb (delim 43 :: ident d :: r) = anbIdent d true r := by
  have : u "+" = [43] := by decide
  simp [anb, ident, delim, eatWs, Sst.is, tokOf, this]

theorem anb_dim (d : Text) (r : List Sst) : anb (dimension d :: r) = anbDimension d false r := by
  simp [anb, dimension, eatWs, Sst.is, tokOf]

theorem head_n {t : List Sst} {a : Int} (h : Head true [] t a) (x : List Sst) :
    anb (t ++ x) = (afterN (eatWs x)).bind fun p => .ok (⟨a, p.1⟩, p.2) := by
  cases h with
  | one hc =>
    cases isN_strict hc
    rw [List.singleton_append, anb_ident _ _ (by decide) (by decide)]
    rfl
  | plus hc =>
    cases isN_strict hc
    rw [List.cons_append, List.singleton_append, anb_plus]
    rfl
  | minus hc =>
    cases isN_strict hc
    rw [List.singleton_append, anb_ident _ _ (by decide) (by decide)]
    rfl
  | dim hc hs hd =>
    cases isN_strict hc
    rw [List.singleton_append, anb_dim]
    unfold anbDimension
    rw [atoi_read hs hd (by simp [isDigit])]
    simp only
    rw [if_neg (by simp)]
    rfl

theorem head_dash {t : List Sst} {a : Int} (h : Head true [45] t a) (x : List Sst) :
    anb (t ++ x) = (afterNDash (eatWs x)).bind fun p => .ok (⟨a, -p.1⟩, p.2) := by
  cases h with
  | one hc =>
    cases isN_strict hc
    rw [List.singleton_append, anb_ident _ _ (by decide) (by decide)]
    rfl
  | plus hc =>
    cases isN_strict hc
    rw [List.cons_append, List.singleton_append, anb_plus]
    rfl
  | minus hc =>
    cases isN_strict hc
    rw [List.singleton_append, anb_ident _ _ (by decide) (by decide)]
    rfl
  | dim hc hs hd =>
    cases isN_strict hc
    rw [List.singleton_append, anb_dim]
    unfold anbDimension
    rw [atoi_read hs hd (by simp [isDigit])]
    simp only
    rw [if_neg (by simp)]
    rfl

/-- An identifier with a dash and digits at its end. -/
theorem anbIdent_digits {p d : Text} {v : Nat} {a : Int} {b : Bool} (h : Digits d v)
    (hp : p = [110] ∧ a = 1 ∨ p = [45, 110] ∧ a = -1 ∧ b = false) (x : List Sst) :
    anbIdent (p ++ 45 :: d) b x = .ok (⟨a, -(v : Int)⟩, eatWs x) := by
  have ht : tailDigits (p ++ 45 :: d) = d.length := tailDigits_read h (by decide)
  have hpos := digits_pos h
  have hlen : (p ++ 45 :: d).length = p.length + 1 + d.length := by simp; omega
  have hget : (p ++ 45 :: d)[(p ++ 45 :: d).length - 1 - d.length]? = some 45 := by
    rw [hlen, show p.length + 1 + d.length - 1 - d.length = p.length from by omega]
    simp
  have hdrop : (p ++ 45 :: d).drop ((p ++ 45 :: d).length - (d.length + 1)) = 45 :: d := by
    rw [hlen, show p.length + 1 + d.length - (d.length + 1) = p.length from by omega]
    simp
  have htake : (p ++ 45 :: d).take ((p ++ 45 :: d).length - (d.length + 1)) = p := by
    rw [hlen, show p.length + 1 + d.length - (d.length + 1) = p.length from by omega]
    simp
  have hat := atoi_read Sign.minus h (t := []) (by simp)
  simp only [List.append_nil, List.singleton_append] at hat
  unfold anbIdent
  simp only [ht]
  have un : u "n" = [110] := by decide
  have umn : u "-n" = [45, 110] := by decide
  split
  · rename_i e; simp at e
  · rename_i c l e
    have hc : ¬ (c = 45 ∧ b = true) := by
      rintro ⟨rfl, rfl⟩
      rcases hp with ⟨rfl, _⟩ | ⟨_, _, h⟩
      · simp at e
      · cases h
    rw [if_neg hc, if_neg hpos, if_neg (by rw [hlen]; omega), if_pos hget, hdrop, htake, hat]
    simp only
    rcases hp with ⟨rfl, rfl⟩ | ⟨rfl, rfl, _⟩
    · rw [if_pos un.symm]; simp
    · rw [if_neg (by decide), if_pos umn.symm]; simp

theorem head_digits {t : List Sst} {a : Int} {d : Text} {v : Nat} (h : Head true (45 :: d) t a) (hd : Digits d v) (x : List Sst) :
    anb (t ++ x) = .ok (⟨a, -(v : Int)⟩, eatWs x) := by
  have hne : ∀ p : Text, p ++ 45 :: d ≠ u "odd" ∧ p ++ 45 :: d ≠ u "even" := by
    intro p
    constructor <;> intro e
    · have : 45 ∈ u "odd" := by rw [← e]; simp
      revert this; decide
    · have : 45 ∈ u "even" := by rw [← e]; simp
      revert this; decide
  cases h with
  | one hc =>
    cases isN_strict hc
    rw [List.singleton_append]
    refine (anb_ident _ _ (hne [110]).1 (hne [110]).2).trans ?_
    exact anbIdent_digits (p := [110]) hd (.inl ⟨rfl, rfl⟩) x
  | plus hc =>
    cases isN_strict hc
    rw [List.cons_append, List.singleton_append, anb_plus]
    exact anbIdent_digits (p := [110]) hd (.inl ⟨rfl, rfl⟩) x
  | minus hc =>
    cases isN_strict hc
    rw [List.singleton_append]
    refine (anb_ident _ _ (hne [45, 110]).1 (hne [45, 110]).2).trans ?_
    exact anbIdent_digits (p := [45, 110]) hd (.inr ⟨rfl, rfl, rfl⟩) x
  | dim hc hs hd' =>
    cases isN_strict hc
    rw [List.singleton_append, anb_dim]
    unfold anbDimension
    rw [atoi_read hs hd' (by simp [isDigit])]
    have ht : tailDigits (110 :: 45 :: d) = d.length := tailDigits_read (p := [110]) hd (by decide)
    have hpos := digits_pos hd
    have htake : (110 :: 45 :: d).take ((110 :: 45 :: d).length - d.length) = [110, 45] := by
      rw [show (110 :: 45 :: d).length - d.length = 2 from by simp only [List.length_cons]; omega]; rfl
    have hdrop : (110 :: 45 :: d).drop ((110 :: 45 :: d).length - (d.length + 1)) = 45 :: d := by
      rw [show (110 :: 45 :: d).length - (d.length + 1) = 1 from by simp only [List.length_cons]; omega]; rfl
    have und : u "n-" = [110, 45] := by decide
    have hat := atoi_read Sign.minus hd (t := []) (by simp)
    simp only [List.append_nil, List.singleton_append] at hat
    simp only [ht, htake]
    rw [if_neg (by simp), if_neg (by simp [und]), if_neg hpos, if_pos und.symm, hdrop, hat]
    simp

theorem afterN_signed {g : List Sst} {s : Text} {σ : Int} {d : Text} {v : Nat} (hg : Gap g) (hs : Sign s σ) (hne : s ≠ [])
    (hd : Digits d v) (r : List Sst) : afterN (eatWs (g ++ number (s ++ d) :: r)) = .ok (σ * v, r) := by
  rw [eat_gap hg, number, eat_tok (by simp)]
  unfold afterN
  rw [eat_tok (by simp)]
  simp only [Sst.is, tokOf, beq_self_eq_true, if_true]
  have hi := integer_read hs hd r
  unfold number at hi
  cases hs with
  | none => exact absurd rfl hne
  | plus => simpa using hi
  | minus => simpa using hi

theorem afterN_split {g g' : List Sst} {c : Nat} {d : Text} {v : Nat} (hg : Gap g) (hg' : Gap g') (hc : c = 43 ∨ c = 45)
    (hd : Digits d v) (r : List Sst) :
    afterN (eatWs (g ++ delim c :: (g' ++ number d :: r))) = .ok (if c = 45 then -(v : Int) else v, r) := by
  rw [eat_gap hg, delim, eat_tok (by simp)]
  unfold afterN
  rw [eat_tok (by simp)]
  have up : u "+" = [43] := by decide
  have um : u "-" = [45] := by decide
  have hi := integer_read Sign.none hd r
  simp only [List.nil_append, Int.one_mul] at hi
  unfold number at hi ⊢
  simp only [Sst.is, tokOf, eat_gap hg', eat_tok, ne_eq, reduceCtorEq, not_false_eq_true, up, um]
  obtain ⟨x, l, rfl⟩ := List.exists_cons_of_ne_nil hd.1
  have hx := hd.2.1 x (List.mem_cons_self ..)
  rcases hc with rfl | rfl
  · simp [hi, Out.bind]; omega
  · simp [hi, Out.bind]; omega

theorem afterNDash_read {g : List Sst} {d : Text} {v : Nat} (hg : Gap g) (hd : Digits d v) (r : List Sst) :
    afterNDash (eatWs (g ++ number d :: r)) = .ok (v, r) := by
  rw [eat_gap hg, number, eat_tok (by simp)]
  unfold afterNDash
  rw [eat_tok (by simp)]
  have hi := integer_read Sign.none hd r
  simp only [List.nil_append, Int.one_mul] at hi
  unfold number at hi
  obtain ⟨x, l, rfl⟩ := List.exists_cons_of_ne_nil hd.1
  have hx := digit_iff.mpr (hd.2.1 x (List.mem_cons_self ..))
  simp [Sst.is, tokOf, hx, hi]

theorem anb_gap {g : List Sst} (hg : Gap g) (c : List Sst) : anb (g ++ c) = anb c := by
  unfold anb
  rw [eat_gap hg]

theorem keyword_strict {x : Text} {w : String} (h : Keyword true x w) : x = u w := h.2 rfl

/-- What is written is read; behind it is what follows, up to white space. -/
theorem anb_read {b : Bool} {t : List Sst} {a : AnB} (h : Anb true b t a) {g : List Sst} (hg : Gap g) (rest : List Sst)
    (hb : b = true ∨ eatWs rest = []) : ∃ r, anb (g ++ (t ++ rest)) = .ok (a, r) ∧ eatWs r = eatWs rest := by
  rw [anb_gap hg]
  cases h with
  | odd hk =>
    have := keyword_strict hk
    subst this
    exact ⟨rest, by simp [anb, ident, eatWs, Sst.is, tokOf], rfl⟩
  | even hk =>
    have := keyword_strict hk
    subst this
    refine ⟨rest, ?_, rfl⟩
    have : u "even" ≠ u "odd" := by decide
    simp [anb, ident, eatWs, Sst.is, tokOf, this]
  | int hs hd =>
    refine ⟨rest, ?_, rfl⟩
    have hi := integer_read hs hd rest
    unfold number at hi
    simp [anb, number, eatWs, Sst.is, tokOf, hi, Out.bind]
  | bare hh =>
    rw [head_n hh]
    have h0 := hb.resolve_left (by simp)
    exact ⟨[], by simp [h0, afterN, eatWs, Out.bind], by simp [h0, eatWs]⟩
  | signed hh hg' hs hne hd =>
    refine ⟨rest, ?_, rfl⟩
    rw [List.append_assoc, List.append_assoc, head_n hh, List.singleton_append, afterN_signed hg' hs hne hd]
    rfl
  | plus hh hg₁ hg₂ hd =>
    refine ⟨rest, ?_, rfl⟩
    rw [List.append_assoc, List.append_assoc, head_n hh, List.cons_append, List.append_assoc, List.singleton_append,
      afterN_split hg₁ hg₂ (.inl rfl) hd]
    rfl
  | minus hh hg₁ hg₂ hd =>
    refine ⟨rest, ?_, rfl⟩
    rw [List.append_assoc, List.append_assoc, head_n hh, List.cons_append, List.append_assoc, List.singleton_append,
      afterN_split hg₁ hg₂ (.inr rfl) hd]
    rfl
  | dash hh hg' hd =>
    refine ⟨rest, ?_, rfl⟩
    rw [List.append_assoc, List.append_assoc, head_dash hh, List.singleton_append, afterNDash_read hg' hd]
    rfl
  | digits hh hd => exact ⟨eatWs rest, head_digits hh hd rest, Verif.Css.eatWs_idem rest⟩

end Verif.SelParse
