import Verif.Css.ParserFuel

namespace Verif.Css
open Spec

/-- Unless fuel ran out, `a` was read and `rest` is left. -/
def Reads {α : Type} (x : Option (α × List Tok)) (a : α) (rest : List Tok) : Prop := x = none ∨ x = some (a, rest)

theorem Reads.map {α β : Type} {x : Option (α × List Tok)} {a : α} {rest : List Tok} (h : Reads x a rest) (f : α → β) :
    Reads (x.map fun y => (f y.1, y.2)) (f a) rest := by
  rcases h with rfl | rfl
  · exact .inl rfl
  · exact .inr rfl

/-- The first token of a value closes nothing. -/
theorem value_head {v : List Tok} {s : Sst} (h : ValueText true v s) :
    ∃ t v', v = t :: v' ∧ t.type ∉ [TT.rpar, .rsquare, .rcurly, .eof, .comment] := by
  cases h with
  | @tok t h => exact ⟨t, [], rfl, fun h' => h (by simp only [List.mem_cons, List.not_mem_nil, or_false] at h' ⊢; grind)⟩
  | @block o c e l h =>
    refine ⟨o, _, rfl, ?_⟩
    intro h'
    simp only [List.mem_cons, List.not_mem_nil, or_false] at h'
    rcases h' with h' | h' | h' | h' | h' <;> rw [h'] at h <;> cases h
  | func h => exact ⟨_, _, rfl, by rw [h]; decide⟩

mutual
theorem read_value {v : List Tok} {s : Sst} (h : ValueText true v s) (n : Nat) (rest : List Tok) :
    Reads (compValue n (v ++ rest)) s rest := by
  cases n with
  | zero => exact .inl rfl
  | succ n =>
    cases h with
    | @tok t h =>
      right
      simp only [plain, List.mem_cons, List.not_mem_nil, or_false, not_or] at h
      show compValue (n + 1) (t :: rest) = _
      unfold compValue
      split <;> simp_all
    | @block o c e l h hi =>
      have key : ∀ term, e.type = term → Reads ((blockLoop n term (c ++ e :: rest)).map fun x => (Sst.block x.1, x.2)) (.block l) rest :=
        fun term he => (read_items hi rfl n e rest term he (by
          cases ho : o.type <;> rw [ho] at h <;> simp [closes, he] at h <;> simp [← h])).map _
      have e1 : (o :: (c ++ [e])) ++ rest = o :: (c ++ e :: rest) := by simp
      rw [e1]
      unfold compValue
      cases ho : o.type <;> rw [ho] at h <;> simp only [closes, Option.some.injEq, reduceCtorEq] at h <;> exact key _ h.symm
    | @func f c e l hf he hi =>
      have e1 : (f :: (c ++ [e])) ++ rest = f :: (c ++ e :: rest) := by simp
      rw [e1]
      unfold compValue
      rw [hf]
      exact (read_args hi rfl n e rest he).map _
termination_by n

theorem read_items {b : Bool} {c : List Tok} {l : List Sst} (h : ItemsText true b c l) (hb : b = false) (n : Nat) (e : Tok)
    (rest : List Tok) (term : TT) (he : e.type = term) (hterm : term ∈ [TT.rpar, .rsquare, .rcurly]) :
    Reads (blockLoop n term (c ++ e :: rest)) l rest := by
  cases n with
  | zero => exact .inl rfl
  | succ n =>
    cases h with
    | nil =>
      right
      have : term ≠ .eof := by rintro rfl; simp at hterm
      show blockLoop (n + 1) term (e :: rest) = _
      unfold blockLoop
      rw [if_neg (by rw [he]; exact this), if_pos he]
    | @cons _ v s c l hv hc =>
      obtain ⟨t, v', rfl, ht⟩ := value_head hv
      have h1 : t.type ≠ term := fun h => ht (by rw [h]; simp at hterm ⊢; grind)
      have h2 : t.type ≠ .eof := fun h => ht (by rw [h]; decide)
      have hr := read_value hv n (c ++ e :: rest)
      have hl := read_items hc hb n e rest term he hterm
      have e1 : (t :: v') ++ c ++ e :: rest = t :: (v' ++ (c ++ e :: rest)) := by simp
      rw [e1]
      unfold blockLoop
      rw [if_neg h2, if_neg h1]
      rw [List.cons_append] at hr
      rcases hr with hr | hr
      · rw [hr]; exact .inl rfl
      · rw [hr]; exact hl.map (s :: ·)
    | comment h => subst hb; cases h rfl
termination_by n

theorem read_args {b : Bool} {c : List Tok} {l : List Sst} (h : ItemsText true b c l) (hb : b = true) (n : Nat) (e : Tok)
    (rest : List Tok) (he : e.type = .rpar) : Reads (funcLoop n (c ++ e :: rest)) l rest := by
  cases n with
  | zero => exact .inl rfl
  | succ n =>
    cases h with
    | nil =>
      right
      show funcLoop (n + 1) (e :: rest) = _
      unfold funcLoop
      simp [he]
    | @cons _ v s c l hv hc =>
      obtain ⟨t, v', rfl, ht⟩ := value_head hv
      have h1 : t.type ≠ .rpar := fun h => ht (by rw [h]; decide)
      have h2 : t.type ≠ .eof := fun h => ht (by rw [h]; decide)
      have h3 : t.type ≠ .comment := fun h => ht (by rw [h]; decide)
      have hr := read_value hv n (c ++ e :: rest)
      have hl := read_args hc hb n e rest he
      have e1 : (t :: v') ++ c ++ e :: rest = t :: (v' ++ (c ++ e :: rest)) := by simp
      rw [e1]
      unfold funcLoop
      rw [if_neg h3, if_neg h2, if_neg h1]
      rw [List.cons_append] at hr
      rcases hr with hr | hr
      · rw [hr]; exact .inl rfl
      · rw [hr]; exact hl.map (s :: ·)
    | @comment _ k c l _ hk hc =>
      show Reads (funcLoop (n + 1) (k :: (c ++ e :: rest))) l rest
      unfold funcLoop
      rw [if_pos hk]
      exact read_args hc hb n e rest he
termination_by n
end

/-! ## Declarations -/

theorem eatWsT_blank {w : List Tok} (h : BlankT w) (c : List Tok) : eatWsT (w ++ c) = eatWsT c := by
  induction w with
  | nil => rfl
  | cons t w ih =>
    show (if t.type = .ws then eatWsT (w ++ c) else _) = _
    rw [if_pos (h t (List.mem_cons_self ..)), ih fun x hx => h x (List.mem_cons_of_mem _ hx)]

/-- Does not begin with white space. -/
def Sharp (ts : List Tok) : Prop := peekType ts ≠ .ws

theorem eatWsT_sharp {ts : List Tok} (h : Sharp ts) : eatWsT ts = ts := by
  cases ts with
  | nil => rfl
  | cons t r => unfold eatWsT; rw [if_neg (show t.type ≠ .ws from h)]

/-- The end of a declaration: the end of the input, a semicolon or a closing brace. -/
def AtEnd (ts : List Tok) : Prop := ts = [] ∨ peekType ts = .semi ∨ peekType ts = .rcurly

theorem AtEnd.sharp {ts : List Tok} (h : AtEnd ts) : Sharp ts := by
  rcases h with rfl | h | h
  · unfold Sharp; decide
  · rw [Sharp, h]; decide
  · rw [Sharp, h]; decide

theorem AtEnd.ended {ts : List Tok} (h : AtEnd ts) : endedValue ts = true := by
  rcases h with rfl | h | h
  · rfl
  · simp [endedValue, h]
  · simp [endedValue, h]

theorem lower_bang {d : Text} : d.map lower = u "!" ↔ d = u "!" := by
  have : u "!" = [33] := rfl
  rw [this]
  constructor
  · intro h
    match d, h with
    | [r], h =>
      simp only [List.map_cons, List.map_nil, List.cons.injEq, and_true] at h
      unfold lower at h
      split at h
      · omega
      · rw [h]
    | r :: s :: d, h => simp at h
  · rintro rfl; rfl

theorem same_bang (t : Tok) : t.same ⟨.delim, u "!"⟩ = true ↔ bang t := by
  have : (u "!").map lower = u "!" := rfl
  simp only [Tok.same, eqCi, Bool.and_eq_true, beq_iff_eq, this, lower_bang, bang]

theorem bang_sharp {b : Tok} (h : bang b) (r : List Tok) : Sharp (b :: r) := by
  show b.type ≠ .ws
  rw [h.1]; decide

theorem Spec.ImpText.sharp {i : List Tok} {b : Bool} (h : ImpText i b) {rest : List Tok} (hr : Sharp rest) : Sharp (i ++ rest) := by
  cases h with
  | none => exact hr
  | some hb => exact bang_sharp hb _

theorem Spec.DeclValue.sharp {v : List Tok} {l : List Sst} (h : DeclValue true v l) {rest : List Tok} (hr : Sharp rest) :
    Sharp (v ++ rest) := by
  cases h with
  | nil => exact hr
  | cons _ ht => exact ht
  | comment h => cases h

theorem read_imp {i : List Tok} {b : Bool} (h : ImpText i b) (n : Nat) {rest : List Tok} (hr : AtEnd rest) :
    Reads (valueLoop n (i ++ rest)) ([], b) rest := by
  cases n with
  | zero => exact .inl rfl
  | succ n =>
    right
    cases h with
    | none =>
      show valueLoop (n + 1) rest = _
      unfold valueLoop
      rw [if_pos hr.ended]
    | @some b w₁ i w₂ hb h₁ hi hid h₂ =>
      have e1 : (b :: (w₁ ++ i :: w₂)) ++ rest = b :: (w₁ ++ i :: (w₂ ++ rest)) := by simp
      have e2 : eatWsT (w₁ ++ i :: (w₂ ++ rest)) = i :: (w₂ ++ rest) := by
        rw [eatWsT_blank h₁]; exact eatWsT_sharp (by show i.type ≠ .ws; rw [hi]; decide)
      have e3 : i.same ⟨.ident, u "important"⟩ = true := by
        have : (u "important").map lower = u "important" := by decide
        simp only [Tok.same, eqCi, Bool.and_eq_true, beq_iff_eq, this]
        exact ⟨hi, hid⟩
      have e4 : important (b :: (w₁ ++ i :: (w₂ ++ rest))) = (true, w₂ ++ rest) := by
        unfold important
        simp only [(same_bang b).2 hb, if_true, e2, e3]
      have e5 : endedValue (b :: (w₁ ++ i :: (w₂ ++ rest))) = false := by
        simp only [endedValue, peekType, hb.1]; decide
      rw [e1]
      unfold valueLoop
      simp only [e5, e4, if_true]
      rw [eatWsT_blank h₂, eatWsT_sharp hr.sharp]
      simp

theorem read_declValue {v : List Tok} {l : List Sst} (h : DeclValue true v l) {i : List Tok} {b : Bool} (hi : ImpText i b)
    {rest : List Tok} (hr : AtEnd rest) (n : Nat) : Reads (valueLoop n (v ++ (i ++ rest))) (l, b) rest := by
  induction n generalizing v l with
  | zero => exact .inl rfl
  | succ n ih =>
    cases h with
    | nil => exact read_imp hi (n + 1) hr
    | @cons t v s w c l hv hws hsemi hbang hw hc =>
      obtain ⟨_, _, e, ht⟩ := value_head hv
      cases e
      have hread := read_value hv n (w ++ (c ++ (i ++ rest)))
      have e1 : (t :: v ++ (w ++ c)) ++ (i ++ rest) = t :: (v ++ (w ++ (c ++ (i ++ rest)))) := by simp
      have e2 : endedValue (t :: (v ++ (w ++ (c ++ (i ++ rest))))) = false := by
        have h1 : t.type ≠ .rcurly := fun h => ht (by rw [h]; decide)
        have h2 : t.type ≠ .eof := fun h => ht (by rw [h]; decide)
        simp [endedValue, peekType, hsemi, h1, h2]
      have e3 : important (t :: (v ++ (w ++ (c ++ (i ++ rest))))) = (false, t :: (v ++ (w ++ (c ++ (i ++ rest))))) := by
        unfold important
        simp [show ¬ (t.same ⟨.delim, u "!"⟩ = true) from fun h => hbang ((same_bang t).1 h)]
      have e4 : eatWsT (w ++ (c ++ (i ++ rest))) = c ++ (i ++ rest) := by
        rw [eatWsT_blank hw, eatWsT_sharp (hc.sharp (hi.sharp hr.sharp))]
      rw [e1]
      unfold valueLoop
      simp only [e2, e3, Bool.false_eq_true, if_false]
      rw [List.cons_append] at hread
      rcases hread with hread | hread
      · rw [hread]; exact .inl rfl
      · rw [hread]
        dsimp only
        rw [e4]
        exact (ih hc).map (fun x => (s :: x.1, x.2))
    | comment h => cases h

theorem Spec.DeclText.ahead {d : List Tok} {s : Sst} (h : DeclText true d s) (rest : List Tok) :
    ∃ n r, d = n :: r ∧ n.type = .ident ∧ n.data ≠ u "&" ∧ declAhead (d ++ rest) = true := by
  cases h with
  | @mk n w₁ k w₂ v i l b hn hd h₁ hk h₂ hv hi =>
    refine ⟨n, _, rfl, hn, hd, ?_⟩
    have e : eatWsT (w₁ ++ k :: (w₂ ++ (v ++ i)) ++ rest) = k :: (w₂ ++ (v ++ i)) ++ rest := by
      rw [List.append_assoc, eatWsT_blank h₁]
      exact eatWsT_sharp (by show k.type ≠ .ws; rw [hk]; decide)
    show (n.type == .ident && peekType (eatWsT (w₁ ++ k :: (w₂ ++ (v ++ i)) ++ rest)) == .colon) = true
    rw [e]
    simp [peekType, hn, hk]

theorem read_decl {d : List Tok} {s : Sst} (h : DeclText true d s) {rest : List Tok} (hr : AtEnd rest) (n : Nat) :
    Reads (declaration n (d ++ rest)) (some s) rest := by
  cases h with
  | @mk nm w₁ k w₂ v i l b hn hd h₁ hk h₂ hv hi =>
    have e0 : (nm :: (w₁ ++ k :: (w₂ ++ (v ++ i)))) ++ rest = nm :: (w₁ ++ k :: (w₂ ++ (v ++ (i ++ rest)))) := by simp
    have e1 : eatWsT (w₁ ++ k :: (w₂ ++ (v ++ (i ++ rest)))) = k :: (w₂ ++ (v ++ (i ++ rest))) := by
      rw [eatWsT_blank h₁]; exact eatWsT_sharp (by show k.type ≠ .ws; rw [hk]; decide)
    have e2 : eatWsT (w₂ ++ (v ++ (i ++ rest))) = v ++ (i ++ rest) := by
      rw [eatWsT_blank h₂, eatWsT_sharp (hv.sharp (hi.sharp hr.sharp))]
    rw [e0]
    unfold declaration
    simp only [List.tail_cons, List.headD_cons, e1]
    rw [if_pos (show peekType (k :: _) = .colon from hk)]
    unfold declValue
    rw [e2]
    exact (read_declValue hv hi hr n).map (fun x => some (Sst.decl nm x.1 x.2))

/-! ## Rules -/

theorem read_prelude {p : List Tok} {l : List Sst} (h : SeqText true (fun t => t.type ≠ .lcurly) p l) (n : Nat) (pre : List Sst)
    (rest : List Tok) : ruleLoop n pre (p ++ rest) = none ∨ ∃ k, k ≤ n ∧ ruleLoop n pre (p ++ rest) = ruleLoop k (pre ++ l) rest := by
  induction n generalizing p l pre with
  | zero => exact .inl rfl
  | succ n ih =>
    cases h with
    | nil => exact .inr ⟨n + 1, Nat.le_refl _, by simp⟩
    | @cons t v s c l hv ht hc =>
      obtain ⟨_, _, e, h'⟩ := value_head hv
      cases e
      have h1 : t.type ≠ .eof := fun h => h' (by rw [h]; decide)
      have e1 : (t :: v ++ c) ++ rest = t :: (v ++ (c ++ rest)) := by simp
      have hread := read_value hv n (c ++ rest)
      have e2 : ruleLoop (n + 1) pre (t :: (v ++ (c ++ rest))) = match compValue n (t :: (v ++ (c ++ rest))) with
          | none => none
          | some (v, ts) => ruleLoop n (pre ++ [v]) ts := by
        conv => lhs; unfold ruleLoop
        rw [if_neg h1, if_neg ht]
        rfl
      rw [e1, e2]
      rw [List.cons_append] at hread
      rcases hread with hread | hread
      · rw [hread]; exact .inl rfl
      · rw [hread]
        dsimp only
        rcases ih hc (pre ++ [s]) with e | ⟨k, hk, e⟩
        · exact .inl e
        · refine .inr ⟨k, by omega, ?_⟩
          rw [e]; simp
    | comment h => cases h

theorem read_atPrelude {p : List Tok} {l : List Sst} (h : SeqText true (fun t => t.type ≠ .semi ∧ t.type ≠ .lcurly) p l) (n : Nat)
    (kw : Tok) (pre : List Sst) (rest : List Tok) :
    atLoop n kw pre (p ++ rest) = none ∨ ∃ k, k ≤ n ∧ atLoop n kw pre (p ++ rest) = atLoop k kw (pre ++ l) rest := by
  induction n generalizing p l pre with
  | zero => exact .inl rfl
  | succ n ih =>
    cases h with
    | nil => exact .inr ⟨n + 1, Nat.le_refl _, by simp⟩
    | @cons t v s c l hv ht hc =>
      obtain ⟨_, _, e, h'⟩ := value_head hv
      cases e
      have h1 : t.type ≠ .eof := fun h => h' (by rw [h]; decide)
      have e1 : (t :: v ++ c) ++ rest = t :: (v ++ (c ++ rest)) := by simp
      have hread := read_value hv n (c ++ rest)
      have e2 : atLoop (n + 1) kw pre (t :: (v ++ (c ++ rest))) = match compValue n (t :: (v ++ (c ++ rest))) with
          | none => none
          | some (v, ts) => atLoop n kw (pre ++ [v]) ts := by
        conv => lhs; unfold atLoop
        rw [if_neg ht.1, if_neg h1, if_neg ht.2]
        rfl
      rw [e1, e2]
      rw [List.cons_append] at hread
      rcases hread with hread | hread
      · rw [hread]; exact .inl rfl
      · rw [hread]
        dsimp only
        rcases ih hc (pre ++ [s]) with e | ⟨k, hk, e⟩
        · exact .inl e
        · refine .inr ⟨k, by omega, ?_⟩
          rw [e]; simp
    | comment h => cases h

/-- The end of a block's content. -/
def AtClose (ts : List Tok) : Prop := ts = [] ∨ peekType ts = .rcurly

theorem AtClose.atEnd {ts : List Tok} (h : AtClose ts) : AtEnd ts := h.elim .inl fun h => .inr (.inr h)

theorem declList_close {n : Nat} {rest : List Tok} (h : AtClose rest) : Reads (declList n rest) [] rest := by
  cases n with
  | zero => exact .inl rfl
  | succ n =>
    right
    rcases h with rfl | h
    · rfl
    · cases rest with
      | nil => rfl
      | cons t r =>
        unfold declList
        rw [show t.type = .rcurly from h]

theorem declList_skip {n : Nat} {t : Tok} {r : List Tok} (h : t.type = .ws ∨ t.type = .semi ∨ t.type = .comment) :
    declList (n + 1) (t :: r) = declList n r := by
  rcases h with h | h | h <;> (conv => lhs; unfold declList) <;> rw [h]

theorem declList_at {n : Nat} {t : Tok} {r : List Tok} (h : t.type = .atKeyword) {s : Sst} {l : List Sst} {rest rest' : List Tok}
    (ha : Reads (atLoop n t [] r) s rest) (hl : Reads (declList n rest) l rest') : Reads (declList (n + 1) (t :: r)) (s :: l) rest' := by
  conv => arg 1; unfold declList
  rw [h]
  dsimp only
  rcases ha with e | e
  · rw [e]; exact .inl rfl
  · rw [e]; exact hl.map (s :: ·)

theorem declList_decl {n : Nat} {t : Tok} {r : List Tok} (h : t.type = .ident) (hd : t.data ≠ u "&") (ha : declAhead (t :: r) = true)
    {s : Sst} {l : List Sst} {rest rest' : List Tok} (hr : Reads (declaration n (t :: r)) (some s) rest)
    (hl : Reads (declList n rest) l rest') : Reads (declList (n + 1) (t :: r)) (s :: l) rest' := by
  conv => arg 1; unfold declList
  rw [h]
  dsimp only
  rw [if_neg hd, if_pos ha]
  rcases hr with e | e
  · rw [e]; exact .inl rfl
  · rw [e]; exact hl.map (s :: ·)

theorem declList_rule {n : Nat} {t : Tok} {r : List Tok} (h : t.type ∉ [TT.ws, .semi, .comment, .atKeyword, .rcurly])
    (hi : t.type = .ident → declAhead (t :: r) = false) (he : t.type ≠ .eof) {s : Sst} {l : List Sst} {rest rest' : List Tok}
    (hr : Reads (ruleLoop n [] (t :: r)) (some s) rest)
    (hl : Reads (declList n rest) l rest') : Reads (declList (n + 1) (t :: r)) (s :: l) rest' := by
  simp only [List.mem_cons, List.not_mem_nil, or_false, not_or] at h
  have e1 : declList (n + 1) (t :: r) = match ruleLoop n [] (t :: r) with
      | none => none
      | some (o, ts) => (declList n ts).map fun x => (push o x.1, x.2) := by
    conv => lhs; unfold declList
    split
    case h_6 h' =>
      rw [hi h']
      simp only [Bool.false_eq_true, if_false, ite_self]
      rfl
    all_goals (try (simp_all; done))
    rfl
  rw [e1]
  rcases hr with e | e
  · rw [e]; exact .inl rfl
  · rw [e]; exact hl.map (s :: ·)

/-- What stands where white space has been eaten was there before. -/
theorem eatWsT_split (ts : List Tok) : ∃ w, ts = w ++ eatWsT ts ∧ BlankT w := by
  induction ts with
  | nil => exact ⟨[], rfl, by intro t h; cases h⟩
  | cons t r ih =>
    unfold eatWsT
    split
    · rename_i ht
      obtain ⟨w, h1, h2⟩ := ih
      refine ⟨t :: w, by rw [List.cons_append, ← h1], ?_⟩
      intro x hx
      rcases List.mem_cons.1 hx with rfl | hx
      · exact ht
      · exact h2 x hx
    · exact ⟨[], rfl, by intro t h; cases h⟩

/-- The tokens of a rule do not begin with the end of the file. -/
theorem Spec.RuleText.head {t : Tok} {r : List Tok} {s : Sst} (h : RuleText true (t :: r) s) : t.type ≠ .eof := by
  generalize hx : t :: r = x at h
  cases h with
  | mk hp ho =>
    cases hp with
    | nil =>
      simp only [List.nil_append, List.cons.injEq] at hx
      rw [hx.1, ho]; decide
    | cons hv =>
      obtain ⟨_, _, e, h'⟩ := value_head hv
      cases e
      simp only [List.cons_append, List.cons.injEq] at hx
      rw [hx.1]
      exact fun h => h' (by rw [h]; decide)
    | comment h => cases h

/-- A rule ends with a closing brace. -/
theorem Spec.RuleText.not_ahead {t : Tok} {r : List Tok} {s : Sst} (h : RuleText true (t :: r) s)
    (hi : t.type = .ident → ∀ w k r', r = w ++ k :: r' → BlankT w → k.type ≠ .colon) (ht : t.type = .ident) (rest : List Tok) :
    declAhead (t :: (r ++ rest)) = false := by
  have hlast : ∃ q e, r = q ++ [e] ∧ e.type = .rcurly := by
    generalize hx : t :: r = x at h
    cases h with
    | @mk p l o c m e hp ho hc he =>
      cases p with
      | nil =>
        simp only [List.nil_append, List.cons.injEq] at hx
        exact ⟨c, e, hx.2, he⟩
      | cons a p =>
        simp only [List.cons_append, List.cons.injEq] at hx
        exact ⟨p ++ o :: c, e, by rw [hx.2]; simp, he⟩
  obtain ⟨q, e, rfl, he⟩ := hlast
  obtain ⟨w, h1, h2⟩ := eatWsT_split (q ++ [e])
  have hne : ∃ k r', eatWsT (q ++ [e]) = k :: r' ∧ k.type ≠ .ws := by
    clear h1 h2 hi h
    induction q with
    | nil =>
      refine ⟨e, [], ?_, by rw [he]; decide⟩
      show eatWsT [e] = _
      unfold eatWsT
      rw [if_neg (by rw [he]; decide)]
    | cons a q ih =>
      show ∃ k r', eatWsT (a :: (q ++ [e])) = _ ∧ _
      unfold eatWsT
      split
      · exact ih
      · rename_i ha
        exact ⟨a, _, rfl, ha⟩
  obtain ⟨k, r', hk, hkw⟩ := hne
  have h3 : k.type ≠ .colon := hi ht w k r' (by rw [← hk]; exact h1) h2
  have h4 : eatWsT ((q ++ [e]) ++ rest) = k :: (r' ++ rest) := by
    rw [h1, List.append_assoc, eatWsT_blank h2, hk]
    exact eatWsT_sharp hkw
  show (t.type == .ident && peekType (eatWsT ((q ++ [e]) ++ rest)) == .colon) = false
  rw [h4]
  simp [peekType, h3]

mutual
theorem read_block {c : List Tok} {l : List Sst} (h : BlockText true c l) {rest : List Tok} (hr : AtClose rest) (n : Nat) :
    Reads (declList n (c ++ rest)) l rest := by
  cases n with
  | zero => exact .inl rfl
  | succ n =>
    cases h with
    | nil => exact declList_close hr
    | @skip t c l ht hc =>
      rw [List.cons_append, declList_skip ht]
      exact read_block hc hr n
    | @last d s hd =>
      obtain ⟨nm, r, rfl, h1, h2, h3⟩ := hd.ahead rest
      exact declList_decl h1 h2 h3 (read_decl hd hr.atEnd n) (declList_close hr)
    | @decl d s e c l hd he hc =>
      have e1 : (d ++ e :: c) ++ rest = d ++ (e :: (c ++ rest)) := by simp
      rw [e1]
      obtain ⟨nm, r, rfl, h1, h2, h3⟩ := hd.ahead (e :: (c ++ rest))
      refine declList_decl h1 h2 h3 (read_decl hd (.inr (.inl (show peekType (e :: _) = .semi from he))) n) ?_
      cases n with
      | zero => exact .inl rfl
      | succ n =>
        rw [declList_skip (.inr (.inl he))]
        exact read_block hc hr n
    | @«at» a s c l ha hc =>
      obtain ⟨kw, r, rfl, hkw, hread⟩ := read_at ha n (c ++ rest)
      have e1 : (kw :: r ++ c) ++ rest = kw :: (r ++ (c ++ rest)) := by simp
      rw [e1]
      exact declList_at hkw hread (read_block hc hr n)
    | @rule t r s c l hrule ht hi hc =>
      have e1 : (t :: r ++ c) ++ rest = t :: (r ++ (c ++ rest)) := by simp
      rw [e1]
      exact declList_rule ht (fun h => hrule.not_ahead (hi rfl) h (c ++ rest)) hrule.head (read_rule hrule n (c ++ rest)) (read_block hc hr n)
    | bad h => cases h
termination_by n

theorem read_at {a : List Tok} {s : Sst} (h : AtText true a s) (n : Nat) (rest : List Tok) :
    ∃ kw r, a = kw :: r ∧ kw.type = .atKeyword ∧ Reads (atLoop n kw [] (r ++ rest)) s rest := by
  cases h with
  | @semi kw p l e hk hp he =>
    refine ⟨kw, _, rfl, hk, ?_⟩
    rw [List.append_assoc]
    rcases read_atPrelude hp n kw [] ([e] ++ rest) with e1 | ⟨k, hk, e1⟩
    · exact .inl e1
    · rw [e1]
      cases k with
      | zero => exact .inl rfl
      | succ k =>
        right
        show atLoop (k + 1) kw _ (e :: rest) = _
        unfold atLoop
        rw [if_pos he]
        simp
  | @block kw p l o c m e hk hp ho hc he =>
    refine ⟨kw, _, rfl, hk, ?_⟩
    have e0 : p ++ o :: (c ++ [e]) ++ rest = p ++ (o :: (c ++ (e :: rest))) := by simp
    rw [e0]
    rcases read_atPrelude hp n kw [] (o :: (c ++ (e :: rest))) with e1 | ⟨k, hk, e1⟩
    · exact .inl e1
    · rw [e1]
      cases k with
      | zero => exact .inl rfl
      | succ k =>
        unfold atLoop
        rw [if_neg (by rw [ho]; decide), if_neg (by rw [ho]; decide), if_pos ho, List.nil_append]
        cases k with
        | zero => exact .inl rfl
        | succ k =>
          have hb := read_block hc (rest := e :: rest) (.inr (show peekType (e :: _) = .rcurly from he)) k
          unfold declBlock
          rw [List.tail_cons]
          rcases hb with hb | hb
          · rw [hb]; exact .inl rfl
          · rw [hb]
            right
            simp [peekType, he]
termination_by n

theorem read_rule {r : List Tok} {s : Sst} (h : RuleText true r s) (n : Nat) (rest : List Tok) :
    Reads (ruleLoop n [] (r ++ rest)) (some s) rest := by
  cases h with
  | @mk p l o c m e hp ho hc he =>
    have e0 : p ++ o :: (c ++ [e]) ++ rest = p ++ (o :: (c ++ (e :: rest))) := by simp
    rw [e0]
    rcases read_prelude hp n [] (o :: (c ++ (e :: rest))) with e1 | ⟨k, hk, e1⟩
    · exact .inl e1
    · rw [e1]
      cases k with
      | zero => exact .inl rfl
      | succ k =>
        unfold ruleLoop
        rw [if_neg (by rw [ho]; decide), if_pos ho, List.nil_append]
        cases k with
        | zero => exact .inl rfl
        | succ k =>
          have hb := read_block hc (rest := e :: rest) (.inr (show peekType (e :: _) = .rcurly from he)) k
          unfold declBlock
          rw [List.tail_cons]
          rcases hb with hb | hb
          · rw [hb]; exact .inl rfl
          · rw [hb]
            right
            simp [peekType, he]
termination_by n
end

/-! ## Sheets -/

theorem ruleList_rule {n : Nat} {top : Bool} {t : Tok} {r : List Tok} (h : t.type ∉ [TT.ws, .comment, .atKeyword, .cdo, .cdc])
    (he : t.type ≠ .eof) : ruleList top (n + 1) (t :: r) = match rule n (t :: r) with
      | none => none
      | some (o, ts) => (ruleList top n ts).map fun x => (push o x.1, x.2) := by
  simp only [List.mem_cons, List.not_mem_nil, or_false, not_or] at h
  conv => lhs; unfold ruleList
  split
  all_goals (try (simp_all; done))
  rfl

/-- A sheet before some further tokens. -/
theorem read_sheet {c : List Tok} {l : List Sst} (h : SheetText true c l) (n : Nat) (rest : List Tok) :
    ruleList true n (c ++ rest) = none ∨
    ∃ k, k ≤ n ∧ ruleList true n (c ++ rest) = (ruleList true k rest).map fun x => (l ++ x.1, x.2) := by
  induction n generalizing c l with
  | zero => exact .inl rfl
  | succ n ih =>
    have lift : ∀ {c l} (s : List Sst) , SheetText true c l → (ruleList true n (c ++ rest)).map (fun x => (s ++ x.1, x.2)) = none ∨
        ∃ k, k ≤ n + 1 ∧ (ruleList true n (c ++ rest)).map (fun x => (s ++ x.1, x.2)) =
          (ruleList true k rest).map fun x => ((s ++ l) ++ x.1, x.2) := by
      intro c l s hc
      rcases ih hc with e | ⟨k, hk, e⟩
      · rw [e]; exact .inl rfl
      · rw [e]
        refine .inr ⟨k, by omega, ?_⟩
        cases ruleList true k rest <;> simp
    cases h with
    | nil => exact .inr ⟨n + 1, Nat.le_refl _, by cases h : ruleList true (n + 1) rest <;> simp [h]⟩
    | @skip t c l ht hc =>
      have e1 : ruleList true (n + 1) (t :: (c ++ rest)) = ruleList true n (c ++ rest) := by
        conv => lhs; unfold ruleList
        rcases ht with h | h <;> rw [h]
      rw [List.cons_append, e1]
      rcases ih hc with e | ⟨k, hk, e⟩
      · exact .inl e
      · exact .inr ⟨k, by omega, e⟩
    | cd h => cases h
    | @«at» a s c l ha hc =>
      obtain ⟨kw, r, rfl, hkw, hread⟩ := read_at ha n (c ++ rest)
      have e1 : (kw :: r ++ c) ++ rest = kw :: (r ++ (c ++ rest)) := by simp
      have e2 : ruleList true (n + 1) (kw :: (r ++ (c ++ rest))) = match atLoop n kw [] (r ++ (c ++ rest)) with
          | none => none
          | some (s, ts) => (ruleList true n ts).map fun x => (s :: x.1, x.2) := by
        conv => lhs; unfold ruleList
        rw [hkw]
        rfl
      rw [e1, e2]
      rcases hread with e | e
      · rw [e]; exact .inl rfl
      · rw [e]; exact lift [s] hc
    | @rule t r s c l hrule ht hc =>
      have e1 : (t :: r ++ c) ++ rest = t :: (r ++ (c ++ rest)) := by simp
      have hread := read_rule hrule n (c ++ rest)
      rw [List.cons_append] at hread
      rw [e1, ruleList_rule ht hrule.head]
      unfold rule
      rcases hread with e | e
      · rw [e]; exact .inl rfl
      · rw [e]; exact lift [s] hc

end Verif.Css
