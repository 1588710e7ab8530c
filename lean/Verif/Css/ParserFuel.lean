import Verif.Css.ParserSpec

namespace Verif.Css
open Spec

/-- Fuel sufficed, and a tail of the input is left; a shorter one if `strict`. -/
def Ends {α : Type} (x : Option (α × List Tok)) (ts : List Tok) (strict : Prop) : Prop :=
  ∃ a r, x = some (a, r) ∧ r <:+ ts ∧ (strict → r.length < ts.length)

theorem Ends.map {α β : Type} {x : Option (α × List Tok)} {ts ts' : List Tok} {p q : Prop} (h : Ends x ts p)
    (f : α → β) (hs : ts <:+ ts') (hq : q → p ∨ ts.length < ts'.length) :
    Ends (x.map fun y => (f y.1, y.2)) ts' q := by
  obtain ⟨a, r, rfl, h1, h2⟩ := h
  refine ⟨f a, r, rfl, h1.trans hs, fun hq' => ?_⟩
  have := h1.length_le
  have := hs.length_le
  rcases hq hq' with h | h
  · have := h2 h; omega
  · omega

theorem Ends.weaken {α : Type} {x : Option (α × List Tok)} {ts ts' : List Tok} {p q : Prop} (h : Ends x ts p)
    (hs : ts <:+ ts') (hq : q → p ∨ ts.length < ts'.length) : Ends x ts' q := by
  have := h.map id hs hq
  cases x <;> exact this

theorem eatWsT_suffix (ts : List Tok) : eatWsT ts <:+ ts := by
  induction ts with
  | nil => exact List.suffix_rfl
  | cons t r ih =>
    unfold eatWsT
    split
    · exact ih.trans (List.suffix_cons ..)
    · exact List.suffix_rfl

theorem tail_suffix (ts : List Tok) : ts.tail <:+ ts := List.tail_suffix ts

theorem suffix_tail_lt {ts r : List Tok} (h : r <:+ ts.tail) (hne : ts ≠ []) : r.length < ts.length := by
  have := h.length_le
  cases ts with
  | nil => exact absurd rfl hne
  | cons t ts => simp at this ⊢; omega

theorem values_end (n : Nat) :
    (∀ ts, 2 * ts.length + 1 ≤ n → Ends (compValue n ts) ts (ts ≠ [])) ∧
    (∀ term ts, 2 * ts.length + 2 ≤ n → Ends (blockLoop n term ts) ts False) ∧
    (∀ ts, 2 * ts.length + 2 ≤ n → Ends (funcLoop n ts) ts False) := by
  induction n with
  | zero => exact ⟨fun _ h => by omega, fun _ _ h => by omega, fun _ h => by omega⟩
  | succ n ih =>
    obtain ⟨ihc, ihb, ihf⟩ := ih
    refine ⟨?_, ?_, ?_⟩
    · intro ts h
      cases ts with
      | nil => exact ⟨_, _, rfl, List.suffix_rfl, fun h => absurd rfl h⟩
      | cons t r =>
        simp only [List.length_cons] at h
        have hs : r <:+ t :: r := List.suffix_cons ..
        have hl : r.length < (t :: r).length := by simp
        unfold compValue
        split
        · exact (ihb .rsquare r (by omega)).map _ hs fun _ => .inr hl
        · exact (ihb .rcurly r (by omega)).map _ hs fun _ => .inr hl
        · exact (ihb .rpar r (by omega)).map _ hs fun _ => .inr hl
        · exact (ihf r (by omega)).map _ hs fun _ => .inr hl
        · exact ⟨_, _, rfl, hs, fun _ => hl⟩
    · intro term ts h
      cases ts with
      | nil => exact ⟨_, _, rfl, List.suffix_rfl, False.elim⟩
      | cons t r =>
        simp only [List.length_cons] at h
        unfold blockLoop
        split
        · exact ⟨_, _, rfl, List.suffix_rfl, False.elim⟩
        · split
          · exact ⟨_, _, rfl, List.suffix_cons .., False.elim⟩
          · obtain ⟨v, ts', e, h1, h2⟩ := ihc (t :: r) (by simp only [List.length_cons]; omega)
            have := h2 (by simp)
            simp only [List.length_cons] at this
            rw [e]
            exact (ihb term ts' (by omega)).map _ h1 False.elim
    · intro ts h
      cases ts with
      | nil => exact ⟨_, _, rfl, List.suffix_rfl, False.elim⟩
      | cons t r =>
        simp only [List.length_cons] at h
        unfold funcLoop
        split
        · exact (ihf r (by omega)).weaken (List.suffix_cons ..) False.elim
        · split
          · exact ⟨_, _, rfl, List.suffix_rfl, False.elim⟩
          · split
            · exact ⟨_, _, rfl, List.suffix_cons .., False.elim⟩
            · obtain ⟨v, ts', e, h1, h2⟩ := ihc (t :: r) (by simp only [List.length_cons]; omega)
              have := h2 (by simp)
              simp only [List.length_cons] at this
              rw [e]
              exact (ihf ts' (by omega)).map _ h1 False.elim

theorem important_suffix (ts : List Tok) : (important ts).2 <:+ ts := by
  cases ts with
  | nil => exact List.suffix_rfl
  | cons t r =>
    unfold important
    dsimp only
    split
    · have := eatWsT_suffix r
      split
      · exact List.suffix_cons ..
      · rename_i i r' e
        rw [e] at this
        split
        · exact ((List.suffix_cons ..).trans this).trans (List.suffix_cons ..)
        · exact List.suffix_cons ..
    · exact List.suffix_rfl

theorem valueLoop_ends (n : Nat) (ts : List Tok) (h : 2 * ts.length + 2 ≤ n) : Ends (valueLoop n ts) ts False := by
  induction n generalizing ts with
  | zero => omega
  | succ n ih =>
    unfold valueLoop
    split
    · exact ⟨_, _, rfl, List.suffix_rfl, False.elim⟩
    · rename_i hne
      have hs := important_suffix ts
      dsimp only
      split
      · exact ⟨_, _, rfl, (eatWsT_suffix _).trans hs, False.elim⟩
      · have hlen := hs.length_le
        obtain ⟨v, ts', e, h1, h2⟩ := (values_end n).1 (important ts).2 (by omega)
        rw [e]
        have hw := eatWsT_suffix ts'
        have h3 := hw.length_le
        have h4 := h1.length_le
        have hlt : ts'.length < ts.length := by
          by_cases hi : (important ts).2 = []
          · have : ts ≠ [] := by rintro rfl; simp [endedValue, peekType] at hne
            rw [hi] at h4
            have := List.length_pos_iff.2 this
            simp only [List.length_nil] at h4
            omega
          · have := h2 hi; omega
        exact (ih (eatWsT ts') (by omega)).map (fun x => (v :: x.1, x.2)) ((hw.trans h1).trans hs) False.elim

theorem declaration_ends (n : Nat) (ts : List Tok) (h : 2 * ts.length + 2 ≤ n) :
    Ends (declaration n ts) ts (ts ≠ []) := by
  have h1 := eatWsT_suffix ts.tail
  have h2 := tail_suffix ts
  unfold declaration
  dsimp only
  split
  · have h3 := tail_suffix (eatWsT ts.tail)
    have h4 := eatWsT_suffix (eatWsT ts.tail).tail
    have hs := (h4.trans h3).trans h1
    have := (hs.trans h2).length_le
    refine (valueLoop_ends n (eatWsT (eatWsT ts.tail).tail) (by omega)).map (fun x => some (Sst.decl (ts.headD eofTok) x.1 x.2)) (hs.trans h2)
      fun hne => .inr (suffix_tail_lt hs hne)
  · exact ⟨_, _, rfl, h1.trans h2, fun hne => suffix_tail_lt h1 hne⟩

theorem rules_end (n : Nat) :
    (∀ pre ts, 4 * ts.length + 2 ≤ n → Ends (ruleLoop n pre ts) ts (ts ≠ [] ∧ peekType ts ≠ .eof)) ∧
    (∀ kw pre ts, 4 * ts.length + 2 ≤ n → Ends (atLoop n kw pre ts) ts False) ∧
    (∀ ts, 4 * ts.length + 3 ≤ n → Ends (declList n ts) ts False) ∧
    (∀ ts, ts ≠ [] → 4 * ts.length ≤ n → Ends (declBlock n ts) ts True) := by
  induction n with
  | zero =>
    refine ⟨fun _ _ h => by omega, fun _ _ _ h => by omega, fun _ h => by omega, fun ts h0 h => ?_⟩
    cases ts with
    | nil => exact absurd rfl h0
    | cons => simp at h
  | succ n ih =>
    obtain ⟨ihr, iha, ihl, ihb⟩ := ih
    refine ⟨?_, ?_, ?_, ?_⟩
    · intro pre ts h
      cases ts with
      | nil => exact ⟨_, _, rfl, List.suffix_rfl, fun h => absurd rfl h.1⟩
      | cons t r =>
        simp only [List.length_cons] at h
        unfold ruleLoop
        split
        · rename_i he
          exact ⟨_, _, rfl, List.suffix_rfl, fun h => absurd he h.2⟩
        · split
          · exact (ihb (t :: r) (by simp) (by simp only [List.length_cons]; omega)).map
              (fun x => some (Sst.rule ⟨.nil, []⟩ pre x)) List.suffix_rfl fun _ => .inl trivial
          · obtain ⟨v, ts', e, h1, h2⟩ := (values_end n).1 (t :: r) (by simp only [List.length_cons]; omega)
            have := h2 (by simp)
            rw [e]
            simp only [List.length_cons] at this
            exact (ihr _ ts' (by omega)).weaken h1 fun _ => .inr (by simp only [List.length_cons]; omega)
    · intro kw pre ts h
      cases ts with
      | nil => exact ⟨_, _, rfl, List.suffix_rfl, False.elim⟩
      | cons t r =>
        simp only [List.length_cons] at h
        unfold atLoop
        split
        · exact ⟨_, _, rfl, List.suffix_cons .., False.elim⟩
        · split
          · exact ⟨_, _, rfl, List.suffix_cons .., False.elim⟩
          · split
            · exact (ihb (t :: r) (by simp) (by simp only [List.length_cons]; omega)).map
                (fun x => Sst.rule kw pre x) List.suffix_rfl False.elim
            · obtain ⟨v, ts', e, h1, h2⟩ := (values_end n).1 (t :: r) (by simp only [List.length_cons]; omega)
              have := h2 (by simp)
              rw [e]
              simp only [List.length_cons] at this
              exact (iha kw _ ts' (by omega)).weaken h1 False.elim
    · intro ts h
      cases ts with
      | nil => exact ⟨_, _, rfl, List.suffix_rfl, False.elim⟩
      | cons t r =>
        simp only [List.length_cons] at h
        have hs : r <:+ t :: r := List.suffix_cons ..
        have rule : t.type ≠ .eof → Ends (match ruleLoop n [] (t :: r) with
            | none => none
            | some (o, ts) => (declList n ts).map fun x => (push o x.1, x.2)) (t :: r) False := by
          intro hne
          obtain ⟨o, ts', e, h1, h2⟩ := ihr [] (t :: r) (by simp only [List.length_cons]; omega)
          have := h2 ⟨by simp, hne⟩
          simp only [List.length_cons] at this
          rw [e]
          exact (ihl ts' (by omega)).map _ h1 False.elim
        unfold declList
        split
        · exact (ihl r (by omega)).weaken hs False.elim
        · exact (ihl r (by omega)).weaken hs False.elim
        · exact (ihl r (by omega)).weaken hs False.elim
        · exact ⟨_, _, rfl, hs, False.elim⟩
        · obtain ⟨s, ts', e, h1, -⟩ := iha t [] r (by omega)
          have := h1.length_le
          rw [e]
          exact (ihl ts' (by omega)).map _ (h1.trans hs) False.elim
        · rename_i hi
          split
          · exact rule (by rw [hi]; decide)
          · split
            · obtain ⟨o, ts', e, h1, h2⟩ := declaration_ends n (t :: r) (by simp only [List.length_cons]; omega)
              have := h2 (by simp)
              simp only [List.length_cons] at this
              rw [e]
              exact (ihl ts' (by omega)).map _ h1 False.elim
            · exact rule (by rw [hi]; decide)
        · exact ⟨_, _, rfl, List.suffix_rfl, False.elim⟩
        · rename_i h1 h2 h3 h4 h5 h6 h7
          exact rule h4
    · intro ts hne h
      have hs := tail_suffix ts
      have hl : ts.tail.length < ts.length := suffix_tail_lt List.suffix_rfl hne
      obtain ⟨l, r, e, h1, -⟩ := ihl ts.tail (by omega)
      unfold declBlock
      rw [e]
      dsimp only
      split
      · exact ⟨_, _, rfl, ((tail_suffix r).trans h1).trans hs, fun _ => suffix_tail_lt ((tail_suffix r).trans h1) hne⟩
      · exact ⟨_, _, rfl, h1.trans hs, fun _ => suffix_tail_lt h1 hne⟩

/-- Without CDO and CDC, the list of rules ends. -/
theorem ruleList_ends (top : Bool) (n : Nat) (ts : List Tok) (h : 4 * ts.length + 3 ≤ n)
    (hc : top = true → ∀ t ∈ ts, t.type ≠ .cdo ∧ t.type ≠ .cdc) : ∃ l r, ruleList top n ts = some (l, r) := by
  induction n generalizing ts with
  | zero => omega
  | succ n ih =>
    cases ts with
    | nil => exact ⟨_, _, rfl⟩
    | cons t r =>
      simp only [List.length_cons] at h
      have sub : ∀ {x : List Tok}, x <:+ t :: r → (top = true → ∀ t ∈ x, t.type ≠ .cdo ∧ t.type ≠ .cdc) :=
        fun hx ht y hy => hc ht y (hx.subset hy)
      have hs : r <:+ t :: r := List.suffix_cons ..
      have rl : t.type ≠ .eof → ∃ l r', (match rule n (t :: r) with
            | none => none
            | some (o, ts) => (ruleList top n ts).map fun x => (push o x.1, x.2)) = some (l, r') := by
        intro hne
        obtain ⟨o, ts', e, h1, h2⟩ := (rules_end n).1 [] (t :: r) (by simp only [List.length_cons]; omega)
        have := h2 ⟨by simp, hne⟩
        simp only [List.length_cons] at this
        unfold rule
        rw [e]
        obtain ⟨l, r', e'⟩ := ih ts' (by omega) (sub h1)
        exact ⟨_, _, by dsimp only; rw [e']; rfl⟩
      unfold ruleList
      split
      · exact ih r (by omega) (sub hs)
      · exact ih r (by omega) (sub hs)
      · exact ⟨_, _, rfl⟩
      · rename_i he
        split
        · rename_i ht
          exact absurd he (hc ht t (List.mem_cons_self ..)).2
        · exact rl (by rw [he]; decide)
      · rename_i he
        split
        · rename_i ht
          exact absurd he (hc ht t (List.mem_cons_self ..)).1
        · exact rl (by rw [he]; decide)
      · obtain ⟨s, ts', e, h1, -⟩ := (rules_end n).2.1 t [] r (by omega)
        have := h1.length_le
        unfold atRule
        show ∃ l r', (match atLoop n t [] r with | none => none | some (s, ts) => _) = some (l, r')
        rw [e]
        obtain ⟨l, r', e'⟩ := ih ts' (by omega) (sub (h1.trans hs))
        exact ⟨_, _, by dsimp only; rw [e']; rfl⟩
      · rename_i h1 h2 h3 h4 h5 h6
        exact rl h3

end Verif.Css
