import Verif.Css.ParserStrip

/-!
# The CSS parser: properties

C22 (reading a style sheet ends and consumes it), C23 (an ill-formed declaration is skipped),
C61 (comments mean nothing) and C62 (a well-formed sheet is read as written).
-/
namespace Verif.Css
open Spec

/-- Fuel that is always enough for `ts`. -/
def enough (ts : List Tok) : Nat := 4 * ts.length + 3

/-! ## Small tokens for examples -/

instance (t : TT) : Decidable (plain t) := inferInstanceAs (Decidable (_ ∉ _))

def tIdent (s : String) : Tok := ⟨.ident, u s⟩
def tColon : Tok := ⟨.colon, u ":"⟩
def tSemi : Tok := ⟨.semi, u ";"⟩
def tOpen : Tok := ⟨.lcurly, u "{"⟩
def tClose : Tok := ⟨.rcurly, u "}"⟩
def tWs : Tok := ⟨.ws, u " "⟩
def tCdo : Tok := ⟨.cdo, u "<!--"⟩
def tComment : Tok := ⟨.comment, u "/* x */"⟩
def tBang : Tok := ⟨.delim, u "!"⟩

/-! ## C22: reading ends and consumes the input -/

theorem ruleList_whole (n : Nat) (ts : List Tok) (h : enough ts ≤ n)
    (hc : ∀ t ∈ ts, t.type ≠ .cdo ∧ t.type ≠ .cdc ∧ t.type ≠ .eof) : ∃ l, ruleList true n ts = some (l, []) := by
  induction n generalizing ts with
  | zero => unfold enough at h; omega
  | succ n ih =>
    cases ts with
    | nil => exact ⟨_, rfl⟩
    | cons t r =>
      simp only [enough, List.length_cons] at h ih
      have sub : ∀ {x : List Tok}, x <:+ t :: r → ∀ t ∈ x, t.type ≠ .cdo ∧ t.type ≠ .cdc ∧ t.type ≠ .eof :=
        fun hx y hy => hc y (hx.subset hy)
      have hs : r <:+ t :: r := List.suffix_cons ..
      have ht := hc t (List.mem_cons_self ..)
      by_cases h1 : t.type = .ws ∨ t.type = .comment
      · have e1 : ruleList true (n + 1) (t :: r) = ruleList true n r := by
          conv => lhs; unfold ruleList
          rcases h1 with h | h <;> rw [h]
        rw [e1]
        exact ih r (by omega) (sub hs)
      · by_cases h2 : t.type = .atKeyword
        · obtain ⟨s, ts', e, hsuf, -⟩ := (rules_end n).2.1 t [] r (by omega)
          have := hsuf.length_le
          have e2 : ruleList true (n + 1) (t :: r) = match atLoop n t [] r with
              | none => none
              | some (s, ts) => (ruleList true n ts).map fun x => (s :: x.1, x.2) := by
            conv => lhs; unfold ruleList
            rw [h2]
            rfl
          obtain ⟨l, e'⟩ := ih ts' (by omega) (sub (hsuf.trans hs))
          rw [e2, e]
          dsimp only
          rw [e']
          exact ⟨_, rfl⟩
        · rw [ruleList_rule (by simp only [List.mem_cons, List.not_mem_nil, or_false]; grind) ht.2.2]
          obtain ⟨o, ts', e, hsuf, hl⟩ := (rules_end n).1 [] (t :: r) (by simp only [List.length_cons]; omega)
          have := hl ⟨by simp, ht.2.2⟩
          simp only [List.length_cons] at this
          unfold rule
          rw [e]
          obtain ⟨l, e'⟩ := ih ts' (by omega) (sub hsuf)
          dsimp only
          rw [e']
          exact ⟨_, rfl⟩

/-- **C22**, the part that holds: a sequence of tokens without `<!--` and `-->` is read to its
end, however it is formed. Missing: those two tokens, see `C22_sheet_hangs`. (The end of the
input is the end of the list, so there is no end-of-file token within it.) -/
theorem C22_sheet_ends_partial (ts : List Tok) (hc : ∀ t ∈ ts, t.type ≠ .cdo ∧ t.type ≠ .cdc ∧ t.type ≠ .eof)
    (n : Nat) (h : enough ts ≤ n) : ∃ l, sheet n ts = some (l, []) := ruleList_whole n ts h hc

example : ∃ l, sheet 100 [tIdent "a", tOpen, tClose, tClose, tColon, tIdent "b", tSemi] = some (l, []) :=
  C22_sheet_ends_partial _ (by decide) _ (by decide)

/-- The reading of a `style` attribute ends for every sequence of tokens. -/
theorem C22_style_attribute_ends (ts : List Tok) (n : Nat) (h : enough ts ≤ n) :
    ∃ l r, styleAttr n ts = some (l, r) ∧ r <:+ ts := by
  obtain ⟨l, r, e, hs, _⟩ := (rules_end n).2.2.1 ts h
  exact ⟨l, r, e, hs⟩

example : ∃ l r, styleAttr 100 [tCdo, tIdent "a"] = some (l, r) ∧ r <:+ [tCdo, tIdent "a"] :=
  C22_style_attribute_ends _ _ (by decide)

/-- **C22** fails: `<!--` or `-->` after any well-formed rules is read again for ever. -/
theorem C22_sheet_hangs {c : List Tok} {l : List Sst} (h : SheetText true c l) (t : Tok) (ht : t.type = .cdo ∨ t.type = .cdc)
    (rest : List Tok) (n : Nat) : sheet n (c ++ t :: rest) = none := by
  have stuck : ∀ k, ruleList true k (t :: rest) = none := by
    intro k
    induction k with
    | zero => rfl
    | succ k ih =>
      rw [← ih]
      conv => lhs; unfold ruleList
      rcases ht with h | h <;> rw [h] <;> rfl
  rcases read_sheet h n (t :: rest) with e | ⟨k, _, e⟩
  · exact e
  · unfold sheet
    rw [e, stuck]
    rfl

theorem C22_fails : ¬ ∀ ts : List Tok, ∃ n l, sheet n ts = some (l, []) := by
  intro h
  obtain ⟨n, l, e⟩ := h [tCdo]
  rw [show ([tCdo] : List Tok) = [] ++ tCdo :: [] from rfl, C22_sheet_hangs .nil _ (.inl rfl)] at e
  cases e

/-! ## C62: a well-formed sheet is read as written -/

theorem sheet_ends {c : List Tok} {l : List Sst} (h : SheetText true c l) (n : Nat) (hn : enough c ≤ n) :
    ruleList true n c = some (l, []) := by
  induction n generalizing c l with
  | zero => unfold enough at hn; omega
  | succ n ih =>
    simp only [enough] at hn ih
    cases h with
    | nil => rfl
    | @skip t c l ht hc =>
      simp only [List.length_cons] at hn
      have e1 : ruleList true (n + 1) (t :: c) = ruleList true n c := by
        conv => lhs; unfold ruleList
        rcases ht with h | h <;> rw [h]
      rw [e1]
      exact ih hc (by omega)
    | cd h => cases h
    | @«at» a s c l ha hc =>
      obtain ⟨kw, r, rfl, hkw, hread⟩ := read_at ha n c
      simp only [List.cons_append, List.length_cons, List.length_append] at hn
      have e2 : ruleList true (n + 1) (kw :: (r ++ c)) = match atLoop n kw [] (r ++ c) with
          | none => none
          | some (s, ts) => (ruleList true n ts).map fun x => (s :: x.1, x.2) := by
        conv => lhs; unfold ruleList
        rw [hkw]
        rfl
      obtain ⟨s', ts', e, -, -⟩ := (rules_end n).2.1 kw [] (r ++ c) (by simp only [List.length_append]; omega)
      rcases hread with hread | hread
      · rw [hread] at e; cases e
      · rw [List.cons_append, e2, hread]
        dsimp only
        rw [ih hc (by omega)]
        rfl
    | @rule t r s c l hrule ht hc =>
      have hread := read_rule hrule n c
      simp only [List.cons_append, List.length_cons, List.length_append] at hn
      rw [List.cons_append] at hread
      obtain ⟨s', ts', e, -, -⟩ := (rules_end n).1 [] (t :: (r ++ c)) (by simp only [List.length_cons, List.length_append]; omega)
      rcases hread with hread | hread
      · rw [hread] at e; cases e
      · rw [List.cons_append, ruleList_rule ht hrule.head]
        unfold rule
        rw [hread]
        dsimp only
        rw [ih hc (by omega)]
        rfl

/-- **C62**, the part that holds: a style sheet written after the grammar is read as the tree
it stands for. Missing: comments inside values, preludes and blocks (`C61_fails`), the two
tokens of `C22_sheet_hangs`, malformed pieces of declaration lists (`C23_fails`) and nested
rules that begin with a name and a colon. -/
theorem C62_sheet_read_partial {ts : List Tok} {l : List Sst} (h : SheetText true ts l) (n : Nat) (hn : enough ts ≤ n) :
    sheet n ts = some (l, []) := sheet_ends h n hn

/-- `a { b: c !important; }` is such a sheet. -/
theorem sample_sheet : SheetText true
    ([tIdent "a", tWs, tOpen, tWs, tIdent "b", tColon, tWs, tIdent "c", tWs, tBang, tIdent "important", tSemi, tWs, tClose])
    [.rule ⟨.nil, []⟩ [.tok (tIdent "a"), .tok tWs] [.decl (tIdent "b") [.tok (tIdent "c")] true]] := by
  refine .rule (c := []) (.mk (p := [tIdent "a", tWs]) (o := tOpen)
    (c := [tWs, tIdent "b", tColon, tWs, tIdent "c", tWs, tBang, tIdent "important", tSemi, tWs]) (e := tClose) ?_ rfl ?_ rfl)
    (by decide) .nil
  · exact .cons (v := []) (.tok (by decide)) (by decide) (.cons (v := []) (.tok (by decide)) (by decide) .nil)
  · refine .skip (.inl rfl) (.decl (d := [tIdent "b", tColon, tWs, tIdent "c", tWs, tBang, tIdent "important"]) ?_ rfl
      (.skip (.inl rfl) .nil))
    exact .mk (w₁ := []) (w₂ := [tWs]) (v := [tIdent "c", tWs]) (i := [tBang, tIdent "important"]) rfl (by decide) (by intro t h; cases h)
      rfl (by intro t h; simp at h; rw [h]; rfl)
      (.cons (v := []) (w := [tWs]) (c := []) (.tok (by decide)) (by decide) (by decide) (by rintro ⟨h, _⟩; cases h)
        (by intro t h; simp at h; rw [h]; rfl) .nil)
      (.some (w₁ := []) (w₂ := []) ⟨rfl, rfl⟩ (by intro t h; cases h) rfl (by decide) (by intro t h; cases h))

example : sheet 100 [tIdent "a", tWs, tOpen, tWs, tIdent "b", tColon, tWs, tIdent "c", tWs, tBang, tIdent "important", tSemi, tWs, tClose] =
    some ([.rule ⟨.nil, []⟩ [.tok (tIdent "a"), .tok tWs] [.decl (tIdent "b") [.tok (tIdent "c")] true]], []) :=
  C62_sheet_read_partial sample_sheet _ (by decide)

/-! ## C23: ill-formed declarations -/

theorem block_read {c : List Tok} {l : List Sst} (h : BlockText true c l) (n : Nat) (hn : enough c ≤ n) :
    styleAttr n c = some (l, []) := by
  have h1 := read_block h (rest := []) (.inl rfl) n
  rw [List.append_nil] at h1
  obtain ⟨s', ts', e, -, -⟩ := (rules_end n).2.2.1 c hn
  rcases h1 with h1 | h1
  · rw [h1] at e; cases e
  · exact h1

/-- **C23**, the part that holds: a declaration that has the form of one but that the reader of
properties `f` rejects (an unknown name, a value it cannot read) leaves every other declaration
as if it were absent. Missing: pieces that do not have the form `name: value`, see
`C23_no_colon_swallows` and `C23_lone_bang_swallows`. -/
theorem C23_rejected_declaration_is_skipped_partial {β : Type} (f : Sst → Option β) {a b d : List Tok} {la lb : List Sst} {s : Sst}
    {e e' : Tok} (ha : BlockText true a la) (hb : BlockText true b lb) (hd : DeclText true d s) (he : e.type = .semi)
    (he' : e'.type = .semi) (bad : f s = none) (n : Nat) (hn : enough (a ++ e :: (d ++ e' :: b)) ≤ n) :
    (styleAttr n (a ++ e :: (d ++ e' :: b))).map (fun x => x.1.filterMap f) =
      (styleAttr n (a ++ e :: b)).map (fun x => x.1.filterMap f) ∧
    (styleAttr n (a ++ e :: (d ++ e' :: b))).map (fun x => x.1.filterMap f) = some (la.filterMap f ++ lb.filterMap f) := by
  have h1 := block_read (block_join ha he (.decl hd he' hb)) n hn
  have h2 := block_read (block_join ha he hb) n (by simp [enough] at hn ⊢; omega)
  rw [h1, h2]
  simp [bad]

/-- With declarations before and after: `p: q ; z: ; r: s` and a reader that rejects `z`. -/
example : ∃ (f : Sst → Option Nat) (a b d : List Tok) (la lb : List Sst) (s : Sst), BlockText true a la ∧ BlockText true b lb ∧
    DeclText true d s ∧ f s = none ∧ la.filterMap f ++ lb.filterMap f = [1, 1] := by
  refine ⟨fun | .decl n _ _ => if n.data = u "z" then none else some 1 | _ => none, [tIdent "p", tColon, tIdent "q"],
    [tIdent "r", tColon, tIdent "s"], [tIdent "z", tColon], [.decl (tIdent "p") [.tok (tIdent "q")] false],
    [.decl (tIdent "r") [.tok (tIdent "s")] false], .decl (tIdent "z") [] false, ?_, ?_, ?_, by decide, by decide⟩
  · exact .last (.mk (w₁ := []) (w₂ := []) (v := [tIdent "q"]) (i := []) rfl (by decide) (by intro t h; cases h) rfl (by intro t h; cases h)
      (.cons (v := []) (w := []) (c := []) (.tok (by decide)) (by decide) (by decide) (by rintro ⟨h, _⟩; cases h)
        (by intro t h; cases h) .nil) .none)
  · exact .last (.mk (w₁ := []) (w₂ := []) (v := [tIdent "s"]) (i := []) rfl (by decide) (by intro t h; cases h) rfl (by intro t h; cases h)
      (.cons (v := []) (w := []) (c := []) (.tok (by decide)) (by decide) (by decide) (by rintro ⟨h, _⟩; cases h)
        (by intro t h; cases h) .nil) .none)
  · exact .mk (w₁ := []) (w₂ := []) (v := []) (i := []) rfl (by decide) (by intro t h; cases h) rfl (by intro t h; cases h) .nil .none

/-- Tokens that open nothing. -/
def flat (t : Tok) : Prop := t.type ∉ [TT.lcurly, .lpar, .lsquare, .func, .eof]

instance (t : Tok) : Decidable (flat t) := inferInstanceAs (Decidable (_ ∉ _))

theorem ruleLoop_flat (n : Nat) (pre : List Sst) (ts : List Tok) (h : ∀ t ∈ ts, flat t) : Reads (ruleLoop n pre ts) none [] := by
  induction n generalizing pre ts with
  | zero => exact .inl rfl
  | succ n ih =>
    cases ts with
    | nil => exact .inr rfl
    | cons t r =>
      have ht := h t (List.mem_cons_self ..)
      have hr : ∀ t ∈ r, flat t := fun x hx => h x (List.mem_cons_of_mem _ hx)
      simp only [flat, List.mem_cons, List.not_mem_nil, or_false, not_or] at ht
      have e1 : ruleLoop (n + 1) pre (t :: r) = match compValue n (t :: r) with
          | none => none
          | some (v, ts) => ruleLoop n (pre ++ [v]) ts := by
        conv => lhs; unfold ruleLoop
        rw [if_neg ht.2.2.2.2, if_neg ht.1]
        rfl
      rw [e1]
      cases n with
      | zero => exact .inl rfl
      | succ n =>
        have e2 : compValue (n + 1) (t :: r) = some (.tok t, r) := by
          unfold compValue
          split <;> simp_all
        rw [e2]
        exact ih _ _ hr

/-- **C23** fails: after a name that no colon follows, everything is lost, semicolons, closing
braces and the declarations behind them, until a brace opens or the input ends. -/
theorem C23_no_colon_swallows (t : Tok) (r : List Tok) (ht : t.type = .ident) (hc : ∀ w k r', r = w ++ k :: r' → BlankT w → k.type ≠ .colon)
    (hf : ∀ x ∈ r, flat x) (n : Nat) (hn : enough (t :: r) ≤ n) : styleAttr n (t :: r) = some ([], []) := by
  cases n with
  | zero => unfold enough at hn; omega
  | succ n =>
    have hl := ruleLoop_flat n [] (t :: r) (by
      intro x hx
      rcases List.mem_cons.1 hx with rfl | hx
      · unfold flat; rw [ht]; decide
      · exact hf x hx)
    have hah : declAhead (t :: r) = false := by
      obtain ⟨w, h1, h2⟩ := eatWsT_split r
      show (t.type == .ident && peekType (eatWsT r) == .colon) = false
      cases he : eatWsT r with
      | nil => simp [peekType]
      | cons k r' =>
        have := hc w k r' (by rw [← he]; exact h1) h2
        simp [peekType, this]
    have e1 : declList (n + 1) (t :: r) = match ruleLoop n [] (t :: r) with
        | none => none
        | some (o, ts) => (declList n ts).map fun x => (push o x.1, x.2) := by
      conv => lhs; unfold declList
      rw [ht]
      dsimp only
      rw [hah]
      simp only [Bool.false_eq_true, if_false, ite_self]
      rfl
    unfold enough at hn
    simp only [List.length_cons] at hn
    obtain ⟨o, ts', e, -, -⟩ := (rules_end n).1 [] (t :: r) (by simp only [List.length_cons]; omega)
    rcases hl with hl | hl
    · rw [hl] at e; cases e
    · unfold styleAttr
      rw [e1, hl]
      cases n with
      | zero => omega
      | succ n => rfl

/-- `color red; margin: x` has no declaration at all. -/
example : styleAttr 100 [tIdent "color", tWs, tIdent "red", tSemi, tIdent "margin", tColon, tIdent "x"] = some ([], []) :=
  C23_no_colon_swallows _ _ rfl (by
    intro w k r' e hw
    match w with
    | [] => cases e; decide
    | [_] => cases e; decide
    | _ :: b :: _ =>
      simp only [List.cons_append, List.cons.injEq] at e
      have := hw b (by simp)
      rw [← e.2.1] at this
      cases this) (by decide) _ (by decide)

/-- A lone `!` swallows the semicolon behind it: `a: !; b: c` is one declaration. -/
theorem C23_lone_bang_swallows :
    (styleAttr 100 [tIdent "a", tColon, tBang, tSemi, tIdent "b", tColon, tIdent "c"]).map (fun x => x.1.length) = some 1 := by
  decide +kernel

/-- **C23** fails as stated: the declaration lists of the full grammar are not all read as meant. -/
theorem C23_fails : ¬ ∀ c l, BlockText false c l → ∃ n, styleAttr n c = some (l, []) := by
  intro h
  have text : BlockText false [tIdent "a", tSemi, tIdent "b", tColon] [.decl (tIdent "b") [] false] := by
    refine .bad (b := [tIdent "a"]) (e := tSemi) rfl (.cons (v := []) (.tok (by decide)) (by decide) .nil) ?_ rfl
      (.last (.mk (w₁ := []) (w₂ := []) (v := []) (i := []) rfl (by decide) (by intro t h; cases h) rfl (by intro t h; cases h) .nil .none))
    intro s hs
    generalize hx : [tIdent "a"] = x at hs
    cases hs with
    | mk =>
      simp only [List.cons.injEq] at hx
      have := congrArg List.length hx.2
      simp at this
  obtain ⟨n, e⟩ := h _ _ text
  have hl : ∀ k, Reads (ruleLoop k [] [tIdent "a", tSemi, tIdent "b", tColon]) none [] :=
    fun k => ruleLoop_flat k [] _ (by decide)
  cases n with
  | zero => cases e
  | succ n =>
    have e1 : styleAttr (n + 1) [tIdent "a", tSemi, tIdent "b", tColon] =
        match ruleLoop n [] [tIdent "a", tSemi, tIdent "b", tColon] with
        | none => none
        | some (o, ts) => (declList n ts).map fun x => (push o x.1, x.2) := by
      unfold styleAttr
      conv => lhs; unfold declList
      rfl
    rw [e1] at e
    rcases hl n with hl | hl
    · rw [hl] at e; cases e
    · rw [hl] at e
      cases n with
      | zero => cases e
      | succ n => cases e

/-! ## C61: comments -/

/-- **C61**, the part that holds: taking the comments out of a style sheet written after the
grammar, with comments only between rules, between declarations and among the arguments of
functions, does not change what is read. Missing: comments elsewhere, see `C61_fails`. -/
theorem C61_comments_partial {ts : List Tok} {l : List Sst} (h : SheetText true ts l) (n : Nat) (hn : enough ts ≤ n) :
    sheet n (strip ts) = sheet n ts := by
  rw [C62_sheet_read_partial h n hn]
  refine C62_sheet_read_partial (strip_sheet h) n (Nat.le_trans ?_ hn)
  have : (strip ts).length ≤ ts.length := List.length_filter_le ..
  unfold enough
  omega

example : sheet 100 (strip ([tComment] ++ [tIdent "a", tWs, tOpen, tWs, tIdent "b", tColon, tWs, tIdent "c", tWs, tBang, tIdent "important",
    tSemi, tWs, tClose])) = sheet 100 ([tComment] ++ [tIdent "a", tWs, tOpen, tWs, tIdent "b", tColon, tWs, tIdent "c", tWs, tBang,
    tIdent "important", tSemi, tWs, tClose]) :=
  C61_comments_partial (.skip (.inr rfl) sample_sheet) _ (by decide)

/-- How many values the declarations of a list of rules have, in all. -/
def countValues : List Sst → Nat
  | [] => 0
  | .rule _ _ (.decl _ vs _ :: _) :: l => vs.length + countValues l
  | _ :: l => countValues l

/-- **C61** fails: in the value of a declaration a comment counts as a value. -/
theorem C61_fails : ¬ ∀ (ts : List Tok) (n : Nat), enough ts ≤ n → sheet n (strip ts) = sheet n ts := by
  intro h
  have := congrArg (Option.map fun x => countValues x.1)
    (h [tIdent "a", tOpen, tIdent "b", tColon, tIdent "c", tComment, tIdent "d", tClose] 100 (by decide))
  exact absurd this (by decide +kernel)

/-- Wherever a component value is expected, a comment is taken as one. -/
theorem C61_comment_in_value_kept (k : Tok) (hk : k.type = .comment) (rest : List Tok) (n : Nat) :
    compValue (n + 1) (k :: rest) = some (.tok k, rest) := by
  unfold compValue
  rw [hk]

end Verif.Css
