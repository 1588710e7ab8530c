import Verif.Decl.VarLemmas
import Verif.Decl.Model

/-!
# Declared values: properties

C27 (`var()`), C63 (invalid declarations are ignored), C64 (no declaration crashes style
computation), C65 (custom properties are resolved where they are declared) and C66 (`toggle()`).
-/
namespace Verif.Decl
open Verif.Css Spec

/-! ## Small values for examples -/

def word (s : String) : Sst := .tok ⟨.ident, u s⟩
def comma : Sst := .tok ⟨.comma, u ","⟩
def varTok : Tok := ⟨.func, u "var("⟩

/-- `var(x)` -/
def var (x : Text) : Sst := .func varTok [.tok ⟨.ident, x⟩]

/-- `var(x, fb)` -/
def varOr (x : Text) (fb : List Sst) : Sst := .func varTok (.tok ⟨.ident, x⟩ :: comma :: fb)

theorem isVarTok : Var varTok := ⟨rfl, by decide⟩

theorem blank_nil : Blank [] := by intro s h; cases h

theorem args_var (x : Text) : Args [.tok ⟨.ident, x⟩] x none := .name (w₁ := []) (w₂ := []) (t := ⟨.ident, x⟩) blank_nil rfl blank_nil

theorem args_varOr (x : Text) (fb : List Sst) : Args (.tok ⟨.ident, x⟩ :: comma :: fb) x (some fb) :=
  .fallback (w₁ := []) (w₂ := []) (t := ⟨.ident, x⟩) (k := ⟨.comma, u ","⟩) blank_nil rfl blank_nil rfl

/-- `--a: red; --b: var(--a)` -/
def env₁ : Env := fun x => if x = u "--a" then some [word "red"] else if x = u "--b" then some [var (u "--a")] else none

theorem mentions_word {s : String} {x : Text} : ¬ Mentions [word s] x := by
  intro h
  cases h with
  | later h => cases h

theorem mentions_var {x y : Text} (h : Mentions [var x] y) : y = x := by
  unfold var at h
  generalize hc : [Sst.tok ⟨.ident, x⟩] = c at h
  cases h with
  | @here f w t a r hf hw ht =>
    cases w with
    | nil => cases hc; rfl
    | cons a' w =>
      have := congrArg List.length hc
      simp at this
  | inFunc h =>
    subst hc
    cases h with
    | later h => cases h
  | later h => cases h

theorem env₁_acyclic (x : Text) : ¬ Cyclic env₁ x := by
  have step : ∀ {x v y}, env₁ x = some v → Mentions v y → x = u "--b" ∧ y = u "--a" := by
    intro x v y hv hm
    unfold env₁ at hv
    split at hv
    · cases hv; exact absurd hm mentions_word
    · split at hv
      · rename_i hx
        cases hv
        exact ⟨hx, mentions_var hm⟩
      · cases hv
  have all : ∀ {x y}, Leads env₁ x y → x = u "--b" ∧ y = u "--a" := by
    intro x y h
    induction h with
    | one hv hm => exact step hv hm
    | more hv hm hl ih =>
      obtain ⟨rfl, rfl⟩ := step hv hm
      exact absurd ih.1 (by decide)
  intro h
  obtain ⟨rfl, h2⟩ := all h
  exact absurd h2 (by decide)

theorem env₁_value_a : Value env₁ (u "--a") [word "red"] :=
  ⟨by rfl, by intro s r h; cases h; rfl⟩

theorem env₁_value_b : Value env₁ (u "--b") [var (u "--a")] :=
  ⟨by rfl, by intro s r h; cases h; rfl⟩

theorem subst_a : Subst true env₁ 1 [var (u "--a")] [word "red"] :=
  .var (n := 0) (o' := [word "red"]) (o := []) isVarTok (args_var _) env₁_value_a (env₁_acyclic _) (fun _ => by simp) (.tok .nil) .nil

theorem subst_b : Subst true env₁ 2 [var (u "--b"), word "x"] [word "red", word "x"] :=
  .var (n := 1) (o' := [word "red"]) (o := [word "x"]) isVarTok (args_var _) env₁_value_b (env₁_acyclic _) (fun _ => by simp)
    subst_a (.tok .nil)

/-! ## C27: `var()` -/

/-- **C27**, the part that holds: when a value stands, by replacing each `var()`, for the value
`o`, this is what the code makes of it. Missing: what `strict` rules out and chains of 32
variables and more, see the `_fails` theorems below. -/
theorem C27_substitution_partial {env : Env} {n : Nat} {c o : List Sst} (h : Subst true env n c o) (hn : n ≤ 31) :
    expand env c = some (eatWs o) := by
  unfold expand
  rw [show expandContent env 32 c = expandItems env (expandContent env 31) c from rfl, subst_expand h 31 hn]
  rfl

example : expand env₁ [var (u "--b"), word "x"] = some [word "red", word "x"] := C27_substitution_partial subst_b (by decide)

/-- Conversely, what the code gives for values without the oddities that `Tidy` rules out is the
value with every `var()` replaced. -/
theorem C27_only_substitution_partial {env : Env} (henv : ∀ x v, env x = some v → Tidy env v) {c o : List Sst} (hc : Tidy env c)
    (h : expand env c = some o) : ∃ n o', Subst true env n c o' ∧ o = eatWs o' := by
  obtain ⟨o', h1, rfl⟩ := Option.map_eq_some_iff.1 h
  exact ⟨32, o', expand_subst henv 32 hc h1, rfl⟩

example : (∀ x v, env₁ x = some v → Tidy env₁ v) ∧ Tidy env₁ [var (u "--b"), word "x"] ∧
    ∃ o, expand env₁ [var (u "--b"), word "x"] = some o := by
  refine ⟨?_, .var isVarTok (args_var _) env₁_value_b (env₁_acyclic _) (by simp) (.tok .nil), _,
    C27_substitution_partial subst_b (by decide)⟩
  intro x v h
  unfold env₁ at h
  split at h
  · cases h; exact .tok .nil
  · split at h
    · cases h; exact .var isVarTok (args_var _) env₁_value_a (env₁_acyclic _) (by simp) .nil
    · cases h

/-- Dependency cycles: if replacing the `var()`s of a value leads into custom properties that
lead back into one another, the value is an error, however long the cycle. `S` is the set of
properties on the cycle or behind it. -/
theorem C27_cycle_is_invalid {env : Env} {S : Text → Prop}
    (hS : ∀ x, S x → ∃ v y, Value env x v ∧ Follows env v y ∧ S y) {c : List Sst} {x : Text} (hf : Follows env c x) (hx : S x) :
    expand env c = none := by
  unfold expand
  rw [cycle_none hS 32 hf hx]
  rfl

/-- `--a: var(--b); --b: f(var(--a))` -/
def env₂ : Env := fun x =>
  if x = u "--a" then some [var (u "--b")] else if x = u "--b" then some [.func ⟨.func, u "f("⟩ [var (u "--a")]] else none

example : expand env₂ [word "x", var (u "--a")] = none := by
  refine C27_cycle_is_invalid (S := fun x => x = u "--a" ∨ x = u "--b") ?_ (.later (.here isVarTok (args_var _))) (.inl rfl)
  rintro x (rfl | rfl)
  · exact ⟨_, u "--b", ⟨rfl, by intro s r h; cases h; rfl⟩, .here isVarTok (args_var _), .inr rfl⟩
  · exact ⟨_, u "--a", ⟨rfl, by intro s r h; cases h; rfl⟩, .inFunc (by rintro ⟨_, h⟩; exact absurd h (by decide))
      (.here isVarTok (args_var _)), .inl rfl⟩

/-- The property takes its inherited or initial value when the `var()`s of its declaration
cannot be replaced, or what they give cannot be read. -/
theorem C27_invalid_at_computed_time {V : Type} (reg : Reg V) (env : Env) (parent : V) (ds : List (List Sst)) (c : List Sst)
    (hdef : parseDefaulted (eatWs c) = none) (hp : reg.parse (eatWs c) = none)
    (h : expand env c = none ∨ ∃ o, expand env c = some o ∧ reg.parse o = none) :
    valueOf reg env parent (ds ++ [c]) = .ok (if reg.inherited then parent else reg.initial) := by
  unfold valueOf parseValue
  rw [List.getLast?_append]
  simp only [List.getLast?_singleton, Option.some_or, hdef, hp, applyDeclared]
  rcases h with h | ⟨o, h, h'⟩
  · rw [h]; rfl
  · rw [h]; simp only [h']; rfl

/-- A parser that only reads `red`. -/
def regRed : Reg Nat where
  parse
    | s :: r => if s.isIdent (u "red") then some (1, r) else none
    | [] => none
  initial := 0
  inherited := true

example : valueOf regRed env₂ 7 [[word "red"], [var (u "--a")]] = .ok 7 := by
  refine C27_invalid_at_computed_time regRed env₂ 7 [[word "red"]] [var (u "--a")] (by decide) (by decide) (.inl ?_)
  exact C27_cycle_is_invalid (S := fun x => x = u "--a" ∨ x = u "--b") (by
    rintro x (rfl | rfl)
    · exact ⟨_, u "--b", ⟨rfl, by intro s r h; cases h; rfl⟩, .here isVarTok (args_var _), .inr rfl⟩
    · exact ⟨_, u "--a", ⟨rfl, by intro s r h; cases h; rfl⟩, .inFunc (by rintro ⟨_, h⟩; exact absurd h (by decide))
        (.here isVarTok (args_var _)), .inl rfl⟩) (.here isVarTok (args_var _)) (.inl rfl)

/-! ### Where C27 fails -/

/-- `--0: var(--1); --1: var(--2); …; --N: red` -/
def chain (N : Nat) : Env
  | [i] => if i < N then some [var [i + 1]] else if i = N then some [word "red"] else none
  | _ => none

theorem chain_acyclic (N : Nat) (x : Text) : ¬ Cyclic (chain N) x := by
  have step : ∀ {x v y}, chain N x = some v → Mentions v y → ∃ i, x = [i] ∧ y = [i + 1] := by
    intro x v y hv hm
    match x, hv with
    | [i], hv =>
      dsimp only [chain] at hv
      split at hv
      · cases hv; exact ⟨i, rfl, mentions_var hm⟩
      · split at hv
        · cases hv; exact absurd hm mentions_word
        · cases hv
    | [], hv => cases hv
    | _ :: _ :: _, hv => cases hv
  have all : ∀ {x y}, Leads (chain N) x y → ∃ i j, x = [i] ∧ y = [j] ∧ i < j := by
    intro x y h
    induction h with
    | one hv hm =>
      obtain ⟨i, rfl, rfl⟩ := step hv hm
      exact ⟨i, i + 1, rfl, rfl, by omega⟩
    | more hv hm hl ih =>
      obtain ⟨i, rfl, rfl⟩ := step hv hm
      obtain ⟨i', j, e, rfl, h⟩ := ih
      cases e
      exact ⟨i, j, rfl, rfl, by omega⟩
  intro h
  obtain ⟨i, j, rfl, e, h⟩ := all h
  cases e
  omega

theorem chain_subst (N k i : Nat) (h : i + k = N) : Subst true (chain N) (k + 1) [var [i]] [word "red"] := by
  have last : Value (chain N) [N] [word "red"] := ⟨by simp [chain], by intro s r h; cases h; rfl⟩
  induction k generalizing i with
  | zero =>
    have : i = N := by omega
    subst this
    exact .var (o' := [word "red"]) (o := []) isVarTok (args_var _) last (chain_acyclic _ _) (fun _ => by simp) (.tok .nil) .nil
  | succ k ih =>
    have hv : Value (chain N) [i] [var [i + 1]] := ⟨by simp [chain, show i < N by omega], by intro s r h; cases h; rfl⟩
    exact .var (o' := [word "red"]) (o := []) isVarTok (args_var _) hv (chain_acyclic _ _) (fun _ => by simp) (ih (i + 1) (by omega)) .nil

/-- **C27** fails: a chain of 32 variables and more, without any cycle, is an error. -/
theorem C27_long_chain_fails (N : Nat) (hN : 31 ≤ N) :
    (∃ n, Subst true (chain N) n [var [0]] [word "red"]) ∧ expand (chain N) [var [0]] = none := by
  refine ⟨⟨_, chain_subst N N 0 (by omega)⟩, ?_⟩
  have step : ∀ n i, i + n ≤ N + 1 → expandContent (chain N) n [var [i]] = none := by
    intro n
    induction n with
    | zero => intros; rfl
    | succ n ih =>
      intro i hi
      show expandItems (chain N) (expandContent (chain N) n) [.func varTok _] = none
      rw [items_var isVarTok]
      by_cases h : i < N
      · rw [args_value (args_var [i]) (v := [var [i + 1]]) ⟨by simp [chain, h], by intro s r h; cases h; rfl⟩ (by simp),
          ih (i + 1) (by omega)]
      · have h1 : i = N := by omega
        have h2 : n = 0 := by omega
        subst h1 h2
        rw [args_value (args_var [i]) (v := [word "red"]) ⟨by simp [chain], by intro s r h; cases h; rfl⟩ (by simp)]
        rfl
  unfold expand
  rw [step 32 0 (by omega)]
  rfl

/-- **C27** fails: a `var()` that has neither value nor fallback makes the declaration invalid;
the code drops the `var()` and keeps the rest. -/
theorem C27_missing_variable_fails {env : Env} {f : Tok} {c : List Sst} {x : Text} (hf : Var f) (ha : Args c x none)
    (hv : ∀ v, ¬ Value env x v) (r : List Sst) :
    (∀ n o, ¬ Subst false env n (.func f c :: r) o) ∧ expand env (.func f c :: r) = expand env r := by
  constructor
  · intro n o h
    have uniq : ∀ {fb y}, Args c y fb → y = x := by
      intro fb y hy
      have e1 : ∀ {c y fb}, Args c y fb → ∃ t r, eatWs c = .tok t :: r ∧ t.data = y := by
        intro c y fb h
        cases h with
        | name h1 h2 h3 => exact ⟨_, _, by rw [eatWs_blank h1, tok_not_ws (by rw [h2]; decide)], rfl⟩
        | fallback h1 h2 h3 h4 => exact ⟨_, _, by rw [eatWs_blank h1, tok_not_ws (by rw [h2]; decide)], rfl⟩
      obtain ⟨t, r, h1, rfl⟩ := e1 hy
      obtain ⟨t', r', h2, rfl⟩ := e1 ha
      rw [h1] at h2
      cases h2; rfl
    cases h with
    | func hnv => exact hnv hf
    | var _ ha' hv' => rw [uniq ha'] at hv'; exact hv _ hv'
    | @fallback _ _ _ x' fb _ _ _ _ ha' =>
      have nf : ∀ {c y fb}, Args c y (some fb) → ∃ t r k r', eatWs c = .tok t :: r ∧ eatWs r = .tok k :: r' := by
        intro c y fb h
        cases h with
        | fallback h1 h2 h3 h4 =>
          exact ⟨_, _, _, _, by rw [eatWs_blank h1, tok_not_ws (by rw [h2]; decide)], by
            rw [eatWs_blank h3, tok_not_ws (by rw [h4]; decide)]⟩
      obtain ⟨t, r, k, r', h1, h2⟩ := nf ha'
      cases ha with
      | @name w₁ t' w₂ g1 g2 g3 =>
        rw [eatWs_blank g1, tok_not_ws (by rw [g2]; decide)] at h1
        cases h1
        have := eatWs_blank g3 []
        rw [List.append_nil] at this
        rw [this] at h2
        cases h2
  · unfold expand
    show (expandItems env (expandContent env 31) (.func f c :: r)).map eatWs = (expandItems env (expandContent env 31) r).map eatWs
    rw [items_var hf, args_nothing ha hv]
    simp

/-- `var(--z) x` without `--z` is `x`. -/
example : expand env₁ [var (u "--z"), word "x"] = expand env₁ [word "x"] :=
  (C27_missing_variable_fails isVarTok (args_var (u "--z")) (by rintro v ⟨h, _⟩; cases h) [word "x"]).2

/-- **C27** fails: within brackets `var()` is left as it is. -/
theorem C27_block_fails : Subst false env₁ 1 [.block [var (u "--a")]] [.block [word "red"]] ∧
    expand env₁ [.block [var (u "--a")]] = some [.block [var (u "--a")]] := by
  refine ⟨.block (b' := [word "red"]) ?_ (by intro h; cases h) .nil, rfl⟩
  exact .var (n := 0) (o' := [word "red"]) (o := []) isVarTok (args_var _) env₁_value_a (env₁_acyclic _) (by intro h; cases h)
    (.tok .nil) .nil

/-- `--a: var(--a)` -/
def env₃ : Env := fun x => if x = u "--a" then some [var (u "--a")] else none

/-- **C27** fails: a property in a cycle has no value, so the fallback counts; the code gives
an error. -/
theorem C27_cycle_with_fallback_fails : Subst false env₃ 1 [varOr (u "--a") [word "red"]] [word "red"] ∧
    expand env₃ [varOr (u "--a") [word "red"]] = none := by
  refine ⟨?_, C27_cycle_is_invalid (S := fun x => x = u "--a") ?_ (.here isVarTok (args_varOr _ _)) rfl⟩
  · refine .fallback (n := 0) (o' := [word "red"]) (o := []) isVarTok (args_varOr _ _) (.inr ⟨rfl, ?_⟩) (.tok .nil) .nil
    exact .one (v := [var (u "--a")]) rfl (.here (w := []) (t := ⟨.ident, u "--a"⟩) (a := []) isVarTok blank_nil rfl)
  · rintro x rfl
    exact ⟨_, u "--a", ⟨rfl, by intro s r h; cases h; rfl⟩, .here isVarTok (args_var _), rfl⟩

/-- **C27** fails: a custom property with an empty value is treated as if it had none. -/
theorem C27_empty_value_fails : ∃ env : Env, Subst false env 1 [varOr (u "--a") [word "red"]] [] ∧
    expand env [varOr (u "--a") [word "red"]] = some [word "red"] := by
  refine ⟨fun x => if x = u "--a" then some [] else none, ?_, rfl⟩
  refine .var (n := 0) (o' := []) (o := []) (v := []) isVarTok (args_varOr _ _) ⟨rfl, by intro s r h; cases h⟩ ?_ (by intro h; cases h)
    .nil .nil
  intro h
  have all : ∀ {x y}, ¬ Leads (fun x => if x = u "--a" then some [] else none) x y := by
    intro x y h
    cases h with
    | one hv hm =>
      split at hv
      · cases hv; cases hm
      · cases hv
    | more hv hm _ =>
      split at hv
      · cases hv; cases hm
      · cases hv
  exact all h

/-- **C27** fails as stated. -/
theorem C27_fails : ¬ ∀ (env : Env) (n : Nat) (c o : List Sst), Subst false env n c o → expand env c = some (eatWs o) := by
  intro h
  have := h _ _ _ _ C27_cycle_with_fallback_fails.1
  rw [C27_cycle_with_fallback_fails.2] at this
  cases this

/-! ## C65: custom properties are resolved where they are declared -/

/-- **C65**, the part that holds: a value gives the same on a child as on its parent when the
child declares none of the custom properties that the value leads to. -/
theorem C65_inherited_custom_property_partial (own parent : Env) (c : List Sst)
    (hc : ∀ y, Mentions c y → own y = none) (hl : ∀ x y, Mentions c x → Leads parent x y → own y = none) :
    expand (childEnv own parent) c = expand parent c := by
  unfold expand
  have e1 : ∀ x, own x = none → childEnv own parent x = parent x := by
    intro x hx
    unfold childEnv
    rw [hx]; rfl
  have snoc : ∀ {x y z v}, Leads parent x y → parent y = some v → Mentions v z → Leads parent x z := by
    intro x y z v h hv hm
    induction h with
    | one h1 h2 => exact .more h1 h2 (.one hv hm)
    | more h1 h2 _ ih => exact .more h1 h2 (ih hv)
  rw [expand_congr (S := fun y => Mentions c y ∨ ∃ x, Mentions c x ∧ Leads parent x y) (env' := parent)]
  · rintro x (h | ⟨z, h, h'⟩)
    · exact e1 x (hc x h)
    · exact e1 x (hl z x h h')
  · rintro x v y (h | ⟨z, h, h'⟩) hv hm
    · rw [e1 x (hc x h)] at hv
      exact .inr ⟨x, h, .one hv hm⟩
    · rw [e1 x (hl z x h h')] at hv
      exact .inr ⟨z, h, snoc h' hv hm⟩
  · exact fun y h => .inl h

/-- The child declares `--c`, which the value does not need. -/
example : expand (childEnv (fun x => if x = u "--c" then some [word "blue"] else none) env₁) [var (u "--b")] = some [word "red"] := by
  rw [C65_inherited_custom_property_partial]
  · exact C27_substitution_partial (n := 2) (.var (n := 1) (o' := [word "red"]) (o := []) isVarTok (args_var _) env₁_value_b (env₁_acyclic _)
      (fun _ => by simp) subst_a .nil) (by decide)
  · intro y h
    rw [mentions_var h]; decide
  · intro x y h hl
    rw [mentions_var h] at hl
    have : y = u "--a" := by
      cases hl with
      | one hv hm => cases hv; exact mentions_var hm
      | more hv hm hl =>
        cases hv
        rw [mentions_var hm] at hl
        cases hl with
        | one hv hm => cases hv; exact absurd hm mentions_word
        | more hv hm => cases hv; exact absurd hm mentions_word
    rw [this]; decide

/-- **C65** fails: `--b: var(--a)` on the parent, `--a: blue` on the child. The child's `var(--b)`
is blue, not the parent's red. -/
theorem C65_fails : ¬ ∀ (own parent : Env) (x : Text), own x = none → expand (childEnv own parent) [var x] = expand parent [var x] := by
  intro h
  have := h (fun x => if x = u "--a" then some [word "blue"] else none) env₁ (u "--b") (by decide)
  have e : ∀ o : Option (List Sst), o = some [word "blue"] → (o.map fun l => l.all (·.isIdent (u "red"))) = some false := by
    intro o h; rw [h]; decide
  have h1 := e _ (show expand (childEnv (fun x => if x = u "--a" then some [word "blue"] else none) env₁) [var (u "--b")] = some [word "blue"] from by rfl)
  rw [this] at h1
  exact absurd h1 (by decide +kernel)

/-! ## C63: invalid declarations -/

/-- The declaration is not valid for the property: it is no CSS-wide keyword, mentions no custom
property, and its items are not read to the end. -/
def Invalid {V : Type} (reg : Reg V) (c : List Sst) : Prop :=
  (∀ s r w, eatWs c = s :: r → w ∈ [u "initial", u "inherit", u "unset", u "revert"] → s.isIdent w = false) ∧
  (∀ x, ¬ Mentions c x) ∧ ∀ v r, reg.parse (eatWs c) = some (v, r) → eatWs r ≠ []

/-- **C63**, the part that holds: the last of several declarations that the property reads to the
end has effect. Missing: see `C63_invalid_declaration_resets`, `C63_trailing_items_ignored`. -/
theorem C63_last_valid_wins_partial {V : Type} (reg : Reg V) (env : Env) (parent : V) (ds : List (List Sst)) (c : List Sst) (v : V)
    (r : List Sst) (hk : ∀ s r w, eatWs c = s :: r → w ∈ [u "initial", u "inherit", u "unset", u "revert"] → s.isIdent w = false)
    (hp : reg.parse (eatWs c) = some (v, r)) (hr : eatWs r = []) :
    valueOf reg env parent (ds ++ [c]) = .ok v := by
  have hd : parseDefaulted (eatWs c) = none := by
    cases e : eatWs c with
    | nil => rfl
    | cons s r' =>
      have := fun w => hk s r' w e
      simp [parseDefaulted, this]
  unfold valueOf parseValue
  rw [List.getLast?_append]
  simp only [List.getLast?_singleton, Option.some_or, hd, hp, hr]
  rfl

example : valueOf regRed env₁ 7 [[word "blue"], [word "red"]] = .ok 1 := by
  refine C63_last_valid_wins_partial regRed env₁ 7 [[word "blue"]] [word "red"] 1 [] ?_ rfl rfl
  intro s r w h
  cases h
  revert w
  decide

/-- CSS-wide keywords have their meaning, whatever other declarations there are. -/
theorem C63_wide_keywords {V : Type} (reg : Reg V) (env : Env) (parent : V) (ds : List (List Sst)) :
    valueOf reg env parent (ds ++ [[word "initial"]]) = .ok reg.initial ∧
    valueOf reg env parent (ds ++ [[word "inherit"]]) = .ok parent ∧
    valueOf reg env parent (ds ++ [[word "unset"]]) = .ok (if reg.inherited then parent else reg.initial) := by
  refine ⟨?_, ?_, ?_⟩ <;>
  · unfold valueOf
    rw [List.getLast?_append]
    rfl

theorem invalid_defaulted {V : Type} {reg : Reg V} {c : List Sst} (h : Invalid reg c) : parseDefaulted (eatWs c) = none := by
  cases e : eatWs c with
  | nil => rfl
  | cons s r =>
    have := fun w => h.1 s r w e
    simp [parseDefaulted, this]

/-- Without `var()` nothing is expanded. -/
theorem expand_plain (env : Env) (c : List Sst) (h : ∀ t x, Sst.func t x ∉ c) : expand env c = some (eatWs c) := by
  unfold expand
  show (expandItems env (expandContent env 31) c).map eatWs = _
  have : expandItems env (expandContent env 31) c = some c := by
    induction c with
    | nil => rfl
    | cons s r ih =>
      unfold expandItems
      rw [ih fun t x hm => h t x (List.mem_cons_of_mem _ hm)]
      cases s with
      | func t x => exact absurd (List.mem_cons_self ..) (h t x)
      | rule => rfl
      | decl => rfl
      | tok => rfl
      | block => rfl
  rw [this]; rfl

/-- **C63** fails: a declaration that the property cannot read, put after others, takes away
their effect: the property gets its inherited or initial value. -/
theorem C63_invalid_declaration_resets {V : Type} (reg : Reg V) (env : Env) (parent : V) (ds : List (List Sst)) (c : List Sst)
    (hf : ∀ t x, Sst.func t x ∉ c) (hi : Invalid reg c) (hp : reg.parse (eatWs c) = none) :
    valueOf reg env parent (ds ++ [c]) = .ok (if reg.inherited then parent else reg.initial) :=
  C27_invalid_at_computed_time reg env parent ds c (invalid_defaulted hi) hp (.inr ⟨_, expand_plain env c hf, hp⟩)

/-- **C63** fails: a declaration with items behind a readable value has effect all the same. -/
theorem C63_trailing_items_ignored {V : Type} (reg : Reg V) (env : Env) (parent : V) (ds : List (List Sst)) (c r : List Sst) (v : V)
    (hf : ∀ t x, Sst.func t x ∉ c) (hi : Invalid reg c) (hp : reg.parse (eatWs c) = some (v, r)) :
    valueOf reg env parent (ds ++ [c]) = .ok v := by
  have hr := hi.2.2 v r hp
  have hr : (eatWs r).isEmpty = false := by cases e : eatWs r <;> simp_all
  unfold valueOf parseValue
  rw [List.getLast?_append]
  simp only [List.getLast?_singleton, Option.some_or, invalid_defaulted hi, hp, hr, Bool.false_eq_true, if_false, applyDeclared,
    expand_plain env c hf]

theorem invalid_blue : Invalid regRed [word "blue"] := by
  refine ⟨?_, fun x => mentions_word, by intro v r h; cases h⟩
  intro s r w h
  cases h
  revert w
  decide

example : valueOf regRed env₁ 7 ([[word "red"]] ++ [[word "blue"]]) = .ok 7 :=
  C63_invalid_declaration_resets regRed env₁ 7 _ _ (by intro t x h; simp [word] at h) invalid_blue (by decide)

/-- **C63** fails as stated. -/
theorem C63_fails : ¬ ∀ (reg : Reg Nat) (env : Env) (parent : Nat) (ds : List (List Sst)) (c : List Sst), Invalid reg c →
    valueOf reg env parent (ds ++ [c]) = valueOf reg env parent ds := by
  intro h
  have := h regRed env₁ 7 [[word "red"]] _ invalid_blue
  exact absurd this (by decide)

/-! ## C64: no declaration crashes style computation -/

/-- **C64** fails: `revert` runs into `unreachable()`, for every property. -/
theorem C64_revert_crashes {V : Type} (reg : Reg V) (env : Env) (parent : V) (ds : List (List Sst)) (r : List Sst) :
    valueOf reg env parent (ds ++ [word "revert" :: r]) = .crash := by
  unfold valueOf
  rw [List.getLast?_append]
  rfl

/-- **C64**, the part that holds: nothing else does. -/
theorem C64_no_crash_partial {V : Type} (reg : Reg V) (env : Env) (parent : V) (ds : List (List Sst))
    (h : ∀ c ∈ ds, ∀ s r, eatWs c = s :: r → s.isIdent (u "revert") = false) :
    ∃ v, valueOf reg env parent ds = .ok v := by
  unfold valueOf
  cases e : ds.getLast? with
  | none => exact ⟨_, rfl⟩
  | some c =>
    have hc := h c (List.mem_of_getLast? e)
    dsimp only
    unfold parseValue
    dsimp only
    cases hd : parseDefaulted (eatWs c) with
    | none =>
      dsimp only
      have hdef : ∀ c', ∃ v, applyDeclared reg env parent (start reg parent) (.deferred c') = .ok v := by
        intro c'
        unfold applyDeclared
        dsimp only
        cases expand env c' with
        | none => exact ⟨_, rfl⟩
        | some o =>
          dsimp only
          cases reg.parse o with
          | none => exact ⟨_, rfl⟩
          | some x => exact ⟨_, rfl⟩
      cases reg.parse (eatWs c) with
      | none => exact hdef c
      | some x =>
        dsimp only
        split
        · exact ⟨_, rfl⟩
        · exact hdef c
    | some d =>
      cases d with
      | initial => exact ⟨_, rfl⟩
      | inherit => exact ⟨_, rfl⟩
      | unset => exact ⟨_, rfl⟩
      | revert =>
        exfalso
        cases e2 : eatWs c with
        | nil => rw [e2] at hd; cases hd
        | cons s r =>
          have := hc s r e2
          rw [e2] at hd
          dsimp only [parseDefaulted] at hd
          rw [this] at hd
          split at hd
          · cases hd
          · split at hd
            · cases hd
            · split at hd
              · cases hd
              · cases hd

example : ∃ v, valueOf regRed env₁ 7 [[word "inherit"], [word "blue", word "x"]] = .ok v :=
  C64_no_crash_partial regRed env₁ 7 _ (by
    intro c hc s r e
    rcases List.mem_cons.1 hc with rfl | hc
    · cases e; decide
    · rcases List.mem_cons.1 hc with rfl | hc
      · cases e; decide
      · cases hc)

/-! ## C66: `toggle()` -/

theorem toggleIndex_found {V : Type} (same : V → Bool) (pre : List V) (x : V) (post : List V) (hpre : ∀ v ∈ pre, same v = false)
    (hx : same x = true) (i : Nat) : toggleIndex same i (pre ++ x :: post) = i + pre.length + 1 := by
  induction pre generalizing i with
  | nil => simp [toggleIndex, hx]
  | cons v pre ih =>
    have hv := hpre v (List.mem_cons_self ..)
    simp only [List.cons_append, toggleIndex, hv, Bool.false_eq_true, if_false, List.length_cons]
    rw [ih fun v h => hpre v (List.mem_cons_of_mem _ h)]
    omega

theorem toggleIndex_none {V : Type} (same : V → Bool) (l : List V) (h : ∀ v ∈ l, same v = false) (i : Nat) :
    toggleIndex same i l = i + l.length := by
  induction l generalizing i with
  | nil => rfl
  | cons v l ih =>
    have hv := h v (List.mem_cons_self ..)
    simp only [toggleIndex, hv, Bool.false_eq_true, if_false, List.length_cons]
    rw [ih fun v h' => h v (List.mem_cons_of_mem _ h')]
    omega

/-- What `toggle()` means: behind the first option that computes to the parent's value comes the
next one, and the first again after the last; without such an option, the first. -/
inductive Toggled {V C : Type} (comp : V → C) (parent : C) : List V → Option V → Prop
  | next {pre x post} : (∀ v ∈ pre, comp v ≠ parent) → comp x = parent → Toggled comp parent (pre ++ x :: post) (post ++ (pre ++ [x])).head?
  | first {l} : (∀ v ∈ l, comp v ≠ parent) → Toggled comp parent l l.head?

theorem toggle_toggled {Cx V C : Type} [DecidableEq C] (computed : Cx → V → C) (cx₀ : Cx) (parent : C) {l : List V} {o : Option V}
    (h : Toggled (computed cx₀) parent l o) : toggle computed cx₀ parent l = o := by
  cases h with
  | @next pre x post hpre hx =>
    unfold toggle
    have hne : (pre ++ x :: post).isEmpty = false := by cases pre <;> rfl
    rw [hne]
    simp only [Bool.false_eq_true, if_false]
    rw [toggleIndex_found _ pre x post (by intro v hv; simpa using Ne.symm (hpre v hv)) (by simpa using hx.symm) 0]
    cases post with
    | nil =>
      have : (0 + pre.length + 1) % (pre ++ [x]).length = 0 := by simp
      rw [this]
      cases pre <;> rfl
    | cons y post =>
      have hlt : 0 + pre.length + 1 < (pre ++ x :: y :: post).length := by simp
      rw [Nat.mod_eq_of_lt hlt]
      simp
  | first h =>
    unfold toggle
    cases l with
    | nil => rfl
    | cons v l =>
      rw [toggleIndex_none _ _ (by intro v hv; simpa using Ne.symm (h v hv)) 0]
      simp

/-- **C66**, the part that holds: when what the options compute to does not depend on the element,
`toggle()` picks the option it should. Missing: options such as `1em`. -/
theorem C66_toggle_partial {Cx V C : Type} [DecidableEq C] (computed : Cx → V → C) (cx₀ cx : Cx) (parent : C) {l : List V} {o : Option V}
    (hcx : ∀ v ∈ l, computed cx v = computed cx₀ v) (h : Toggled (computed cx) parent l o) :
    toggle computed cx₀ parent l = o := by
  apply toggle_toggled
  cases h with
  | next hpre hx =>
    refine .next (fun v hv => ?_) ?_
    · rw [← hcx v (by simp [hv])]; exact hpre v hv
    · rw [← hcx _ (by simp)]; exact hx
  | first h => exact .first fun v hv => by rw [← hcx v hv]; exact h v hv

example : toggle (fun (_ : Unit) (v : Nat) => v) () 3 [1, 2, 3] = some 1 :=
  C66_toggle_partial _ () () 3 (fun _ _ => rfl) (.next (pre := [1, 2]) (x := 3) (post := []) (by decide) rfl)

/-- **C66** fails: `font-size: toggle(1em, 2em)` in a parent of 20px: the options compute to 20px and
40px, but are compared as 16px and 32px (`FontSizeContextData`, values/font.cpp lines 277–280). -/
theorem C66_fails : ¬ ∀ (computed : Nat → Nat → Nat) (cx₀ cx parent : Nat) (l : List Nat) (o : Option Nat),
    Toggled (computed cx) parent l o → toggle computed cx₀ parent l = o := by
  intro h
  have := h (fun cx v => cx * v) 16 20 20 [1, 2] (some 2) (.next (pre := []) (x := 1) (post := [2]) (by simp) rfl)
  exact absurd this (by decide)

end Verif.Decl
