import Verif.Decl.Var
import Verif.Decl.VarSpec

namespace Verif.Decl
open Verif.Css Spec

theorem isVar_iff (f : Tok) : isVar f = true ↔ Var f := by
  have : (u "var(").map lower = u "var(" := by decide
  simp only [isVar, Tok.same, eqCi, Bool.and_eq_true, beq_iff_eq, this, Var]

theorem tok_not_ws {t : Tok} (h : t.type ≠ .ws) (r : List Sst) : eatWs (.tok t :: r) = .tok t :: r := by
  unfold eatWs
  rw [if_neg (by simp [Sst.is, h])]

/-- Reading the name in the arguments. -/
theorem args_name {w : List Sst} (hw : Blank w) {t : Tok} (ht : t.type = .ident) (r : List Sst) (env : Env)
    (deeper : List Sst → Option (List Sst)) : expandVariable env deeper (w ++ .tok t :: r) =
      match env t.data with
      | some (v :: vs) => if v.is .invalid then expandFallback deeper r else deeper (v :: vs)
      | _ => expandFallback deeper r := by
  unfold expandVariable
  rw [eatWs_blank hw, tok_not_ws (by rw [ht]; decide)]
  dsimp only
  rw [if_pos ht]
  rfl

theorem fallback_none {w : List Sst} (hw : Blank w) (deeper : List Sst → Option (List Sst)) : expandFallback deeper w = some [] := by
  unfold expandFallback
  have := eatWs_blank hw []
  rw [List.append_nil] at this
  rw [this]
  rfl

theorem fallback_some {w : List Sst} (hw : Blank w) {k : Tok} (hk : k.type = .comma) (fb : List Sst)
    (deeper : List Sst → Option (List Sst)) : expandFallback deeper (w ++ .tok k :: fb) = deeper fb := by
  unfold expandFallback
  rw [eatWs_blank hw, tok_not_ws (by rw [hk]; decide)]
  dsimp only
  rw [if_pos (by simp [Sst.is, hk])]

/-- A value that is not empty is taken. -/
theorem args_value {c : List Sst} {x : Text} {fb : Option (List Sst)} (h : Args c x fb) {env : Env} {v : List Sst}
    (hv : Value env x v) (hne : v ≠ []) (deeper : List Sst → Option (List Sst)) : expandVariable env deeper c = deeper v := by
  have key : ∀ {w : List Sst} {t : Tok} (r : List Sst), Blank w → t.type = .ident → Value env t.data v →
      expandVariable env deeper (w ++ .tok t :: r) = deeper v := by
    intro w t r hw ht hv
    rw [args_name hw ht, hv.1]
    cases v with
    | nil => exact absurd rfl hne
    | cons s vs => simp [hv.2 s vs rfl]
  cases h with
  | name h1 h2 h3 => exact key _ h1 h2 hv
  | fallback h1 h2 h3 h4 => exact key _ h1 h2 hv

theorem no_value {env : Env} {x : Text} (h : ∀ v, ¬ Value env x v) {α : Type} (a : Sst → List Sst → α) (b : α) :
    (match env x with
      | some (v :: vs) => if v.is .invalid then b else a v vs
      | _ => b) = b := by
  cases e : env x with
  | none => rfl
  | some v =>
    cases v with
    | nil => rfl
    | cons s vs =>
      dsimp only
      by_cases hs : s.is .invalid = true
      · rw [if_pos hs]
      · refine absurd ⟨e, ?_⟩ (h (s :: vs))
        intro s' r' e'
        cases e'
        simpa using hs

theorem args_fallback {c : List Sst} {x : Text} {fb : List Sst} (h : Args c x (some fb)) {env : Env} (hv : ∀ v, ¬ Value env x v)
    (deeper : List Sst → Option (List Sst)) : expandVariable env deeper c = deeper fb := by
  cases h with
  | fallback h1 h2 h3 h4 =>
    rw [args_name h1 h2, no_value hv (fun v vs => deeper (v :: vs)), fallback_some h3 h4]

theorem args_nothing {c : List Sst} {x : Text} (h : Args c x none) {env : Env} (hv : ∀ v, ¬ Value env x v)
    (deeper : List Sst → Option (List Sst)) : expandVariable env deeper c = some [] := by
  cases h with
  | name h1 h2 h3 => rw [args_name h1 h2, no_value hv (fun v vs => deeper (v :: vs)), fallback_none h3]

theorem items_tok {env : Env} {deeper : List Sst → Option (List Sst)} {t : Tok} {r : List Sst} :
    expandItems env deeper (.tok t :: r) = (expandItems env deeper r).map ([.tok t] ++ ·) := by
  conv => lhs; unfold expandItems
  simp only [expandItem]

theorem items_block {env : Env} {deeper : List Sst → Option (List Sst)} {b r : List Sst} :
    expandItems env deeper (.block b :: r) = (expandItems env deeper r).map ([.block b] ++ ·) := by
  conv => lhs; unfold expandItems
  simp only [expandItem]

theorem items_func {env : Env} {deeper : List Sst → Option (List Sst)} {f : Tok} (hf : ¬ Var f) {b r : List Sst} :
    expandItems env deeper (.func f b :: r) =
      match (expandItems env deeper b).map fun out => [Sst.func f out] with
      | none => none
      | some a => (expandItems env deeper r).map (a ++ ·) := by
  conv => lhs; unfold expandItems
  simp only [expandItem]
  rw [if_neg (fun h => hf ((isVar_iff f).1 h))]
  rfl

theorem items_var {env : Env} {deeper : List Sst → Option (List Sst)} {f : Tok} (hf : Var f) {c r : List Sst} :
    expandItems env deeper (.func f c :: r) =
      match expandVariable env deeper c with
      | none => none
      | some a => (expandItems env deeper r).map (a ++ ·) := by
  conv => lhs; unfold expandItems
  simp only [expandItem]
  rw [if_pos ((isVar_iff f).2 hf)]
  rfl

/-- What the code does is what is meant, as long as `var()` nests less than 32 deep. -/
theorem subst_expand {env : Env} {n : Nat} {c o : List Sst} (h : Subst true env n c o) :
    ∀ m, n ≤ m → expandItems env (expandContent env m) c = some o := by
  induction h with
  | nil => intros; rfl
  | tok _ ih => intro m hm; rw [items_tok, ih m hm]; rfl
  | block _ he _ _ ih => intro m hm; rw [items_block, ih m hm, he rfl]; rfl
  | func hf _ _ ih1 ih2 => intro m hm; rw [items_func hf, ih1 m hm, ih2 m hm]; rfl
  | @var n f c x fb v o' r o hf ha hv _ hne _ _ ih1 ih2 =>
    intro m hm
    rw [items_var hf, args_value ha hv (hne rfl)]
    cases m with
    | zero => omega
    | succ m =>
      have := ih1 m (by omega)
      rw [show expandContent env (m + 1) v = some o' from this, ih2 _ hm]
      rfl
  | @fallback n f c x fb o' r o hf ha hv _ _ ih1 ih2 =>
    intro m hm
    have hv : ∀ v, ¬ Value env x v := by
      rcases hv with hv | ⟨h, _⟩
      · exact hv
      · cases h
    rw [items_var hf, args_fallback ha hv]
    cases m with
    | zero => omega
    | succ m =>
      have := ih1 m (by omega)
      rw [show expandContent env (m + 1) fb = some o' from this, ih2 _ hm]
      rfl

theorem Spec.Subst.more {strict : Bool} {env : Env} {n : Nat} {c o : List Sst} (h : Subst strict env n c o) :
    ∀ m, n ≤ m → Subst strict env m c o := by
  induction h with
  | nil => intros; exact .nil
  | tok _ ih => intro m hm; exact .tok (ih m hm)
  | block _ he _ ih1 ih2 => intro m hm; exact .block (ih1 m hm) he (ih2 m hm)
  | func hf _ _ ih1 ih2 => intro m hm; exact .func hf (ih1 m hm) (ih2 m hm)
  | var hf ha hv hc hne _ _ ih1 ih2 =>
    intro m hm
    cases m with
    | zero => omega
    | succ m => exact .var hf ha hv hc hne (ih1 m (by omega)) (ih2 _ hm)
  | fallback hf ha hv _ _ ih1 ih2 =>
    intro m hm
    cases m with
    | zero => omega
    | succ m => exact .fallback hf ha hv (ih1 m (by omega)) (ih2 _ hm)

/-- What the code gives for tidy values is what is meant. -/
theorem expand_subst {env : Env} (henv : ∀ x v, env x = some v → Tidy env v) (n : Nat) {c o : List Sst} (hc : Tidy env c)
    (h : expandContent env n c = some o) : Subst true env n c o := by
  induction n generalizing c o with
  | zero =>
    cases c with
    | nil => cases h; exact .nil
    | cons s r => cases h
  | succ n ih =>
    have key : ∀ {c}, Tidy env c → ∀ {o}, expandItems env (expandContent env n) c = some o → Subst true env (n + 1) c o := by
      intro c hc
      induction hc with
      | nil => intro o h; cases h; exact .nil
      | @tok t r _ ih1 =>
        intro o h
        rw [items_tok] at h
        obtain ⟨o', h1, rfl⟩ := Option.map_eq_some_iff.1 h
        exact .tok (ih1 h1)
      | @block b r hb _ ih1 =>
        intro o h
        rw [items_block] at h
        obtain ⟨o', h1, rfl⟩ := Option.map_eq_some_iff.1 h
        exact .block (hb.more _ (by omega)) (fun _ => rfl) (ih1 h1)
      | @func f b r hf _ _ ih1 ih2 =>
        intro o h
        rw [items_func hf] at h
        cases e : expandItems env (expandContent env n) b with
        | none => rw [e] at h; cases h
        | some b' =>
          rw [e] at h
          obtain ⟨o', h1, rfl⟩ := Option.map_eq_some_iff.1 h
          exact .func hf (ih1 e) (ih2 h1)
      | @var f c x fb v r hf ha hv hcy hne _ ih1 =>
        intro o h
        rw [items_var hf, args_value ha hv hne] at h
        cases e : expandContent env n v with
        | none => rw [e] at h; cases h
        | some b' =>
          rw [e] at h
          obtain ⟨o', h1, rfl⟩ := Option.map_eq_some_iff.1 h
          exact .var hf ha hv hcy (fun _ => hne) (ih (henv _ _ hv.1) e) (ih1 h1)
      | @fallback f c x fb r hf ha hv htf _ _ ih1 =>
        intro o h
        rw [items_var hf, args_fallback ha hv] at h
        cases e : expandContent env n fb with
        | none => rw [e] at h; cases h
        | some b' =>
          rw [e] at h
          obtain ⟨o', h1, rfl⟩ := Option.map_eq_some_iff.1 h
          exact .fallback hf ha (.inl hv) (ih htf e) (ih1 h1)
    exact key hc h

/-- Cycles that are followed are never expanded. -/
theorem cycle_none {env : Env} {S : Text → Prop}
    (hS : ∀ x, S x → ∃ v y, Value env x v ∧ Follows env v y ∧ S y) (n : Nat) {c : List Sst} {x : Text}
    (hf : Follows env c x) (hx : S x) : expandContent env n c = none := by
  induction n generalizing c x with
  | zero => cases hf <;> rfl
  | succ n ih =>
    have key : ∀ {c x}, Follows env c x → S x → expandItems env (expandContent env n) c = none := by
      intro c x hf hx
      induction hf with
      | @here f c x fb r hv ha =>
        obtain ⟨v, y, h1, h2, h3⟩ := hS x hx
        have hne : v ≠ [] := by rintro rfl; cases h2
        rw [items_var hv, args_value ha h1 hne, ih h2 h3]
      | @fallback f c x fb y r hv ha hno hfb _ => rw [items_var hv, args_fallback ha hno, ih hfb hx]
      | @inFunc f c x r hnv _ ih1 => rw [items_func hnv, ih1 hx]; rfl
      | @later s r x _ ih1 =>
        unfold expandItems
        rw [ih1 hx]
        split <;> rfl
    exact key hf hx

/-- Only the custom properties that are mentioned matter. -/
theorem expand_congr {env env' : Env} {S : Text → Prop} (heq : ∀ x, S x → env x = env' x)
    (hclosed : ∀ x v y, S x → env x = some v → Mentions v y → S y) (n : Nat) (c : List Sst) (hc : ∀ y, Mentions c y → S y) :
    expandContent env n c = expandContent env' n c := by
  induction n generalizing c with
  | zero => cases c <;> rfl
  | succ n ih =>
    have fb : ∀ r, (∀ y, Mentions r y → S y) → expandFallback (expandContent env n) r = expandFallback (expandContent env' n) r := by
      intro r hr
      unfold expandFallback
      obtain ⟨w, hw, e⟩ := eatWs_split r
      cases e2 : eatWs r with
      | nil => rfl
      | cons k f =>
        dsimp only
        split
        · refine ih f fun y hy => hr y ?_
          rw [e, e2]
          clear e hr hw
          induction w with
          | nil => exact .later hy
          | cons a w ihw => exact .later ihw
        · rfl
    have vr : ∀ f c r, Var f → (∀ y, Mentions (.func f c :: r) y → S y) →
        expandVariable env (expandContent env n) c = expandVariable env' (expandContent env' n) c := by
      intro f c r hf hc
      unfold expandVariable
      obtain ⟨w, hw, e⟩ := eatWs_split c
      cases e2 : eatWs c with
      | nil => rfl
      | cons k a =>
        cases k with
        | tok t =>
          dsimp only
          split
          · rename_i ht
            rw [e2] at e
            have hS : S t.data := hc _ (by rw [e]; exact .here hf hw ht)
            have hfb := fb a (fun y hy => hc y (.inFunc (by
              rw [e]
              clear e hc hw
              induction w with
              | nil => exact .later hy
              | cons b w ihw => exact .later ihw)))
            rw [← heq _ hS]
            cases e3 : env t.data with
            | none => exact hfb
            | some v =>
              cases v with
              | nil => exact hfb
              | cons s vs =>
                dsimp only
                split
                · exact hfb
                · exact ih _ fun y hy => hclosed _ _ y hS e3 hy
          · rfl
        | rule => rfl
        | func => rfl
        | decl => rfl
        | block => rfl
    show expandItems env (expandContent env n) c = expandItems env' (expandContent env' n) c
    have items : ∀ (k : Nat) (c : List Sst), sizeOf c ≤ k → (∀ y, Mentions c y → S y) →
        expandItems env (expandContent env n) c = expandItems env' (expandContent env' n) c := by
      intro k
      induction k with
      | zero => intro c hk; cases c <;> simp at hk
      | succ k ihk =>
        intro c hk hc
        cases c with
        | nil => rfl
        | cons s r =>
          have hr := ihk r (by simp at hk; omega) (fun y hy => hc y (.later hy))
          cases s with
          | tok t => rw [items_tok, items_tok, hr]
          | block b => rw [items_block, items_block, hr]
          | rule a b d =>
            unfold expandItems
            rw [hr]
            simp only [expandItem]
          | decl a b d =>
            unfold expandItems
            rw [hr]
            simp only [expandItem]
          | func f b =>
            by_cases hf : Var f
            · rw [items_var hf, items_var hf, hr, vr f b r hf hc]
            · rw [items_func hf, items_func hf, hr, ihk b (by simp at hk; omega) fun y hy => hc y (.inFunc hy)]
    exact items _ c (Nat.le_refl _) hc

end Verif.Decl
