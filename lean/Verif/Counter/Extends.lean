import Verif.Counter.Fallback
/-! # Resolving `extends` -/
namespace Verif.Counter

theorem look_nil {α : Type} (n : Name) : look ([] : List (Name × α)) n = none := rfl

theorem look_cons {α : Type} (k : Name) (a : α) (m : List (Name × α)) (n : Name) :
    look ((k, a) :: m) n = if k = n then some a else look m n := by
  unfold look
  by_cases h : k = n <;> simp [h]

theorem look_append {α : Type} (a b : List (Name × α)) (n : Name) :
    look (a ++ b) n = (look a n).orElse (fun _ => look b n) := by
  induction a with
  | nil => simp [look_nil]
  | cons x a ih =>
    obtain ⟨k, v⟩ := x
    rw [List.cons_append, look_cons, look_cons, ih]
    split <;> simp

theorem look_map {α : Type} (m : List (Name × α)) (n : Name) (a : α) (n' : Name) :
    look (m.map (fun kv => if kv.1 = n then (n, a) else kv)) n' =
      if n' = n then (look m n').map (fun _ => a) else look m n' := by
  induction m with
  | nil => simp [look_nil]
  | cons x m ih =>
    obtain ⟨k, v⟩ := x
    rw [List.map_cons]
    by_cases hk : k = n
    · subst hk
      simp only [if_true]
      rw [look_cons, look_cons, ih]
      by_cases h : k = n'
      · simp [h]
      · have : ¬ n' = k := fun e => h e.symm
        simp [h, this]
    · simp only [hk, if_false]
      rw [look_cons, look_cons, ih]
      by_cases h : k = n'
      · subst h; simp [hk]
      · simp [h]

theorem look_put {α : Type} (m : List (Name × α)) (n : Name) (a : α) (n' : Name) :
    look (put m n a) n' = if n' = n then some a else look m n' := by
  unfold put
  split
  · rename_i h
    rw [look_map]
    by_cases e : n' = n
    · subst e
      obtain ⟨x, hx⟩ := Option.isSome_iff_exists.1 h
      simp [hx]
    · simp [e]
  · rename_i h
    rw [look_append, look_cons, look_nil]
    by_cases e : n' = n
    · subst e
      have : look m n' = none := by
        cases hl : look m n' with
        | none => rfl
        | some x => simp [hl] at h
      simp [this]
    · have : ¬ n = n' := fun e' => e e'.symm
      simp [e, this]

/-- `n` extends `m` by one or more steps. -/
inductive Reaches (counters : DescSet) : Name → Name → Prop
  | one {n m d} : look counters n = some d → d.system = some (.extends_ m) → Reaches counters n m
  | more {n m k} : Reaches counters n m → Reaches counters m k → Reaches counters n k

theorem chain_reaches {counters : DescSet} {n m : Name} (hr : Reaches counters n m) :
    ∀ {ds}, Chain counters n ds → ∃ ds', Chain counters m ds' ∧ ds'.length < ds.length := by
  induction hr with
  | one hl hs =>
    intro ds hc
    cases hc with
    | missing h => rw [hl] at h; cases h
    | last h h' =>
      rw [hl] at h; cases h
      exact absurd hs (h' _)
    | step h h' hc =>
      rw [hl] at h; cases h
      rw [hs] at h'; cases h'
      exact ⟨_, hc, by simp⟩
  | more _ _ ih1 ih2 =>
    intro ds hc
    obtain ⟨ds1, hc1, h1⟩ := ih1 hc
    obtain ⟨ds2, hc2, h2⟩ := ih2 hc1
    exact ⟨ds2, hc2, by omega⟩

theorem chain_unique {counters : DescSet} {n : Name} {ds : List Descriptors} (h : Chain counters n ds) :
    ∀ {ds'}, Chain counters n ds' → ds = ds' := by
  induction h with
  | missing h =>
    intro ds' h'
    cases h' with
    | missing _ => rfl
    | last h1 _ => rw [h] at h1; cases h1
    | step h1 _ _ => rw [h] at h1; cases h1
  | last h hs =>
    intro ds' h'
    cases h' with
    | missing h1 => rw [h] at h1; cases h1
    | last h1 _ => rw [h] at h1; cases h1; rfl
    | step h1 h2 _ => rw [h] at h1; cases h1; exact absurd h2 (hs _)
  | step h hs _ ih =>
    intro ds' h'
    cases h' with
    | missing h1 => rw [h] at h1; cases h1
    | last h1 h2 => rw [h] at h1; cases h1; exact absurd hs (h2 _)
    | step h1 h2 h3 =>
      rw [h] at h1; cases h1
      rw [hs] at h2; cases h2
      rw [ih h3]

theorem no_circle {counters : DescSet} {n : Name} {ds : List Descriptors} (h : Chain counters n ds) :
    ¬ Reaches counters n n := by
  intro hr
  obtain ⟨ds', h', hlt⟩ := chain_reaches hr h
  rw [chain_unique h h'] at hlt
  omega

/-- What is known of a resolved style. -/
def Fits (counters : DescSet) (n : Name) (st : Style) : Prop :=
  (∀ ds, Chain counters n ds → st = styleOf ds) ∧ ∀ m, st.system ≠ .extends_ m

/-- What is known of the styles resolved so far. -/
def Inv (counters : DescSet) (resolved : List (Name × Style)) : Prop :=
  ∀ n st, look resolved n = some st → Fits counters n st ∧ (look counters n).isSome

theorem over_step (d : Descriptors) (ds : List Descriptors) (m : Name) (hs : d.system = some (.extends_ m)) :
    { d.over (styleOf ds) with system := (styleOf ds).system } = styleOf (d :: ds) := by
  unfold styleOf Descriptors.over
  simp only [List.findSome?_cons, ownSystem, hs]
  congr 1 <;> (split <;> simp_all)

theorem over_last (d : Descriptors) (hs : ∀ m, d.system ≠ some (.extends_ m)) :
    d.over .initial = styleOf [d] := by
  unfold styleOf Descriptors.over Style.initial
  simp only [List.findSome?_cons, List.findSome?_nil]
  congr 1
  · cases h : d.system with
    | none => simp [ownSystem, h]
    | some s =>
      cases s with
      | extends_ m => exact absurd h (hs m)
      | _ => simp [ownSystem, h]
  all_goals (split <;> simp_all)

theorem last_not_extends (d : Descriptors) (hs : ∀ m, d.system ≠ some (.extends_ m)) (m : Name) :
    (d.over .initial).system ≠ .extends_ m := by
  simp only [Descriptors.over, Style.initial]
  cases h : d.system with
  | none => simp
  | some s => intro e; simp at e; exact hs m (by rw [h, e])

theorem initial_fits_missing {counters : DescSet} {n : Name} (h : look counters n = none) :
    Fits counters n .initial := by
  refine ⟨?_, by simp [Style.initial]⟩
  intro ds hc
  cases hc with
  | missing _ => rfl
  | last h1 _ => rw [h] at h1; cases h1
  | step h1 _ _ => rw [h] at h1; cases h1

theorem mem_keys_of_look {α : Type} {m : List (Name × α)} {n : Name} {a : α} (h : look m n = some a) :
    n ∈ m.map Prod.fst := by
  unfold look at h
  cases hf : m.find? (fun kv => kv.1 = n) with
  | none => simp [hf] at h
  | some x =>
    have h1 := List.find?_some hf
    have h2 := List.mem_of_find?_eq_some hf
    simp at h1
    exact List.mem_map.2 ⟨x, h2, h1⟩

theorem resolveOne_spec (counters : DescSet) : ∀ (fuel : Nat) (resolved : List (Name × Style)) (seen : List Name)
    (name : Name), Inv counters resolved → (∀ s ∈ seen, Reaches counters s name) →
    unseen (counters.map Prod.fst) seen < fuel →
    ∃ st resolved' seen', resolveOne counters fuel resolved seen name = some (st, resolved', seen') ∧
      Fits counters name st ∧ Inv counters resolved' ∧
      (∀ n s, look resolved n = some s → look resolved' n = some s) ∧
      (seen = [] → (look counters name).isSome → (look resolved' name).isSome) := by
  intro fuel
  induction fuel with
  | zero => intro _ _ _ _ _ h; omega
  | succ fuel ih =>
    intro resolved seen name hinv hseen hf
    unfold resolveOne
    cases hres : look resolved name with
    | some it =>
      exact ⟨it, resolved, seen, rfl, (hinv name it hres).1, hinv, fun _ _ h => h, fun _ _ => by simp [hres]⟩
    | none =>
      dsimp only
      split
      · rename_i hmem
        refine ⟨_, _, _, rfl, ⟨?_, by simp [Style.initial]⟩, hinv, fun _ _ h => h, ?_⟩
        · intro ds hc
          exact absurd (hseen name hmem) (no_circle hc)
        · intro e; rw [e] at hmem; cases hmem
      · rename_i hmem
        cases hl : look counters name with
        | none =>
          exact ⟨_, _, _, rfl, initial_fits_missing hl, hinv, fun _ _ h => h, fun _ h => by simp at h⟩
        | some desc =>
          have hput : ∀ (res : List (Name × Style)) (st : Style),
              (∀ n s, look resolved n = some s → look res n = some s) → Inv counters res →
              Fits counters name st →
              Inv counters (put res name st) ∧
              (∀ n s, look resolved n = some s → look (put res name st) n = some s) ∧
              (look (put res name st) name).isSome := by
            intro res st hsub hi hfit
            refine ⟨?_, ?_, by simp [look_put]⟩
            · intro n s hn
              rw [look_put] at hn
              split at hn
              · rename_i e
                cases hn
                rw [e]
                exact ⟨hfit, by simp [hl]⟩
              · exact hi n s hn
            · intro n s hn
              rw [look_put]
              split
              · rename_i e; rw [e, hres] at hn; cases hn
              · exact hsub n s hn
          have hplain : (∀ m, desc.system ≠ some (.extends_ m)) →
              ∃ st resolved' seen', (some (desc.over .initial, put resolved name (desc.over .initial), name :: seen) :
                Option (Style × List (Name × Style) × List Name)) = some (st, resolved', seen') ∧
              Fits counters name st ∧ Inv counters resolved' ∧
              (∀ n s, look resolved n = some s → look resolved' n = some s) ∧
              (seen = [] → (some desc).isSome → (look resolved' name).isSome) := by
            intro hne
            have hfit : Fits counters name (desc.over .initial) := by
              refine ⟨?_, last_not_extends desc hne⟩
              intro ds hc
              cases hc with
              | missing h1 => rw [hl] at h1; cases h1
              | last h1 _ => rw [hl] at h1; cases h1; exact over_last desc hne
              | step h1 h2 _ => rw [hl] at h1; cases h1; exact absurd h2 (hne _)
            obtain ⟨a, b, c⟩ := hput resolved _ (fun _ _ h => h) hinv hfit
            exact ⟨_, _, _, rfl, hfit, a, b, fun _ _ => c⟩
          dsimp only
          cases hsys : desc.system with
          | none => exact hplain (by simp [hsys])
          | some s =>
            cases s with
            | extends_ ext =>
              dsimp only
              have hone : Reaches counters name ext := .one hl hsys
              have hlt := unseen_lt (mem_keys_of_look hl) hmem
              obtain ⟨base, res, sn, he, hfit, hi, hsub, _⟩ := ih resolved (name :: seen) ext hinv
                (by
                  intro s hs
                  rcases List.mem_cons.1 hs with rfl | hs
                  · exact hone
                  · exact .more (hseen s hs) hone)
                (by omega)
              rw [he]
              dsimp only
              have hfit' : Fits counters name { desc.over base with system := base.system } := by
                refine ⟨?_, hfit.2⟩
                intro ds hc
                cases hc with
                | missing h1 => rw [hl] at h1; cases h1
                | last h1 h2 => rw [hl] at h1; cases h1; exact absurd hsys (h2 _)
                | step h1 h2 h3 =>
                  rw [hl] at h1; cases h1
                  rw [hsys] at h2; cases h2
                  rw [hfit.1 _ h3]
                  exact over_step desc _ ext hsys
              obtain ⟨a, b, c⟩ := hput res _ hsub hi hfit'
              exact ⟨_, _, _, rfl, hfit', a, b, fun _ _ => c⟩
            | _ => exact hplain (by simp [hsys])

theorem resolve_fold (counters : DescSet) (fuel : Nat) (hf : counters.length < fuel) :
    ∀ (l : List (Name × Descriptors)) (resolved : List (Name × Style)), Inv counters resolved →
    (∀ kv ∈ l, (look counters kv.1).isSome) →
    ∃ res, l.foldlM (init := resolved) (fun resolved kv =>
        (resolveOne counters fuel resolved [] kv.1).map (fun r => r.2.1)) = some res ∧ Inv counters res ∧
      (∀ n s, look resolved n = some s → look res n = some s) ∧ (∀ kv ∈ l, (look res kv.1).isSome)
  | [], resolved, hi, _ => ⟨resolved, rfl, hi, fun _ _ h => h, by simp⟩
  | kv :: l, resolved, hi, hl => by
    have hu : unseen (counters.map Prod.fst) [] < fuel := by
      refine Nat.lt_of_le_of_lt (List.length_filter_le _ _) ?_
      rwa [List.length_map]
    obtain ⟨st, res1, sn, he, _, hi1, hs1, hk1⟩ := resolveOne_spec counters fuel resolved [] kv.1 hi (by simp) hu
    obtain ⟨res, h1, h2, h3, h4⟩ := resolve_fold counters fuel hf l res1 hi1 (fun x hx => hl x (by simp [hx]))
    refine ⟨res, ?_, h2, fun n s h => h3 n s (hs1 n s h), ?_⟩
    · rw [List.foldlM_cons, he]
      exact h1
    · intro x hx
      rcases List.mem_cons.1 hx with rfl | hx
      · have := hk1 rfl (hl x (by simp))
        obtain ⟨s, hs⟩ := Option.isSome_iff_exists.1 this
        rw [h3 _ _ hs]; rfl
      · exact h4 x hx

theorem isSome_look_of_mem {α : Type} : ∀ {m : List (Name × α)} {kv : Name × α}, kv ∈ m → (look m kv.1).isSome
  | [], _, h => by cases h
  | (k, a) :: m, kv, h => by
    rw [look_cons]
    split
    · rfl
    · rename_i hk
      rcases List.mem_cons.1 h with rfl | h
      · exact absurd rfl hk
      · exact isSome_look_of_mem h

end Verif.Counter
