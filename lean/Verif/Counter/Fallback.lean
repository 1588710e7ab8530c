import Verif.Counter.StyleLemmas
/-! # Following fallbacks ends -/
namespace Verif.Counter

/-- The style itself writes `value`, one way or another. -/
def Settled (st : Style) (value : Int) : Prop :=
  definedFor st value ≠ some false ∧ dispatchSystem st value.natAbs ≠ .undefined

theorem dispatch_settled {clusters : Sym → Nat} {styles : Styles} {st : Style} {v : Int} (h : Settled st v)
    (seen : List Name) (fuel : Nat) :
    ∃ out, dispatch clusters styles (fuel + 1) st v seen = some out ∧
      (dispatchSystem st v.natAbs ≠ .crash → ∃ s, out = .text s) := by
  rw [dispatch, if_neg h.1]
  cases hd : dispatchSystem st v.natAbs with
  | undefined => exact absurd hd h.2
  | crash => exact ⟨_, rfl, fun h => absurd rfl h⟩
  | repr s => exact ⟨_, rfl, fun _ => ⟨_, rfl⟩⟩

/-- How many of the registered names were not seen. -/
def unseen (names seen : List Name) : Nat := (names.filter (fun n => n ∉ seen)).length

theorem unseen_lt {names seen : List Name} {n : Name} (hn : n ∈ names) (hs : n ∉ seen) :
    unseen names (n :: seen) < unseen names seen := by
  unfold unseen
  have hsub : ∀ l : List Name, (l.filter (fun x => x ∉ n :: seen)).length ≤ (l.filter (fun x => x ∉ seen)).length := by
    intro l
    induction l with
    | nil => simp
    | cons x l ih =>
      by_cases h1 : x ∈ seen
      · simp_all
      · by_cases h2 : x = n
        · subst h2; simp [h1] at ih ⊢; omega
        · simp [h1, h2] at ih ⊢; omega
  induction names with
  | nil => simp at hn
  | cons x l ih =>
    have := hsub l
    by_cases hx : x = n
    · subst hx
      simp [hs] at this ⊢
      omega
    · have hl : n ∈ l := by
        rcases List.mem_cons.1 hn with h | h
        · exact absurd h.symm hx
        · exact h
      have := ih hl
      by_cases h1 : x ∈ seen
      · simp_all
      · simp [h1, hx] at this ⊢; omega

theorem dispatch_ends {clusters : Sym → Nat} {styles : Styles} {names : List Name} {d : Style} {v : Int}
    (hreg : ∀ n st, styles n = some st → n ∈ names) (hd : styles "decimal" = some d) (hset : Settled d v)
    (P : Style → Prop) (hPd : P d) (hP : ∀ n st, styles n = some st → P st)
    (hcr : ∀ st, P st → dispatchSystem st v.natAbs ≠ .crash) :
    ∀ (fuel : Nat) (st : Style) (seen : List Name), P st → 2 * unseen names seen + 3 ≤ fuel →
      ∃ s, dispatch clusters styles fuel st v seen = some (.text s) := by
  intro fuel
  induction fuel using Nat.strongRecOn with
  | ind fuel ih =>
    intro st seen hst hf
    obtain ⟨f, rfl⟩ : ∃ f, fuel = f + 3 := ⟨fuel - 3, by omega⟩
    have hdec : ∀ seen, ∃ s, dispatch clusters styles (f + 1) d v seen = some (.text s) := by
      intro seen
      obtain ⟨o, ho, ht⟩ := dispatch_settled (clusters := clusters) (styles := styles) hset seen f
      obtain ⟨s, hs⟩ := ht (hcr d hPd)
      exact ⟨s, by rw [ho, hs]⟩
    have hfb : ∃ s, toFallback clusters styles (f + 2) st v seen = some (.text s) := by
      rw [toFallback]
      split
      · rw [hd]
        exact hdec seen
      · rename_i hns
        cases hl : styles st.fallback with
        | none =>
          simp only [Option.orElse_none, hd]
          exact hdec _
        | some fs =>
          simp only [Option.orElse_some]
          have := unseen_lt (hreg _ _ hl) hns
          exact ih (f + 1) (by omega) fs _ (hP _ _ hl) (by omega)
    rw [dispatch]
    split
    · exact hfb
    · cases hs : dispatchSystem st v.natAbs with
      | undefined => exact hfb
      | crash => exact absurd hs (hcr st hst)
      | repr s => exact ⟨_, rfl⟩

/-- As `dispatch_ends`, without excluding crashes. -/
theorem dispatch_stops {clusters : Sym → Nat} {styles : Styles} {names : List Name} {d : Style} {v : Int}
    (hreg : ∀ n st, styles n = some st → n ∈ names) (hd : styles "decimal" = some d) (hset : Settled d v) :
    ∀ (fuel : Nat) (st : Style) (seen : List Name), 2 * unseen names seen + 3 ≤ fuel →
      (dispatch clusters styles fuel st v seen).isSome := by
  intro fuel
  induction fuel using Nat.strongRecOn with
  | ind fuel ih =>
    intro st seen hf
    obtain ⟨f, rfl⟩ : ∃ f, fuel = f + 3 := ⟨fuel - 3, by omega⟩
    have hdec : ∀ seen, (dispatch clusters styles (f + 1) d v seen).isSome := by
      intro seen
      obtain ⟨o, ho, _⟩ := dispatch_settled (clusters := clusters) (styles := styles) hset seen f
      simp [ho]
    have hfb : (toFallback clusters styles (f + 2) st v seen).isSome := by
      rw [toFallback]
      split
      · rw [hd]
        exact hdec seen
      · rename_i hns
        cases hl : styles st.fallback with
        | none =>
          simp only [Option.orElse_none, hd]
          exact hdec _
        | some fs =>
          simp only [Option.orElse_some]
          have := unseen_lt (hreg _ _ hl) hns
          exact ih (f + 1) (by omega) fs _ (by omega)
    rw [dispatch]
    split
    · exact hfb
    · cases hs : dispatchSystem st v.natAbs with
      | undefined => exact hfb
      | crash => rfl
      | repr s => rfl

theorem numeric_settled {d : Style} {v : Int} (hs : d.system = .numeric) (hl : 2 ≤ d.symbols.length)
    (hr : InRange d v) : Settled d v := by
  refine ⟨definedFor_of_inRange hr, ?_⟩
  simp only [dispatchSystem, hs, numeric]
  have : ¬ d.symbols.length < 2 := by omega
  simp only [this, dite_false]
  split <;> simp

theorem additiveLoop_no_crash : ∀ (ts : List (Int × Sym)) (v : Int) (s : List Sym), 0 ≤ v →
    (∀ t ∈ ts, 0 ≤ t.1) → additiveLoop ts v s ≠ .crash
  | [], v, s, _, _ => by unfold additiveLoop; split <;> simp
  | (w, sym) :: ts, v, s, hv, hw => by
    unfold additiveLoop
    have hw0 : 0 ≤ w := hw (w, sym) (by simp)
    split
    · exact additiveLoop_no_crash ts v s hv (fun t ht => hw t (by simp [ht]))
    · rename_i hc
      dsimp only
      have hq : 0 ≤ v.tdiv w := Int.tdiv_nonneg hv hw0
      rw [if_neg (by omega)]
      split
      · simp
      · have hle : 0 ≤ v - w * v.tdiv w := by
          have := Int.mul_tdiv_add_tmod v w
          have := Int.tmod_nonneg w hv
          omega
        exact additiveLoop_no_crash ts _ _ hle (fun t ht => hw t (by simp [ht]))

theorem cyclic_index (v : Int) (n : Nat) (hn : 0 < n) :
    (if (v - 1).tmod n < 0 then (v - 1).tmod n + n else (v - 1).tmod n) = (v - 1) % n := by
  have h1 := Int.tmod_eq_emod (a := v - 1) (b := (n : Int))
  have h2 := Int.emod_nonneg (v - 1) (b := (n : Int)) (by omega)
  have h3 := Int.emod_lt_of_pos (v - 1) (b := (n : Int)) (by omega)
  split at h1 <;> split <;> omega

theorem cyclic_spec (st : Style) (v : Int) (hl : st.symbols ≠ []) :
    cyclic st v = .repr (pick st.symbols [((v - 1) % st.symbols.length).toNat]) := by
  have hp : 0 < st.symbols.length := List.length_pos_iff.2 hl
  have h2 := Int.emod_nonneg (v - 1) (b := (st.symbols.length : Int)) (by omega)
  have h3 := Int.emod_lt_of_pos (v - 1) (b := (st.symbols.length : Int)) (by omega)
  have hi : ((v - 1) % st.symbols.length).toNat < st.symbols.length := by omega
  unfold cyclic
  rw [if_neg (by omega)]
  dsimp only
  rw [cyclic_index v _ hp, List.getElem?_eq_getElem hi]
  simp only [pick, List.map_cons, List.map_nil, getD_of_lt hi]

theorem symbolic_spec (st : Style) (v : Nat) (hl : st.symbols ≠ []) (hv : 0 < v) (hb : v ≤ 2 ^ 64) :
    symbolic st v = .repr (List.replicate ((v + st.symbols.length - 1) / st.symbols.length)
      (st.symbols.getD ((v - 1) % st.symbols.length) "")) := by
  have hp : 0 < st.symbols.length := List.length_pos_iff.2 hl
  have hi : (v - 1) % st.symbols.length < st.symbols.length := Nat.mod_lt _ hp
  have hw : (v + (2 ^ 64 - 1)) % 2 ^ 64 = v - 1 := by omega
  unfold symbolic
  rw [if_neg (by omega)]
  dsimp only
  rw [hw, List.getElem?_eq_getElem hi, getD_of_lt hi]

/-- The systems that cannot crash on `v`. -/
def Tame (v : Nat) (st : Style) : Prop :=
  (∀ f, st.system = .fixed f → st.symbols ≠ [] → f.getD 0 < (v : Int)) ∧
  (∀ t ∈ st.additive, 0 ≤ t.1) ∧ (∀ n, st.system ≠ .extends_ n)

theorem tame_no_crash {st : Style} {v : Nat} (h : Tame v st) : dispatchSystem st v ≠ .crash := by
  unfold dispatchSystem
  cases hs : st.system with
  | cyclic =>
    dsimp only
    by_cases hl : st.symbols = []
    · simp [cyclic, hl]
    · rw [cyclic_spec st _ hl]; simp
  | numeric =>
    dsimp only [numeric]
    split
    · simp
    · split <;> simp
  | alphabetic =>
    dsimp only [alphabetic]
    split
    · simp
    · split <;> simp
  | symbolic =>
    dsimp only [symbolic]
    split
    · simp
    · rename_i hl
      have hi := Nat.mod_lt ((v + (2 ^ 64 - 1)) % 2 ^ 64) (Nat.pos_of_ne_zero hl)
      rw [List.getElem?_eq_getElem hi]
      simp
  | additive =>
    dsimp only [additive]
    split
    · simp
    · split
      · cases List.find? (fun it => decide (it.fst = 0)) st.additive <;> simp
      · exact additiveLoop_no_crash _ _ _ (by omega) h.2.1
  | fixed f =>
    dsimp only [fixed]
    split
    · simp
    · rename_i hl
      have := h.1 f hs (by intro h0; simp [h0] at hl)
      split
      · simp
      · rename_i hge
        rw [if_neg (by omega)]
        have hi : ((v : Int) - f.getD 0 - 1).toNat < st.symbols.length := by omega
        rw [List.getElem?_eq_getElem hi]
        simp
  | extends_ n => exact absurd hs (h.2.2 n)

end Verif.Counter
