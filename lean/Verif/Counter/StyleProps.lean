import Verif.Counter.Extends
/-!
# Counter styles: properties

C15 (representations denote the value), C16 (additive), C17 (formatting ends),
C53 (fixed), C54 (sign, padding, prefix, suffix) C55 (`extends`) and C56 (fallback).
`clusters` is any way of counting grapheme clusters.
-/
namespace Verif.Counter

/-! ## Sample styles -/

def decimalStyle : Style :=
  { Style.initial with system := .numeric, symbols := ["0", "1", "2", "3", "4", "5", "6", "7", "8", "9"], suffix := "" }
def letters : Style := { Style.initial with system := .alphabetic, symbols := ["a", "b", "c"], suffix := "" }
def roman : Style :=
  { Style.initial with system := .additive, range := some [(some 1, some 3999)], suffix := ""
                       additive := [(10, "x"), (9, "ix"), (5, "v"), (4, "iv"), (1, "i")] }
def marks : Style := { Style.initial with system := .cyclic, symbols := ["*", "+", "#"] }
def sampleStyles : Styles := fun n =>
  if n = "decimal" then some decimalStyle
  else if n = "letters" then some letters
  else if n = "roman" then some roman
  else if n = "marks" then some marks
  else if n = "notes" then some { Style.initial with system := .symbolic, symbols := ["*", "+"] }
  else if n = "loop" then some { roman with fallback := "loop" }
  else none

theorem inRange_auto {st : Style} {v : Int} (h : st.range = none) : InRange st v := by
  intro rs hr; rw [h] at hr; cases hr

/-! ## C15 -/

/-- C15, numeric: in range, the style shows exactly the digits of the absolute value in
    the base given by the number of symbols, with no leading zero. -/
theorem C15_numeric (clusters : Sym → Nat) (styles : Styles) (name : Name) (st : Style) (value : Int)
    (hreg : Registered styles name st) (hs : st.system = .numeric) (hl : 2 ≤ st.symbols.length)
    (hr : InRange st value) (fuel : Nat) :
    ∃ digits, (∀ d ∈ digits, d < st.symbols.length) ∧ inBase st.symbols.length digits = value.natAbs ∧
      (digits = [0] ∨ ∃ d ds, digits = d :: ds ∧ d ≠ 0) ∧
      Shows (construct clusters styles (fuel + 1) name value) (pick st.symbols digits) := by
  have hl' : ¬ st.symbols.length < 2 := by omega
  by_cases hv : value.natAbs = 0
  · refine ⟨[0], ?_, ?_, .inl rfl, ?_⟩
    · simp; omega
    · simp [inBase, hv]
    · refine shows_of_repr hreg hr ?_ fuel
      simp only [dispatchSystem, hs, numeric, hl', hv, dite_false, if_true, pick, List.map_cons, List.map_nil]
      rw [getD_of_lt (by omega)]
  · obtain ⟨ds, h1, h2, h3, h4, h5⟩ := numericLoop_spec st.symbols hl value.natAbs []
    refine ⟨ds, h2, h3, .inr ?_, ?_⟩
    · cases ds with
      | nil => exact absurd rfl (h5 hv)
      | cons d ds => exact ⟨d, ds, rfl, by simpa using h4⟩
    · refine shows_of_repr hreg hr ?_ fuel
      simp only [dispatchSystem, hs, numeric, hl', hv, dite_false, if_false]
      rw [h1, List.append_nil]

/-- C15, alphabetic: in range, any value but zero is shown in bijective base. -/
theorem C15_alphabetic (clusters : Sym → Nat) (styles : Styles) (name : Name) (st : Style) (value : Int)
    (hreg : Registered styles name st) (hs : st.system = .alphabetic) (hl : 2 ≤ st.symbols.length)
    (hr : InRange st value) (hv : value ≠ 0) (fuel : Nat) :
    ∃ digits, (∀ d ∈ digits, d < st.symbols.length) ∧
      inBijectiveBase st.symbols.length digits = value.natAbs ∧
      Shows (construct clusters styles (fuel + 1) name value) (pick st.symbols digits) := by
  have hl' : ¬ st.symbols.length < 2 := by omega
  have hv' : ¬ value.natAbs = 0 := by omega
  obtain ⟨ds, h1, h2, h3⟩ := alphabeticLoop_spec st.symbols hl value.natAbs []
  refine ⟨ds, h2, h3, shows_of_repr hreg hr ?_ fuel⟩
  simp only [dispatchSystem, hs, alphabetic, hl', hv', dite_false, if_false]
  rw [h1, List.append_nil]

/-- C15, distinct values: two values that are not negative and are shown the same by one
    unpadded numeric or alphabetic style with distinct symbols are equal. -/
theorem C15_distinct (clusters : Sym → Nat) (styles : Styles) (name : Name) (st : Style) (v w : Int)
    (hreg : Registered styles name st)
    (hs : st.system = .numeric ∨ st.system = .alphabetic ∧ v ≠ 0 ∧ w ≠ 0)
    (hl : 2 ≤ st.symbols.length) (hn : st.symbols.Nodup) (hp : Unpadded st) (hrv : InRange st v) (hrw : InRange st w)
    (hv : 0 ≤ v) (hw : 0 ≤ w) (fuel : Nat)
    (heq : construct clusters styles (fuel + 1) name v = construct clusters styles (fuel + 1) name w) : v = w := by
  have key : ∀ x : Int, (st.system = .numeric ∨ st.system = .alphabetic ∧ x ≠ 0) → InRange st x → 0 ≤ x →
      ∃ ds, (∀ d ∈ ds, d < st.symbols.length) ∧
        (if st.system = .numeric then inBase st.symbols.length ds else inBijectiveBase st.symbols.length ds) = x.natAbs ∧
        construct clusters styles (fuel + 1) name x
          = some (.text (st.prefix_ :: (pick st.symbols ds ++ [st.suffix]))) := by
    intro x hsx hrx hx
    have hl' : ¬ st.symbols.length < 2 := by omega
    rcases hsx with hsx | ⟨hsx, hx0⟩
    · have : ∃ ds, (∀ d ∈ ds, d < st.symbols.length) ∧ inBase st.symbols.length ds = x.natAbs ∧
          dispatchSystem st x.natAbs = .repr (pick st.symbols ds) := by
        by_cases h0 : x.natAbs = 0
        · refine ⟨[0], by simp; omega, by simp [inBase, h0], ?_⟩
          simp only [dispatchSystem, hsx, numeric, hl', h0, dite_false, if_true, pick, List.map_cons, List.map_nil]
          rw [getD_of_lt (by omega)]
        · obtain ⟨ds, h1, h2, h3, _, _⟩ := numericLoop_spec st.symbols hl x.natAbs []
          refine ⟨ds, h2, h3, ?_⟩
          simp only [dispatchSystem, hsx, numeric, hl', h0, dite_false, if_false]
          rw [h1, List.append_nil]
      obtain ⟨ds, h2, h3, h4⟩ := this
      exact ⟨ds, h2, by simp [hsx, h3], by rw [construct_repr hreg hrx h4, finish_unpadded hp hx]⟩
    · have h0 : ¬ x.natAbs = 0 := by omega
      obtain ⟨ds, h1, h2, h3⟩ := alphabeticLoop_spec st.symbols hl x.natAbs []
      have h4 : dispatchSystem st x.natAbs = .repr (pick st.symbols ds) := by
        simp only [dispatchSystem, hsx, alphabetic, hl', h0, dite_false, if_false]
        rw [h1, List.append_nil]
      exact ⟨ds, h2, by simp [hsx, h3], by rw [construct_repr hreg hrx h4, finish_unpadded hp hx]⟩
  obtain ⟨dv, a1, a2, a3⟩ := key v (hs.imp id fun h => ⟨h.1, h.2.1⟩) hrv hv
  obtain ⟨dw, b1, b2, b3⟩ := key w (hs.imp id fun h => ⟨h.1, h.2.2⟩) hrw hw
  rw [a3, b3] at heq
  simp only [Option.some.injEq, Out.text.injEq, List.cons.injEq, true_and, List.append_cancel_right_eq] at heq
  have := pick_inj hn a1 b1 heq
  rw [this, b2] at a2
  omega

/-- C15, cyclic, for values that are not negative: the symbol shown is the one at
    `value - 1`, counted round the list of symbols. -/
theorem C15_cyclic_partial (clusters : Sym → Nat) (styles : Styles) (name : Name) (st : Style) (value : Int)
    (hreg : Registered styles name st) (hs : st.system = .cyclic) (hl : st.symbols ≠ [])
    (hr : InRange st value) (hv : 0 ≤ value) (fuel : Nat) :
    Shows (construct clusters styles (fuel + 1) name value)
      (pick st.symbols [((value - 1) % st.symbols.length).toNat]) := by
  refine shows_of_repr hreg hr ?_ fuel
  simp only [dispatchSystem, hs]
  rw [cyclic_spec st _ hl]
  have : ((value.natAbs : Nat) : Int) = value := by omega
  rw [this]

/-- C15, cyclic: two such values apart by the number of symbols are shown the same. -/
theorem C15_cyclic_period_partial (clusters : Sym → Nat) (styles : Styles) (name : Name) (st : Style) (value : Int)
    (hreg : Registered styles name st) (hs : st.system = .cyclic) (hl : st.symbols ≠ [])
    (hr : InRange st value) (hr' : InRange st (value + st.symbols.length)) (hv : 0 ≤ value) (fuel : Nat) :
    construct clusters styles (fuel + 1) name (value + st.symbols.length)
      = construct clusters styles (fuel + 1) name value := by
  have h1 : dispatchSystem st value.natAbs
      = .repr (pick st.symbols [((value - 1) % st.symbols.length).toNat]) := by
    simp only [dispatchSystem, hs]
    rw [cyclic_spec st _ hl]
    have : ((value.natAbs : Nat) : Int) = value := by omega
    rw [this]
  have h2 : dispatchSystem st (value + st.symbols.length).natAbs
      = .repr (pick st.symbols [((value - 1) % st.symbols.length).toNat]) := by
    simp only [dispatchSystem, hs]
    rw [cyclic_spec st _ hl]
    have : (((value + st.symbols.length).natAbs : Nat) : Int) = value + st.symbols.length := by omega
    rw [this]
    have : value + (st.symbols.length : Int) - 1 = value - 1 + st.symbols.length := by omega
    rw [this, Int.add_emod_right]
  have hneg : ¬ value < 0 := by omega
  have hneg' : ¬ value + (st.symbols.length : Int) < 0 := by omega
  rw [construct_repr hreg hr h1, construct_repr hreg hr' h2]
  simp only [finish, hneg, hneg', if_false]

/-- C15 is false of cyclic styles at negative values: the code turns `-1` into `1` and
    adds a sign, so that `-1` and `2` look different though three symbols apart. -/
theorem C15_cyclic_fails : ∃ (styles : Styles) (name : Name) (st : Style) (value : Int),
    Registered styles name st ∧ st.system = .cyclic ∧ st.symbols.length = 3 ∧ InRange st value ∧
    InRange st (value + 3) ∧ ∀ clusters fuel,
      construct clusters styles (fuel + 1) name (value + 3) ≠ construct clusters styles (fuel + 1) name value := by
  refine ⟨sampleStyles, "marks", marks, -1, rfl, rfl, rfl, inRange_auto rfl, inRange_auto rfl, ?_⟩
  intro clusters fuel
  have h : Registered sampleStyles "marks" marks := rfl
  rw [construct_repr (s := ["+"]) h (inRange_auto rfl) (by decide),
    construct_repr (s := ["*"]) h (inRange_auto rfl) (by decide)]
  simp [finish, marks, Style.initial]

/-- C15, symbolic: a positive value is shown by one symbol repeated; counting up, the
    symbols take turns and each full turn makes the repetition one longer. -/
theorem C15_symbolic (clusters : Sym → Nat) (styles : Styles) (name : Name) (st : Style) (value : Int)
    (hreg : Registered styles name st) (hs : st.system = .symbolic) (hl : st.symbols ≠ [])
    (hr : InRange st value) (hv : 0 < value) (hb : value < 2 ^ 63) (fuel : Nat) :
    ∃ i turns : Nat, i < st.symbols.length ∧ value = ((st.symbols.length * turns + i + 1 : Nat) : Int) ∧
      Shows (construct clusters styles (fuel + 1) name value)
        (List.replicate (turns + 1) (st.symbols.getD i "")) := by
  have hp : 0 < st.symbols.length := List.length_pos_iff.2 hl
  refine ⟨(value.natAbs - 1) % st.symbols.length, (value.natAbs - 1) / st.symbols.length, Nat.mod_lt _ hp, ?_, ?_⟩
  · have := Nat.div_add_mod (value.natAbs - 1) st.symbols.length
    omega
  · refine shows_of_repr hreg hr ?_ fuel
    simp only [dispatchSystem, hs]
    rw [symbolic_spec st _ hl (by omega) (by omega)]
    congr 2
    have : value.natAbs + st.symbols.length - 1 = (value.natAbs - 1) + st.symbols.length := by omega
    rw [this, Nat.add_div_right _ hp]

example : ∃ s, construct String.length sampleStyles 9 "decimal" 407 = some (.text s) ∧ textOf s = "407" :=
  ⟨["", "4", "0", "7", ""], by
    rw [construct_repr (show Registered sampleStyles "decimal" decimalStyle from rfl) (s := ["4", "0", "7"]) (inRange_auto rfl) (by
      simp [dispatchSystem, decimalStyle, numeric, numericLoop])]; rfl, by decide⟩
example : ∃ s, construct String.length sampleStyles 9 "letters" 5 = some (.text s) ∧ textOf s = "ab" :=
  ⟨["", "a", "b", ""], by
    rw [construct_repr (show Registered sampleStyles "letters" letters from rfl) (s := ["a", "b"]) (inRange_auto rfl) (by
      simp [dispatchSystem, letters, alphabetic, alphabeticLoop])]; rfl, by decide⟩
example : letters.symbols.Nodup ∧ 2 ≤ letters.symbols.length ∧ Unpadded letters := by
  refine ⟨by decide, by decide, rfl⟩
example : Registered sampleStyles "letters" letters ∧ Registered sampleStyles "decimal" decimalStyle := ⟨rfl, rfl⟩
example : construct String.length sampleStyles 9 "notes" 5 = some (.text ["", "*", "*", "*", ". "]) := by decide
example : construct String.length sampleStyles 9 "marks" 4 = some (.text ["", "*", ". "]) := by decide

/-! ## C16 -/

/-- C16: what an additive style shows for a value other than zero is a run of each
    of its symbols in turn, and the weights of those symbols add up to the value. -/
theorem C16_additive_sum (clusters : Sym → Nat) (styles : Styles) (name : Name) (st : Style) (value : Int)
    (hreg : Registered styles name st) (hs : st.system = .additive) (hr : InRange st value) (hv : value ≠ 0)
    (s : List Sym) (hrep : dispatchSystem st value.natAbs = .repr s) (fuel : Nat) :
    Shows (construct clusters styles (fuel + 1) name value) s ∧
    ∃ counts, counts.length = st.additive.length ∧ s = spell st.additive counts ∧
      total st.additive counts = value.natAbs := by
  refine ⟨shows_of_repr hreg hr hrep fuel, ?_⟩
  simp only [dispatchSystem, hs, additive] at hrep
  split at hrep
  · cases hrep
  · split at hrep
    · omega
    · simpa using additiveLoop_spec _ _ _ _ hrep

/-- C16, zero: it is shown by the symbol of weight zero. -/
theorem C16_additive_zero (clusters : Sym → Nat) (styles : Styles) (name : Name) (st : Style)
    (hreg : Registered styles name st) (hs : st.system = .additive) (hr : InRange st 0)
    (s : List Sym) (hrep : dispatchSystem st 0 = .repr s) (fuel : Nat) :
    Shows (construct clusters styles (fuel + 1) name 0) s ∧ ∃ sym, s = [sym] ∧ (0, sym) ∈ st.additive := by
  refine ⟨shows_of_repr (v := 0) hreg hr hrep fuel, ?_⟩
  simp only [dispatchSystem, hs, additive] at hrep
  split at hrep
  · cases hrep
  · simp only [Int.ofNat_zero, if_true, Int.natCast_zero] at hrep
    cases hf : st.additive.find? (fun it => it.1 = 0) with
    | none => simp [hf] at hrep
    | some it =>
      rw [hf] at hrep
      cases hrep
      have h1 := List.find?_some hf
      have h2 := List.mem_of_find?_eq_some hf
      obtain ⟨w, sym⟩ := it
      simp at h1
      subst h1
      exact ⟨sym, rfl, h2⟩

/-- C16, no value is given up that the weights could reach: with weight `1` in the list
    and no negative weight, every value is represented. -/
theorem C16_additive_complete (st : Style) (value : Nat) (hs : st.system = .additive) (hv : value ≠ 0)
    (hw : ∀ t ∈ st.additive, 0 ≤ t.1) (h1 : ∃ sym, (1, sym) ∈ st.additive) :
    ∃ s, dispatchSystem st value = .repr s := by
  obtain ⟨sym, hm⟩ := h1
  have hne : ¬ st.additive.length = 0 := by
    intro h0
    rw [List.length_eq_zero_iff] at h0
    rw [h0] at hm; cases hm
  simp only [dispatchSystem, hs, additive]
  rw [if_neg hne, if_neg (by omega)]
  have key : ∀ (ts : List (Int × Sym)) (v : Int) (s : List Sym), 0 ≤ v → (∀ t ∈ ts, 0 ≤ t.1) →
      (1, sym) ∈ ts → ∃ out, additiveLoop ts v s = .repr out := by
    intro ts
    induction ts with
    | nil => intro v s _ _ h; cases h
    | cons t ts ih =>
      obtain ⟨w, sy⟩ := t
      intro v s hv hw hmem
      have hw0 : 0 ≤ w := hw (w, sy) (by simp)
      have hw' : ∀ t ∈ ts, 0 ≤ t.1 := fun t ht => hw t (by simp [ht])
      unfold additiveLoop
      by_cases hc : w = 0 ∨ w > v
      · rw [if_pos hc]
        rcases List.mem_cons.1 hmem with e | hmem
        · cases e
          have hv0 : v = 0 := by omega
          subst hv0
          have hz : ∀ (l : List (Int × Sym)) (s : List Sym), (∀ t ∈ l, 0 ≤ t.1) →
              ∃ out, additiveLoop l 0 s = .repr out := by
            intro l
            induction l with
            | nil => intro s _; exact ⟨s, by simp [additiveLoop]⟩
            | cons a l ihl =>
              obtain ⟨wa, sa⟩ := a
              intro s hl
              have : 0 ≤ wa := hl (wa, sa) (by simp)
              unfold additiveLoop
              rw [if_pos (by omega)]
              exact ihl s (fun t ht => hl t (by simp [ht]))
          exact hz ts s hw'
        · exact ih v s hv hw' hmem
      · rw [if_neg hc]
        dsimp only
        have hq : 0 ≤ v.tdiv w := Int.tdiv_nonneg hv hw0
        rw [if_neg (by omega)]
        by_cases hz : v - w * v.tdiv w = 0
        · rw [if_pos hz]; exact ⟨_, rfl⟩
        · rw [if_neg hz]
          rcases List.mem_cons.1 hmem with e | hmem
          · cases e
            rw [Int.tdiv_one] at hz
            omega
          · refine ih _ _ ?_ hw' hmem
            have := Int.mul_tdiv_add_tmod v w
            have := Int.tmod_nonneg w hv
            omega
  exact key _ _ _ (by omega) hw hm

example : construct String.length sampleStyles 9 "roman" 24 = some (.text ["", "x", "x", "iv", ""]) := by decide
example : spell roman.additive [2, 0, 0, 1, 0] = ["x", "x", "iv"] ∧ total roman.additive [2, 0, 0, 1, 0] = 24 := by decide
example : (∀ t ∈ roman.additive, 0 ≤ t.1) ∧ (1, "i") ∈ roman.additive := by decide

/-! ## C17 -/

/-- C17, when the style named `decimal` writes the value and no style that may be met
    crashes on it: formatting ends with a text, after at most two calls for each registered
    style and three more. -/
theorem C17_finishes_partial (clusters : Sym → Nat) (styles : Styles) (names : List Name) (d : Style) (value : Int)
    (hall : ∀ n st, styles n = some st → n ∈ names)
    (hd : Registered styles "decimal" d) (hs : d.system = .numeric) (hl : 2 ≤ d.symbols.length) (hr : InRange d value)
    (htame : ∀ n st, styles n = some st →
      (∀ f, st.system = .fixed f → st.symbols ≠ [] → f.getD 0 < (value.natAbs : Int)) ∧
      (∀ t ∈ st.additive, 0 ≤ t.1) ∧ ∀ m, st.system ≠ .extends_ m)
    (name : Name) :
    ∃ s, construct clusters styles (2 * names.length + 3) name value = some (.text s) := by
  have hun : unseen names [name] ≤ names.length := by
    exact List.length_filter_le _ _
  have hset := numeric_settled hs hl hr
  have main := dispatch_ends (clusters := clusters) hall hd hset (Tame value.natAbs) (htame _ _ hd) htame
    (fun st h => tame_no_crash h) (2 * names.length + 3)
  unfold construct
  cases hn : styles name with
  | none =>
    have hd' : styles "decimal" = some d := hd
    simp only [Option.orElse_none, hd']
    exact main d [name] (htame _ _ hd) (by omega)
  | some st =>
    simp only [Option.orElse_some]
    exact main st [name] (htame _ _ hn) (by omega)

/-- C17, crashes allowed: it still ends. -/
theorem C17_stops_partial (clusters : Sym → Nat) (styles : Styles) (names : List Name) (d : Style) (value : Int)
    (hall : ∀ n st, styles n = some st → n ∈ names)
    (hd : Registered styles "decimal" d) (hs : d.system = .numeric) (hl : 2 ≤ d.symbols.length) (hr : InRange d value)
    (name : Name) :
    ∃ out, construct clusters styles (2 * names.length + 3) name value = some out := by
  have hun : unseen names [name] ≤ names.length := by
    exact List.length_filter_le _ _
  have main := dispatch_stops (clusters := clusters) hall hd (numeric_settled hs hl hr) (2 * names.length + 3)
  rw [← Option.isSome_iff_exists]
  unfold construct
  cases hn : styles name with
  | none =>
    have hd' : styles "decimal" = some d := hd
    simp only [Option.orElse_none, hd']
    exact main d [name] (by omega)
  | some st =>
    simp only [Option.orElse_some]
    exact main st [name] (by omega)

/-- A style sheet that redefines `decimal` with a range. -/
def narrowDecimal : Styles := fun n =>
  if n = "decimal" then some { decimalStyle with range := some [(some 1, some 2)] } else none

/-- C17 is false: with `@counter-style decimal { range: 1 2 }`, which the code accepts,
    formatting 5 never ends. -/
theorem C17_fails : ∃ (styles : Styles) (name : Name) (value : Int), ∀ clusters fuel,
    construct clusters styles fuel name value = none := by
  refine ⟨narrowDecimal, "decimal", 5, ?_⟩
  intro clusters fuel
  have key : ∀ fuel, dispatch clusters narrowDecimal fuel { decimalStyle with range := some [(some 1, some 2)] } 5 ["decimal"]
      = none := by
    intro fuel
    induction fuel using Nat.strongRecOn with
    | ind fuel ih =>
      cases fuel with
      | zero => rw [dispatch]
      | succ f =>
        rw [dispatch, if_pos (by decide)]
        cases f with
        | zero => rw [toFallback]
        | succ f =>
          rw [toFallback, if_pos (by decide)]
          exact ih f (by omega)
  exact key fuel

/-- C17 is false in a second way: `fixed` reads before its first symbol, here for the
    value zero. -/
theorem C17_fixed_fails : ∃ (styles : Styles) (name : Name) (value : Int), ∀ clusters fuel,
    construct clusters styles (fuel + 1) name value = some .crash := by
  refine ⟨fun _ => some { Style.initial with system := .fixed none, symbols := ["a", "b"] }, "f", 0, ?_⟩
  intro clusters fuel
  rfl

example : construct String.length sampleStyles 15 "loop" 4000
    = some (.text ["", "4", "0", "0", "0", ""]) := by
  have h : dispatchSystem decimalStyle 4000 = .repr ["4", "0", "0", "0"] := by
    simp [dispatchSystem, decimalStyle, numeric, numericLoop]
  have e : construct String.length sampleStyles 15 "loop" 4000
      = dispatch String.length sampleStyles 13 decimalStyle 4000 ["loop"] := by
    simp only [construct]
    rfl
  rw [e, dispatch, if_neg (by decide), show (4000 : Int).natAbs = 4000 from rfl, h]
  rfl

/-! ## C56: fallback -/

theorem definedFor_of_not_inRange {st : Style} {v : Int} (h : ¬ InRange st v) : definedFor st v = some false := by
  unfold definedFor
  cases hr : st.range with
  | none => exact absurd (inRange_auto hr) h
  | some rs =>
    simp only [Option.some.injEq, List.any_eq_false]
    intro r hm hin
    apply h
    intro rs' hr'
    rw [hr] at hr'
    cases hr'
    unfold inRange at hin
    rw [Bool.and_eq_true] at hin
    refine ⟨r, hm, ?_, ?_⟩
    · intro lo hlo
      simpa [hlo] using hin.1
    · intro hi hhi
      simpa [hhi] using hin.2

/-- C56: a value outside the range of a style, or that its system cannot write, is shown
    just as the fallback style shows it: here when that style writes it itself. -/
theorem C56_fallback (clusters : Sym → Nat) (styles : Styles) (name : Name) (st fb : Style) (value : Int)
    (hreg : Registered styles name st) (hfb : Registered styles st.fallback fb) (hne : st.fallback ≠ name)
    (hout : ¬ InRange st value ∨ dispatchSystem st value.natAbs = .undefined)
    (hr : InRange fb value) (body : List Sym) (hrep : dispatchSystem fb value.natAbs = .repr body) (fuel : Nat) :
    construct clusters styles (fuel + 3) name value = construct clusters styles (fuel + 1) st.fallback value ∧
    Shows (construct clusters styles (fuel + 3) name value) body := by
  have h1 := construct_repr (clusters := clusters) hfb hr hrep fuel
  have h2 : construct clusters styles (fuel + 3) name value = some (.text (finish clusters fb value body)) := by
    have ht : toFallback clusters styles (fuel + 2) st value [name] = some (.text (finish clusters fb value body)) := by
      have hfb' : styles st.fallback = some fb := hfb
      rw [toFallback, if_neg (by simpa using hne), hfb']
      simp only [Option.orElse_some]
      rw [dispatch, if_neg (definedFor_of_inRange hr), hrep]
    have hreg' : styles name = some st := hreg
    simp only [construct, hreg', Option.orElse_some]
    rw [dispatch]
    split
    · exact ht
    · rename_i hd
      rcases hout with hout | hout
      · exact absurd (definedFor_of_not_inRange hout) hd
      · rw [hout]; exact ht
  refine ⟨by rw [h1, h2], ?_⟩
  obtain ⟨b, a, h⟩ := finish_frame clusters fb value body
  exact ⟨b, a, by rw [h2, h]⟩

example : ¬ InRange roman 4000 := by
  intro h
  obtain ⟨r, hr, h1, h2⟩ := h _ rfl
  simp at hr
  subst hr
  exact absurd (h2 3999 rfl) (by decide)

/-! ## C53: fixed -/

/-- The symbol of a fixed style whose first symbol stands for `first`. -/
def FixedShows (styles : Styles) (name : Name) (st : Style) (first : Int) (clusters : Sym → Nat) (fuel : Nat) : Prop :=
  ∀ i (h : i < st.symbols.length), InRange st (first + i) →
    Shows (construct clusters styles (fuel + 1) name (first + i)) [st.symbols[i]]

/-- C53 when no first value is given (it is then 1). -/
theorem C53_fixed_partial (clusters : Sym → Nat) (styles : Styles) (name : Name) (st : Style)
    (hreg : Registered styles name st) (hs : st.system = .fixed none) (fuel : Nat) :
    FixedShows styles name st 1 clusters fuel := by
  intro i hi hr
  refine shows_of_repr hreg hr ?_ fuel
  have hn : (((1 + (i : Int)).natAbs : Nat) : Int) = 1 + i := by omega
  simp only [dispatchSystem, hs, fixed, Option.getD_none]
  rw [hn, if_neg (by omega), if_neg (by omega), if_neg (by omega)]
  have : (1 + (i : Int) - 0 - 1).toNat = i := by omega
  rw [this, List.getElem?_eq_getElem hi]

/-- C53 with a first value: every symbol is shown one value late. -/
theorem C53_late_partial (clusters : Sym → Nat) (styles : Styles) (name : Name) (st : Style) (first : Int)
    (hf : 0 ≤ first) (hreg : Registered styles name st) (hs : st.system = .fixed (some first)) (fuel : Nat) :
    FixedShows styles name st (first + 1) clusters fuel := by
  intro i hi hr
  refine shows_of_repr hreg hr ?_ fuel
  have hn : (((first + 1 + (i : Int)).natAbs : Nat) : Int) = first + 1 + i := by omega
  simp only [dispatchSystem, hs, fixed, Option.getD_some]
  rw [hn, if_neg (by omega), if_neg (by omega), if_neg (by omega)]
  have : (first + 1 + (i : Int) - first - 1).toNat = i := by omega
  rw [this, List.getElem?_eq_getElem hi]

/-- C53 is false: `system: fixed 5` crashes on 5. -/
theorem C53_fails : ∃ (styles : Styles) (name : Name) (st : Style) (first : Int),
    Registered styles name st ∧ st.system = .fixed (some first) ∧
    ∀ clusters fuel, ¬ FixedShows styles name st first clusters fuel := by
  refine ⟨fun _ => some { Style.initial with system := .fixed (some 5), symbols := ["a", "b"] }, "f",
    { Style.initial with system := .fixed (some 5), symbols := ["a", "b"] }, 5, rfl, rfl, ?_⟩
  intro clusters fuel h
  obtain ⟨b, a, hh⟩ := h 0 (by decide) (inRange_auto rfl)
  have : construct clusters (fun _ => some { Style.initial with system := .fixed (some 5), symbols := ["a", "b"] })
      (fuel + 1) "f" (5 + ((0 : Nat) : Int)) = some .crash := rfl
  rw [this] at hh
  cases hh

example : construct String.length (fun _ => some { Style.initial with system := .fixed none, symbols := ["a", "b"] }) 1
    "f" 2 = some (.text ["", "b", ". "]) := by decide

/-! ## C54: sign, padding, prefix and suffix -/

/-- The padded body as CSS has it, leaving the sign out of the count as the code does. -/
def Padded (clusters : Sym → Nat) (st : Style) (body out : List Sym) : Prop :=
  ∃ k, out = List.replicate k st.pad.2 ++ body ∧
    (st.pad.2 ≠ "" → (k : Int) = max 0 (st.pad.1 - (body.map clusters).sum)) ∧ (st.pad.2 = "" → k = 0)

/-- What should be printed around a body: prefix, sign, padding, body, sign, suffix. -/
def Framed (clusters : Sym → Nat) (st : Style) (value : Int) (body : List Sym) (text : String) : Prop :=
  ∃ padded, Padded clusters st body padded ∧
    text = st.prefix_ ++ (if value < 0 then st.negative.1 else "") ++ textOf padded ++
      (if value < 0 then st.negative.2.getD "" else "") ++ st.suffix

theorem padded_finish (clusters : Sym → Nat) (st : Style) (body : List Sym) :
    Padded clusters st body
      (if st.pad.1 ≠ 0 ∧ st.pad.2 ≠ "" then
        let len : Int := ((body.map clusters).sum : Nat)
        if len < st.pad.1 then List.replicate (st.pad.1 - len).toNat st.pad.2 ++ body else body
      else body) := by
  split
  · rename_i hp
    dsimp only
    split
    · exact ⟨_, rfl, fun _ => by omega, fun h => absurd h hp.2⟩
    · exact ⟨0, rfl, fun _ => by omega, fun h => rfl⟩
  · rename_i hp
    refine ⟨0, rfl, fun h => ?_, fun _ => rfl⟩
    have : st.pad.1 = 0 := by
      rcases Classical.em (st.pad.1 = 0) with h0 | h0
      · exact h0
      · exact absurd ⟨h0, h⟩ hp
    omega

theorem textOf_cons (a : Sym) (s : List Sym) : textOf (a :: s) = a ++ textOf s := by
  unfold textOf
  rw [String.join_cons]

theorem textOf_append (a b : List Sym) : textOf (a ++ b) = textOf a ++ textOf b := by
  induction a with
  | nil => simp [textOf, String.join]
  | cons x a ih => rw [List.cons_append, textOf_cons, textOf_cons, ih, String.append_assoc]

theorem textOf_nil : textOf [] = "" := rfl

/-- C54 for values that are not negative, and for styles with no prefix. -/
theorem C54_frame_partial (clusters : Sym → Nat) (styles : Styles) (name : Name) (st : Style) (value : Int)
    (hreg : Registered styles name st) (hr : InRange st value) (body : List Sym)
    (hrep : dispatchSystem st value.natAbs = .repr body) (hguard : 0 ≤ value ∨ st.prefix_ = "") (fuel : Nat) :
    ∃ s, construct clusters styles (fuel + 1) name value = some (.text s) ∧
      Framed clusters st value body (textOf s) := by
  refine ⟨_, construct_repr hreg hr hrep fuel, _, padded_finish clusters st body, ?_⟩
  unfold finish
  dsimp only
  generalize (if st.pad.1 ≠ 0 ∧ st.pad.2 ≠ "" then
        if (((body.map clusters).sum : Nat) : Int) < st.pad.1 then
          List.replicate (st.pad.1 - (((body.map clusters).sum : Nat) : Int)).toNat st.pad.2 ++ body else body
      else body) = p
  by_cases hv : value < 0
  · have hp : st.prefix_ = "" := hguard.resolve_left (by omega)
    simp only [hv, if_true, hp]
    cases st.negative.2 with
    | none =>
      simp only [textOf_append, textOf_cons, textOf_nil, Option.getD_none, String.empty_append, String.append_empty,
        String.append_assoc]
    | some a =>
      simp only [textOf_append, textOf_cons, textOf_nil, Option.getD_some, String.empty_append, String.append_empty,
        String.append_assoc]
  · simp only [hv, if_false, textOf_append, textOf_cons, textOf_nil, String.append_empty, String.append_assoc]

def bracketed : Style := { decimalStyle with prefix_ := "(" }

/-- C54 is false: with a prefix, the sign is written before it. -/
theorem C54_fails : ∃ (styles : Styles) (name : Name) (st : Style) (value : Int) (body : List Sym),
    Registered styles name st ∧ InRange st value ∧ dispatchSystem st value.natAbs = .repr body ∧
    ∀ clusters fuel, ¬ ∃ s, construct clusters styles (fuel + 1) name value = some (.text s) ∧
      Framed clusters st value body (textOf s) := by
  have h0 : dispatchSystem bracketed (-1 : Int).natAbs = .repr ["1"] := by
    simp [dispatchSystem, bracketed, decimalStyle, numeric, numericLoop]
  have hreg : Registered (fun _ => some bracketed) "p" bracketed := rfl
  refine ⟨fun _ => some bracketed, "p", bracketed, -1, ["1"], rfl, inRange_auto rfl, h0, ?_⟩
  rintro clusters fuel ⟨s, h1, p, ⟨k, hp, _, hk⟩, h2⟩
  rw [construct_repr hreg (inRange_auto rfl) h0] at h1
  simp only [Option.some.injEq, Out.text.injEq] at h1
  have hk0 : k = 0 := hk rfl
  subst hk0
  subst hp
  subst h1
  revert h2
  simp [finish, bracketed, decimalStyle, Style.initial, textOf, String.join]

def zeros : Style := { decimalStyle with pad := (3, "0") }

example : construct String.length (fun _ => some zeros) 1 "p" (-7) = some (.text ["-", "", "0", "0", "7", ""]) := by
  rw [construct_repr (show Registered (fun _ => some zeros) "p" zeros from rfl) (s := ["7"]) (inRange_auto rfl)
    (by simp [dispatchSystem, zeros, decimalStyle, numeric, numericLoop])]
  decide

/-! ## C55: `extends` -/

/-- C55: resolving `extends` always ends, for any set of rules; a style results for every
    rule; none is left with an `extends` system; and unless following `extends` from a
    rule runs in a circle, each descriptor of its style is the first given along the way. -/
theorem C55_extends (counters : DescSet) :
    ∃ resolved, resolveExtends counters (counters.length + 1) = some resolved ∧
      (∀ n, (look counters n).isSome → (look resolved n).isSome) ∧
      (∀ n st, look resolved n = some st → ∀ m, st.system ≠ .extends_ m) ∧
      (∀ n ds, Chain counters n ds → (look counters n).isSome → look resolved n = some (styleOf ds)) := by
  obtain ⟨res, h1, h2, _, h4⟩ := resolve_fold counters (counters.length + 1) (by omega) counters []
    (by intro n st h; cases h) (fun kv h => isSome_look_of_mem h)
  have hall : ∀ n, (look counters n).isSome → (look res n).isSome := by
    intro n hn
    obtain ⟨d, hd⟩ := Option.isSome_iff_exists.1 hn
    obtain ⟨kv, hm, hk⟩ := List.mem_map.1 (mem_keys_of_look hd)
    rw [← hk]
    exact h4 kv hm
  refine ⟨res, h1, hall, fun n st h => (h2 n st h).1.2, ?_⟩
  intro n ds hc hn
  obtain ⟨st, hst⟩ := Option.isSome_iff_exists.1 (hall n hn)
  rw [hst, (h2 n st hst).1.1 ds hc]

/-- `a` extends `b`, which extends `c`; `x` and `y` run in a circle. -/
def sampleRules : DescSet :=
  [("a", { system := some (.extends_ "b"), suffix := some ")" }),
   ("b", { system := some (.extends_ "c"), pad := some (2, "0") }),
   ("c", { system := some .numeric, symbols := some ["0", "1"], suffix := some "." }),
   ("x", { system := some (.extends_ "y") }), ("y", { system := some (.extends_ "x") })]

example : ∃ ds, Chain sampleRules "a" ds ∧ (styleOf ds).suffix = ")" ∧ (styleOf ds).pad = (2, "0") ∧
    (styleOf ds).system = .numeric :=
  ⟨_, .step rfl rfl (.step rfl rfl (.last rfl (by intro m h; cases h))), rfl, rfl, rfl⟩

end Verif.Counter
