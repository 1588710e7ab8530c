import Verif.Counter.StyleSpec
/-! # Counter styles: lemmas -/
namespace Verif.Counter

theorem getD_of_lt {syms : List Sym} {i : Nat} (h : i < syms.length) : syms.getD i "" = syms[i] := by
  simp [List.getD, h]

theorem inBase_append (n : Nat) (a b : List Nat) :
    inBase n (a ++ b) = inBase n a * n ^ b.length + inBase n b := by
  induction a with
  | nil => simp [inBase]
  | cons d ds ih =>
    simp only [List.cons_append, inBase, ih, List.length_append, Nat.pow_add, Nat.add_mul, Nat.mul_assoc]
    omega

theorem inBij_append (n : Nat) (a b : List Nat) :
    inBijectiveBase n (a ++ b) = inBijectiveBase n a * n ^ b.length + inBijectiveBase n b := by
  induction a with
  | nil => simp [inBijectiveBase]
  | cons d ds ih =>
    simp only [List.cons_append, inBijectiveBase, ih, List.length_append, Nat.pow_add]
    rw [Nat.add_mul ((d + 1) * n ^ ds.length), ← Nat.mul_assoc]
    omega

theorem numericLoop_spec (syms : List Sym) (h : 2 ≤ syms.length) (v : Nat) :
    ∀ s, ∃ ds, numericLoop syms h v s = pick syms ds ++ s ∧ (∀ d ∈ ds, d < syms.length) ∧
      inBase syms.length ds = v ∧ ds.head? ≠ some 0 ∧ (v ≠ 0 → ds ≠ []) := by
  induction v using Nat.strongRecOn with
  | ind v ih =>
    intro s
    rw [numericLoop]
    by_cases hv : v = 0
    · simp only [hv, if_true]
      exact ⟨[], by simp [pick], by simp, rfl, by simp, by simp⟩
    · rw [if_neg hv]
      have hlt := Nat.div_lt_self (Nat.pos_of_ne_zero hv) h
      obtain ⟨ds, h1, h2, h3, h4, h5⟩ := ih _ hlt (syms[v % syms.length]'(Nat.mod_lt _ (by omega)) :: s)
      have hm : v % syms.length < syms.length := Nat.mod_lt _ (by omega)
      refine ⟨ds ++ [v % syms.length], ?_, ?_, ?_, ?_, by simp⟩
      · rw [h1]; simp [pick, hm]
      · intro d hd
        rcases List.mem_append.1 hd with hd | hd
        · exact h2 d hd
        · rw [List.mem_singleton.1 hd]; exact hm
      · rw [inBase_append, h3]
        simp only [inBase, List.length_singleton, List.length_nil, Nat.pow_one, Nat.pow_zero, Nat.mul_one,
          Nat.add_zero]
        exact Nat.div_add_mod' v _
      · cases ds with
        | nil =>
          simp only [inBase] at h3
          simp only [List.nil_append, List.head?_cons, ne_eq, Option.some.injEq]
          have := Nat.div_add_mod' v syms.length
          rw [← h3] at this
          omega
        | cons d ds => simpa using h4

theorem alphabeticLoop_spec (syms : List Sym) (h : 2 ≤ syms.length) (v : Nat) :
    ∀ s, ∃ ds, alphabeticLoop syms h v s = pick syms ds ++ s ∧ (∀ d ∈ ds, d < syms.length) ∧
      inBijectiveBase syms.length ds = v := by
  induction v using Nat.strongRecOn with
  | ind v ih =>
    intro s
    rw [alphabeticLoop]
    by_cases hv : v = 0
    · simp only [hv, if_true]
      exact ⟨[], by simp [pick], by simp, rfl⟩
    · rw [if_neg hv]
      have hlt : (v - 1) / syms.length < v := by
        have := Nat.div_le_self (v - 1) syms.length
        omega
      obtain ⟨ds, h1, h2, h3⟩ := ih _ hlt (syms[(v - 1) % syms.length]'(Nat.mod_lt _ (by omega)) :: s)
      have hm : (v - 1) % syms.length < syms.length := Nat.mod_lt _ (by omega)
      refine ⟨ds ++ [(v - 1) % syms.length], ?_, ?_, ?_⟩
      · rw [h1]; simp [pick, hm]
      · intro d hd
        rcases List.mem_append.1 hd with hd | hd
        · exact h2 d hd
        · rw [List.mem_singleton.1 hd]; exact hm
      · rw [inBij_append, h3]
        simp only [inBijectiveBase, List.length_singleton, List.length_nil, Nat.pow_one, Nat.pow_zero,
          Nat.mul_one, Nat.add_zero]
        have := Nat.div_add_mod' (v - 1) syms.length
        omega

theorem pick_inj {syms : List Sym} (hn : syms.Nodup) :
    ∀ {a b : List Nat}, (∀ d ∈ a, d < syms.length) → (∀ d ∈ b, d < syms.length) →
      pick syms a = pick syms b → a = b
  | [], [], _, _, _ => rfl
  | [], _ :: _, _, _, h => by simp [pick] at h
  | _ :: _, [], _, _, h => by simp [pick] at h
  | x :: a, y :: b, ha, hb, h => by
    simp only [pick, List.map_cons, List.cons.injEq] at h
    have hx := ha x (by simp)
    have hy := hb y (by simp)
    rw [getD_of_lt hx, getD_of_lt hy] at h
    have e : x = y := (List.getElem_inj hn).1 h.1
    rw [e, pick_inj hn (fun d hd => ha d (by simp [hd])) (fun d hd => hb d (by simp [hd])) h.2]

theorem definedFor_of_inRange {st : Style} {v : Int} (h : InRange st v) : definedFor st v ≠ some false := by
  unfold definedFor
  cases hr : st.range with
  | none => simp
  | some rs =>
    obtain ⟨r, hm, hlo, hhi⟩ := h rs hr
    have : rs.any (inRange · v) = true := by
      rw [List.any_eq_true]
      refine ⟨r, hm, ?_⟩
      unfold inRange
      rw [Bool.and_eq_true]
      constructor
      · cases h1 : r.1 with
        | none => rfl
        | some lo => simpa using hlo lo h1
      · cases h1 : r.2 with
        | none => rfl
        | some hi => simpa using hhi hi h1
    simp [this]

theorem finish_frame (clusters : Sym → Nat) (st : Style) (v : Int) (s : List Sym) :
    ∃ before after, finish clusters st v s = before ++ s ++ after := by
  unfold finish
  have hp : ∃ p, (if st.pad.1 ≠ 0 ∧ st.pad.2 ≠ "" then
      let len : Int := ((s.map clusters).sum : Nat)
      if len < st.pad.1 then List.replicate (st.pad.1 - len).toNat st.pad.2 ++ s else s
    else s) = p ++ s := by
    split
    · dsimp only
      split
      · exact ⟨_, rfl⟩
      · exact ⟨[], rfl⟩
    · exact ⟨[], rfl⟩
  obtain ⟨p, hp⟩ := hp
  dsimp only at hp ⊢
  rw [hp]
  split
  · cases st.negative.2 with
    | none => exact ⟨st.negative.1 :: st.prefix_ :: p, [st.suffix], by simp⟩
    | some a => exact ⟨st.negative.1 :: st.prefix_ :: p, [a, st.suffix], by simp⟩
  · exact ⟨st.prefix_ :: p, [st.suffix], by simp⟩

theorem finish_unpadded {clusters : Sym → Nat} {st : Style} {v : Int} {s : List Sym} (hp : Unpadded st)
    (hv : 0 ≤ v) : finish clusters st v s = st.prefix_ :: (s ++ [st.suffix]) := by
  have : ¬ v < 0 := by omega
  unfold Unpadded at hp
  simp [finish, hp, this]

theorem construct_repr {clusters : Sym → Nat} {styles : Styles} {name : Name} {st : Style} {v : Int}
    {s : List Sym} (hreg : Registered styles name st) (hr : InRange st v)
    (hs : dispatchSystem st v.natAbs = .repr s) (fuel : Nat) :
    construct clusters styles (fuel + 1) name v = some (.text (finish clusters st v s)) := by
  unfold Registered at hreg
  simp only [construct, hreg, Option.orElse_some]
  rw [dispatch]
  rw [if_neg (definedFor_of_inRange hr), hs]

theorem shows_of_repr {clusters : Sym → Nat} {styles : Styles} {name : Name} {st : Style} {v : Int}
    {s : List Sym} (hreg : Registered styles name st) (hr : InRange st v)
    (hs : dispatchSystem st v.natAbs = .repr s) (fuel : Nat) :
    Shows (construct clusters styles (fuel + 1) name v) s := by
  obtain ⟨b, a, h⟩ := finish_frame clusters st v s
  exact ⟨b, a, by rw [construct_repr hreg hr hs, h]⟩

theorem spell_zeros : ∀ ts : List (Int × Sym), spell ts (ts.map (fun _ => 0)) = [] ∧
    total ts (ts.map (fun _ => 0)) = 0
  | [] => ⟨rfl, rfl⟩
  | t :: ts => by simp [spell, total, spell_zeros ts]

theorem additiveLoop_spec : ∀ (ts : List (Int × Sym)) (v : Int) (s out : List Sym),
    additiveLoop ts v s = .repr out →
    ∃ cs, cs.length = ts.length ∧ out = s ++ spell ts cs ∧ total ts cs = v
  | [], v, s, out, h => by
    unfold additiveLoop at h
    split at h
    · cases h
    · rename_i hv
      cases h
      exact ⟨[], rfl, by simp [spell], by simp only [total]; omega⟩
  | (w, sym) :: ts, v, s, out, h => by
    unfold additiveLoop at h
    split at h
    · obtain ⟨cs, h1, h2, h3⟩ := additiveLoop_spec ts v s out h
      exact ⟨0 :: cs, by simp [h1], by simp [spell, h2], by simp [total, h3]⟩
    · dsimp only at h
      split at h
      · cases h
      · rename_i hreps
        have hr : ((v.tdiv w).toNat : Int) = v.tdiv w := Int.toNat_of_nonneg (by omega)
        split at h
        · rename_i hz
          cases h
          obtain ⟨z1, z2⟩ := spell_zeros ts
          refine ⟨(v.tdiv w).toNat :: ts.map (fun _ => 0), by simp, by simp [spell, z1], ?_⟩
          simp only [total, z2, hr]
          omega
        · obtain ⟨cs, h1, h2, h3⟩ := additiveLoop_spec ts _ _ out h
          refine ⟨(v.tdiv w).toNat :: cs, by simp [h1], by simp [spell, h2], ?_⟩
          simp only [total, h3, hr]
          omega

end Verif.Counter
