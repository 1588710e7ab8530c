import Verif.Media.Reads

namespace Verif.Media
open Verif.Css Spec

/-! ## Fuel: reading ends -/

theorem eatWs_size (c : List Sst) : sizeOf (eatWs c) ≤ sizeOf c := by
  induction c with
  | nil => exact Nat.le_refl _
  | cons s r ih =>
    unfold eatWs
    split
    · simp only [List.cons.sizeOf_spec]; omega
    · exact Nat.le_refl _

theorem readValue_size {num : Kind → Sst → Option Int} {sh : Shape} {c r : List Sst} {v : Int}
    (h : readValue num sh c = some (v, r)) : sizeOf r ≤ sizeOf c := by
  have key : ∀ ks, readKeyword ks c = some (v, r) → sizeOf r ≤ sizeOf c := by
    intro ks h
    cases c with
    | nil => cases h
    | cons s c =>
      unfold readKeyword at h
      simp only [Option.map_eq_some_iff, Prod.mk.injEq] at h
      obtain ⟨k, -, -, rfl⟩ := h
      simp only [List.cons.sizeOf_spec]; omega
  cases sh with
  | keywords ks => cases c <;> exact key ks h
  | num k =>
    cases c with
    | nil => cases h
    | cons s c =>
      cases k with
      | resolution =>
        simp only [readValue] at h
        split at h
        · simp only [Option.map_eq_some_iff, Prod.mk.injEq] at h
          obtain ⟨k, -, -, rfl⟩ := h
          exact Nat.le_refl _
        · cases h
      | _ =>
        simp only [readValue, Option.map_eq_some_iff, Prod.mk.injEq] at h
        obtain ⟨k, -, -, rfl⟩ := h
        simp only [List.cons.sizeOf_spec]; omega
  | bool =>
    cases c with
    | nil => cases h
    | cons s c =>
      simp only [readValue, Option.map_eq_some_iff, Prod.mk.injEq] at h
      obtain ⟨k, -, -, rfl⟩ := h
      simp only [List.cons.sizeOf_spec]; omega

theorem parseFeature_size (num : Kind → Sst → Option Int) (c : List Sst) : sizeOf (parseFeature num c).2 ≤ sizeOf c := by
  unfold parseFeature
  split
  · exact Nat.le_refl _
  · rename_i t r
    have h0 := eatWs_size r
    split
    · dsimp only
      split
      · simp only [List.cons.sizeOf_spec]; omega
      · split
        · simp only [List.cons.sizeOf_spec, List.nil.sizeOf_spec]; omega
        · rename_i s r' he
          rw [he] at h0
          have h1 := eatWs_size r'
          simp only [List.cons.sizeOf_spec] at *
          split
          · split
            · simp only; omega
            · rename_i v r'' hv
              have := readValue_size hv
              simp only; omega
          · simp only [List.cons.sizeOf_spec]; omega
    · exact Nat.le_refl _
  · exact Nat.le_refl _

theorem parseSimple_size (num : Kind → Sst → Option Int) (c : List Sst) : sizeOf (parseSimple num c).2 ≤ sizeOf c := by
  unfold parseSimple
  split
  · rename_i t r h
    exact readValue_size (num := num) (sh := .keywords typeKeywords) (v := t) (by cases c <;> exact h)
  · exact parseFeature_size num c

/-- Did not run out of fuel, and left no more than there was. -/
def Fine (r : R (Query × List Sst)) (c : List Sst) : Prop :=
  r ≠ .out ∧ ∀ q c', r = .ok (q, c') → sizeOf c' ≤ sizeOf c

theorem Fine.ok {q : Query} {c' c : List Sst} (h : sizeOf c' ≤ sizeOf c) : Fine (.ok (q, c')) c :=
  ⟨by simp, fun _ _ e => by cases e; exact h⟩

theorem Fine.crash {c : List Sst} : Fine .crash c := ⟨by simp, fun _ _ e => by cases e⟩

theorem fine (num : Kind → Sst → Option Int) (n : Nat) :
    (∀ c, 3 * sizeOf c + 1 ≤ n → Fine (parseLeaf num n c) c) ∧
    (∀ c, 3 * sizeOf c + 2 ≤ n → Fine (parseInfix num n c) c) ∧
    (∀ l c, 3 * sizeOf c + 1 ≤ n → Fine (infixLoop num n l c) c) := by
  induction n with
  | zero => exact ⟨fun _ h => by omega, fun _ h => by omega, fun _ _ h => by omega⟩
  | succ n ih =>
    obtain ⟨ihl, ihi, ihp⟩ := ih
    refine ⟨?_, ?_, ?_⟩
    · intro c h
      cases c with
      | nil => exact Fine.crash
      | cons s r =>
        simp only [List.cons.sizeOf_spec] at h
        unfold parseLeaf
        split
        · have := ihi r (by omega)
          split
          · rename_i q c' e
            have := this.2 q c' e
            exact Fine.ok (by simp only [List.cons.sizeOf_spec]; omega)
          · exact Fine.crash
          · rename_i e; exact absurd e this.1
        · split
          · have := ihi r (by omega)
            refine ⟨this.1, fun q c' e => ?_⟩
            have := this.2 q c' e
            simp only [List.cons.sizeOf_spec]; omega
          · split
            · rename_i content _ _
              simp only [Sst.block.sizeOf_spec] at h
              have := ihi content (by omega)
              split
              · exact Fine.ok (by simp only [List.cons.sizeOf_spec]; omega)
              · exact Fine.crash
              · rename_i e; exact absurd e this.1
            · exact Fine.ok (parseSimple_size num _)
    · intro c h
      unfold parseInfix
      have hl := ihl c (by omega)
      split
      · rename_i q c' e
        have h1 := hl.2 q c' e
        have h2 := eatWs_size c'
        have h3 := ihp q (eatWs c') (by omega)
        exact ⟨h3.1, fun q' c'' e' => by have := h3.2 q' c'' e'; omega⟩
      · exact Fine.crash
      · rename_i e; exact absurd e hl.1
    · intro l c h
      cases c with
      | nil => exact Fine.ok (Nat.le_refl _)
      | cons s r =>
        simp only [List.cons.sizeOf_spec] at h
        have h2 := eatWs_size r
        have hl := ihl (eatWs r) (by omega)
        unfold infixLoop
        split
        · split
          · rename_i q c' e
            have h1 := hl.2 q c' e
            have h3 := ihp (.and l q) c' (by omega)
            exact ⟨h3.1, fun q' c'' e' => by have := h3.2 q' c'' e'; simp only [List.cons.sizeOf_spec]; omega⟩
          · exact Fine.crash
          · rename_i e; exact absurd e hl.1
        · split
          · split
            · rename_i q c' e
              have h1 := hl.2 q c' e
              have h3 := ihp (.or l q) c' (by omega)
              exact ⟨h3.1, fun q' c'' e' => by have := h3.2 q' c'' e'; simp only [List.cons.sizeOf_spec]; omega⟩
            · exact Fine.crash
            · rename_i e; exact absurd e hl.1
          · exact Fine.ok (Nat.le_refl _)

theorem listLoop_ends (num : Kind → Sst → Option Int) (fuel : Nat) (n : Nat) (l : Query) (c : List Sst)
    (hf : 3 * sizeOf c + 2 ≤ fuel) (hn : sizeOf c + 1 ≤ n) : listLoop num fuel n l c ≠ .out := by
  induction n generalizing l c with
  | zero => omega
  | succ n ih =>
    cases c with
    | nil => simp [listLoop]
    | cons s r =>
      simp only [List.cons.sizeOf_spec] at *
      unfold listLoop
      split
      · have h1 := eatWs_size r
        have := (fine num fuel).2.1 (eatWs r) (by omega)
        split
        · rename_i x c' e
          have h2 := this.2 x c' e
          have h3 := eatWs_size c'
          exact ih _ _ (by omega) (by omega)
        · simp
        · rename_i e; exact absurd e this.1
      · simp

theorem parseQuery_ends (num : Kind → Sst → Option Int) (fuel : Nat) (c : List Sst) (h : 3 * sizeOf c + 2 ≤ fuel) :
    parseQuery num fuel c ≠ .out := by
  have h0 := eatWs_size c
  unfold parseQuery
  split
  · simp
  · rename_i s r e
    rw [e] at h0
    have := (fine num fuel).2.1 (s :: r) (by omega)
    split
    · rename_i l c' e'
      have h1 := this.2 l c' e'
      have h2 := eatWs_size c'
      exact listLoop_ends num fuel fuel l _ (by omega) (by omega)
    · simp
    · rename_i e'; exact absurd e' this.1

/-! ## Whole lists -/

theorem type_leaf {num : Kind → Sst → Option Int} {s : Sst} {t : Text} {P : Media → Prop} (hs : Word s t)
    (ht : typeMeans t = some P) (ha : t ≠ u "all") (n : Nat) (r : List Sst) : ReadsTo (parseLeaf num n (s :: r)) r P := by
  cases n with
  | zero => exact .inl rfl
  | succ n =>
    have hall : t ∈ [u "print", u "screen", u "tty", u "tv", u "projection", u "handheld", u "braille", u "embossed", u "speech", u "aural"] := by
      unfold typeMeans at ht
      rw [if_neg ha] at ht
      split at ht
      · simp_all
      · split at ht
        · simp_all
        · split at ht
          · simp_all
          · cases ht
    obtain ⟨v, hv, hm⟩ : ∃ v, typeKeywords.find? (fun e => decide (e.1 = t)) = some (t, v) ∧
        Means (.feature (typeFeature v)) P := by
      simp only [List.mem_cons, List.not_mem_nil, or_false] at hall
      have e1 : typeMeans (u "print") = some fun m => m .type = typePrint := rfl
      rcases hall with rfl | rfl | rfl | rfl | rfl | rfl | rfl | rfl | rfl | rfl
      · refine ⟨typePrint, by decide +kernel, fun m _ => ?_⟩
        simp [typeMeans, show u "print" ≠ u "all" from by decide] at ht
        subst ht; simp [Query.match, Feature.match, typeFeature, discreteMatch]
      · refine ⟨typeScreen, by decide +kernel, fun m _ => ?_⟩
        simp [typeMeans, show u "screen" ≠ u "all" from by decide, show u "screen" ≠ u "print" from by decide] at ht
        subst ht; simp [Query.match, Feature.match, typeFeature, discreteMatch]
      all_goals
        refine ⟨typeOther, by decide +kernel, fun m hr => ?_⟩
        have hP : P = fun _ => False := by
          unfold typeMeans at ht
          rw [if_neg (by decide), if_neg (by decide), if_neg (by decide), if_pos (by decide)] at ht
          exact (Option.some.inj ht).symm
        subst hP
        simp [Query.match, Feature.match, typeFeature, discreteMatch]
        rcases hr with h | h <;> rw [h] <;> decide
    have hnot : t ≠ u "not" ∧ t ≠ u "only" := by
      simp only [List.mem_cons, List.not_mem_nil, or_false] at hall
      rcases hall with rfl | rfl | rfl | rfl | rfl | rfl | rfl | rfl | rfl | rfl <;> decide
    refine .inr ⟨_, ?_, hm⟩
    have hk : readKeyword typeKeywords (s :: r) = some (v, r) := by
      rw [readKeyword, word_find hs (by decide +kernel), hv]; rfl
    have hb : ∀ c, s ≠ .block c := by
      obtain ⟨d, rfl, -⟩ := hs; simp
    unfold parseLeaf
    simp only [hs.not (b := u "not") (by decide) hnot.1, hs.not (b := u "only") (by decide) hnot.2]
    simp only [Bool.false_eq_true, if_false]
    obtain ⟨d, rfl, -⟩ := hs
    simp [parseSimple, hk]

theorem infix_query {num : Kind → Sst → Option Int} {c : List Sst} {P : Media → Prop} (h : QueryText num true c P)
    (n : Nat) (rest : List Sst) (hst : Stop rest) : Reads (parseInfix num n (c ++ rest)) rest P := by
  cases h with
  | condition hc => exact infix_condition hc n rest hst
  | @type s t P rest' Ps hs ht ha hc =>
    cases n with
    | zero => exact .inl rfl
    | succ n =>
      have he : (fun m => P m ∧ ∀ Q ∈ Ps, Q m) = chainMeans (u "and") P Ps := by funext m; simp [chainMeans]
      rw [he, List.cons_append]
      exact infix_chain (type_leaf hs ht (ha rfl) n _) fun l hl => loop_chain hc (.inl rfl) n rest hst l P hl
  | notType hf => cases hf
  | onlyType hf => cases hf

theorem Spec.QueryText.head {num : Kind → Sst → Option Int} {c : List Sst} {P : Media → Prop} (h : QueryText num true c P) :
    ∃ s r, c = s :: r ∧ s.is .ws = false := by
  cases h with
  | condition hc =>
    cases hc with
    | single hp => cases hp <;> exact ⟨_, _, rfl, rfl⟩
    | not hf => cases hf
    | ands hp => cases hp <;> exact ⟨_, _, rfl, rfl⟩
    | ors hp => cases hp <;> exact ⟨_, _, rfl, rfl⟩
  | type hs => exact ⟨_, _, rfl, hs.notWs⟩
  | notType hf => cases hf
  | onlyType hf => cases hf

theorem eatWs_query {num : Kind → Sst → Option Int} {w c : List Sst} {P : Media → Prop} (hw : Blank w)
    (h : QueryText num true c P) (r : List Sst) : eatWs (w ++ (c ++ r)) = c ++ r := by
  obtain ⟨s, t, rfl, hs⟩ := h.head
  rw [eatWs_blank hw]
  exact eatWs_cons hs _

/-- A list after its first query. -/
theorem listLoop_text {num : Kind → Sst → Option Int} (fuel n : Nat) {c : List Sst} {Ps : List (Media → Prop)}
    (h : ListText num true c Ps) (l : Query) (P : Media → Prop) (hl : Means l P) (d : Text) :
    listLoop num fuel n l (.tok ⟨.comma, d⟩ :: c) = .out ∨
    ∃ q, listLoop num fuel n l (.tok ⟨.comma, d⟩ :: c) = .ok q ∧ Means q (fun m => P m ∨ ∃ Q ∈ Ps, Q m) := by
  induction n generalizing c Ps l P d with
  | zero => exact .inl rfl
  | succ n ih =>
    have step : ∀ {q w₀ rest : List Sst} {Q}, Blank w₀ → QueryText num true q Q → Stop rest →
        listLoop num fuel (n + 1) l (.tok ⟨.comma, d⟩ :: (w₀ ++ (q ++ rest))) = .out ∨
        ∃ x, Means x (fun m => P m ∨ Q m) ∧ listLoop num fuel (n + 1) l (.tok ⟨.comma, d⟩ :: (w₀ ++ (q ++ rest))) =
          listLoop num fuel n x (eatWs rest) := by
      intro q w₀ rest Q h₀ hq hst
      rw [listLoop, if_pos (show (Sst.tok ⟨.comma, d⟩).is .comma = true from rfl), eatWs_query h₀ hq]
      rcases infix_query hq fuel rest hst with e | ⟨x, r, e, hr, hm⟩
      · rw [e]; exact .inl rfl
      · rw [e]
        refine .inr ⟨.or l x, fun m hr => by simp [Query.match, hl m hr, hm m hr], ?_⟩
        dsimp only
        rw [hr]
    cases h with
    | @one w₀ q w₁ Q h₀ h₁ hq =>
      rcases step h₀ hq (Stop.blank h₁) with e | ⟨x, hx, e⟩
      · exact .inl e
      · rw [e, eatWs_blank_nil h₁]
        cases n with
        | zero => exact .inl rfl
        | succ n => exact .inr ⟨x, rfl, by simpa using hx⟩
    | @cons w₀ q w₁ d' rest Q Qs h₀ h₁ hq hl' =>
      have hst : Stop (w₁ ++ .tok ⟨.comma, d'⟩ :: rest) :=
        .inr ⟨.tok ⟨.comma, d'⟩, rest, by rw [eatWs_blank h₁]; exact eatWs_cons rfl _, rfl⟩
      rcases step h₀ hq hst with e | ⟨x, hx, e⟩
      · exact .inl e
      · rw [e, eatWs_blank h₁, eatWs_cons rfl]
        rcases ih hl' x _ hx d' with e | ⟨q', e, hm⟩
        · exact .inl e
        · exact .inr ⟨q', e, by simpa [or_assoc] using hm⟩

theorem parseQuery_text {num : Kind → Sst → Option Int} (fuel : Nat) {c : List Sst} {P : Media → Prop}
    (h : MediaText num true c P) : parseQuery num fuel c = .out ∨ ∃ q, parseQuery num fuel c = .ok q ∧ Means q P := by
  cases h with
  | empty hw =>
    unfold parseQuery
    rw [eatWs_blank_nil hw]
    exact .inr ⟨.none, rfl, fun m _ => by simp [Query.match]⟩
  | @list Ps hl =>
    have step : ∀ {q w₀ rest : List Sst} {Q}, Blank w₀ → QueryText num true q Q → Stop rest →
        parseQuery num fuel (w₀ ++ (q ++ rest)) = .out ∨
        ∃ x, Means x Q ∧ parseQuery num fuel (w₀ ++ (q ++ rest)) = listLoop num fuel fuel x (eatWs rest) := by
      intro q w₀ rest Q h₀ hq hst
      unfold parseQuery
      rw [eatWs_query h₀ hq]
      have hi := infix_query hq fuel rest hst
      obtain ⟨s, t, rfl, hs⟩ := hq.head
      rw [List.cons_append] at hi ⊢
      dsimp only
      rcases hi with e | ⟨x, r, e, hr, hm⟩
      · rw [e]; exact .inl rfl
      · rw [e]
        refine .inr ⟨x, hm, ?_⟩
        dsimp only
        rw [hr]
    cases hl with
    | @one w₀ q w₁ Q h₀ h₁ hq =>
      rcases step h₀ hq (Stop.blank h₁) with e | ⟨x, hx, e⟩
      · exact .inl e
      · rw [e, eatWs_blank_nil h₁]
        cases fuel with
        | zero => exact .inl rfl
        | succ n => exact .inr ⟨x, rfl, by simpa using hx⟩
    | @cons w₀ q w₁ d' rest Q Qs h₀ h₁ hq hl' =>
      have hst : Stop (w₁ ++ .tok ⟨.comma, d'⟩ :: rest) :=
        .inr ⟨.tok ⟨.comma, d'⟩, rest, by rw [eatWs_blank h₁]; exact eatWs_cons rfl _, rfl⟩
      rcases step h₀ hq hst with e | ⟨x, hx, e⟩
      · exact .inl e
      · rw [e, eatWs_blank h₁, eatWs_cons rfl]
        rcases listLoop_text fuel fuel hl' x _ hx d' with e | ⟨q', e, hm⟩
        · exact .inl e
        · exact .inr ⟨q', e, by simpa using hm⟩

end Verif.Media
