import Verif.Media.Lemmas

namespace Verif.Media
open Verif.Css Spec

/-- The query means `P` on the media there are. -/
def Means (q : Query) (P : Media → Prop) : Prop := ∀ m, Real m → (q.match m = true ↔ P m)

/-- Nothing further belongs to the query: only white space to the end or to a comma. -/
def Stop (c : List Sst) : Prop := eatWs c = [] ∨ ∃ s r, eatWs c = s :: r ∧ s.is .comma = true

/-- Unless fuel runs out, a query meaning `P` is read and `rest` is left, up to white space. -/
def Reads (r : R (Query × List Sst)) (rest : List Sst) (P : Media → Prop) : Prop :=
  r = .out ∨ ∃ q rest', r = .ok (q, rest') ∧ eatWs rest' = eatWs rest ∧ Means q P

/-- The same with exactly `rest` left. -/
def ReadsTo (r : R (Query × List Sst)) (rest : List Sst) (P : Media → Prop) : Prop :=
  r = .out ∨ ∃ q, r = .ok (q, rest) ∧ Means q P

theorem eatWs_eatWs (c : List Sst) : eatWs (eatWs c) = eatWs c := eatWs_idem c

theorem Stop.blank {w : List Sst} (h : Blank w) : Stop w := .inl (eatWs_blank_nil h)

theorem comma_apart {s : Sst} (h : s.is .comma = true) {k : Text} : s.isIdent k = false := by
  cases s <;> simp_all [Sst.is, Sst.isIdent, Tok.same]

theorem ws_apart {s : Sst} (h : s.is .ws = true) {k : Text} : s.isIdent k = false := by
  cases s <;> simp_all [Sst.is, Sst.isIdent, Tok.same]

/-- What follows a query is no `and` or `or`. -/
theorem Stop.head {s : Sst} {r : List Sst} (h : Stop (s :: r)) {k : Text} : s.isIdent k = false := by
  cases hs : s.is .ws with
  | true => exact ws_apart hs
  | false =>
    rcases h with h | ⟨t, r', h, ht⟩
    · rw [eatWs_cons hs] at h; simp at h
    · rw [eatWs_cons hs] at h; cases h; exact comma_apart ht

/-- At the end of a query the loop leaves. -/
theorem infixLoop_stop {num : Kind → Sst → Option Int} (n : Nat) (l : Query) {c : List Sst} (h : Stop c) :
    infixLoop num n l c = .out ∨ infixLoop num n l c = .ok (l, c) := by
  cases n with
  | zero => exact .inl rfl
  | succ n =>
    cases c with
    | nil => exact .inr rfl
    | cons s r => right; unfold infixLoop; simp [h.head]

/-- What a chain says, added to what was read before it. -/
def chainMeans (kw : Text) (P : Media → Prop) (Ps : List (Media → Prop)) (m : Media) : Prop :=
  if kw = u "and" then P m ∧ ∀ Q ∈ Ps, Q m else P m ∨ ∃ Q ∈ Ps, Q m

theorem leaf_block {num : Kind → Sst → Option Int} {n : Nat} {content left rest : List Sst} {P : Media → Prop}
    (h : Reads (parseInfix num n content) left P) : ReadsTo (parseLeaf num (n + 1) (.block content :: rest)) rest P := by
  unfold parseLeaf
  simp only [show (Sst.block content).isIdent (u "not") = false from rfl,
    show (Sst.block content).isIdent (u "only") = false from rfl]
  rcases h with h | ⟨q, r, h, -, hm⟩
  · rw [h]; exact .inl rfl
  · rw [h]; exact .inr ⟨q, rfl, hm⟩

theorem leaf_feature {num : Kind → Sst → Option Int} {c : List Sst} {P : Media → Prop} (h : FeatureText num true c P) (n : Nat) :
    parseLeaf num n c = .out ∨ ∃ q w, parseLeaf num n c = .ok (q, w) ∧ Idle w ∧ Means q P := by
  obtain ⟨d, r, F, w, rfl, hp, hw, hm, hnot, honly, hty⟩ := parseFeature_text h
  cases n with
  | zero => exact .inl rfl
  | succ n =>
    have hW : Word (.tok ⟨.ident, d⟩) (d.map lower) := ⟨d, rfl, rfl⟩
    refine .inr ⟨.feature F, w, ?_, hw, fun m _ => hm m⟩
    unfold parseLeaf
    simp only [hW.not (b := u "not") (by decide) hnot, hW.not (b := u "only") (by decide) honly]
    simp [parseSimple, not_type hty, hp]

theorem infix_feature {num : Kind → Sst → Option Int} {c : List Sst} {P : Media → Prop} (h : FeatureText num true c P) (n : Nat) :
    ∃ left, Reads (parseInfix num n c) left P := by
  cases n with
  | zero => exact ⟨[], .inl rfl⟩
  | succ n =>
    unfold parseInfix
    rcases leaf_feature h n with e | ⟨q, w, e, hw, hm⟩
    · rw [e]; exact ⟨[], .inl rfl⟩
    · rw [e]; dsimp only
      rcases hw with hw | ⟨s, r, rfl, hs⟩
      · rw [eatWs_blank_nil hw]
        rcases infixLoop_stop (num := num) n q (c := []) (.inl rfl) with e | e
        · rw [e]; exact ⟨[], .inl rfl⟩
        · rw [e]; exact ⟨[], .inr ⟨q, [], rfl, rfl, hm⟩⟩
      · have hi : ∀ k, s.isIdent k = false := fun k => by
          cases s <;> simp_all [Sst.is, Sst.isIdent, Tok.same]
        have hw : s.is .ws = false := by
          cases s <;> simp_all [Sst.is]
        rw [eatWs_cons hw]
        cases n with
        | zero => exact ⟨[], .inl rfl⟩
        | succ n =>
          refine ⟨s :: r, .inr ⟨q, s :: r, ?_, rfl, hm⟩⟩
          unfold infixLoop
          simp [hi]

theorem infix_chain {num : Kind → Sst → Option Int} {n : Nat} {c rest chain : List Sst} {kw : Text} {P : Media → Prop}
    {Ps : List (Media → Prop)} (hl : ReadsTo (parseLeaf num n c) (chain ++ rest) P)
    (hc : ∀ l, Means l P → Reads (infixLoop num n l (eatWs (chain ++ rest))) rest (chainMeans kw P Ps)) :
    Reads (parseInfix num (n + 1) c) rest (chainMeans kw P Ps) := by
  unfold parseInfix
  rcases hl with e | ⟨q, e, hm⟩
  · rw [e]; exact .inl rfl
  · rw [e]; exact hc q hm

/-- One step of a chain. -/
theorem chain_step {num : Kind → Sst → Option Int} {n : Nat} {l : Query} {s : Sst} {kw : Text} {P Q : Media → Prop}
    {Qs : List (Media → Prop)} {r tail rest : List Sst} (hk : kw = u "and" ∨ kw = u "or") (hs : Word s kw) (hl : Means l P)
    (hleaf : ReadsTo (parseLeaf num n (eatWs r)) tail Q)
    (hc : ∀ l P, Means l P → Reads (infixLoop num n l tail) rest (chainMeans kw P Qs)) :
    Reads (infixLoop num (n + 1) l (s :: r)) rest (chainMeans kw P (Q :: Qs)) := by
  unfold infixLoop
  rcases hk with rfl | rfl
  · rw [if_pos (hs.is (by decide))]
    rcases hleaf with e | ⟨q, e, hq⟩
    · rw [e]; exact .inl rfl
    · rw [e]
      have hm : Means (.and l q) (fun m => P m ∧ Q m) := fun m hr => by simp [Query.match, hl m hr, hq m hr]
      have he : chainMeans (u "and") (fun m => P m ∧ Q m) Qs = chainMeans (u "and") P (Q :: Qs) := by
        funext m; simp [chainMeans, and_assoc]
      rw [← he]; exact hc _ _ hm
  · have hn : s.isIdent (u "and") = false := hs.not (by decide) (by decide)
    rw [hn, if_neg (by simp), if_pos (hs.is (by decide))]
    rcases hleaf with e | ⟨q, e, hq⟩
    · rw [e]; exact .inl rfl
    · rw [e]
      have hm : Means (.or l q) (fun m => P m ∨ Q m) := fun m hr => by simp [Query.match, hl m hr, hq m hr]
      have he : chainMeans (u "or") (fun m => P m ∨ Q m) Qs = chainMeans (u "or") P (Q :: Qs) := by
        funext m; simp [chainMeans, or_assoc, show u "or" ≠ u "and" from by decide]
      rw [← he]; exact hc _ _ hm

mutual
theorem leaf_paren {num : Kind → Sst → Option Int} {p : List Sst} {P : Media → Prop} (h : ParenText num true p P)
    (n : Nat) (rest : List Sst) : (∃ c, p = [.block c]) ∧ ReadsTo (parseLeaf num n (p ++ rest)) rest P := by
  cases h with
  | feature hf =>
    refine ⟨⟨_, rfl⟩, ?_⟩
    cases n with
    | zero => exact .inl rfl
    | succ n => exact let ⟨_, h⟩ := infix_feature hf n; leaf_block h
  | @condition w₀ c w₁ _ h₀ h₁ hs hc =>
    refine ⟨⟨_, rfl⟩, ?_⟩
    obtain rfl := hs rfl
    cases n with
    | zero => exact .inl rfl
    | succ n =>
      refine leaf_block (left := []) ?_
      rcases infix_condition hc n w₁ (Stop.blank h₁) with e | ⟨q, r, e, hr, hm⟩
      · exact .inl (by simpa using e)
      · exact .inr ⟨q, r, by simpa using e, by rw [hr, eatWs_blank_nil h₁]; rfl, hm⟩
termination_by n

theorem loop_chain {num : Kind → Sst → Option Int} {kw : Text} {first : Bool} {chain : List Sst} {Ps : List (Media → Prop)}
    (h : ChainText num true kw first chain Ps) (hk : kw = u "and" ∨ kw = u "or")
    (n : Nat) (rest : List Sst) (hst : Stop rest) (l : Query) (P : Media → Prop) (hl : Means l P) :
      Reads (infixLoop num n l (if first then eatWs (chain ++ rest) else chain ++ rest)) rest (chainMeans kw P Ps) := by
  cases h with
  | nil =>
    have hm : Means l (chainMeans kw P []) := by
      intro m hr; simp [chainMeans, hl m hr]
    have hs' : Stop (if first then eatWs ([] ++ rest) else [] ++ rest) := by
      cases first
      · simpa using hst
      · simpa [Stop, eatWs_eatWs] using hst
    have he : eatWs (if first then eatWs ([] ++ rest) else [] ++ rest) = eatWs rest := by
      cases first <;> simp [eatWs_eatWs]
    rcases infixLoop_stop (num := num) n l hs' with e | e
    · exact .inl e
    · exact .inr ⟨l, _, e, he, hm⟩
  | @cons _ _ w₀ s w₁ p rest' Q Qs h₀ hs h₁ hp hfirst hc =>
    have he : (if first then eatWs ((w₀ ++ s :: (w₁ ++ (p ++ rest'))) ++ rest) else (w₀ ++ s :: (w₁ ++ (p ++ rest'))) ++ rest) =
        s :: (w₁ ++ (p ++ (rest' ++ rest))) := by
      cases first with
      | true =>
        simp only [if_true, List.append_assoc]
        rw [eatWs_blank h₀]
        rw [List.cons_append, eatWs_cons hs.notWs]
        simp
      | false => rw [hfirst rfl rfl]; simp
    rw [he]
    cases n with
    | zero => exact .inl rfl
    | succ n =>
      obtain ⟨⟨cc, hpe⟩, hleaf⟩ := leaf_paren hp n (rest' ++ rest)
      refine chain_step hk hs hl (tail := rest' ++ rest) (Q := Q) (Qs := Qs) ?_ ?_
      · rw [eatWs_blank h₁]
        have : eatWs (p ++ (rest' ++ rest)) = p ++ (rest' ++ rest) := by
          rw [hpe]; exact eatWs_cons rfl _
        rw [this]; exact hleaf
      · intro l' P' hl'
        exact loop_chain hc hk n rest hst l' P' hl'
termination_by n

theorem infix_condition {num : Kind → Sst → Option Int} {c : List Sst} {P : Media → Prop} (h : ConditionText num true c P)
    (n : Nat) (rest : List Sst) (hst : Stop rest) : Reads (parseInfix num n (c ++ rest)) rest P := by
  cases h with
  | single hp =>
    cases n with
    | zero => exact .inl rfl
    | succ n =>
      have he : P = chainMeans (u "and") P [] := by funext m; simp [chainMeans]
      rw [he]
      exact infix_chain (chain := []) (leaf_paren hp n rest).2
        fun l hl => by
          have := infixLoop_stop (num := num) n l (c := eatWs rest) (by simpa [Stop, eatWs_eatWs] using hst)
          rcases this with e | e
          · exact .inl e
          · exact .inr ⟨l, _, e, eatWs_eatWs _, he ▸ hl⟩
  | not hf => cases hf
  | @ands p P rest' Ps hp hc =>
    cases n with
    | zero => exact .inl rfl
    | succ n =>
      have he : (fun m => P m ∧ ∀ Q ∈ Ps, Q m) = chainMeans (u "and") P Ps := by funext m; simp [chainMeans]
      rw [he, List.append_assoc]
      exact infix_chain (leaf_paren hp n (rest' ++ rest)).2 fun l hl => loop_chain hc (.inl rfl) n rest hst l P hl
  | @ors p P rest' Ps hp hc =>
    cases n with
    | zero => exact .inl rfl
    | succ n =>
      have he : (fun m => P m ∨ ∃ Q ∈ Ps, Q m) = chainMeans (u "or") P Ps := by
        funext m; simp [chainMeans, show u "or" ≠ u "and" from by decide]
      rw [he, List.append_assoc]
      exact infix_chain (leaf_paren hp n (rest' ++ rest)).2 fun l hl => loop_chain hc (.inr rfl) n rest hst l P hl
termination_by n
end

end Verif.Media
