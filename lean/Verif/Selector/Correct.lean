import Verif.Selector.Lemmas
/-! `matchSel` decides `Means`. -/
namespace Verif.Selector
open Verif.Dom (Kids InSubtree Rep Chain Heap siblings_of_split chain_mem)
open Classical

/-- The truth value of a proposition. -/
noncomputable def tt (P : Prop) : Bool := @decide P (propDecidable P)

theorem tt_iff {P : Prop} : tt P = true ↔ P := @decide_eq_true_iff P (propDecidable P)
theorem tt_false {P : Prop} : tt P = false ↔ ¬ P := @decide_eq_false_iff_not P (propDecidable P)

/-- What the loops ask of another node. -/
def asks (d : Doc) (fuel : Nat) (s : Selector) : Nat → Answer := fun m =>
  match d.elem? m with
  | some e' => matchSel d fuel s m e' none
  | none => .ok false

def Asked (k : Kids) (data : Nat → NodeData) (s : Selector) (m : Nat) : Prop :=
  ∃ e, data m = .element e ∧ Means k data s m e none

theorem asks_settles {d : Doc} {k} {s : Selector}
    (ih : ∀ n e pe, d.data n = .element e → Settles (fun f => matchSel d f s n e pe) (tt (Means k d.data s n e pe)))
    (m : Nat) : Settles (fun f => asks d f s m) (tt (Asked k d.data s m)) := by
  unfold asks
  cases he : d.elem? m with
  | none =>
    rw [elem?_none] at he
    have : ¬ Asked k d.data s m := by
      rintro ⟨e, h, -⟩; rw [he] at h; cases h
    rw [tt_false.2 this]
    exact settles_pure _
  | some e =>
    rw [elem?_some] at he
    have : Asked k d.data s m ↔ Means k d.data s m e none := by
      constructor
      · rintro ⟨e', h, hm⟩; rw [he] at h; cases h; exact hm
      · intro hm; exact ⟨e, he, hm⟩
    simp only [this]
    exact ih m e none he

theorem asked_onElems (d : Doc) (k) (s : Selector) : OnElems d (fun m => tt (Asked k d.data s m)) := by
  intro q hq
  rw [elem?_none] at hq
  simp only [tt_false]
  rintro ⟨e, h, -⟩; rw [hq] at h; cases h

theorem settles_congr {α} {f : Nat → Except Fault α} {a b : α} (h : Settles f a) (e : a = b) : Settles f b := e ▸ h

theorem settles_guard {f : Nat → Answer} {g : Nat → Answer} {P Q : Prop}
    (h : Settles f (tt P)) (hg : P → Settles g (tt Q)) :
    Settles (fun n => (f n).bind fun b => if !b then .ok false else g n) (tt (P ∧ Q)) := by
  refine h.bind (g := fun n b => if !b then .ok false else g n) ?_
  by_cases hp : P
  · rw [tt_iff.2 hp]
    exact settles_congr (hg hp) (by rw [Bool.eq_iff_iff, tt_iff, tt_iff]; simp [hp])
  · rw [tt_false.2 hp]
    exact settles_congr (settles_pure false) (by symm; rw [tt_false]; simp [hp])

theorem countSel_ok {d : Doc} {k} (g : Good d k) (rev : Bool) (anb : AnB) (n : Nat)
    {p : Nat → Nat → Answer} {P : Nat → Prop} (hp : ∀ m, Settles (fun f => p f m) (tt (P m))) :
    Settles (fun f => (countSiblings d rev (p f) f n).bind fun i => .ok (anb.matches (i + 1)))
      (tt (Nth k rev anb P n)) := by
  obtain ⟨l, hl⟩ := siblings_exist g rev n
  obtain ⟨N, hN⟩ := settles_list (F := fun m f => p f m) (B := fun m => tt (P m)) l (fun m _ => hp m)
  refine ⟨max N (l.length + 1), fun f hf => ?_⟩
  have h := count_ok g hl f (by omega) (P := fun m => tt (P m)) (hN f (by omega))
  simp only [h, Except.bind]
  congr 1
  rw [Bool.eq_iff_iff, tt_iff]
  exact nth_iff g hl P

theorem nthPlain_ok {d : Doc} {k} (g : Good d k) (rev : Bool) (anb : AnB) (n : Nat) :
    Settles (fun f => matchNthPlain d f anb n rev)
      (tt (Nth k rev anb (fun m => ∃ e, d.data m = .element e) n)) := by
  refine countSel_ok g rev anb n (p := fun _ m => .ok (d.elem? m).isSome) fun m => ?_
  refine settles_congr (settles_pure _) ?_
  rw [Bool.eq_iff_iff, tt_iff, Option.isSome_iff_exists]
  simp only [elem?_some]

theorem nthOfType_ok {d : Doc} {k} (g : Good d k) (rev : Bool) (anb : AnB) (n : Nat) (e : Element) :
    Settles (fun f => matchNthOfType d f anb e n rev)
      (tt (Nth k rev anb (fun m => ∃ e', d.data m = .element e' ∧ e'.qname = e.qname) n)) := by
  refine countSel_ok g rev anb n (p := fun _ m => .ok (match d.elem? m with
    | some e' => e'.qname == e.qname
    | none => false)) fun m => ?_
  refine settles_congr (settles_pure _) ?_
  rw [Bool.eq_iff_iff, tt_iff]
  cases he : d.elem? m with
  | none => rw [elem?_none] at he; simp [he]
  | some e' => rw [elem?_some] at he; simp [he]

theorem climb_settles {d : Doc} {k} (g : Good d k) {s : Selector} (n : Nat)
    (hp : ∀ m, Settles (fun f => asks d f s m) (tt (Asked k d.data s m))) :
    Settles (fun f => climb d (asks d f s) f n)
      (tt (∃ a ea, (∃ c ∈ k a, InSubtree k c n) ∧ d.data a = .element ea ∧ Means k d.data s a ea none)) := by
  obtain ⟨l, hl⟩ := g.chain n
  obtain ⟨N, hN⟩ := settles_list (F := fun m f => asks d f s m) (B := fun m => tt (Asked k d.data s m)) l
    (fun m _ => hp m)
  refine ⟨max N (l.length + 1), fun f hf => ?_⟩
  refine Eq.trans (climb_ok g (asked_onElems d k s) hl f (by omega) (hN f (by omega))) ?_
  congr 1
  rw [Bool.eq_iff_iff, tt_iff, List.any_eq_true]
  simp only [tt_iff, Asked]
  constructor
  · rintro ⟨a, ha, ea, h1, h2⟩
    exact ⟨a, ea, (chain_mem g.rep hl a).1 ha, h1, h2⟩
  · rintro ⟨a, ea, h0, h1, h2⟩
    exact ⟨a, (chain_mem g.rep hl a).2 h0, ea, h1, h2⟩

theorem parent_settles {d : Doc} {k} (g : Good d k) {s : Selector} (n : Nat)
    (hp : ∀ m, Settles (fun f => asks d f s m) (tt (Asked k d.data s m))) :
    Settles (fun f => onParent d (asks d f s) n)
      (tt (∃ a ea, n ∈ k a ∧ d.data a = .element ea ∧ Means k d.data s a ea none)) := by
  unfold onParent
  cases hq : (d.heap n).parent with
  | none =>
    refine settles_congr (settles_pure _) ?_
    symm; rw [tt_false]
    rintro ⟨a, ea, h, -⟩
    rw [← g.rep.parent_iff, hq] at h; cases h
  | some q =>
    have hm := (g.rep.parent_iff n q).1 hq
    simp only
    cases he : d.elem? q with
    | none =>
      rw [elem?_none] at he
      refine settles_congr (settles_pure _) ?_
      symm; rw [tt_false]
      rintro ⟨a, ea, h, h1, -⟩
      have := g.rep.unique h hm
      subst this
      rw [he] at h1; cases h1
    | some e =>
      refine settles_congr (hp q) ?_
      rw [Bool.eq_iff_iff, tt_iff, tt_iff]
      constructor
      · rintro ⟨ea, h1, h2⟩; exact ⟨q, ea, hm, h1, h2⟩
      · rintro ⟨a, ea, h, h1, h2⟩
        have := g.rep.unique h hm
        subst this
        exact ⟨ea, h1, h2⟩

theorem prev_settles {d : Doc} {k} (g : Good d k) (hu : Unmixed k d.data) {s : Selector} (n : Nat) {e}
    (hn : d.data n = .element e)
    (hp : ∀ m, Settles (fun f => asks d f s m) (tt (Asked k d.data s m))) :
    Settles (fun f => onPrev d (asks d f s) n)
      (tt (∃ p a ea pre mid post, k p = pre ++ a :: mid ++ n :: post ∧ (∀ m ∈ mid, d.data m = .other) ∧
        d.data a = .element ea ∧ Means k d.data s a ea none)) := by
  unfold onPrev
  cases hq : (d.heap n).prevSibling with
  | none =>
    refine settles_congr (settles_pure _) ?_
    symm; rw [tt_false]
    rintro ⟨p, a, ea, pre, mid, post, h, -⟩
    have := (siblings_of_split g.rep h).1
    rw [hq, List.getLast?_append, List.getLast?_cons] at this
    simp at this
  | some q =>
    obtain ⟨par, hpar⟩ : ∃ par, n ∈ k par := by
      by_cases h : ∃ par, n ∈ k par
      · exact h
      · have hn : (d.heap n).parent = none := by
          cases e : (d.heap n).parent with
          | none => rfl
          | some q => exact absurd ⟨q, g.rep.mem _ _ e⟩ h
        have := (g.rep.orphan n hn).1
        rw [hq] at this; cases this
    obtain ⟨pre0, post0, e0⟩ := List.append_of_mem hpar
    have h0 := (siblings_of_split g.rep e0).1
    rw [hq] at h0
    obtain ⟨pre1, rfl⟩ := List.getLast?_eq_some_iff.1 h0.symm
    obtain ⟨eq, heq⟩ := hu par pre1 q n post0 e (by simpa using e0) hn
    have he : d.elem? q = some eq := elem?_some.2 heq
    simp only [he]
    refine settles_congr (hp q) ?_
    rw [Bool.eq_iff_iff, tt_iff, tt_iff]
    constructor
    · rintro ⟨ea, h1, h2⟩
      exact ⟨par, q, ea, pre1, [], post0, by simpa using e0, by simp, h1, h2⟩
    · rintro ⟨p, a, ea, pre, mid, post, h, hmid, h1, h2⟩
      have hpp : p = par := g.rep.unique (c := n) (by rw [h]; simp) hpar
      subst hpp
      have := (split_unique (g.rep.nodup p) e0 h).1
      rcases nil_or_snoc mid with rfl | ⟨mid', x, rfl⟩
      · have := (List.append_inj' this rfl).2
        simp at this
        subst this
        exact ⟨ea, h1, h2⟩
      · have : pre1 ++ [q] = (pre ++ a :: mid') ++ [x] := by simpa using this
        have := (List.append_inj' this rfl).2
        simp at this
        subst this
        have := hmid q (by simp)
        rw [this] at heq; cases heq

theorem scan_settles {d : Doc} {k} (g : Good d k) {s : Selector} (n : Nat)
    (hp : ∀ m, Settles (fun f => asks d f s m) (tt (Asked k d.data s m))) :
    Settles (fun f => scanPrev d (asks d f s) f n)
      (tt (∃ p a ea pre mid post, k p = pre ++ a :: mid ++ n :: post ∧
        d.data a = .element ea ∧ Means k d.data s a ea none)) := by
  by_cases hpar : ∃ par, n ∈ k par
  · obtain ⟨par, hpar⟩ := hpar
    obtain ⟨pre0, post0, e0⟩ := List.append_of_mem hpar
    obtain ⟨N, hN⟩ := settles_list (F := fun m f => asks d f s m) (B := fun m => tt (Asked k d.data s m))
      pre0.reverse (fun m _ => hp m)
    refine ⟨max N (pre0.length + 1), fun f hf => ?_⟩
    refine Eq.trans (scanPrev_ok g (asked_onElems d k s) pre0.reverse n post0 f (by simpa using e0) (by simp; omega) (hN f (by omega))) ?_
    congr 1
    rw [Bool.eq_iff_iff, tt_iff, List.any_eq_true]
    simp only [tt_iff, Asked, List.mem_reverse]
    constructor
    · rintro ⟨a, ha, ea, h1, h2⟩
      obtain ⟨x, y, rfl⟩ := List.append_of_mem ha
      exact ⟨par, a, ea, x, y, post0, e0, h1, h2⟩
    · rintro ⟨p, a, ea, pre, mid, post, h, h1, h2⟩
      have hpp : p = par := g.rep.unique (c := n) (by rw [h]; simp) hpar
      subst hpp
      have := (split_unique (g.rep.nodup p) e0 h).1
      exact ⟨a, by rw [this]; simp, ea, h1, h2⟩
  · have hn : (d.heap n).parent = none := by
      cases e : (d.heap n).parent with
      | none => rfl
      | some q => exact absurd ⟨q, g.rep.mem _ _ e⟩ hpar
    have := (g.rep.orphan n hn).1
    refine ⟨1, fun f hf => ?_⟩
    cases f with
    | zero => omega
    | succ f =>
      simp only [scanPrev, this]
      congr 1
      symm; rw [tt_false]
      rintro ⟨p, a, ea, pre, mid, post, h, -⟩
      exact hpar ⟨p, by rw [h]; simp⟩

theorem qsel_iff (s : QSel) (q : QName) : s.matches q = true ↔ NameMeans s q := by
  unfold QSel.matches NameMeans
  cases s with
  | mk ns name => cases ns <;> cases name <;> simp [@eq_comm _ q.name]

mutual
theorem matchSel_ok {d : Doc} {k} (g : Good d k) : ∀ (s : Selector), s.Complete → (Unmixed k d.data ∨ s.NoAdjacent) →
    ∀ n e pe, d.data n = .element e →
      Settles (fun f => matchSel d f s n e pe) (tt (Means k d.data s n e pe))
  | .and l, hc, ha, n, e, pe, hn => by
    simp only [matchSel, Means]
    exact matchAll_ok g l (by simpa [Selector.Complete] using hc) (by simpa [Selector.NoAdjacent] using ha) n e pe hn
  | .or l, hc, ha, n, e, pe, hn => by
    simp only [matchSel, Means]
    exact matchAny_ok g l (by simpa [Selector.Complete] using hc) (by simpa [Selector.NoAdjacent] using ha) n e pe hn
  | .not s, hc, ha, n, e, pe, hn => by
    simp only [matchSel, Means]
    have ih := matchSel_ok g s (by simpa [Selector.Complete] using hc) (by simpa [Selector.NoAdjacent] using ha) n e pe hn
    obtain ⟨N, hN⟩ := ih
    refine ⟨N, fun f hf => ?_⟩
    have h := hN f hf
    simp only at h
    simp only [h, Except.map]
    congr 1
    rw [Bool.eq_iff_iff, tt_iff, Bool.not_eq_true', tt_false]
  | .where_ s, hc, _, _, _, _, _ => by simp [Selector.Complete] at hc
  | .infix c lhs rhs, hc, ha, n, e, pe, hn => by
    simp only [Selector.Complete] at hc
    simp only [Selector.NoAdjacent] at ha
    have ihr := matchSel_ok g rhs hc.2 (by rcases ha with h | h; exact .inl h; exact .inr h.2.2) n e pe hn
    have ihl := matchSel_ok g lhs hc.1 (by rcases ha with h | h; exact .inl h; exact .inr h.2.1)
    have hp := asks_settles ihl
    cases c with
    | descendant =>
      simp only [matchSel, Means]
      exact settles_guard ihr fun _ => climb_settles g n hp
    | child =>
      simp only [matchSel, Means]
      exact settles_guard ihr fun _ => parent_settles g n hp
    | adjacent =>
      simp only [matchSel, Means]
      rcases ha with ha | ha
      · exact settles_guard ihr fun _ => prev_settles g ha n hn hp
      · exact absurd rfl ha.1
    | subsequent =>
      simp only [matchSel, Means]
      exact settles_guard ihr fun _ => scan_settles g n hp
    | column =>
      simp only [matchSel, Means]
      exact settles_congr (settles_guard (Q := False) ihr fun _ => settles_congr (settles_pure false) (by symm; rw [tt_false]; simp)) (by simp)
  | .type q, _, _, n, e, pe, _ => by
    simp only [matchSel, Means]
    exact settles_congr (settles_pure _) (by rw [Bool.eq_iff_iff, qsel_iff, tt_iff])
  | .empty, _, _, _, _, _, _ => by
    simp only [matchSel, Means]
    exact settles_congr (settles_pure false) (by symm; rw [tt_false]; simp)
  | .id s, _, _, _, e, _, _ => by
    simp only [matchSel, Means]
    exact settles_congr (settles_pure _) (by rw [Bool.eq_iff_iff, tt_iff, beq_iff_eq, idValue_iff])
  | .class_ s, _, _, _, e, _, _ => by
    simp only [matchSel, Means]
    exact settles_congr (settles_pure _) (by rw [Bool.eq_iff_iff, tt_iff, List.contains_iff_mem])
  | .pseudoElement s, _, _, _, _, pe, _ => by
    simp only [matchSel, Means]
    exact settles_congr (settles_pure _) (by rw [Bool.eq_iff_iff, tt_iff, beq_iff_eq])
  | .attr a, _, _, _, e, _, _ => by
    simp only [matchSel, Means]
    exact settles_congr (settles_pure _) (by rw [Bool.eq_iff_iff, tt_iff, matchAttr_iff])
  | .link, _, _, _, e, _, _ => by
    simp only [matchSel, Means, matchLink]
    refine settles_congr (settles_pure _) ?_
    rw [Bool.eq_iff_iff, tt_iff]
    simp only [Bool.and_eq_true, beq_iff_eq, List.any_eq_true]
    constructor
    · rintro ⟨h, x, hx, h2⟩; exact ⟨h, x.2, by rw [← h2]; exact hx⟩
    · rintro ⟨h, v, hv⟩; exact ⟨h, _, hv, rfl⟩
  | .root, _, _, _, e, _, _ => by
    simp only [matchSel, Means]
    exact settles_congr (settles_pure _) (by rw [Bool.eq_iff_iff, tt_iff, beq_iff_eq])
  | .nthChild rev none, hc, _, _, _, _, _ => by simp [Selector.Complete] at hc
  | .nthChild rev (some (anb, none)), _, _, n, _, _, _ => by
    simp only [matchSel, Means]
    exact nthPlain_ok g rev anb n
  | .nthChild rev (some (anb, some s)), hc, ha, n, e, _, hn => by
    have ih := matchSel_ok g s (by simpa [Selector.Complete] using hc) (by simpa [Selector.NoAdjacent] using ha)
    simp only [matchSel, Means]
    exact settles_guard (ih n e none hn) fun _ => countSel_ok g rev anb n (asks_settles ih)
  | .nthOfType rev none, hc, _, _, _, _, _ => by simp [Selector.Complete] at hc
  | .nthOfType rev (some anb), _, _, n, e, _, _ => by
    simp only [matchSel, Means]
    exact nthOfType_ok g rev anb n e
  | .firstOfType, _, _, n, e, _, _ => by
    simp only [matchSel, Means]
    refine settles_congr (nthOfType_ok g false ⟨0, 1⟩ n e) ?_
    rw [Bool.eq_iff_iff, tt_iff, tt_iff, first_iff g]
    simp
  | .lastOfType, _, _, n, e, _, _ => by
    simp only [matchSel, Means]
    refine settles_congr (nthOfType_ok g true ⟨0, 1⟩ n e) ?_
    rw [Bool.eq_iff_iff, tt_iff, tt_iff, first_iff g]
    simp
  | .firstChild, _, _, n, e, _, _ => by
    simp only [matchSel, Means]
    refine settles_congr (nthPlain_ok g false ⟨0, 1⟩ n) ?_
    rw [Bool.eq_iff_iff, tt_iff, tt_iff, first_iff g]
    have : ∀ m, (¬ ∃ e, d.data m = .element e) ↔ d.data m = .other := by
      intro m; cases d.data m <;> simp
    simp only [this]
  | .lastChild, _, _, n, e, _, _ => by
    simp only [matchSel, Means]
    refine settles_congr (nthPlain_ok g true ⟨0, 1⟩ n) ?_
    rw [Bool.eq_iff_iff, tt_iff, tt_iff, first_iff g]
    have : ∀ m, (¬ ∃ e, d.data m = .element e) ↔ d.data m = .other := by
      intro m; cases d.data m <;> simp
    simp only [this]
  | .otherPseudo, _, _, _, _, _, _ => by
    simp only [matchSel, Means]
    exact settles_congr (settles_pure false) (by symm; rw [tt_false]; simp)
theorem matchAll_ok {d : Doc} {k} (g : Good d k) : ∀ (l : List Selector), AllComplete l →
    (Unmixed k d.data ∨ AllNoAdjacent l) → ∀ n e pe, d.data n = .element e →
      Settles (fun f => matchAll d f l n e pe) (tt (MeansAll k d.data l n e pe))
  | [], _, _, n, e, pe, _ => by
    simp only [matchAll, MeansAll]
    exact settles_congr (settles_pure true) (by symm; rw [tt_iff]; trivial)
  | s :: l, hc, ha, n, e, pe, hn => by
    simp only [AllComplete] at hc
    simp only [AllNoAdjacent] at ha
    have ih1 := matchSel_ok g s hc.1 (by rcases ha with h | h; exact .inl h; exact .inr h.1) n e pe hn
    have ih2 := matchAll_ok g l hc.2 (by rcases ha with h | h; exact .inl h; exact .inr h.2) n e pe hn
    simp only [matchAll, MeansAll]
    refine ih1.bind (g := fun f b => if b then matchAll d f l n e pe else .ok false) ?_
    by_cases h : Means k d.data s n e pe
    · rw [tt_iff.2 h]; simpa [h] using ih2
    · rw [tt_false.2 h]; exact settles_congr (settles_pure false) (by symm; rw [tt_false]; simp [h])
theorem matchAny_ok {d : Doc} {k} (g : Good d k) : ∀ (l : List Selector), AllComplete l →
    (Unmixed k d.data ∨ AllNoAdjacent l) → ∀ n e pe, d.data n = .element e →
      Settles (fun f => matchAny d f l n e pe) (tt (MeansSome k d.data l n e pe))
  | [], _, _, n, e, pe, _ => by
    simp only [matchAny, MeansSome]
    exact settles_congr (settles_pure false) (by symm; rw [tt_false]; simp)
  | s :: l, hc, ha, n, e, pe, hn => by
    simp only [AllComplete] at hc
    simp only [AllNoAdjacent] at ha
    have ih1 := matchSel_ok g s hc.1 (by rcases ha with h | h; exact .inl h; exact .inr h.1) n e pe hn
    have ih2 := matchAny_ok g l hc.2 (by rcases ha with h | h; exact .inl h; exact .inr h.2) n e pe hn
    simp only [matchAny, MeansSome]
    refine ih1.bind (g := fun f b => if b then .ok true else matchAny d f l n e pe) ?_
    by_cases h : Means k d.data s n e pe
    · rw [tt_iff.2 h]; exact settles_congr (settles_pure true) (by symm; rw [tt_iff]; simp [h])
    · rw [tt_false.2 h]; simpa [h] using ih2
end

end Verif.Selector
