import Verif.Dom.Acyclic
/-! Depth-first iteration and the preorder of a forest. -/
namespace Verif.Dom

mutual
/-- `l` is the document order of the subtree rooted at `n`. -/
inductive PreOrder (k : Kids) : Nat → List Nat → Prop
  | node {n : Nat} {l : List Nat} : PreOrders k (k n) l → PreOrder k n (n :: l)
/-- Document order of a list of sibling subtrees. -/
inductive PreOrders (k : Kids) : List Nat → List Nat → Prop
  | nil : PreOrders k [] []
  | cons {c : Nat} {cs l₁ l₂ : List Nat} : PreOrder k c l₁ → PreOrders k cs l₂ →
      PreOrders k (c :: cs) (l₁ ++ l₂)
end

theorem iter_mono (h : Heap) : ∀ fuel,
    (∀ n l, iterDepthFirst h fuel n = some l → iterDepthFirst h (fuel + 1) n = some l) ∧
    (∀ o l, iterSiblings h fuel o = some l → iterSiblings h (fuel + 1) o = some l) := by
  intro fuel
  induction fuel with
  | zero =>
    refine ⟨fun n l hl => by simp [iterDepthFirst] at hl, fun o l hl => ?_⟩
    cases o <;> simp [iterSiblings] at hl ⊢; exact hl
  | succ f ih =>
    refine ⟨fun n l hl => ?_, fun o l hl => ?_⟩
    · rw [iterDepthFirst] at hl ⊢
      simp only [Option.map_eq_some_iff] at hl ⊢
      obtain ⟨a, ha, e⟩ := hl
      exact ⟨a, ih.2 _ _ ha, e⟩
    · cases o with
      | none => simp [iterSiblings] at hl ⊢; exact hl
      | some c =>
        rw [iterSiblings] at hl ⊢
        split at hl
        · rename_i a b ha hb
          rw [ih.1 _ _ ha, ih.2 _ _ hb]; exact hl
        · cases hl

theorem iter_mono' (h : Heap) {f g : Nat} (hfg : f ≤ g) :
    (∀ n l, iterDepthFirst h f n = some l → iterDepthFirst h g n = some l) ∧
    (∀ o l, iterSiblings h f o = some l → iterSiblings h g o = some l) := by
  induction g with
  | zero =>
    have : f = 0 := by omega
    subst this; exact ⟨fun _ _ h => h, fun _ _ h => h⟩
  | succ g ih =>
    by_cases hc : f = g + 1
    · subst hc; exact ⟨fun _ _ h => h, fun _ _ h => h⟩
    · have := ih (by omega)
      exact ⟨fun n l hl => (iter_mono h g).1 n l (this.1 n l hl),
             fun o l hl => (iter_mono h g).2 o l (this.2 o l hl)⟩

theorem iter_spec {h k} (r : Rep h k) {ht : Nat → Nat} (hh : ∀ p, ∀ c ∈ k p, ht c < ht p) :
    ∀ N n, ht n < N → ∃ fuel l, iterDepthFirst h fuel n = some l ∧ PreOrder k n l := by
  intro N
  induction N with
  | zero => intro n hn; omega
  | succ N ih =>
    intro n hn
    have key : ∀ (cs : List Nat) (a : Option Nat), DSeg h n a cs none → (∀ c ∈ cs, ht c < N) →
        ∃ fuel l, iterSiblings h fuel cs.head? = some l ∧ PreOrders k cs l := by
      intro cs
      induction cs with
      | nil => intro a _ _; exact ⟨0, [], by simp [iterSiblings], .nil⟩
      | cons c cs ihc =>
        intro a hs hb
        simp only [DSeg, Option.or_none] at hs
        obtain ⟨f1, l1, e1, p1⟩ := ih c (hb c (by simp))
        obtain ⟨f2, l2, e2, p2⟩ := ihc (some c) hs.2.2.2 (fun x hx => hb x (by simp [hx]))
        refine ⟨max f1 f2 + 1, l1 ++ l2, ?_, .cons p1 p2⟩
        simp only [List.head?_cons, iterSiblings, hs.2.2.1]
        rw [(iter_mono' h (Nat.le_max_left f1 f2)).1 _ _ e1, (iter_mono' h (Nat.le_max_right f1 f2)).2 _ _ e2]
    obtain ⟨f, l, e, p⟩ := key (k n) none (r.seg n) (fun c hc => by have := hh n c hc; omega)
    refine ⟨f + 1, n :: l, ?_, .node p⟩
    simp [iterDepthFirst, r.first n, e]

mutual
theorem PreOrder.mem {k n l} : PreOrder k n l → ∀ m, m ∈ l ↔ InSubtree k n m
  | .node (l := l) hl => by
    intro m
    have := PreOrders.mem hl m
    simp only [List.mem_cons, this]
    constructor
    · rintro (rfl | ⟨c, hc, hm⟩)
      · exact .root
      · exact hm.ofChild hc
    · intro hm
      clear this hl
      induction hm with
      | root => exact .inl rfl
      | child h1 h2 ih =>
        rcases ih with rfl | ⟨c, hc, hm⟩
        · exact .inr ⟨_, h2, .root⟩
        · exact .inr ⟨c, hc, .child hm h2⟩
theorem PreOrders.mem {k cs l} : PreOrders k cs l → ∀ m, m ∈ l ↔ ∃ c ∈ cs, InSubtree k c m
  | .nil => by simp
  | .cons h1 h2 => by
    intro m
    simp only [List.mem_append, h1.mem m, PreOrders.mem h2 m, List.mem_cons, exists_eq_or_imp]
end

theorem InSubtree.height {k : Kids} {ht : Nat → Nat} (hh : ∀ p, ∀ c ∈ k p, ht c < ht p) {a b : Nat}
    (h : InSubtree k a b) : ht b ≤ ht a := by
  induction h with
  | root => omega
  | child _ hm ih => have := hh _ _ hm; omega

theorem InSubtree.chain {h k} (r : Rep h k) {a b m : Nat} (h1 : InSubtree k a m) (h2 : InSubtree k b m) :
    InSubtree k a b ∨ InSubtree k b a := by
  induction h1 with
  | root => exact .inr h2
  | child ha hc ih =>
    cases h2 with
    | root => exact .inl (.child ha hc)
    | child hb hc' =>
      have := r.unique hc hc'
      subst this
      exact ih hb

theorem sibling_disjoint {h k} (r : Rep h k) {ht : Nat → Nat} (hh : ∀ p, ∀ c ∈ k p, ht c < ht p)
    {p a b m : Nat} (ha : a ∈ k p) (hb : b ∈ k p) (hab : a ≠ b)
    (h1 : InSubtree k a m) (h2 : InSubtree k b m) : False := by
  have aux : ∀ {x y : Nat}, x ∈ k p → y ∈ k p → x ≠ y → InSubtree k x y → False := by
    intro x y hx hy hxy hs
    cases hs with
    | root => exact hxy rfl
    | child h3 h4 =>
      have := r.unique h4 hy
      subst this
      have h5 := h3.height hh
      have := hh _ _ hx
      omega
  rcases InSubtree.chain r h1 h2 with h | h
  · exact aux ha hb hab h
  · exact aux hb ha (Ne.symm hab) h

theorem PreOrder.nodup {h k} (r : Rep h k) {ht : Nat → Nat} (hh : ∀ p, ∀ c ∈ k p, ht c < ht p) :
    ∀ N n l, ht n < N → PreOrder k n l → l.Nodup := by
  intro N
  induction N with
  | zero => intro n l hn; omega
  | succ N ih =>
    intro n l hn hp
    cases hp with
    | node hl =>
      rename_i l
      refine List.nodup_cons.2 ⟨?_, ?_⟩
      · intro hm
        obtain ⟨c, hc, hs⟩ := (hl.mem n).1 hm
        have := hs.height hh
        have := hh n c hc
        omega
      · have key : ∀ cs l, PreOrders k cs l → cs.Nodup → (∀ c ∈ cs, c ∈ k n) → l.Nodup := by
          intro cs
          induction cs with
          | nil => intro l hl _ _; cases hl; simp
          | cons c cs ihc =>
            intro l hl hnd hsub
            cases hl with
            | cons p1 p2 =>
              rename_i l1 l2
              simp at hnd
              refine List.nodup_append.2 ⟨?_, ?_, ?_⟩
              · exact ih c l1 (by have := hh n c (hsub c (by simp)); omega) p1
              · exact ihc l2 p2 hnd.2 (fun x hx => hsub x (by simp [hx]))
              · intro a ha b hb hab
                subst hab
                obtain ⟨c', hc', hs'⟩ := (p2.mem a).1 hb
                exact sibling_disjoint r hh (hsub c (by simp)) (hsub c' (by simp [hc']))
                  (by rintro rfl; exact hnd.1 hc') ((p1.mem a).1 ha) hs'
        exact key (k n) l hl (r.nodup n) (fun c hc => hc)

end Verif.Dom
