import Verif.Dom.Preorder
/-! Finitely many edits touch finitely many nodes, so ancestor chains are finite. -/
namespace Verif.Dom

def Bounded (k : Kids) (M : Nat) : Prop := ∀ p c, c ∈ k p → p < M ∧ c < M

theorem mem_putBefore' {n c x : Nat} {l : List Nat} (h : x ∈ putBefore n c l) : x = n ∨ x ∈ l := by
  induction l with
  | nil => simp [putBefore] at h
  | cons a l ih =>
    simp only [putBefore] at h
    split at h <;> simp_all
    grind

theorem mem_putAfter' {n c x : Nat} {l : List Nat} (h : x ∈ putAfter n c l) : x = n ∨ x ∈ l := by
  induction l with
  | nil => simp [putAfter] at h
  | cons a l ih =>
    simp only [putAfter] at h
    split at h <;> simp_all <;> grind

theorem bounded_detach {k M n} (h : Bounded k M) : Bounded (k.detach n) M := by
  intro p c hc
  simp only [Kids.detach, List.mem_filter] at hc
  exact h p c hc.1

theorem bounded_set {k M s n} {l : List Nat} (h : Bounded k M) (hl : ∀ x ∈ l, x = n ∨ x ∈ k s) :
    Bounded (k.set s l) (max M (max (s + 1) (n + 1))) := by
  intro p c hc
  simp only [Kids.set] at hc
  split at hc
  · rename_i e
    subst e
    rcases hl c hc with rfl | hc
    · omega
    · have := h _ _ hc; omega
  · have := h _ _ hc; omega

theorem bounded_spec {k M} (h : Bounded k M) (e : Edit) : ∃ M', Bounded (e.spec k) M' := by
  cases e with
  | append s n => exact ⟨_, bounded_set (n := n) (bounded_detach h) (by intro x hx; simp at hx; grind)⟩
  | prepend s n => exact ⟨_, bounded_set (n := n) (bounded_detach h) (by intro x hx; simp at hx; grind)⟩
  | insertBefore s n c =>
    cases c with
    | none => exact ⟨_, bounded_set (n := n) (bounded_detach h) (by intro x hx; simp at hx; grind)⟩
    | some c => exact ⟨_, bounded_set (n := n) (bounded_detach h) (fun x hx => mem_putBefore' hx)⟩
  | insertAfter s n c =>
    cases c with
    | none => exact ⟨_, bounded_set (n := n) (bounded_detach h) (by intro x hx; simp at hx; grind)⟩
    | some c => exact ⟨_, bounded_set (n := n) (bounded_detach h) (fun x hx => mem_putAfter' hx)⟩
  | remove n => exact ⟨_, bounded_detach h⟩
  | removeChild s n => exact ⟨_, bounded_detach h⟩

theorem bounded_edits {k M} (h : Bounded k M) (es : List Edit) : ∃ M', Bounded (specEdits k es) M' := by
  induction es generalizing k M with
  | nil => exact ⟨M, h⟩
  | cons e es ih =>
    obtain ⟨M', h'⟩ := bounded_spec h e
    exact ih h'

/-- `l` is the chain of ancestors of `n`, nearest first. -/
inductive Chain (k : Kids) : Nat → List Nat → Prop
  | root {n} : (∀ p, n ∉ k p) → Chain k n []
  | up {n p l} : n ∈ k p → Chain k p l → Chain k n (p :: l)

/-- Largest height below `M`. -/
def maxUpTo (f : Nat → Nat) : Nat → Nat
  | 0 => 0
  | n + 1 => max (maxUpTo f n) (f n)

theorem le_maxUpTo (f : Nat → Nat) {n M : Nat} (h : n < M) : f n ≤ maxUpTo f M := by
  induction M with
  | zero => omega
  | succ M ih =>
    simp only [maxUpTo]
    by_cases e : n = M
    · subst e; omega
    · have := ih (by omega); omega

theorem chain_exists {k M} {ht : Nat → Nat} (hb : Bounded k M) (hh : ∀ p, ∀ c ∈ k p, ht c < ht p) :
    ∀ n, ∃ l, Chain k n l := by
  have key : ∀ j n, maxUpTo ht M < ht n + j → ∃ l, Chain k n l := by
    intro j
    induction j with
    | zero =>
      intro n hn
      by_cases h : ∃ p, n ∈ k p
      · obtain ⟨p, hp⟩ := h
        have := hb p n hp
        have := le_maxUpTo ht this.2
        omega
      · exact ⟨[], .root fun p hp => h ⟨p, hp⟩⟩
    | succ j ih =>
      intro n hn
      by_cases h : ∃ p, n ∈ k p
      · obtain ⟨p, hp⟩ := h
        have := hh p n hp
        obtain ⟨l, hl⟩ := ih p (by omega)
        exact ⟨p :: l, .up hp hl⟩
      · exact ⟨[], .root fun p hp => h ⟨p, hp⟩⟩
  intro n
  exact key (maxUpTo ht M + 1) n (by omega)

theorem chain_mem {h k} (r : Rep h k) {n l} (hc : Chain k n l) :
    ∀ a, a ∈ l ↔ ∃ c ∈ k a, InSubtree k c n := by
  induction hc with
  | root hr =>
    intro a
    simp only [List.not_mem_nil, false_iff]
    rintro ⟨c, hc, hs⟩
    cases hs with
    | root => exact hr _ hc
    | child _ hm => exact hr _ hm
  | @up n p l hp hl ih =>
    intro a
    simp only [List.mem_cons, ih]
    constructor
    · rintro (rfl | ⟨c, hc, hs⟩)
      · exact ⟨_, hp, .root⟩
      · exact ⟨c, hc, .child hs hp⟩
    · rintro ⟨c, hc, hs⟩
      cases hs with
      | root => exact .inl (r.unique hc hp)
      | child hs hm =>
        have := r.unique hm hp
        subst this
        exact .inr ⟨c, hc, hs⟩

end Verif.Dom
