import Verif.Dom.Refine
/-! Legal histories keep the forest acyclic and finite in depth. -/
namespace Verif.Dom

/-- A measure decreasing from parents to children. -/
def Grounded (k : Kids) : Prop := ∃ height : Nat → Nat, ∀ p, ∀ c ∈ k p, height c < height p

theorem InSubtree.trans {k : Kids} {a b c : Nat} (h1 : InSubtree k a b) (h2 : InSubtree k b c) :
    InSubtree k a c := by
  induction h2 with
  | root => exact h1
  | child _ hm ih => exact .child ih hm

theorem InSubtree.mono {k k' : Kids} (hk : ∀ p, ∀ c ∈ k' p, c ∈ k p) {a b : Nat}
    (h : InSubtree k' a b) : InSubtree k a b := by
  induction h with
  | root => exact .root
  | child _ hm ih => exact .child ih (hk _ _ hm)

theorem InSubtree.ofChild {k : Kids} {p c m : Nat} (hc : c ∈ k p) (h : InSubtree k c m) :
    InSubtree k p m := (InSubtree.child .root hc).trans h

theorem mem_detach {k : Kids} {n p c : Nat} : c ∈ k.detach n p ↔ c ∈ k p ∧ c ≠ n := by
  simp [Kids.detach]

theorem Grounded.detach {k : Kids} (g : Grounded k) (n : Nat) : Grounded (k.detach n) := by
  obtain ⟨ht, hh⟩ := g
  exact ⟨ht, fun p c hc => hh p c (mem_detach.1 hc).1⟩

theorem Grounded.link {k k' : Kids} (g : Grounded k) {s n : Nat} (hn : ¬ InSubtree k n s)
    (hk : ∀ p, ∀ c ∈ k' p, c ∈ k p ∨ (p = s ∧ c = n)) : Grounded k' := by
  obtain ⟨ht, hh⟩ := g
  classical
  refine ⟨fun m => if InSubtree k m s then ht m + ht n + 1 else ht m, ?_⟩
  intro p c hc
  rcases hk p c hc with h1 | ⟨rfl, rfl⟩
  · have h2 := hh p c h1
    by_cases h3 : InSubtree k c s
    · have : InSubtree k p s := h3.ofChild h1
      simp only [h3, this, if_true]; omega
    · by_cases h4 : InSubtree k p s <;> simp only [h3, h4, if_true, if_false] <;> omega
  · simp only [hn, if_false, InSubtree.root, if_true]; omega

theorem mem_putBefore {n c x : Nat} {l : List Nat} (h : x ∈ putBefore n c l) : x ∈ l ∨ x = n := by
  induction l with
  | nil => simp [putBefore] at h
  | cons a l ih => 
    simp only [putBefore] at h
    split at h <;> simp at h ⊢ <;> grind

theorem mem_putAfter {n c x : Nat} {l : List Nat} (h : x ∈ putAfter n c l) : x ∈ l ∨ x = n := by
  induction l with
  | nil => simp [putAfter] at h
  | cons a l ih => 
    simp only [putAfter] at h
    split at h <;> simp at h ⊢ <;> grind

theorem Grounded.spec {k : Kids} (g : Grounded k) (e : Edit) (hl : e.Legal k) :
    Grounded (e.spec k) := by
  have mono : ∀ n p, ∀ c ∈ k.detach n p, c ∈ k p := fun n p c hc => (mem_detach.1 hc).1
  cases e with
  | append s n =>
    refine Grounded.link (k := k) g hl (fun p c hc => ?_)
    simp only [Edit.spec, Kids.set] at hc
    split at hc
    · simp at hc; grind
    · exact .inl (mono _ _ _ hc)
  | prepend s n =>
    refine Grounded.link (k := k) g hl (fun p c hc => ?_)
    simp only [Edit.spec, Kids.set] at hc
    split at hc
    · simp at hc; grind
    · exact .inl (mono _ _ _ hc)
  | insertBefore s n x =>
    refine Grounded.link (k := k) g hl.1 (fun p c hc => ?_)
    cases x with
    | none =>
      simp only [Edit.spec, Kids.set] at hc
      split at hc
      · simp at hc; grind
      · exact .inl (mono _ _ _ hc)
    | some x =>
      simp only [Edit.spec, Kids.set] at hc
      split at hc
      · rcases mem_putBefore hc with h | h <;> grind
      · exact .inl (mono _ _ _ hc)
  | insertAfter s n x =>
    refine Grounded.link (k := k) g hl.1 (fun p c hc => ?_)
    cases x with
    | none =>
      simp only [Edit.spec, Kids.set] at hc
      split at hc
      · simp at hc; grind
      · exact .inl (mono _ _ _ hc)
    | some x =>
      simp only [Edit.spec, Kids.set] at hc
      split at hc
      · rcases mem_putAfter hc with h | h <;> grind
      · exact .inl (mono _ _ _ hc)
  | remove n => exact g.detach n
  | removeChild s n => exact g.detach n

theorem Rep.edit {h k} (r : Rep h k) (e : Edit) (hl : e.Legal k) :
    ∃ h', e.run h = some h' ∧ Rep h' (e.spec k) := by
  cases e with
  | append s n => exact ⟨_, rfl, r.append s n⟩
  | prepend s n => exact ⟨_, rfl, r.prepend s n⟩
  | insertBefore s n x =>
    cases x with
    | none => exact ⟨_, rfl, r.append s n⟩
    | some x => exact ⟨_, rfl, r.insertBefore s n x (hl.2 x rfl).1 (hl.2 x rfl).2⟩
  | insertAfter s n x =>
    cases x with
    | none => exact ⟨_, rfl, r.append s n⟩
    | some x => exact ⟨_, rfl, r.insertAfter s n x (hl.2 x rfl).1 (hl.2 x rfl).2⟩
  | remove n => exact ⟨_, rfl, r.remove n⟩
  | removeChild s n =>
    refine ⟨Dom.remove h n, ?_, r.remove n⟩
    simp only [Edit.run, removeChild]
    rw [if_pos ((r.parent_iff n s).2 hl)]

theorem Rep.edits {h k} (r : Rep h k) (g : Grounded k) (es : List Edit) (hl : LegalHistory k es) :
    ∃ h', runEdits h es = some h' ∧ Rep h' (specEdits k es) ∧ Grounded (specEdits k es) := by
  induction es generalizing h k with
  | nil => exact ⟨h, rfl, r, g⟩
  | cons e es ih =>
    obtain ⟨h1, e1, r1⟩ := r.edit e hl.1
    obtain ⟨h2, e2, r2, g2⟩ := ih r1 (g.spec e hl.1) hl.2
    exact ⟨h2, by simp [runEdits, e1, e2], r2, g2⟩

theorem grounded_init : Grounded Kids.init := ⟨fun _ => 0, by simp [Kids.init]⟩

/-! Walks -/

theorem walkNext_seg {h p l} : ∀ {a}, DSeg h p a l none → ∀ fuel, l.length ≤ fuel →
    walkNext h fuel l.head? = some l := by
  induction l with
  | nil => intro a _ fuel _; cases fuel <;> simp [walkNext]
  | cons c cs ih =>
    intro a hs fuel hf
    simp only [DSeg, Option.or_none] at hs
    cases fuel with
    | zero => simp at hf
    | succ fuel =>
      simp only [List.head?_cons, walkNext, hs.2.2.1]
      rw [ih hs.2.2.2 fuel (by simpa using hf)]
      rfl

theorem walkPrev_seg {h p b} (l : List Nat) : DSeg h p none l b → ∀ fuel, l.length ≤ fuel →
    walkPrev h fuel l.getLast? = some l.reverse := by
  induction hl : l.length generalizing l b with
  | zero =>
    have : l = [] := List.eq_nil_of_length_eq_zero hl
    subst this; intro _ fuel _; cases fuel <;> simp [walkPrev]
  | succ m ih =>
    rcases List.eq_nil_or_concat l with rfl | ⟨l', x, rfl⟩
    · simp at hl
    · intro hs fuel hf
      simp only [List.concat_eq_append] at *
      rw [DSeg.append] at hs
      simp only [DSeg, List.head?_cons, Option.some_or, Option.or_none, List.head?_nil, Option.none_or] at hs
      cases fuel with
      | zero => simp at hf
      | succ fuel =>
        simp at hl hf
        simp only [List.getLast?_concat, walkPrev, hs.2.2.1]
        rw [ih l' hl hs.1 fuel (by omega)]
        simp

theorem siblings_of_split {h k} (r : Rep h k) {p c : Nat} {pre post} (e : k p = pre ++ c :: post) :
    (h c).prevSibling = pre.getLast? ∧ (h c).nextSibling = post.head? ∧ DSeg h p none pre (some c) ∧
    DSeg h p (some c) post none := by
  have hs := r.seg p
  rw [e, DSeg.append] at hs
  simp only [DSeg, List.head?_cons, Option.some_or, Option.or_none] at hs
  exact ⟨hs.2.2.1, hs.2.2.2.1, hs.1, hs.2.2.2.2⟩

end Verif.Dom
