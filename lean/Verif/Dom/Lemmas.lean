import Verif.Dom.Spec
/-! Helper lemmas relating link heaps to child lists. -/
namespace Verif.Dom

/-- `l` is a doubly linked run of children of `p` whose left neighbour is `a` and
right neighbour is `b`. -/
def DSeg (h : Heap) (p : Nat) (a : Option Nat) : List Nat → Option Nat → Prop
  | [], _ => True
  | c :: cs, b =>
    (h c).parent = some p ∧ (h c).prevSibling = a ∧ (h c).nextSibling = cs.head?.or b ∧
    DSeg h p (some c) cs b

/-- The heap `h` represents the forest `k`. -/
structure Rep (h : Heap) (k : Kids) : Prop where
  seg : ∀ p, DSeg h p none (k p) none
  first : ∀ p, (h p).firstChild = (k p).head?
  last : ∀ p, (h p).lastChild = (k p).getLast?
  nodup : ∀ p, (k p).Nodup
  mem : ∀ c p, (h c).parent = some p → c ∈ k p
  orphan : ∀ c, (h c).parent = none → (h c).prevSibling = none ∧ (h c).nextSibling = none

theorem DSeg.append {h p a b} (l₁ l₂ : List Nat) :
    DSeg h p a (l₁ ++ l₂) b ↔ DSeg h p a l₁ (l₂.head?.or b) ∧ DSeg h p (l₁.getLast?.or a) l₂ b := by
  induction l₁ generalizing a with
  | nil => simp [DSeg]
  | cons c cs ih =>
    simp only [List.cons_append, DSeg, ih]
    cases cs <;> simp <;> grind [List.getLast?_cons]

theorem DSeg.parent {h p a b l} (hs : DSeg h p a l b) : ∀ c ∈ l, (h c).parent = some p := by
  induction l generalizing a with
  | nil => simp
  | cons c cs ih => 
    simp only [DSeg] at hs
    intro x hx
    rcases List.mem_cons.1 hx with rfl | hx
    · exact hs.1
    · exact ih hs.2.2.2 x hx

/-- Changing nodes outside the run does not matter. -/
theorem DSeg.frame {h h' : Heap} {p a b l}
    (he : ∀ c ∈ l, (h' c).parent = (h c).parent ∧ (h' c).prevSibling = (h c).prevSibling ∧
      (h' c).nextSibling = (h c).nextSibling)
    (hs : DSeg h p a l b) : DSeg h' p a l b := by
  induction l generalizing a with
  | nil => simp [DSeg]
  | cons c cs ih =>
    simp only [DSeg] at hs ⊢
    have h1 := he c (by simp)
    refine ⟨by rw [h1.1]; exact hs.1, by rw [h1.2.1]; exact hs.2.1, by rw [h1.2.2]; exact hs.2.2.1, ?_⟩
    exact ih (fun x hx => he x (by simp [hx])) hs.2.2.2

/-- Changing the right neighbour: only the last node's `next` may change. -/
theorem DSeg.setRight {h h' : Heap} {p a b b' l}
    (he : ∀ c ∈ l, (h' c).parent = (h c).parent ∧ (h' c).prevSibling = (h c).prevSibling ∧
      (h' c).nextSibling = if l.getLast? = some c then b' else (h c).nextSibling)
    (hn : l.Nodup) (hs : DSeg h p a l b) : DSeg h' p a l b' := by
  rcases List.eq_nil_or_concat l with rfl | ⟨l', x, rfl⟩
  · simp [DSeg]
  · simp only [List.concat_eq_append] at *
    rw [DSeg.append] at hs ⊢
    have hx := he x (by simp)
    refine ⟨?_, ?_⟩
    · have := hs.1
      simp only [List.head?_cons, Option.some_or] at this ⊢
      refine DSeg.frame (fun c hc => ?_) this
      have h2 := he c (by simp [hc])
      have : c ≠ x := by rintro rfl; simp [List.nodup_append] at hn; exact hn.2 c hc rfl
      refine ⟨h2.1, h2.2.1, ?_⟩
      rw [h2.2.2]; simp [Ne.symm this]
    · have := hs.2
      simp only [DSeg, List.head?_nil, Option.none_or, and_true] at this ⊢
      simp at hx
      grind

/-- Changing the left neighbour: only the first node's `prev` may change. -/
theorem DSeg.setLeft {h h' : Heap} {p a a' b l}
    (he : ∀ c ∈ l, (h' c).parent = (h c).parent ∧ (h' c).nextSibling = (h c).nextSibling ∧
      (h' c).prevSibling = if l.head? = some c then a' else (h c).prevSibling)
    (hn : l.Nodup) (hs : DSeg h p a l b) : DSeg h' p a' l b := by
  cases l with
  | nil => simp [DSeg]
  | cons c cs =>
    simp only [DSeg] at hs ⊢
    have hc := he c (by simp)
    refine ⟨by grind, by simp at hc; grind, by grind, ?_⟩
    refine DSeg.frame (fun x hx => ?_) hs.2.2.2
    have h2 := he x (by simp [hx])
    have : x ≠ c := by rintro rfl; simp at hn; exact hn.1 hx
    refine ⟨h2.1, ?_, h2.2.1⟩
    rw [h2.2.2]; simp [Ne.symm this]

theorem Rep.parent_iff {h k} (r : Rep h k) (c p : Nat) : (h c).parent = some p ↔ c ∈ k p :=
  ⟨r.mem c p, fun hc => (r.seg p).parent c hc⟩

theorem Rep.unique {h k} (r : Rep h k) {c p q : Nat} (h1 : c ∈ k p) (h2 : c ∈ k q) : p = q := by
  rw [← r.parent_iff] at h1 h2
  rw [h1] at h2; exact Option.some.inj h2

theorem Rep.split {h k} (r : Rep h k) {c p : Nat} (hc : c ∈ k p) :
    ∃ pre post, k p = pre ++ c :: post ∧ c ∉ pre ∧ c ∉ post ∧
      (h c).prevSibling = pre.getLast? ∧ (h c).nextSibling = post.head? := by
  obtain ⟨pre, post, e⟩ := List.append_of_mem hc
  have hn := r.nodup p
  have hs := r.seg p
  rw [e] at hn hs
  rw [DSeg.append] at hs
  simp only [DSeg, Option.or_none] at hs
  refine ⟨pre, post, e, ?_, ?_, hs.2.2.1, hs.2.2.2.1⟩
  · intro hx; simp [List.nodup_append] at hn; exact hn.2.2 c hx |>.1 rfl
  · intro hx; simp [List.nodup_append] at hn; exact hn.2.1.1 hx

theorem rep_init : Rep Heap.init Kids.init := by
  constructor <;> simp [Heap.init, Kids.init, DSeg]

theorem detach_eq_self {k : Kids} {n p : Nat} (hn : n ∉ k p) : k.detach n p = k p := by
  simp only [Kids.detach]
  rw [List.filter_eq_self]
  intro a ha; simp; rintro rfl; exact hn ha

theorem detach_split {k : Kids} {n p : Nat} {pre post} (e : k p = pre ++ n :: post)
    (h1 : n ∉ pre) (h2 : n ∉ post) : k.detach n p = pre ++ post := by
  simp only [Kids.detach, e, List.filter_append, List.filter_cons]
  simp only [ne_eq, not_true_eq_false, decide_false]
  congr 1
  · rw [List.filter_eq_self]; intro a ha; simp; rintro rfl; exact h1 ha
  · rw [if_neg (by simp)]
    rw [List.filter_eq_self]; intro a ha; simp; rintro rfl; exact h2 ha

theorem not_mem_detach (k : Kids) (n p : Nat) : n ∉ k.detach n p := by
  simp [Kids.detach]

end Verif.Dom
