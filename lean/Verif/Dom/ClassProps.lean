import Verif.Dom.TokenList
/-! # Property C04: the class list is an ordered set -/
namespace Verif.Dom

/-- **C04.**  After any history of attribute settings, add, remove and toggle calls
the class list has no duplicates, and it holds exactly the tokens that the history
put in and did not take out, in the order they were put in.  (Such a meaning always
exists, so the statement is never vacuous.) -/
theorem C04_class_list_is_ordered_set (ops : List ClassOp) :
    (∃ s, ClassHistory Stamps.empty ops s) ∧
    ∀ s, ClassHistory Stamps.empty ops s →
      (runClassOps [] ops).Nodup ∧
      (∀ t, t ∈ runClassOps [] ops ↔ s.at_ t ≠ none) ∧
      (runClassOps [] ops).Pairwise (fun a b => ∃ i j, s.at_ a = some i ∧ s.at_ b = some j ∧ i < j) := by
  refine ⟨history_total _ _, fun s hs => ?_⟩
  have h : Agrees (runClassOps [] ops) s :=
    Agrees.history ⟨by simp [Stamps.empty], by simp [Stamps.empty], by simp⟩ hs
  exact ⟨h.nodup, h.mem, h.order⟩

/-- **C04** (resetting).  Setting the attribute forgets everything before it. -/
theorem C04_set_forgets (l l' : TokenList) (v : List Char) (ops : List ClassOp) :
    runClassOps l (.set v :: ops) = runClassOps l' (.set v :: ops) := rfl

/-- **C04** (reads).  `toggle` answers whether the token is in afterwards, and changes no other token. -/
theorem C04_toggle_reports (l : TokenList) (t : Token) :
    ((l.toggle t).2 = true ↔ t ∈ (l.toggle t).1) ∧ ((l.toggle t).2 = true ↔ t ∉ l) ∧
    ∀ u, u ≠ t → (u ∈ (l.toggle t).1 ↔ u ∈ l) := by
  unfold TokenList.toggle
  split
  · rename_i h
    simp only [List.contains_iff_mem] at h
    simp [h]
    grind
  · rename_i h
    simp only [List.contains_iff_mem] at h
    simp [h]
    intro u h1 h2; exact absurd h2 h1

/-- With `replace` the ordered-set property is lost: replacing `a` by an already
present `b` leaves `b` twice. -/
theorem C04_replace_fails :
    ∃ l : TokenList, l.Nodup ∧ ¬ (l.replace ['a'] ['b']).1.Nodup := ⟨[['a'], ['b']], by decide, by decide⟩

/-- `replace` keeps the ordered-set property when the new token is absent (or equal to the old one). -/
theorem C04_replace_partial (l : TokenList) (a b : Token) (h : l.Nodup) (hb : b ∉ l ∨ a = b) :
    (l.replace a b).1.Nodup ∧
    ∀ t, t ∈ (l.replace a b).1 ↔ (if a ∈ l then (t ∈ l ∧ t ≠ a) ∨ t = b else t ∈ l) := by
  unfold TokenList.replace
  by_cases ha : a ∈ l
  · simp only [List.contains_iff_mem, ha, if_true]
    refine ⟨List.nodup_append.2 ⟨h.filter _, by simp, ?_⟩, ?_⟩
    · intro x hx y hy
      simp at hx hy
      grind
    · intro t; simp
  · simp [List.contains_iff_mem, ha, h]

example : runClassOps [] [.set " a  b a ".toList, .toggle ['c'], .toggle ['a'], .add ['a'], .remove ['b']]
    = [['c'], ['a']] := by decide

end Verif.Dom
