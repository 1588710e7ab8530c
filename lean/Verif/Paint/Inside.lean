import Verif.Paint.Once

/-! # What is due is what the fragments inside show, under the effects on the way to them -/

namespace Verif.Paint

/-- Shown by `g` under the effects `es`. -/
def Shown (es : List (Nat × Effect)) (g : Frag) (d : Draw) : Prop :=
  ∃ o ∈ showsOf g, d = ⟨o.name, o.mark, es⟩

theorem showsOf_under : ∀ f, ∀ o ∈ showsOf f, o.under = []
  | .mk .box b _, o, h => by
    simp only [showsOf, shows] at h
    split at h
    · simp at h
    · simp only [List.mem_append] at h
      rcases h with ((h | h) | h) | h
      · split at h <;> simp at h; simp [h]
      · split at h <;> simp at h; simp [h]
      · split at h <;> simp at h; simp [h]
      · split at h <;> simp at h <;> simp [h]
  | .mk (.shape true) b _, o, h => by
    simp only [showsOf] at h
    split at h <;> simp at h
    simp [h]
  | .mk (.shape false) b _, o, h => by simp [showsOf] at h
  | .mk .group b _, o, h => by simp [showsOf] at h
  | .mk (.svgRoot _) b _, o, h => by simp [showsOf] at h

theorem mem_underAll {e l d} : d ∈ underAll e l ↔ ∃ o ∈ l, d = ⟨o.name, o.mark, e ++ o.under⟩ := by
  simp [underAll, eq_comm]

theorem shown_here {k b kids o} (h : o ∈ showsOf (.mk k b kids)) :
    ∃ es g, Inside (.mk k b kids) es g ∧ Shown es g ⟨o.name, o.mark, asks b ++ o.under⟩ :=
  ⟨asks b, .mk k b kids, .here _, o, h, by rw [showsOf_under _ o h, List.append_nil]⟩

theorem shown_below {k b kids o} (hk : k ≠ .svgRoot true) (hs : ∀ i, k ≠ .shape i)
    (h : ∃ es g, InsideKids kids es g ∧ Shown es g o) :
    ∃ es g, Inside (.mk k b kids) es g ∧ Shown es g ⟨o.name, o.mark, asks b ++ o.under⟩ := by
  obtain ⟨es, g, hi, o', ho', rfl⟩ := h
  exact ⟨asks b ++ es, g, .deeper hk hs hi, o', ho', rfl⟩

mutual
theorem due_inside : ∀ f d, d ∈ due f → ∃ es g, Inside f es g ∧ Shown es g d
  | .mk k b kids, d, h => by
    rw [due.eq_def] at h
    simp only [mem_underAll] at h
    obtain ⟨o, ho, rfl⟩ := h
    cases k with
    | box =>
      rcases List.mem_append.1 ho with ho | ho
      · exact shown_here (k := .box) ho
      · exact shown_below (by simp) (by simp) (dueKids_inside kids o ho)
    | svgRoot flat =>
      cases flat
      · exact shown_below (by simp) (by simp) (dueKids_inside kids o (by simpa using ho))
      · simp at ho
    | group => exact shown_below (by simp) (by simp) (dueKids_inside kids o ho)
    | shape inked =>
      refine shown_here (k := .shape inked) ?_
      cases inked
      · simp at ho
      · cases hh : b.hidden <;> simp [hh] at ho
        simp [showsOf, hh, ho]
theorem dueKids_inside : ∀ kids d, d ∈ dueKids kids → ∃ es g, InsideKids kids es g ∧ Shown es g d
  | .nil, d, h => by simp [dueKids] at h
  | .cons slot f rest, d, h => by
    rw [dueKids, List.mem_append] at h
    rcases h with h | h
    · split at h
      · simp at h
      · rename_i ho
        obtain ⟨es, g, hi, hs⟩ := due_inside f d h
        exact ⟨es, g, .first ho hi, hs⟩
    · obtain ⟨es, g, hi, hs⟩ := dueKids_inside rest d h
      exact ⟨es, g, .later hi, hs⟩
end

mutual
theorem inside_due : ∀ {f es g}, Inside f es g → ∀ d, Shown es g d → d ∈ due f
  | _, _, _, .here (.mk k b kids), d, ⟨o, ho, hd⟩ => by
    rw [due.eq_def]
    simp only [mem_underAll]
    refine ⟨o, ?_, by rw [hd, showsOf_under _ o ho, List.append_nil]; rfl⟩
    cases k with
    | box => exact List.mem_append.2 (.inl ho)
    | svgRoot flat => simp [showsOf] at ho
    | group => simp [showsOf] at ho
    | shape inked =>
      cases inked
      · simp [showsOf] at ho
      · cases hh : b.hidden <;> simp [showsOf, hh] at ho
        simp [hh, ho]
  | _, _, _, .deeper (k := k) (b := b) (es := es) hk hs h, d, ⟨o, ho, hd⟩ => by
    have ih := insideKids_due h ⟨o.name, o.mark, es⟩ ⟨o, ho, rfl⟩
    rw [due.eq_def]
    simp only [mem_underAll]
    refine ⟨⟨o.name, o.mark, es⟩, ?_, hd⟩
    cases k with
    | box => exact List.mem_append.2 (.inr ih)
    | svgRoot flat =>
      cases flat
      · simpa using ih
      · exact absurd rfl hk
    | group => exact ih
    | shape inked => exact absurd rfl (hs inked)
theorem insideKids_due : ∀ {kids es g}, InsideKids kids es g → ∀ d, Shown es g d → d ∈ dueKids kids
  | _, _, _, .first ho h, d, hd => by
    rw [dueKids, List.mem_append, if_neg ho]
    exact .inl (inside_due h d hd)
  | _, _, _, .later h, d, hd => by
    rw [dueKids, List.mem_append]
    exact .inr (insideKids_due h d hd)
end

end Verif.Paint
