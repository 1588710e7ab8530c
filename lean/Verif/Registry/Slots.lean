import Verif.Registry.Lemmas
/-! # Lemmas on what one declaration writes, and on default values -/
namespace Verif.Registry

variable {V : Type}

/-- The writes of a declaration: the property that makes the write, the field, and the
component of the declared value it comes from. -/
def slots (r : Reg) : List (Name × Field × Nat) :=
  if r.shorthand then
    r.expand.flatMap (fun p => (find p.1).toList.flatMap (fun r' =>
      (r'.writes.filter (fun w => w.2 == 0)).map (fun w => (p.1, w.1, p.2))))
  else r.writes.map (fun w => (r.name, w.1, w.2))

theorem gives_slot {r : Reg} (hr : r ∈ registry) {v : Value V} {e : Name × Value V} (he : e ∈ r.entries v) {f : Field}
    {x : V} (hx : Gives e f x) : ∃ j, (e.1, f, j) ∈ slots r ∧ component v j = some x := by
  obtain ⟨r', i, hf, hi, hx⟩ := hx
  unfold Reg.entries at he
  unfold slots
  split at he
  · next hs =>
    rw [if_pos hs]
    unfold Reg.expandShorthand at he
    obtain ⟨q, hq, hqe⟩ := List.mem_filterMap.1 he
    rw [Option.map_eq_some_iff] at hqe
    obtain ⟨y, hy, rfl⟩ := hqe
    have hi0 : i = 0 ∧ y = x := by
      cases i with
      | zero => simp [component] at hx; exact ⟨rfl, hx⟩
      | succ k => simp [component] at hx
    obtain ⟨rfl, rfl⟩ := hi0
    refine ⟨q.2, ?_, hy⟩
    rw [List.mem_flatMap]
    refine ⟨q, hq, ?_⟩
    have hf' : find q.1 = some r' := hf
    rw [hf', List.mem_flatMap]
    refine ⟨r', by simp, ?_⟩
    rw [List.mem_map]
    exact ⟨(f, 0), by rw [List.mem_filter]; exact ⟨hi, rfl⟩, rfl⟩
  · next hs =>
    rw [if_neg hs]
    rw [List.mem_singleton] at he
    subst he
    have : r' = r := by
      have := find_self r hr
      have hf' : find r.name = some r' := hf
      rw [this] at hf'; cases hf'; rfl
    subst this
    exact ⟨i, List.mem_map.2 ⟨(f, i), hi, rfl⟩, hx⟩

theorem slot_gives {r : Reg} (hr : r ∈ registry) {v : Value V} {m : Name} {f : Field} {j : Nat}
    (hs : (m, f, j) ∈ slots r) {x : V} (hx : component v j = some x) : ∃ e ∈ r.entries v, e.1 = m ∧ Gives e f x := by
  unfold slots at hs
  unfold Reg.entries
  split at hs
  · next h =>
    rw [if_pos h]
    obtain ⟨q, hq, hs⟩ := List.mem_flatMap.1 hs
    obtain ⟨r', hr', hs⟩ := List.mem_flatMap.1 hs
    obtain ⟨w, hw, hs⟩ := List.mem_map.1 hs
    rw [List.mem_filter] at hw
    have hw0 : w.2 = 0 := by have := hw.2; exact eq_of_beq this
    have hf : find q.1 = some r' := by simpa using hr'
    have h1 : q.1 = m := congrArg (·.1) hs
    have h2 : w.1 = f := congrArg (·.2.1) hs
    have h3 : q.2 = j := congrArg (·.2.2) hs
    refine ⟨(q.1, [some x]), ?_, h1, r', 0, hf, ?_, rfl⟩
    · unfold Reg.expandShorthand
      rw [List.mem_filterMap]
      exact ⟨q, hq, by rw [h3, hx]; rfl⟩
    · have : w = (f, 0) := by rw [← h2, ← hw0]
      rw [← this]; exact hw.1
  · next h =>
    rw [if_neg h]
    obtain ⟨w, hw, hs⟩ := List.mem_map.1 hs
    have h1 : r.name = m := congrArg (·.1) hs
    have h2 : w.1 = f := congrArg (·.2.1) hs
    have h3 : w.2 = j := congrArg (·.2.2) hs
    refine ⟨(r.name, v), List.mem_singleton.2 rfl, h1, r, j, find_self r hr, ?_, hx⟩
    rw [← h2, ← h3]; exact hw

theorem slot_special : ∀ r ∈ registry, ∀ t ∈ slots r,
    (t.1 = .color ↔ t.2.1 = .color) ∧ (t.1 = .fontWeight ↔ t.2.1 = .fontWeight) ∧
    (t.1 = .fontSize ↔ t.2.1 = .fontSize) ∧ (t.1 = .outlineColor ↔ t.2.1 = .outlineColor) := by decide +kernel

theorem entries_nodup_aux : ∀ r ∈ registry, (r.expand.map (·.1)).Nodup := by decide +kernel

theorem entries_nodup {r : Reg} (hr : r ∈ registry) (v : Value V) : ((r.entries v).map (·.1)).Nodup := by
  unfold Reg.entries
  split
  · unfold Reg.expandShorthand
    refine List.Sublist.nodup ?_ (entries_nodup_aux r hr)
    generalize r.expand = l
    induction l with
    | nil => simp
    | cons a l ih =>
      rw [List.filterMap_cons]
      cases h : component v a.2 with
      | none => exact List.Sublist.cons _ ih
      | some x => exact List.Sublist.cons_cons _ ih
  · simp

/-! ## Settled styles -/

/-- Computing the style's own values again changes nothing. -/
structure Settled (c : Calc V) (s : Style V) : Prop where
  color : ∀ x, c.color (s .color) x = s .color
  weight : ∀ x, c.weight (s .fontWeight) x = s .fontWeight
  size : ∀ p, c.size (s .fontSize) p = s .fontSize
  outline : ∀ x y, c.outline (s .outlineColor) x y = s .outlineColor

theorem settled_step {c : Calc V} {s : Style V} (h : Settled c s) {m : Name} {f : Field}
    (hs : (m = .color ↔ f = .color) ∧ (m = .fontWeight ↔ f = .fontWeight) ∧
      (m = .fontSize ↔ f = .fontSize) ∧ (m = .outlineColor ↔ f = .outlineColor)) (p s' : Style V) :
    c.step m p s' (s f) = s f := by
  rw [step_eq]
  unfold asComputed
  split
  · next e => rw [hs.1.1 e]; exact h.color _
  · split
    · next e => rw [hs.2.1.1 e]; exact h.weight _
    · split
      · next e => rw [hs.2.2.1.1 e]; exact h.size _
      · split
        · next e => rw [hs.2.2.2.1 e]; exact h.outline _ _
        · rfl

/-- Values that are settled, by field. -/
def Ok (c : Calc V) (f : Field) (y : V) : Prop :=
  (f = .color → ∀ x, c.color y x = y) ∧ (f = .fontWeight → ∀ x, c.weight y x = y) ∧
  (f = .fontSize → ∀ p, c.size y p = y) ∧ (f = .outlineColor → ∀ a b, c.outline y a b = y)

theorem settled_iff (c : Calc V) (s : Style V) : Settled c s ↔ ∀ f, Ok c f (s f) := by
  constructor
  · intro h f
    exact ⟨fun e => e ▸ h.color, fun e => e ▸ h.weight, fun e => e ▸ h.size, fun e => e ▸ h.outline⟩
  · intro h
    exact ⟨(h _).1 rfl, (h _).2.1 rfl, (h _).2.2.1 rfl, (h _).2.2.2 rfl⟩

theorem ok_step {c : Calc V} (hl : c.Lawful) {m : Name} {f : Field}
    (hs : (m = .color ↔ f = .color) ∧ (m = .fontWeight ↔ f = .fontWeight) ∧
      (m = .fontSize ↔ f = .fontSize) ∧ (m = .outlineColor ↔ f = .outlineColor)) (p s : Style V) (x : V) :
    Ok c f (c.step m p s x) := by
  refine ⟨fun e => ?_, fun e => ?_, fun e => ?_, fun e => ?_⟩
  · rw [hs.1.2 e]; exact hl.color_idem _ _
  · rw [hs.2.1.2 e]; exact hl.weight_idem _ _
  · rw [hs.2.2.1.2 e]; exact hl.size_idem _ _
  · rw [hs.2.2.2.2 e]; exact hl.outline_idem _ _ _

theorem settled_apply {c : Calc V} (hl : c.Lawful) {r : Reg} (hr : r ∈ registry) (p : Style V) (v : Value V) (s : Style V)
    (h : ∀ f, Ok c f (s f)) : ∀ f, Ok c f (r.apply c p s v f) := by
  refine foldl_reach (P := fun s : Style V => ∀ f, Ok c f (s f)) r.writes s ?_ (.inl h)
  intro s w hw hs f
  unfold write
  cases component v w.2 with
  | none => exact hs f
  | some x =>
    by_cases e : f = w.1
    · subst e; simp only [assign, if_true]; exact ok_step hl (special r hr w hw) _ _ _
    · simp only [assign, if_neg e]; exact hs f

/-! ## Initial values and inheritance, in any order -/

/-- The value a registration's `initial` gives a field. -/
theorem initial_special : ∀ r ∈ registry, r.shorthand = false → ∀ w ∈ r.writes,
    (w.1 = .color → component r.initial w.2 = some .black) ∧
    (w.1 = .fontWeight → component r.initial w.2 = some .regular) ∧
    (w.1 = .fontSize → component r.initial w.2 = some .medium) := by decide +kernel

theorem component_map (l : List (Option Lit)) (g : Lit → V) (i : Nat) :
    component (l.map (·.map g)) i = (component l i).map g := by
  unfold component
  rw [List.getElem?_map]
  cases l[i]? with
  | none => rfl
  | some o => cases o <;> rfl

/-- What a property's initial value computes to. -/
theorem initial_step {c : Calc V} (hl : c.Lawful) {m : Name} {f : Field} {t : Lit}
    (hs : (m = .color ↔ f = .color) ∧ (m = .fontWeight ↔ f = .fontWeight) ∧
      (m = .fontSize ↔ f = .fontSize) ∧ (m = .outlineColor ↔ f = .outlineColor)) (ho : f ≠ .outlineColor)
    (h1 : f = .color → t = .black) (h2 : f = .fontWeight → t = .regular) (h3 : f = .fontSize → t = .medium)
    (p s : Style V) : c.step m p s (c.lit t) = c.lit t := by
  rw [step_eq]
  unfold asComputed
  split
  · next e => rw [h1 (hs.1.1 e)]; exact hl.color_lit _
  · split
    · next e => rw [h2 (hs.2.1.1 e)]; exact hl.weight_lit _
    · split
      · next e => rw [h3 (hs.2.2.1.1 e)]; exact hl.size_lit _
      · split
        · next e => exact absurd (hs.2.2.2.1 e) ho
        · rfl

theorem initialValues_eq {c : Calc V} (hl : c.Lawful) (fresh : Style V) {order : List Reg} (hp : order.Perm registry)
    {f : Field} (ho : f ≠ .outlineColor) {t : Lit}
    (hall : ∀ r ∈ registry, r.shorthand = false → ∀ w ∈ r.writes, w.1 = f → component r.initial w.2 = some t)
    (hex : ∃ r ∈ registry, r.shorthand = false ∧ ∃ w ∈ r.writes, w.1 = f) :
    initialValues c fresh order f = c.lit t := by
  have hone : ∀ r ∈ registry, r.shorthand = false → ∀ s : Style V,
      (s f = c.lit t ∨ ∃ w ∈ r.writes, w.1 = f) → r.apply c s s (r.initialValue c) f = c.lit t := by
    intro r hr hs s h
    refine writes_const _ _ _ _ _ _ _ _ ?_ ?_
    · intro i hi x hx s'
      have hc := hall r hr hs (f, i) hi rfl
      rw [Reg.initialValue, component_map] at hx
      simp only at hc
      rw [hc] at hx; cases hx
      have hsp := initial_special r hr hs (f, i) hi
      simp only at hsp
      rw [hc] at hsp
      exact initial_step hl (special r hr (f, i) hi) ho (fun e => by simpa using hsp.1 e)
        (fun e => by simpa using hsp.2.1 e) (fun e => by simpa using hsp.2.2 e) _ _
    · rcases h with h | ⟨w, hw, e⟩
      · exact .inl h
      · refine .inr ⟨w.2, c.lit t, ?_, ?_⟩
        · rw [← e]; exact hw
        · rw [Reg.initialValue, component_map, hall r hr hs w hw e]; rfl
  refine foldl_reach (P := fun s => s f = c.lit t) order fresh ?_ ?_
  · intro s r hr h
    unfold setInitial
    split
    · exact h
    · next hs => exact hone r (hp.mem_iff.1 hr) (by simpa using hs) s (.inl h)
  · obtain ⟨r, hr, hs, hw⟩ := hex
    refine .inr ⟨r, hp.mem_iff.2 hr, fun s => ?_⟩
    unfold setInitial
    rw [if_neg (by simp [hs])]
    exact hone r hr hs s (.inr hw)

theorem inherit_not (parent : Style V) {order : List Reg} (hp : order.Perm registry) (s : Style V) {f : Field}
    (h : ∀ r ∈ registry, r.inherited = true → ∀ q ∈ r.copies, q.1 ≠ f) : order.foldl (inheritOne parent) s f = s f := by
  refine foldl_reach (P := fun s' => s' f = s f) order s ?_ (.inl rfl)
  intro s' r hr hs
  unfold inheritOne
  split
  · next hi =>
    refine foldl_reach (P := fun s' => s' f = s f) r.copies s' ?_ (.inl hs)
    intro s'' q hq hs''
    simp only [assign]
    rw [if_neg (fun e => h r (hp.mem_iff.1 hr) hi q hq e.symm)]
    exact hs''
  · exact hs

theorem copies_same : ∀ r ∈ registry, ∀ q ∈ r.copies, q.2 = q.1 := by decide +kernel

theorem inherit_copies (parent : Style V) {order : List Reg} (hp : order.Perm registry) (s : Style V) {f : Field}
    (h : s f = parent f ∨ ∃ r ∈ registry, r.inherited = true ∧ ∃ q ∈ r.copies, q.1 = f) :
    order.foldl (inheritOne parent) s f = parent f := by
  have hone : ∀ r ∈ registry, ∀ s : Style V, s f = parent f ∨ (∃ q ∈ r.copies, q.1 = f) →
      r.copies.foldl (fun s p => assign s p.1 (parent p.2)) s f = parent f := by
    intro r hr s h
    refine foldl_reach (P := fun s => s f = parent f) r.copies s ?_ ?_
    · intro s' q hq hs
      by_cases e : f = q.1
      · simp only [assign]; rw [if_pos e, copies_same r hr q hq, e]
      · simp only [assign]; rw [if_neg e]; exact hs
    · rcases h with h | ⟨q, hq, e⟩
      · exact .inl h
      · exact .inr ⟨q, hq, fun s => by simp only [assign]; rw [if_pos e.symm, copies_same r hr q hq, e]⟩
  refine foldl_reach (P := fun s => s f = parent f) order s ?_ ?_
  · intro s r hr hs
    unfold inheritOne
    split
    · exact hone r (hp.mem_iff.1 hr) s (.inl hs)
    · exact hs
  · rcases h with h | ⟨r, hr, hi, hq⟩
    · exact .inl h
    · refine .inr ⟨r, hp.mem_iff.2 hr, fun s => ?_⟩
      unfold inheritOne
      rw [if_pos hi]
      exact hone r hr s (.inr hq)

/-- Every field of every initial style is settled. -/
theorem settled_initial {c : Calc V} (hl : c.Lawful) (fresh : Style V) {order : List Reg} (hp : order.Perm registry) :
    ∀ f, Ok c f (initialValues c fresh order f) := by
  intro f
  have written : ∀ f, (∃ r ∈ registry, r.shorthand = false ∧ ∃ w ∈ r.writes, w.1 = f ∧
      (component r.initial w.2).isSome = true) → Ok c f (initialValues c fresh order f) := by
    intro f hex
    refine foldl_reach (P := fun s : Style V => Ok c f (s f)) order fresh ?_ ?_
    · intro s r hr h
      unfold setInitial
      split
      · exact h
      · refine foldl_reach (P := fun s : Style V => Ok c f (s f)) r.writes s ?_ (.inl h)
        intro s' w hw hs
        unfold write
        cases component (r.initialValue c) w.2 with
        | none => exact hs
        | some x =>
          by_cases e : f = w.1
          · subst e; simp only [assign, if_true]; exact ok_step hl (special r (hp.mem_iff.1 hr) w hw) _ _ _
          · simp only [assign, if_neg e]; exact hs
    · obtain ⟨r, hr, hs, w, hw, e, hc⟩ := hex
      refine .inr ⟨r, hp.mem_iff.2 hr, fun s => ?_⟩
      unfold setInitial
      rw [if_neg (by simp [hs])]
      refine foldl_reach (P := fun s : Style V => Ok c f (s f)) r.writes s ?_ (.inr ⟨w, hw, fun s' => ?_⟩)
      · intro s' w hw hs
        unfold write
        cases component (r.initialValue c) w.2 with
        | none => exact hs
        | some x =>
          by_cases e : f = w.1
          · subst e; simp only [assign, if_true]; exact ok_step hl (special r hr w hw) _ _ _
          · simp only [assign, if_neg e]; exact hs
      · unfold write
        rw [Reg.initialValue, component_map]
        cases hcc : component r.initial w.2 with
        | none => rw [hcc] at hc; simp at hc
        | some t => subst e; simp only [Option.map_some, assign, if_true]; exact ok_step hl (special r hr w hw) _ _ _
  by_cases h : f ∈ [Field.color, .fontWeight, .fontSize, .outlineColor]
  · refine written f ?_
    revert f
    decide +kernel
  · refine ⟨fun e => ?_, fun e => ?_, fun e => ?_, fun e => ?_⟩ <;> subst e <;> exact absurd (by decide) h

theorem settled_computed {c : Calc V} (hl : c.Lawful) {fresh : Style V} {order : List Reg} (hp : order.Perm registry)
    {s : Style V} (h : Computed c fresh order s) : Settled c s := by
  rw [settled_iff]
  induction h with
  | root => exact settled_initial hl fresh hp
  | child p es _ ih =>
    have h0 : ∀ f, Ok c f (inheritsValues c fresh order p f) := by
      refine foldl_reach (P := fun s : Style V => ∀ f, Ok c f (s f)) order _ ?_ (.inl (settled_initial hl fresh hp))
      intro s r hr hs
      unfold inheritOne
      split
      · refine foldl_reach (P := fun s : Style V => ∀ f, Ok c f (s f)) r.copies s ?_ (.inl hs)
        intro s' q hq hs' f
        by_cases e : f = q.1
        · simp only [assign]; rw [if_pos e, copies_same r (hp.mem_iff.1 hr) q hq, ← e]; exact ih f
        · simp only [assign]; rw [if_neg e]; exact hs' f
      · exact hs
    refine foldl_reach (P := fun s : Style V => ∀ f, Ok c f (s f)) _ _ ?_ (.inl h0)
    intro s ph _ hs
    refine foldl_reach (P := fun s : Style V => ∀ f, Ok c f (s f)) es s ?_ (.inl hs)
    intro s e _ hs
    unfold applyEntry
    cases hf : find e.1 with
    | none => exact hs
    | some r =>
      simp only
      split
      · exact settled_apply hl (find_mem hf).1 p e.2 s hs
      · exact hs

end Verif.Registry
