import Verif.Registry.Spec
/-! # Lemmas on applying entries -/
namespace Verif.Registry

variable {V : Type}

/-! ## Facts of the table -/

theorem find_self : ∀ r ∈ registry, find r.name = some r := by decide +kernel
theorem writes_nodup : ∀ r ∈ registry, (r.writes.map (·.1)).Nodup := by decide +kernel
theorem outline_late : ∀ r ∈ registry, r.name = .outlineColor → r.phase = .late ∧ r.writes = [(.outlineColor, 0)] := by
  decide +kernel
theorem late_outline : ∀ r ∈ registry, r.phase = .late → r.name = .outlineColor := by decide +kernel

/-- The property that alone writes each of the four fields that need computing. -/
theorem special : ∀ r ∈ registry, ∀ w ∈ r.writes,
    (r.name = .color ↔ w.1 = .color) ∧ (r.name = .fontWeight ↔ w.1 = .fontWeight) ∧
    (r.name = .fontSize ↔ w.1 = .fontSize) ∧ (r.name = .outlineColor ↔ w.1 = .outlineColor) := by decide +kernel

theorem find_mem {n : Name} {r : Reg} (h : find n = some r) : r ∈ registry ∧ r.name = n :=
  ⟨List.mem_of_find?_eq_some h, by have := List.find?_some h; simpa using this⟩

/-! ## One apply -/

theorem step_child (c : Calc V) (n : Name) (p s s' : Style V) (x : V) (h : n ≠ .outlineColor) :
    c.step n p s x = c.step n p s' x := by
  cases n <;> first | rfl | exact absurd rfl h

theorem step_eq (c : Calc V) (n : Name) (p s : Style V) (x : V) : c.step n p s x = asComputed c n p s x := by
  cases n <;> rfl

theorem write_ne (c : Calc V) (n p) (v : Value V) (s) (w : Field × Nat) (f : Field)
    (h : w.1 = f → component v w.2 = none) : write c n p v s w f = s f := by
  unfold write
  cases hc : component v w.2 with
  | none => rfl
  | some x =>
    have : f ≠ w.1 := by
      intro e; have := h e.symm; rw [hc] at this; simp at this
    simp [assign, this]

theorem write_eq (c : Calc V) (n p) (v : Value V) (s) (f : Field) (i x) (h : component v i = some x) :
    write c n p v s (f, i) f = c.step n p s x := by simp [write, h, assign]

theorem writes_none (c : Calc V) (n p) (v : Value V) (f : Field) : ∀ (ws : List (Field × Nat)) (s : Style V),
    (∀ i, (f, i) ∈ ws → component v i = none) → ws.foldl (write c n p v) s f = s f := by
  intro ws
  induction ws with
  | nil => intro s _; rfl
  | cons w ws ih =>
    intro s h
    rw [List.foldl_cons, ih _ (fun i hi => h i (List.mem_cons_of_mem _ hi))]
    refine write_ne _ _ _ _ _ _ _ ?_
    intro e; subst e; exact h w.2 List.mem_cons_self

theorem writes_mem (c : Calc V) (n p) (v : Value V) (f : Field) (i x) (hx : component v i = some x) :
    ∀ (ws : List (Field × Nat)) (s : Style V), (ws.map (·.1)).Nodup → (f, i) ∈ ws →
    (n = .outlineColor → ws.length ≤ 1) → ws.foldl (write c n p v) s f = c.step n p s x := by
  intro ws
  induction ws with
  | nil => intro s _ h; simp at h
  | cons w ws ih =>
    intro s hn hm ho
    rw [List.foldl_cons]
    rw [List.map_cons, List.nodup_cons] at hn
    by_cases hw : w.1 = f
    · have hrest : ∀ j, (f, j) ∉ ws := by
        intro j hj; apply hn.1; rw [hw]; exact List.mem_map.2 ⟨(f, j), hj, rfl⟩
      have : w = (f, i) := by
        rcases List.mem_cons.1 hm with h | h
        · exact h.symm
        · exact absurd h (hrest i)
      rw [writes_none _ _ _ _ _ _ _ (fun j hj => absurd hj (hrest j)), this, write_eq _ _ _ _ _ _ _ _ hx]
    · have hm' : (f, i) ∈ ws := by
        rcases List.mem_cons.1 hm with h | h
        · rw [← h] at hw; simp at hw
        · exact h
      have hno : n ≠ .outlineColor := by
        intro e
        have h1 := ho e
        have h2 := List.length_pos_of_mem hm'
        rw [List.length_cons] at h1
        omega
      rw [ih _ hn.2 hm' (fun e => absurd e hno)]
      exact step_child _ _ _ _ _ _ hno

/-! ## Entries -/

/-- The entry gives the field nothing. -/
def Untouched (e : Name × Value V) (f : Field) : Prop :=
  ∀ r, find e.1 = some r → ∀ i, (f, i) ∈ r.writes → component e.2 i = none

/-- The entry gives the field the value, from which `apply` computes. -/
def Gives (e : Name × Value V) (f : Field) (x : V) : Prop :=
  ∃ r i, find e.1 = some r ∧ (f, i) ∈ r.writes ∧ component e.2 i = some x

theorem applyEntry_untouched (c : Calc V) (p ph s) (e : Name × Value V) (f) (h : Untouched e f) :
    applyEntry c p ph s e f = s f := by
  unfold applyEntry
  cases hf : find e.1 with
  | none => rfl
  | some r =>
    simp only
    split
    · exact writes_none _ _ _ _ _ _ _ (h r hf)
    · rfl

theorem foldl_reach {α β} {P : β → Prop} {g : β → α → β} : ∀ (l : List α) (s : β),
    (∀ s a, a ∈ l → P s → P (g s a)) → (P s ∨ ∃ a ∈ l, ∀ s, P (g s a)) → P (l.foldl g s) := by
  intro l
  induction l with
  | nil => intro s _ h; rcases h with h | ⟨a, h, _⟩; exact h; simp at h
  | cons a l ih =>
    intro s hk h
    rw [List.foldl_cons]
    refine ih _ (fun s b hb => hk s b (List.mem_cons_of_mem _ hb)) ?_
    rcases h with h | ⟨b, hb, h⟩
    · exact .inl (hk s a List.mem_cons_self h)
    · rcases List.mem_cons.1 hb with rfl | hb
      · exact .inl (h s)
      · exact .inr ⟨b, hb, h⟩

theorem writes_const (c : Calc V) (n p) (v : Value V) (f : Field) (y : V) (ws : List (Field × Nat)) (s : Style V)
    (hc : ∀ i, (f, i) ∈ ws → ∀ x, component v i = some x → ∀ s', c.step n p s' x = y)
    (h : s f = y ∨ ∃ i x, (f, i) ∈ ws ∧ component v i = some x) : ws.foldl (write c n p v) s f = y := by
  refine foldl_reach (P := fun s => s f = y) ws s ?_ ?_
  · intro s w hw hs
    unfold write
    cases hv : component v w.2 with
    | none => exact hs
    | some x =>
      by_cases e : f = w.1
      · subst e; simp only [assign, if_true]; exact hc w.2 hw x hv s
      · simp only [assign, if_neg e]; exact hs
  · rcases h with h | ⟨i, x, hi, hx⟩
    · exact .inl h
    · exact .inr ⟨(f, i), hi, fun s => by rw [write_eq _ _ _ _ _ _ _ _ hx]; exact hc i hi x hx s⟩

theorem phase_mem (ph : Phase) : ph ∈ [Phase.preFont, .font, .normal, .late] := by cases ph <;> decide

/-- Every entry that gives the field something gives it the same. -/
theorem all_const (c : Calc V) (p : Style V) (es : List (Name × Value V)) (s : Style V) (f : Field) (y : V)
    (hc : ∀ e ∈ es, ∀ x, Gives e f x → ∀ s', c.step e.1 p s' x = y) (h : s f = y ∨ ∃ e ∈ es, ∃ x, Gives e f x) :
    applyAll c p es s f = y := by
  have keep : ∀ ph s e, e ∈ es → s f = y → applyEntry c p ph s e f = y := by
    intro ph s e he hs
    unfold applyEntry
    cases hf : find e.1 with
    | none => exact hs
    | some r =>
      simp only
      split
      · refine writes_const _ _ _ _ _ _ _ _ ?_ (.inl hs)
        intro i hi x hx s'
        rw [(find_mem hf).2]
        exact hc e he x ⟨r, i, hf, hi, hx⟩ s'
      · exact hs
  refine foldl_reach (P := fun s => s f = y) _ s ?_ ?_
  · intro s ph _ hs
    exact foldl_reach (P := fun s => s f = y) es s (fun s e he hs => keep ph s e he hs) (.inl hs)
  · rcases h with h | ⟨e, he, x, r, i, hf, hi, hx⟩
    · exact .inl h
    · refine .inr ⟨r.phase, phase_mem _, fun s => ?_⟩
      refine foldl_reach (P := fun s => s f = y) es s (fun s e he hs => keep r.phase s e he hs) (.inr ⟨e, he, fun s => ?_⟩)
      simp only [applyEntry, hf, if_true]
      refine writes_const _ _ _ _ _ _ _ _ ?_ (.inr ⟨i, x, hi, hx⟩)
      intro i hi x hx s'
      rw [(find_mem hf).2]
      exact hc e he x ⟨r, i, hf, hi, hx⟩ s'

/-- No entry gives the field anything. -/
theorem all_untouched (c : Calc V) (p : Style V) (es : List (Name × Value V)) (s : Style V) (f : Field)
    (h : ∀ e ∈ es, ∀ x, ¬ Gives e f x) : applyAll c p es s f = s f :=
  all_const c p es s f (s f) (fun e he x hx => absurd hx (h e he x)) (.inl rfl)

/-! ## The one entry that gives the field something -/

theorem untouched_of (e : Name × Value V) (f) (h : ∀ x, ¬ Gives e f x) : Untouched e f := by
  intro r hf i hi
  cases hc : component e.2 i with
  | none => rfl
  | some x => exact absurd ⟨r, i, hf, hi, hc⟩ (h x)

theorem phase_untouched (c : Calc V) (p ph) (f : Field) : ∀ (es : List (Name × Value V)) (s : Style V),
    (∀ e ∈ es, Untouched e f) → applyPhase c p es s ph f = s f := by
  intro es
  induction es with
  | nil => intro s _; rfl
  | cons e es ih =>
    intro s h
    show applyPhase c p es (applyEntry c p ph s e) ph f = s f
    rw [ih _ (fun e he => h e (List.mem_cons_of_mem _ he)), applyEntry_untouched _ _ _ _ _ _ (h e List.mem_cons_self)]

/-- The late phase applies nothing but `outline-color`. -/
theorem late_other (c : Calc V) (p s) (e : Name × Value V) (h : e.1 ≠ .outlineColor) : applyEntry c p .late s e = s := by
  unfold applyEntry
  cases hf : find e.1 with
  | none => rfl
  | some r =>
    simp only
    split
    · next hl => exact absurd ((find_mem hf).2.symm.trans (late_outline r (find_mem hf).1 hl)) h
    · rfl

theorem late_others (c : Calc V) (p) : ∀ (es : List (Name × Value V)) (s : Style V),
    (∀ e ∈ es, e.1 ≠ .outlineColor) → es.foldl (applyEntry c p .late) s = s := by
  intro es
  induction es with
  | nil => intro s _; rfl
  | cons e es ih =>
    intro s h
    rw [List.foldl_cons, late_other _ _ _ _ (h e List.mem_cons_self), ih _ (fun e he => h e (List.mem_cons_of_mem _ he))]

theorem late_field (c : Calc V) (p) (f : Field) (hf : f ≠ .outlineColor) (es : List (Name × Value V)) (s : Style V) :
    applyPhase c p es s .late f = s f := by
  refine foldl_reach (P := fun s' => s' f = s f) es s ?_ (.inl rfl)
  intro s' e he hs
  unfold applyEntry
  cases hr : find e.1 with
  | none => exact hs
  | some r =>
    simp only
    split
    · next hl =>
      have hw := (outline_late r (find_mem hr).1 (late_outline r (find_mem hr).1 hl)).2
      unfold Reg.apply
      rw [hw, writes_none]
      · exact hs
      · intro i hi; simp at hi; exact absurd hi.1 hf
    · exact hs

theorem all_one (c : Calc V) (p : Style V) (es : List (Name × Value V)) (s : Style V) (f : Field)
    (hn : (es.map (·.1)).Nodup) {e : Name × Value V} (he : e ∈ es) {x : V} (hx : Gives e f x)
    (ho : ∀ e' ∈ es, e'.1 ≠ e.1 → ∀ x, ¬ Gives e' f x) :
    applyAll c p es s f = asComputed c e.1 p (applyAll c p es s) x := by
  obtain ⟨r, i, hf, hi, hx⟩ := hx
  obtain ⟨hr, hrn⟩ := find_mem hf
  by_cases hol : e.1 = .outlineColor
  · -- the late phase
    obtain ⟨a, b, rfl⟩ := List.append_of_mem he
    rw [List.map_append, List.map_cons, List.nodup_append] at hn
    obtain ⟨_, hb, hab⟩ := hn
    rw [List.nodup_cons] at hb
    have ha : ∀ e' ∈ a, e'.1 ≠ .outlineColor := by
      intro e' he' h
      exact hab e'.1 (List.mem_map.2 ⟨e', he', rfl⟩) e.1 List.mem_cons_self (h.trans hol.symm)
    have hb' : ∀ e' ∈ b, e'.1 ≠ .outlineColor := by
      intro e' he' h
      exact hb.1 (List.mem_map.2 ⟨e', he', h.trans hol.symm⟩)
    obtain ⟨hph, hws⟩ := outline_late r hr (hrn.trans hol)
    have key : ∀ s3 : Style V, applyPhase c p (a ++ e :: b) s3 .late f =
        asComputed c e.1 p (applyPhase c p (a ++ e :: b) s3 .late) x := by
      intro s3
      have h1 := late_field c p .outlineStyle (by decide) (a ++ e :: b) s3
      have h2 := late_field c p .color (by decide) (a ++ e :: b) s3
      have hrw : asComputed c e.1 p (applyPhase c p (a ++ e :: b) s3 .late) x = asComputed c e.1 p s3 x := by
        unfold asComputed; rw [h1, h2]
      rw [hrw, ← step_eq]
      unfold applyPhase
      rw [List.foldl_append, late_others c p a s3 ha, List.foldl_cons, late_others c p b _ hb']
      simp only [applyEntry, hf, hph, if_true, Reg.apply, hrn]
      exact writes_mem _ _ _ _ _ _ _ hx _ _ (writes_nodup r hr) hi (fun _ => by rw [hws]; simp)
    exact key _
  · have hconst : ∀ s' : Style V, c.step e.1 p s' x = asComputed c e.1 p (applyAll c p es s) x := by
      intro s'; rw [← step_eq]; exact step_child _ _ _ _ _ _ hol
    refine all_const c p es s f _ ?_ (.inr ⟨e, he, x, r, i, hf, hi, hx⟩)
    intro e' he' x' hx' s'
    by_cases h : e'.1 = e.1
    · have : e' = e := by
        obtain ⟨a, b, rfl⟩ := List.append_of_mem he
        rw [List.map_append, List.map_cons, List.nodup_append] at hn
        obtain ⟨_, hb, hab⟩ := hn
        rw [List.nodup_cons] at hb
        rcases List.mem_append.1 he' with h' | h'
        · exact absurd h (hab e'.1 (List.mem_map.2 ⟨e', h', rfl⟩) e.1 List.mem_cons_self)
        · rcases List.mem_cons.1 h' with h' | h'
          · exact h'
          · exact absurd (List.mem_map.2 ⟨e', h', h⟩) hb.1
      subst this
      obtain ⟨r', i', hf', hi', hx''⟩ := hx'
      rw [hf] at hf'; cases hf'
      have hii : i' = i := by
        have hnd := writes_nodup r hr
        obtain ⟨a, b, hab⟩ := List.append_of_mem hi
        rw [hab] at hnd hi'
        rw [List.map_append, List.map_cons, List.nodup_append] at hnd
        obtain ⟨_, hb, hab'⟩ := hnd
        rw [List.nodup_cons] at hb
        rcases List.mem_append.1 hi' with h' | h'
        · exact absurd rfl (hab' f (List.mem_map.2 ⟨_, h', rfl⟩) f List.mem_cons_self)
        · rcases List.mem_cons.1 h' with h' | h'
          · cases h'; rfl
          · exact absurd (List.mem_map.2 ⟨_, h', rfl⟩) hb.1
      subst hii
      rw [hx] at hx''; cases hx''
      exact hconst s'
    · exact absurd hx' (ho e' he' h x')

end Verif.Registry
