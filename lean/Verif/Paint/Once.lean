import Verif.Paint.Spec

/-! # Each pass is a choice from one walk over the tree; all passes together take everything once -/

namespace Verif.Paint

theorem place_perm (p : Piece) (l : List Piece) : (place p l).Perm (p :: l) := by
  induction l with
  | nil => exact .refl _
  | cons q l ih =>
    simp only [place]
    split
    · exact .refl _
    · exact (List.Perm.cons q ih).trans (.swap ..)

theorem arrange_perm (l : List Piece) : (arrange l).Perm l := by
  induction l with
  | nil => exact .refl _
  | cons p l ih => exact (place_perm p _).trans (ih.cons p)

theorem stack_perm (l : List Piece) : (stack l).Perm (l.flatMap (·.draws)) :=
  (arrange_perm l).flatMap_right _

mutual
/-- The walk: each child with its look and the nodes it gives if its look is asked for. -/
def parts : Kids → List (Look × List Piece)
  | .nil => []
  | .cons slot f rest =>
    (if slot = .oof then []
     else if f.look.isolates then [(f.look, [establish f.look (context f)])]
     else if f.look.positioned then [(f.look, context f)]
     else partsIn (slot = .put) f) ++ parts rest
def partsIn (held : Bool) : Frag → List (Look × List Piece)
  | .mk k b kids =>
    (b, own k b (svgKids kids)) :: if !held && k.isSvgRoot then [] else parts kids
end

/-- What a pass picks. -/
def pick (p : Look → Bool) (l : List (Look × List Piece)) : List Piece :=
  l.flatMap fun x => if p x.1 then x.2 else []

theorem pick_append (p) (a b : List (Look × List Piece)) : pick p (a ++ b) = pick p a ++ pick p b := by
  simp [pick]

mutual
theorem pass_parts (p : Look → Bool) : ∀ kids, pass p kids = pick p (parts kids)
  | .nil => by simp [pass, parts, pick]
  | .cons slot f rest => by
    rw [pass, parts, pick_append, pass_parts p rest]
    congr 1
    split
    · simp [pick]
    · split
      · simp [pick]
      · split
        · simp [pick]
        · exact flow_parts p _ f
theorem flow_parts (p : Look → Bool) (held) : ∀ f, flow p held f = pick p (partsIn held f)
  | .mk k b kids => by
    rw [flow, partsIn]
    split <;> split
    · simp [pick, *]
    · rw [pass_parts p kids]; simp [pick, *]
    · simp [pick, *]
    · rw [pass_parts p kids]; simp [pick, *]
end

/-- Every look that the walk meets is settled. -/
def Calm (l : List (Look × List Piece)) : Prop := ∀ x ∈ l, settled x.1 = true

theorem Calm.cons {x l} (h : Calm (x :: l)) : settled x.1 = true ∧ Calm l :=
  ⟨h x (by simp), fun y hy => h y (by simp [hy])⟩

theorem six_perm (l : List (Look × List Piece)) (h : Calm l) :
    (pick negative l ++ pick blocks l ++ pick floating l ++ pick inlines l ++ pick zero l ++
      pick positive l).Perm (l.flatMap (·.2)) := by
  rw [List.perm_iff_count]
  intro a
  induction l with
  | nil => simp [pick]
  | cons x l ih =>
    have ⟨hx, hl⟩ := h.cons
    have ih := ih hl
    simp only [pick, List.flatMap_cons, List.count_append] at ih ⊢
    obtain ⟨b, ps⟩ := x
    simp only [settled, Bool.or_eq_true, Bool.and_eq_true, Bool.not_eq_true'] at hx
    rcases hx with hx | ⟨hz, hf⟩
    · cases hz : b.zIndex with
      | none =>
        simp only [negative, blocks, floating, inlines, zero, positive, Look.level, hz, hx] at ih ⊢
        simp at ih ⊢
        omega
      | some z =>
        have : z < 0 ∨ z = 0 ∨ 0 < z := by omega
        rcases this with h' | h' | h'
        · have h1 : ¬ z = 0 := by omega
          have h2 : ¬ 0 < z := by omega
          simp only [negative, blocks, floating, inlines, zero, positive, Look.level, hz, hx] at ih ⊢
          simp [h', h1, h2] at ih ⊢
          omega
        · simp only [negative, blocks, floating, inlines, zero, positive, Look.level, hz, hx] at ih ⊢
          simp [h'] at ih ⊢
          omega
        · have h1 : ¬ z = 0 := by omega
          have h2 : ¬ z < 0 := by omega
          simp only [negative, blocks, floating, inlines, zero, positive, Look.level, hz, hx] at ih ⊢
          simp [h', h1, h2] at ih ⊢
          omega
    · have hz' : b.zIndex = none := by simpa using hz
      cases hp : b.positioned <;> cases hi : b.inline <;>
        (simp only [negative, blocks, floating, inlines, zero, positive, Look.level, hz', hp, hi, hf] at ih ⊢
         simp at ih ⊢
         omega)

mutual
theorem parts_calm : ∀ kids, fairKids kids = true → Calm (parts kids)
  | .nil, _ => by intro x hx; simp [parts] at hx
  | .cons slot f rest, h => by
    simp only [fairKids, Bool.and_eq_true, Bool.or_eq_true, decide_eq_true_eq] at h
    intro x hx
    rw [parts, List.mem_append] at hx
    rcases hx with hx | hx
    · split at hx
      · simp at hx
      · rename_i ho
        rcases h.1 with h1 | ⟨⟨hs, hh⟩, hf⟩
        · exact absurd h1 ho
        · split at hx
          · simp at hx; rw [hx]; exact hs
          · split at hx
            · simp at hx; rw [hx]; exact hs
            · rename_i hp
              have hflow : slot = .flow := by
                rcases hh with hh | hh
                · exact hh
                · exact absurd hh hp
              subst hflow
              exact partsIn_calm f hs hf x (by simpa using hx)
    · exact parts_calm rest h.2 x hx
theorem partsIn_calm : ∀ f, settled f.look = true → fair f = true → Calm (partsIn false f)
  | .mk k b kids, hs, h => by
    intro x hx
    rw [partsIn] at hx
    rcases List.mem_cons.1 hx with hx | hx
    · rw [hx]; exact hs
    · cases k with
      | box =>
        simp only [fair, Bool.and_eq_true] at h
        exact parts_calm kids h.2 x hx
      | svgRoot flat => simp [Kind.isSvgRoot] at hx
      | group => simp [fair] at h
      | shape => simp [fair] at h
end

/-- All the draws of some nodes. -/
def inks (l : List Piece) : List Draw := l.flatMap (·.draws)

theorem inks_append (a b : List Piece) : inks (a ++ b) = inks a ++ inks b := by simp [inks]

theorem effects_asks (b : Look) : b.effects = asks b := rfl

theorem underAll_eq (e) (l : List Draw) : l.map (Draw.beneath e) = underAll e l := rfl

theorem underAll_nil (l : List Draw) : underAll [] l = l := by
  simp [underAll]

theorem underAll_append (e) (a b : List Draw) : underAll e (a ++ b) = underAll e a ++ underAll e b := by
  simp [underAll]

theorem asks_calm {b : Look} (h : b.isolates = false) : asks b = [] := by
  simp only [Look.isolates, Bool.or_eq_false_iff] at h
  simp [asks, h]

/-- What a fragment gives of its own is what it shows. -/
theorem own_box (b : Look) (hg : grounded b = true) (l : List Draw) :
    inks (own .box b l) = shows b := by
  unfold own shows
  split
  · simp [inks]
  · simp only [inks_append]
    congr 1
    · simp only [grounded, Bool.or_eq_true, Bool.not_eq_true'] at hg
      unfold decorate
      split
      · simp only [inks, List.flatMap_cons, List.flatMap_nil, List.append_nil, decoration]
        cases b.root <;> cases b.coloured <;> simp
      · rename_i h
        simp only [Bool.not_eq_true, Bool.or_eq_false_iff, Bool.and_eq_false_iff] at h
        have : b.coloured = false := by
          rcases hg with ((hg | hg) | hg) | hg
          · rcases h.1.1 with h | h
            · exact h
            · simp [hg] at h
          · exact hg
          · rw [hg] at h; simp at h
          · rw [hg] at h; simp at h
        simp [inks, this, h]
    · unfold fillIn
      cases b.content <;> simp [inks]

mutual
theorem context_due : ∀ f, fair f = true →
    (underAll (asks f.look) (inks (context f))).Perm (due f)
  | .mk k b kids, h => by
    rw [context, due.eq_def]
    simp only [fair] at h
    apply List.Perm.map
    cases k with
    | box =>
      simp only [Bool.and_eq_true] at h
      simp only [Kind.isSvgRoot, inks_append, own_box b h.1]
      simp only [Bool.false_eq_true, if_false]
      refine List.Perm.append_left _ ?_
      simp only [pass_parts]
      refine List.Perm.trans ?_ (parts_due kids h.2)
      have := (six_perm (parts kids) (parts_calm kids h.2)).flatMap_right (·.draws)
      simpa only [inks, List.flatMap_assoc] using this
    | svgRoot flat =>
      simp only [Bool.and_eq_true, Bool.not_eq_true'] at h
      simp only [own, h.1, Kind.isSvgRoot]
      cases flat
      · simpa [inks] using svgKids_due kids h.2
      · simp [inks]
    | group => simp at h
    | shape => simp at h
theorem parts_due : ∀ kids, fairKids kids = true →
    ((parts kids).flatMap fun x => inks x.2).Perm (dueKids kids)
  | .nil, _ => by simp [parts, dueKids]
  | .cons slot f rest, h => by
    simp only [fairKids, Bool.and_eq_true, Bool.or_eq_true, decide_eq_true_eq] at h
    rw [parts, dueKids, List.flatMap_append]
    refine List.Perm.append ?_ (parts_due rest h.2)
    by_cases ho : slot = .oof
    · simp [ho]
    · rcases h.1 with h1 | ⟨⟨hs, hh⟩, hf⟩
      · exact absurd h1 ho
      · simp only [ho, if_false]
        split
        · have := context_due f hf
          simp only [List.flatMap_cons, List.flatMap_nil, List.append_nil, inks]
          exact (List.Perm.map _ (stack_perm _)).trans this
        · rename_i hi
          have hi : f.look.isolates = false := by simpa using hi
          split
          · have := context_due f hf
            rw [asks_calm hi, underAll_nil] at this
            simpa using this
          · rename_i hp
            have hflow : slot = .flow := by
              rcases hh with hh | hh
              · exact hh
              · exact absurd hh hp
            subst hflow
            simpa using partsIn_due f hi hf
theorem partsIn_due : ∀ f, f.look.isolates = false → fair f = true →
    ((partsIn false f).flatMap fun x => inks x.2).Perm (due f)
  | .mk k b kids, hi, h => by
    have hi : b.isolates = false := hi
    rw [partsIn, due.eq_def]
    simp only [asks_calm hi, underAll_nil]
    simp only [fair] at h
    cases k with
    | box =>
      simp only [Bool.and_eq_true] at h
      simp only [List.flatMap_cons, own_box b h.1, Kind.isSvgRoot]
      exact List.Perm.append_left _ (parts_due kids h.2)
    | svgRoot flat =>
      simp only [Bool.and_eq_true, Bool.not_eq_true'] at h
      simp only [own, h.1, Kind.isSvgRoot]
      cases flat
      · simpa [inks] using svgKids_due kids h.2
      · simp [inks]
    | group => simp at h
    | shape => simp at h
theorem svgKids_due : ∀ kids, fairSvg kids = true → (svgKids kids).Perm (dueKids kids)
  | .nil, _ => by simp [svgKids, dueKids]
  | .cons slot f rest, h => by
    simp only [fairSvg, Bool.and_eq_true, decide_eq_true_eq] at h
    rw [svgKids, dueKids, h.1.1]
    refine List.Perm.append ?_ (svgKids_due rest h.2)
    simp only [reduceCtorEq, if_false]
    split
    · rename_i hk
      have hf : fair f = true := by
        obtain ⟨k, b, kids⟩ := f
        simp only [Frag.kind] at hk
        subst hk
        simpa [fair, fairElement] using h.1.2
      exact (List.Perm.map _ (stack_perm _)).trans (context_due f hf)
    · rename_i hk
      exact svgElement_due f hk h.1.2
theorem svgElement_due : ∀ f, f.kind ≠ .box → fairElement f = true → (svgElement f).Perm (due f)
  | .mk k b kids, hk, h => by
    have hm : ∀ {b : Look}, b.translucent = false → b.clip = false → b.moved = asks b := by
      intro b h1 h2; simp [Look.moved, asks, h1, h2]
    rw [svgElement.eq_def, due.eq_def]
    simp only
    cases k with
    | box => exact absurd rfl hk
    | shape inked =>
      simp only [fairElement, Bool.and_eq_true, Bool.not_eq_true'] at h
      rw [← hm h.1.2 h.2]
      cases inked <;> simp [underAll, h]
    | group =>
      simp only [fairElement, Bool.and_eq_true, Bool.not_eq_true'] at h
      rw [← hm h.1.1 h.1.2]
      exact List.Perm.map _ (svgKids_due kids h.2)
    | svgRoot flat =>
      simp only [fairElement, Bool.and_eq_true, Bool.not_eq_true'] at h
      rw [← hm h.1.1.2 h.1.2]
      simp only [h, Bool.false_eq_true, if_false]
      exact List.Perm.map _ (svgKids_due kids h.2)
end

mutual
theorem svgKids_eq : ∀ kids, fairSvg kids = true → bare kids = true → svgKids kids = dueKids kids
  | .nil, _, _ => by simp [svgKids, dueKids]
  | .cons slot f rest, h, hb => by
    simp only [fairSvg, Bool.and_eq_true, decide_eq_true_eq] at h
    simp only [bare, Bool.and_eq_true] at hb
    rw [svgKids, dueKids, h.1.1, svgKids_eq rest h.2 hb.2]
    have hk : f.kind ≠ .box := by
      obtain ⟨k, b, kids⟩ := f
      simp only [bareIn, Bool.and_eq_true, decide_eq_true_eq] at hb
      exact hb.1.1
    simp only [reduceCtorEq, if_false, hk, svgElement_eq f hk h.1.2 hb.1]
theorem svgElement_eq : ∀ f, f.kind ≠ .box → fairElement f = true → bareIn f = true →
    svgElement f = due f
  | .mk k b kids, hk, h, hb => by
    have hm : ∀ {b : Look}, b.translucent = false → b.clip = false → b.moved = asks b := by
      intro b h1 h2; simp [Look.moved, asks, h1, h2]
    simp only [bareIn, Bool.and_eq_true] at hb
    rw [svgElement.eq_def, due.eq_def]
    simp only
    cases k with
    | box => exact absurd rfl hk
    | shape inked =>
      simp only [fairElement, Bool.and_eq_true, Bool.not_eq_true'] at h
      rw [← hm h.1.2 h.2]
      cases inked <;> simp [underAll, h]
    | group =>
      simp only [fairElement, Bool.and_eq_true, Bool.not_eq_true'] at h
      rw [← hm h.1.1 h.1.2, ← svgKids_eq kids h.2 hb.2]
      rfl
    | svgRoot flat =>
      simp only [fairElement, Bool.and_eq_true, Bool.not_eq_true'] at h
      rw [← hm h.1.1.2 h.1.2, ← svgKids_eq kids h.2 hb.2]
      simp only [h, Bool.false_eq_true, if_false]
      rfl
end

theorem establish_due (f) (h : fair f = true) : (establish f.look (context f)).draws.Perm (due f) :=
  (List.Perm.map _ (stack_perm _)).trans (context_due f h)

theorem paint_eq (f : Frag) : paint f = (establish f.look (context f)).draws := by
  simp [paint, stack, arrange, place]

end Verif.Paint
