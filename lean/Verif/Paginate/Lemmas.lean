import Verif.Paginate.Spec
/-!
# Pagination: lemmas
-/
namespace Verif.Paginate
open Spec

def ids (l : List Frag) : List Nat := l.map Frag.id

@[simp] theorem ids_append (a b : List Frag) : ids (a ++ b) = ids a ++ ids b := List.map_append ..
@[simp] theorem ids_cons (a : Frag) (b : List Frag) : ids (a :: b) = a.id :: ids b := rfl
@[simp] theorem ids_nil : ids [] = [] := rfl

theorem afterChild_frags (fc p inp s i st o) :
    (afterChild fc p inp s i st o).frags = st.frags ++ o.frags := by
  unfold afterChild; dsimp only; split <;> rfl

theorem afterChild_cur (fc p inp s i st o) :
    (afterChild fc p inp s i st o).cur = maybeProcessChild fc st.cur i p.inside o.bp := by
  unfold afterChild; dsimp only; split <;> rfl

theorem afterChild_complete (fc p inp s i st o) :
    (afterChild fc p inp s i st o).complete = st.complete := by
  unfold afterChild; dsimp only; split <;> rfl

theorem finish_frags (inp : In) (st : St) : (finish inp st).frags = st.frags := rfl

theorem empty_frags (fc : Fc) (id : Nat) (inp : In) :
    ids (fragmentEmptyBox fc id inp).frags = [id] ∨
      fc.isDiscoveryMode = true ∧ ids (fragmentEmptyBox fc id inp).frags = [] := by
  unfold fragmentEmptyBox
  dsimp only
  split
  · next h => split
              · exact Or.inl rfl
              · exact Or.inr ⟨h, rfl⟩
  · exact Or.inl rfl

theorem layout_mono (fc : Fc) (s : Style) (id : Nat) (inner : List Box) (inp : In) :
    layoutBox fc (.mono s id inner) inp =
      if abortBefore fc (adapt (s.met inp.page) inp) then
        { overflowOut with size := (s.met inp.page).top + (s.met inp.page).bottom }
      else
        { size := (s.met inp.page).extent + ((s.met inp.page).top + (s.met inp.page).bottom)
          complete := true
          bp := some (.bottomOfMonolithicBox inner.length)
          frags := ⟨id, (adapt (s.met inp.page) inp).y, (s.met inp.page).extent⟩ ::
            layoutInner fc.enterMonolithicBox (adapt (s.met inp.page) inp) inner } := by
  rw [layoutBox]

/-- The size of the border box. -/
def Out.grow (o : Out) (m : Met) : Out := { o with size := o.size + (m.top + m.bottom) }

theorem layout_empty (fc : Fc) (s : Style) (id : Nat) (inp : In) :
    layoutBox fc (.block s id []) inp =
      (if abortBefore fc (adapt (s.met inp.page) inp) then overflowOut
        else fragmentEmptyBox fc id (adapt (s.met inp.page) inp)).grow (s.met inp.page) := by
  rw [layoutBox]; rfl

theorem layout_block (fc : Fc) (s : Style) (id : Nat) (k : Box) (ks : List Box) (inp : In) :
    layoutBox fc (.block s id (k :: ks)) inp =
      (if abortBefore fc (adapt (s.met inp.page) inp) then overflowOut
        else run fc s (adapt (s.met inp.page) inp) (startAt fc (adapt (s.met inp.page) inp))
          (stopAt fc (adapt (s.met inp.page) inp) (k :: ks).length) (k :: ks) 0 {}).grow (s.met inp.page) := by
  rw [layoutBox]
  · rfl
  · intro h; cases h

/-- One step of the loop, not in discovery mode. -/
theorem run_flow_render (fc : Fc) (hd : fc.isDiscoveryMode = false) (p : Style) (inp : In) (start stop : Nat)
    (c : Box) (rest : List Box) (i : Nat) (st : St) (h1 : ¬i < start) (h2 : ¬stop ≤ i) (hp : c.style.pos = .flow)
    (h3 : ¬(c.style.before = .page ∧ start ≠ i)) :
    ∃ st', ids st'.frags = ids st.frags ++ ids (layoutBox fc c (childIn inp c.style i st)).frags ∧
      run fc p inp start stop (c :: rest) i st = run fc p inp start stop rest (i + 1) st' := by
  rw [run]
  simp only [h1, h2, hp, h3, hd, if_false, Bool.false_eq_true, false_and]
  refine ⟨_, ?_, rfl⟩
  split <;> simp [afterChild_frags]

mutual

/-- Without break points, all content is laid out. -/
theorem flow_box (fc : Fc) (hf : fc.allowBreak = false) (b : Box) (inp : In) (h : Unforced b) :
    ids (layoutBox fc b inp).frags = content b := by
  have hd : fc.isDiscoveryMode = false := by simp [Fc.isDiscoveryMode, hf]
  match b, h with
  | .mono s id inner, h =>
    rw [layoutBox, content]
    simp only [abortBefore, hd, Bool.false_and, Bool.false_eq_true, if_false, ids_cons]
    rw [flow_inner _ (by simp [Fc.allowBreak, Fc.enterMonolithicBox]) inner _ (by rw [Unforced] at h; exact h)]
  | .block s id [], h =>
    rw [layoutBox, content]
    simp only [abortBefore, hd, Bool.false_and, Bool.false_eq_true, if_false]
    rcases empty_frags fc id (adapt (s.met inp.page) inp) with h | ⟨h, -⟩
    · exact h
    · rw [hd] at h; cases h
  | .block s id (k :: ks), h =>
    rw [layout_block, content]
    simp only [Out.grow, abortBefore, hd, Bool.false_and, Bool.false_eq_true, if_false]
    have hs : startAt fc (adapt (s.met inp.page) inp) = 0 := by simp [startAt, hf]
    have he : stopAt fc (adapt (s.met inp.page) inp) (k :: ks).length = (k :: ks).length := by simp [stopAt, hf]
    rw [hs, he]
    rw [flow_kids fc hf s _ _ True (k :: ks) 0 _ (by simp) (by omega) (by rw [Unforced] at h; exact h)]
    rfl

theorem flow_inner (fc : Fc) (hf : fc.allowBreak = false) (l : List Box) (inp : In) (h : UnforcedInner l) :
    ids (layoutInner fc inp l) = innerContent l := by
  match l, h with
  | [], _ => rfl
  | b :: rest, h =>
    rw [layoutInner, innerContent]
    rw [UnforcedInner] at h
    rw [ids_append, flow_box fc hf b _ h.1, flow_inner fc hf rest inp h.2]

theorem flow_kids (fc : Fc) (hf : fc.allowBreak = false) (p : Style) (inp : In) (stop : Nat) (first : Prop)
    (l : List Box) (i : Nat) (st : St) (hi : first → i = 0) (hn : i + l.length ≤ stop) (h : UnforcedKids first l) :
    ids (run fc p inp 0 stop l i st).frags = ids st.frags ++ kidsContent l := by
  have hd : fc.isDiscoveryMode = false := by simp [Fc.isDiscoveryMode, hf]
  match l, h with
  | [], _ => simp [run, kidsContent, finish]
  | c :: rest, h =>
    rw [UnforcedKids] at h
    rw [kidsContent]
    have hn' : i + 1 + rest.length ≤ stop := by simp only [List.length_cons] at hn; omega
    have h1 : ¬i < 0 := by omega
    have h2 : ¬stop ≤ i := by omega
    cases hp : c.style.pos with
    | running =>
      rw [run]
      simp only [h1, h2, hp, if_false]
      rw [flow_kids fc hf p inp stop False rest (i + 1) _ (by simp) hn' h.2]
      simp
    | out =>
      rw [run]
      simp only [h1, h2, hp, if_false]
      rw [flow_kids fc hf p inp stop False rest (i + 1) _ (by simp) hn' h.2]
      simp
    | flow =>
      obtain ⟨ha, hb⟩ := h.1 hp
      have h3 : ¬(c.style.before = .page ∧ 0 ≠ i) := by
        rintro ⟨hx, hy⟩
        rcases ha with ha | ha
        · exact hy (hi ha).symm
        · exact ha hx
      obtain ⟨st', e1, e2⟩ := run_flow_render fc hd p inp 0 stop c rest i st h1 h2 hp h3
      rw [e2, flow_kids fc hf p inp stop False rest (i + 1) _ (by simp) hn' h.2, e1,
        flow_box fc hf c _ hb]
      simp

end

/-! ### Nothing is printed twice on a page -/

mutual

theorem sub_box (fc : Fc) (b : Box) (inp : In) : (ids (layoutBox fc b inp).frags).Sublist (content b) := by
  match b with
  | .mono s id inner =>
    rw [layoutBox, content]
    dsimp only
    split
    · simp [overflowOut]
    · simp only [ids_cons]
      exact (sub_inner _ inner _).cons_cons _
  | .block s id [] =>
    rw [layoutBox, content]
    dsimp only
    split
    · simp [overflowOut]
    · rcases empty_frags fc id (adapt (s.met inp.page) inp) with h | ⟨_, h⟩
      · rw [h]; exact List.Sublist.refl _
      · rw [h]; exact List.nil_sublist _
  | .block s id (k :: ks) =>
    rw [layout_block, content]
    dsimp only [Out.grow]
    split
    · simp [overflowOut]
    · have := sub_kids fc s (adapt (s.met inp.page) inp) (startAt fc (adapt (s.met inp.page) inp))
        (stopAt fc (adapt (s.met inp.page) inp) (k :: ks).length) (k :: ks) 0 {}
      obtain ⟨l, e, hl⟩ := this
      rw [e]
      exact hl

theorem sub_inner (fc : Fc) (l : List Box) (inp : In) : (ids (layoutInner fc inp l)).Sublist (innerContent l) := by
  match l with
  | [] => exact List.Sublist.refl _
  | b :: rest =>
    rw [layoutInner, innerContent, ids_append]
    exact (sub_box fc b _).append (sub_inner fc rest inp)

theorem sub_kids (fc : Fc) (p : Style) (inp : In) (start stop : Nat) (l : List Box) (i : Nat) (st : St) :
    ∃ x, ids (run fc p inp start stop l i st).frags = ids st.frags ++ x ∧ x.Sublist (kidsContent l) := by
  match l with
  | [] => exact ⟨[], by simp [run, finish], List.nil_sublist _⟩
  | c :: rest =>
    rw [run, kidsContent]
    split
    · obtain ⟨x, e, h⟩ := sub_kids fc p inp start stop rest (i + 1) st
      exact ⟨x, e, h.trans (List.sublist_append_right ..)⟩
    split
    · exact ⟨[], by simp [finish], List.nil_sublist _⟩
    cases c.style.pos with
    | running =>
      obtain ⟨x, e, h⟩ := sub_kids fc p inp start stop rest (i + 1) st
      exact ⟨x, e, by simpa using h⟩
    | out =>
      dsimp only
      obtain ⟨x, e, h⟩ := sub_kids fc p inp start stop rest (i + 1) _
      exact ⟨c.id :: x, by rw [e]; simp, h.cons_cons _⟩
    | flow =>
      dsimp only
      have hb := sub_box fc c (childIn inp c.style i st)
      generalize layoutBox fc c (childIn inp c.style i st) = o at hb ⊢
      split
      · exact ⟨[], by simp [early], List.nil_sublist _⟩
      split
      · exact ⟨ids o.frags, by simp [early, afterChild_frags], hb.trans (List.sublist_append_left ..)⟩
      have e0 : ∀ a : Prop, ∀ [Decidable a], ∀ x y : St, x.frags = y.frags → (if a then x else y).frags = y.frags := by
        intro a _ x y h; split
        · exact h
        · rfl
      split
      · refine ⟨ids o.frags, ?_, hb.trans (List.sublist_append_left ..)⟩
        simp only [early]
        rw [e0 _ _ _ (by rfl), afterChild_frags, ids_append]
      · obtain ⟨x, e, h⟩ := sub_kids fc p inp start stop rest (i + 1) _
        refine ⟨ids o.frags ++ x, ?_, hb.append h⟩
        rw [e, e0 _ _ _ (by rfl), e0 _ _ _ (by rfl), afterChild_frags, ids_append, List.append_assoc]

end

end Verif.Paginate
