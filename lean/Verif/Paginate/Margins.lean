import Verif.Paginate.MarginSpec
import Verif.Paginate.Lemmas
/-!
# Margins: lemmas
-/
namespace Verif.Paginate
open Spec

theorem collapse_gap (s : Style) (m : Met) (st : St) (h : s.removed = false) :
    collapse s m st = st.blockSize - st.lastMb + gap st.lastMb m.mt := by
  unfold collapse gap
  simp only [h, Bool.false_eq_true, if_false]
  omega

theorem gap_zero (a : Int) : gap a 0 = a := by unfold gap; omega

mutual

theorem tall_box (fc : Fc) (hf : fc.allowBreak = false) (hz : fc.size = none) (b : Box) (inp : In) (h : Unforced b)
    (ht : Tidy inp.page b) (hk : inp.known = (b.style.met inp.page).height) :
    (layoutBox fc b inp).size = height inp.page b ∧ (layoutBox fc b inp).frags = spots inp.page inp.y b := by
  have hd : fc.isDiscoveryMode = false := by simp [Fc.isDiscoveryMode, hf]
  match b, h, ht, hk with
  | .mono s id inner, _, ht, _ =>
    rw [Tidy] at ht; subst ht
    rw [layout_mono, height, spots]
    simp only [abortBefore, hd, Bool.false_and, Bool.false_eq_true, if_false, layoutInner, adapt, and_true]
    omega
  | .block s id [], _, _, hk =>
    rw [layout_empty, height, spots]
    simp only [Box.style] at hk
    simp only [abortBefore, hd, Bool.false_and, Bool.false_eq_true, if_false, Out.grow, fragmentEmptyBox, Fc.clip, hz, adapt, hk,
      stack]
    cases (s.met inp.page).height with
    | none => simp
    | some v => simp; omega
  | .block s id (k :: ks), h, ht, hk =>
    rw [layout_block, height, spots]
    simp only [Box.style] at hk
    rw [Tidy] at ht; rw [Unforced] at h
    simp only [abortBefore, hd, Bool.false_and, Bool.false_eq_true, if_false, Out.grow]
    have hs : startAt fc (adapt (s.met inp.page) inp) = 0 := by simp [startAt, hf]
    have he : stopAt fc (adapt (s.met inp.page) inp) (k :: ks).length = (k :: ks).length := by simp [stopAt, hf]
    rw [hs, he]
    obtain ⟨e1, e2⟩ := tall_kids fc hf hz s (adapt (s.met inp.page) inp) (k :: ks).length True (k :: ks) 0 {} (by simp) (by omega)
      h ht
    rw [e1, e2]
    have e : (adapt (s.met inp.page) inp).page = inp.page := rfl
    have e' : (adapt (s.met inp.page) inp).y = inp.y + (s.met inp.page).top := rfl
    have e'' : (adapt (s.met inp.page) inp).known =
      (s.met inp.page).height.map fun h => h - (s.met inp.page).top - (s.met inp.page).bottom := by rw [← hk]; rfl
    rw [e, e', e'']
    constructor
    · cases (s.met inp.page).height with
      | none => simp; omega
      | some v => simp; omega
    · simp

theorem tall_kids (fc : Fc) (hf : fc.allowBreak = false) (hz : fc.size = none) (p : Style) (inp : In) (stop : Nat) (first : Prop)
    (l : List Box) (i : Nat) (st : St) (hi : first → i = 0) (hn : i + l.length ≤ stop) (h : UnforcedKids first l)
    (ht : TidyKids inp.page l) :
    (run fc p inp 0 stop l i st).size = inp.known.getD (st.blockSize - st.lastMb + stack inp.page st.lastMb l) ∧
    (run fc p inp 0 stop l i st).frags =
      st.frags ++ below inp.page (inp.y + (st.blockSize - st.lastMb)) st.lastMb l := by
  have hd : fc.isDiscoveryMode = false := by simp [Fc.isDiscoveryMode, hf]
  match l, h, ht with
  | [], _, _ => simp [run, finish, stack, below]
  | c :: rest, h, ht =>
    rw [UnforcedKids] at h
    rw [TidyKids] at ht
    have hn' : i + 1 + rest.length ≤ stop := by simp only [List.length_cons] at hn; omega
    have h1 : ¬i < 0 := by omega
    have h2 : ¬stop ≤ i := by omega
    cases hp : c.style.pos with
    | running =>
      rw [run, stack, below]
      simp only [h1, h2, hp, if_false]
      obtain ⟨e1, e2⟩ := tall_kids fc hf hz p inp stop False rest (i + 1) st (by simp) hn' h.2 ht.2.2
      rw [e1, e2]; simp
    | out =>
      rw [run, stack, below]
      simp only [h1, h2, hp, if_false]
      obtain ⟨e1, e2⟩ := tall_kids fc hf hz p inp stop False rest (i + 1)
        { st with frags := st.frags ++ [⟨c.id, inp.y + st.blockSize, 0⟩], complete := rest.isEmpty || st.complete }
        (by simp) hn' h.2 ht.2.2
      rw [e1, e2]
      simp
      omega
    | flow =>
      obtain ⟨ha, hb⟩ := h.1 hp
      have h3 : ¬(c.style.before = .page ∧ 0 ≠ i) := by
        rintro ⟨hx, hy⟩
        rcases ha with ha | ha
        · exact hy (hi ha).symm
        · exact ha hx
      obtain ⟨b1, b2⟩ := tall_box fc hf hz c (childIn inp c.style i st) hb ht.2.1 rfl
      rw [run, stack, below]
      simp only [h1, h2, hp, h3, hd, hf, if_false, Bool.false_eq_true, false_and]
      obtain ⟨e1, e2⟩ := tall_kids fc hf hz p inp stop False rest (i + 1)
        (afterChild fc p inp c.style i st (layoutBox fc c (childIn inp c.style i st))) (by simp) hn' h.2 ht.2.2
      rw [e1, e2, afterChild_frags, b2]
      have ep : (childIn inp c.style i st).page = inp.page := rfl
      have ey : (childIn inp c.style i st).y = inp.y + collapse c.style (c.style.met inp.page) st + (c.style.met inp.page).rel := rfl
      rw [ep, ey]
      rw [ep] at b1
      by_cases hfl : c.style.float = true
      · have hr : c.style.removed = true := by simp [Style.removed, hfl]
        have hc : collapse c.style (c.style.met inp.page) st = st.blockSize := by simp [collapse, hr]
        have ea : (afterChild fc p inp c.style i st (layoutBox fc c (childIn inp c.style i st))).blockSize = st.blockSize := by
          simp [afterChild, hr, hc]
        have eb : (afterChild fc p inp c.style i st (layoutBox fc c (childIn inp c.style i st))).lastMb = st.lastMb := by
          simp [afterChild, hr]
        rw [ea, eb, hc]
        have ez : inp.y + (st.blockSize - st.lastMb) + st.lastMb = inp.y + st.blockSize := by omega
        simp [hfl, ez]
      · have hfl' : c.style.float = false := Bool.eq_false_iff.2 hfl
        have hr : c.style.removed = false := by simp [Style.removed, hfl', hp]
        have hc := collapse_gap c.style (c.style.met inp.page) st hr
        by_cases hm : c.style.marker = true
        · have ea : (afterChild fc p inp c.style i st (layoutBox fc c (childIn inp c.style i st))).blockSize =
              collapse c.style (c.style.met inp.page) st := by
            simp [afterChild, hm]
          have eb : (afterChild fc p inp c.style i st (layoutBox fc c (childIn inp c.style i st))).lastMb = st.lastMb := by
            simp [afterChild, hm]
          rw [ht.1 hm, gap_zero] at hc
          have hc' : collapse c.style (c.style.met inp.page) st = st.blockSize := by omega
          rw [ea, eb, hc']
          have ez : inp.y + (st.blockSize - st.lastMb) + st.lastMb = inp.y + st.blockSize := by omega
          simp [hm, ez]
        · have hm' : c.style.marker = false := Bool.eq_false_iff.2 hm
          have ea : (afterChild fc p inp c.style i st (layoutBox fc c (childIn inp c.style i st))).blockSize =
              collapse c.style (c.style.met inp.page) st + (layoutBox fc c (childIn inp c.style i st)).size +
                (c.style.met inp.page).mb := by
            simp [afterChild, hm', hr]
          have eb : (afterChild fc p inp c.style i st (layoutBox fc c (childIn inp c.style i st))).lastMb =
              (c.style.met inp.page).mb := by
            simp [afterChild, hm', hr]
          rw [ea, eb, b1, hc]
          simp only [hfl', hm', Bool.false_eq_true, or_self, if_false, and_self, if_true]
          constructor
          · congr 1; omega
          · rw [List.append_assoc]
            congr 2
            · congr 1; omega
            · congr 1; omega

end

end Verif.Paginate
