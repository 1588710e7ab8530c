import Verif.Paginate.Resume
/-!
# Pagination: discovery and printing agree
-/
namespace Verif.Paginate
open Spec

/-- The best break so far: none, or the one after the last child. -/
def CurOk (s i : Nat) (cur : Bp) : Prop := cur = .initial ∨ ∃ k, s < k ∧ k ≤ i ∧ cur = .classB k false

theorem CurOk.rank {s i : Nat} {cur : Bp} (h : CurOk s i cur) : cur.appeal.rank ≤ 3 := by
  rcases h with rfl | ⟨k, -, -, rfl⟩
  · decide
  · exact Nat.le_refl _

theorem CurOk.mono {s i : Nat} {cur : Bp} (h : CurOk s i cur) : CurOk s (i + 1) cur := by
  rcases h with h | ⟨k, h1, h2, h3⟩
  · exact Or.inl h
  · exact Or.inr ⟨k, h1, by omega, h3⟩

theorem override_child (cur c : Bp) (e : Nat) (hc : cur.appeal.rank ≤ 3) :
    (Proper c ∧ cur.overrideIfBetter (.fromChild c e false) = .deep e c.appeal .dont c) ∨
    (¬Proper c ∧ (cur.overrideIfBetter (.fromChild c e false) = cur ∨ ¬Proper (cur.overrideIfBetter (.fromChild c e false)))) := by
  have e0 : Bp.fromChild c e false = .deep e c.appeal .dont c := rfl
  rw [e0]
  by_cases hp : Proper c
  · refine Or.inl ⟨hp, ?_⟩
    unfold Bp.overrideIfBetter
    rw [if_neg, if_pos]
    · unfold Proper at hp; simp only [Bp.appeal]; simp only [Bp.appeal] at hp hc; omega
    · rintro ⟨-, h⟩
      have : c.appeal = .overflow := h
      rw [Proper, this] at hp
      exact absurd hp (by decide)
  · refine Or.inr ⟨hp, ?_⟩
    unfold Bp.overrideIfBetter
    split
    · exact Or.inl rfl
    · split
      · exact Or.inr hp
      · exact Or.inl rfl

theorem maybe_rank (fc : Fc) (cur : Bp) (i : Nat) (o : Option Bp) (hc : cur.appeal.rank ≤ 3)
    (ho : ∀ c, o = some c → c.appeal.rank ≤ 3) : (maybeProcessChild fc cur i false o).appeal.rank ≤ 3 := by
  cases o with
  | none => exact hc
  | some c =>
    simp only [maybeProcessChild]
    split
    · unfold Bp.overrideIfBetter
      split
      · exact hc
      · split
        · exact ho c rfl
        · exact hc
    · exact hc

/-- The part of `afterKids` for one child. -/
def headAfter (p : Option Bp) (c : Box) (i : Nat) : List Nat :=
  if i < begins p then []
  else
    match c.style.pos with
    | .flow => after c (within p i)
    | .out => [c.id]
    | .running => []

theorem afterKids_cons (p : Option Bp) (c : Box) (rest : List Box) (i : Nat) :
    afterKids (begins p) p (c :: rest) i = headAfter p c i ++ afterKids (begins p) p rest (i + 1) := by
  rw [afterKids]; rfl

/-- What printing one child shows. -/
theorem render_step (fc : Fc) (hd : fc.isDiscoveryMode = false) (s : Style) (inp : In) (start stop : Nat) (c : Box)
    (rest : List Box) (i : Nat) (x : List Nat) (h2 : ¬stop ≤ i)
    (h : (i < start ∧ x = []) ∨ (¬i < start ∧ c.style.pos = .running ∧ x = []) ∨
      (¬i < start ∧ c.style.pos = .out ∧ x = [c.id]) ∨
      (¬i < start ∧ c.style.pos = .flow ∧ ¬(c.style.before = .page ∧ start ≠ i) ∧
        ∀ st, ids (layoutBox fc c (childIn inp c.style i st)).frags = x)) (st : St) :
    ∃ st', ids st'.frags = ids st.frags ++ x ∧
      run fc s inp start stop (c :: rest) i st = run fc s inp start stop rest (i + 1) st' := by
  rcases h with ⟨h1, rfl⟩ | ⟨h1, hp, rfl⟩ | ⟨h1, hp, rfl⟩ | ⟨h1, hp, h3, h4⟩
  · exact ⟨st, by simp, by rw [run]; simp only [h1, if_true]⟩
  · exact ⟨st, by simp, by rw [run]; simp only [h1, h2, hp, if_false]⟩
  · exact ⟨{ st with frags := st.frags ++ [⟨c.id, inp.y + st.blockSize, 0⟩], complete := rest.isEmpty || st.complete },
      by simp, by rw [run]; simp only [h1, h2, hp, if_false]⟩
  · obtain ⟨st', e1, e2⟩ := run_flow_render fc hd s inp start stop c rest i st h1 h2 hp h3
    exact ⟨st', by rw [e1, h4], e2⟩

/-- A child that ends on the page. -/
def HeadOk (s : Style) (p : Option Bp) (c : Box) (i : Nat) : Prop :=
  ∀ fc inp stop rest st, Prints fc → inp.trav.prev = p → inp.trav.traverseCurr i = none → i < stop →
    ∃ st', ids st'.frags = ids st.frags ++ headAfter p c i ∧
      run fc s inp (begins p) stop (c :: rest) i st = run fc s inp (begins p) stop rest (i + 1) st'

theorem kids_flat {s : Style} {id : Nat} {kids : List Box} {p : Option Bp} {l : List Box} {i : Nat} {cur : Bp}
    {o : Out} {e : Nat} {a : Appeal} (hv : ValidO p (.block s id kids)) (ho : o.complete = false)
    (hb : o.bp = some (.flat e a .withoutChildren)) (hs : begins p < e) (he : e ≤ i) (hn : e < kids.length)
    (hc : cur = .flat e a .withoutChildren ∨ i ≤ e) : KidsClaim s id kids p l i cur o := by
  refine ⟨fun h => (by rw [ho] at h; cases h), fun _ => ⟨_, hb, fun _ => ⟨⟨rfl, hn⟩, ?_, hc, ?_, [], ?_, ?_⟩⟩⟩
  · exact distO_le hv hs (by rintro rfl; simp at hn)
  · intro h; exact absurd rfl h
  · exact afterKids_flat hv l hs he
  · intro fc inp st _ _ _
    rw [run_stop _ _ _ _ _ _ _ _ (by exact he)]
    simp

theorem kids_lift {s : Style} {id : Nat} {kids : List Box} {p : Option Bp} {c : Box} {l : List Box} {i : Nat} {cur cur' : Bp}
    {o : Out} (hv : ValidO p (.block s id kids)) (h : KidsClaim s id kids p l (i + 1) cur' o) (hd : HeadOk s p c i)
    (hcur : o.complete = false → CurOk (begins p) i cur ∧ (cur' = cur ∨ cur' = .classB (i + 1) false)) :
    KidsClaim s id kids p (c :: l) i cur o := by
  refine ⟨fun ho => ⟨(h.ends ho).1, ?_⟩, fun ho => ?_⟩
  · intro fc inp stop st hp h1 h2 h3
    simp only [List.length_cons] at h3
    obtain ⟨st', e1, e2⟩ := hd fc inp stop l st hp h1 (h2 i) (by omega)
    rw [e2, (h.ends ho).2 fc inp stop st' hp h1 h2 (by omega), e1, afterKids_cons, List.append_assoc]
  · obtain ⟨b, hb, hP⟩ := h.breaks ho
    refine ⟨b, hb, fun hpr => ?_⟩
    obtain ⟨hval, hdist, hc, hch, seg, e1, e2⟩ := hP hpr
    obtain ⟨hok, hcc⟩ := hcur ho
    have key : (cur = b ∧ ∃ e, begins p < e ∧ e ≤ i ∧ b = .classB e false) ∨ i < b.endIdx := by
      rcases hc with hc | hc
      · rcases hcc with hcc | hcc
        · subst hcc
          subst hc
          rcases hok with hok | ⟨k, hk1, hk2, hk3⟩
          · rw [hok] at hpr
            exact absurd hpr (by decide)
          · exact Or.inl ⟨rfl, k, hk1, hk2, hk3⟩
        · rw [← hc, hcc]
          exact Or.inr (Nat.lt_succ_self i)
      · exact Or.inr (by omega)
    rcases key with ⟨hcb, e, he1, he2, rfl⟩ | hlt
    · refine ⟨hval, hdist, Or.inl hcb, fun hx => absurd rfl hx, [], ?_, ?_⟩
      · exact afterKids_flat hv _ he1 he2
      · intro fc inp st _ _ _
        rw [run_stop _ _ _ _ _ _ _ _ (by exact he2)]
        simp
    · refine ⟨hval, hdist, Or.inr (by omega), fun _ => hlt, headAfter p c i ++ seg, ?_, ?_⟩
      · rw [afterKids_cons, afterKids_cons, e1]
        have : headAfter (some b) c i = [] := by
          unfold headAfter
          rw [if_pos]
          cases b with
          | flat e a v =>
            obtain ⟨hv, -⟩ := hval
            subst hv
            exact hlt
          | deep e a v d =>
            obtain ⟨hv, j, k, he, -⟩ := hval
            subst hv he
            have := hch (by simp [Bp.child])
            simp [begins, Trav.getStart, Bp.adv, Bp.endIdx] at this ⊢
            exact this
        rw [this]
        simp
      · intro fc inp st hp h1 h2
        have ht : inp.trav.traverseCurr i = none := by
          cases b with
          | flat e a v => simp [Trav.traverseCurr, h2, Bp.child]
          | deep e a v d =>
            have : i + 1 < e := hch (by simp [Bp.child])
            have hne : i + 1 ≠ e := by omega
            simp [Trav.traverseCurr, h2, Bp.child, Bp.endIdx, hne]
        obtain ⟨st', f1, f2⟩ := hd fc inp b.endIdx l st hp h1 ht hlt
        rw [f2, e2 fc inp st' hp h1 h2, f1, List.append_assoc]

theorem adapt_trav (m : Met) (inp : In) : (adapt m inp).trav = inp.trav := rfl

theorem claim_overflow (b : Box) (p : Option Bp) (o : Out) (h1 : o.complete = false) (h2 : o.bp = some .overflow) :
    Claim b p o :=
  ⟨fun h => (by rw [h1] at h; cases h), fun _ => ⟨_, h2, fun h => absurd h (by decide)⟩⟩

theorem allow_of_disc {fc : Fc} (h : fc.isDiscoveryMode = true) : fc.allowBreak = true := by
  simp only [Fc.isDiscoveryMode, Bool.and_eq_true] at h
  exact h.1

theorem not_abort {fc : Fc} (h : Prints fc) (inp : In) : abortBefore fc inp = false := by
  simp [abortBefore, h.2]

mutual

theorem claim_box (b : Box) (hp : Plain b) (fc : Fc) (hd : fc.isDiscoveryMode = true) (inp : In)
    (hv : ValidO inp.trav.prev b) : Claim b inp.trav.prev (layoutBox fc b inp) := by
  match b, hp, hv with
  | .mono s id inner, hp, hv =>
    rw [layout_mono]
    split
    · exact claim_overflow _ _ _ rfl rfl
    · refine ⟨fun _ => ⟨fun c hc => ?_, fun fc' inp' hp' _ _ => ?_⟩, fun h => by cases h⟩
      · cases hc; exact Nat.le_refl _
      · rw [layout_mono, not_abort hp', after]
        simp only [Bool.false_eq_true, if_false, ids_cons]
        rw [flow_inner _ (by simp [Fc.allowBreak, Fc.enterMonolithicBox]) inner _ (by rw [Plain] at hp; exact hp)]
  | .block s id [], hp, hv =>
    rw [layout_empty]
    split
    · exact claim_overflow _ _ _ rfl rfl
    · unfold fragmentEmptyBox
      simp only [hd, if_true]
      split
      · refine ⟨fun _ => ⟨fun c hc => (by cases hc), fun fc' inp' hp' _ _ => ?_⟩, fun h => by cases h⟩
        rw [layout_empty, not_abort hp', after]
        rcases empty_frags fc' id (adapt (s.met inp'.page) inp') with h | ⟨h, -⟩
        · exact h
        · rw [hp'.2] at h; cases h
      · exact claim_overflow _ _ _ rfl rfl
  | .block s id (k :: ks), hp, hv =>
    rw [Plain] at hp
    rw [layout_block]
    split
    · exact claim_overflow _ _ _ rfl rfl
    · have hstop : stopAt fc (adapt (s.met inp.page) inp) (k :: ks).length = (k :: ks).length := by
        simp [stopAt, hd]
      rw [hstop, begins_eq fc (allow_of_disc hd), adapt_trav]
      have K := claim_kids s id (k :: ks) hp.1 fc hd (adapt (s.met inp.page) inp) hv (k :: ks) [] rfl hp.2 {}
        (fun h => by cases h) (fun _ => ⟨rfl, Or.inl rfl⟩)
      rw [adapt_trav] at K
      simp only [List.length_nil] at K
      refine ⟨fun ho => ⟨(K.ends ho).1, fun fc' inp' hp' h1 h2 => ?_⟩, fun ho => ?_⟩
      · rw [layout_block, not_abort hp', begins_eq fc' hp'.1, adapt_trav, h1, after]
        have : stopAt fc' (adapt (s.met inp'.page) inp') (k :: ks).length = (k :: ks).length := by
          simp [stopAt, adapt_trav, Trav.getEnd, h2]
        rw [this]
        have := (K.ends ho).2 fc' (adapt (s.met inp'.page) inp') (k :: ks).length {} hp' h1
          (fun j => by simp [adapt_trav, Trav.traverseCurr, h2]) (by omega)
        simpa [Out.grow] using this
      · obtain ⟨c, hc, hP⟩ := K.breaks ho
        refine ⟨c, hc, fun hpr => ?_⟩
        obtain ⟨hval, hdist, -, -, seg, e1, e2⟩ := hP hpr
        refine ⟨hval, hdist, seg, ?_, fun fc' inp' hp' h1 h2 => ?_⟩
        · rw [after, after]; exact e1
        · rw [layout_block, not_abort hp', begins_eq fc' hp'.1, adapt_trav, h1]
          have : stopAt fc' (adapt (s.met inp'.page) inp') (k :: ks).length = c.endIdx := by
            simp [stopAt, adapt_trav, Trav.getEnd, h2, hp'.1, hp'.2]
          rw [this]
          have := e2 fc' (adapt (s.met inp'.page) inp') {} hp' h1 h2
          simpa [Out.grow] using this

theorem claim_kids (s : Style) (id : Nat) (kids : List Box) (hs : s.inside = false) (fc : Fc)
    (hd : fc.isDiscoveryMode = true) (inp : In) (hv : ValidO inp.trav.prev (.block s id kids)) (l pre : List Box)
    (hk : kids = pre ++ l) (hp : PlainKids l) (st : St)
    (h0 : l = [] → st.complete = true ∧ st.cur.appeal.rank ≤ 3)
    (h1 : l ≠ [] → st.complete = false ∧ CurOk (begins inp.trav.prev) pre.length st.cur) :
    KidsClaim s id kids inp.trav.prev l pre.length st.cur
      (run fc s inp (begins inp.trav.prev) kids.length l pre.length st) := by
  match l, hp with
  | [], _ =>
    rw [run]
    refine ⟨fun _ => ⟨fun c hc => ?_, fun fc' inp' stop st' _ _ _ _ => ?_⟩, fun h => ?_⟩
    · cases hc; exact (h0 rfl).2
    · rw [run, afterKids]; simp [finish]
    · have : st.complete = false := h
      rw [(h0 rfl).1] at this; cases this
  | c :: rest, hp =>
    rw [PlainKids] at hp
    obtain ⟨hav, hfl, hrun, hrest⟩ := hp
    obtain ⟨hcomp, hcur⟩ := h1 (by simp)
    have hk' : kids = (pre ++ [c]) ++ rest := by rw [hk]; simp
    have hlen : (pre ++ [c]).length = pre.length + 1 := by simp
    have hkl : kids.length = pre.length + 1 + rest.length := by rw [hk]; simp; omega
    have hget : kids[pre.length]? = some c := by rw [hk]; simp
    have hbl : begins inp.trav.prev < kids.length := begins_lt hv (by rw [hk]; simp)
    rw [run]
    split
    · -- before the page begins
      next hlt =>
      have R := claim_kids s id kids hs fc hd inp hv rest (pre ++ [c]) hk' hrest st
        (fun h => by subst h; simp at hkl; omega) (fun _ => ⟨hcomp, by rw [hlen]; exact hcur.mono⟩)
      rw [hlen] at R
      refine kids_lift hv R ?_ (fun _ => ⟨hcur, Or.inl rfl⟩)
      intro fc' inp' stop rest' st' hp' hprev htc hst
      exact render_step fc' hp'.2 s inp' _ stop c rest' _ _ (by omega) (Or.inl ⟨hlt, if_pos hlt⟩) st'
    next hge =>
    rw [if_neg (by omega)]
    cases hpos : c.style.pos with
    | running =>
      dsimp only
      have R := claim_kids s id kids hs fc hd inp hv rest (pre ++ [c]) hk' hrest st
        (fun h => absurd h (hrun hpos)) (fun _ => ⟨hcomp, by rw [hlen]; exact hcur.mono⟩)
      rw [hlen] at R
      refine kids_lift hv R ?_ (fun _ => ⟨hcur, Or.inl rfl⟩)
      intro fc' inp' stop rest' st' hp' hprev htc hst
      exact render_step fc' hp'.2 s inp' _ stop c rest' _ _ (by omega)
        (Or.inr (Or.inl ⟨hge, hpos, by simp [headAfter, hge, hpos]⟩)) st'
    | out =>
      dsimp only
      have R := claim_kids s id kids hs fc hd inp hv rest (pre ++ [c]) hk' hrest
        { st with frags := st.frags ++ [⟨c.id, inp.y + st.blockSize, 0⟩], complete := rest.isEmpty || st.complete }
        (fun h => by subst h; exact ⟨rfl, hcur.rank⟩)
        (fun h => ⟨by cases rest with
          | nil => exact absurd rfl h
          | cons => simpa using hcomp, by rw [hlen]; exact hcur.mono⟩)
      rw [hlen] at R
      refine kids_lift hv R ?_ (fun _ => ⟨hcur, Or.inl rfl⟩)
      intro fc' inp' stop rest' st' hp' hprev htc hst
      exact render_step fc' hp'.2 s inp' _ stop c rest' _ _ (by omega)
        (Or.inr (Or.inr (Or.inl ⟨hge, hpos, by simp [headAfter, hge, hpos]⟩))) st'
    | flow =>
      dsimp only
      obtain ⟨hplain, hlast⟩ := hfl hpos
      split
      · -- a forced break before the child
        next hfb =>
        exact kids_flat hv rfl rfl (by omega) (Nat.le_refl _) (by omega) (Or.inr (Nat.le_refl _))
      next hfb =>
      have hvc : ValidO (within inp.trav.prev pre.length) c := within_valid hv hget
      have C := claim_box c hplain fc hd (childIn inp c.style pre.length st) hvc
      have hwi : (childIn inp c.style pre.length st).trav.prev = within inp.trav.prev pre.length := rfl
      rw [hwi] at C
      generalize hout : layoutBox fc c (childIn inp c.style pre.length st) = o at C ⊢
      -- what printing the child shows if it ends on this page
      have hhead : o.complete = true → HeadOk s inp.trav.prev c pre.length := by
        intro ho fc' inp' stop rest' st' hp' hprev htc hst
        refine render_step fc' hp'.2 s inp' _ stop c rest' _ _ (by omega)
          (Or.inr (Or.inr (Or.inr ⟨hge, hpos, hfb, fun st'' => ?_⟩))) st'
        rw [(C.ends ho).2 fc' (childIn inp' c.style pre.length st'') hp'
          (by show within inp'.trav.prev _ = _; rw [hprev]) htc]
        simp [headAfter, hge, hpos]
      have hacur : (afterChild fc s inp c.style pre.length st o).cur = maybeProcessChild fc st.cur pre.length false o.bp := by
        rw [afterChild_cur, hs]
      split
      · -- the child does not end on this page
        next hinc =>
        have ho : o.complete = false := by simpa using hinc.2
        obtain ⟨cb, hcb, hP⟩ := C.breaks ho
        have hm : maybeProcessChild fc st.cur pre.length false o.bp = st.cur.overrideIfBetter (.fromChild cb (pre.length + 1) false) := by
          rw [hcb]; simp [maybeProcessChild, hd]
        rw [hm] at hacur
        rcases override_child st.cur cb (pre.length + 1) hcur.rank with ⟨hpr, he⟩ | ⟨hnp, he⟩
        · rw [he] at hacur
          obtain ⟨hval, hdist, seg, e1, e2⟩ := hP hpr
          have hV : Valid (.deep (pre.length + 1) cb.appeal .dont cb) (.block s id kids) :=
            ⟨rfl, pre.length, c, rfl, hget, hpos, hval⟩
          have hbg : begins (some (.deep (pre.length + 1) cb.appeal .dont cb)) = pre.length := by
            simp [begins, Trav.getStart, Bp.adv, Bp.endIdx]
          refine ⟨fun h => (by cases h), fun _ => ⟨_, by rw [early, hacur], fun _ => ⟨hV, ?_, Or.inr (Nat.le_succ _), fun _ => Nat.lt_succ_self _, seg, ?_, ?_⟩⟩⟩
          · have h1 := distO_within hv (Nat.le_of_not_lt hge) hget
            have h2 : dist (.deep (pre.length + 1) cb.appeal .dont cb) (.block s id kids) = countAll (kids.take pre.length) + dist cb c := by
              rw [dist]; simp only [Nat.add_sub_cancel, hget]
            omega
          · rw [afterKids_cons, afterKids_cons,
              afterKids_full _ _ _ _ (by omega) (fun j hj => within_past hv (by omega)),
              afterKids_full _ (some (.deep (pre.length + 1) cb.appeal .dont cb)) rest _ (by rw [hbg]; omega)
                (fun j hj => within_past (p := some (.deep (pre.length + 1) cb.appeal .dont cb)) (b := .block s id kids) hV (by rw [hbg]; omega))]
            have e3 : headAfter inp.trav.prev c pre.length = after c (within inp.trav.prev pre.length) := by
              simp [headAfter, hge, hpos]
            have e4 : headAfter (some (.deep (pre.length + 1) cb.appeal .dont cb)) c pre.length = after c (some cb) := by
              simp [headAfter, hbg, hpos, within, Trav.traversePrev, Bp.child, Bp.endIdx]
            rw [e3, e4, e1, List.append_assoc]
          · intro fc' inp' st' hp' hprev hcurr
            have hst := render_step fc' hp'.2 s inp' (begins inp.trav.prev) (pre.length + 1) c rest pre.length seg (by omega)
              (Or.inr (Or.inr (Or.inr ⟨hge, hpos, hfb, fun st'' => e2 fc' (childIn inp' c.style pre.length st'') hp'
                (by show within inp'.trav.prev _ = _; rw [hprev])
                (by show Trav.traverseCurr inp'.trav _ = _; simp [Trav.traverseCurr, hcurr, Bp.child, Bp.endIdx])⟩))) st'
            obtain ⟨st2, f1, f2⟩ := hst
            have : (Bp.deep (pre.length + 1) cb.appeal .dont cb).endIdx = pre.length + 1 := rfl
            rw [this, f2, run_stop _ _ _ _ _ _ _ _ (Nat.le_refl _), f1]
        · by_cases hpc : Proper (st.cur.overrideIfBetter (.fromChild cb (pre.length + 1) false))
          · rcases he with he | he
            · rw [he] at hpc hacur
              rcases hcur with hci | ⟨k, hk1, hk2, hk3⟩
              · rw [hci] at hpc; exact absurd hpc (by decide)
              · exact kids_flat (e := k) (a := .classB) hv rfl (by rw [early, hacur, hk3]; rfl) hk1 hk2 (by omega) (Or.inl hk3)
            · exact absurd hpc he
          · refine ⟨fun h => (by cases h), fun _ => ⟨_, by rw [early, hacur], fun h => absurd h hpc⟩⟩
      next hinc =>
      have ho : o.complete = true := by
        cases h : o.complete with
        | true => rfl
        | false => exact absurd ⟨hd, by simp [h]⟩ hinc
      have hmr : (afterChild fc s inp c.style pre.length st o).cur.appeal.rank ≤ 3 := by
        rw [hacur]; exact maybe_rank _ _ _ _ hcur.rank (C.ends ho).1
      have hac : (afterChild fc s inp c.style pre.length st o).complete = false := by rw [afterChild_complete]; exact hcomp
      generalize afterChild fc s inp c.style pre.length st o = st1 at hmr hac ⊢
      cases rest with
      | nil =>
        have hna := hlast rfl
        have hst : pre.length + 1 = kids.length := by rw [hkl]; simp
        simp only [hna, and_false, if_false, ne_eq, not_true, allow_of_disc hd, hst, true_and, if_true]
        have R := claim_kids s id kids hs fc hd inp hv [] (pre ++ [c]) hk' hrest { st1 with complete := o.complete && true }
          (fun _ => ⟨by simp [ho], hmr⟩) (fun h => absurd rfl h)
        rw [hlen, hst] at R
        refine kids_lift (i := pre.length) (cur' := st1.cur) hv ?_ (hhead ho) ?_
        · rw [hst]; exact R
        · intro h
          rw [run] at h
          simp [finish, ho] at h
      | cons d ds =>
        have hna : avoided s c.style (some d) = false := by
          rw [PlainKids] at hrest
          simp [avoided, hs, hav.2, hrest.1.1]
        have hne : ¬pre.length + 1 = kids.length := by rw [hkl]; simp
        have hcur1 : CurOk (begins inp.trav.prev) (pre.length + 1) (Bp.classB (pre.length + 1) false) :=
          Or.inr ⟨_, by omega, Nat.le_refl _, rfl⟩
        simp only [hd, ne_eq, reduceCtorEq, not_false_eq_true, and_self, if_true, List.head?_cons, hna, hne, and_false, if_false,
          override_classB _ _ hmr, true_and]
        split
        · refine kids_lift hv ?_ (hhead ho) (fun _ => ⟨hcur, Or.inr rfl⟩)
          exact kids_flat (e := pre.length + 1) (a := .forced) hv rfl rfl (by omega) (Nat.le_refl _)
            (by rw [hkl]; simp) (Or.inr (Nat.le_refl _))
        · have R := claim_kids s id kids hs fc hd inp hv (d :: ds) (pre ++ [c]) hk' hrest
            { st1 with cur := Bp.classB (pre.length + 1) false }
            (fun h => by cases h) (fun _ => ⟨hac, by rw [hlen]; exact hcur1⟩)
          rw [hlen] at R
          exact kids_lift hv R (hhead ho) (fun _ => ⟨hcur, Or.inr rfl⟩)

end

end Verif.Paginate
