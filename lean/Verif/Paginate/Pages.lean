import Verif.Paginate.Main
/-!
# Pagination: page by page
-/
namespace Verif.Paginate
open Spec

/-! ### There is always a break -/

theorem run_bp (fc : Fc) (s : Style) (inp : In) (start stop : Nat) :
    ∀ (l : List Box) (i : Nat) (st : St), ∃ b, (run fc s inp start stop l i st).bp = some b := by
  intro l
  induction l with
  | nil => intro i st; exact ⟨_, by rw [run]; rfl⟩
  | cons c rest ih =>
    intro i st
    rw [run]
    split
    · exact ih _ _
    split
    · exact ⟨_, rfl⟩
    split
    · exact ih _ _
    · exact ih _ _
    dsimp only
    split
    · exact ⟨_, rfl⟩
    split
    · exact ⟨_, rfl⟩
    split
    · exact ⟨_, rfl⟩
    · exact ih _ _

theorem disc_bp (fc : Fc) (hd : fc.isDiscoveryMode = true) (b : Box) (inp : In)
    (h : (layoutBox fc b inp).complete = false) : ∃ c, (layoutBox fc b inp).bp = some c := by
  match b with
  | .mono s id inner =>
    rw [layout_mono]
    split
    · exact ⟨_, rfl⟩
    · exact ⟨_, rfl⟩
  | .block s id [] =>
    rw [layout_empty] at h ⊢
    split
    · exact ⟨_, rfl⟩
    · next hx =>
      rw [if_neg hx] at h
      unfold fragmentEmptyBox at h ⊢
      simp only [hd, if_true] at h ⊢
      split
      · next hy => rw [if_pos hy] at h; cases h
      · exact ⟨_, rfl⟩
  | .block s id (k :: ks) =>
    rw [layout_block]
    split
    · exact ⟨_, rfl⟩
    · exact run_bp ..

/-! ### Pages with room -/

theorem Proper.override {cur c : Bp} (h : Proper cur) : Proper (cur.overrideIfBetter c) := by
  unfold Bp.overrideIfBetter
  split
  · exact h
  · split
    · unfold Proper at h ⊢; omega
    · exact h

theorem no_abort {fc : Fc} {H : Int} (hH : fc.size = some H) {inp : In} (h : inp.y + inp.pend ≤ H) :
    abortBefore fc inp = false := by
  have : fc.acceptsFit inp.y 0 inp.pend = true := by
    unfold Fc.acceptsFit
    rw [hH]
    simp only [decide_eq_true_eq]
    omega
  simp [abortBefore, this]

theorem collapse_first (s : Style) (m : Met) (st : St) (hp : s.pos = .flow) (h1 : st.blockSize = 0) (h2 : st.lastMb = 0) :
    collapse s m st = if s.float then 0 else m.mt := by
  unfold collapse Style.removed
  rw [hp, h1, h2]
  cases s.float
  · simp
    omega
  · simp

/-- Boxes that have no children to begin a page with. -/
def Leaf : Box → Prop
  | .block _ _ (_ :: _) => False
  | _ => True

mutual

theorem roomy_box (b : Box) (hp : Plain b) (fc : Fc) (hd : fc.isDiscoveryMode = true) (H : Int) (hH : fc.size = some H)
    (inp : In) (hk : inp.known = (b.style.met inp.page).height) (hv : ¬Leaf b → ValidO inp.trav.prev b)
    (hr : Roomy inp.page H b inp.y inp.pend) (hc : (layoutBox fc b inp).complete = false) :
    ∃ c, (layoutBox fc b inp).bp = some c ∧ Proper c := by
  match b, hp, hv, hr, hk with
  | .mono s id inner, hp, hv, hr, hk =>
    rw [Roomy] at hr
    rw [layout_mono, no_abort hH (by simp only [adapt]; omega)] at hc
    cases hc
  | .block s id [], hp, hv, hr, hk =>
    rw [Roomy] at hr
    rw [layout_empty, no_abort hH (by simp only [adapt]; omega)] at hc
    have hf : fc.acceptsFit (adapt (s.met inp.page) inp).y ((adapt (s.met inp.page) inp).known.getD 0)
        (adapt (s.met inp.page) inp).pend = true := by
      unfold Fc.acceptsFit
      rw [hH]
      simp only [decide_eq_true_eq, adapt, hk]
      have hst : (Box.block s id []).style = s := rfl
      rw [hst]
      cases hh : (s.met inp.page).height with
      | none => simp only [Option.map_none, Option.getD_none]; omega
      | some h =>
        have := hr.2 h hh
        simp only [Option.map_some, Option.getD_some]; omega
    simp [fragmentEmptyBox, hd, hf, Out.grow] at hc
  | .block s id (k :: ks), hp, hv, hr, hk =>
    rw [Roomy] at hr
    rw [Plain] at hp
    have hstop : stopAt fc (adapt (s.met inp.page) inp) (k :: ks).length = (k :: ks).length := by
      simp [stopAt, hd]
    rw [layout_block, no_abort hH (by simp only [adapt]; omega), hstop, begins_eq fc (allow_of_disc hd), adapt_trav] at hc ⊢
    exact roomy_kids s id (k :: ks) hp.1 fc hd H hH (adapt (s.met inp.page) inp) (hv (fun h => h)) (k :: ks) [] rfl hp.2
      (by simpa [adapt] using hr.2) {} (fun h => by cases h) (fun _ => ⟨rfl, Or.inl rfl⟩) (Or.inl ⟨rfl, rfl⟩) hc

theorem roomy_kids (s : Style) (id : Nat) (kids : List Box) (hs : s.inside = false) (fc : Fc)
    (hd : fc.isDiscoveryMode = true) (H : Int) (hH : fc.size = some H) (inp : In)
    (hv : ValidO inp.trav.prev (.block s id kids)) (l pre : List Box)
    (hk : kids = pre ++ l) (hp : PlainKids l) (hr : RoomyKids inp.page H l inp.y inp.pend) (st : St)
    (h0 : l = [] → st.complete = true)
    (h1 : l ≠ [] → st.complete = false ∧ CurOk (begins inp.trav.prev) pre.length st.cur)
    (h2 : (st.blockSize = 0 ∧ st.lastMb = 0) ∨ Proper st.cur)
    (hc : (run fc s inp (begins inp.trav.prev) kids.length l pre.length st).complete = false) :
    ∃ c, (run fc s inp (begins inp.trav.prev) kids.length l pre.length st).bp = some c ∧ Proper c := by
  match l, hp, hr with
  | [], _, _ =>
    rw [run] at hc
    have : st.complete = false := hc
    rw [h0 rfl] at this; cases this
  | c :: rest, hp, hr =>
    rw [PlainKids] at hp
    rw [RoomyKids] at hr
    obtain ⟨hav, hfl, hrun, hrest⟩ := hp
    obtain ⟨hcomp, hcur⟩ := h1 (by simp)
    have hk' : kids = (pre ++ [c]) ++ rest := by rw [hk]; simp
    have hlen : (pre ++ [c]).length = pre.length + 1 := by simp
    have hkl : kids.length = pre.length + 1 + rest.length := by rw [hk]; simp; omega
    have hget : kids[pre.length]? = some c := by rw [hk]; simp
    have hbl : begins inp.trav.prev < kids.length := begins_lt hv (by rw [hk]; simp)
    rw [run] at hc ⊢
    split at hc
    · next hlt =>
      rw [if_pos hlt]
      have R := roomy_kids s id kids hs fc hd H hH inp hv rest (pre ++ [c]) hk' hrest hr.2 st
        (fun h => by subst h; simp at hkl; omega) (fun _ => ⟨hcomp, by rw [hlen]; exact hcur.mono⟩) h2
      rw [hlen] at R
      exact R hc
    next hge =>
    rw [if_neg (by omega)] at hc
    rw [if_neg hge, if_neg (by omega)]
    cases hpos : c.style.pos with
    | running =>
      simp only [hpos] at hc ⊢
      have R := roomy_kids s id kids hs fc hd H hH inp hv rest (pre ++ [c]) hk' hrest hr.2 st
        (fun h => absurd h (hrun hpos)) (fun _ => ⟨hcomp, by rw [hlen]; exact hcur.mono⟩) h2
      rw [hlen] at R
      exact R hc
    | out =>
      simp only [hpos] at hc ⊢
      have R := roomy_kids s id kids hs fc hd H hH inp hv rest (pre ++ [c]) hk' hrest hr.2
        { st with frags := st.frags ++ [⟨c.id, inp.y + st.blockSize, 0⟩], complete := rest.isEmpty || st.complete }
        (fun h => by subst h; rfl)
        (fun h => ⟨by cases rest with
          | nil => exact absurd rfl h
          | cons => simpa using hcomp, by rw [hlen]; exact hcur.mono⟩) h2
      rw [hlen] at R
      exact R hc
    | flow =>
      simp only [hpos] at hc ⊢
      obtain ⟨hplain, hlast⟩ := hfl hpos
      split at hc
      · next hfb => rw [if_pos hfb]; exact ⟨_, rfl, (by decide : 3 ≤ 4)⟩
      next hfb =>
      rw [if_neg hfb]
      have hvc : ValidO (within inp.trav.prev pre.length) c := within_valid hv hget
      have C := claim_box c hplain fc hd (childIn inp c.style pre.length st) hvc
      have hroom : st.blockSize = 0 ∧ st.lastMb = 0 →
          (layoutBox fc c (childIn inp c.style pre.length st)).complete = false →
          ∃ b, (layoutBox fc c (childIn inp c.style pre.length st)).bp = some b ∧ Proper b := by
        intro hz ho
        refine roomy_box c hplain fc hd H hH (childIn inp c.style pre.length st) rfl (fun _ => hvc) ?_ ho
        have := hr.1 hpos
        have hy : (childIn inp c.style pre.length st).y =
            inp.y + (if c.style.float then 0 else (c.style.met inp.page).mt) + (c.style.met inp.page).rel := by
          simp only [childIn, collapse_first c.style _ st hpos hz.1 hz.2]
        rw [hy]
        exact this
      generalize layoutBox fc c (childIn inp c.style pre.length st) = o at C hroom hc ⊢
      have hacur : (afterChild fc s inp c.style pre.length st o).cur = maybeProcessChild fc st.cur pre.length false o.bp := by
        rw [afterChild_cur, hs]
      split at hc
      · next hinc =>
        rw [if_pos hinc]
        refine ⟨_, rfl, ?_⟩
        have ho : o.complete = false := by simpa using hinc.2
        rw [hacur]
        rcases h2 with hz | hz
        · obtain ⟨cb, hcb, hpr⟩ := hroom hz ho
          rw [hcb]
          simp only [maybeProcessChild, hd, if_true]
          rcases override_child st.cur cb (pre.length + 1) hcur.rank with ⟨_, he⟩ | ⟨hnp, _⟩
          · rw [he]; exact hpr
          · exact absurd hpr hnp
        · obtain ⟨cb, hcb, -⟩ := C.breaks ho
          rw [hcb]
          simp only [maybeProcessChild, hd, if_true]
          exact hz.override
      next hinc =>
      rw [if_neg hinc]
      have ho : o.complete = true := by
        cases h : o.complete with
        | true => rfl
        | false => exact absurd ⟨hd, by simp [h]⟩ hinc
      have hmr : (afterChild fc s inp c.style pre.length st o).cur.appeal.rank ≤ 3 := by
        rw [hacur]; exact maybe_rank _ _ _ _ hcur.rank (C.ends ho).1
      have hac : (afterChild fc s inp c.style pre.length st o).complete = false := by rw [afterChild_complete]; exact hcomp
      generalize afterChild fc s inp c.style pre.length st o = st1 at hmr hac hc ⊢
      cases rest with
      | nil =>
        have hna := hlast rfl
        have hst : pre.length + 1 = kids.length := by rw [hkl]; simp
        simp only [hna, and_false, if_false, ne_eq, not_true, allow_of_disc hd, hst, true_and, if_true] at hc
        rw [run] at hc
        simp [finish, ho] at hc
      | cons d ds =>
        have hna : avoided s c.style (some d) = false := by
          rw [PlainKids] at hrest
          simp [avoided, hs, hav.2, hrest.1.1]
        have hne : ¬pre.length + 1 = kids.length := by rw [hkl]; simp
        have hcur1 : CurOk (begins inp.trav.prev) (pre.length + 1) (Bp.classB (pre.length + 1) false) :=
          Or.inr ⟨_, by omega, Nat.le_refl _, rfl⟩
        simp only [hd, ne_eq, reduceCtorEq, not_false_eq_true, and_self, if_true, List.head?_cons, hna, hne, and_false, if_false,
          override_classB _ _ hmr, true_and] at hc ⊢
        split at hc
        · next hpg => rw [if_pos hpg]; exact ⟨_, rfl, (by decide : 3 ≤ 4)⟩
        · next hpg =>
          rw [if_neg hpg]
          have R := roomy_kids s id kids hs fc hd H hH inp hv (d :: ds) (pre ++ [c]) hk' hrest hr.2
            { st1 with cur := Bp.classB (pre.length + 1) false }
            (fun h => by cases h) (fun _ => ⟨hac, by rw [hlen]; exact hcur1⟩) (Or.inr (by exact Nat.le_refl 3))
          rw [hlen] at R
          exact R hc

end

/-! ### The root -/

/-- The break a page may begin from. -/
def RootAt (p : Bp) (root : Box) : Prop := p = .startOfDocument ∨ Valid p root

theorem root_valid {p : Bp} {s : Style} {id : Nat} {k : Box} {ks : List Box} (h : RootAt p (.block s id (k :: ks))) :
    Valid p (.block s id (k :: ks)) := by
  rcases h with rfl | h
  · exact ⟨rfl, by simp⟩
  · exact h

theorem after_start (root : Box) : after root (some .startOfDocument) = content root := by
  match root with
  | .mono s id inner => rw [after, content]
  | .block s id [] => rw [after, content]
  | .block s id (k :: ks) =>
    rw [after, content]
    exact afterKids_full 0 _ (k :: ks) 0 (by omega) (fun _ _ => rfl)

theorem dist_start (root : Box) : dist .startOfDocument root = 0 := by
  cases root with
  | mono => simp [Bp.startOfDocument, dist]
  | block => simp [Bp.startOfDocument, dist, countAll]

theorem disc_mode (H : Int) : ({ size := some H, discovery := true } : Fc).isDiscoveryMode = true := rfl

theorem prints_mode (H : Int) : Prints { size := some H } := ⟨rfl, rfl⟩

/-- A page that is not the last. -/
theorem root_breaks (last : Page) (pages : Nat → Page) (root : Box) (hp : Plain root) (n : Nat) (p : Bp) (hv : RootAt p root)
    (ho : (discoverPage pages root n p).complete = false) :
    ∃ c, (discoverPage pages root n p).bp = some c ∧ (Proper c → Valid c root ∧ dist p root < dist c root ∧
      after root (some p) = ids (printPage last pages root n p c) ++ after root (some c)) := by
  match root, hv with
  | .mono s id inner, hv =>
    unfold discoverPage layoutRoot at ho ⊢
    rw [layout_mono] at ho ⊢
    split
    · exact ⟨_, rfl, fun h => absurd h (by decide)⟩
    · next hx => rw [if_neg hx] at ho; cases ho
  | .block s id [], hv =>
    unfold discoverPage layoutRoot at ho ⊢
    rw [layout_empty] at ho ⊢
    split
    · exact ⟨_, rfl, fun h => absurd h (by decide)⟩
    · next hx =>
      rw [if_neg hx] at ho
      unfold fragmentEmptyBox at ho ⊢
      simp only [disc_mode, if_true] at ho ⊢
      split
      · next hy => rw [if_pos hy] at ho; cases ho
      · exact ⟨_, rfl, fun h => absurd h (by decide)⟩
  | .block s id (k :: ks), hv =>
    have C := claim_box (.block s id (k :: ks)) hp { size := some (pages n).height, discovery := true } (disc_mode _)
      { page := n, y := (pages n).top, known := ((Box.block s id (k :: ks)).style.met n).height, trav := { prev := some p } }
      (root_valid hv)
    obtain ⟨c, hc, hP⟩ := C.breaks ho
    refine ⟨c, hc, fun hpr => ?_⟩
    obtain ⟨h1, h2, seg, e1, e2⟩ := hP hpr
    refine ⟨h1, h2, ?_⟩
    have := e2 { size := some last.height } { page := n, y := (pages n).top, known := ((Box.block s id (k :: ks)).style.met n).height, trav := ⟨some p, some c⟩ }
      (prints_mode _) rfl rfl
    unfold printPage layoutRoot
    rw [this]
    exact e1

/-- The last page. -/
theorem root_ends (last : Page) (pages : Nat → Page) (root : Box) (hp : Plain root) (hs : SingleRoot root) (n : Nat) (p : Bp)
    (hv : RootAt p root) (ho : (discoverPage pages root n p).complete = true) :
    ids (printPage last pages root n p (.classB 1 false)) = after root (some p) := by
  unfold printPage layoutRoot
  match root, hv, hs with
  | .mono s id inner, hv, _ =>
    rw [layout_mono, not_abort (prints_mode _), after]
    simp only [Bool.false_eq_true, if_false, ids_cons]
    rw [flow_inner _ (by simp [Fc.allowBreak, Fc.enterMonolithicBox]) inner _ (by rw [Plain] at hp; exact hp)]
  | .block s id [], hv, _ =>
    rw [layout_empty, not_abort (prints_mode _), after]
    rcases empty_frags { size := some last.height } id (adapt (s.met n) { page := n, y := (pages n).top, known := (s.met n).height, trav := ⟨some p, some (.classB 1 false)⟩ }) with h | ⟨h, -⟩
    · exact h
    · cases h
  | .block s id (k :: k' :: ks), hv, hs => rw [SingleRoot] at hs; simp at hs
  | .block s id [k], hv, _ =>
    have hv' := root_valid hv
    rw [Plain] at hp
    have K := claim_kids s id [k] hp.1 { size := some (pages n).height, discovery := true } (disc_mode _)
      (adapt (s.met n) { page := n, y := (pages n).top, known := (s.met n).height, trav := { prev := some p } })
      hv' [k] [] rfl hp.2 {} (fun h => by cases h) (fun _ => ⟨rfl, Or.inl rfl⟩)
    unfold discoverPage layoutRoot at ho
    rw [layout_block] at ho
    split at ho
    · cases ho
    · have hstop : stopAt { size := some (pages n).height, discovery := true }
          (adapt (s.met n) { page := n, y := (pages n).top, known := (s.met n).height, trav := { prev := some p } }) [k].length = [k].length := by
        simp [stopAt, disc_mode]
      have hst : (Box.block s id [k]).style = s := rfl
      rw [hst] at ho
      dsimp only at ho
      rw [hstop, begins_eq _ (allow_of_disc (disc_mode _)), adapt_trav] at ho
      have := (K.ends ho).2 { size := some last.height }
        (adapt (s.met n) { page := n, y := (pages n).top, known := (s.met n).height, trav := ⟨some p, some (.classB 1 false)⟩ })
        1 {} (prints_mode _) rfl (fun j => by simp [adapt_trav, Trav.traverseCurr, Bp.classB, Bp.child]) (by simp)
      rw [layout_block, not_abort (prints_mode _), begins_eq _ (prints_mode _).1, adapt_trav, after]
      exact this

/-! ### All pages -/

theorem print_all (last : Page) (pages : Nat → Page) (root : Box) (hp : Plain root) (hs : SingleRoot root) :
    ∀ (fuel n : Nat) (p : Bp) (bps : List Bp), RootAt p root → discover pages root fuel n p = .pages bps →
      (∀ b ∈ bps, Proper b) → (printFrom last pages root n p bps).flatMap ids = after root (some p) := by
  intro fuel
  induction fuel with
  | zero => intro n p bps _ h; cases h
  | succ fuel ih =>
    intro n p bps hv h hpr
    simp only [discover] at h
    split at h
    · next ho =>
      cases h
      simp only [printFrom, List.flatMap_cons, List.flatMap_nil, List.append_nil]
      exact root_ends last pages root hp hs n p hv ho
    · next ho =>
      have ho : (discoverPage pages root n p).complete = false := by simpa using ho
      obtain ⟨c, hc, hP⟩ := root_breaks last pages root hp n p hv ho
      simp only [hc] at h
      split at h
      · next bs hbs =>
        cases h
        obtain ⟨h1, h2, h3⟩ := hP (hpr c (List.mem_cons_self ..))
        simp only [printFrom, List.flatMap_cons]
        rw [ih (n + 1) c bs (Or.inr h1) hbs (fun b hb => hpr b (List.mem_cons_of_mem _ hb)), h3]
      · next hne => exact absurd h (hne bps)

theorem ends_all (pages : Nat → Page) (root : Box) (hp : Plain root)
    (hr : ∀ n, Roomy n (pages n).height root (pages n).top 0) :
    ∀ (fuel n : Nat) (p : Bp), RootAt p root → count root ≤ dist p root + fuel → dist p root < count root →
      ∃ bps, discover pages root fuel n p = .pages bps ∧ bps.length + dist p root ≤ count root ∧ ∀ b ∈ bps, Proper b := by
  intro fuel
  induction fuel with
  | zero => intro n p hv h hd; omega
  | succ fuel ih =>
    intro n p hv h hd
    cases ho : (discoverPage pages root n p).complete with
    | true =>
      refine ⟨[.classB 1 false], by simp only [discover, ho, if_true], ?_, ?_⟩
      · simp only [List.length_singleton]; omega
      · intro b hb; simp only [List.mem_singleton] at hb; subst hb; exact Nat.le_refl 3
    | false =>
      obtain ⟨c, hc, hP⟩ := root_breaks ⟨0, 0⟩ pages root hp n p hv ho
      have hpr : Proper c := by
        have : ∃ c, (discoverPage pages root n p).bp = some c ∧ Proper c := by
          refine roomy_box root hp _ (disc_mode _) (pages n).height rfl _ rfl (fun hl => ?_) (hr n) ho
          match root, hv, hl with
          | .mono s id inner, _, hl => exact absurd trivial hl
          | .block s id [], _, hl => exact absurd trivial hl
          | .block s id (k :: ks), hv, _ => exact root_valid hv
        obtain ⟨c', h1, h2⟩ := this
        rw [hc] at h1
        cases h1
        exact h2
      obtain ⟨h1, h2, h3⟩ := hP hpr
      obtain ⟨bps, e, hl, hb⟩ := ih (n + 1) c (Or.inr h1) (by omega) (dist_lt c root h1)
      refine ⟨c :: bps, by simp [discover, ho, hc, e], ?_, ?_⟩
      · simp only [List.length_cons]; omega
      · intro b hb'
        rcases List.mem_cons.1 hb' with rfl | hb'
        · exact hpr
        · exact hb b hb'

end Verif.Paginate
