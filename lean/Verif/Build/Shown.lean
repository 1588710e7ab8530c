import Verif.Build.Lemmas
/-!
# Building boxes: what a node adds
-/
namespace Verif.Build

/-! ## The wrapper of a table -/

def optToks : Option St → List Tok
  | some st => st.toks
  | none => []

def Wrap.toks (w : Wrap) : List Tok := w.out.toks ++ optToks w.row ++ optToks w.cell

structure WrapOk (w : Wrap) : Prop where
  out : w.out.content = .none ∧ w.out.inl = none
  row : ∀ r, w.row = some r → r.content = .none ∧ r.inl = none
  cell : ∀ c, w.cell = some c → c.content = .none

theorem slot_add {st : St} (hc : st.content = .none) (hi : st.inl = none) (b : Box) :
    (st.add b).toks = st.toks ++ boxToks b ∧ (st.add b).content = .none ∧ (st.add b).inl = none := by
  refine ⟨(add_toks true hc b (fun _ => by rw [hi]; rfl)).2 rfl, ?_, ?_⟩ <;> rw [add_none hc]
  · exact hc
  · exact hi

theorem empty_toks {st : St} (h : ¬ (!st.finalize.content.isNone || !st.finalize.kids.isEmpty) = true)
    (hc : st.content = .none) : st.toks = [] := by
  rw [← finalize_spec hc]
  simp only [Bool.or_eq_true, Bool.not_eq_true', not_or, Bool.not_eq_false] at h
  have h1 : st.finalize.kids = [] := by simpa using h.2
  have h2 : st.finalize.content = .none := by
    cases hh : st.finalize.content with
    | none => rfl
    | prose i => rw [hh] at h; exact absurd h.1 (by simp [Content.isNone])
    | atom i => rw [hh] at h; exact absurd h.1 (by simp [Content.isNone])
  rw [h1, h2]; rfl

theorem finCell_spec {w : Wrap} (h : WrapOk w) :
    WrapOk w.finCell ∧ w.finCell.toks = w.toks ∧ w.finCell.cell = none ∧ (w.row = none → w.finCell.row = none) := by
  unfold Wrap.finCell
  cases hc : w.cell with
  | none => exact ⟨h, rfl, hc, id⟩
  | some c =>
    simp only
    have hcc := h.cell c hc
    split
    · cases hr : w.row with
      | some r =>
        have hrr := h.row r hr
        have ha := slot_add hrr.1 hrr.2 (.mk (.own (.internal .cell)) none c.finalize.content c.finalize.kids)
        refine ⟨⟨h.out, ?_, by simp⟩, ?_, rfl, by simp⟩
        · intro r' e; cases e; exact ha.2
        · simp only [Wrap.toks, optToks, hr, hc, ha.1, boxToks_anon, finalize_spec hcc]; simp
      | none =>
        have ha := slot_add h.out.1 h.out.2 (.mk (.own (.internal .cell)) none c.finalize.content c.finalize.kids)
        refine ⟨⟨ha.2, by simp [hr], by simp⟩, ?_, rfl, by simp [hr]⟩
        simp only [Wrap.toks, optToks, hr, hc, ha.1, boxToks_anon, finalize_spec hcc]; simp
    · next hk =>
      refine ⟨⟨h.out, h.row, by simp⟩, ?_, rfl, by simp⟩
      simp only [Wrap.toks, hc, optToks, empty_toks hk hcc]

theorem finRow_spec {w : Wrap} (h : WrapOk w) (hcell : w.cell = none) :
    WrapOk w.finRow ∧ w.finRow.toks = w.toks ∧ w.finRow.cell = none ∧ w.finRow.row = none := by
  unfold Wrap.finRow
  cases hr : w.row with
  | none => exact ⟨h, rfl, hcell, hr⟩
  | some r =>
    have hrr := h.row r hr
    have hft : r.toks = boxesToks r.kids ++ contentToks r.content := by
      unfold St.toks; rw [hrr.2]; simp [inlToks]
    simp only
    split
    · have ha := slot_add h.out.1 h.out.2 (.mk (.own (.internal .row)) none r.content r.kids)
      refine ⟨⟨ha.2, by simp, by simp [hcell]⟩, ?_, hcell, rfl⟩
      simp only [Wrap.toks, optToks, hr, hcell, ha.1, boxToks_anon, ← hft]; simp
    · next hk =>
      refine ⟨⟨h.out, by simp, by simp [hcell]⟩, ?_, hcell, rfl⟩
      have h2 : r.kids = [] := by
        simp only [Bool.or_eq_true, Bool.not_eq_true', not_or, Bool.not_eq_false] at hk
        simpa using hk.2
      simp [Wrap.toks, hr, hcell, optToks, hft, h2, hrr.1, boxesToks, contentToks]

/-- Both at once: everything is in the outer box. -/
theorem fin_spec {w : Wrap} (h : WrapOk w) :
    WrapOk w.finCell.finRow ∧ w.finCell.finRow.out.toks = w.toks ∧ w.finCell.finRow.cell = none ∧
    w.finCell.finRow.row = none := by
  have h1 := finCell_spec h
  have h2 := finRow_spec h1.1 h1.2.2.1
  refine ⟨h2.1, ?_, h2.2.2⟩
  have := h2.2.1
  unfold Wrap.toks at this
  rw [h2.2.2.1, h2.2.2.2] at this
  simp only [optToks, List.append_nil] at this
  rw [this]
  exact h1.2.1

theorem fin_kids {w : Wrap} (h : WrapOk w) : boxesToks w.finCell.finRow.out.kids = w.toks := by
  have h1 := fin_spec h
  rw [← h1.2.1]
  unfold St.toks
  rw [h1.1.out.1, h1.1.out.2]
  simp [contentToks, inlToks]

theorem createRow_spec {w : Wrap} (h : WrapOk w) :
    WrapOk w.createRow ∧ w.createRow.toks = w.toks ∧ w.createRow.cell = w.cell ∧ ∃ r, w.createRow.row = some r := by
  unfold Wrap.createRow
  cases hr : w.row with
  | some r => exact ⟨h, rfl, rfl, r, hr⟩
  | none =>
    refine ⟨⟨h.out, ?_, h.cell⟩, ?_, rfl, _, rfl⟩
    · intro r e; cases e; exact ⟨rfl, rfl⟩
    · simp [Wrap.toks, hr, optToks, St.toks, boxesToks, contentToks, inlToks]

theorem createCell_spec {w : Wrap} (h : WrapOk w) :
    WrapOk w.createCell ∧ w.createCell.toks = w.toks ∧ ∃ c, w.createCell.cell = some c := by
  unfold Wrap.createCell
  cases hr : w.cell with
  | some r => exact ⟨h, rfl, r, hr⟩
  | none =>
    refine ⟨⟨h.out, h.row, ?_⟩, ?_, _, rfl⟩
    · intro r e; cases e; rfl
    · simp [Wrap.toks, hr, optToks, St.toks, boxesToks, contentToks, inlToks, itemsToks]

structure WrapPost (s : Bool) (w w' : Wrap) (t : List Tok) : Prop where
  ok : WrapOk w'
  rel : Rel s w'.toks (w.toks ++ t)

theorem WrapPost.refl {s : Bool} {w : Wrap} (h : WrapOk w) : WrapPost s w w [] := ⟨h, Rel.of_eq (by simp)⟩

theorem WrapPost.trans {s : Bool} {a b c : Wrap} {t u : List Tok} (h : WrapPost s a b t) (h' : WrapPost s b c u) :
    WrapPost s a c (t ++ u) :=
  ⟨h'.ok, (h'.rel.trans (h.rel.append (Rel.refl s u))).trans (Rel.of_eq (List.append_assoc ..))⟩

theorem WrapPost.of_toks {s : Bool} {a a' b : Wrap} {t : List Tok} (e : a'.toks = a.toks) (h : WrapPost s a' b t) :
    WrapPost s a b t := ⟨h.ok, by rw [← e]; exact h.rel⟩

/-- A step in the open cell. -/
theorem cell_step {s : Bool} {w : Wrap} {c c' : St} {t : List Tok} (hw : WrapOk w) (hc : w.cell = some c)
    (h : Post s .flow c c' t) : WrapPost s w { w with cell := some c' } t := by
  refine ⟨⟨hw.out, hw.row, fun x e => by cases e; exact h.content⟩, ?_⟩
  simp only [Wrap.toks, hc, optToks]
  refine ((Rel.refl s _).append h.rel).trans (Rel.of_eq ?_)
  simp

theorem row_step {s : Bool} {w : Wrap} {c c' : St} {t : List Tok} (hw : WrapOk w) (hcell : w.cell = none)
    (hc : w.row = some c) (h : Post s .slot c c' t) : WrapPost s w { w with row := some c' } t := by
  refine ⟨⟨hw.out, (fun x e => by cases e; exact ⟨h.content, h.place.2 rfl⟩), hw.cell⟩, ?_⟩
  simp only [Wrap.toks, hc, hcell, optToks, List.append_nil]
  refine ((Rel.refl s _).append h.rel).trans (Rel.of_eq ?_)
  simp

theorem out_step {s : Bool} {w : Wrap} {c' : St} {t : List Tok} (hw : WrapOk w) (hcell : w.cell = none)
    (hrow : w.row = none) (h : Post s .slot w.out c' t) : WrapPost s w { w with out := c' } t := by
  refine ⟨⟨⟨h.content, h.place.2 rfl⟩, hw.row, hw.cell⟩, ?_⟩
  simp only [Wrap.toks, hrow, hcell, optToks, List.append_nil]
  exact h.rel

theorem columns_toks : ∀ ks : List Node, boxesToks (columns ks) = columnToks ks
  | [] => by simp [columns, columnToks, boxesToks]
  | .el e ks :: rest => by
    simp only [columns, columnToks]
    split
    · simp [boxesToks, boxToks_mk, columns_toks ks, columns_toks rest, contentToks]
    · simp [columns_toks rest]
  | .text _ :: rest => by simp only [columns, columnToks]; exact columns_toks rest
  | .other :: rest => by simp only [columns, columnToks]; exact columns_toks rest

/-! ## An element, given what its children do -/

theorem blockify_isFlex (ins : Inside) (out : Outside) (i : Bool) :
    (blockify (.dflt ins out i)).isFlex = decide (ins = .flex) := by
  cases ins <;> cases out <;> rfl

theorem isFlex_dflt (ins : Inside) (out : Outside) (i : Bool) : (Disp.dflt ins out i).isFlex = decide (ins = .flex) := by
  cases ins <;> rfl

theorem levelBox_not_table {e : Elem} {d : Disp} {rec : Rec} (h : ∀ o i, d ≠ .dflt .table o i) :
    levelBox e d rec = boxFromElement e d rec := by
  unfold levelBox
  split
  · next o i => exact absurd rfl (h o i)
  · rfl

theorem blockify_table {ins : Inside} {out : Outside} {i : Bool} (h : ins ≠ .table) :
    ∀ o i', blockify (.dflt ins out i) ≠ .dflt .table o i' := by
  intro o i'
  cases ins <;> cases out <;> simp_all [blockify]

theorem blockify_table' (out : Outside) (i : Bool) : blockify (.dflt .table out i) = .dflt .table .block i := by
  cases out <;> rfl

theorem kidsFlex {s : Bool} {d : Disp} {f : Ctx → St → Option St} {t : Bool → Sty → List Tok}
    {ins : Inside} (hd : d.isFlex = decide (ins = .flex)) (h : KidsOk s (if ins = .flex then .flex else .flow) f t) :
    KidsOk s (if d.isFlex then .flex else .flow) f t := by
  rw [hd]
  by_cases hi : ins = .flex
  · simp only [hi, if_true] at h ⊢; simpa using h
  · simp only [hi, if_false] at h ⊢; simpa using h

theorem elem_post {s : Bool} {p : Place} {cx : Ctx} {st st' : St} {e : Elem} {rec : Rec}
    {kids : Bool → Sty → List Tok} {caps rows : List Tok}
    (hx : CtxOk p cx) (hc : st.content = .none) (hp : PlaceOk p st)
    (h : buildElem cx st e rec = some st') :
    match e.disp with
    | .none => Post s p st st' []
    | .contents => KidsOk s p rec.kids kids →
        Post s p st st' (pseudoToks e.before ++ kids (decide (p = .flex)) cx.sty ++ pseudoToks e.after)
    | .internal _ => (s = true → p ≠ .flow) → (e.kind = .plain → KidsOk s .flow rec.kids kids) →
        Post s p st st' (framed e.id (inside e (kids false e.sty)))
    | .dflt ins out _ =>
      if ins = .table then
        e.kind = .plain → CapsOk s rec.captions caps → (∀ ks, rec.rows e.sty = some ks → Rel s (boxesToks ks) rows) →
          Post s p st st' (tableToks e caps rows)
      else if boxed (p = .flex) e ins out then
        (e.kind = .plain → KidsOk s (if ins = .flex then .flex else .flow) rec.kids kids) →
          Post s p st st' (framed e.id (inside e (kids (ins = .flex) e.sty)))
      else
        ((e.kind = .plain ∧ KidsOk s .flow rec.kids kids) ∨ e.kind = .br ∨ e.kind = .void ∨ e.kind = .input .hidden) →
          Post s p st st' (inside e (kids false e.sty)) := by
  unfold buildElem at h
  cases hd : e.disp with
  | none => rw [hd] at h; cases h; exact Post.refl hc hp
  | contents =>
    rw [hd] at h
    intro hk
    have := buildChildren_post (t := kids) hk hx hc hp h
    simpa [markerToks, hd] using this
  | internal i =>
    rw [hd] at h
    intro hs hk
    obtain ⟨b, h1, h2⟩ := Option.map_eq_some_iff.1 h
    subst h2
    rw [levelBox_not_table (by intro o i; simp)] at h1
    exact add_post hc hp (place_inl hp hs) (boxFromElement_rel (t := kids) hk h1)
  | dflt ins out item =>
    rw [hd] at h
    simp only at h ⊢
    unfold defaultDisplay at h
    rw [hd] at h
    by_cases ht : ins = .table
    · rw [if_pos ht]
      subst ht
      intro hkp hcap hrow
      by_cases hf : cx.src = .flex
      · rw [if_pos hf] at h
        obtain ⟨b, h1, h2⟩ := Option.map_eq_some_iff.1 h
        subst h2
        rw [blockify_table'] at h1
        have hpf := hx.1 hf
        exact add_post hc hp (place_inl hp (fun _ => by rw [hpf]; simp)) (tableFromElement_rel hcap hrow h1)
      · rw [if_neg hf] at h
        by_cases ho : out = .block
        · rw [if_pos ho] at h
          obtain ⟨b, h1, h2⟩ := Option.map_eq_some_iff.1 h
          subst h2
          have hfl := flush_post (s := s) hc hp
          exact hfl.trans (add_post hfl.content hfl.place (fun _ => (flush_spec hc).2.2.1)
            (tableFromElement_rel hcap hrow h1))
        · rw [if_neg ho, if_pos (by simp)] at h
          obtain ⟨b, h1, h2⟩ := Option.bind_eq_some_iff.1 h
          exact addInline_post hc hp (fun e => hf (hx.2 e)) (tableFromElement_rel hcap hrow h1) h2
    · rw [if_neg ht]
      have hnt : ∀ o i, Disp.dflt ins out item ≠ .dflt .table o i := by
        intro o i e; cases e; exact ht rfl
      have hpf : decide (p = .flex) = decide (cx.src = .flex) := by
        rw [decide_eq_decide]; exact hx.symm
      rw [hpf]
      by_cases hb : boxed (decide (cx.src = .flex)) e ins out = true
      · rw [if_pos hb]
        intro hk
        have hk1 : e.kind = .plain → KidsOk s (if (blockify (.dflt ins out item)).isFlex then .flex else .flow) rec.kids kids :=
          fun hkk => kidsFlex (blockify_isFlex ins out item) (hk hkk)
        have hk2 : e.kind = .plain → KidsOk s (if (Disp.dflt ins out item).isFlex then .flex else .flow) rec.kids kids :=
          fun hkk => kidsFlex (isFlex_dflt ins out item) (hk hkk)
        by_cases hf : cx.src = .flex
        · rw [if_pos hf] at h
          obtain ⟨b, h1, h2⟩ := Option.map_eq_some_iff.1 h
          subst h2
          rw [levelBox_not_table (blockify_table ht)] at h1
          have := boxFromElement_rel hk1 h1
          rw [blockify_isFlex] at this
          exact add_post hc hp (place_inl hp (fun _ => by rw [hx.1 hf]; simp)) this
        · rw [if_neg hf] at h
          by_cases ho : out = .block
          · rw [if_pos ho] at h
            obtain ⟨b, h1, h2⟩ := Option.map_eq_some_iff.1 h
            subst h2
            rw [levelBox_not_table hnt] at h1
            have := boxFromElement_rel hk2 h1
            rw [isFlex_dflt] at this
            have hfl := flush_post (s := s) hc hp
            exact hfl.trans (add_post hfl.content hfl.place (fun _ => (flush_spec hc).2.2.1) this)
          · rw [if_neg ho] at h
            have hcond : (alwaysInlineBlock e || decide (ins ≠ .flow)) = true := by
              unfold boxed at hb
              unfold alwaysInlineBlock
              simp only [hf, ho, decide_false, Bool.false_or, Bool.or_eq_true, decide_eq_true_eq] at hb ⊢
              rcases hb with (hb | hb) | hb
              · exact Or.inr hb
              · exact Or.inl (Or.inl hb)
              · exact Or.inl (Or.inr hb)
            rw [if_pos hcond] at h
            obtain ⟨b, h1, h2⟩ := Option.bind_eq_some_iff.1 h
            rw [levelBox_not_table hnt] at h1
            have := boxFromElement_rel hk2 h1
            rw [isFlex_dflt] at this
            exact addInline_post hc hp (fun e => hf (hx.2 e)) this h2
      · rw [if_neg hb]
        intro hk
        have hnb : ¬ cx.src = .flex ∧ ¬ out = .block ∧ ins = .flow ∧ e.kind ≠ .img ∧ e.kind ≠ .svg := by
          unfold boxed at hb
          simp only [Bool.or_eq_true, decide_eq_true_eq, not_or, Decidable.not_not] at hb
          exact ⟨hb.1.1.1.1, hb.1.1.1.2, hb.1.1.2, hb.1.2, hb.2⟩
        rw [if_neg hnb.1, if_neg hnb.2.1, if_neg (by simp [alwaysInlineBlock, hnb])] at h
        unfold inlineFlow at h
        unfold inside
        rcases hk with ⟨hkd, hk⟩ | hkd | hkd | hkd
        · rw [hkd] at h ⊢
          cases hi : st.inl with
          | none => rw [hi] at h; cases h
          | some items =>
            rw [hi] at h
            have hpfl : p = .flow := by
              cases p with
              | flow => rfl
              | flex => exact absurd (hx.2 rfl) hnb.1
              | slot => rw [hp.2 rfl] at hi; cases hi
            subst hpfl
            have := buildChildren_post (cx := { src := .inline, sty := e.sty }) (t := kids) hk
              (by unfold CtxOk; simp) hc hp h
            simpa using this
        · rw [hkd] at h ⊢
          cases h
          exact flush_post hc hp
        · rw [hkd] at h ⊢
          simp only [buildVoid, hkd] at h
          cases h
          exact Post.refl hc hp
        · rw [hkd] at h ⊢
          simp only [buildVoid, hkd] at h
          cases h
          exact Post.refl hc hp

end Verif.Build
