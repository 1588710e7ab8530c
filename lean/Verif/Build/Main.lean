import Verif.Build.Shown
/-!
# Building boxes: the induction over documents
-/
namespace Verif.Build

def rootB (m : Mode) : Bool := decide (m = .root)
def rowB (m : Mode) : Bool := decide (m = .row)

theorem slot_ok {st : St} (h : st.inl = none) : PlaceOk .slot st := ⟨(fun e => by cases e), fun _ => h⟩

theorem flow_ok (st : St) : PlaceOk .flow st := ⟨fun e => (by cases e), fun e => by cases e⟩

theorem ctx_table (sty : Sty) {p : Place} (h : p ≠ .flex) : CtxOk p { src := .table, sty := sty } := by
  unfold CtxOk; simp [h]

/-- One child of a table, group or row: the state after it and its marks. -/
theorem row_one {s : Bool} {m : Mode} {sty : Sty} {w w' : Wrap} {e : Elem} {ks rest : List Node}
    (node : ∀ p cx st st', tame s p (.el e ks) = true → CtxOk p cx → st.content = .none → PlaceOk p st →
      buildNode cx st (.el e ks) = some st' → Post s p st st' (nodeToks (decide (p = .flex)) cx.sty (.el e ks)))
    (inner : ∀ m' w', tameRows s (rootB m') (rowB m') ks = true → tableKids m' e.sty {} ks = some w' →
      WrapPost s {} w' (rowToks (rootB m') (rowB m') e.sty ks))
    (next : ∀ w1 w', WrapOk w1 → tableKids m sty w1 rest = some w' →
      WrapPost s w1 w' (rowToks (rootB m) (rowB m) sty rest))
    (hw : WrapOk w) (ht : tameRows s (rootB m) (rowB m) (.el e ks :: rest) = true)
    (h : tableKids m sty w (.el e ks :: rest) = some w') :
    WrapPost s w w' (rowToks (rootB m) (rowB m) sty (.el e ks :: rest)) := by
  have h0 : WrapOk ({} : Wrap) := ⟨⟨rfl, rfl⟩, by simp, by simp⟩
  have inner' : ∀ m' b, tameRows s (rootB m') (rowB m') ks = true →
      ((tableKids m' e.sty {} ks).map fun w => w.finCell.finRow.out.kids) = some b →
      Rel s (boxesToks b) (rowToks (rootB m') (rowB m') e.sty ks) := by
    intro m' b ht' hb
    obtain ⟨w1, h1, h2⟩ := Option.map_eq_some_iff.1 hb
    subst h2
    have := inner m' w1 ht' h1
    rw [fin_kids this.ok]
    have hr := this.rel
    simpa [Wrap.toks, optToks, St.toks, boxesToks, contentToks, inlToks] using hr
  -- a box of a part of the table
  have part : ∀ (kids : List Box) (t : List Tok), Rel s (boxesToks kids) t →
      tableKids m sty { w.finCell.finRow with
        out := w.finCell.finRow.out.add (.mk (.own e.disp) (some e.id) .none kids) } rest = some w' →
      WrapPost s w w' (framed e.id t ++ rowToks (rootB m) (rowB m) sty rest) := by
    intro kids t hr hn
    have hf := fin_spec hw
    have hp : Post s .slot w.finCell.finRow.out (w.finCell.finRow.out.add (.mk (.own e.disp) (some e.id) .none kids))
        (framed e.id t) := by
      refine add_post hf.1.out.1 (slot_ok hf.1.out.2) (fun _ => by rw [hf.1.out.2]; rfl) ?_
      rw [boxToks_mk]; simp only [contentToks, List.append_nil]; exact hr.framed _
    have hs := out_step hf.1 hf.2.2.1 hf.2.2.2 hp
    refine WrapPost.of_toks ?_ (hs.trans (next _ _ hs.ok hn))
    have h1 := finCell_spec hw
    have h2 := finRow_spec h1.1 h1.2.2.1
    rw [h2.2.1, h1.2.1]
  have group : ∀ (m' : Mode) (t : List Tok), tameRows s (rootB m') (rowB m') ks = true →
      t = rowToks (rootB m') (rowB m') e.sty ks →
      ((Option.map (some ∘ fun w : Wrap => w.finCell.finRow.out.kids) (tableKids m' e.sty {} ks)).bind fun b =>
        match b with
        | some kids => tableKids m sty { w.finCell.finRow with
            out := w.finCell.finRow.out.add (.mk (.own e.disp) (some e.id) .none kids) } rest
        | none => tableKids m sty w.finCell.finRow rest) = some w' →
      WrapPost s w w' (framed e.id t ++ rowToks (rootB m) (rowB m) sty rest) := by
    intro m' t htm et hn
    obtain ⟨b, hb, hn⟩ := Option.bind_eq_some_iff.1 hn
    obtain ⟨w2, hb1, hb2⟩ := Option.map_eq_some_iff.1 hb
    subst hb2 et
    exact part _ _ (inner' m' w2.finCell.finRow.out.kids htm (by rw [hb1]; rfl)) hn
  -- a child that goes into the open cell
  have incell : ∀ (w1 : Wrap), WrapOk w1 → w1.toks = w.toks → tame s .flow (.el e ks) = true →
      (match w1.cell with
        | none => none
        | some c => (buildNode { src := .table, sty := sty } c (.el e ks)).bind fun c =>
            tableKids m sty { w1 with cell := some c } rest) = some w' →
      WrapPost s w w' (nodeToks false sty (.el e ks) ++ rowToks (rootB m) (rowB m) sty rest) := by
    intro w1 hw1 e1 htm hn
    cases hcell : w1.cell with
    | none => rw [hcell] at hn; cases hn
    | some c =>
      rw [hcell] at hn
      obtain ⟨c', h1, h2⟩ := Option.bind_eq_some_iff.1 hn
      have hp := node .flow _ _ _ htm (ctx_table sty (by simp)) (hw1.cell c hcell) (flow_ok c) h1
      have hs := cell_step hw1 hcell hp
      exact WrapPost.of_toks e1 (hs.trans (next _ _ hs.ok h2))
  have hcreate : WrapOk w.createRow.createCell ∧ w.createRow.createCell.toks = w.toks := by
    have h1 := createRow_spec hw
    have h2 := createCell_spec h1.1
    exact ⟨h2.1, h2.2.1.trans h1.2.1⟩
  have hcreate' : WrapOk w.createCell ∧ w.createCell.toks = w.toks := by
    have h2 := createCell_spec hw
    exact ⟨h2.1, h2.2.1⟩
  -- a cell that goes into the open row
  have inrow : tame s .slot (.el e ks) = true →
      (match w.finCell.createRow.row with
        | none => none
        | some r => (buildNode { src := .table, sty := sty } r (.el e ks)).bind fun r =>
            tableKids m sty { w.finCell.createRow with row := some r } rest) = some w' →
      WrapPost s w w' (nodeToks false sty (.el e ks) ++ rowToks (rootB m) (rowB m) sty rest) := by
    intro htm hn
    have h1 := finCell_spec hw
    have h2 := createRow_spec h1.1
    obtain ⟨r, hr⟩ := h2.2.2.2
    rw [hr] at hn
    obtain ⟨r', h3, h4⟩ := Option.bind_eq_some_iff.1 hn
    have hrr := h2.1.row r hr
    have hp := node .slot _ _ _ htm (ctx_table sty (by simp)) hrr.1 (slot_ok hrr.2) h3
    have hs := row_step h2.1 (h2.2.2.1.trans h1.2.2.1) hr hp
    exact WrapPost.of_toks (h2.2.1.trans h1.2.1) (hs.trans (next _ _ hs.ok h4))
  -- a cell of a row
  have accell : tame s .slot (.el e ks) = true →
      ((buildNode { src := .table, sty := sty } w.finCell.finRow.out (.el e ks)).bind fun st =>
          tableKids m sty { w.finCell.finRow with out := st } rest) = some w' →
      WrapPost s w w' (nodeToks false sty (.el e ks) ++ rowToks (rootB m) (rowB m) sty rest) := by
    intro htm hn
    have hf := fin_spec hw
    obtain ⟨r', h3, h4⟩ := Option.bind_eq_some_iff.1 hn
    have hp := node .slot _ _ _ htm (ctx_table sty (by simp)) hf.1.out.1 (slot_ok hf.1.out.2) h3
    have hs := out_step hf.1 hf.2.2.1 hf.2.2.2 hp
    refine WrapPost.of_toks ?_ (hs.trans (next _ _ hs.ok h4))
    have h1 := finCell_spec hw
    have h2 := finRow_spec h1.1 h1.2.2.1
    rw [h2.2.1, h1.2.1]
  -- the kinds of children
  have other : (∀ i, e.disp ≠ .internal i) → WrapPost s w w' (rowToks (rootB m) (rowB m) sty (.el e ks :: rest)) := by
    intro hni
    have hacc : acceptsDisp m e.disp = none := by
      unfold acceptsDisp
      split
      · next i hh => exact absurd hh (hni i)
      · rfl
    simp only [tableKids, hni, and_false, if_false, hacc] at h
    simp only [tameRows, hni, false_and, if_false, or_self, Bool.and_eq_true] at ht
    simp only [rowToks, hni, false_and, if_false, or_self]
    split at h
    · exact incell _ hcreate'.1 hcreate'.2 ht.1 h
    · exact incell _ hcreate.1 hcreate.2 ht.1 h
  cases hd : e.disp with
  | none => exact other (by rw [hd]; simp)
  | contents => exact other (by rw [hd]; simp)
  | dflt a b c => exact other (by rw [hd]; simp)
  | internal i =>
    clear other
    simp only [tableKids] at h
    simp only [tameRows, Bool.and_eq_true] at ht
    simp only [rowToks]
    rw [hd] at h ht part group ⊢
    cases m <;> cases i <;>
      simp [rootB, rowB, acceptsDisp, accepts, tableInternal] at h ht ⊢ <;>
      first
        | exact next _ _ hw h
        | exact incell _ hcreate'.1 hcreate'.2 ht.1 h
        | exact incell _ hcreate.1 hcreate.2 ht.1 h
        | exact inrow ht.1 h
        | exact accell ht.1 h
        | exact group .group _ ht.1 rfl h
        | exact group .row _ ht.1 rfl h
        | exact part _ _ (Rel.of_eq (columns_toks ks)) h
        | exact part _ _ (Rel.refl _ _) h

mutual
theorem node_post (s : Bool) : ∀ (n : Node) (p : Place) (cx : Ctx) (st st' : St), tame s p n = true → CtxOk p cx →
    st.content = .none → PlaceOk p st → buildNode cx st n = some st' →
    Post s p st st' (nodeToks (decide (p = .flex)) cx.sty n)
  | .text t, p, cx, st, st', _, hx, hc, hp, h => by
    simp only [buildNode] at h
    simp only [nodeToks]
    exact buildText_post hx hc hp h
  | .other, p, cx, st, st', _, hx, hc, hp, h => by
    simp only [buildNode] at h
    cases h
    simp only [nodeToks]
    exact Post.refl hc hp
  | .el e ks, p, cx, st, st', ht, hx, hc, hp, h => by
    simp only [buildNode] at h
    have hm := elem_post (s := s) (kids := fun b sty => kidsToks b sty ks) (caps := captionToks ks)
      (rows := rowToks true false e.sty ks) hx hc hp h
    simp only [tame] at ht
    simp only [nodeToks]
    cases hd : e.disp with
    | none => rw [hd] at hm; exact hm
    | contents =>
      rw [hd] at hm ht
      exact hm (kids_post s ks p ht)
    | internal i =>
      rw [hd] at hm ht
      simp only [Bool.and_eq_true, Bool.or_eq_true, Bool.not_eq_true', decide_eq_true_eq] at ht
      refine hm (fun hs => ?_) (fun hk => ?_)
      · rcases ht.1 with h1 | h1
        · rw [hs] at h1; cases h1
        · exact h1
      · rcases ht.2 with h1 | h1
        · exact absurd hk h1
        · exact kids_post s ks .flow h1
    | dflt ins out item =>
      rw [hd] at hm ht
      simp only at hm ht ⊢
      by_cases h1 : ins = .table
      · rw [if_pos h1] at hm ht
        simp only [Bool.and_eq_true, decide_eq_true_eq] at ht
        rw [if_pos ⟨h1, ht.1.1⟩]
        refine hm ht.1.1 (caps_post s ks ht.1.2) (fun b hb => ?_)
        obtain ⟨w1, h2, h3⟩ := Option.map_eq_some_iff.1 hb
        subst h3
        have hp := rows_post s ks .root e.sty {} w1 ⟨⟨rfl, rfl⟩, (by simp), by simp⟩ ht.2 h2
        rw [fin_kids hp.ok]
        have hr := hp.rel
        simpa [Wrap.toks, optToks, St.toks, boxesToks, contentToks, inlToks, rootB, rowB] using hr
      · rw [if_neg h1] at hm ht
        rw [if_neg (fun h => h1 h.1)]
        by_cases h2 : boxed (decide (p = .flex)) e ins out = true
        · rw [if_pos h2] at hm ht ⊢
          simp only [Bool.or_eq_true, decide_eq_true_eq] at ht
          refine hm (fun hk => ?_)
          rcases ht with h3 | h3
          · exact absurd hk h3
          · exact kids_post s ks _ h3
        · rw [if_neg h2] at hm ht ⊢
          simp only [Bool.or_eq_true, Bool.and_eq_true, decide_eq_true_eq] at ht
          refine hm ?_
          rcases ht with ((h3 | h3) | h3) | h3
          · exact Or.inl ⟨h3.1, kids_post s ks _ h3.2⟩
          · exact Or.inr (Or.inl h3)
          · exact Or.inr (Or.inr (Or.inl h3))
          · exact Or.inr (Or.inr (Or.inr h3))

theorem kids_post (s : Bool) : ∀ (ks : List Node) (p : Place), tameKids s p ks = true →
    KidsOk s p (fun cx st => buildKids cx st ks) (fun b sty => kidsToks b sty ks)
  | [], p, _ => by
    intro cx st st' hx hc hp h
    simp only [buildKids] at h
    cases h
    simp only [kidsToks]
    exact Post.refl hc hp
  | n :: rest, p, ht => by
    intro cx st st' hx hc hp h
    simp only [buildKids] at h
    simp only [tameKids, Bool.and_eq_true] at ht
    obtain ⟨st1, h1, h2⟩ := Option.bind_eq_some_iff.1 h
    have p1 := node_post s n p cx st st1 ht.1 hx hc hp h1
    have p2 := kids_post s rest p ht.2 cx st1 st' hx p1.content p1.place h2
    simp only [kidsToks]
    exact p1.trans p2

theorem caps_post (s : Bool) : ∀ (ks : List Node), tameCaptions s ks = true →
    CapsOk s (fun st => buildCaptions st ks) (captionToks ks)
  | [], _ => by
    intro st st' hc hp h
    simp only [buildCaptions] at h
    cases h
    simp only [captionToks]
    exact Post.refl hc hp
  | .text t :: rest, ht => by
    intro st st' hc hp h
    simp only [buildCaptions] at h
    simp only [captionToks]
    simp only [tameCaptions] at ht
    exact caps_post s rest ht st st' hc hp h
  | .other :: rest, ht => by
    intro st st' hc hp h
    simp only [buildCaptions] at h
    simp only [captionToks]
    simp only [tameCaptions] at ht
    exact caps_post s rest ht st st' hc hp h
  | .el e ks :: rest, ht => by
    intro st st' hc hp h
    simp only [buildCaptions] at h
    simp only [captionToks]
    simp only [tameCaptions, Bool.and_eq_true, Bool.or_eq_true, decide_eq_true_eq] at ht
    obtain ⟨st1, h1, h2⟩ := Option.bind_eq_some_iff.1 h
    by_cases hd : e.disp = .internal .caption
    · rw [if_pos hd] at h1 ⊢
      have htt : tame s .slot (.el e ks) = true := by
        rcases ht.1 with h3 | h3
        · exact absurd hd h3
        · exact h3
      have p1 := node_post s (.el e ks) .slot {} st st1 htt (by unfold CtxOk; simp) hc hp h1
      have e1 : nodeToks (decide (Place.slot = .flex)) ({} : Ctx).sty (.el e ks)
          = framed e.id (inside e (kidsToks false e.sty ks)) := by
        simp [nodeToks, hd]
      rw [e1] at p1
      exact p1.trans (caps_post s rest ht.2 st1 st' p1.content p1.place h2)
    · rw [if_neg hd] at h1 ⊢
      cases h1
      exact caps_post s rest ht.2 st st' hc hp h2

theorem rows_post (s : Bool) : ∀ (ks : List Node) (m : Mode) (sty : Sty) (w w' : Wrap), WrapOk w →
    tameRows s (rootB m) (rowB m) ks = true → tableKids m sty w ks = some w' →
    WrapPost s w w' (rowToks (rootB m) (rowB m) sty ks)
  | [], m, sty, w, w', hw, _, h => by
    simp only [tableKids] at h
    cases h
    simp only [rowToks]
    exact WrapPost.refl hw
  | .text t :: rest, m, sty, w, w', hw, ht, h => by
    simp only [tableKids] at h
    simp only [tameRows] at ht
    simp only [rowToks]
    have hcr : WrapOk (if m = .row then w else w.createRow).createCell ∧
        (if m = .row then w else w.createRow).createCell.toks = w.toks := by
      split
      · exact ⟨(createCell_spec hw).1, (createCell_spec hw).2.1⟩
      · have h1 := createRow_spec hw
        exact ⟨(createCell_spec h1.1).1, (createCell_spec h1.1).2.1.trans h1.2.1⟩
    generalize (if m = .row then w else w.createRow).createCell = w1 at h hcr
    cases hc : w1.cell with
    | none => rw [hc] at h; cases h
    | some c =>
      rw [hc] at h
      obtain ⟨c', h1, h2⟩ := Option.bind_eq_some_iff.1 h
      have hp := buildText_post (s := s) (p := .flow) (ctx_table sty (by simp)) (hcr.1.cell c hc) (flow_ok c) h1
      have hs := cell_step hcr.1 hc hp
      exact WrapPost.of_toks hcr.2 (hs.trans (rows_post s rest m sty _ w' hs.ok ht h2))
  | .other :: rest, m, sty, w, w', hw, ht, h => by
    simp only [tableKids] at h
    simp only [tameRows] at ht
    simp only [rowToks]
    exact rows_post s rest m sty w w' hw ht h
  | .el e ks :: rest, m, sty, w, w', hw, ht, h => by
    refine row_one (fun p cx st st' a b c d f => node_post s (.el e ks) p cx st st' a b c d f)
      (fun m' w' a b => rows_post s ks m' e.sty {} w' ⟨⟨rfl, rfl⟩, (by simp), by simp⟩ a b)
      (fun w1 w' a b => rows_post s rest m sty w1 w' a ?_ b) hw ht h
    simp only [tameRows, Bool.and_eq_true] at ht
    exact ht.2
end

/-- The box of the root element. -/
theorem root_rel {s : Bool} {e : Elem} {ks : List Node} {b : Box} (hk : e.kind = .plain)
    (ht : tameKids s .flow ks = true) (h : buildRoot e ks = some b) :
    Rel s (boxToks b) (framed e.id (inside e (kidsToks false e.sty ks))) := by
  unfold buildRoot at h
  obtain ⟨st, h1, h2⟩ := Option.map_eq_some_iff.1 h
  subst h2
  unfold blockFlow at h1
  obtain ⟨st0, h3, h4⟩ := Option.map_eq_some_iff.1 h1
  subst h4
  rw [hk] at h3
  have hp := buildChildren_post (s := s) (p := .flow) (t := fun b sty => kidsToks b sty ks) (kids_post s ks .flow ht)
    (by unfold CtxOk; simp) rfl (flow_ok _) h3
  refine close_rel _ _ hp.content ?_
  have hr := hp.rel
  rw [fresh_toks, List.nil_append] at hr
  simpa [inside, hk] using hr

end Verif.Build
