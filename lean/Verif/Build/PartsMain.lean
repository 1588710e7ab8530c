import Verif.Build.Parts
import Verif.Build.Main
/-!
# Building boxes: the induction for the parts of tables
-/
namespace Verif.Build

theorem caps_none : ∀ (ks : List Node) (st st' : St), st.content = .none → buildCaptions st ks = some st' →
    st'.content = .none
  | [], st, st', hc, h => by simp only [buildCaptions] at h; cases h; exact hc
  | .text _ :: rest, st, st', hc, h => by simp only [buildCaptions] at h; exact caps_none rest st st' hc h
  | .other :: rest, st, st', hc, h => by simp only [buildCaptions] at h; exact caps_none rest st st' hc h
  | .el e ks :: rest, st, st', hc, h => by
    simp only [buildCaptions] at h
    obtain ⟨st1, h1, h2⟩ := Option.bind_eq_some_iff.1 h
    refine caps_none rest st1 st' ?_ h2
    split at h1
    · next hd =>
      obtain ⟨b, _, hb⟩ := internal_add hd h1
      subst hb
      rw [add_none hc]; exact hc
    · cases h1; exact hc

theorem row_one_good {u : Bool} {m : Mode} {sty : Sty} {w w' : Wrap} {e : Elem} {ks rest : List Node}
    (node : ∀ p cx st st', (u = true → tame false p (.el e ks) = true) → CtxOk p cx → StGood u st →
      buildNode cx st (.el e ks) = some st' → StGood u st')
    (inner : ∀ m' w', (u = true → tameRows false (rootB m') (rowB m') ks = true) →
      tableKids m' e.sty {} ks = some w' → WGood u m' w')
    (next : ∀ w1 w', WGood u m w1 → tableKids m sty w1 rest = some w' → WGood u m w')
    (hw : WGood u m w) (ht : u = true → tameRows false (rootB m) (rowB m) (.el e ks :: rest) = true)
    (h : tableKids m sty w (.el e ks :: rest) = some w') : WGood u m w' := by
  have hf := fin_good hw
  have part : ∀ (kids : List Box), GoodKids u kids → PartOf m (.mk (.own e.disp) (some e.id) .none kids) →
      tableKids m sty { w.finCell.finRow with
        out := w.finCell.finRow.out.add (.mk (.own e.disp) (some e.id) .none kids) } rest = some w' →
      WGood u m w' := by
    intro kids hk hp hn
    refine next _ _ ?_ hn
    refine ⟨add_good hf.1.out ?_, ?_, ?_, hf.1.row, hf.1.cell, hf.1.inrow⟩
    · simp only [Box.Good]
      exact ⟨by simp, fun _ => Or.inr trivial, hk, trivial⟩
    · simp only [add_none hf.1.outc]; exact hf.1.outc
    · simp only [add_none hf.1.outc]
      intro k hk
      rcases List.mem_append.1 hk with hk | hk
      · exact hf.1.parts k hk
      · have : k = _ := List.mem_singleton.1 hk
        subst this; exact hp
  have group : ∀ (m' : Mode), (u = true → tameRows false (rootB m') (rowB m') ks = true) →
      (∀ kids : List Box, (∀ k ∈ kids, PartOf m' k) → PartOf m (.mk (.own e.disp) (some e.id) .none kids)) →
      ((Option.map (some ∘ fun w : Wrap => w.finCell.finRow.out.kids) (tableKids m' e.sty {} ks)).bind fun b =>
        match b with
        | some kids => tableKids m sty { w.finCell.finRow with
            out := w.finCell.finRow.out.add (.mk (.own e.disp) (some e.id) .none kids) } rest
        | none => tableKids m sty w.finCell.finRow rest) = some w' → WGood u m w' := by
    intro m' htm hpp hn
    obtain ⟨b, hb, hn⟩ := Option.bind_eq_some_iff.1 hn
    obtain ⟨w2, hb1, hb2⟩ := Option.map_eq_some_iff.1 hb
    subst hb2
    have hg := fin_good (inner m' w2 htm hb1)
    exact part _ hg.1.out.kids (hpp _ hg.1.parts) hn
  have incell : ∀ (w1 : Wrap), WGood u m w1 → (u = true → tame false .flow (.el e ks) = true) →
      (match w1.cell with
        | none => none
        | some c => (buildNode { src := .table, sty := sty } c (.el e ks)).bind fun c =>
            tableKids m sty { w1 with cell := some c } rest) = some w' → WGood u m w' := by
    intro w1 hw1 htm hn
    cases hcell : w1.cell with
    | none => rw [hcell] at hn; cases hn
    | some c =>
      rw [hcell] at hn
      obtain ⟨c', h1, h2⟩ := Option.bind_eq_some_iff.1 hn
      have hp := node .flow _ _ _ htm (ctx_table sty (by simp)) (hw1.cell c hcell) h1
      refine next _ _ ?_ h2
      exact ⟨hw1.out, hw1.outc, hw1.parts, hw1.row, (fun x e => by cases e; exact hp),
        fun hm _ => hw1.inrow hm (by rw [hcell]; rfl)⟩
  have inrow : m ≠ .row → e.disp = .internal .cell → (u = true → tame false .slot (.el e ks) = true) →
      (match w.finCell.createRow.row with
        | none => none
        | some r => (buildNode { src := .table, sty := sty } r (.el e ks)).bind fun r =>
            tableKids m sty { w.finCell.createRow with row := some r } rest) = some w' → WGood u m w' := by
    intro hm hd htm hn
    have h1 := finCell_good hw
    have h2 := createRow_good hm h1.1
    cases hr : w.finCell.createRow.row with
    | none => rw [hr] at hn; cases hn
    | some r =>
      rw [hr] at hn
      obtain ⟨r', h3, h4⟩ := Option.bind_eq_some_iff.1 hn
      obtain ⟨_, hrg, hrc, hrk⟩ := h2.1.row r hr
      have hp := node .slot _ _ _ htm (ctx_table sty (by simp)) hrg h3
      refine next _ _ ?_ h4
      refine ⟨h2.1.out, h2.1.outc, h2.1.parts, ?_, h2.1.cell, fun _ _ => rfl⟩
      intro x hx
      cases hx
      obtain ⟨b, hb, hb2⟩ := internal_add hd h3
      subst hb2
      refine ⟨hm, hp, ?_, ?_⟩
      · rw [add_none hrc]; exact hrc
      · rw [add_none hrc]
        intro k hk
        rcases List.mem_append.1 hk with hk | hk
        · exact hrk k hk
        · have : k = _ := List.mem_singleton.1 hk
          subst this; exact hb
  have accell : m = .row → e.disp = .internal .cell → (u = true → tame false .slot (.el e ks) = true) →
      ((buildNode { src := .table, sty := sty } w.finCell.finRow.out (.el e ks)).bind fun st =>
          tableKids m sty { w.finCell.finRow with out := st } rest) = some w' → WGood u m w' := by
    intro hm hd htm hn
    obtain ⟨r', h3, h4⟩ := Option.bind_eq_some_iff.1 hn
    have hp := node .slot _ _ _ htm (ctx_table sty (by simp)) hf.1.out h3
    obtain ⟨b, hb, hb2⟩ := internal_add hd h3
    subst hb2
    refine next _ _ ?_ h4
    refine ⟨hp, ?_, ?_, hf.1.row, hf.1.cell, hf.1.inrow⟩
    · simp only [add_none hf.1.outc]; exact hf.1.outc
    · simp only [add_none hf.1.outc]
      intro k hk
      rcases List.mem_append.1 hk with hk | hk
      · exact hf.1.parts k hk
      · have : k = _ := List.mem_singleton.1 hk
        subst this hm; exact hb
  have hcr := create_good hw
  have hcr' : m = .row → WGood u m w.createCell := fun hm => by rw [if_pos hm] at hcr; exact hcr
  have hcr'' : m ≠ .row → WGood u m w.createRow.createCell := fun hm => by rw [if_neg hm] at hcr; exact hcr
  have other : (∀ i, e.disp ≠ .internal i) → WGood u m w' := by
    intro hni
    have hacc : acceptsDisp m e.disp = none := by
      unfold acceptsDisp
      split
      · next i hh => exact absurd hh (hni i)
      · rfl
    simp only [tableKids, hni, and_false, if_false, hacc] at h
    simp only [tameRows, hni, false_and, if_false, or_self, Bool.and_eq_true] at ht
    split at h
    · next hm => exact incell _ (hcr' hm) (fun hu => (ht hu).1) h
    · next hm => exact incell _ (hcr'' hm) (fun hu => (ht hu).1) h
  cases hd : e.disp with
  | none => exact other (by rw [hd]; simp)
  | contents => exact other (by rw [hd]; simp)
  | dflt a b c => exact other (by rw [hd]; simp)
  | internal i =>
    clear other hcr
    simp only [tableKids] at h
    simp only [tameRows, Bool.and_eq_true] at ht
    rw [hd] at h ht part group inrow accell
    cases m <;> cases i <;>
      simp [rootB, rowB, acceptsDisp, accepts, tableInternal] at h ht <;>
      first
        | exact next _ _ hw h
        | exact incell _ (hcr' rfl) (fun hu => (ht hu).1) h
        | exact incell _ (hcr'' (by simp)) (fun hu => (ht hu).1) h
        | exact inrow (by simp) rfl (fun hu => (ht hu).1) h
        | exact accell rfl rfl (fun hu => (ht hu).1) h
        | exact group .group (fun hu => (ht hu).1)
            (fun kids hk => Or.inr (Or.inl ⟨Or.inl rfl, rfl, hk⟩)) h
        | exact group .group (fun hu => (ht hu).1)
            (fun kids hk => Or.inr (Or.inl ⟨Or.inr (Or.inl rfl), rfl, hk⟩)) h
        | exact group .group (fun hu => (ht hu).1)
            (fun kids hk => Or.inr (Or.inl ⟨Or.inr (Or.inr rfl), rfl, hk⟩)) h
        | exact group .row (fun hu => (ht hu).1) (fun kids hk => Or.inl ⟨rfl, rfl, hk⟩) h
        | exact group .row (fun hu => (ht hu).1) (fun kids hk => ⟨rfl, rfl, hk⟩) h
        | exact part _ (columns_good u ks).1 (Or.inr (Or.inr ⟨Or.inr rfl, rfl, (columns_good u ks).2⟩)) h
        | exact part [] trivial (Or.inr (Or.inr ⟨Or.inl rfl, rfl, by simp [Box.kids]⟩)) h

mutual
theorem node_good (u : Bool) : ∀ (n : Node) (p : Place) (cx : Ctx) (st st' : St), (u = true → tame false p n = true) →
    CtxOk p cx → StGood u st → buildNode cx st n = some st' → StGood u st'
  | .text t, p, cx, st, st', _, hx, hg, h => by
    simp only [buildNode] at h
    exact buildText_good hg h
  | .other, p, cx, st, st', _, hx, hg, h => by
    simp only [buildNode] at h
    cases h
    exact hg
  | .el e ks, p, cx, st, st', ht, hx, hg, h => by
    simp only [buildNode] at h
    refine elem_good ht hx hg (fun p hp => kids_good u ks p hp) (fun hp => caps_good u ks hp) (caps_none ks) ?_ h
    intro htr b hb
    obtain ⟨w1, h2, h3⟩ := Option.map_eq_some_iff.1 hb
    subst h3
    have hg := fin_good (rows_good u ks .root e.sty {} w1 (wgood_init u .root) htr h2)
    exact ⟨hg.1.out.kids, hg.1.parts⟩

theorem kids_good (u : Bool) : ∀ (ks : List Node) (p : Place), (u = true → tameKids false p ks = true) →
    KidsGood u p (fun cx st => buildKids cx st ks)
  | [], p, _ => by
    intro cx st st' hx hg h
    simp only [buildKids] at h
    cases h
    exact hg
  | n :: rest, p, ht => by
    intro cx st st' hx hg h
    simp only [buildKids] at h
    simp only [tameKids, Bool.and_eq_true] at ht
    obtain ⟨st1, h1, h2⟩ := Option.bind_eq_some_iff.1 h
    have p1 := node_good u n p cx st st1 (fun hu => (ht hu).1) hx hg h1
    exact kids_good u rest p (fun hu => (ht hu).2) cx st1 st' hx p1 h2

theorem caps_good (u : Bool) : ∀ (ks : List Node), (u = true → tameCaptions false ks = true) →
    ∀ st st', StGood u st → buildCaptions st ks = some st' → StGood u st'
  | [], _, st, st', hg, h => by
    simp only [buildCaptions] at h
    cases h
    exact hg
  | .text t :: rest, ht, st, st', hg, h => by
    simp only [buildCaptions] at h
    simp only [tameCaptions] at ht
    exact caps_good u rest ht st st' hg h
  | .other :: rest, ht, st, st', hg, h => by
    simp only [buildCaptions] at h
    simp only [tameCaptions] at ht
    exact caps_good u rest ht st st' hg h
  | .el e ks :: rest, ht, st, st', hg, h => by
    simp only [buildCaptions] at h
    simp only [tameCaptions, Bool.and_eq_true, Bool.or_eq_true, decide_eq_true_eq] at ht
    obtain ⟨st1, h1, h2⟩ := Option.bind_eq_some_iff.1 h
    refine caps_good u rest (fun hu => (ht hu).2) st1 st' ?_ h2
    split at h1
    · next hd =>
      refine node_good u (.el e ks) .slot {} st st1 (fun hu => ?_) (by unfold CtxOk; simp) hg h1
      rcases (ht hu).1 with h3 | h3
      · exact absurd hd h3
      · exact h3
    · cases h1; exact hg

theorem rows_good (u : Bool) : ∀ (ks : List Node) (m : Mode) (sty : Sty) (w w' : Wrap), WGood u m w →
    (u = true → tameRows false (rootB m) (rowB m) ks = true) → tableKids m sty w ks = some w' → WGood u m w'
  | [], m, sty, w, w', hw, _, h => by
    simp only [tableKids] at h
    cases h
    exact hw
  | .text t :: rest, m, sty, w, w', hw, ht, h => by
    simp only [tableKids] at h
    simp only [tameRows] at ht
    have hcr := create_good hw
    generalize (if m = .row then w else w.createRow).createCell = w1 at h hcr
    cases hc : w1.cell with
    | none => rw [hc] at h; cases h
    | some c =>
      rw [hc] at h
      obtain ⟨c', h1, h2⟩ := Option.bind_eq_some_iff.1 h
      have hp := buildText_good (hcr.cell c hc) h1
      refine rows_good u rest m sty _ w' ?_ ht h2
      exact ⟨hcr.out, hcr.outc, hcr.parts, hcr.row, (fun x e => by cases e; exact hp),
        fun hm _ => hcr.inrow hm (by rw [hc]; rfl)⟩
  | .other :: rest, m, sty, w, w', hw, ht, h => by
    simp only [tableKids] at h
    simp only [tameRows] at ht
    exact rows_good u rest m sty w w' hw ht h
  | .el e ks :: rest, m, sty, w, w', hw, ht, h => by
    refine row_one_good (fun p cx st st' a b c d => node_good u (.el e ks) p cx st st' a b c d)
      (fun m' w' a b => rows_good u ks m' e.sty {} w' (wgood_init u m') a b)
      (fun w1 w' a b => rows_good u rest m sty w1 w' a (fun hu => ?_) b) hw ht h
    have := ht hu
    simp only [tameRows, Bool.and_eq_true] at this
    exact this.2
end

theorem root_good {u : Bool} {e : Elem} {ks : List Node} {b : Box} 
    (ht : u = true → tameKids false .flow ks = true) (h : buildRoot e ks = some b) : b.Good u := by
  unfold buildRoot at h
  have : boxFromElement { e with disp := .dflt .flow .block e.disp.item } (.dflt .flow .block e.disp.item) {
      kids := fun cx st => buildKids cx st ks
      captions := fun _ => none
      rows := fun _ => none } = some (.mk (.own (.dflt .flow .block e.disp.item)) (some e.id) b.content b.kids) := by
    unfold boxFromElement
    obtain ⟨st, h1, h2⟩ := Option.map_eq_some_iff.1 h
    subst h2
    have e1 : blockFlow { src := .block, sty := e.sty } {} { e with disp := .dflt .flow .block e.disp.item } {
        kids := fun cx st => buildKids cx st ks
        captions := fun _ => none
        rows := fun _ => none } = some st := h1
    simp only [Disp.isFlex]
    show Option.map _ (blockFlow { src := .block, sty := e.sty } {} { e with disp := .dflt .flow .block e.disp.item } _)
      = _
    rw [e1]
    rfl
  have hg := (boxFromElement_good (u := u) (fun _ => by
    simp only [Disp.isFlex]
    exact kids_good u ks .flow ht) this).1
  obtain ⟨st, h1, h2⟩ := Option.map_eq_some_iff.1 h
  subst h2
  simp only [Box.Good, Box.content, Box.kids] at hg ⊢
  exact ⟨by simp, hg.2⟩

end Verif.Build
