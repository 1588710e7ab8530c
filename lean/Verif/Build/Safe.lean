import Verif.Build.Spec
/-!
# Building boxes: when it does not stop
-/
namespace Verif.Build

/-- A step ends, and a context with a root inline box keeps one. -/
def Ends (st : St) (r : Option St) : Prop := ∃ st', r = some st' ∧ st'.inl.isSome = st.inl.isSome

theorem Ends.bind {a : St} {r : Option St} {f : St → Option St} (h : Ends a r)
    (h' : ∀ b, b.inl.isSome = a.inl.isSome → Ends b (f b)) : Ends a (r.bind f) := by
  obtain ⟨b, rfl, hb⟩ := h
  obtain ⟨c, hc, hc'⟩ := h' b hb
  exact ⟨c, hc, hc'.trans hb⟩

theorem add_inl (st : St) (b : Box) : (st.add b).inl = st.inl := by
  unfold St.add
  split <;> rfl

theorem flush_inl (st : St) : st.flush.inl.isSome = st.inl.isSome := by
  unfold St.flush
  split
  · next h => rw [add_inl, h]; rfl
  · rfl

theorem text_ends {cx : Ctx} {st : St} {t : List Char} {sty : Sty} (h : st.inl.isSome = true) :
    Ends st (buildText cx st t sty) := by
  unfold buildText
  cases hi : st.inl with
  | none => rw [hi] at h; cases h
  | some items =>
    simp only
    split
    · exact ⟨_, rfl, rfl⟩
    · refine ⟨_, rfl, ?_⟩
      split
      · rw [flush_inl, hi]; rfl
      · rw [hi]; rfl

theorem box_pseudo {st : St} {p : Pseudo} (cx : Ctx) : 
    Ends st ((match p.text with
      | none => some ({} : St)
      | some t => buildText cx {} t p.sty).map fun (inner : St) =>
        st.flush.add (.mk (.own p.disp) (some p.id) inner.finalize.content inner.finalize.kids)) := by
  cases ht : p.text with
  | none => exact ⟨_, rfl, by rw [add_inl, flush_inl]⟩
  | some t =>
    obtain ⟨s1, h1, _⟩ := text_ends (cx := cx) (st := {}) (t := t) (sty := p.sty) rfl
    simp only [h1]
    exact ⟨_, rfl, by rw [add_inl, flush_inl]⟩

theorem pseudo_ends {cx : Ctx} {st : St} {q : Option Pseudo} (h : st.inl.isSome = true ∨ calm q = true) :
    Ends st (buildPseudo? cx st q) := by
  cases q with
  | none => exact ⟨_, rfl, rfl⟩
  | some p =>
    unfold buildPseudo? buildPseudo
    dsimp only
    by_cases hn : p.disp = .none
    · rw [if_pos hn]; exact ⟨_, rfl, rfl⟩
    · rw [if_neg hn]
      by_cases hf : p.disp.flowsInline = true
      · rw [if_pos hf]
        have hi : st.inl.isSome = true := by
          rcases h with h | h
          · exact h
          · unfold calm at h
            unfold Disp.flowsInline at hf
            split at hf <;> simp_all
        cases hs : st.inl with
        | none => rw [hs] at hi; cases hi
        | some items =>
          simp only
          cases p.text with
          | none => exact ⟨_, rfl, rfl⟩
          | some t => exact text_ends hi
      · rw [if_neg hf]
        exact box_pseudo _

/-- The children of an element are built without a stop. -/
def RecEnds (e : Elem) (rec : Rec) : Prop :=
  (∀ cx st, st.inl.isSome = true → Ends st (rec.kids cx st)) ∧ (∀ st, Ends st (rec.captions st)) ∧
    (∀ sty, ∃ b, rec.rows sty = some b) ∧ (isTable e.disp = true → calm e.before = true ∧ calm e.after = true)

theorem children_ends {cx : Ctx} {st : St} {e : Elem} {rec : Rec}
    (hk : ∀ cx st, st.inl.isSome = true → Ends st (rec.kids cx st)) (h : st.inl.isSome = true) :
    Ends st (buildChildren cx st e rec) := by
  unfold buildChildren
  refine Ends.bind ?_ fun a ha => Ends.bind (pseudo_ends (Or.inl (ha.trans h))) fun b hb =>
    Ends.bind (hk _ _ (hb.trans (ha.trans h))) fun c hc => pseudo_ends (Or.inl (hc.trans (hb.trans (ha.trans h))))
  split
  · exact pseudo_ends (Or.inl h)
  · exact ⟨_, rfl, rfl⟩

theorem blockFlow_ends {cx : Ctx} {e : Elem} {rec : Rec}
    (hk : ∀ cx st, st.inl.isSome = true → Ends st (rec.kids cx st)) : ∃ st, blockFlow cx {} e rec = some st := by
  unfold blockFlow
  split
  · exact ⟨_, rfl⟩
  · exact ⟨_, rfl⟩
  · obtain ⟨s, hs, _⟩ := children_ends (cx := cx) (st := {}) (e := e) hk rfl
    exact ⟨_, by rw [hs]; rfl⟩
  · exact ⟨_, rfl⟩

theorem levelBox_ends {e : Elem} {d : Disp} {rec : Rec} (h : RecEnds e rec) (hd : isTable d = true → isTable e.disp = true) :
    ∃ b, levelBox e d rec = some b := by
  obtain ⟨hk, hc, hr, hp⟩ := h
  have nt : ∃ b, boxFromElement e d rec = some b := by
    unfold boxFromElement
    obtain ⟨s, hs⟩ := blockFlow_ends (cx := { src := if d.isFlex then .flex else .block, sty := e.sty }) (e := e) hk
    exact ⟨_, by rw [hs]; rfl⟩
  unfold levelBox
  split
  · obtain ⟨hb, ha⟩ := hp (hd rfl)
    unfold tableFromElement
    dsimp only
    have h1 : Ends { inl := none } (if e.captionTop then rec.captions { inl := none } else some { inl := none }) := by
      split
      · exact hc _
      · exact ⟨_, rfl, rfl⟩
    obtain ⟨s1, e1, _⟩ := h1
    rw [e1]
    obtain ⟨s2, e2, _⟩ := pseudo_ends (cx := {}) (st := s1) (Or.inr hb)
    obtain ⟨rows, e3⟩ := hr e.sty
    simp only [Option.bind_some, e2, e3]
    generalize s2.add _ = s3
    have h4 : ∃ s4, (if e.captionTop then some s3 else rec.captions s3) = some s4 := by
      split
      · exact ⟨_, rfl⟩
      · obtain ⟨s, hs, _⟩ := hc s3
        exact ⟨s, hs⟩
    obtain ⟨s4, e4⟩ := h4
    rw [e4]
    obtain ⟨s5, e5, _⟩ := pseudo_ends (cx := {}) (st := s4) (Or.inr ha)
    simp only [Option.bind_some, e5]
    exact ⟨_, rfl⟩
  · exact nt

theorem blockify_isTable (d : Disp) : isTable (blockify d) = true → isTable d = true := by
  cases d with
  | dflt ins out item => cases ins <;> cases out <;> simp [blockify, isTable]
  | _ => exact id

theorem elem_ends {cx : Ctx} {st : St} {e : Elem} {rec : Rec} (h : RecEnds e rec)
    (hs : st.inl.isSome = true ∨ ∃ i, e.disp = .internal i) : Ends st (buildElem cx st e rec) := by
  unfold buildElem
  split
  · exact ⟨_, rfl, rfl⟩
  · next hd =>
    refine children_ends h.1 ?_
    rcases hs with hs | ⟨i, hi⟩
    · exact hs
    · rw [hd] at hi; cases hi
  · obtain ⟨b, hb⟩ := levelBox_ends (d := e.disp) h id
    rw [hb]
    exact ⟨_, rfl, by rw [add_inl]⟩
  · next ins out _ hd =>
    have hi : st.inl.isSome = true := by
      rcases hs with hs | ⟨i, hi⟩
      · exact hs
      · rw [hd] at hi; cases hi
    obtain ⟨b, hb⟩ := levelBox_ends (d := e.disp) h id
    obtain ⟨b', hb'⟩ := levelBox_ends (d := blockify e.disp) h (blockify_isTable _)
    unfold defaultDisplay
    split
    · rw [hb']; exact ⟨_, rfl, by rw [add_inl]⟩
    · split
      · rw [hb]; exact ⟨_, rfl, by rw [add_inl, flush_inl]⟩
      · split
        · rw [hb]
          simp only [Option.bind_some]
          unfold St.addInline
          cases hs : st.inl with
          | none => rw [hs] at hi; cases hi
          | some items => exact ⟨_, rfl, by rw [hs]; rfl⟩
        · unfold inlineFlow
          cases hs : st.inl with
          | none => rw [hs] at hi; cases hi
          | some items =>
            simp only
            split
            · exact ⟨_, rfl, flush_inl st⟩
            · exact children_ends h.1 hi
            · exact children_ends h.1 hi
            · refine ⟨_, rfl, ?_⟩
              unfold buildVoid
              split <;> rfl

/-! ## Tables -/

def CellLive (w : Wrap) : Prop := ∀ c, w.cell = some c → c.inl.isSome = true

theorem createCell_live {w : Wrap} (h : CellLive w) : ∃ c, w.createCell.cell = some c ∧ c.inl.isSome = true := by
  unfold Wrap.createCell
  split
  · next c hc => exact ⟨c, hc, h c hc⟩
  · exact ⟨_, rfl, rfl⟩

theorem createRow_live {w : Wrap} (h : CellLive w) : CellLive w.createRow := by
  unfold Wrap.createRow
  split <;> exact h

theorem createRow_some (w : Wrap) : ∃ r, w.createRow.row = some r := by
  unfold Wrap.createRow
  split
  · next r hr => exact ⟨r, hr⟩
  · exact ⟨_, rfl⟩

theorem finCell_none (w : Wrap) : w.finCell.cell = none := by
  unfold Wrap.finCell
  split
  · assumption
  · dsimp only
    split
    · split <;> rfl
    · rfl

theorem finRow_cell (w : Wrap) : w.finRow.cell = w.cell := by
  unfold Wrap.finRow
  split
  · rfl
  · split <;> rfl

theorem createRow_cell (w : Wrap) : w.createRow.cell = w.cell := by
  unfold Wrap.createRow
  split <;> rfl

theorem live_of_none {w : Wrap} (h : w.cell = none) : CellLive w := by
  intro c hc; rw [h] at hc; cases hc

theorem row_one_ends {m : Mode} {sty : Sty} {w : Wrap} {e : Elem} {ks rest : List Node}
    (node : ∀ cx st, (st.inl.isSome = true ∨ ∃ i, e.disp = .internal i) → Ends st (buildNode cx st (.el e ks)))
    (inner : ∀ m', ∃ w', tableKids m' e.sty {} ks = some w')
    (next : ∀ w1, CellLive w1 → ∃ w', tableKids m sty w1 rest = some w')
    (hw : CellLive w) : ∃ w', tableKids m sty w (.el e ks :: rest) = some w' := by
  have incell : ∀ w1 : Wrap, (∃ c, w1.cell = some c ∧ c.inl.isSome = true) →
      ∃ w', (match w1.cell with
        | none => none
        | some c => (buildNode { src := .table, sty := sty } c (.el e ks)).bind fun c =>
            tableKids m sty { w1 with cell := some c } rest) = some w' := by
    intro w1 ⟨c, hc, hl⟩
    rw [hc]
    obtain ⟨c', h1, h2⟩ := node { src := .table, sty := sty } c (Or.inl hl)
    simp only [h1, Option.bind_some]
    exact next _ (fun x hx => by cases hx; exact h2.trans hl)
  simp only [tableKids]
  split
  · exact next _ hw
  · split
    · next hacc =>
      have hd : ∃ i, e.disp = .internal i := by
        unfold acceptsDisp at hacc
        split at hacc
        · next i hi => exact ⟨i, hi⟩
        · cases hacc
      obtain ⟨c', h1, h2⟩ := node { src := .table, sty := sty } w.finCell.finRow.out (Or.inr hd)
      simp only [h1, Option.bind_some]
      refine next _ (live_of_none ?_)
      exact (finRow_cell _).trans (finCell_none _)
    · next i _ _ =>
      have hn : CellLive w.finCell.finRow := live_of_none ((finRow_cell _).trans (finCell_none _))
      have : ∃ b, tableInternal i (fun m' => (tableKids m' e.sty {} ks).map fun w => w.finCell.finRow.out.kids)
          (columns ks) = some b := by
        unfold tableInternal
        obtain ⟨w1, hw1⟩ := inner .group
        obtain ⟨w2, hw2⟩ := inner .row
        simp only [hw1, hw2]
        split <;> exact ⟨_, rfl⟩
      obtain ⟨b, hb⟩ := this
      simp only [hb, Option.bind_some]
      split
      · exact next _ hn
      · exact next _ hn
    · split
      · exact incell _ (createCell_live hw)
      · split
        · next hd =>
          obtain ⟨r, hr⟩ := createRow_some w.finCell
          simp only [hr]
          obtain ⟨c', h1, h2⟩ := node { src := .table, sty := sty } r (Or.inr ⟨_, hd⟩)
          simp only [h1, Option.bind_some]
          exact next _ (live_of_none ((createRow_cell _).trans (finCell_none _)))
        · exact incell _ (createCell_live (createRow_live hw))

mutual
theorem node_ends : ∀ (n : Node) (cx : Ctx) (st : St), calmTables n = true →
    (st.inl.isSome = true ∨ ∃ e ks i, n = .el e ks ∧ e.disp = .internal i) → Ends st (buildNode cx st n)
  | .text t, cx, st, _, h => by
    simp only [buildNode]
    refine text_ends ?_
    rcases h with h | ⟨_, _, _, h, _⟩
    · exact h
    · cases h
  | .other, cx, st, _, h => by simp only [buildNode]; exact ⟨_, rfl, rfl⟩
  | .el e ks, cx, st, hc, h => by
    simp only [calmTables, Bool.and_eq_true, Bool.or_eq_true, Bool.not_eq_true'] at hc
    simp only [buildNode]
    refine elem_ends ⟨?_, ?_, ?_, ?_⟩ ?_
    · exact fun cx st hs => kids_ends ks cx st hc.2 hs
    · exact fun st => caps_ends ks st hc.2
    · intro sty
      obtain ⟨w, hw⟩ := rows_ends ks .root sty {} hc.2 (live_of_none rfl)
      exact ⟨_, by simp only [hw]; rfl⟩
    · intro ht
      rcases hc.1 with h1 | h1
      · rw [ht] at h1; cases h1
      · exact h1
    · rcases h with h | ⟨e', ks', i, h, hi⟩
      · exact Or.inl h
      · cases h; exact Or.inr ⟨i, hi⟩

theorem kids_ends : ∀ (ks : List Node) (cx : Ctx) (st : St), calmKids ks = true → st.inl.isSome = true →
    Ends st (buildKids cx st ks)
  | [], cx, st, _, h => by simp only [buildKids]; exact ⟨_, rfl, rfl⟩
  | n :: rest, cx, st, hc, h => by
    simp only [calmKids, Bool.and_eq_true] at hc
    simp only [buildKids]
    exact Ends.bind (node_ends n cx st hc.1 (Or.inl h)) fun b hb => kids_ends rest cx b hc.2 (hb.trans h)

theorem caps_ends : ∀ (ks : List Node) (st : St), calmKids ks = true → Ends st (buildCaptions st ks)
  | [], st, _ => by simp only [buildCaptions]; exact ⟨_, rfl, rfl⟩
  | .text t :: rest, st, hc => by
    simp only [calmKids, Bool.and_eq_true] at hc
    simp only [buildCaptions]
    exact caps_ends rest st hc.2
  | .other :: rest, st, hc => by
    simp only [calmKids, Bool.and_eq_true] at hc
    simp only [buildCaptions]
    exact caps_ends rest st hc.2
  | .el e ks :: rest, st, hc => by
    simp only [calmKids, Bool.and_eq_true] at hc
    simp only [buildCaptions]
    refine Ends.bind ?_ fun b hb => caps_ends rest b hc.2
    split
    · next hd => exact node_ends (.el e ks) {} st hc.1 (Or.inr ⟨e, ks, _, rfl, hd⟩)
    · exact ⟨_, rfl, rfl⟩

theorem rows_ends : ∀ (ks : List Node) (m : Mode) (sty : Sty) (w : Wrap), calmKids ks = true → CellLive w →
    ∃ w', tableKids m sty w ks = some w'
  | [], m, sty, w, _, _ => by simp only [tableKids]; exact ⟨_, rfl⟩
  | .text t :: rest, m, sty, w, hc, hw => by
    simp only [calmKids, Bool.and_eq_true] at hc
    simp only [tableKids]
    have : ∃ c, (if m = .row then w else w.createRow).createCell.cell = some c ∧ c.inl.isSome = true := by
      split
      · exact createCell_live hw
      · exact createCell_live (createRow_live hw)
    obtain ⟨c, h1, h2⟩ := this
    obtain ⟨c', h3, h4⟩ := text_ends (cx := { src := .table, sty := sty }) (t := t) (sty := sty) h2
    simp only [h1, h3, Option.bind_some]
    exact rows_ends rest m sty _ hc.2 (fun x hx => by cases hx; exact h4.trans h2)
  | .other :: rest, m, sty, w, hc, hw => by
    simp only [calmKids, Bool.and_eq_true] at hc
    simp only [tableKids]
    exact rows_ends rest m sty w hc.2 hw
  | .el e ks :: rest, m, sty, w, hc, hw => by
    simp only [calmKids, Bool.and_eq_true] at hc
    have hc1 := hc.1
    simp only [calmTables, Bool.and_eq_true] at hc1
    refine row_one_ends (fun cx st h => node_ends (.el e ks) cx st hc.1 ?_)
      (fun m' => rows_ends ks m' e.sty {} hc1.2 (live_of_none rfl)) (fun w1 h1 => rows_ends rest m sty w1 hc.2 h1) hw
    rcases h with h | ⟨i, hi⟩
    · exact Or.inl h
    · exact Or.inr ⟨e, ks, i, rfl, hi⟩
end

theorem root_ends {e : Elem} {ks : List Node} (h : calmKids ks = true) : ∃ b, buildRoot e ks = some b := by
  unfold buildRoot
  obtain ⟨st, hst⟩ := blockFlow_ends (cx := { src := .block, sty := e.sty }) (e := e) (rec := {
    kids := fun cx st => buildKids cx st ks
    captions := fun _ => none
    rows := fun _ => none }) (fun cx st hs => kids_ends ks cx st h hs)
  rw [hst]
  exact ⟨_, rfl⟩

end Verif.Build
