import Verif.Build.Lemmas
import Verif.Build.Shown
/-!
# Building boxes: the parts of tables, boxes of one kind
-/
namespace Verif.Build

theorem goodKids_append {u : Bool} (a b : List Box) : GoodKids u (a ++ b) ↔ GoodKids u a ∧ GoodKids u b := by
  induction a with
  | nil => simp [GoodKids]
  | cons x a ih => simp [GoodKids, ih, and_assoc]

theorem goodItems_append {u : Bool} (a b : List Item) : GoodItems u (a ++ b) ↔ GoodItems u a ∧ GoodItems u b := by
  induction a with
  | nil => simp [GoodItems]
  | cons x a ih => simp [GoodItems, ih, and_assoc]

theorem goodItems_ch {u : Bool} (s : List Char) : GoodItems u (s.map .ch) := by
  induction s with
  | nil => simp [GoodItems]
  | cons c s ih => simp [GoodItems, Item.Good, ih]

structure StGood (u : Bool) (st : St) : Prop where
  kids : GoodKids u st.kids
  content : st.content.Good u
  inl : ∀ is, st.inl = some is → GoodItems u is
  none : u = true → st.content = .none

theorem fresh_good (u : Bool) : StGood u {} :=
  ⟨by simp [GoodKids], by simp [Content.Good], by intro is e; cases e; simp [GoodItems], fun _ => rfl⟩

theorem slot_good (u : Bool) : StGood u { inl := none } :=
  ⟨by simp [GoodKids], by simp [Content.Good], (by intro is e; cases e), fun _ => rfl⟩

theorem add_good {u : Bool} {st : St} {b : Box} (h : StGood u st) (hb : b.Good u) : StGood u (st.add b) := by
  unfold St.add
  split
  · next items hc =>
    refine ⟨h.kids, ?_, h.inl, fun e => ?_⟩
    · have := h.content
      rw [hc] at this
      simp only [Content.Good] at this ⊢
      rw [goodItems_append]
      exact ⟨this, by simp [GoodItems, Item.Good, hb]⟩
    · have := h.none e
      rw [hc] at this; cases this
  · exact ⟨(goodKids_append _ _).2 ⟨h.kids, by simp [GoodKids, hb]⟩, h.content, h.inl, h.none⟩

theorem flush_good {u : Bool} {st : St} (h : StGood u st) : StGood u st.flush := by
  unfold St.flush
  split
  · next i is hi =>
    refine add_good ⟨h.kids, h.content, by intro is e; cases e; simp [GoodItems], h.none⟩ ?_
    simp only [Box.Good]
    exact ⟨by simp [anonBlock], fun _ => Or.inl trivial, by simp [GoodKids], h.inl _ hi⟩
  · exact h

theorem finalize_good {u : Bool} {st : St} (h : StGood u st) :
    GoodKids u st.finalize.kids ∧ st.finalize.content.Good u ∧
    (u = true → st.finalize.kids = [] ∨ st.finalize.content = .none) := by
  unfold St.finalize
  split
  · next i is hi =>
    split
    · have := flush_good h
      exact ⟨this.kids, this.content, fun e => Or.inr (this.none e)⟩
    · exact ⟨by simp [GoodKids], h.inl _ hi, fun _ => Or.inl rfl⟩
  · exact ⟨h.kids, h.content, fun e => Or.inr (h.none e)⟩

theorem close_good {u : Bool} {st : St} (h : StGood u st) (d : Disp) (o : Option Nat) :
    (Box.mk (.own d) o st.finalize.content st.finalize.kids).Good u := by
  have hf := finalize_good h
  simp only [Box.Good]
  exact ⟨by simp, hf.2.2, hf.1, hf.2.1⟩

theorem addInline_good {u : Bool} {st st' : St} {b : Box} (h : StGood u st) (hb : b.Good u)
    (e : st.addInline b = some st') : StGood u st' := by
  unfold St.addInline at e
  cases hi : st.inl with
  | none => rw [hi] at e; cases e
  | some items =>
    rw [hi] at e
    cases e
    refine ⟨h.kids, h.content, ?_, h.none⟩
    intro is e; cases e
    exact (goodItems_append _ _).2 ⟨h.inl _ hi, by simp [GoodItems, Item.Good, hb]⟩

theorem buildText_good {u : Bool} {cx : Ctx} {st st' : St} {t : List Char} {sty : Sty} (h : StGood u st)
    (e : buildText cx st t sty = some st') : StGood u st' := by
  unfold buildText at e
  cases hi : st.inl with
  | none => rw [hi] at e; cases e
  | some items =>
    rw [hi] at e
    simp only at e
    split at e
    · cases e; exact h
    · have h1 : StGood u { st with inl := some (items ++ (appendText sty (!items.isEmpty) t).map .ch) } := by
        refine ⟨h.kids, h.content, ?_, h.none⟩
        intro is e; cases e
        exact (goodItems_append _ _).2 ⟨h.inl _ hi, goodItems_ch _⟩
      split at e
      · cases e; exact flush_good h1
      · cases e; exact h1

theorem buildPseudo_good {u : Bool} {cx : Ctx} {st st' : St} {q : Pseudo} (h : StGood u st)
    (e : buildPseudo cx st q = some st') : StGood u st' := by
  have gen : ∀ (cx : Ctx) (st st' : St), StGood u st →
      (match q.text with | none => some st | some t => buildText cx st t q.sty) = some st' → StGood u st' := by
    intro cx st st' h e
    cases hq : q.text with
    | none => rw [hq] at e; cases e; exact h
    | some t => rw [hq] at e; exact buildText_good h e
  unfold buildPseudo at e
  simp only at e
  split at e
  · cases e; exact h
  · split at e
    · cases hi : st.inl with
      | none => rw [hi] at e; cases e
      | some items => rw [hi] at e; exact gen _ _ _ h e
    · obtain ⟨inner, h1, h2⟩ := Option.map_eq_some_iff.1 e
      subst h2
      exact add_good (flush_good h) (close_good (gen _ _ _ (fresh_good u) h1) _ _)

theorem buildPseudo?_good {u : Bool} {cx : Ctx} {st st' : St} {q : Option Pseudo} (h : StGood u st)
    (e : buildPseudo? cx st q = some st') : StGood u st' := by
  cases q with
  | none => cases e; exact h
  | some q => exact buildPseudo_good h e

def KidsGood (u : Bool) (p : Place) (f : Ctx → St → Option St) : Prop :=
  ∀ cx st st', CtxOk p cx → StGood u st → f cx st = some st' → StGood u st'

theorem buildChildren_good {u : Bool} {p : Place} {cx : Ctx} {st st' : St} {e : Elem} {rec : Rec}
    (hk : KidsGood u p rec.kids) (hx : CtxOk p cx) (h : StGood u st) (hb : buildChildren cx st e rec = some st') :
    StGood u st' := by
  unfold buildChildren at hb
  obtain ⟨st1, h1, hb⟩ := Option.bind_eq_some_iff.1 hb
  obtain ⟨st2, h2, hb⟩ := Option.bind_eq_some_iff.1 hb
  obtain ⟨st3, h3, h4⟩ := Option.bind_eq_some_iff.1 hb
  have g1 : StGood u st1 := by
    split at h1
    · exact buildPseudo?_good h h1
    · cases h1; exact h
  exact buildPseudo?_good (hk cx st2 st3 hx (buildPseudo?_good g1 h2) h3) h4

theorem boxFromElement_good {u : Bool} {e : Elem} {d : Disp} {rec : Rec} {b : Box}
    (hk : e.kind = .plain → KidsGood u (if d.isFlex then .flex else .flow) rec.kids)
    (h : boxFromElement e d rec = some b) : b.Good u ∧ b.disp = .own d := by
  unfold boxFromElement at h
  obtain ⟨st, h1, h2⟩ := Option.map_eq_some_iff.1 h
  subst h2
  refine ⟨?_, rfl⟩
  unfold blockFlow at h1
  obtain ⟨st0, h3, h4⟩ := Option.map_eq_some_iff.1 h1
  subst h4
  cases hkd : e.kind with
  | plain =>
    rw [hkd] at h3
    exact close_good (buildChildren_good (hk hkd) (by unfold CtxOk; cases d.isFlex <;> simp) (fresh_good u) h3) _ _
  | br => rw [hkd] at h3; cases h3; exact close_good (fresh_good u) _ _
  | svg =>
    rw [hkd] at h3; cases h3
    simp [St.finalize, Box.Good, GoodKids, Content.Good]
  | img =>
    rw [hkd] at h3; simp only [buildVoid, hkd] at h3; cases h3
    simp [St.finalize, Box.Good, GoodKids, Content.Good]
  | void => rw [hkd] at h3; simp only [buildVoid, hkd] at h3; cases h3; exact close_good (fresh_good u) _ _
  | input i =>
    rw [hkd] at h3; simp only [buildVoid, hkd] at h3
    cases i with
    | hidden => cases h3; exact close_good (fresh_good u) _ _
    | widget => cases h3; simp [St.finalize, Box.Good, GoodKids, Content.Good]
    | text v => cases h3; simp [St.finalize, Box.Good, GoodKids, Content.Good, goodItems_ch]

theorem pseudo_none {u : Bool} {cx : Ctx} {st st' : St} {q : Option Pseudo} (h : StGood u st) (hc : st.content = .none)
    (e : buildPseudo? cx st q = some st') : st'.content = .none := by
  cases q with
  | none => cases e; exact hc
  | some q =>
    have key : ∀ (p : Place), CtxOk p cx → PlaceOk p st → st'.content = .none := fun p hx hp =>
      (buildPseudo_post (s := false) hx hc hp e).content
    by_cases hf : cx.src = .flex
    · -- the text of a flex container: the content is not touched either way
      unfold buildPseudo? buildPseudo at e
      simp only at e
      split at e
      · cases e; exact hc
      · split at e
        · cases hi : st.inl with
          | none => rw [hi] at e; cases e
          | some items =>
            rw [hi] at e
            cases hq : q.text with
            | none => rw [hq] at e; cases e; exact hc
            | some t =>
              rw [hq] at e
              simp only [buildText, hi] at e
              split at e
              · cases e; exact hc
              · cases e
                refine (flush_spec ?_).1
                exact hc
        · obtain ⟨inner, h1, h2⟩ := Option.map_eq_some_iff.1 e
          subst h2
          rw [add_none (flush_spec hc).1]
          exact (flush_spec hc).1
    · cases hi : st.inl with
      | none => exact key .slot (by unfold CtxOk; simp [hf]) ⟨(fun e => by cases e), fun _ => hi⟩
      | some is => exact key .flow (by unfold CtxOk; simp [hf]) ⟨(fun e => by cases e), (fun e => by cases e)⟩

theorem tableFromElement_good {u : Bool} {e : Elem} {d : Disp} {rec : Rec} {b : Box}
    (hcap : ∀ st st', StGood u st → rec.captions st = some st' → StGood u st')
    (hcap' : ∀ st st', st.content = .none → rec.captions st = some st' → st'.content = .none)
    (hrow : ∀ ks, rec.rows e.sty = some ks → GoodKids u ks ∧ ∀ k ∈ ks, IsPart k)
    (h : tableFromElement e d rec = some b) : b.Good u ∧ b.disp = .own d := by
  unfold tableFromElement at h
  obtain ⟨st1, h1, h⟩ := Option.bind_eq_some_iff.1 h
  obtain ⟨st2, h2, h⟩ := Option.bind_eq_some_iff.1 h
  obtain ⟨ks, h3, h⟩ := Option.bind_eq_some_iff.1 h
  obtain ⟨st4, h4, h⟩ := Option.bind_eq_some_iff.1 h
  obtain ⟨st5, h5, h6⟩ := Option.map_eq_some_iff.1 h
  have g1 : StGood u st1 ∧ st1.content = .none := by
    split at h1
    · exact ⟨hcap _ _ (slot_good u) h1, hcap' _ _ rfl h1⟩
    · cases h1; exact ⟨slot_good u, rfl⟩
  have g2 := buildPseudo?_good g1.1 h2
  have c2 := pseudo_none g1.1 g1.2 h2
  have hr := hrow ks h3
  have g3 : StGood u (st2.add (.mk .tableBox (some e.id) .none ks)) := by
    refine add_good g2 ?_
    simp only [Box.Good]
    exact ⟨fun _ => ⟨trivial, hr.2⟩, fun _ => Or.inr trivial, hr.1, trivial⟩
  have c3 : (st2.add (.mk .tableBox (some e.id) .none ks)).content = .none := by
    rw [add_none c2]; exact c2
  have g4 : StGood u st4 ∧ st4.content = .none := by
    split at h4
    · cases h4; exact ⟨g3, c3⟩
    · exact ⟨hcap _ _ g3 h4, hcap' _ _ c3 h4⟩
  have g5 := buildPseudo?_good g4.1 h5
  have c5 := pseudo_none g4.1 g4.2 h5
  subst h6
  refine ⟨?_, rfl⟩
  simp only [Box.Good]
  exact ⟨by simp, fun _ => Or.inr c5, g5.kids, g5.content⟩

/-! ## The wrapper of a table -/

/-- What the children of a table, of a group and of a row are to be. -/
def PartOf : Mode → Box → Prop
  | .root => IsPart
  | .group => IsRow
  | .row => IsCell

structure WGood (u : Bool) (m : Mode) (w : Wrap) : Prop where
  out : StGood u w.out
  outc : w.out.content = .none
  parts : ∀ k ∈ w.out.kids, PartOf m k
  row : ∀ r, w.row = some r → m ≠ .row ∧ StGood u r ∧ r.content = .none ∧ ∀ k ∈ r.kids, IsCell k
  cell : ∀ c, w.cell = some c → StGood u c
  inrow : m ≠ .row → w.cell.isSome = true → w.row.isSome = true

theorem wgood_init (u : Bool) (m : Mode) : WGood u m {} :=
  ⟨slot_good u, rfl, by simp, by simp, by simp, by simp⟩

theorem finCell_good {u : Bool} {m : Mode} {w : Wrap} (h : WGood u m w) :
    WGood u m w.finCell ∧ w.finCell.cell = none := by
  unfold Wrap.finCell
  cases hc : w.cell with
  | none => exact ⟨h, hc⟩
  | some c =>
    simp only
    have hcg := h.cell c hc
    have hb := close_good hcg (.internal .cell) none
    split
    · cases hr : w.row with
      | some r =>
        obtain ⟨hm, hrg, hrc, hrk⟩ := h.row r hr
        refine ⟨⟨h.out, h.outc, h.parts, ?_, by simp, by simp⟩, rfl⟩
        intro r' e
        cases e
        refine ⟨hm, add_good hrg hb, ?_, ?_⟩
        · rw [add_none hrc]; exact hrc
        · rw [add_none hrc]
          intro k hk
          rcases List.mem_append.1 hk with hk | hk
          · exact hrk k hk
          · have : k = _ := List.mem_singleton.1 hk
            subst this; rfl
      | none =>
        have hm : m = .row := by
          cases m with
          | row => rfl
          | root => have := h.inrow (by simp) (by rw [hc]; rfl); rw [hr] at this; cases this
          | group => have := h.inrow (by simp) (by rw [hc]; rfl); rw [hr] at this; cases this
        refine ⟨⟨add_good h.out hb, ?_, ?_, by simp [hr], by simp, by simp⟩, rfl⟩
        · simp only [add_none h.outc]; exact h.outc
        · simp only [add_none h.outc]
          intro k hk
          rcases List.mem_append.1 hk with hk | hk
          · exact h.parts k hk
          · have : k = _ := List.mem_singleton.1 hk
            subst this hm; rfl
    · exact ⟨⟨h.out, h.outc, h.parts, h.row, by simp, by simp⟩, rfl⟩

theorem finRow_good {u : Bool} {m : Mode} {w : Wrap} (h : WGood u m w) (hc : w.cell = none) :
    WGood u m w.finRow ∧ w.finRow.cell = none ∧ w.finRow.row = none := by
  unfold Wrap.finRow
  cases hr : w.row with
  | none => exact ⟨h, hc, hr⟩
  | some r =>
    simp only
    obtain ⟨hm, hrg, hrc, hrk⟩ := h.row r hr
    have hrow : IsRow (.mk (.own (.internal .row)) none r.content r.kids) := ⟨rfl, hrc, hrk⟩
    split
    · refine ⟨⟨add_good h.out ?_, ?_, ?_, by simp, by simp [hc], by simp [hc]⟩, hc, rfl⟩
      · simp only [Box.Good]
        exact ⟨by simp, fun _ => Or.inr hrc, hrg.kids, hrg.content⟩
      · simp only [add_none h.outc]; exact h.outc
      · simp only [add_none h.outc]
        intro k hk
        rcases List.mem_append.1 hk with hk | hk
        · exact h.parts k hk
        · have : k = _ := List.mem_singleton.1 hk
          subst this
          cases m with
          | row => exact absurd rfl hm
          | root => exact Or.inl hrow
          | group => exact hrow
    · exact ⟨⟨h.out, h.outc, h.parts, by simp, by simp [hc], by simp [hc]⟩, hc, rfl⟩

theorem fin_good {u : Bool} {m : Mode} {w : Wrap} (h : WGood u m w) :
    WGood u m w.finCell.finRow ∧ w.finCell.finRow.cell = none ∧ w.finCell.finRow.row = none :=
  finRow_good (finCell_good h).1 (finCell_good h).2

theorem createRow_good {u : Bool} {m : Mode} {w : Wrap} (hm : m ≠ .row) (h : WGood u m w) :
    WGood u m w.createRow ∧ w.createRow.row.isSome = true ∧ w.createRow.cell = w.cell := by
  unfold Wrap.createRow
  cases hr : w.row with
  | some r => exact ⟨h, by simp [hr], rfl⟩
  | none =>
    refine ⟨⟨h.out, h.outc, h.parts, ?_, h.cell, by simp⟩, rfl, rfl⟩
    intro r e
    cases e
    exact ⟨hm, slot_good u, rfl, by simp⟩

theorem createCell_good {u : Bool} {m : Mode} {w : Wrap} (h : WGood u m w) (hr : m ≠ .row → w.row.isSome = true) :
    WGood u m w.createCell := by
  unfold Wrap.createCell
  cases hc : w.cell with
  | some r => exact h
  | none =>
    refine ⟨h.out, h.outc, h.parts, h.row, ?_, fun hm _ => hr hm⟩
    intro c e
    cases e
    exact fresh_good u

/-- Row and cell are there for a child that belongs into a cell. -/
theorem create_good {u : Bool} {m : Mode} {w : Wrap} (h : WGood u m w) :
    WGood u m (if m = .row then w else w.createRow).createCell := by
  split
  · next hm => exact createCell_good h (fun h => absurd hm h)
  · next hm => exact createCell_good (createRow_good hm h).1 (fun _ => (createRow_good hm h).2.1)

theorem columns_good (u : Bool) : ∀ ks : List Node, GoodKids u (columns ks) ∧
    ∀ c ∈ columns ks, c.disp = .own (.internal .column)
  | [] => by simp [columns, GoodKids]
  | .el e ks :: rest => by
    have h1 := columns_good u ks
    have h2 := columns_good u rest
    simp only [columns]
    split
    · next hd =>
      refine ⟨?_, ?_⟩
      · simp only [GoodKids, Box.Good]
        exact ⟨⟨by simp, fun _ => Or.inr trivial, h1.1, trivial⟩, h2.1⟩
      · intro c hc
        rcases List.mem_cons.1 hc with hc | hc
        · subst hc; rw [hd]; rfl
        · exact h2.2 c hc
    · exact h2
  | .text _ :: rest => by simp only [columns]; exact columns_good u rest
  | .other :: rest => by simp only [columns]; exact columns_good u rest

theorem elem_good {u : Bool} {p : Place} {cx : Ctx} {st st' : St} {e : Elem} {ks : List Node} {rec : Rec}
    (ht : u = true → tame false p (.el e ks) = true)
    (hx : CtxOk p cx) (hg : StGood u st)
    (hk : ∀ p, (u = true → tameKids false p ks = true) → KidsGood u p rec.kids)
    (hcap : (u = true → tameCaptions false ks = true) →
      ∀ st st', StGood u st → rec.captions st = some st' → StGood u st')
    (hcap' : ∀ st st', st.content = .none → rec.captions st = some st' → st'.content = .none)
    (hrow : (u = true → tameRows false true false ks = true) →
      ∀ ks, rec.rows e.sty = some ks → GoodKids u ks ∧ ∀ k ∈ ks, IsPart k)
    (h : buildElem cx st e rec = some st') : StGood u st' := by
  unfold buildElem at h
  simp only [tame] at ht
  cases hd : e.disp with
  | none => rw [hd] at h; cases h; exact hg
  | contents =>
    rw [hd] at h ht
    exact buildChildren_good (hk p ht) hx hg h
  | internal i =>
    rw [hd] at h ht
    obtain ⟨b, h1, h2⟩ := Option.map_eq_some_iff.1 h
    subst h2
    rw [levelBox_not_table (by intro o i; simp)] at h1
    refine add_good hg (boxFromElement_good (fun hkd => hk _ (fun hu => ?_)) h1).1
    have := ht hu
    simp only [Bool.not_false, Bool.true_or, Bool.true_and, hkd, ne_eq, not_true_eq_false, decide_false,
      Bool.false_or] at this
    simpa [Disp.isFlex] using this
  | dflt ins out item =>
    rw [hd] at h ht
    simp only at h ht
    unfold defaultDisplay at h
    rw [hd] at h
    have hbox : ∀ d b, (d = .dflt ins out item ∨ d = blockify (.dflt ins out item)) →
        (cx.src = .flex ∨ out = .block ∨ (alwaysInlineBlock e || decide (ins ≠ .flow)) = true) →
        levelBox e d rec = some b → b.Good u := by
      intro d b hdd hbx hb
      by_cases h1 : ins = .table
      · have hd2 : ∃ o, d = .dflt .table o item := by
          rcases hdd with hdd | hdd
          · exact ⟨out, by rw [hdd, h1]⟩
          · exact ⟨.block, by rw [hdd, h1, blockify_table']⟩
        obtain ⟨o, hd2⟩ := hd2
        rw [hd2] at hb
        simp only [levelBox] at hb
        refine (tableFromElement_good (hcap fun hu => ?_) hcap' (hrow fun hu => ?_) hb).1
        · have := ht hu
          rw [if_pos h1] at this
          simp only [Bool.and_eq_true] at this
          exact this.1.2
        · have := ht hu
          rw [if_pos h1] at this
          simp only [Bool.and_eq_true] at this
          exact this.2
      · have hfl : d.isFlex = decide (ins = .flex) := by
          rcases hdd with hdd | hdd
          · rw [hdd, isFlex_dflt]
          · rw [hdd, blockify_isFlex]
        rw [levelBox_not_table (by
          rcases hdd with hdd | hdd
          · rw [hdd]; intro o i e; cases e; exact h1 rfl
          · rw [hdd]; exact blockify_table h1)] at hb
        refine (boxFromElement_good (fun hkd => hk _ (fun hu => ?_)) hb).1
        have := ht hu
        rw [if_neg h1] at this
        have hbx2 : boxed (decide (p = .flex)) e ins out = true := by
          unfold boxed
          rcases hbx with hbx | hbx | hbx
          · simp [hx.1 hbx]
          · simp [hbx]
          · unfold alwaysInlineBlock at hbx
            simp only [Bool.or_eq_true, decide_eq_true_eq] at hbx ⊢
            rcases hbx with (hbx | hbx) | hbx
            · exact Or.inl (Or.inr hbx)
            · exact Or.inr hbx
            · exact Or.inl (Or.inl (Or.inr hbx))
        rw [if_pos hbx2] at this
        simp only [hkd, ne_eq, not_true_eq_false, decide_false, Bool.false_or] at this
        rw [hfl]
        by_cases hif : ins = .flex
        · simpa [hif] using this
        · simpa [hif] using this
    by_cases hf : cx.src = .flex
    · rw [if_pos hf] at h
      obtain ⟨b, h1, h2⟩ := Option.map_eq_some_iff.1 h
      subst h2
      exact add_good hg (hbox _ _ (Or.inr rfl) (Or.inl hf) h1)
    · rw [if_neg hf] at h
      by_cases ho : out = .block
      · rw [if_pos ho] at h
        obtain ⟨b, h1, h2⟩ := Option.map_eq_some_iff.1 h
        subst h2
        exact add_good (flush_good hg) (hbox _ _ (Or.inl rfl) (Or.inr (Or.inl ho)) h1)
      · rw [if_neg ho] at h
        by_cases ha : (alwaysInlineBlock e || decide (ins ≠ .flow)) = true
        · rw [if_pos ha] at h
          obtain ⟨b, h1, h2⟩ := Option.bind_eq_some_iff.1 h
          exact addInline_good hg (hbox _ _ (Or.inl rfl) (Or.inr (Or.inr ha)) h1) h2
        · rw [if_neg ha] at h
          have hnb : ins = .flow ∧ e.kind ≠ .img ∧ e.kind ≠ .svg := by
            unfold alwaysInlineBlock at ha
            simp only [Bool.or_eq_true, decide_eq_true_eq, not_or, Decidable.not_not] at ha
            exact ⟨ha.2, ha.1⟩
          have hb2 : boxed (decide (p = .flex)) e ins out = false := by
            have : p ≠ .flex := fun e => hf (hx.2 e)
            unfold boxed; simp [this, ho, hnb]
          have htt : u = true → ((e.kind = .plain ∧ tameKids false .flow ks = true) ∨ e.kind = .br ∨ e.kind = .void ∨
              e.kind = .input .hidden) := by
            intro hu
            have := ht hu
            rw [if_neg (by rw [hnb.1]; simp), if_neg (by rw [hb2]; simp)] at this
            simp only [Bool.or_eq_true, Bool.and_eq_true, decide_eq_true_eq] at this
            rcases this with ((h3 | h3) | h3) | h3
            · exact Or.inl h3
            · exact Or.inr (Or.inl h3)
            · exact Or.inr (Or.inr (Or.inl h3))
            · exact Or.inr (Or.inr (Or.inr h3))
          unfold inlineFlow at h
          have span : (match st.inl with
              | none => none
              | some _ => buildChildren { src := .inline, sty := e.sty } st e rec) = some st' → e.kind = .plain →
              StGood u st' := by
            intro h hkd
            cases hi : st.inl with
            | none => rw [hi] at h; cases h
            | some items =>
              rw [hi] at h
              refine buildChildren_good (p := .flow) (hk .flow fun hu => ?_) (by unfold CtxOk; simp) hg h
              rcases htt hu with h3 | h3 | h3 | h3
              · exact h3.2
              · rw [hkd] at h3; cases h3
              · rw [hkd] at h3; cases h3
              · rw [hkd] at h3; cases h3
          cases hkd : e.kind with
          | br => rw [hkd] at h; cases h; exact flush_good hg
          | plain => rw [hkd] at h; exact span h hkd
          | svg => exact absurd hkd hnb.2.2
          | img => exact absurd hkd hnb.2.1
          | void => rw [hkd] at h; simp only [buildVoid, hkd] at h; cases h; exact hg
          | input i =>
            rw [hkd] at h
            simp only [buildVoid, hkd] at h
            cases i with
            | hidden => cases h; exact hg
            | widget =>
              cases h
              refine ⟨hg.kids, trivial, hg.inl, fun hu => ?_⟩
              rcases htt hu with h3 | h3 | h3 | h3
              · rw [hkd] at h3; cases h3.1
              · rw [hkd] at h3; cases h3
              · rw [hkd] at h3; cases h3
              · rw [hkd] at h3; cases h3
            | text v =>
              cases h
              refine ⟨hg.kids, goodItems_ch v, hg.inl, fun hu => ?_⟩
              rcases htt hu with h3 | h3 | h3 | h3
              · rw [hkd] at h3; cases h3.1
              · rw [hkd] at h3; cases h3
              · rw [hkd] at h3; cases h3
              · rw [hkd] at h3; cases h3

/-- A part of a table adds its one box. -/
theorem internal_add {cx : Ctx} {st st' : St} {e : Elem} {ks : List Node} {i : Internal} (hd : e.disp = .internal i)
    (h : buildNode cx st (.el e ks) = some st') : ∃ b : Box, b.disp = .own (.internal i) ∧ st' = st.add b := by
  simp only [buildNode, buildElem, hd] at h
  obtain ⟨b, h1, h2⟩ := Option.map_eq_some_iff.1 h
  refine ⟨b, ?_, h2.symm⟩
  rw [levelBox_not_table (by intro o i; simp)] at h1
  unfold boxFromElement at h1
  obtain ⟨st, _, h3⟩ := Option.map_eq_some_iff.1 h1
  subst h3
  rfl

end Verif.Build
