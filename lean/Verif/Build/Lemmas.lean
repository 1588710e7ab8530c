import Verif.Build.Spec
import Verif.Build.TextLemmas
/-!
# Building boxes: lemmas on what is shown
-/
namespace Verif.Build

/-- The same marks, in the same order if `strict`. -/
def Rel (strict : Bool) (a b : List Tok) : Prop :=
  a.Perm b ∧ (strict = true → a = b)

theorem Rel.refl (s : Bool) (a : List Tok) : Rel s a a := ⟨List.Perm.refl a, fun _ => rfl⟩

theorem Rel.of_eq {s : Bool} {a b : List Tok} (h : a = b) : Rel s a b := h ▸ Rel.refl s a

theorem Rel.trans {s : Bool} {a b c : List Tok} (h : Rel s a b) (h' : Rel s b c) : Rel s a c :=
  ⟨h.1.trans h'.1, fun e => (h.2 e).trans (h'.2 e)⟩

theorem Rel.append {s : Bool} {a b c d : List Tok} (h : Rel s a b) (h' : Rel s c d) : Rel s (a ++ c) (b ++ d) :=
  ⟨h.1.append h'.1, fun e => by rw [h.2 e, h'.2 e]⟩

theorem Rel.cons {s : Bool} {a b : List Tok} (x : Tok) (h : Rel s a b) : Rel s (x :: a) (x :: b) :=
  ⟨h.1.cons x, fun e => by rw [h.2 e]⟩

theorem Rel.framed {s : Bool} {a b : List Tok} (i : Nat) (h : Rel s a b) : Rel s (framed i a) (framed i b) :=
  (h.append (Rel.refl s [.cl i])).cons _

/-! ## Reading -/

theorem boxesToks_append (a b : List Box) : boxesToks (a ++ b) = boxesToks a ++ boxesToks b := by
  induction a with
  | nil => simp [boxesToks]
  | cons x a ih => simp [boxesToks, ih]

theorem itemsToks_append (a b : List Item) : itemsToks (a ++ b) = itemsToks a ++ itemsToks b := by
  induction a with
  | nil => simp [itemsToks]
  | cons x a ih => simp [itemsToks, ih]

theorem itemsToks_ch (s : List Char) : itemsToks (s.map .ch) = (solid s).map .ch := by
  induction s with
  | nil => rfl
  | cons c s ih =>
    simp only [List.map_cons, itemsToks, itemToks, ih, solid]
    by_cases h : White c <;> simp [h]

def inlToks : Option (List Item) → List Tok
  | some is => itemsToks is
  | none => []

/-- What is in a state. -/
def St.toks (st : St) : List Tok := boxesToks st.kids ++ contentToks st.content ++ inlToks st.inl

theorem boxToks_mk (d : BDisp) (i : Nat) (c : Content) (ks : List Box) :
    boxToks (.mk d (some i) c ks) = framed i (boxesToks ks ++ contentToks c) := by
  simp [boxToks, opens, closes, framed]

theorem boxToks_anon (d : BDisp) (c : Content) (ks : List Box) :
    boxToks (.mk d none c ks) = boxesToks ks ++ contentToks c := by
  simp [boxToks, opens, closes]

/-! ## Steps on a state -/

theorem add_none {st : St} (h : st.content = .none) (b : Box) :
    st.add b = { st with kids := st.kids ++ [b] } := by
  unfold St.add; rw [h]

theorem add_toks (s : Bool) {st : St} (h : st.content = .none) (b : Box)
    (hi : s = true → inlToks st.inl = []) : Rel s (st.add b).toks (st.toks ++ boxToks b) := by
  rw [add_none h]
  simp only [St.toks, boxesToks_append, h, contentToks, boxesToks, List.append_nil]
  refine ⟨?_, fun e => ?_⟩
  · rw [List.append_assoc, List.append_assoc]
    exact List.Perm.append_left _ List.perm_append_comm
  · rw [hi e]; simp

theorem flush_spec {st : St} (h : st.content = .none) :
    st.flush.content = .none ∧ st.flush.toks = st.toks ∧ inlToks st.flush.inl = [] ∧
    (∀ is, st.inl = some is → st.flush.inl = some []) ∧ (st.inl = none → st.flush.inl = none) := by
  unfold St.flush
  split
  · next i is hi =>
    rw [add_none (by exact h)]
    refine ⟨h, ?_, rfl, fun _ _ => rfl, fun hn => by rw [hi] at hn; cases hn⟩
    simp [St.toks, boxesToks_append, boxesToks, boxToks_anon, h, contentToks, inlToks, hi, itemsToks]
  · next hne =>
    cases hi : st.inl with
    | none => exact ⟨h, rfl, rfl, (fun _ e => by cases e), fun _ => rfl⟩
    | some is =>
      cases is with
      | cons i is => exact absurd hi (hne i is)
      | nil => exact ⟨h, rfl, rfl, fun _ _ => rfl, (fun e => by cases e)⟩

theorem flush_some {st : St} (h : st.content = .none) (hi : st.inl.isSome = true) : st.flush.inl = some [] := by
  cases e : st.inl with
  | none => rw [e] at hi; cases hi
  | some is => exact (flush_spec h).2.2.2.1 is e

theorem finalize_spec {st : St} (h : st.content = .none) :
    boxesToks st.finalize.kids ++ contentToks st.finalize.content = st.toks := by
  unfold St.finalize
  split
  · next i is hi =>
    split
    · have hf := flush_spec h
      have h2 := hf.2.1
      unfold St.toks at h2
      rw [hf.2.2.1, List.append_nil] at h2
      exact h2
    · next hk =>
      have : st.kids = [] := by
        unfold St.hasKids at hk
        cases hs : st.kids with
        | nil => rfl
        | cons a b => rw [hs] at hk; simp at hk
      simp [St.toks, this, boxesToks, h, contentToks, inlToks, hi]
  · next hne =>
    have : inlToks st.inl = [] := by
      cases hi : st.inl with
      | none => rfl
      | some is =>
        cases is with
        | cons i is => exact absurd hi (hne i is)
        | nil => rfl
    simp [St.toks, this]

/-- What is required of the state at a place. -/
def PlaceOk (p : Place) (st : St) : Prop :=
  (p = .flex → st.inl = some []) ∧ (p = .slot → st.inl = none)

/-- A step from `st` to `st'` that adds the marks `t`. -/
structure Post (s : Bool) (p : Place) (st st' : St) (t : List Tok) : Prop where
  content : st'.content = .none
  place : PlaceOk p st'
  rel : Rel s st'.toks (st.toks ++ t)

theorem Post.refl {s : Bool} {p : Place} {st : St} (hc : st.content = .none) (hp : PlaceOk p st) : Post s p st st [] :=
  ⟨hc, hp, Rel.of_eq (by simp)⟩

theorem Post.trans {s : Bool} {p : Place} {a b c : St} {t u : List Tok} (h : Post s p a b t) (h' : Post s p b c u) :
    Post s p a c (t ++ u) :=
  ⟨h'.content, h'.place, (h'.rel.trans (h.rel.append (Rel.refl s u))).trans (Rel.of_eq (List.append_assoc ..))⟩

theorem Post.mono {s : Bool} {p : Place} {a b : St} {t u : List Tok} (h : Post s p a b t) (h' : Rel s t u) :
    Post s p a b u :=
  ⟨h.content, h.place, h.rel.trans ((Rel.refl s _).append h')⟩

/-- The context and the place agree. -/
def CtxOk (p : Place) (cx : Ctx) : Prop := cx.src = .flex ↔ p = .flex

theorem buildText_post {s : Bool} {p : Place} {cx : Ctx} {st st' : St} {sty : Sty} {t : List Char}
    (hx : CtxOk p cx) (hc : st.content = .none) (hp : PlaceOk p st) (h : buildText cx st t sty = some st') :
    Post s p st st' (textToks sty t) := by
  unfold buildText at h
  cases hi : st.inl with
  | none => rw [hi] at h; cases h
  | some items =>
    rw [hi] at h
    simp only at h
    split at h
    · next hb =>
      cases h
      simp only [Bool.and_eq_true] at hb
      have : textToks sty t = [] := by unfold textToks; rw [blank_solid hb.2]; rfl
      rw [this]; exact Post.refl hc hp
    · next hb =>
      have e : itemsToks (items ++ (appendText sty (!items.isEmpty) t).map .ch) = itemsToks items ++ textToks sty t := by
        rw [itemsToks_append, itemsToks_ch, appendText_solid, transform_eq_cased]; rfl
      generalize hg : ({ st with inl := some (items ++ (appendText sty (!items.isEmpty) t).map .ch) } : St) = st1 at h
      have hc1 : st1.content = .none := by rw [← hg]; exact hc
      have ht : st1.toks = st.toks ++ textToks sty t := by
        rw [← hg]; simp only [St.toks, hi, inlToks, e]; simp
      have hs1 : st1.inl.isSome = true := by rw [← hg]; rfl
      have hslot : p ≠ .slot := fun hs => by rw [hp.2 hs] at hi; cases hi
      split at h
      · next hf =>
        cases h
        exact ⟨(flush_spec hc1).1, ⟨fun _ => flush_some hc1 hs1, fun hs => absurd hs hslot⟩,
          Rel.of_eq ((flush_spec hc1).2.1.trans ht)⟩
      · next hf =>
        cases h
        exact ⟨hc1, ⟨fun hpf => absurd (hx.2 hpf) hf, fun hs => absurd hs hslot⟩, Rel.of_eq ht⟩

theorem flush_post {s : Bool} {p : Place} {st : St} (hc : st.content = .none) (hp : PlaceOk p st) :
    Post s p st st.flush [] := by
  have h := flush_spec hc
  exact ⟨h.1, ⟨fun e => h.2.2.2.1 _ (hp.1 e), fun e => h.2.2.2.2 (hp.2 e)⟩, Rel.of_eq (by rw [h.2.1]; simp)⟩

theorem add_post {s : Bool} {p : Place} {st : St} {b : Box} {t : List Tok} (hc : st.content = .none) (hp : PlaceOk p st)
    (hi : s = true → inlToks st.inl = []) (hb : Rel s (boxToks b) t) : Post s p st (st.add b) t := by
  refine ⟨?_, ?_, (add_toks s hc b hi).trans ((Rel.refl s _).append hb)⟩
  · rw [add_none hc]; exact hc
  · rw [add_none hc]; exact hp

theorem place_inl {s : Bool} {p : Place} {st : St} (hp : PlaceOk p st) (h : s = true → p ≠ .flow) :
    s = true → inlToks st.inl = [] := by
  intro e
  cases p with
  | flow => exact absurd rfl (h e)
  | flex => rw [hp.1 rfl]; rfl
  | slot => rw [hp.2 rfl]; rfl

theorem addInline_post {s : Bool} {p : Place} {st st' : St} {b : Box} {t : List Tok} (hc : st.content = .none)
    (hp : PlaceOk p st) (hf : p ≠ .flex) (hb : Rel s (boxToks b) t) (h : st.addInline b = some st') : Post s p st st' t := by
  unfold St.addInline at h
  cases hi : st.inl with
  | none => rw [hi] at h; cases h
  | some items =>
    rw [hi] at h
    cases h
    refine ⟨hc, ⟨fun e => absurd e hf, fun e => by rw [hp.2 e] at hi; cases hi⟩, ?_⟩
    refine Rel.trans (Rel.of_eq ?_) ((Rel.refl s st.toks).append hb)
    simp [St.toks, hi, inlToks, itemsToks_append, itemsToks, itemToks]

/-- The marks of a box closed from a state. -/
theorem close_rel {s : Bool} {st : St} {t : List Tok} (d : BDisp) (i : Nat) (hc : st.content = .none)
    (h : Rel s st.toks t) : Rel s (boxToks (.mk d (some i) st.finalize.content st.finalize.kids)) (framed i t) := by
  rw [boxToks_mk, finalize_spec hc]
  exact h.framed i

theorem fresh_toks : ({} : St).toks = [] := rfl

theorem buildPseudo_post {s : Bool} {p : Place} {cx : Ctx} {st st' : St} {q : Pseudo}
    (hx : CtxOk p cx) (hc : st.content = .none) (hp : PlaceOk p st) (h : buildPseudo cx st q = some st') :
    Post s p st st' (pseudoToks (some q)) := by
  have gen : ∀ (p : Place) (cx : Ctx) (st st' : St), CtxOk p cx → st.content = .none → PlaceOk p st →
      (match q.text with | none => some st | some t => buildText cx st t q.sty) = some st' →
      Post s p st st' (match q.text with | some s => textToks q.sty s | none => []) := by
    intro p cx st st' hx hc hp h
    cases hq : q.text with
    | none => rw [hq] at h; cases h; exact Post.refl hc hp
    | some t => rw [hq] at h; exact buildText_post hx hc hp h
  have blockCase : (((match q.text with
        | none => some ({} : St)
        | some t => buildText { src := if q.disp.isFlex then .flex else .block, sty := q.sty } {} t q.sty).map fun (inner : St) =>
      st.flush.add (.mk (.own q.disp) (some q.id) inner.finalize.content inner.finalize.kids)) = some st') →
      Post s p st st' (.op q.id :: ((match q.text with | some s => textToks q.sty s | none => []) ++ [.cl q.id])) := by
    intro h
    obtain ⟨inner, h1, h2⟩ := Option.map_eq_some_iff.1 h
    subst h2
    have hin := gen (if q.disp.isFlex then .flex else .flow) _ _ _
      (by unfold CtxOk; cases q.disp.isFlex <;> simp) rfl
      (by constructor
          · intro _; rfl
          · cases q.disp.isFlex <;> simp) h1
    refine ((flush_post hc hp).trans (add_post (flush_spec hc).1 (flush_post (s := s) hc hp).place
      (fun _ => (flush_spec hc).2.2.1) (close_rel (t := _) _ _ hin.content ?_)))
    have := hin.rel
    rw [fresh_toks, List.nil_append] at this
    exact this
  unfold buildPseudo at h
  simp only [pseudoToks]
  cases hd : q.disp with
  | none =>
    rw [hd] at h; simp only at h; cases h; exact Post.refl hc hp
  | contents =>
    rw [hd] at h
    cases hi : st.inl with
    | none => simp [hi, Disp.flowsInline] at h
    | some items =>
      simp only [hi, reduceCtorEq, if_false, Disp.flowsInline, if_true] at h
      exact gen p cx st st' hx hc hp h
  | internal i =>
    simp only [hd] at h
    rw [if_neg (by simp), if_neg (by simp [Disp.flowsInline])] at h
    rw [hd] at blockCase
    exact blockCase h
  | dflt ins out item =>
    cases out with
    | inline =>
      rw [hd] at h
      cases hi : st.inl with
      | none => simp [hi, Disp.flowsInline] at h
      | some items =>
        simp only [hi, reduceCtorEq, if_false, Disp.flowsInline, if_true] at h
        exact gen p cx st st' hx hc hp h
    | block =>
      simp only [hd] at h
      rw [if_neg (by simp), if_neg (by simp [Disp.flowsInline])] at h
      rw [hd] at blockCase
      exact blockCase h
    | runIn =>
      simp only [hd] at h
      rw [if_neg (by simp), if_neg (by simp [Disp.flowsInline])] at h
      rw [hd] at blockCase
      exact blockCase h

theorem buildPseudo?_post {s : Bool} {p : Place} {cx : Ctx} {st st' : St} {q : Option Pseudo}
    (hx : CtxOk p cx) (hc : st.content = .none) (hp : PlaceOk p st) (h : buildPseudo? cx st q = some st') :
    Post s p st st' (pseudoToks q) := by
  cases q with
  | none => cases h; exact Post.refl hc hp
  | some q => exact buildPseudo_post hx hc hp h

/-! ## Elements, given what their children do -/

/-- The children add the marks that they should at place `p`. -/
def KidsOk (s : Bool) (p : Place) (f : Ctx → St → Option St) (t : Bool → Sty → List Tok) : Prop :=
  ∀ cx st st', CtxOk p cx → st.content = .none → PlaceOk p st → f cx st = some st' →
    Post s p st st' (t (decide (p = .flex)) cx.sty)

theorem buildChildren_post {s : Bool} {p : Place} {cx : Ctx} {st st' : St} {e : Elem} {rec : Rec}
    {t : Bool → Sty → List Tok} (hk : KidsOk s p rec.kids t)
    (hx : CtxOk p cx) (hc : st.content = .none) (hp : PlaceOk p st) (h : buildChildren cx st e rec = some st') :
    Post s p st st' (markerToks e ++ pseudoToks e.before ++ t (decide (p = .flex)) cx.sty ++ pseudoToks e.after) := by
  unfold buildChildren at h
  obtain ⟨st1, h1, h⟩ := Option.bind_eq_some_iff.1 h
  obtain ⟨st2, h2, h⟩ := Option.bind_eq_some_iff.1 h
  obtain ⟨st3, h3, h4⟩ := Option.bind_eq_some_iff.1 h
  have p1 : Post s p st st1 (markerToks e) := by
    unfold markerToks
    cases hd : e.disp with
    | dflt ins out item =>
      cases item with
      | true => simp only [hd, Disp.item, if_true] at h1; exact buildPseudo?_post hx hc hp h1
      | false => simp [hd, Disp.item] at h1; subst h1; exact Post.refl hc hp
    | none => simp [hd, Disp.item] at h1; subst h1; exact Post.refl hc hp
    | contents => simp [hd, Disp.item] at h1; subst h1; exact Post.refl hc hp
    | internal i => simp [hd, Disp.item] at h1; subst h1; exact Post.refl hc hp
  have p2 := buildPseudo?_post (s := s) hx p1.content p1.place h2
  have p3 := hk cx st2 st3 hx p2.content p2.place h3
  have p4 := buildPseudo?_post (s := s) hx p3.content p3.place h4
  exact ((p1.trans p2).trans p3).trans p4

/-- The box of an element that is not a table. -/
theorem boxFromElement_rel {s : Bool} {e : Elem} {d : Disp} {rec : Rec} {b : Box} {t : Bool → Sty → List Tok}
    (hk : e.kind = .plain → KidsOk s (if d.isFlex then .flex else .flow) rec.kids t)
    (h : boxFromElement e d rec = some b) : Rel s (boxToks b) (framed e.id (inside e (t d.isFlex e.sty))) := by
  unfold boxFromElement at h
  obtain ⟨st, h1, h2⟩ := Option.map_eq_some_iff.1 h
  subst h2
  unfold blockFlow at h1
  obtain ⟨st0, h3, h4⟩ := Option.map_eq_some_iff.1 h1
  subst h4
  unfold inside
  cases hkd : e.kind with
  | plain =>
    rw [hkd] at h3
    have := buildChildren_post (hk hkd) (by unfold CtxOk; cases d.isFlex <;> simp) rfl
      (by constructor
          · intro _; rfl
          · cases d.isFlex <;> simp) h3
    refine close_rel _ _ this.content ?_
    have hr := this.rel
    rw [fresh_toks, List.nil_append] at hr
    cases hd : d.isFlex <;> simpa [hd] using hr
  | br => rw [hkd] at h3; cases h3; exact Rel.of_eq rfl
  | svg => rw [hkd] at h3; cases h3; exact Rel.of_eq (by simp [St.finalize, boxToks_mk, boxesToks, contentToks])
  | img =>
    rw [hkd] at h3; simp only [buildVoid, hkd] at h3; cases h3
    exact Rel.of_eq (by simp [St.finalize, boxToks_mk, boxesToks, contentToks])
  | void => rw [hkd] at h3; simp only [buildVoid, hkd] at h3; cases h3; exact Rel.of_eq rfl
  | input i =>
    rw [hkd] at h3; simp only [buildVoid, hkd] at h3
    cases i with
    | hidden => cases h3; exact Rel.of_eq rfl
    | widget => cases h3; exact Rel.of_eq (by simp [St.finalize, boxToks_mk, boxesToks, contentToks])
    | text v =>
      cases h3
      exact Rel.of_eq (by simp [St.finalize, boxToks_mk, boxesToks, contentToks, itemsToks_ch])

/-- The captions add the marks that they should. -/
def CapsOk (s : Bool) (f : St → Option St) (t : List Tok) : Prop :=
  ∀ st st', st.content = .none → PlaceOk .slot st → f st = some st' → Post s .slot st st' t

theorem tableFromElement_rel {s : Bool} {e : Elem} {d : Disp} {rec : Rec} {b : Box} {caps rows : List Tok}
    (hcap : CapsOk s rec.captions caps)
    (hrow : ∀ ks, rec.rows e.sty = some ks → Rel s (boxesToks ks) rows)
    (h : tableFromElement e d rec = some b) : Rel s (boxToks b) (tableToks e caps rows) := by
  unfold tableFromElement at h
  obtain ⟨st1, h1, h⟩ := Option.bind_eq_some_iff.1 h
  obtain ⟨st2, h2, h⟩ := Option.bind_eq_some_iff.1 h
  obtain ⟨ks, h3, h⟩ := Option.bind_eq_some_iff.1 h
  obtain ⟨st4, h4, h⟩ := Option.bind_eq_some_iff.1 h
  obtain ⟨st5, h5, h6⟩ := Option.map_eq_some_iff.1 h
  have hx : CtxOk .slot ({} : Ctx) := by unfold CtxOk; simp
  have hp0 : PlaceOk .slot ({ inl := none } : St) := ⟨(fun e => by cases e), fun _ => rfl⟩
  have p1 : Post s .slot { inl := none } st1 (if e.captionTop then caps else []) := by
    cases ht : e.captionTop with
    | true => simp only [ht, if_true] at h1 ⊢; exact hcap _ _ rfl hp0 h1
    | false => simp [ht] at h1; subst h1; exact Post.refl rfl hp0
  have p2 := buildPseudo?_post (s := s) hx p1.content p1.place h2
  have p3 : Post s .slot st2 (st2.add (.mk .tableBox (some e.id) .none ks)) (framed e.id rows) := by
    refine add_post p2.content p2.place (fun _ => by rw [p2.place.2 rfl]; rfl) ?_
    rw [boxToks_mk]
    simp only [contentToks, List.append_nil]
    exact (hrow ks h3).framed _
  have p4 : Post s .slot (st2.add (.mk .tableBox (some e.id) .none ks)) st4 (if e.captionTop then [] else caps) := by
    cases ht : e.captionTop with
    | false => simp only [ht] at h4 ⊢; exact hcap _ _ p3.content p3.place h4
    | true => simp [ht] at h4; subst h4; exact Post.refl p3.content p3.place
  have p5 := buildPseudo?_post (s := s) hx p4.content p4.place h5
  have hall := (((p1.trans p2).trans p3).trans p4).trans p5
  subst h6
  rw [boxToks_mk]
  unfold tableToks
  have hr := hall.rel
  have e1 : st5.toks = boxesToks st5.kids ++ contentToks st5.content := by
    unfold St.toks; rw [hall.place.2 rfl]; simp [inlToks]
  rw [← e1]
  exact hr.framed _

end Verif.Build
