import Verif.Tree.Spec
import Verif.Tree.Model
/-
The nodes of the program and the trees they show, when nodes are made in the order of the document.
-/
namespace Verif.Tree
open Verif.Html (Str Attr Content)
open Spec

mutual
/-- Node `n` shows the tree, with the nodes from `n` on and before `hi`. -/
def ShowsT (s : St) (n hi : Nat) : Tree → Prop
  | .document _ => False
  | .doctype a b c => s.data n = .doctype a b c ∧ n < hi
  | .elem ns name as ts =>
    s.data n = .element ⟨ns, name⟩ as ∧ n < hi ∧ ShowsF s (n + 1) hi (s.kids n) ts
  | .text d => s.data n = .text d ∧ n < hi
  | .comment d => s.data n = .comment d ∧ n < hi
/-- The nodes show the trees, one after the other, with nodes from `lo` on and before `hi`. -/
def ShowsF (s : St) (lo hi : Nat) (ids : List Nat) : List Tree → Prop
  | [] => ids = [] ∧ lo ≤ hi
  | t :: ts => ∃ i r m, ids = i :: r ∧ lo ≤ i ∧ ShowsT s i m t ∧ ShowsF s m hi r ts
end

theorem ShowsT.lt {s : St} {n hi : Nat} {t : Tree} (h : ShowsT s n hi t) : n < hi := by
  cases t <;> unfold ShowsT at h
  · exact h.elim
  · exact h.2
  · exact h.2.1
  · exact h.2
  · exact h.2

theorem ShowsF.le {s : St} {ts : List Tree} : ∀ {lo hi : Nat} {ids : List Nat},
    ShowsF s lo hi ids ts → lo ≤ hi := by
  induction ts with
  | nil => intro lo hi ids h; unfold ShowsF at h; exact h.2
  | cons t ts ih =>
    intro lo hi ids h
    unfold ShowsF at h
    obtain ⟨i, r, m, -, h1, h2, h3⟩ := h
    have := ih h3
    have := h2.lt
    omega

/-- Two states agree on the nodes of an interval. -/
def Agree (s s' : St) (lo hi : Nat) : Prop :=
  ∀ n, lo ≤ n → n < hi → s'.data n = s.data n ∧ s'.kids n = s.kids n

theorem Agree.sub {s s' : St} {lo hi lo' hi' : Nat} (h : Agree s s' lo hi) (h1 : lo ≤ lo')
    (h2 : hi' ≤ hi) : Agree s s' lo' hi' := fun n a b => h n (by omega) (by omega)

mutual
theorem ShowsT.frame {s s' : St} {n hi : Nat} : ∀ {t : Tree}, ShowsT s n hi t →
    Agree s s' n hi → ShowsT s' n hi t
  | .document _, h, _ => by unfold ShowsT at h; exact h.elim
  | .doctype .., h, a => by
    unfold ShowsT at h ⊢; exact ⟨by rw [(a n (by omega) h.2).1]; exact h.1, h.2⟩
  | .text _, h, a => by
    unfold ShowsT at h ⊢; exact ⟨by rw [(a n (by omega) h.2).1]; exact h.1, h.2⟩
  | .comment _, h, a => by
    unfold ShowsT at h ⊢; exact ⟨by rw [(a n (by omega) h.2).1]; exact h.1, h.2⟩
  | .elem ns name as ts, h, a => by
    unfold ShowsT at h ⊢
    have e := a n (by omega) h.2.1
    refine ⟨by rw [e.1]; exact h.1, h.2.1, ?_⟩
    rw [e.2]
    exact ShowsF.frame h.2.2 (a.sub (by omega) (by omega))
theorem ShowsF.frame {s s' : St} {lo hi : Nat} {ids : List Nat} : ∀ {ts : List Tree},
    ShowsF s lo hi ids ts → Agree s s' lo hi → ShowsF s' lo hi ids ts
  | [], h, _ => by unfold ShowsF at h ⊢; exact h
  | t :: ts, h, a => by
    unfold ShowsF at h ⊢
    obtain ⟨i, r, m, h0, h1, h2, h3⟩ := h
    have := h3.le
    have := h2.lt
    exact ⟨i, r, m, h0, h1, ShowsT.frame h2 (a.sub (by omega) (by omega)),
      ShowsF.frame h3 (a.sub (by omega) (by omega))⟩
end

theorem ShowsT.mono {s : St} {n hi hi' : Nat} (h : hi ≤ hi') : ∀ {t : Tree},
    ShowsT s n hi t → ShowsT s n hi' t := by
  have key : ∀ (ts : List Tree) (lo hi : Nat) (ids : List Nat), hi ≤ hi' →
      ShowsF s lo hi ids ts → ShowsF s lo hi' ids ts := by
    intro ts
    induction ts with
    | nil => intro lo hi ids hh h; unfold ShowsF at h ⊢; exact ⟨h.1, by omega⟩
    | cons t ts ih =>
      intro lo hi ids hh h
      unfold ShowsF at h ⊢
      obtain ⟨i, r, m, h0, h1, h2, h3⟩ := h
      exact ⟨i, r, m, h0, h1, h2, ih _ _ _ hh h3⟩
  intro t
  cases t <;> unfold ShowsT
  · exact id
  · exact fun q => ⟨q.1, by omega⟩
  · exact fun q => ⟨q.1, by omega, key _ _ _ _ h q.2.2⟩
  · exact fun q => ⟨q.1, by omega⟩
  · exact fun q => ⟨q.1, by omega⟩

theorem ShowsF.mono {s : St} {hi hi' : Nat} (hh : hi ≤ hi') : ∀ {ts : List Tree} {lo : Nat}
    {ids : List Nat}, ShowsF s lo hi ids ts → ShowsF s lo hi' ids ts := by
  intro ts
  induction ts with
  | nil => intro lo ids h; unfold ShowsF at h ⊢; exact ⟨h.1, by omega⟩
  | cons t ts ih =>
    intro lo ids h
    unfold ShowsF at h ⊢
    obtain ⟨i, r, m, h0, h1, h2, h3⟩ := h
    exact ⟨i, r, m, h0, h1, h2, ih h3⟩

/-- One more node at the end. -/
theorem ShowsF.snoc {s : St} {m i hi : Nat} {t : Tree} (h2 : ShowsT s i hi t) (h1 : m ≤ i) :
    ∀ {ts : List Tree} {lo : Nat} {ids : List Nat}, ShowsF s lo m ids ts →
      ShowsF s lo hi (ids ++ [i]) (ts ++ [t]) := by
  intro ts
  induction ts with
  | nil =>
    intro lo ids h
    unfold ShowsF at h
    obtain ⟨rfl, hl⟩ := h
    show ShowsF s lo hi [i] [t]
    unfold ShowsF
    refine ⟨i, [], hi, rfl, by omega, h2, ?_⟩
    unfold ShowsF
    exact ⟨rfl, by omega⟩
  | cons u us ih =>
    intro lo ids h
    unfold ShowsF at h
    obtain ⟨j, r, k, rfl, h3, h4, h5⟩ := h
    show ShowsF s lo hi (j :: (r ++ [i])) (u :: (us ++ [t]))
    unfold ShowsF
    exact ⟨j, _, k, rfl, h3, h4, ih h5⟩

theorem ShowsF.unsnoc {s : St} {hi : Nat} {t : Tree} : ∀ {ts : List Tree} {lo : Nat}
    {ids : List Nat}, ShowsF s lo hi ids (ts ++ [t]) →
      ∃ r i m, ids = r ++ [i] ∧ ShowsF s lo m r ts ∧ m ≤ i ∧ ShowsT s i hi t := by
  intro ts
  induction ts with
  | nil =>
    intro lo ids h
    rw [List.nil_append] at h
    unfold ShowsF at h
    obtain ⟨i, r, m, rfl, h1, h2, h3⟩ := h
    unfold ShowsF at h3
    obtain ⟨rfl, h3⟩ := h3
    refine ⟨[], i, lo, rfl, ?_, h1, h2.mono h3⟩
    unfold ShowsF
    exact ⟨rfl, by omega⟩
  | cons u us ih =>
    intro lo ids h
    rw [List.cons_append] at h
    unfold ShowsF at h
    obtain ⟨j, r, k, rfl, h3, h4, h5⟩ := h
    obtain ⟨r', i, m, rfl, h6, h7, h8⟩ := ih h5
    refine ⟨j :: r', i, m, rfl, ?_, h7, h8⟩
    unfold ShowsF
    exact ⟨j, r', k, rfl, h3, h4, h6⟩

theorem ShowsF.length {s : St} {hi : Nat} : ∀ {ts : List Tree} {lo : Nat} {ids : List Nat},
    ShowsF s lo hi ids ts → ids.length = ts.length := by
  intro ts
  induction ts with
  | nil => intro lo ids h; unfold ShowsF at h; rw [h.1]; rfl
  | cons t ts ih =>
    intro lo ids h
    unfold ShowsF at h
    obtain ⟨i, r, m, rfl, -, -, h⟩ := h
    simp [ih h]

mutual
theorem ShowsT.view {s : St} {n hi k : Nat} : ∀ {t : Tree}, ShowsT s n hi t → hi - n ≤ k →
    view s k n = t
  | .document _, h, _ => by unfold ShowsT at h; exact h.elim
  | .doctype .., h, hk => by
    unfold ShowsT at h
    obtain ⟨k, rfl⟩ : ∃ j, k = j + 1 := ⟨k - 1, by omega⟩
    rw [Spec.view, h.1]
  | .text _, h, hk => by
    unfold ShowsT at h
    obtain ⟨k, rfl⟩ : ∃ j, k = j + 1 := ⟨k - 1, by omega⟩
    rw [Spec.view, h.1]
  | .comment _, h, hk => by
    unfold ShowsT at h
    obtain ⟨k, rfl⟩ : ∃ j, k = j + 1 := ⟨k - 1, by omega⟩
    rw [Spec.view, h.1]
  | .elem ns name as ts, h, hk => by
    unfold ShowsT at h
    obtain ⟨k, rfl⟩ : ∃ j, k = j + 1 := ⟨k - 1, by omega⟩
    rw [Spec.view, h.1]
    simp only
    rw [ShowsF.views h.2.2 (k := k) (by omega)]
theorem ShowsF.views {s : St} {lo hi k : Nat} {ids : List Nat} : ∀ {ts : List Tree},
    ShowsF s lo hi ids ts → hi - lo ≤ k → ids.map (Spec.view s k) = ts
  | [], h, _ => by unfold ShowsF at h; rw [h.1]; rfl
  | t :: ts, h, hk => by
    unfold ShowsF at h
    obtain ⟨i, r, m, rfl, h1, h2, h3⟩ := h
    have := h3.le
    have := h2.lt
    rw [List.map_cons, ShowsT.view h2 (by omega), ShowsF.views h3 (by omega)]
end

/-! ### The open elements -/

/-- An open node: what it is, and the trees of the children it has by now. -/
structure Open where
  id : Nat
  data : Data
  done : List Tree

/-- The open nodes from the current one on: the children of each are the nodes of its trees, and
then the next open one. -/
def Holds (s : St) : Nat → List Nat → List Open → Prop
  | _, _, [] => True
  | hi, tail, f :: fs => f.id < hi ∧ s.data f.id = f.data ∧
    (∃ ids, s.kids f.id = ids ++ tail ∧ ShowsF s (f.id + 1) hi ids f.done) ∧
    Holds s f.id [f.id] fs

theorem Holds.frame {s s' : St} : ∀ {fs : List Open} {hi : Nat} {tail : List Nat},
    Holds s hi tail fs → Agree s s' 0 hi → Holds s' hi tail fs := by
  intro fs
  induction fs with
  | nil => intros; trivial
  | cons f fs ih =>
    intro hi tail h a
    obtain ⟨h1, h2, ⟨ids, h3, h4⟩, h5⟩ := h
    have e := a f.id (by omega) h1
    exact ⟨h1, by rw [e.1]; exact h2, ⟨ids, by rw [e.2]; exact h3, h4.frame (a.sub (by omega) (by omega))⟩,
      ih h5 (a.sub (by omega) (by omega))⟩

/-- All ids are below. -/
theorem Holds.lt {s : St} : ∀ {fs : List Open} {hi : Nat} {tail : List Nat},
    Holds s hi tail fs → ∀ f ∈ fs, f.id < hi := by
  intro fs
  induction fs with
  | nil => intro _ _ _ f hf; cases hf
  | cons f fs ih =>
    intro hi tail h g hg
    obtain ⟨h1, -, -, h5⟩ := h
    cases hg with
    | head => exact h1
    | tail _ hg => have := ih h5 g hg; omega

/-- The current element is closed. -/
theorem Holds.close {s : St} {hi : Nat} {f g : Open} {fs : List Open} {ns : Ns} {name : Str}
    {as : Attrs} (h : Holds s hi [] (f :: g :: fs)) (hd : f.data = .element ⟨ns, name⟩ as) :
    Holds s hi [] ({ g with done := g.done ++ [.elem ns name as f.done] } :: fs) := by
  obtain ⟨h1, h2, ⟨ids, h3, h4⟩, h5, h6, ⟨ids', h7, h8⟩, h9⟩ := h
  refine ⟨by show g.id < hi; omega, h6, ⟨ids' ++ [f.id], by rw [h7, List.append_nil], ?_⟩, h9⟩
  refine ShowsF.snoc (m := f.id) ?_ (by omega) h8
  unfold ShowsT
  refine ⟨by rw [h2, hd], h1, ?_⟩
  rw [h3, List.append_nil]
  exact h4

/-- The state after a new last child `d` of the node `p`. -/
def added (s : St) (p : Nat) (d : Data) : St :=
  { s with
    data := update s.data s.next d
    kids := update (update s.kids s.next []) p ((s.kids p) ++ [s.next])
    parent := update (update s.parent s.next none) s.next (some p)
    next := s.next + 1 }

theorem append_alloc {s : St} {p : Nat} {d : Data} (hp : p < s.next) :
    append (alloc s d).1 p (alloc s d).2 = added s p d := by
  have e : p ≠ s.next := by omega
  simp [append, alloc, detach, added, update, e]

theorem agree_added {s : St} {p : Nat} {d : Data} {lo hi : Nat} (hhi : hi ≤ s.next)
    (hp : p < lo) : Agree s (added s p d) lo hi := by
  intro n h1 h2
  have e1 : n ≠ s.next := by omega
  have e2 : n ≠ p := by omega
  simp [added, update, e1, e2]

theorem agree_added' {s : St} {p : Nat} {d : Data} {lo hi : Nat} (hhi : hi ≤ p)
    (hp : p < s.next) : Agree s (added s p d) lo hi := by
  intro n h1 h2
  have e1 : n ≠ s.next := by omega
  have e2 : n ≠ p := by omega
  simp [added, update, e1, e2]

/-- A new open element. -/
theorem Holds.opened {s : St} {f : Open} {fs : List Open} (d : Data)
    (h : Holds s s.next [] (f :: fs)) :
    Holds (added s f.id d) (s.next + 1) [] (⟨s.next, d, []⟩ :: f :: fs) := by
  obtain ⟨h1, h2, ⟨ids, h3, h4⟩, h5⟩ := h
  have e : f.id ≠ s.next := by omega
  have e' : s.next ≠ f.id := by omega
  refine ⟨by show s.next < s.next + 1; omega, by simp [added, update], ⟨[], ?_, ?_⟩,
    h1, ?_, ⟨ids, ?_, ?_⟩, ?_⟩
  · simp [added, update, e']
  · show ShowsF _ _ _ _ []
    unfold ShowsF
    exact ⟨rfl, by simp⟩
  · simp [added, update, e, h2]
  · rw [List.append_nil] at h3
    simp [added, update, h3]
  · exact h4.frame (agree_added (by omega) (by omega))
  · exact h5.frame (agree_added' (by omega) h1)

/-- A new leaf. -/
theorem Holds.leaf {s : St} {f : Open} {fs : List Open} {d : Data} {t : Tree}
    (h : Holds s s.next [] (f :: fs))
    (ht : ShowsT (added s f.id d) s.next (s.next + 1) t) :
    Holds (added s f.id d) (s.next + 1) [] ({ f with done := f.done ++ [t] } :: fs) := by
  obtain ⟨h1, h2, ⟨ids, h3, h4⟩, h5⟩ := h
  have e : f.id ≠ s.next := by omega
  refine ⟨by show f.id < s.next + 1; omega, ?_, ⟨ids ++ [s.next], ?_, ?_⟩, ?_⟩
  · simp [added, update, e, h2]
  · rw [List.append_nil] at h3
    simp [added, update, h3]
  · exact (h4.frame (agree_added (by omega) (by omega))).snoc ht (by omega)
  · exact h5.frame (agree_added' (by omega) h1)

/-- A longer last text. -/
theorem Holds.longer {s : St} {f : Open} {fs : List Open} {ts : List Tree} {d d' : Str} {i : Nat}
    {r : List Nat} (h : Holds s s.next [] (f :: fs)) (hd : f.done = ts ++ [.text d])
    (hk : s.kids f.id = r ++ [i]) :
    Holds { s with data := update s.data i (.text d') } s.next []
      ({ f with done := ts ++ [.text d'] } :: fs) := by
  obtain ⟨h1, h2, ⟨ids, h3, h4⟩, h5⟩ := h
  rw [List.append_nil] at h3
  rw [hd] at h4
  obtain ⟨r', j, m, e, h6, h7, h8⟩ := h4.unsnoc
  obtain ⟨rfl, ej⟩ : r' = r ∧ j = i := by
    have := h3.symm.trans hk
    rw [e] at this
    have := List.append_inj' this rfl
    simp at this
    exact this
  subst ej
  have hlt := h8.lt
  have hle := h6.le
  have e1 : f.id ≠ j := by omega
  have ag : ∀ lo hi, hi ≤ j → Agree s { s with data := update s.data j (.text d') } lo hi := by
    intro lo hi hh n a b
    have : n ≠ j := by omega
    simp [update, this]
  refine ⟨h1, by simp [update, e1, h2], ⟨r' ++ [j], by rw [List.append_nil]; exact hk, ?_⟩, ?_⟩
  · refine ShowsF.snoc (m := m) ?_ h7 (h6.frame (ag _ _ h7))
    unfold ShowsT
    exact ⟨by simp [update], hlt⟩
  · exact h5.frame (ag _ _ (by omega))

/-- The last child of the current element. -/
theorem Holds.last {s : St} {f : Open} {fs : List Open} (h : Holds s s.next [] (f :: fs)) :
    (f.done = [] ∧ s.kids f.id = []) ∨ ∃ ts t r i hi, f.done = ts ++ [t] ∧
      s.kids f.id = r ++ [i] ∧ ShowsT s i hi t := by
  obtain ⟨h1, h2, ⟨ids, h3, h4⟩, h5⟩ := h
  rw [List.append_nil] at h3
  rcases List.eq_nil_or_concat f.done with e | ⟨ts, t, e⟩
  · rw [e] at h4
    unfold ShowsF at h4
    exact Or.inl ⟨e, by rw [h3, h4.1]⟩
  · rw [List.concat_eq_append] at e
    rw [e] at h4
    obtain ⟨r, i, m, e', -, -, h8⟩ := h4.unsnoc
    exact Or.inr ⟨ts, t, r, i, s.next, e, by rw [h3, e'], h8⟩

theorem ShowsT.data_text {s : St} {n hi : Nat} {t : Tree} (h : ShowsT s n hi t) {d : Str}
    (e : s.data n = .text d) : t = .text d := by
  cases t <;> unfold ShowsT at h
  · exact h.elim
  · rw [h.1] at e; cases e
  · rw [h.1] at e; cases e
  · rw [h.1] at e; cases e; rfl
  · rw [h.1] at e; cases e

/-- A character at the end of the current element. -/
theorem Holds.char {s : St} {f : Open} {fs : List Open} {e : El} {st : List El} (c : Char)
    (h : Holds s s.next [] (f :: fs)) (hst : s.stack = e :: st) (he : e.id = f.id)
    (hd : f.data ≠ .document) (hf : s.foster = false) :
    ∃ s', insertChar s c = .ok s' ∧
      Holds s' s'.next [] ({ f with done := addText f.done [c] } :: fs) ∧
      ∃ data kids parent next, s' = { s with data := data, kids := kids, parent := parent, next := next } := by
  have hp : place s = .ok ⟨f.id, none⟩ := by
    simp [place, current, hst, hf, he, bind, Except.bind]
  have hdata : s.data f.id = f.data := h.2.1
  rw [insertChar, hp]
  show ∃ s', (if s.data f.id = .document then _ else _) = _ ∧ _
  rw [if_neg (by rw [hdata]; exact hd)]
  have hprev : Place.prev ⟨f.id, none⟩ s = (s.kids f.id).getLast? := rfl
  rw [hprev]
  have hnew : (∀ d, s.data ((s.kids f.id).getLastD 0) ≠ .text d) ∨ s.kids f.id = [] →
      (∀ ts d, f.done ≠ ts ++ [.text d]) →
      Holds (added s f.id (.text [c])) (s.next + 1) []
        ({ f with done := addText f.done [c] } :: fs) := by
    intro _ hn
    have : addText f.done [c] = f.done ++ [.text [c]] := by
      unfold addText
      rw [if_neg (by simp)]
      split
      · rename_i e he
        obtain ⟨r, hr⟩ := List.getLast?_eq_some_iff.mp he
        exact absurd hr (hn _ _)
      · rfl
    rw [this]
    apply h.leaf
    unfold ShowsT
    exact ⟨by simp [added, update], by omega⟩
  rcases h.last with ⟨hd0, hk⟩ | ⟨ts, t, r, i, hi, hd0, hk, ht⟩
  · rw [hk]
    refine ⟨added s f.id (.text [c]), ?_, hnew (Or.inr hk) (by rw [hd0]; simp), _, _, _, _, rfl⟩
    show Except.ok (append (alloc s (.text [c])).1 f.id (alloc s (.text [c])).2) = _
    rw [append_alloc h.1]
  · rw [hk, List.getLast?_concat]
    simp only [Option.map_some]
    cases hdi : s.data i with
    | text d =>
      have : t = .text d := ht.data_text hdi
      subst this
      refine ⟨_, rfl, ?_, _, _, _, _, rfl⟩
      have e2 : addText f.done [c] = ts ++ [.text (d ++ [c])] := by
        unfold addText
        rw [if_neg (by simp), hd0, List.getLast?_concat]
        simp
      rw [e2]
      exact h.longer hd0 hk
    | _ =>
      refine ⟨added s f.id (.text [c]), ?_, hnew ?_ ?_, _, _, _, _, rfl⟩
      · show Except.ok (append (alloc s (.text [c])).1 f.id (alloc s (.text [c])).2) = _
        rw [append_alloc h.1]
      · left
        intro d
        rw [hk]
        simp [hdi]
      · intro ts' d' e
        rw [hd0] at e
        have := List.append_inj' e rfl
        have e3 : t = .text d' := by simpa using this.2
        subst e3
        unfold ShowsT at ht
        rw [ht.1] at hdi
        cases hdi

end Verif.Tree
