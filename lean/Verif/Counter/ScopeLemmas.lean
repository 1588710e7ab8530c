import Verif.Counter.ScopeSpec
/-! # Counter scoping: lemmas -/
namespace Verif.Counter.Scope
open Css (Act Inst Store)

theorem snoc_ind {α : Type} {P : List α → Prop} (h0 : P []) (h1 : ∀ l a, P l → P (l ++ [a])) (l : List α) : P l := by
  rw [← List.reverse_reverse l]
  induction l.reverse with
  | nil => exact h0
  | cons a t ih => rw [List.reverse_cons]; exact h1 _ _ ih

theorem innerMostFrom_append (n : Name) : ∀ (a b : CounterSet) (i : Nat) (f : Option (Counter × Nat)),
    innerMostFrom n i (a ++ b) f = innerMostFrom n (i + a.length) b (innerMostFrom n i a f)
  | [], b, i, f => by simp [innerMostFrom]
  | c :: a, b, i, f => by
    rw [List.cons_append, innerMostFrom, innerMostFrom, innerMostFrom_append n a b (i + 1)]
    rw [List.length_cons, Nat.add_assoc, Nat.add_comm 1]

theorem innerMost_snoc (s : CounterSet) (c : Counter) (n : Name) :
    innerMost (s ++ [c]) n = if c.name = n then some (c, s.length) else innerMost s n := by
  unfold innerMost
  rw [innerMostFrom_append]
  simp [innerMostFrom]

/-- The last counter of a name. -/
def lastOf (x : Name) (s : CounterSet) : Option Counter := (s.filter fun c => c.name = x).getLast?

theorem innerMost_none {s : CounterSet} {n : Name} : innerMost s n = none ↔ lastOf n s = none := by
  unfold lastOf
  induction s using snoc_ind with
  | h0 => simp [innerMost, innerMostFrom]
  | h1 s c ih =>
    rw [innerMost_snoc, List.filter_append]
    by_cases h : c.name = n <;> simp [h, ih]

theorem innerMost_some {s : CounterSet} {n : Name} {c : Counter} {i : Nat} (h : innerMost s n = some (c, i)) :
    ∃ a b, s = a ++ c :: b ∧ a.length = i ∧ c.name = n ∧ ∀ d ∈ b, d.name ≠ n := by
  induction s using snoc_ind with
  | h0 => simp [innerMost, innerMostFrom] at h
  | h1 s d ih =>
    rw [innerMost_snoc] at h
    by_cases hd : d.name = n
    · simp only [hd, if_true, Option.some.injEq, Prod.mk.injEq] at h
      obtain ⟨rfl, rfl⟩ := h
      exact ⟨s, [], rfl, rfl, hd, by simp⟩
    · simp only [hd, if_false] at h
      obtain ⟨a, b, rfl, h2, h3, h4⟩ := ih h
      refine ⟨a, b ++ [d], by simp, h2, h3, ?_⟩
      intro e he
      rcases List.mem_append.1 he with he | he
      · exact h4 e he
      · rw [List.mem_singleton.1 he]; exact hd

theorem filter_none {n : Name} {b : CounterSet} (h : ∀ d ∈ b, d.name ≠ n) : b.filter (fun c => c.name = n) = [] := by
  rw [List.filter_eq_nil_iff]
  intro d hd
  simpa using h d hd

theorem lastOf_of_innerMost {s : CounterSet} {n : Name} {c : Counter} {i : Nat} (h : innerMost s n = some (c, i)) :
    lastOf n s = some c := by
  obtain ⟨a, b, rfl, _, hn, hb⟩ := innerMost_some h
  unfold lastOf
  simp [List.filter_append, hn, filter_none hb]

theorem lastOf_snoc (x : Name) (s : CounterSet) (c : Counter) :
    lastOf x (s ++ [c]) = if c.name = x then some c else lastOf x s := by
  unfold lastOf
  by_cases h : c.name = x <;> simp [List.filter_append, h]

/-- What a set holds for one counter. -/
def view (x : Name) (s : CounterSet) : Option (Bool × Int) := (lastOf x s).map fun c => (c.reversed, c.value)

theorem innerMostValue_view (x : Name) (s : CounterSet) :
    innerMostValue s x = ((view x s).map Prod.snd).getD 0 := by
  unfold innerMostValue view
  cases h : innerMost s x with
  | none => simp [innerMost_none.1 h]
  | some p =>
    obtain ⟨c, i⟩ := p
    simp [lastOf_of_innerMost h]

theorem view_instantiate (x : Name) (s : CounterSet) (el : Nat) (n : Name) (r : Bool) (v : Int) :
    view x (instantiate s el n r v) = if n = x then some (r, v) else view x s := by
  unfold instantiate
  dsimp only
  unfold view
  rw [lastOf_snoc]
  by_cases h : n = x
  · simp [h]
  · simp only [h, if_false]
    congr 1
    cases hi : innerMost s n with
    | none => rfl
    | some p =>
      obtain ⟨c, i⟩ := p
      dsimp only
      split
      · obtain ⟨a, b, rfl, rfl, hc, _⟩ := innerMost_some hi
        have hcx : c.name ≠ x := by rw [hc]; exact h
        unfold lastOf
        rw [List.eraseIdx_append_of_length_le (Nat.le_refl _)]
        simp [List.filter_append, hcx]
      · rfl

theorem view_update (x : Name) (s : CounterSet) (n : Name) (f : Counter → Int) (g : Bool → Int → Int)
    (hf : ∀ c, f c = g c.reversed c.value) :
    view x (update s n f) = if n = x then (view x s).map (fun c => (c.1, g c.1 c.2)) else view x s := by
  unfold update
  cases hi : innerMost s n with
  | none =>
    dsimp only
    split
    · rename_i h
      subst h
      simp [view, innerMost_none.1 hi]
    · rfl
  | some p =>
    obtain ⟨c, i⟩ := p
    dsimp only
    obtain ⟨a, b, rfl, rfl, hc, hb⟩ := innerMost_some hi
    have hset : (a ++ c :: b).set a.length { c with value := f c } = a ++ { c with value := f c } :: b := by
      simp [List.set_append]
    rw [hset]
    unfold view lastOf
    by_cases h : n = x
    · subst h
      simp [List.filter_append, hc, filter_none hb, hf]
    · have hcx : c.name ≠ x := by rw [hc]; exact h
      simp [List.filter_append, h, hcx]

theorem view_ensure (x : Name) (s : CounterSet) (el : Nat) (n : Name) :
    view x (ensure s el n) = if n = x then some ((view x s).getD (false, 0)) else view x s := by
  unfold ensure
  cases hi : innerMost s n with
  | none =>
    dsimp only
    rw [view_instantiate]
    by_cases h : n = x
    · subst h
      simp [view, innerMost_none.1 hi]
    · simp [h]
  | some p =>
    obtain ⟨c, i⟩ := p
    dsimp only
    by_cases h : n = x
    · subst h
      simp [view, lastOf_of_innerMost hi]
    · simp [h]

/-- The state of one counter under one act, for elements of one row. -/
def step (s : Option (Bool × Int)) : Act → Option (Bool × Int)
  | .reset r v => some (r, v)
  | .add v => let c := s.getD (false, 0); some (c.1, if c.1 then c.2 - v else c.2 + v)
  | .assign v => some ((s.getD (false, 0)).1, v)

theorem view_increment (x : Name) (s : CounterSet) (el : Nat) (n : Name) (v : Int) :
    view x (increment s el n v) = if n = x then step (view x s) (.add v) else view x s := by
  unfold increment
  rw [view_update x _ n _ (fun r w => w + (if r then -1 else 1) * v) (fun _ => rfl), view_ensure]
  by_cases h : n = x
  · simp only [h, if_true, Option.map_some, step]
    congr 2
    split <;> omega
  · simp [h]

theorem view_set (x : Name) (s : CounterSet) (el : Nat) (n : Name) (v : Int) :
    view x (set s el n v) = if n = x then step (view x s) (.assign v) else view x s := by
  unfold set
  rw [view_update x _ n _ (fun _ _ => v) (fun _ => rfl), view_ensure]
  by_cases h : n = x <;> simp [h, step]

theorem contains_of_mem {s : CounterSet} {c : Counter} (h : c ∈ s) : contains s c.name c.el = true := by
  unfold contains
  rw [List.any_eq_true]
  exact ⟨c, h, by simp⟩

/-- In effect an element starts from the set of its preceding sibling, or from nothing. -/
theorem inherits_eq (parent sibling : CounterSet) : inherits parent sibling = sibling := by
  unfold inherits
  dsimp only
  cases sibling with
  | nil => rfl
  | cons c cs =>
    simp only [List.isEmpty_cons, Bool.false_eq_true, if_false]
    generalize hs : c :: cs = s
    have key : ∀ (l acc : CounterSet), (∀ d ∈ l, d ∈ s) →
        l.foldl (fun acc c => if contains s c.name c.el then acc ++ [c] else acc) acc = acc ++ l := by
      intro l
      induction l with
      | nil => simp
      | cons d l ih =>
        intro acc h
        rw [List.foldl_cons, contains_of_mem (h d (by simp)), if_pos rfl, ih _ (fun e he => h e (by simp [he]))]
        simp
    simpa using key s [] (fun _ h => h)

theorem foldl_filterMap {α : Type} (x : Name) (mk : α → Act) (nm : α → Name)
    (op : CounterSet → α → CounterSet)
    (hop : ∀ s a, view x (op s a) = if nm a = x then step (view x s) (mk a) else view x s) :
    ∀ (l : List α) (s : CounterSet), view x (l.foldl op s) =
      (l.filterMap fun a => if nm a = x then some (mk a) else none).foldl step (view x s)
  | [], s => rfl
  | a :: l, s => by
    rw [List.foldl_cons, foldl_filterMap x mk nm op hop l, hop, List.filterMap_cons]
    by_cases h : nm a = x <;> simp [h]

theorem view_resolveCounter (x : Name) (parent sibling : CounterSet) (el : Nat) (ops : Ops) (hp : PlainItem x ops) :
    view x (resolveCounter parent sibling el ops) = (Css.acts x ops).foldl step (view x sibling) := by
  unfold resolveCounter Css.acts
  dsimp only
  rw [foldl_filterMap x (fun i => .assign i.2) (fun i : Name × Int => i.1) _ (fun s a => view_set x s el a.1 a.2)]
  rw [List.foldl_append, List.foldl_append]
  congr 1
  rw [inherits_eq]
  have hr := foldl_filterMap x (fun r => .reset r.2.1 r.2.2) (fun r : Name × Bool × Int => r.1)
    (fun s r => instantiate s el r.1 r.2.1 r.2.2)
    (fun s a => by rw [view_instantiate]; rfl) ops.resets sibling
  generalize ops.resets.foldl (fun s r => instantiate s el r.1 r.2.1 r.2.2) sibling = s1 at hr ⊢
  rw [← hr]
  by_cases hi : ops.increments = []
  · simp only [hi, ne_eq, not_true_eq_false, if_false, List.any_nil, Bool.false_eq_true, not_false_eq_true, and_true,
      List.filterMap_nil]
    by_cases hl : ops.listItem = true
    · simp only [hl, if_true, and_true]
      rw [view_increment]
      by_cases hx : x = "list-item"
      · simp [hx]
      · have : ¬ "list-item" = x := fun e => hx e.symm
        simp [hx, this]
    · simp [hl]
  · simp only [ne_eq, hi, not_false_eq_true, if_true]
    rw [foldl_filterMap x (fun i => .add i.2) (fun i : Name × Int => i.1) _ (fun s a => view_increment x s el a.1 a.2)]
    congr 1
    split
    · rename_i hc
      obtain ⟨h1, h2, h3⟩ := hc
      obtain ⟨i, hm, hn⟩ := hp h1 h2 hi
      exact absurd (List.any_eq_true.2 ⟨i, hm, by simpa using hn⟩) h3
    · rfl

theorem acts_leaves {x : Name} {ops : Ops} (h : Leaves x ops) : Css.acts x ops = [] := by
  obtain ⟨h1, h2, h3, h4⟩ := h
  unfold Css.acts
  have hn : ∀ {α : Type} (l : List α) (nm : α → Name) (mk : α → Act), (∀ a ∈ l, nm a ≠ x) →
      (l.filterMap fun a => if nm a = x then some (mk a) else none) = [] := by
    intro α l nm mk h
    rw [List.filterMap_eq_nil_iff]
    intro a ha
    simp [h a ha]
  rw [hn ops.resets (fun r => r.1) _ h1, hn ops.sets (fun r => r.1) _ h3, hn ops.increments (fun r => r.1) _ h2]
  split
  · rename_i hc
    have := h4 hc.1
    simp [this] at hc
  · rfl

mutual
theorem visit_leaves {x : Name} : ∀ (e : El) (depth : Nat) (scope : List Inst) (store : Store), LeavesAll x e →
    (Css.visit x depth scope store e).2 = (scope, store)
  | .mk id ops kids, depth, scope, store, h => by
    cases h with
    | mk h1 h2 =>
      rw [Css.visit]
      simp only [acts_leaves h1, List.foldl_nil]
      rw [visitRow_leaves kids _ _ _ h2]
theorem visitRow_leaves {x : Name} : ∀ (es : List El) (depth : Nat) (scope : List Inst) (store : Store),
    (∀ e ∈ es, LeavesAll x e) → (Css.visitRow x depth scope store es).2 = store
  | [], _, _, _, _ => by rw [Css.visitRow]
  | e :: es, depth, scope, store, h => by
    rw [Css.visitRow]
    dsimp only
    rw [visit_leaves e depth scope store (h e (by simp))]
    exact visitRow_leaves es depth scope store (fun k hk => h k (by simp [hk]))
end

/-- What is in view in a row where nothing was in view at its start. -/
def Holds (depth : Nat) (scope : List Inst) (store : Store) : Option (Bool × Int) → Prop
  | none => scope = []
  | some c => ∃ cell, scope = [⟨depth, cell⟩] ∧ store[cell]? = some c

theorem holds_make (depth : Nat) (scope : List Inst) (store : Store) (st : Option (Bool × Int)) (r : Bool) (v : Int)
    (h : Holds depth scope store st) :
    Holds depth (Css.make depth r v scope store).1 (Css.make depth r v scope store).2 (some (r, v)) := by
  have : scope = [] ∨ ∃ cell, scope = [⟨depth, cell⟩] := by
    cases st with
    | none => exact .inl h
    | some c => obtain ⟨cell, h, _⟩ := h; exact .inr ⟨cell, h⟩
  rcases this with rfl | ⟨cell, rfl⟩
  · exact ⟨store.length, by simp [Css.make], by simp [Css.make]⟩
  · exact ⟨store.length, by simp [Css.make], by simp [Css.make]⟩

theorem holds_change (depth : Nat) (scope : List Inst) (store : Store) (st : Option (Bool × Int))
    (f : Bool → Int → Int) (h : Holds depth scope store st) :
    Holds depth (Css.change depth f scope store).1 (Css.change depth f scope store).2
      (some ((st.getD (false, 0)).1, f (st.getD (false, 0)).1 (st.getD (false, 0)).2)) := by
  cases st with
  | none =>
    cases (show scope = [] from h)
    have hm : Css.make depth false 0 [] store = ([⟨depth, store.length⟩], store ++ [(false, 0)]) := rfl
    simp only [Css.change, List.getLast?_nil, hm, List.getLast?_singleton, Option.getD_none]
    refine ⟨store.length, rfl, ?_⟩
    simp [List.getElem?_modify]
  | some c =>
    obtain ⟨cell, rfl, hc⟩ := h
    simp only [Css.change, List.getLast?_singleton, Option.getD_some]
    refine ⟨cell, rfl, ?_⟩
    simp [List.getElem?_modify, hc]

theorem holds_acts (depth : Nat) : ∀ (as : List Act) (s : List Inst × Store) (st : Option (Bool × Int)),
    Holds depth s.1 s.2 st →
    Holds depth (as.foldl (Css.act depth) s).1 (as.foldl (Css.act depth) s).2 (as.foldl step st)
  | [], _, _, h => h
  | a :: as, s, st, h => by
    rw [List.foldl_cons, List.foldl_cons]
    refine holds_acts depth as _ _ ?_
    cases a with
    | reset r v => exact holds_make depth s.1 s.2 st r v h
    | add v =>
      exact holds_change depth s.1 s.2 st (fun r w => if r then w - v else w + v) h
    | assign v => exact holds_change depth s.1 s.2 st (fun _ _ => v) h

theorem read_holds {depth : Nat} {scope : List Inst} {store : Store} {st : Option (Bool × Int)}
    (h : Holds depth scope store st) : Css.read scope store = (st.map Prod.snd).getD 0 := by
  cases st with
  | none => cases (show scope = [] from h); rfl
  | some c =>
    obtain ⟨cell, rfl, hc⟩ := h
    simp [Css.read, List.getD, hc]

/-- Looking up in a row of notes. -/
def rowAt {α : Type} (notes : List (Note α)) (i : Nat) (p : List Nat) : Option α :=
  match notes[i]? with
  | some k => k.at p
  | none => none

theorem row_here (x : Name) (depth : Nat) (current : CounterSet) : ∀ (row : List El) (i : Nat) (sib : CounterSet)
    (scope : List Inst) (store : Store),
    (∀ e ∈ row.take i, ∀ k ∈ e.kids, LeavesAll x k) → (∀ e ∈ row.take (i + 1), PlainItem x e.ops) →
    Holds depth scope store (view x sib) →
    (rowAt (resolveRow current sib row) i []).map (innerMostValue · x)
      = rowAt (Css.visitRow x depth scope store row).1 i []
  | [], i, sib, scope, store, _, _, _ => by simp [resolveRow, Css.visitRow, rowAt]
  | .mk id ops kids :: row, i, sib, scope, store, h1, h2, h => by
    have hp : PlainItem x ops := h2 (.mk id ops kids) (by simp)
    have hv := view_resolveCounter x current sib id ops hp
    have hh := holds_acts depth (Css.acts x ops) (scope, store) (view x sib) h
    rw [← hv] at hh
    rw [resolveRow, Css.visitRow, resolve, Css.visit]
    dsimp only
    cases i with
    | zero =>
      simp only [rowAt, List.getElem?_cons_zero, Note.at, Option.map_some]
      rw [innerMostValue_view, read_holds hh]
    | succ i =>
      have hk : ∀ k ∈ kids, LeavesAll x k := h1 (.mk id ops kids) (by simp)
      rw [visitRow_leaves kids _ _ _ hk]
      have := row_here x depth current row i _ _ _
        (fun e he => h1 e (by simp [he])) (fun e he => h2 e (by simp [he])) hh
      simpa [rowAt] using this

theorem row_below (x : Name) : ∀ (p : List Nat) (i : Nat) (row : List El) (depth : Nat) (current sib : CounterSet)
    (store : Store), view x sib = none → OnlyItsRow x row (i :: p) →
    (rowAt (resolveRow current sib row) i p).map (innerMostValue · x)
      = rowAt (Css.visitRow x depth [] store row).1 i p
  | [], i, row, depth, current, sib, store, hv, h => by
    refine row_here x depth current row i sib [] store h.1 h.2 ?_
    rw [hv]; rfl
  | j :: p, i, row, depth, current, sib, store, hv, h => by
    obtain ⟨h1, e, he, h2⟩ := h
    induction row generalizing i sib store with
    | nil => simp at he
    | cons e' row ih =>
      obtain ⟨id, ops, kids⟩ := e'
      have hl : Leaves x ops := h1 (.mk id ops kids) (by simp)
      have hpi : PlainItem x ops := by
        intro hx hli
        rw [hl.2.2.2 hx] at hli
        cases hli
      have hv' := view_resolveCounter x current sib id ops hpi
      rw [acts_leaves hl, List.foldl_nil, hv] at hv'
      rw [resolveRow, Css.visitRow, resolve, Css.visit]
      simp only [acts_leaves hl, List.foldl_nil]
      cases i with
      | zero =>
        simp only [List.getElem?_cons_zero, Option.some.injEq] at he
        subst he
        simp only [rowAt, List.getElem?_cons_zero, Note.at]
        exact row_below x p j kids (depth + 1) _ [] store rfl h2
      | succ i =>
        have := ih i _ (Css.visitRow x (depth + 1) [] store kids).2 hv'
          (fun e he => h1 e (by simp [he])) (by simpa using he)
        simpa [rowAt] using this

end Verif.Counter.Scope
