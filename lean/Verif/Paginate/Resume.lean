import Verif.Paginate.Lemmas
/-!
# Pagination: a page printed from one break to the next shows what lies between them
-/
namespace Verif.Paginate
open Spec

/-- The index a page begins with. -/
def begins (p : Option Bp) : Nat := (Trav.getStart ⟨p, none⟩).getD 0

/-- The break to resume from within child `i`. -/
def within (p : Option Bp) (i : Nat) : Option Bp := Trav.traversePrev ⟨p, none⟩ i

theorem within_eq (t : Trav) (i : Nat) : (t.inside i).prev = within t.prev i := rfl

theorem begins_eq (fc : Fc) (h : fc.allowBreak = true) (inp : In) : startAt fc inp = begins inp.trav.prev := by
  simp [startAt, h, begins]; rfl

/-- A break that lies in a box as block layout makes them. -/
def Valid : Bp → Box → Prop
  | _, .mono _ _ _ => False
  | .flat e _ v, .block _ _ kids => v = .withoutChildren ∧ e < kids.length
  | .deep e _ v c, .block _ _ kids =>
    v = .dont ∧ ∃ j k, e = j + 1 ∧ kids[j]? = some k ∧ k.style.pos = .flow ∧ Valid c k

def ValidO : Option Bp → Box → Prop
  | none, _ => True
  | some p, b => Valid p b

mutual

/-- What is left to print after a break. -/
def after : Box → Option Bp → List Nat
  | .mono _ id inner, _ => id :: innerContent inner
  | .block _ id [], _ => [id]
  | .block _ _ (k :: ks), p => afterKids (begins p) p (k :: ks) 0

def afterKids (s : Nat) (p : Option Bp) : List Box → Nat → List Nat
  | [], _ => []
  | c :: rest, i =>
    (if i < s then []
      else
        match c.style.pos with
        | .flow => after c (within p i)
        | .out => [c.id]
        | .running => []) ++ afterKids s p rest (i + 1)

end

theorem within_none (i : Nat) : within none i = none := rfl

mutual

theorem after_none (b : Box) : after b none = content b := by
  match b with
  | .mono s id inner => rw [after, content]
  | .block s id [] => rw [after, content]
  | .block s id (k :: ks) =>
    rw [after, content]
    exact afterKids_full 0 none (k :: ks) 0 (by omega) (fun _ _ => rfl)

theorem afterKids_full (s : Nat) (p : Option Bp) (l : List Box) (i : Nat) (hs : s ≤ i)
    (hp : ∀ j, i ≤ j → within p j = none) : afterKids s p l i = kidsContent l := by
  match l with
  | [] => rfl
  | c :: rest =>
    rw [afterKids, kidsContent, if_neg (by omega), hp i (Nat.le_refl _),
      afterKids_full s p rest (i + 1) (by omega) (fun j hj => hp j (by omega)), after_none c]
    rfl

end

/-- Past the child a page begins with, no child is resumed. -/
theorem within_past {p : Option Bp} {b : Box} (h : ValidO p b) {j : Nat} (hj : begins p < j) : within p j = none := by
  cases p with
  | none => rfl
  | some p =>
    cases p with
    | flat => rfl
    | deep e a v c =>
      cases b with
      | mono => exact h.elim
      | block s id kids =>
        obtain ⟨hv, j', k, he, -⟩ := h
        subst hv he
        simp only [begins, Trav.getStart, Bp.adv, Bp.endIdx] at hj
        simp only [within, Trav.traversePrev, Bp.child, Bp.endIdx, Bp.adv]
        simp at hj
        simp
        omega

theorem within_valid {p : Option Bp} {s : Style} {id : Nat} {kids : List Box} (h : ValidO p (.block s id kids))
    {i : Nat} {c : Box} (hc : kids[i]? = some c) : ValidO (within p i) c := by
  cases p with
  | none => trivial
  | some p =>
    cases p with
    | flat => trivial
    | deep e a v d =>
      obtain ⟨hv, j, k, he, hk, -, hd⟩ := h
      subst hv he
      simp [within, Trav.traversePrev, Bp.child, Bp.endIdx, Bp.adv]
      split
      · next hx =>
        subst hx
        rw [hc] at hk
        cases hk
        exact hd
      · trivial

theorem begins_lt {p : Option Bp} {s : Style} {id : Nat} {kids : List Box} (h : ValidO p (.block s id kids))
    (hk : kids ≠ []) : begins p < kids.length := by
  cases p with
  | none => simp [begins, Trav.getStart]; exact List.length_pos_iff.2 hk
  | some p =>
    cases p with
    | flat e a v =>
      obtain ⟨hv, he⟩ := h
      subst hv
      simpa [begins, Trav.getStart, Bp.adv, Bp.endIdx] using he
    | deep e a v d =>
      obtain ⟨hv, j, k, he, hk, -, hd⟩ := h
      subst hv he
      have := (List.getElem?_eq_some_iff.1 hk).1
      simpa [begins, Trav.getStart, Bp.adv, Bp.endIdx] using this

/-- How far a break is in a box, counted in boxes. -/
def dist : Bp → Box → Nat
  | _, .mono _ _ _ => 0
  | .flat e _ _, .block _ _ kids => countAll (kids.take e)
  | .deep e _ _ c, .block _ _ kids => countAll (kids.take (e - 1)) + (match kids[e - 1]? with | some k => dist c k | none => 0)

def distO : Option Bp → Box → Nat
  | none, _ => 0
  | some p, b => dist p b

theorem count_pos (b : Box) : 0 < count b := by
  cases b <;> rw [count] <;> omega

theorem countAll_append (a b : List Box) : countAll (a ++ b) = countAll a + countAll b := by
  induction a with
  | nil => simp [countAll]
  | cons x a ih => simp only [List.cons_append, countAll, ih]; omega

theorem countAll_take_succ {l : List Box} {j : Nat} {k : Box} (h : l[j]? = some k) :
    countAll (l.take (j + 1)) = countAll (l.take j) + count k := by
  rw [List.take_add_one, h, countAll_append]
  simp [countAll]

theorem countAll_take_mono (l : List Box) {a b : Nat} (h : a ≤ b) : countAll (l.take a) ≤ countAll (l.take b) := by
  have : l.take a = (l.take b).take a := by rw [List.take_take, Nat.min_eq_left h]
  rw [this]
  conv => rhs; rw [← List.take_append_drop a (l.take b)]
  rw [countAll_append]
  omega

theorem countAll_take_lt (l : List Box) {a b : Nat} (h : a < b) (ha : a < l.length) :
    countAll (l.take a) < countAll (l.take b) := by
  have h1 := countAll_take_mono l (a := a + 1) (b := b) h
  have h2 := countAll_take_succ (List.getElem?_eq_getElem ha)
  have := count_pos l[a]
  omega

theorem countAll_take_le (l : List Box) (a : Nat) : countAll (l.take a) ≤ countAll l := by
  conv => rhs; rw [← List.take_append_drop a l]
  rw [countAll_append]
  omega

theorem dist_lt : ∀ (p : Bp) (b : Box), Valid p b → dist p b < count b
  | .flat e a v, .block s id kids, h => by
    rw [dist, count]
    have := countAll_take_le kids e
    omega
  | .deep e a v c, .block s id kids, h => by
    obtain ⟨-, j, k, he, hk, -, hd⟩ := h
    subst he
    rw [dist, count]
    simp only [Nat.add_sub_cancel, hk]
    have h1 := dist_lt c k hd
    have h2 := countAll_take_succ hk
    have h3 := countAll_take_le kids (j + 1)
    omega
  | .flat _ _ _, .mono _ _ _, h => h.elim
  | .deep _ _ _ _, .mono _ _ _, h => h.elim

/-- The position of the child a page begins with. -/
theorem distO_le {p : Option Bp} {s : Style} {id : Nat} {kids : List Box} (h : ValidO p (.block s id kids))
    {e : Nat} (he : begins p < e) (hn : kids ≠ []) : distO p (.block s id kids) < countAll (kids.take e) := by
  have hl := begins_lt h hn
  cases p with
  | none =>
    have := countAll_take_lt kids he hl
    simp only [distO]
    omega
  | some p =>
    cases p with
    | flat e' a v =>
      obtain ⟨hv, h'⟩ := h
      subst hv
      simp [begins, Trav.getStart, Bp.adv, Bp.endIdx] at he
      exact countAll_take_lt kids he h'
    | deep e' a v d =>
      obtain ⟨hv, j, k, he', hk, -, hd⟩ := h
      subst hv he'
      simp [begins, Trav.getStart, Bp.adv, Bp.endIdx] at he
      simp only [distO, dist, Nat.add_sub_cancel, hk]
      have h1 := dist_lt d k hd
      have h2 := countAll_take_succ hk
      have h3 := countAll_take_mono kids (a := j + 1) (b := e) he
      omega

theorem distO_within {p : Option Bp} {s : Style} {id : Nat} {kids : List Box} (h : ValidO p (.block s id kids))
    {i : Nat} {c : Box} (hi : begins p ≤ i) (hc : kids[i]? = some c) :
    distO p (.block s id kids) ≤ countAll (kids.take i) + distO (within p i) c := by
  have hn : kids ≠ [] := by rintro rfl; simp at hc
  rcases Nat.lt_or_ge (begins p) i with hlt | hge
  · have := distO_le h hlt hn
    omega
  have he : begins p = i := by omega
  cases p with
  | none => simp [distO]
  | some p =>
    cases p with
    | flat e' a v =>
      obtain ⟨hv, h'⟩ := h
      subst hv
      simp [begins, Trav.getStart, Bp.adv, Bp.endIdx] at he
      subst he
      simp [distO, dist]
    | deep e' a v d =>
      obtain ⟨hv, j, k, he', hk, -, hd⟩ := h
      subst hv he'
      simp [begins, Trav.getStart, Bp.adv, Bp.endIdx] at he
      subst he
      rw [hc] at hk
      cases hk
      simp [distO, dist, within, Trav.traversePrev, Bp.child, Bp.endIdx, hc]

/-- A break where there is one: not an overflow. -/
def Proper (b : Bp) : Prop := 3 ≤ b.appeal.rank

instance (b : Bp) : Decidable (Proper b) := inferInstanceAs (Decidable (_ ≤ _))

/-- Past its last child, a page shows nothing. -/
theorem run_stop (fc : Fc) (p : Style) (inp : In) (start stop : Nat) :
    ∀ (l : List Box) (i : Nat) (st : St), stop ≤ i → (run fc p inp start stop l i st).frags = st.frags := by
  intro l
  induction l with
  | nil => intro i st _; rw [run]; rfl
  | cons c rest ih =>
    intro i st h
    rw [run]
    split
    · exact ih _ _ (by omega)
    · rfl

/-- The mode pages are printed in. -/
def Prints (fc : Fc) : Prop := fc.allowBreak = true ∧ fc.isDiscoveryMode = false

/-- What laying out a box in discovery mode from break `p` says about printing it. -/
structure Claim (b : Box) (p : Option Bp) (o : Out) : Prop where
  /-- If the box ends on the page, printing it from the break shows all that is left. -/
  ends : o.complete = true → (∀ c, o.bp = some c → c.appeal.rank ≤ 3) ∧
    ∀ fc inp, Prints fc → inp.trav.prev = p → inp.trav.curr = none → ids (layoutBox fc b inp).frags = after b p
  /-- If not, there is a break, and if it is a proper one, it lies further, and printing from the one to the
  other shows what lies between. -/
  breaks : o.complete = false → ∃ c, o.bp = some c ∧ (Proper c → Valid c b ∧ distO p b < dist c b ∧
    ∃ seg, after b p = seg ++ after b (some c) ∧
      ∀ fc inp, Prints fc → inp.trav.prev = p → inp.trav.curr = some c → ids (layoutBox fc b inp).frags = seg)

theorem afterKids_flat {p : Option Bp} {b : Box} (h : ValidO p b) {e : Nat} {a : Appeal} (l : List Box) {i : Nat}
    (hs : begins p < e) (he : e ≤ i) :
    afterKids (begins p) p l i = afterKids (begins (some (.flat e a .withoutChildren))) (some (.flat e a .withoutChildren)) l i := by
  rw [afterKids_full _ _ _ _ (by omega) (fun j hj => within_past h (by omega)),
    afterKids_full _ _ _ _ (by simp [begins, Trav.getStart, Bp.adv, Bp.endIdx]; exact he) (fun j hj => rfl)]

/-- What the loop over the children in discovery mode says. -/
structure KidsClaim (s : Style) (id : Nat) (kids : List Box) (p : Option Bp) (l : List Box) (i : Nat) (cur : Bp) (o : Out) : Prop where
  ends : o.complete = true → (∀ c, o.bp = some c → c.appeal.rank ≤ 3) ∧
    ∀ fc inp stop st, Prints fc → inp.trav.prev = p → (∀ j, inp.trav.traverseCurr j = none) → i + l.length ≤ stop →
      ids (run fc s inp (begins p) stop l i st).frags = ids st.frags ++ afterKids (begins p) p l i
  breaks : o.complete = false → ∃ c, o.bp = some c ∧ (Proper c →
    Valid c (.block s id kids) ∧ distO p (.block s id kids) < dist c (.block s id kids) ∧
    (cur = c ∨ i ≤ c.endIdx) ∧ (c.child ≠ none → i < c.endIdx) ∧
    ∃ seg, afterKids (begins p) p l i = seg ++ afterKids (begins (some c)) (some c) l i ∧
      ∀ fc inp st, Prints fc → inp.trav.prev = p → inp.trav.curr = some c →
        ids (run fc s inp (begins p) c.endIdx l i st).frags = ids st.frags ++ seg)

theorem override_classB (c : Bp) (e : Nat) (h : c.appeal.rank ≤ 3) : c.overrideIfBetter (.classB e false) = .classB e false := by
  unfold Bp.overrideIfBetter
  rw [if_neg (by simp [Bp.classB, Bp.appeal])]
  exact if_pos h

end Verif.Paginate
