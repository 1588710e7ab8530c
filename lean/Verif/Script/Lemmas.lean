import Verif.Script.Spec
/-!
# Script objects: lemmas
-/
namespace Verif.Script

theorem find_insert (k j : Key) (p : Prop') (l : List (Key × Prop')) :
    find j (insert k p l) = if k = j then some p else find j l := by
  induction l with
  | nil => simp [insert, find]
  | cons a r ih =>
    obtain ⟨k', p'⟩ := a
    simp only [insert]
    by_cases h : k' = k
    · subst h
      simp only [if_true, find]
      by_cases hj : k' = j
      · simp [hj]
      · simp [hj]
    · simp only [if_neg h, find]
      by_cases hj : k' = j
      · simp only [hj, if_true]
        rw [if_neg (fun e => h (hj.trans e.symm))]
      · simp only [if_neg hj]
        exact ih

theorem at_modify (h : Heap) (o x : Nat) (f : Object → Object) :
    Heap.at (h.modify o f) x = if o = x ∧ o < h.length then f (h.at x) else h.at x := by
  unfold Heap.at
  rw [List.getElem?_modify]
  by_cases e : o = x
  · subst e
    by_cases hl : o < h.length
    · simp [hl]
    · simp [hl]
  · simp [e]

theorem prop_setProp (h : Heap) (o x : Nat) (k j : Key) (p : Prop') (ho : o < h.length) :
    (h.setProp o k p).prop x j = if o = x ∧ k = j then some p else h.prop x j := by
  unfold Heap.prop Heap.setProp
  rw [at_modify]
  by_cases e : o = x
  · subst e
    simp only [ho, and_true, true_and, if_true, find_insert]
  · simp [e]

theorem proto_setProp (h : Heap) (o x : Nat) (k : Key) (p : Prop') : ((h.setProp o k p).at x).proto = (h.at x).proto := by
  unfold Heap.setProp
  rw [at_modify]
  split <;> rfl

theorem length_setProp (h : Heap) (o : Nat) (k : Key) (p : Prop') : (h.setProp o k p).length = h.length := by
  simp [Heap.setProp]

theorem own_some {h : Heap} {o : Nat} {k : Key} {d : Desc} (e : h.own o k = some d) : ∃ p, h.prop o k = some p ∧ p.desc = d := by
  unfold Heap.own at e
  exact Option.map_eq_some_iff.1 e

theorem own_none {h : Heap} {o : Nat} {k : Key} : h.own o k = none ↔ h.prop o k = none := by
  unfold Heap.own; simp

theorem own_of_prop {h : Heap} {o : Nat} {k : Key} {p : Prop'} (e : h.prop o k = some p) : h.own o k = some p.desc := by
  simp [Heap.own, e]

theorem desc_conf (p : Prop') : p.desc.configurable = some p.configurable := by
  unfold Prop'.desc; split <;> rfl

theorem refuses_desc (d : Desc) (p : Prop') : refuses d p.desc = false := by
  simp [refuses, desc_conf]

theorem define_present {h : Heap} {o : Nat} {k : Key} {p : Prop'} (d : Desc) (e : h.prop o k = some p) :
    define h o k d = (h, .ok true) := by
  simp only [define, own_of_prop e, apply, refuses_desc]
  split <;> simp

theorem define_absent {h : Heap} {o : Nat} {k : Key} (d : Desc) (e : h.prop o k = none) :
    define h o k d = if (h.at o).extensible then (h.setProp o k d.make, .ok true) else (h, .ok false) := by
  simp only [define, own_none.2 e, apply]
  cases (h.at o).extensible <;> simp

theorem Ext.refl (h : Heap) : Ext h h := ⟨Nat.le_refl _, fun _ _ => rfl, fun _ _ _ e => e⟩

theorem Ext.trans {a b c : Heap} (h1 : Ext a b) (h2 : Ext b c) : Ext a c :=
  ⟨Nat.le_trans h1.len h2.len, fun o ho => (h2.proto o (Nat.lt_of_lt_of_le ho h1.len)).trans (h1.proto o ho),
    fun o k p e => h2.prop o k p (h1.prop o k p e)⟩

theorem lt_of_prop {h : Heap} {o : Nat} {k : Key} {p : Prop'} (e : h.prop o k = some p) : o < h.length := by
  rcases Nat.lt_or_ge o h.length with hl | hl
  · exact hl
  · unfold Heap.prop Heap.at at e
    rw [List.getElem?_eq_none hl] at e
    simp [find] at e

theorem ext_setProp {h : Heap} {o : Nat} {k : Key} (p : Prop') (e : h.prop o k = none) : Ext h (h.setProp o k p) := by
  refine ⟨by rw [length_setProp]; exact Nat.le_refl _, fun x _ => proto_setProp h o x k p, fun x j q hq => ?_⟩
  rcases Nat.lt_or_ge o h.length with hl | hl
  · rw [prop_setProp h o x k j p hl]
    rw [if_neg]
    · exact hq
    · rintro ⟨rfl, rfl⟩; rw [e] at hq; cases hq
  · have : h.setProp o k p = h := by
      unfold Heap.setProp
      apply List.ext_getElem?
      intro i
      rw [List.getElem?_modify]
      by_cases hi : o = i
      · subst hi; simp [List.getElem?_eq_none hl]
      · simp [hi]
    rw [this]; exact hq

theorem older_setProp {h : Heap} {o : Nat} {k : Key} {p : Prop'} (ho : Older h) : Older (h.setProp o k p) :=
  fun x q e => ho x q (by rwa [proto_setProp] at e)

/-- What is true of all operations: no property is changed, prototypes stay older. -/
def Safe (h h' : Heap) : Prop := (Older h → Older h') ∧ (Older h → Ext h h')

theorem safe_refl (h : Heap) : Safe h h := ⟨id, fun _ => Ext.refl h⟩

theorem safe_define (h : Heap) (o : Nat) (k : Key) (d : Desc) : Safe h (define h o k d).1 := by
  cases e : h.prop o k with
  | some p => rw [define_present d e]; exact safe_refl h
  | none =>
    rw [define_absent d e]
    split
    · exact ⟨older_setProp, fun _ => ext_setProp _ e⟩
    · exact safe_refl h

theorem safe_call {code : Code} (hc : code.Good) (h : Heap) (f t : Value) (a : List Value) : Safe h (call code h f t a).1 := by
  unfold call
  split
  · split
    · split
      · exact ⟨fun ho => (hc _ _ _ _ ho).1, fun ho => (hc _ _ _ _ ho).2⟩
      · exact safe_refl h
    · exact safe_refl h
  · exact safe_refl h

theorem safe_get {code : Code} (hc : code.Good) (h : Heap) (k : Key) (r : Value) (fuel : Nat) :
    ∀ o, Safe h (get code h k r fuel o).1 := by
  induction fuel with
  | zero => intro o; exact safe_refl h
  | succ n ih =>
    intro o
    simp only [get]
    split
    · unfold getFrom
      split
      · exact safe_refl h
      · split
        · exact safe_refl h
        · split
          · exact safe_refl h
          · exact safe_call hc h _ _ _
    · split
      · exact safe_refl h
      · exact ih _

theorem safe_setAt {code : Code} (hc : code.Good) (h : Heap) (o : Nat) (k : Key) (v r : Value) (d : Desc) :
    Safe h (setAt code h o k v r d).1 := by
  unfold setAt
  split
  · split
    · exact safe_refl h
    · split
      · split
        · exact safe_define h _ _ _
        · split
          · exact safe_refl h
          · split
            · exact safe_refl h
            · exact safe_define h _ _ _
      · exact safe_refl h
  · split
    · exact safe_refl h
    · have := safe_call hc h r v []
      split <;> next e => rw [e] at this; exact this

theorem safe_set {code : Code} (hc : code.Good) (h : Heap) (k : Key) (v r : Value) (fuel : Nat) :
    ∀ o, Safe h (set code h k v r fuel o).1 := by
  induction fuel with
  | zero => intro o; exact safe_refl h
  | succ n ih =>
    intro o
    simp only [set]
    split
    · exact safe_setAt hc h _ _ _ _ _
    · split
      · exact ih _
      · exact safe_setAt hc h _ _ _ _ _

theorem at_snoc (h : Heap) (x : Object) (o : Nat) :
    Heap.at (h ++ [x]) o = if o = h.length then x else h.at o := by
  unfold Heap.at
  rcases Nat.lt_trichotomy o h.length with hl | hl | hl
  · rw [List.getElem?_append_left hl, if_neg (by omega)]
  · subst hl; simp
  · rw [List.getElem?_eq_none (by simp; omega), List.getElem?_eq_none (by omega), if_neg (by omega)]

theorem ext_create (h : Heap) (p : Option Nat) (c : Bool) : Ext h (h ++ [{ proto := p, callable := c }]) := by
  refine ⟨by simp, fun o ho => ?_, fun o k q e => ?_⟩
  · rw [at_snoc, if_neg (by omega)]
  · have := lt_of_prop e
    unfold Heap.prop
    rw [at_snoc, if_neg (by omega)]
    exact e

theorem reach_older {code : Code} (hc : code.Good) {h : Heap} (hr : Reach code h) : Older h := by
  induction hr with
  | nil => intro o p e; simp [Heap.at] at e
  | @step h op _ hv ih =>
    cases op with
    | create p c =>
      intro o q e
      simp only [step, at_snoc] at e
      split at e
      · next ho => subst ho; exact hv q e
      · exact ih o q e
    | define o k d => exact (safe_define h o k d).1 ih
    | get o k => exact (safe_get hc h k _ _ o).1 ih
    | set o k v => exact (safe_set hc h k v _ _ o).1 ih

theorem ext_step {code : Code} (hc : code.Good) {h : Heap} (ho : Older h) (op : Op) : Ext h (step code h op) := by
  cases op with
  | create p c => exact ext_create h p c
  | define o k d => exact (safe_define h o k d).2 ho
  | get o k => exact (safe_get hc h k _ _ o).2 ho
  | set o k v => exact (safe_set hc h k v _ _ o).2 ho

theorem chain_exists {h : Heap} (ho : Older h) (o : Nat) : ∃ c, Chain h o c ∧ c.length ≤ o + 1 := by
  induction o using Nat.strongRecOn with
  | _ o ih =>
    cases e : (h.at o).proto with
    | none => exact ⟨[o], .last e, by simp⟩
    | some p =>
      have := ho o p e
      obtain ⟨c, hc, hl⟩ := ih p this
      exact ⟨o :: c, .next e hc, by simp; omega⟩

theorem chain_ne_nil {h : Heap} {o : Nat} {c : List Nat} (hc : Chain h o c) : c ≠ [] := by
  cases hc <;> simp

theorem chain_head {h : Heap} {o : Nat} {c : List Nat} (hc : Chain h o c) : ∃ r, c = o :: r := by
  cases hc
  · exact ⟨[], rfl⟩
  · exact ⟨_, rfl⟩

theorem get_found {code : Code} {h : Heap} {k : Key} {r : Value} {o : Nat} {c : List Nat} (hc : Chain h o c) :
    ∀ {fuel x p}, Found h k c x p → c.length ≤ fuel → get code h k r fuel o = getFrom code h p.desc r := by
  induction hc with
  | last e =>
    intro fuel x p hf hl
    cases fuel with
    | zero => simp at hl
    | succ n =>
      cases hf with
      | here hp => simp only [get, own_of_prop hp]
      | later _ hf => cases hf
  | next e _ ih =>
    intro fuel x p hf hl
    cases fuel with
    | zero => simp at hl
    | succ n =>
      cases hf with
      | here hp => simp only [get, own_of_prop hp]
      | later hn hf =>
        simp only [get, own_none.2 hn, e]
        exact ih hf (by simpa using hl)

theorem get_absent {code : Code} {h : Heap} {k : Key} {r : Value} {o : Nat} {c : List Nat} (hc : Chain h o c) :
    ∀ {fuel}, (∀ x ∈ c, h.prop x k = none) → c.length ≤ fuel → get code h k r fuel o = (h, .ok .undefined) := by
  induction hc with
  | last e =>
    intro fuel hf hl
    cases fuel with
    | zero => simp at hl
    | succ n => simp only [get, own_none.2 (hf _ List.mem_cons_self), e]
  | next e _ ih =>
    intro fuel hf hl
    cases fuel with
    | zero => simp at hl
    | succ n =>
      simp only [get, own_none.2 (hf _ List.mem_cons_self), e]
      exact ih (fun x hx => hf x (List.mem_cons_of_mem _ hx)) (by simpa using hl)

theorem set_found {code : Code} {h : Heap} {k : Key} {v r : Value} {o : Nat} {c : List Nat} (hc : Chain h o c) :
    ∀ {fuel x p}, Found h k c x p → c.length ≤ fuel → set code h k v r fuel o = setAt code h x k v r p.desc := by
  induction hc with
  | last e =>
    intro fuel x p hf hl
    cases fuel with
    | zero => simp at hl
    | succ n =>
      cases hf with
      | here hp => simp only [set, own_of_prop hp]
      | later _ hf => cases hf
  | next e _ ih =>
    intro fuel x p hf hl
    cases fuel with
    | zero => simp at hl
    | succ n =>
      cases hf with
      | here hp => simp only [set, own_of_prop hp]
      | later hn hf =>
        simp only [set, own_none.2 hn, e]
        exact ih hf (by simpa using hl)

theorem set_absent {code : Code} {h : Heap} {k : Key} {v r : Value} {o : Nat} {c : List Nat} (hc : Chain h o c) :
    ∀ {fuel}, (∀ x ∈ c, h.prop x k = none) → c.length ≤ fuel → set code h k v r fuel o =
      setAt code h (c.getLast (chain_ne_nil hc)) k v r { writable := some true, enumerable := some true, configurable := some true } := by
  induction hc with
  | last e =>
    intro fuel hf hl
    cases fuel with
    | zero => simp at hl
    | succ n => simp only [set, own_none.2 (hf _ List.mem_cons_self), e, List.getLast_singleton]
  | next e hc ih =>
    intro fuel hf hl
    cases fuel with
    | zero => simp at hl
    | succ n =>
      simp only [set, own_none.2 (hf _ List.mem_cons_self), e]
      rw [ih (fun x hx => hf x (List.mem_cons_of_mem _ hx)) (by simpa using hl), List.getLast_cons (chain_ne_nil hc)]

/-- A property is in the chain or nowhere in it. -/
theorem found_or {h : Heap} (k : Key) (c : List Nat) : (∃ x p, Found h k c x p) ∨ ∀ x ∈ c, h.prop x k = none := by
  induction c with
  | nil => exact Or.inr (by simp)
  | cons o c ih =>
    cases e : h.prop o k with
    | some p => exact Or.inl ⟨o, p, .here e⟩
    | none =>
      rcases ih with ⟨x, p, hf⟩ | hn
      · exact Or.inl ⟨x, p, .later e hf⟩
      · exact Or.inr fun x hx => by
          rcases List.mem_cons.1 hx with rfl | hx
          · exact e
          · exact hn x hx

theorem chain_proto {h h' : Heap} (hp : ∀ x, (h'.at x).proto = (h.at x).proto) {o : Nat} {c : List Nat} (hc : Chain h o c) :
    Chain h' o c := by
  induction hc with
  | last e => exact .last (by rw [hp]; exact e)
  | next e _ ih => exact .next (by rw [hp]; exact e) ih

theorem onlyAt_setProp {h : Heap} {o : Nat} {k : Key} {p : Prop'} : OnlyAt h (h.setProp o k p) o k := by
  refine ⟨length_setProp h o k p, fun x => proto_setProp h o x k p, fun x j hne => ?_⟩
  unfold Heap.prop Heap.setProp
  rw [at_modify]
  split
  · next e =>
    obtain ⟨rfl, _⟩ := e
    simp only [find_insert]
    rw [if_neg (fun e => by rcases hne with h1 | h1; exact h1 rfl; exact h1 e.symm)]
  · rfl

theorem onlyAt_refl (h : Heap) (o : Nat) (k : Key) : OnlyAt h h o k := ⟨rfl, fun _ => rfl, fun _ _ _ => rfl⟩

theorem last_lt {h : Heap} (ho : Older h) {o : Nat} (hl : o < h.length) {c : List Nat} (hc : Chain h o c) :
    ∀ x ∈ c, x < h.length := by
  induction hc with
  | last _ => intro x hx; rcases List.mem_singleton.1 hx with rfl; exact hl
  | next e _ ih =>
    intro x hx
    have := ho _ _ e
    rcases List.mem_cons.1 hx with rfl | hx
    · exact hl
    · exact ih (by omega) x hx

theorem chain_len {h : Heap} (ho : Older h) {o : Nat} {c : List Nat} (hc : Chain h o c) : c.length ≤ o + 1 := by
  induction hc with
  | last _ => simp
  | next e _ ih => have := ho _ _ e; simp; omega

theorem found_mem {h : Heap} {k : Key} {c : List Nat} {x : Nat} {p : Prop'} (hf : Found h k c x p) :
    x ∈ c ∧ h.prop x k = some p := by
  induction hf with
  | here hp => exact ⟨List.mem_cons_self, hp⟩
  | later _ _ ih => exact ⟨List.mem_cons_of_mem _ ih.1, ih.2⟩

end Verif.Script
