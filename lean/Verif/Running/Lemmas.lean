import Verif.Running.Model
import Verif.Running.Spec
/-!
# Running elements: lemmas
-/
namespace Verif.Running
open Spec

theorem lookup_add (page : Nat) (name : String) (elem : Nat) (t : Table) (k : String) :
    lookup k (add page name elem t) = if name = k then some ((lookup k t).getD [] ++ [⟨page, elem⟩]) else lookup k t := by
  induction t with
  | nil => simp only [add, lookup]; split <;> rfl
  | cons a t ih =>
    obtain ⟨j, l⟩ := a
    simp only [add]
    by_cases h : j = name
    · subst h
      simp only [if_true, lookup]
      split <;> rfl
    · simp only [h, if_false, lookup, ih]
      by_cases h2 : j = k
      · subst h2
        simp [Ne.symm h]
      · simp only [h2, if_false]

/-- The entries of a name, pages counted from `p`. -/
def entries (name : String) : Nat → List (List Met) → List Info
  | _, [] => []
  | p, m :: rest => (named name m).map (Info.mk p) ++ entries name (p + 1) rest

/-- A list of the map, absent if it is empty. -/
def listed (l : List Info) : Option (List Info) := if l = [] then none else some l

theorem listed_append (l m : List Info) : (if m = [] then listed l else some ((listed l).getD [] ++ m)) = listed (l ++ m) := by
  unfold listed
  by_cases h : m = []
  · subst h; simp
  · by_cases hl : l = [] <;> simp [h, hl]

theorem lookup_addAll (page : Nat) (met : List Met) (name : String) : ∀ (t : Table) (l : List Info),
    lookup name t = listed l → lookup name (addAll page met t) = listed (l ++ (named name met).map (Info.mk page)) := by
  induction met with
  | nil => intro t l h; simpa [addAll, named] using h
  | cons m met ih =>
    intro t l h
    have e : addAll page (m :: met) t = addAll page met (add page m.1 m.2 t) := rfl
    rw [e]
    by_cases hm : m.1 = name
    · rw [ih _ (l ++ [⟨page, m.2⟩]) (by rw [lookup_add, if_pos hm, h, ← listed_append]; rfl)]
      simp [named, hm]
    · rw [ih _ l (by rw [lookup_add, if_neg hm, h])]
      simp [named, hm]

theorem lookup_tableFrom (name : String) (pages : List (List Met)) : ∀ (p : Nat) (t : Table) (l : List Info),
    lookup name t = listed l → lookup name (tableFrom p pages t) = listed (l ++ entries name p pages) := by
  induction pages with
  | nil => intro p t l h; simpa [tableFrom, entries] using h
  | cons m pages ih =>
    intro p t l h
    rw [tableFrom, ih _ _ _ (lookup_addAll p m name t l h), entries, List.append_assoc]

theorem entries_append (name : String) (a b : List (List Met)) : ∀ p,
    entries name p (a ++ b) = entries name p a ++ entries name (p + a.length) b := by
  induction a with
  | nil => intro p; rfl
  | cons m a ih => intro p; simp [entries, ih, Nat.add_assoc, Nat.add_comm 1]

theorem entries_elems (name : String) (a : List (List Met)) : ∀ p,
    (entries name p a).map Info.elem = a.flatMap (named name) := by
  induction a with
  | nil => intro p; rfl
  | cons m a ih => intro p; simp [entries, ih, Function.comp_def]

theorem entries_lt (name : String) (a : List (List Met)) : ∀ p, ∀ x ∈ entries name p a, p ≤ x.page ∧ x.page < p + a.length := by
  induction a with
  | nil => intro p x h; cases h
  | cons m a ih =>
    intro p x h
    simp only [entries, List.mem_append, List.mem_map] at h
    simp only [List.length_cons]
    rcases h with ⟨y, _, rfl⟩ | h
    · exact ⟨Nat.le_refl _, by simp only; omega⟩
    · have := ih (p + 1) x h
      omega

/-- The entries at the time page `n` is painted: those before it and those on it. -/
theorem entries_split (name : String) (pages : List (List Met)) (n : Nat) (h1 : 1 ≤ n) (h2 : n ≤ pages.length) :
    ∃ B O : List Info, entries name 1 (pages.take n) = B ++ O ∧ (∀ x ∈ B, x.page < n) ∧ (∀ x ∈ O, x.page = n) ∧
      B.map Info.elem = (pages.take (n - 1)).flatMap (named name) ∧ O.map Info.elem = onPage pages name n := by
  obtain ⟨m, rfl⟩ : ∃ m, n = m + 1 := ⟨n - 1, by omega⟩
  have hm : m < pages.length := by omega
  refine ⟨entries name 1 (pages.take m), (named name pages[m]).map (Info.mk (m + 1)), ?_, ?_, ?_, ?_, ?_⟩
  · rw [List.take_succ_eq_append_getElem hm, entries_append]
    simp [entries, List.length_take, Nat.min_eq_left (Nat.le_of_lt hm), Nat.add_comm 1 m]
  · intro x hx
    have := entries_lt name _ 1 x hx
    simp only [List.length_take] at this
    omega
  · intro x hx
    simp only [List.mem_map] at hx
    obtain ⟨y, _, rfl⟩ := hx
    rfl
  · exact entries_elems name _ 1
  · have e : onPage pages name (m + 1) = named name pages[m] := by
      simp only [onPage, Nat.add_sub_cancel]
      rw [List.getElem?_eq_getElem hm]
    rw [e]
    simp [Function.comp_def]

/-- What is expected of the binary search: in a list ordered by pages it finds an entry of the page if there is
one. -/
def SearchOk (search : List Info → Nat → Option Nat) : Prop :=
  ∀ (l : List Info) (page : Nat), l.Pairwise (fun a b => a.page ≤ b.page) →
    (search l page = none ∧ ∀ x ∈ l, x.page ≠ page) ∨ ∃ i x, search l page = some i ∧ l[i]? = some x ∧ x.page = page

theorem pairwise_of_split (B O : List Info) (n : Nat) (h1 : ∀ x ∈ O, x.page = n) (h2 : ∀ x ∈ B, x.page < n)
    (h3 : B.Pairwise (fun a b => a.page ≤ b.page)) : (B ++ O).Pairwise (fun a b => a.page ≤ b.page) := by
  rw [List.pairwise_append]
  refine ⟨h3, ?_, fun a ha b hb => by have := h1 b hb; have := h2 a ha; omega⟩
  induction O with
  | nil => exact List.Pairwise.nil
  | cons a O ih =>
    refine List.Pairwise.cons (fun b hb => ?_) (ih fun x hx => h1 x (List.mem_cons_of_mem _ hx))
    rw [h1 a List.mem_cons_self, h1 b (List.mem_cons_of_mem _ hb)]
    exact Nat.le_refl _

theorem entries_sorted (name : String) (a : List (List Met)) : ∀ p,
    (entries name p a).Pairwise (fun a b => a.page ≤ b.page) := by
  induction a with
  | nil => intro p; exact List.Pairwise.nil
  | cons m a ih =>
    intro p
    rw [entries, List.pairwise_append]
    refine ⟨?_, ih _, fun x hx y hy => ?_⟩
    · rw [List.pairwise_map]
      exact List.Pairwise.imp (fun _ => Nat.le_refl _) (List.pairwise_of_forall (R := fun _ _ => True) (fun _ _ => trivial))
    · simp only [List.mem_map] at hx
      obtain ⟨z, _, rfl⟩ := hx
      have := entries_lt name a (p + 1) y hy
      simp only
      omega

theorem left_eq (B O : List Info) (n : Nat) (h1 : ∀ x ∈ O, x.page = n) (h2 : ∀ x ∈ B, x.page < n) :
    ∀ i, B.length ≤ i → i < B.length + O.length → left (B ++ O) n i = B.length := by
  intro i
  induction i with
  | zero => intro h _; simp only [left]; omega
  | succ i ih =>
    intro ha hb
    simp only [left]
    have hi : i < (B ++ O).length := by rw [List.length_append]; omega
    rw [List.getElem?_eq_getElem hi]
    simp only
    by_cases hc : i < B.length
    · have : ((B ++ O)[i]).page < n := by rw [List.getElem_append_left hc]; exact h2 _ (List.getElem_mem _)
      rw [if_neg (by omega)]
      omega
    · have : ((B ++ O)[i]).page = n := by rw [List.getElem_append_right (by omega)]; exact h1 _ (List.getElem_mem _)
      rw [if_pos this]
      exact ih (by omega) (by omega)

theorem right_eq (B O : List Info) (n : Nat) (h1 : ∀ x ∈ O, x.page = n) :
    ∀ fuel i, B.length ≤ i → i < B.length + O.length → B.length + O.length ≤ i + fuel →
      right (B ++ O) n fuel i = B.length + O.length - 1 := by
  intro fuel
  induction fuel with
  | zero => intro i _ hb hc; omega
  | succ fuel ih =>
    intro i ha hb hc
    simp only [right, List.length_append]
    by_cases hd : i < B.length + O.length - 1
    · rw [if_pos hd]
      have hi : i + 1 < (B ++ O).length := by rw [List.length_append]; omega
      rw [List.getElem?_eq_getElem hi]
      simp only
      have : ((B ++ O)[i + 1]).page = n := by rw [List.getElem_append_right (by omega)]; exact h1 _ (List.getElem_mem _)
      rw [if_pos this]
      exact ih (i + 1) (by omega) (by omega) (by omega)
    · rw [if_neg hd]
      omega

/-- `_searchPage`: the entries of the page, or else the very first entry. -/
theorem searchPage_eq (search : List Info → Nat → Option Nat) (hs : SearchOk search) (B O : List Info) (n : Nat)
    (h1 : ∀ x ∈ O, x.page = n) (h2 : ∀ x ∈ B, x.page < n) (h3 : B.Pairwise (fun a b => a.page ≤ b.page)) :
    searchPage search (B ++ O) n = if O = [] then B.take 1 else O := by
  unfold searchPage
  rcases hs (B ++ O) n (pairwise_of_split B O n h1 h2 h3) with ⟨e, h⟩ | ⟨i, x, e, hx, hp⟩
  · rw [e]
    have : O = [] := by
      cases O with
      | nil => rfl
      | cons a O => exact absurd (h1 a List.mem_cons_self) (h a (by simp))
    subst this
    simp
  · rw [e]
    have hi : i < (B ++ O).length := (List.getElem?_eq_some_iff.1 hx).1
    have hx' : (B ++ O)[i] = x := (List.getElem?_eq_some_iff.1 hx).2
    rw [List.length_append] at hi
    have hB : B.length ≤ i := by
      apply Nat.le_of_not_lt
      intro hc
      rw [List.getElem_append_left hc] at hx'
      have := h2 _ (List.getElem_mem hc)
      rw [hx'] at this
      omega
    have hO : O ≠ [] := by rintro rfl; simp at hi; omega
    rw [if_neg hO]
    simp only
    rw [left_eq B O n h1 h2 i hB hi, right_eq B O n h1 _ i hB hi (by rw [List.length_append]; omega)]
    have : B.length + O.length - 1 + 1 = (B ++ O).length := by rw [List.length_append]; omega
    rw [this, List.take_length, List.drop_left]

theorem startLoop_skip (n : Nat) (B O : List Info) (h : ∀ x ∈ B, x.page < n) : ∀ (p : Info),
    startLoop n (some p) (B ++ O) = startLoop n ((B.getLast?).or (some p)) O := by
  induction B with
  | nil => intro p; rfl
  | cons b B ih =>
    intro p
    have hb := h b List.mem_cons_self
    simp only [List.cons_append, startLoop]
    rw [if_neg (by omega), ih (fun x hx => h x (List.mem_cons_of_mem _ hx)) b]
    cases B with
    | nil => rfl
    | cons c B =>
      obtain ⟨v, hv⟩ : ∃ v, (c :: B).getLast? = some v := ⟨_, List.getLast?_cons⟩
      rw [List.getLast?_cons_cons, hv]
      rfl

/-- The loop of `START`: the last entry before the page if it has entries, or else the very first one. -/
theorem start_eq (n : Nat) (B O : List Info) (h1 : ∀ x ∈ O, x.page = n) (h2 : ∀ x ∈ B, x.page < n) :
    (startLoop n none (B ++ O)).or (B ++ O)[0]? = if O = [] then B.head? else (B.getLast?).or O.head? := by
  cases B with
  | nil =>
    cases O with
    | nil => rfl
    | cons o O =>
      cases O with
      | nil => simp [startLoop]
      | cons q O => simp [startLoop, h1 q (by simp)]
  | cons b B =>
    simp only [List.cons_append, startLoop]
    rw [startLoop_skip n B O (fun x hx => h2 x (List.mem_cons_of_mem _ hx)) b]
    cases O with
    | nil => simp [startLoop]
    | cons o O =>
      have ho := h1 o List.mem_cons_self
      have e : ((b :: B).getLast?) = (B.getLast?).or (some b) := by
        cases B with
        | nil => rfl
        | cons c B =>
          obtain ⟨v, hv⟩ : ∃ v, (c :: B).getLast? = some v := ⟨_, List.getLast?_cons⟩
          rw [List.getLast?_cons_cons, hv]; rfl
      rw [e]
      cases hb : B.getLast? with
      | none => simp [startLoop, ho]
      | some v => simp [startLoop, ho]

end Verif.Running
