import Verif.Selector.Strings
import Verif.Dom.Finite
/-! The matching loops compute the declarative meaning. -/
namespace Verif.Selector
open Verif.Dom (Kids InSubtree Rep Chain Heap siblings_of_split chain_mem)

/-- A document whose links represent `k` and whose ancestor chains are finite. -/
structure Good (d : Doc) (k : Kids) : Prop where
  rep : Rep d.heap k
  chain : ∀ n, ∃ l, Chain k n l

/-- For enough fuel the answer is `a`. -/
def Settles {α} (f : Nat → Except Fault α) (a : α) : Prop := ∃ N, ∀ fuel, N ≤ fuel → f fuel = .ok a

theorem settles_pure {α} (a : α) : Settles (fun _ => .ok a) a := ⟨0, fun _ _ => rfl⟩

theorem Settles.bind {α β} {f : Nat → Except Fault α} {a : α} {g : Nat → α → Except Fault β} {b : β}
    (h : Settles f a) (hg : Settles (fun n => g n a) b) : Settles (fun n => (f n).bind (g n)) b := by
  obtain ⟨N, hN⟩ := h
  obtain ⟨M, hM⟩ := hg
  refine ⟨max N M, fun n hn => ?_⟩
  show Except.bind (f n) (g n) = .ok b
  rw [hN n (by omega)]
  exact hM n (by omega)

theorem settles_list {α ι} {F : ι → Nat → Except Fault α} {B : ι → α} (l : List ι)
    (h : ∀ q ∈ l, Settles (F q) (B q)) : ∃ N, ∀ fuel, N ≤ fuel → ∀ q ∈ l, F q fuel = .ok (B q) := by
  induction l with
  | nil => exact ⟨0, by simp⟩
  | cons q l ih =>
    obtain ⟨N, hN⟩ := ih (fun x hx => h x (by simp [hx]))
    obtain ⟨M, hM⟩ := h q (by simp)
    refine ⟨max N M, fun f hf x hx => ?_⟩
    simp only [List.mem_cons] at hx
    rcases hx with rfl | hx
    · exact hM f (by omega)
    · exact hN f (by omega) x hx

theorem elem?_some {d : Doc} {n e} : d.elem? n = some e ↔ d.data n = .element e := by
  unfold Doc.elem?; cases d.data n <;> simp

theorem elem?_none {d : Doc} {n} : d.elem? n = none ↔ d.data n = .other := by
  unfold Doc.elem?; cases d.data n <;> simp

/-- Predicates used by the loops: false off elements. -/
def OnElems (d : Doc) (P : Nat → Bool) : Prop := ∀ q, d.elem? q = none → P q = false

theorem climb_ok {d : Doc} {k} (g : Good d k) {p : Nat → Answer} {P : Nat → Bool} (hP : OnElems d P) {n l}
    (hc : Chain k n l) : ∀ f, l.length < f → (∀ q ∈ l, p q = .ok (P q)) → climb d p f n = .ok (l.any P) := by
  induction hc with
  | root hr =>
    intro f hf _
    cases f with
    | zero => omega
    | succ f =>
      have : ∀ q, (d.heap _).parent ≠ some q := fun q hq => hr q ((g.rep.parent_iff _ _).1 hq)
      simp only [climb]
      split
      · rfl
      · rename_i q hq; exact absurd hq (this q)
  | @up n q l hq hl ih =>
    intro f hf hp
    cases f with
    | zero => omega
    | succ f =>
      simp only [climb, (g.rep.parent_iff _ _).2 hq]
      have ih := ih f (by simpa using hf) (fun x hx => hp x (by simp [hx]))
      cases he : d.elem? q with
      | none => simp [ih, hP q he]
      | some e =>
        simp only [hp q (by simp), Except.bind]
        cases hb : P q <;> simp [hb, ih]

theorem scanPrev_ok {d : Doc} {k} (g : Good d k) {p : Nat → Answer} {P : Nat → Bool} (hP : OnElems d P) {par : Nat} :
    ∀ (rpre : List Nat) (n : Nat) (post : List Nat) (f : Nat), k par = rpre.reverse ++ n :: post → rpre.length < f →
      (∀ q ∈ rpre, p q = .ok (P q)) → scanPrev d p f n = .ok (rpre.any P) := by
  intro rpre
  induction rpre with
  | nil =>
    intro n post f e hf _
    cases f with
    | zero => omega
    | succ f =>
      have := (siblings_of_split g.rep e).1
      simp only [List.reverse_nil, List.getLast?_nil] at this
      simp [scanPrev, this]
  | cons q l ih =>
    intro n post f e hf hp
    cases f with
    | zero => omega
    | succ f =>
      have hs := (siblings_of_split g.rep e).1
      simp only [List.reverse_cons, List.getLast?_append, List.getLast?_singleton, Option.some_or] at hs
      have ih := ih q (n :: post) f (by simpa using e) (by simpa using hf) (fun x hx => hp x (by simp [hx]))
      simp only [scanPrev, hs]
      cases he : d.elem? q with
      | none => simp [ih, hP q he]
      | some e =>
        simp only [hp q (by simp), Except.bind]
        cases hb : P q <;> simp [hb, ih]

theorem count_prev {d : Doc} {k} (g : Good d k) {p : Nat → Answer} {P : Nat → Bool} {par : Nat} :
    ∀ (rpre : List Nat) (n : Nat) (post : List Nat) (f : Nat), k par = rpre.reverse ++ n :: post → rpre.length < f →
      (∀ q ∈ rpre, p q = .ok (P q)) → countSiblings d false p f n = .ok (rpre.countP P) := by
  intro rpre
  induction rpre with
  | nil =>
    intro n post f e hf _
    cases f with
    | zero => omega
    | succ f =>
      have := (siblings_of_split g.rep e).1
      simp only [List.reverse_nil, List.getLast?_nil] at this
      simp [countSiblings, this]
  | cons q l ih =>
    intro n post f e hf hp
    cases f with
    | zero => omega
    | succ f =>
      have hs := (siblings_of_split g.rep e).1
      simp only [List.reverse_cons, List.getLast?_append, List.getLast?_singleton, Option.some_or] at hs
      have ih := ih q (n :: post) f (by simpa using e) (by simpa using hf) (fun x hx => hp x (by simp [hx]))
      simp only [countSiblings, Bool.false_eq_true, if_false, hs, hp q (by simp), Except.bind, ih, List.countP_cons]
      cases P q <;> simp

theorem count_next {d : Doc} {k} (g : Good d k) {p : Nat → Answer} {P : Nat → Bool} {par : Nat} :
    ∀ (post : List Nat) (n : Nat) (pre : List Nat) (f : Nat), k par = pre ++ n :: post → post.length < f →
      (∀ q ∈ post, p q = .ok (P q)) → countSiblings d true p f n = .ok (post.countP P) := by
  intro post
  induction post with
  | nil =>
    intro n pre f e hf _
    cases f with
    | zero => omega
    | succ f =>
      have := (siblings_of_split g.rep e).2.1
      simp only [List.head?_nil] at this
      simp [countSiblings, this]
  | cons q l ih =>
    intro n pre f e hf hp
    cases f with
    | zero => omega
    | succ f =>
      have hs := (siblings_of_split g.rep e).2.1
      simp only [List.head?_cons] at hs
      have ih := ih q (pre ++ [n]) f (by simpa using e) (by simpa using hf) (fun x hx => hp x (by simp [hx]))
      simp only [countSiblings, if_true, hs, hp q (by simp), Except.bind, ih, List.countP_cons]
      cases P q <;> simp

/-- Every node has a list of siblings on either side, and it is unique. -/
theorem siblings_exist {d : Doc} {k} (g : Good d k) (rev : Bool) (n : Nat) : ∃ l, SiblingsOn k rev n l := by
  by_cases h : ∃ p, n ∈ k p
  · obtain ⟨p, hp⟩ := h
    obtain ⟨pre, post, e⟩ := List.append_of_mem hp
    cases rev
    · exact ⟨pre, .inl ⟨p, post, by simpa using e⟩⟩
    · exact ⟨post, .inl ⟨p, pre, by simpa using e⟩⟩
  · exact ⟨[], .inr ⟨fun p hp => h ⟨p, hp⟩, rfl⟩⟩

theorem split_unique {l pre pre' post post' : List Nat} {n : Nat} (hn : l.Nodup)
    (h1 : l = pre ++ n :: post) (h2 : l = pre' ++ n :: post') : pre = pre' ∧ post = post' := by
  subst h1
  rw [List.nodup_append] at hn
  rcases List.append_eq_append_iff.1 h2 with ⟨a, rfl, e⟩ | ⟨a, rfl, e⟩
  · cases a with
    | nil => simp at e; simp [e]
    | cons x a =>
      exfalso
      simp at e
      obtain ⟨rfl, e⟩ := e
      have := hn.2.1
      rw [e] at this
      simp at this
  · cases a with
    | nil => simp at e; simp [e]
    | cons x a =>
      exfalso
      simp at e
      obtain ⟨rfl, e⟩ := e
      exact hn.2.2 n (by simp) n (by simp) rfl

theorem siblings_unique {d : Doc} {k} (g : Good d k) {rev : Bool} {n : Nat} {l l'}
    (h : SiblingsOn k rev n l) (h' : SiblingsOn k rev n l') : l = l' := by
  rcases h with ⟨p, o, h⟩ | ⟨h, rfl⟩
  · rcases h' with ⟨p', o', h'⟩ | ⟨h', rfl⟩
    · have hp : p = p' := by
        apply g.rep.unique (c := n)
        · cases rev <;> simp at h <;> rw [h] <;> simp
        · cases rev <;> simp at h' <;> rw [h'] <;> simp
      subst hp
      cases rev
      · exact (split_unique (g.rep.nodup p) (by simpa using h) (by simpa using h')).1
      · exact (split_unique (g.rep.nodup p) (by simpa using h) (by simpa using h')).2
    · exfalso; apply h' p
      cases rev <;> simp at h <;> rw [h] <;> simp
  · rcases h' with ⟨p', o', h'⟩ | ⟨h', rfl⟩
    · exfalso; apply h p'
      cases rev <;> simp at h' <;> rw [h'] <;> simp
    · rfl

theorem count_ok {d : Doc} {k} (g : Good d k) {p : Nat → Answer} {P : Nat → Bool} {rev : Bool} {n : Nat} {l : List Nat}
    (hs : SiblingsOn k rev n l) (f : Nat) (hf : l.length < f) (hp : ∀ q ∈ l, p q = .ok (P q)) :
    countSiblings d rev p f n = .ok (l.countP P) := by
  rcases hs with ⟨par, o, h⟩ | ⟨h, rfl⟩
  · cases rev
    · have := count_prev g (p := p) (P := P) (par := par) l.reverse n o f (by simpa using h) (by simpa using hf)
        (by simpa using hp)
      simpa [List.countP_eq_length_filter] using this
    · exact count_next g l n o f (by simpa using h) hf hp
  · cases f with
    | zero => simp at hf
    | succ f =>
      have hn : (d.heap n).parent = none := by
        cases e : (d.heap n).parent with
        | none => rfl
        | some q => exact absurd (g.rep.mem _ _ e) (h q)
      have := g.rep.orphan n hn
      cases rev <;> simp [countSiblings, this]

/-- `An+B` positions.  Truncated division is exact when the remainder is zero. -/
theorem anb_iff (s : AnB) (i : Nat) : s.matches i = true ↔ ∃ n : Nat, s.a * n + s.b = i := by
  unfold AnB.matches
  by_cases ha : s.a = 0
  · simp only [ha, if_true, beq_iff_eq]
    constructor
    · intro h; exact ⟨0, by omega⟩
    · rintro ⟨n, h⟩; omega
  · simp only [ha, if_false]
    by_cases hm : Int.tmod ((i : Int) - s.b) s.a = 0
    · simp only [hm, ne_eq, not_true_eq_false, if_false, decide_eq_true_eq]
      have he := Int.mul_tdiv_add_tmod ((i : Int) - s.b) s.a
      rw [hm] at he
      constructor
      · intro h
        refine ⟨(Int.tdiv ((i : Int) - s.b) s.a).toNat, ?_⟩
        rw [Int.toNat_of_nonneg h]; omega
      · rintro ⟨n, h⟩
        have hx : (i : Int) - s.b = s.a * n := by omega
        rw [hx, Int.mul_tdiv_cancel_left _ ha]
        omega
    · simp only [hm, ne_eq, not_false_eq_true, if_true, Bool.false_eq_true, false_iff]
      rintro ⟨n, h⟩
      apply hm
      have hx : (i : Int) - s.b = s.a * n := by omega
      rw [hx]; exact Int.mul_tmod_right _ _

theorem nth_iff {d : Doc} {k} (g : Good d k) {rev : Bool} {anb : AnB} {n : Nat} {l : List Nat}
    (hs : SiblingsOn k rev n l) (P : Nat → Prop) :
    open Classical in
    (anb.matches (l.countP (fun m => decide (P m)) + 1) = true ↔ Nth k rev anb P n) := by
  rw [anb_iff]
  unfold Nth
  constructor
  · rintro ⟨i, h⟩; exact ⟨l, hs, i, h⟩
  · rintro ⟨l', hs', i, h⟩
    have := siblings_unique g hs hs'
    subst this
    exact ⟨i, h⟩

theorem first_iff {d : Doc} {k} (g : Good d k) {rev : Bool} {n : Nat} (P : Nat → Prop) :
    Nth k rev ⟨0, 1⟩ P n ↔ ∃ l, SiblingsOn k rev n l ∧ ∀ m ∈ l, ¬ P m := by
  unfold Nth
  constructor
  · rintro ⟨l, hs, i, h⟩
    refine ⟨l, hs, fun m hm hp => ?_⟩
    have : 0 < l.countP (fun m => @decide (P m) (Classical.propDecidable _)) := List.countP_pos_iff.2 ⟨m, hm, by simpa using hp⟩
    simp at h; omega
  · rintro ⟨l, hs, h⟩
    refine ⟨l, hs, 0, ?_⟩
    have : l.countP (fun m => @decide (P m) (Classical.propDecidable _)) = 0 := List.countP_eq_zero.2 fun m hm => by simpa using h m hm
    simp; omega

end Verif.Selector
