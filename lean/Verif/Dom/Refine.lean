import Verif.Dom.Lemmas
/-! Each edit on the heap refines the edit on child lists. -/
namespace Verif.Dom

@[simp] theorem Heap.setParent_parent (h : Heap) (n m : Nat) (v) : (h.setParent n v m).parent = if m = n then v else (h m).parent := by
  unfold Heap.setParent; split <;> rfl
@[simp] theorem Heap.setParent_firstChild (h : Heap) (n m : Nat) (v) : (h.setParent n v m).firstChild = (h m).firstChild := by
  unfold Heap.setParent; split <;> rfl
@[simp] theorem Heap.setParent_lastChild (h : Heap) (n m : Nat) (v) : (h.setParent n v m).lastChild = (h m).lastChild := by
  unfold Heap.setParent; split <;> rfl
@[simp] theorem Heap.setParent_nextSibling (h : Heap) (n m : Nat) (v) : (h.setParent n v m).nextSibling = (h m).nextSibling := by
  unfold Heap.setParent; split <;> rfl
@[simp] theorem Heap.setParent_prevSibling (h : Heap) (n m : Nat) (v) : (h.setParent n v m).prevSibling = (h m).prevSibling := by
  unfold Heap.setParent; split <;> rfl
@[simp] theorem Heap.setFirst_parent (h : Heap) (n m : Nat) (v) : (h.setFirst n v m).parent = (h m).parent := by
  unfold Heap.setFirst; split <;> rfl
@[simp] theorem Heap.setFirst_firstChild (h : Heap) (n m : Nat) (v) : (h.setFirst n v m).firstChild = if m = n then v else (h m).firstChild := by
  unfold Heap.setFirst; split <;> rfl
@[simp] theorem Heap.setFirst_lastChild (h : Heap) (n m : Nat) (v) : (h.setFirst n v m).lastChild = (h m).lastChild := by
  unfold Heap.setFirst; split <;> rfl
@[simp] theorem Heap.setFirst_nextSibling (h : Heap) (n m : Nat) (v) : (h.setFirst n v m).nextSibling = (h m).nextSibling := by
  unfold Heap.setFirst; split <;> rfl
@[simp] theorem Heap.setFirst_prevSibling (h : Heap) (n m : Nat) (v) : (h.setFirst n v m).prevSibling = (h m).prevSibling := by
  unfold Heap.setFirst; split <;> rfl
@[simp] theorem Heap.setLast_parent (h : Heap) (n m : Nat) (v) : (h.setLast n v m).parent = (h m).parent := by
  unfold Heap.setLast; split <;> rfl
@[simp] theorem Heap.setLast_firstChild (h : Heap) (n m : Nat) (v) : (h.setLast n v m).firstChild = (h m).firstChild := by
  unfold Heap.setLast; split <;> rfl
@[simp] theorem Heap.setLast_lastChild (h : Heap) (n m : Nat) (v) : (h.setLast n v m).lastChild = if m = n then v else (h m).lastChild := by
  unfold Heap.setLast; split <;> rfl
@[simp] theorem Heap.setLast_nextSibling (h : Heap) (n m : Nat) (v) : (h.setLast n v m).nextSibling = (h m).nextSibling := by
  unfold Heap.setLast; split <;> rfl
@[simp] theorem Heap.setLast_prevSibling (h : Heap) (n m : Nat) (v) : (h.setLast n v m).prevSibling = (h m).prevSibling := by
  unfold Heap.setLast; split <;> rfl
@[simp] theorem Heap.setNext_parent (h : Heap) (n m : Nat) (v) : (h.setNext n v m).parent = (h m).parent := by
  unfold Heap.setNext; split <;> rfl
@[simp] theorem Heap.setNext_firstChild (h : Heap) (n m : Nat) (v) : (h.setNext n v m).firstChild = (h m).firstChild := by
  unfold Heap.setNext; split <;> rfl
@[simp] theorem Heap.setNext_lastChild (h : Heap) (n m : Nat) (v) : (h.setNext n v m).lastChild = (h m).lastChild := by
  unfold Heap.setNext; split <;> rfl
@[simp] theorem Heap.setNext_nextSibling (h : Heap) (n m : Nat) (v) : (h.setNext n v m).nextSibling = if m = n then v else (h m).nextSibling := by
  unfold Heap.setNext; split <;> rfl
@[simp] theorem Heap.setNext_prevSibling (h : Heap) (n m : Nat) (v) : (h.setNext n v m).prevSibling = (h m).prevSibling := by
  unfold Heap.setNext; split <;> rfl
@[simp] theorem Heap.setPrev_parent (h : Heap) (n m : Nat) (v) : (h.setPrev n v m).parent = (h m).parent := by
  unfold Heap.setPrev; split <;> rfl
@[simp] theorem Heap.setPrev_firstChild (h : Heap) (n m : Nat) (v) : (h.setPrev n v m).firstChild = (h m).firstChild := by
  unfold Heap.setPrev; split <;> rfl
@[simp] theorem Heap.setPrev_lastChild (h : Heap) (n m : Nat) (v) : (h.setPrev n v m).lastChild = (h m).lastChild := by
  unfold Heap.setPrev; split <;> rfl
@[simp] theorem Heap.setPrev_nextSibling (h : Heap) (n m : Nat) (v) : (h.setPrev n v m).nextSibling = (h m).nextSibling := by
  unfold Heap.setPrev; split <;> rfl
@[simp] theorem Heap.setPrev_prevSibling (h : Heap) (n m : Nat) (v) : (h.setPrev n v m).prevSibling = if m = n then v else (h m).prevSibling := by
  unfold Heap.setPrev; split <;> rfl
@[simp] theorem ite_heap_parent (c : Prop) [Decidable c] (g h : Heap) (m : Nat) : ((if c then g else h) m).parent = if c then (g m).parent else (h m).parent := by
  split <;> rfl
@[simp] theorem ite_heap_firstChild (c : Prop) [Decidable c] (g h : Heap) (m : Nat) : ((if c then g else h) m).firstChild = if c then (g m).firstChild else (h m).firstChild := by
  split <;> rfl
@[simp] theorem ite_heap_lastChild (c : Prop) [Decidable c] (g h : Heap) (m : Nat) : ((if c then g else h) m).lastChild = if c then (g m).lastChild else (h m).lastChild := by
  split <;> rfl
@[simp] theorem ite_heap_nextSibling (c : Prop) [Decidable c] (g h : Heap) (m : Nat) : ((if c then g else h) m).nextSibling = if c then (g m).nextSibling else (h m).nextSibling := by
  split <;> rfl
@[simp] theorem ite_heap_prevSibling (c : Prop) [Decidable c] (g h : Heap) (m : Nat) : ((if c then g else h) m).prevSibling = if c then (g m).prevSibling else (h m).prevSibling := by
  split <;> rfl

@[simp] theorem onSome_none (h : Heap) (f) : onSome none h f = h := rfl
@[simp] theorem onSome_some (h : Heap) (n : Nat) (f) : onSome (some n) h f = f h n := rfl

@[ext] theorem Links.ext' {a b : Links} (h1 : a.parent = b.parent) (h2 : a.firstChild = b.firstChild)
    (h3 : a.lastChild = b.lastChild) (h4 : a.nextSibling = b.nextSibling)
    (h5 : a.prevSibling = b.prevSibling) : a = b := by
  cases a; cases b; simp_all

theorem remove_fields {h : Heap} {n p : Nat} (hp : (h n).parent = some p)
    (h1 : (h n).nextSibling ≠ some n) (h2 : (h n).prevSibling ≠ some n) (m : Nat) :
    remove h n m =
      { parent := if m = n then none else (h m).parent
        firstChild := if m = p ∧ (h p).firstChild = some n then (h n).nextSibling else (h m).firstChild
        lastChild := if m = p ∧ (h p).lastChild = some n then (h n).prevSibling else (h m).lastChild
        nextSibling := if m = n then none else
          if (h n).prevSibling = some m then (h n).nextSibling else (h m).nextSibling
        prevSibling := if m = n then none else
          if (h n).nextSibling = some m then (h n).prevSibling else (h m).prevSibling } := by
  unfold remove
  simp only [hp]
  rcases hnx : (h n).nextSibling with _ | x <;> rcases hpv : (h n).prevSibling with _ | y <;>
  simp only [hnx, hpv, ne_eq, Option.some.injEq] at h1 h2 <;>
  apply Links.ext' <;> simp [hnx, hpv, h1, h2, Ne.symm h1, Ne.symm h2] <;> grind

theorem remove_none {h : Heap} {n : Nat} (hp : (h n).parent = none) : remove h n = h := by
  simp [remove, hp]

theorem detach_eq_remove (h : Heap) (n : Nat) : detach h n = remove h n := by
  unfold detach
  split
  · rfl
  · rename_i hh; rw [remove_none (by simpa using hh)]

theorem Rep.remove {h k} (r : Rep h k) (n : Nat) : Rep (remove h n) (k.detach n) := by
  rcases hp : (h n).parent with _ | p
  · rw [remove_none hp]
    have : k.detach n = k := by
      funext q
      apply detach_eq_self
      intro hq
      have := (r.parent_iff n q).2 hq
      simp [hp] at this
    rw [this]; exact r
  · have hmem := r.mem n p hp
    obtain ⟨pre, post, e, hpre, hpost, hprev, hnext⟩ := r.split hmem
    have e' := detach_split e hpre hpost
    have n1 : (h n).nextSibling ≠ some n := by
      rw [hnext]; intro hh; exact hpost (List.mem_of_mem_head? hh)
    have n2 : (h n).prevSibling ≠ some n := by
      rw [hprev]; intro hh; exact hpre (List.mem_of_mem_getLast? hh)
    have F := remove_fields hp n1 n2
    have hnd := r.nodup p
    rw [e] at hnd
    have hother : ∀ q, q ≠ p → k.detach n q = k q := fun q hq =>
      detach_eq_self (fun hh => hq (r.unique hh hmem))
    have hseg := r.seg p
    rw [e, DSeg.append] at hseg
    simp only [DSeg, List.head?_cons, Option.some_or, Option.or_none] at hseg
    obtain ⟨hs1, _, _, _, hs2⟩ := hseg
    have hdis : ∀ x ∈ pre, x ∉ post := by
      intro x hx hx'
      simp [List.nodup_append] at hnd
      exact (hnd.2.2 x hx).2 x hx' rfl
    constructor
    · intro q
      by_cases hq : q = p
      · subst hq
        rw [e', DSeg.append]
        simp only [Option.or_none]
        constructor
        · refine DSeg.setRight (b' := post.head?) (fun c hc => ?_) ?_ hs1
          · have hcn : c ≠ n := by rintro rfl; exact hpre hc
            have hcp : (h n).nextSibling ≠ some c := by
              rw [hnext]; intro hh; exact hdis c hc (List.mem_of_mem_head? hh)
            simp only [hprev, hnext] at hcp
            rw [F]; simp [hcn, hcp, hprev, hnext]
          · simp [List.nodup_append] at hnd; exact hnd.1
        · refine DSeg.setLeft (a' := pre.getLast?) (fun c hc => ?_) ?_ hs2
          · have hcn : c ≠ n := by rintro rfl; exact hpost hc
            have hcp : (h n).prevSibling ≠ some c := by
              rw [hprev]; intro hh; exact hdis c (List.mem_of_mem_getLast? hh) hc
            simp only [hprev, hnext] at hcp
            rw [F]; simp [hcn, hcp, hprev, hnext]
          · simp [List.nodup_append] at hnd; exact hnd.2.1.2
      · rw [hother q hq]
        refine DSeg.frame (fun c hc => ?_) (r.seg q)
        have hcn : c ≠ n := by rintro rfl; exact hq (r.unique hc hmem)
        have hcp : (h n).prevSibling ≠ some c := by
          rw [hprev]; intro hh
          exact hq (r.unique hc (by rw [e]; simp [List.mem_of_mem_getLast? hh]))
        have hcx : (h n).nextSibling ≠ some c := by
          rw [hnext]; intro hh
          exact hq (r.unique hc (by rw [e]; simp [List.mem_of_mem_head? hh]))
        rw [F]; simp only [hcn, hcp, hcx, if_false]; simp
    · intro q
      rw [F]
      by_cases hq : q = p
      · subst hq
        have := r.first q
        rw [e] at this
        simp only [e', true_and, hnext, this]
        cases pre with
        | nil => simp
        | cons a l => 
          have : a ≠ n := by rintro rfl; simp at hpre
          simp [this]
      · simp only [hq, false_and, if_false, hother q hq, r.first]
    · intro q
      rw [F]
      by_cases hq : q = p
      · subst hq
        have := r.last q
        rw [e] at this
        simp only [e', true_and, hprev, this]
        rcases List.eq_nil_or_concat post with rfl | ⟨l, x, rfl⟩
        · simp
        · have : x ≠ n := by rintro rfl; simp at hpost
          simp [List.getLast?_cons, this]
      · simp only [hq, false_and, if_false, hother q hq, r.last]
    · intro q
      exact (r.nodup q).sublist List.filter_sublist
    · intro c q hc
      rw [F] at hc
      simp only at hc
      split at hc
      · cases hc
      · simp only [Kids.detach, List.mem_filter]
        exact ⟨r.mem c q hc, by simpa using ‹¬ c = n›⟩
    · intro c hc
      rw [F] at hc ⊢
      simp only at hc ⊢
      split at hc
      · simp [*]
      · have := r.orphan c hc
        simp only [*, if_false]
        have h3 : pre.getLast? ≠ some c := by
          intro hh
          have := (r.parent_iff c p).2 (by rw [e]; simp [List.mem_of_mem_getLast? hh])
          simp [hc] at this
        have h4 : post.head? ≠ some c := by
          intro hh
          have := (r.parent_iff c p).2 (by rw [e]; simp [List.mem_of_mem_head? hh])
          simp [hc] at this
        simp only [h3, h4, if_false, and_self]

theorem remove_self_fields {h k} (r : Rep h k) (n : Nat) :
    (remove h n n).parent = none ∧ (remove h n n).prevSibling = none ∧
    (remove h n n).nextSibling = none := by
  have r' := r.remove n
  have : (remove h n n).parent = none := by
    rcases hp : (remove h n n).parent with _ | p
    · rfl
    · exact absurd (r'.mem n p hp) (not_mem_detach k n p)
  exact ⟨this, r'.orphan n this⟩

/-- Linking a detached node `n` between `pre` and `post` below `s`. -/
theorem Rep.link {h h' : Heap} {k : Kids} (r : Rep h k) {s n : Nat} {pre post : List Nat}
    (hn : (h n).parent = none) (e : k s = pre ++ post)
    (hpar : ∀ m, (h' m).parent = if m = n then some s else (h m).parent)
    (hprev : ∀ m, (h' m).prevSibling = if m = n then pre.getLast? else
      if post.head? = some m then some n else (h m).prevSibling)
    (hnext : ∀ m, (h' m).nextSibling = if m = n then post.head? else
      if pre.getLast? = some m then some n else (h m).nextSibling)
    (hfirst : ∀ m, (h' m).firstChild = if m = s then (pre ++ n :: post).head? else (h m).firstChild)
    (hlast : ∀ m, (h' m).lastChild = if m = s then (pre ++ n :: post).getLast? else (h m).lastChild) :
    Rep h' (k.set s (pre ++ n :: post)) := by
  have hfree : ∀ q, n ∉ k q := by
    intro q hq
    have := (r.parent_iff n q).2 hq
    simp [hn] at this
  have hnpre : n ∉ pre := fun hh => hfree s (by simp [e, hh])
  have hnpost : n ∉ post := fun hh => hfree s (by simp [e, hh])
  have hnd := r.nodup s
  rw [e] at hnd
  have hnd' : (pre ++ n :: post).Nodup := by
    simp only [List.nodup_append, List.nodup_cons] at hnd ⊢
    refine ⟨hnd.1, ⟨hnpost, hnd.2.1⟩, ?_⟩
    intro a ha b hb
    rcases List.mem_cons.1 hb with rfl | hb
    · rintro rfl; exact hnpre ha
    · exact hnd.2.2 a ha b hb
  have hdis : ∀ x ∈ pre, x ∉ post := by
    intro x hx hx'
    simp [List.nodup_append] at hnd
    exact hnd.2.2 x hx x hx' rfl
  have hseg := r.seg s
  rw [e, DSeg.append] at hseg
  simp only [Option.or_none] at hseg
  obtain ⟨hs1, hs2⟩ := hseg
  constructor
  · intro q
    by_cases hq : q = s
    · subst hq
      simp only [Kids.set, if_true]
      rw [DSeg.append]
      simp only [List.head?_cons, Option.some_or, Option.or_none, DSeg]
      refine ⟨?_, ?_, ?_, ?_, ?_⟩
      · refine DSeg.setRight (fun c hc => ?_) ?_ hs1
        · have hcn : c ≠ n := by rintro rfl; exact hnpre hc
          have hcp : post.head? ≠ some c := fun hh => hdis c hc (List.mem_of_mem_head? hh)
          refine ⟨?_, ?_, ?_⟩
          · rw [hpar]; simp [hcn]
          · rw [hprev]; simp [hcn, hcp]
          · rw [hnext]; simp [hcn]
        · simp [List.nodup_append] at hnd; exact hnd.1
      · rw [hpar]; simp
      · rw [hprev]; simp
      · rw [hnext]; simp
      · refine DSeg.setLeft (fun c hc => ?_) ?_ hs2
        · have hcn : c ≠ n := by rintro rfl; exact hnpost hc
          have hcp : pre.getLast? ≠ some c := fun hh => hdis c (List.mem_of_mem_getLast? hh) hc
          refine ⟨?_, ?_, ?_⟩
          · rw [hpar]; simp [hcn]
          · rw [hnext]; simp [hcn, hcp]
          · rw [hprev]; simp [hcn]
        · simp [List.nodup_append] at hnd; exact hnd.2.1
    · simp only [Kids.set, hq, if_false]
      refine DSeg.frame (fun c hc => ?_) (r.seg q)
      have hcn : c ≠ n := by rintro rfl; exact hfree q hc
      have hcs : c ∉ pre ++ post := fun hh => hq (r.unique hc (by rw [e]; exact hh))
      have h1 : post.head? ≠ some c := fun hh => hcs (by simp [List.mem_of_mem_head? hh])
      have h2 : pre.getLast? ≠ some c := fun hh => hcs (by simp [List.mem_of_mem_getLast? hh])
      rw [hpar, hprev, hnext]; simp [hcn, h1, h2]
  · intro q
    rw [hfirst]
    by_cases hq : q = s
    · simp [Kids.set, hq]
    · simp only [Kids.set, hq, if_false, r.first]
  · intro q
    rw [hlast]
    by_cases hq : q = s
    · simp [Kids.set, hq]
    · simp only [Kids.set, hq, if_false, r.last]
  · intro q
    by_cases hq : q = s
    · simp only [Kids.set, hq, if_true]; exact hnd'
    · simp only [Kids.set, hq, if_false]; exact r.nodup q
  · intro c q hc
    rw [hpar] at hc
    by_cases hcn : c = n
    · simp only [hcn, if_true, Option.some.injEq] at hc
      subst hc; simp [Kids.set, hcn]
    · simp only [hcn, if_false] at hc
      have := r.mem c q hc
      by_cases hq : q = s
      · subst hq; rw [e] at this
        simp only [Kids.set, if_true]
        simp only [List.mem_append, List.mem_cons] at this ⊢
        rcases this with h | h <;> simp [h]
      · simp only [Kids.set, hq, if_false]; exact this
  · intro c hc
    rw [hpar] at hc
    by_cases hcn : c = n
    · simp [hcn] at hc
    · simp only [hcn, if_false] at hc
      have h1 : post.head? ≠ some c := by
        intro hh
        have := (r.parent_iff c s).2 (by rw [e]; simp [List.mem_of_mem_head? hh])
        simp [hc] at this
      have h2 : pre.getLast? ≠ some c := by
        intro hh
        have := (r.parent_iff c s).2 (by rw [e]; simp [List.mem_of_mem_getLast? hh])
        simp [hc] at this
      rw [hprev, hnext]
      simp only [hcn, h1, h2, if_false]
      exact r.orphan c hc

theorem Rep.append {h k} (r : Rep h k) (s n : Nat) :
    Rep (appendChild h s n) ((k.detach n).set s (k.detach n s ++ [n])) := by
  have r0 := r.remove n
  obtain ⟨f1, f2, f3⟩ := remove_self_fields r n
  have hl := r0.last s
  have hf := r0.first s
  have hnn : (k.detach n s).getLast? ≠ some n := fun hh =>
    not_mem_detach k n s (List.mem_of_mem_getLast? hh)
  have key := Rep.link (h' := appendChild h s n) r0 (s := s) (n := n) (pre := k.detach n s) (post := [])
    f1 (by simp)
  unfold appendChild at key ⊢
  rw [detach_eq_remove] at key ⊢
  obtain ⟨l, el⟩ : ∃ l, k.detach n s = l := ⟨_, rfl⟩
  rw [el] at hl hf hnn key ⊢
  generalize Dom.remove h n = g at *
  apply key
  all_goals
    clear key r0 r
    intro m
    rcases List.eq_nil_or_concat l with rfl | ⟨l', x, rfl⟩ <;>
    simp at hl hf hnn <;> simp [hl, hf, f1, f2, f3] <;> grind

theorem Rep.prepend {h k} (r : Rep h k) (s n : Nat) :
    Rep (prependChild h s n) ((k.detach n).set s (n :: k.detach n s)) := by
  have r0 := r.remove n
  obtain ⟨f1, f2, f3⟩ := remove_self_fields r n
  have hl := r0.last s
  have hf := r0.first s
  have hnn : (k.detach n s).head? ≠ some n := fun hh =>
    not_mem_detach k n s (List.mem_of_mem_head? hh)
  have key := Rep.link (h' := prependChild h s n) r0 (s := s) (n := n) (pre := []) (post := k.detach n s)
    f1 (by simp)
  unfold prependChild at key ⊢
  rw [detach_eq_remove] at key ⊢
  obtain ⟨l, el⟩ : ∃ l, k.detach n s = l := ⟨_, rfl⟩
  rw [el] at hl hf hnn key ⊢
  generalize Dom.remove h n = g at *
  apply key
  all_goals
    clear key r0 r
    intro m
    rcases l with _ | ⟨x, l'⟩ <;>
    simp at hl hf hnn <;> simp [hl, hf, f1, f2, f3] <;> grind

theorem putBefore_split (n c : Nat) (pre post : List Nat) (hc : c ∉ pre) :
    putBefore n c (pre ++ c :: post) = pre ++ n :: c :: post := by
  induction pre with
  | nil => simp [putBefore]
  | cons x xs ih =>
    have : x ≠ c := by rintro rfl; simp at hc
    simp [putBefore, this, ih (fun hh => hc (by simp [hh]))]

theorem putAfter_split (n c : Nat) (pre post : List Nat) (hc : c ∉ pre) :
    putAfter n c (pre ++ c :: post) = pre ++ c :: n :: post := by
  induction pre with
  | nil => simp [putAfter]
  | cons x xs ih =>
    have : x ≠ c := by rintro rfl; simp at hc
    simp [putAfter, this, ih (fun hh => hc (by simp [hh]))]

theorem head_getD_ne {c x : Nat} {l : List Nat} (h1 : c ∉ l) (h2 : ¬ c = x) :
    l.head?.getD x ≠ c := by
  cases l with
  | nil => simp; exact fun h => h2 h.symm
  | cons a l => simp at h1 ⊢; exact fun h => h1.1 h.symm

theorem getLast_getD_ne {c x : Nat} {l : List Nat} (h1 : c ∉ l) (h2 : ¬ c = x) :
    l.getLast?.getD x ≠ c := by
  rcases List.eq_nil_or_concat l with rfl | ⟨l', y, rfl⟩
  · simp; exact fun h => h2 h.symm
  · simp at h1 ⊢; exact fun h => h1.2 h.symm

theorem Rep.insertBefore {h k} (r : Rep h k) (s n c : Nat) (hc : c ∈ k s) (hcn : c ≠ n) :
    Rep (insertBefore h s n (some c)) ((k.detach n).set s (putBefore n c (k.detach n s))) := by
  have r0 := r.remove n
  obtain ⟨f1, f2, f3⟩ := remove_self_fields r n
  have hc' : c ∈ k.detach n s := by simp [Kids.detach, hc, hcn]
  obtain ⟨pre, post, e, hpre, hpost, hprev, hnext⟩ := r0.split hc'
  have hf := r0.first s
  have hl := r0.last s
  have hnn : ∀ x ∈ k.detach n s, x ≠ n := by rintro x hx rfl; exact not_mem_detach k x s hx
  have key := Rep.link (h' := Dom.insertBefore h s n (some c)) r0 (s := s) (n := n) (pre := pre)
    (post := c :: post) f1 e
  rw [e] at hf hl hnn ⊢
  rw [putBefore_split n c pre post hpre]
  unfold Dom.insertBefore at key ⊢
  rw [detach_eq_remove] at key ⊢
  generalize Dom.remove h n = g at *
  apply key
  all_goals
    clear key r0 r
    intro m
    rcases List.eq_nil_or_concat pre with rfl | ⟨l', x, rfl⟩ <;>
    simp [List.head?_append] at hf hl hprev hpre hnn <;> simp [hl, hf, hprev, f1, f2, f3, hcn, List.head?_append] <;> grind [head_getD_ne, getLast_getD_ne]

theorem Rep.insertAfter {h k} (r : Rep h k) (s n c : Nat) (hc : c ∈ k s) (hcn : c ≠ n) :
    Rep (insertAfter h s n (some c)) ((k.detach n).set s (putAfter n c (k.detach n s))) := by
  have r0 := r.remove n
  obtain ⟨f1, f2, f3⟩ := remove_self_fields r n
  have hc' : c ∈ k.detach n s := by simp [Kids.detach, hc, hcn]
  obtain ⟨pre, post, e, hpre, hpost, hprev, hnext⟩ := r0.split hc'
  have hf := r0.first s
  have hl := r0.last s
  have hnn : ∀ x ∈ k.detach n s, x ≠ n := by rintro x hx rfl; exact not_mem_detach k x s hx
  have e2 : k.detach n s = (pre ++ [c]) ++ post := by simp [e]
  have key := Rep.link (h' := Dom.insertAfter h s n (some c)) r0 (s := s) (n := n) (pre := pre ++ [c])
    (post := post) f1 e2
  rw [e] at hf hl hnn ⊢
  rw [putAfter_split n c pre post hpre]
  have e3 : pre ++ c :: n :: post = (pre ++ [c]) ++ n :: post := by simp
  rw [e3]
  unfold Dom.insertAfter at key ⊢
  rw [detach_eq_remove] at key ⊢
  generalize Dom.remove h n = g at *
  apply key
  all_goals
    clear key r0 r
    intro m
    rcases post with _ | ⟨x, l'⟩ <;>
    simp [List.head?_append, List.getLast?_append, List.getLast?_cons] at hf hl hnext hpost hnn <;> simp [hl, hf, hnext, f1, f2, f3, hcn, List.head?_append, List.getLast?_append, List.getLast?_cons] <;> grind [head_getD_ne, getLast_getD_ne]

end Verif.Dom
