import Verif.WebDriver.Model
namespace Verif.WebDriver

/-- The session a suspended command works for. -/
def Pending.session : Pending → Nat
  | .newSession s _ => s
  | .newWindow s _ => s
  | .load s _ _ => s

/-- The window a suspended command will write. -/
def Pending.window : Pending → Nat
  | .newSession _ h => h
  | .newWindow _ h => h
  | .load _ w _ => w

def Pending.isNew : Pending → Bool
  | .newSession _ _ => true
  | _ => false

structure Inv (st : State) (owner : Nat → Nat) : Prop where
  cur : ∀ s ∈ st.live, (st.objs s).current ∈ (st.objs s).windows
  liveLt : ∀ s ∈ st.live, s < st.fresh
  wins : ∀ s, ∀ w ∈ (st.objs s).windows, (st.wins w).doc ≠ none ∧ owner w = s ∧ w < st.fresh
  pend : ∀ p ∈ st.pending, owner p.window = p.session ∧ p.window < st.fresh ∧ p.session < st.fresh
  new : ∀ p ∈ st.pending, p.isNew → p.session ∉ st.live
  dis : (st.pending.filter Pending.isNew).Pairwise (fun p q => p.session ≠ q.session)

theorem inv_init : Inv State.init id :=
  ⟨by simp [State.init], by simp [State.init], by simp [State.init], by simp [State.init],
   by simp [State.init], by simp [State.init]⟩

theorem mem_of_filter {l : List Nat} {p : Nat → Bool} {a : Nat} (h : a ∈ l.filter p) : a ∈ l :=
  (List.mem_filter.1 h).1

theorem mem_putKey {l k x} : x ∈ putKey l k ↔ x ∈ l ∨ x = k := by
  unfold putKey; split <;> simp <;> grind

theorem inv_addLoad {st owner} (h : Inv st owner) {s w u} (hs : s ∈ st.live) (hw : w ∈ (st.objs s).windows) :
    Inv { st with pending := st.pending ++ [.load s w u] } owner := by
  have := h.wins s w hw
  have := h.liveLt s hs
  refine ⟨h.cur, h.liveLt, h.wins, ?_, ?_, ?_⟩
  · intro p hp
    simp only [List.mem_append, List.mem_singleton] at hp
    rcases hp with hp | rfl
    · exact h.pend p hp
    · simp [Pending.window, Pending.session]; grind
  · intro p hp hn
    simp only [List.mem_append, List.mem_singleton] at hp
    rcases hp with hp | rfl
    · exact h.new p hp hn
    · simp [Pending.isNew] at hn
  · simp only [List.filter_append, List.filter_cons, Pending.isNew]
    simpa using h.dis

theorem withWindow_eq {st : State} {owner} (h : Inv st owner) {s : Nat} (hs : s ∈ st.live) (k) :
    withWindow st s k = k (st.objs s).current := by
  simp [withWindow, getSession, hs, currentContext, h.cur s hs]

theorem inv_call {st owner} (h : Inv st owner) (c : Cmd) : ∃ owner', Inv (call st c).1 owner' := by
  have hw : ∀ s (k : Nat → State × Out), (s ∈ st.live → ∃ o, Inv (k (st.objs s).current).1 o) →
      ∃ o, Inv (withWindow st s k).1 o := by
    intro s k hk
    by_cases hs : s ∈ st.live
    · rw [withWindow_eq h hs]; exact hk hs
    · exact ⟨owner, by simpa [withWindow, getSession, hs] using h⟩
  cases c with
  | newSession =>
    refine ⟨upd owner (st.fresh + 1) st.fresh, ?_⟩
    simp only [call]
    refine ⟨h.cur, ?_, ?_, ?_, ?_, ?_⟩
    · intro s hs; have := h.liveLt s hs; simp; omega
    · intro s w hw
      have := h.wins s w hw
      have : w ≠ st.fresh + 1 := by omega
      simp only [upd, this, if_false]; refine ⟨by grind, by grind, by omega⟩
    · intro p hp
      simp only [List.mem_append, List.mem_singleton] at hp
      rcases hp with hp | rfl
      · have := h.pend p hp
        have : p.window ≠ st.fresh + 1 := by omega
        simp only [upd, this, if_false]; refine ⟨by grind, by omega, by omega⟩
      · simp [Pending.window, Pending.session, upd]
    · intro p hp hn
      simp only [List.mem_append, List.mem_singleton] at hp
      rcases hp with hp | rfl
      · exact h.new p hp hn
      · intro hl; have := h.liveLt _ hl; simp [Pending.session] at this
    · simp only [List.filter_append]
      refine List.pairwise_append.2 ⟨h.dis, by simp [List.filter_cons, Pending.isNew], ?_⟩
      intro p hp q hq
      simp only [List.mem_filter, List.mem_singleton] at hp hq
      have := (h.pend p hp.1).2.2
      rw [hq.1]; simp only [Pending.session]
      simp only [Pending.session] at this; omega
  | deleteSession s =>
    refine ⟨owner, ?_⟩
    simp only [call]
    split
    · refine ⟨?_, ?_, h.wins, h.pend, ?_, h.dis⟩
      · intro s hs; exact h.cur s (mem_of_filter hs)
      · intro s hs; exact h.liveLt s (mem_of_filter hs)
      · intro p hp hn hs; exact h.new p hp hn (mem_of_filter hs)
    · exact h
  | setTimeouts s t =>
    refine ⟨owner, ?_⟩
    by_cases hs : s ∈ st.live
    · simp only [call, getSession, hs, if_true]
      refine ⟨?_, h.liveLt, ?_, h.pend, h.new, h.dis⟩
      · intro s' hs'; have := h.cur s' hs'; simp only [upd]; split <;> grind
      · intro s' w; have := h.wins s' w; simp only [upd]; split <;> grind
    · simpa [call, getSession, hs] using h
  | getTimeouts s => exact ⟨owner, by simp only [call]; split <;> exact h⟩
  | navigate s url => exact hw s _ fun hs => ⟨owner, inv_addLoad h hs (h.cur s hs)⟩
  | getUrl s => exact hw s _ fun hs => ⟨owner, by split <;> exact h⟩
  | refresh s =>
    exact hw s _ fun hs => ⟨owner, by
      split
      · exact h
      · exact inv_addLoad h hs (h.cur s hs)⟩
  | getHandle s => exact ⟨owner, by simp only [call]; split <;> exact h⟩
  | closeWindow s =>
    refine ⟨owner, ?_⟩
    by_cases hs : s ∈ st.live
    · simp only [call, getSession, hs, if_true, h.cur s hs]
      split
      · rename_i e
        refine ⟨?_, ?_, ?_, h.pend, ?_, h.dis⟩
        · intro s' hs'
          simp only [List.mem_filter, bne_iff_ne, ne_eq] at hs'
          simp only [upd, hs'.2, if_false]; exact h.cur s' hs'.1
        · intro s hs; exact h.liveLt s (mem_of_filter hs)
        · intro s' w; have := h.wins s' w; simp only [upd]; split <;> grind
        · intro p hp hn hs; exact h.new p hp hn (mem_of_filter hs)
      · rename_i w ws e
        refine ⟨?_, h.liveLt, ?_, h.pend, h.new, h.dis⟩
        · intro s' hs'; have := h.cur s' hs'; simp only [upd]; split
          · simp [e]
          · exact this
        · intro s' w' hw'
          simp only [upd] at hw'
          split at hw'
          · rename_i es
            subst es
            exact h.wins s' w' (mem_of_filter hw')
          · exact h.wins s' w' hw'
    · simpa [call, getSession, hs] using h
  | switchTo s x =>
    refine ⟨owner, ?_⟩
    by_cases hs : s ∈ st.live
    · simp only [call, getSession, hs, if_true]
      split
      · refine ⟨?_, h.liveLt, ?_, h.pend, h.new, h.dis⟩
        · intro s' hs'; have := h.cur s' hs'; simp only [upd]; split <;> grind
        · intro s' w; have := h.wins s' w; simp only [upd]; split <;> grind
      · exact h
    · simpa [call, getSession, hs] using h
  | getHandles s => exact ⟨owner, by simp only [call]; split <;> exact h⟩
  | newWindow s =>
    by_cases hs : s ∈ st.live
    · refine ⟨upd owner st.fresh s, ?_⟩
      simp only [call, getSession, hs, if_true]
      refine ⟨h.cur, ?_, ?_, ?_, ?_, ?_⟩
      · intro s hs; have := h.liveLt s hs; simp; omega
      · intro s w hw
        have := h.wins s w hw
        have : w ≠ st.fresh := by omega
        simp only [upd, this, if_false]; refine ⟨by grind, by grind, by omega⟩
      · intro p hp
        simp only [List.mem_append, List.mem_singleton] at hp
        rcases hp with hp | rfl
        · have := h.pend p hp
          have : p.window ≠ st.fresh := by omega
          simp only [upd, this, if_false]; refine ⟨by grind, by omega, by omega⟩
        · have := h.liveLt s hs
          simp [Pending.window, Pending.session, upd]; omega
      · intro p hp hn
        simp only [List.mem_append, List.mem_singleton] at hp
        rcases hp with hp | rfl
        · exact h.new p hp hn
        · simp [Pending.isNew] at hn
      · simp only [List.filter_append, List.filter_cons, Pending.isNew]
        simpa using h.dis
    · exact ⟨owner, by simpa [call, getSession, hs] using h⟩
  | getRect s => exact hw s _ fun hs => ⟨owner, h⟩
  | setRect s r =>
    exact hw s _ fun hs => ⟨owner, by
      split
      · exact h
      · refine ⟨h.cur, h.liveLt, ?_, h.pend, h.new, h.dis⟩
        intro s' w' hw'
        have := h.wins s' w' hw'
        simp only [upd]; split <;> grind⟩
  | readDocument s => exact hw s _ fun hs => ⟨owner, by split <;> exact h⟩
  | script s k => exact ⟨owner, by simp only [call]; split <;> exact h⟩

/-- Taking the `i`-th suspended command out. -/
theorem inv_take {st owner} (h : Inv st owner) {i p} (hp : st.pending[i]? = some p) :
    Inv { st with pending := st.pending.eraseIdx i } owner ∧
    owner p.window = p.session ∧ p.window < st.fresh ∧ p.session < st.fresh ∧
    (p.isNew → p.session ∉ st.live ∧
      ∀ q ∈ st.pending.eraseIdx i, q.isNew → q.session ≠ p.session) := by
  have hm : p ∈ st.pending := List.mem_of_getElem? hp
  have hsub : (st.pending.eraseIdx i).Sublist st.pending := List.eraseIdx_sublist ..
  refine ⟨⟨h.cur, h.liveLt, h.wins, fun q hq => h.pend q (hsub.subset hq),
    fun q hq => h.new q (hsub.subset hq), ?_⟩, (h.pend p hm).1, (h.pend p hm).2.1, (h.pend p hm).2.2, ?_⟩
  · exact h.dis.sublist (hsub.filter _)
  · intro hn
    refine ⟨h.new p hm hn, ?_⟩
    have hlt : i < st.pending.length := by
      rcases Nat.lt_or_ge i st.pending.length with h | h
      · exact h
      · rw [List.getElem?_eq_none h] at hp; cases hp
    have e1 : st.pending = st.pending.take i ++ p :: st.pending.drop (i + 1) := by
      rw [List.getElem?_eq_getElem hlt] at hp
      cases hp
      simp
    have e2 : st.pending.eraseIdx i = st.pending.take i ++ st.pending.drop (i + 1) :=
      List.eraseIdx_eq_take_drop_succ ..
    have hd := h.dis
    rw [e1] at hd
    simp only [List.filter_append, List.filter_cons, hn, if_true] at hd
    rw [List.pairwise_append] at hd
    intro q hq hqn
    rw [e2, List.mem_append] at hq
    rcases hq with hq | hq
    · exact hd.2.2 q (by simp [hq, hqn]) p (by simp)
    · have := (List.pairwise_cons.1 hd.2.1).1 q (by simp [hq, hqn])
      exact Ne.symm this

theorem inv_step {st owner ev st' out} (h : Inv st owner) (hs : step st ev = some (st', out)) :
    ∃ owner', Inv st' owner' := by
  cases ev with
  | start c =>
    simp only [step, Option.some.injEq] at hs
    obtain ⟨o, ho⟩ := inv_call h c
    rw [hs] at ho; exact ⟨o, ho⟩
  | finish i ok =>
    simp only [step] at hs
    split at hs
    · cases hs
    · rename_i p hp
      simp only [Option.some.injEq] at hs
      obtain ⟨ht, h1, h2, h3, h4⟩ := inv_take h hp
      refine ⟨owner, ?_⟩
      cases ok with
      | false => simp only [resume, Bool.not_false, if_true, Prod.mk.injEq] at hs; rw [← hs.1]; exact ht
      | true =>
        cases p with
        | newSession s w =>
          simp only [resume, Bool.not_true, Prod.mk.injEq] at hs
          obtain ⟨rfl, -⟩ := hs
          simp only [Pending.window, Pending.session, Pending.isNew] at h1 h2 h3 h4
          have h4 := h4 trivial
          refine ⟨?_, ?_, ?_, ht.pend, ?_, ht.dis⟩
          · intro s' hs'
            simp only [mem_putKey] at hs'
            simp only [upd]
            split
            · simp
            · exact h.cur s' (by grind)
          · intro s' hs'
            simp only [mem_putKey] at hs'
            rcases hs' with hs' | rfl
            · exact h.liveLt s' hs'
            · exact h3
          · intro s' w' hw'
            simp only [upd] at hw' ⊢
            split at hw'
            · simp at hw'; subst hw'; simp; grind
            · have := h.wins s' w' hw'
              split <;> grind
          · intro q hq hn hl
            rw [mem_putKey] at hl
            rcases hl with hl | hl
            · exact ht.new q hq hn hl
            · exact h4.2 q hq hn hl
        | newWindow s w =>
          simp only [resume, Bool.not_true, Prod.mk.injEq] at hs
          obtain ⟨rfl, -⟩ := hs
          simp only [Pending.window, Pending.session] at h1 h2 h3 h4
          refine ⟨?_, ht.liveLt, ?_, ht.pend, ht.new, ht.dis⟩
          · intro s' hs'
            simp only [upd]
            split
            · simp [mem_putKey]
            · exact h.cur s' hs'
          · intro s' w' hw'
            simp only [upd] at hw' ⊢
            split at hw'
            · rename_i es
              subst es
              simp only [mem_putKey] at hw'
              rcases hw' with hw' | rfl
              · have := h.wins s' w' hw'; split <;> grind
              · simp; grind
            · have := h.wins s' w' hw'; split <;> grind
        | load s w u =>
          simp only [resume, Bool.not_true, Prod.mk.injEq] at hs
          obtain ⟨rfl, -⟩ := hs
          refine ⟨ht.cur, ht.liveLt, ?_, ht.pend, ht.new, ht.dis⟩
          intro s' w' hw'
          have := h.wins s' w' hw'
          simp only [upd]
          split <;> grind

theorem Reachable.inv {st} (h : Reachable st) : ∃ owner, Inv st owner := by
  induction h with
  | init => exact ⟨_, inv_init⟩
  | step _ hs ih => obtain ⟨o, ho⟩ := ih; exact inv_step ho hs

end Verif.WebDriver
