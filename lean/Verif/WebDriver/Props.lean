import Verif.WebDriver.Lemmas
/-! # Properties C05–C07: WebDriver sessions under every schedule -/
namespace Verif.WebDriver

/-- The session a command is addressed to. -/
def Cmd.target : Cmd → Option Nat
  | .newSession => none
  | .deleteSession s | .setTimeouts s _ | .getTimeouts s | .navigate s _ | .getUrl s | .refresh s
  | .getHandle s | .closeWindow s | .switchTo s _ | .getHandles s | .newWindow s | .getRect s
  | .setRect s _ | .readDocument s | .script s _ => some s

/-- The session an event works for: that of the command, or of the suspended command
being resumed (for New Session, the session it creates). -/
def Event.target (st : State) : Event → Option Nat
  | .start c => c.target
  | .finish i _ => (st.pending[i]?).map Pending.session

/-- Everything a client can observe of a session: whether it exists, its windows in
order with their documents and viewports, its current window, its timeouts. -/
def view (st : State) (s : Nat) : Option (List (Nat × Window) × Nat × Timeouts) :=
  if s ∈ st.live then
    some ((st.objs s).windows.map (fun w => (w, st.wins w)), (st.objs s).current, (st.objs s).timeouts)
  else none

/-- A schedule: run the events in order, `none` if a resumed command does not exist. -/
def runSchedule (st : State) : List Event → Option State
  | [] => some st
  | e :: es => (step st e).bind fun r => runSchedule r.1 es

theorem reachable_run {st es st'} (h : Reachable st) (e : runSchedule st es = some st') : Reachable st' := by
  induction es generalizing st with
  | nil => cases e; exact h
  | cons ev es ih =>
    simp only [runSchedule, Option.bind_eq_some_iff] at e
    obtain ⟨r, h1, h2⟩ := e
    exact ih (.step h h1) h2

/-- **C05.**  In every state reachable by any schedule, a session that can be
addressed has its current window among its open windows, and every open window
of any session has a document. -/
theorem C05_live_session_has_current_window {st : State} (h : Reachable st) (s : Nat) (hs : s ∈ st.live) :
    (st.objs s).windows ≠ [] ∧ (st.objs s).current ∈ (st.objs s).windows ∧
    ∀ w ∈ (st.objs s).windows, (st.wins w).doc ≠ none := by
  obtain ⟨o, ho⟩ := h.inv
  have := ho.cur s hs
  exact ⟨List.ne_nil_of_mem this, this, fun w hw => (ho.wins s w hw).1⟩

/-- **C05** (as seen by clients).  No command addressed to a live session answers
"no current browsing context" or "browsing context no longer open", and none
dereferences a missing document. -/
theorem C05_no_context_error {st : State} (h : Reachable st) (c : Cmd) (s : Nat)
    (hc : c.target = some s) (hs : s ∈ st.live) :
    (call st c).2 ≠ .error .noContext ∧ (call st c).2 ≠ .error .notOpen ∧ (call st c).2 ≠ .crash := by
  obtain ⟨o, ho⟩ := h.inv
  have hcur := ho.cur s hs
  have hdoc := (ho.wins s _ hcur).1
  cases c <;> simp only [Cmd.target, reduceCtorEq, Option.some.injEq] at hc <;> subst hc <;>
    simp only [call, withWindow_eq ho hs, getSession, hs, if_true, hcur]
  all_goals first
    | (split <;> simp_all)
    | simp

/-- **C05** (corollary).  Reading the current window's url, document or size from a
live session succeeds; so does asking for the current handle, and switching to the
handle so obtained. -/
theorem C05_reads_succeed {st : State} (h : Reachable st) (s : Nat) (hs : s ∈ st.live) :
    (∃ u, (call st (.getUrl s)).2 = .num u) ∧ (∃ u, (call st (.readDocument s)).2 = .num u) ∧
    (∃ r, (call st (.getRect s)).2 = .rect r) ∧
    ∃ w l, (call st (.getHandle s)).2 = .id w ∧ (call st (.getHandles s)).2 = .ids l ∧ w ∈ l ∧
      (call st (.switchTo s w)).2 = .done := by
  obtain ⟨o, ho⟩ := h.inv
  have hcur := ho.cur s hs
  have hdoc := (ho.wins s _ hcur).1
  simp only [call, withWindow_eq ho hs, getSession, hs, if_true]
  refine ⟨?_, ?_, ⟨_, rfl⟩, _, _, rfl, rfl, hcur, by simp [hcur]⟩
  all_goals
    split
    · exact absurd (by assumption) hdoc
    · exact ⟨_, rfl⟩

/-- Schedule used as witness: two sessions created with overlapping loads, a window
added to the first while its own navigation is suspended. -/
def sampleSchedule : List Event :=
  [.start .newSession, .start .newSession, .finish 1 true, .finish 0 true,
   .start (.navigate 0 7), .start (.newWindow 0), .finish 1 true, .finish 0 true, .start (.closeWindow 0)]

def sampleState : State := (runSchedule State.init sampleSchedule).getD State.init

theorem sample_reachable : Reachable sampleState := reachable_run (es := sampleSchedule) .init rfl

example : 0 ∈ sampleState.live ∧ 2 ∈ sampleState.live ∧ (sampleState.objs 0).current = 1 ∧
    (sampleState.wins 1).doc = some 7 := by decide

/-- **C06** (isolation).  An event changes nothing a client can observe of any session
other than the one it works for. -/
theorem C06_sessions_isolated {st st' : State} {ev : Event} {out : Out} (h : Reachable st)
    (hstep : step st ev = some (st', out)) (s : Nat) (hs : ev.target st ≠ some s) :
    view st' s = view st s := by
  obtain ⟨o, ho⟩ := h.inv
  cases ev with
  | start c =>
    simp only [step, Option.some.injEq] at hstep
    have e : st' = (call st c).1 := by rw [hstep]
    subst e
    have hw : ∀ t (k : Nat → State × Out), (t ∈ st.live → view (k (st.objs t).current).1 s = view st s) →
        view (withWindow st t k).1 s = view st s := by
      intro t k hk
      by_cases ht : t ∈ st.live
      · rw [withWindow_eq ho ht]; exact hk ht
      · simp [withWindow, getSession, ht]
    cases c <;> simp only [Event.target, Cmd.target, ne_eq, Option.some.injEq] at hs
    case newSession => rfl
    case deleteSession t =>
      simp only [call]; split
      · simp only [view, List.mem_filter, bne_iff_ne, ne_eq]
        simp [Ne.symm hs]
      · rfl
    case setTimeouts t x =>
      simp only [call]; split
      · rfl
      · simp only [view, upd, Ne.symm hs, if_false]
    case getTimeouts => simp only [call]; split <;> rfl
    case navigate => exact hw _ _ fun _ => rfl
    case getUrl => exact hw _ _ fun _ => by split <;> rfl
    case refresh => exact hw _ _ fun _ => by split <;> rfl
    case getHandle => simp only [call]; split <;> rfl
    case closeWindow t =>
      simp only [call]; split
      · rfl
      · split
        · split
          · simp only [view, List.mem_filter, bne_iff_ne, ne_eq, upd, Ne.symm hs, if_false]
            simp [Ne.symm hs]
          · simp only [view, upd, Ne.symm hs, if_false]
        · rfl
    case switchTo t x =>
      simp only [call]; split
      · rfl
      · split
        · simp only [view, upd, Ne.symm hs, if_false]
        · rfl
    case getHandles => simp only [call]; split <;> rfl
    case newWindow => simp only [call]; split <;> rfl
    case getRect => exact hw _ _ fun _ => rfl
    case setRect t r =>
      refine hw _ _ fun ht => ?_
      split
      · rfl
      simp only [view]
      split
      · congr 2
        refine List.map_congr_left fun w hw => ?_
        have h1 := ho.wins _ _ hw
        have h2 := ho.wins _ _ (ho.cur t ht)
        simp only [upd]
        split
        · grind
        · rfl
      · rfl
    case readDocument => exact hw _ _ fun _ => by split <;> rfl
    case script => simp only [call]; split <;> rfl
  | finish i ok =>
    simp only [step] at hstep
    split at hstep
    · cases hstep
    · rename_i p hp
      simp only [Option.some.injEq] at hstep
      obtain ⟨ht, h1, -, -, -⟩ := inv_take ho hp
      simp only [Event.target, hp, Option.map_some, ne_eq, Option.some.injEq] at hs
      have wsame : ∀ d, (st.objs s).windows.map (fun w => (w, upd st.wins p.window d w)) =
          (st.objs s).windows.map (fun w => (w, st.wins w)) := by
        intro d
        refine List.map_congr_left fun w hw => ?_
        have h2 := ho.wins _ _ hw
        simp only [upd]
        split
        · grind
        · rfl
      cases ok with
      | false => simp only [resume, Bool.not_false, if_true, Prod.mk.injEq] at hstep; rw [← hstep.1]; rfl
      | true =>
        cases p with
        | newSession t w =>
          simp only [resume, Bool.not_true, Prod.mk.injEq] at hstep
          obtain ⟨rfl, -⟩ := hstep
          simp only [Pending.session] at hs
          have hs' := Ne.symm hs
          have wsame := fun d => wsame d
          simp only [Pending.window] at wsame
          simp only [view, mem_putKey, hs', or_false]
          split
          · rw [show upd st.objs t { windows := [w], current := w } s = st.objs s by simp [upd, hs']]
            rw [wsame]
          · rfl
        | newWindow t w =>
          simp only [resume, Bool.not_true, Prod.mk.injEq] at hstep
          obtain ⟨rfl, -⟩ := hstep
          simp only [Pending.session] at hs
          have hs' := Ne.symm hs
          simp only [Pending.window] at wsame
          simp only [view]
          split
          · rw [show ∀ x, upd st.objs t x s = st.objs s by simp [upd, hs']]
            rw [wsame]
          · rfl
        | load t w u =>
          simp only [resume, Bool.not_true, Prod.mk.injEq] at hstep
          obtain ⟨rfl, -⟩ := hstep
          simp only [Pending.window] at wsame
          simp only [view]
          split
          · rw [wsame]
          · rfl

example : (step sampleState (.start (.setRect 0 (5, 5)))).isSome ∧
    (Event.start (.setRect 0 (5, 5))).target sampleState ≠ some 2 ∧ (view sampleState 2).isSome := by decide

/-- **C06** (failure).  A command that answers with an error, at once or after its
load, changes nothing a client can observe of any session. -/
theorem C06_errors_change_nothing {st st' : State} {ev : Event} {e : Err}
    (hstep : step st ev = some (st', .error e)) (s : Nat) : view st' s = view st s := by
  cases ev with
  | start c =>
    simp only [step, Option.some.injEq] at hstep
    have e1 : st' = (call st c).1 := by rw [hstep]
    have e2 : (call st c).2 = .error e := by rw [hstep]
    subst e1
    clear hstep
    cases c <;> simp only [call, withWindow] at e2 ⊢ <;>
      (repeat' (split at e2)) <;> simp_all
  | finish i ok =>
    simp only [step] at hstep
    split at hstep
    · cases hstep
    · cases ok with
      | false =>
        simp only [resume, Bool.not_false, if_true, Option.some.injEq, Prod.mk.injEq] at hstep
        rw [← hstep.1]; rfl
      | true =>
        rename_i p hp
        cases p <;> simp [resume] at hstep

example : (step sampleState (.start (.switchTo 0 99))).map (·.2) = some (.error .noSuchWindow) := by decide

/-- **C06** (a new session replaces nothing).  The session a New Session command
answers with did not exist before. -/
theorem C06_new_session_is_new {st st' : State} {i s h id : Nat} (hr : Reachable st)
    (hp : st.pending[i]? = some (.newSession s h)) (hstep : step st (.finish i true) = some (st', .id id)) :
    id = s ∧ view st s = none ∧ (view st' s).isSome := by
  obtain ⟨o, ho⟩ := hr.inv
  obtain ⟨-, -, -, -, h4⟩ := inv_take ho hp
  have := (h4 rfl).1
  simp only [Pending.session] at this
  simp only [step, hp, resume, Bool.not_true, Option.some.injEq, Prod.mk.injEq, Out.id.injEq] at hstep
  obtain ⟨rfl, rfl⟩ := hstep
  refine ⟨rfl, by simp [view, this], by simp [view, mem_putKey]⟩

/-- **C07 is false of the code.**  If the session is deleted while the new window is
loading, New Window still answers with a handle, which then can be neither listed
nor switched to. -/
theorem C07_fails :
    ∃ st st' h, Reachable st ∧ step st (.finish 0 true) = some (st', .id h) ∧
      st.pending[0]? = some (.newWindow 0 h) ∧
      (call st' (.switchTo 0 h)).2 = .error .invalidSession ∧
      (call st' (.getHandles 0)).2 = .error .invalidSession :=
  ⟨(runSchedule State.init [.start .newSession, .finish 0 true, .start (.newWindow 0),
      .start (.deleteSession 0)]).getD State.init, _, 2,
    reachable_run (es := [.start .newSession, .finish 0 true, .start (.newWindow 0),
      .start (.deleteSession 0)]) .init rfl, rfl, rfl, rfl, rfl⟩

/-- Closing the only window while another is loading has the same effect. -/
theorem C07_fails_on_close :
    ∃ st st' h, Reachable st ∧ step st (.finish 0 true) = some (st', .id h) ∧
      st.pending[0]? = some (.newWindow 0 h) ∧ (call st' (.switchTo 0 h)).2 = .error .invalidSession :=
  ⟨(runSchedule State.init [.start .newSession, .finish 0 true, .start (.newWindow 0),
      .start (.closeWindow 0)]).getD State.init, _, 2,
    reachable_run (es := [.start .newSession, .finish 0 true, .start (.newWindow 0),
      .start (.closeWindow 0)]) .init rfl, rfl, rfl, rfl⟩

/-- **C07, guarded.**  If the session still exists when New Window answers, the handle
is listed, is the current window, and can be switched to; the other windows stay.
Missing: sessions deleted while the window loads, refuted above. -/
theorem C07_new_window_usable_partial {st st' : State} {i s w h : Nat}
    (hp : st.pending[i]? = some (.newWindow s w)) (hlive : s ∈ st.live)
    (hstep : step st (.finish i true) = some (st', .id h)) :
    h = w ∧ (∃ l, (call st' (.getHandles s)).2 = .ids l ∧ h ∈ l ∧ ∀ x ∈ (st.objs s).windows, x ∈ l) ∧
    (call st' (.getHandle s)).2 = .id h ∧ (call st' (.switchTo s h)).2 = .done := by
  simp only [step, hp, resume, Bool.not_true, Option.some.injEq, Prod.mk.injEq, Out.id.injEq] at hstep
  obtain ⟨rfl, rfl⟩ := hstep
  refine ⟨rfl, ⟨putKey (st.objs s).windows w, ?_, ?_, ?_⟩, ?_, ?_⟩ <;>
    simp [call, getSession, hlive, upd, mem_putKey]
  intro x hx; exact .inl hx

example : ∃ st st', Reachable st ∧ st.pending[0]? = some (.newWindow 0 2) ∧ 0 ∈ st.live ∧
    step st (.finish 0 true) = some (st', .id 2) :=
  ⟨(runSchedule State.init [.start .newSession, .finish 0 true, .start (.newWindow 0)]).getD State.init, _,
    reachable_run (es := [.start .newSession, .finish 0 true, .start (.newWindow 0)]) .init rfl,
    rfl, by decide, rfl⟩

end Verif.WebDriver
