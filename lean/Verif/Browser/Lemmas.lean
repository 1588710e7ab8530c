import Verif.Browser.Spec

namespace Verif.Browser

section
variable {U N : Type} [DecidableEq N] {parse : String → U} {str : U → String}

theorem Trail.entries_at (t : Trail U) : t.entries[t.behind.length]? = some t.here := by
  simp [Trail.entries]

theorem Says.current {s : State U N} {b : Bar U} (h : Says s b) : s.currentUrl = some b.trail.here := by
  rw [State.currentUrl, h.history, h.index, Trail.entries_at]

/-- Reloading touches nothing but the status. -/
theorem reload_says {s : State U N} {b : Bar U} (h : Says s b) :
    ∃ s' t, reduceReload s = some (s', t) ∧ Says s' b := by
  unfold reduceReload
  cases hs : s.status with
  | loading => exact ⟨s, none, rfl, h⟩
  | loaded =>
    simp only [h.current]
    exact ⟨_, _, rfl, ⟨h.history, h.index, h.text⟩⟩

theorem Trail.entries_length (t : Trail U) :
    t.entries.length = t.behind.length + 1 + t.ahead.length := by
  simp [Trail.entries]; omega

theorem inc_eq {n : Nat} (h : n + 1 < usizeMax) : inc n = n + 1 := Nat.mod_eq_of_lt h

theorem dec_eq {n : Nat} (h0 : 0 < n) (h : n < usizeMax) : dec n = n - 1 := by
  unfold dec usizeMax at *
  omega

theorem navigate_says {s : State U N} {b : Bar U} (n : Nav U) (h : Says s b)
    (hl : s.history.length < usizeMax) :
    Says { s with
      history := s.history.take (inc s.currentIndex) ++ [n]
      currentIndex := inc s.currentIndex } { b with trail := b.trail.visit n } := by
  have hlen := b.trail.entries_length
  rw [← h.history] at hlen
  have hi : inc s.currentIndex = b.trail.behind.length + 1 := by
    rw [h.index]
    exact inc_eq (by omega)
  refine ⟨?_, ?_, h.text⟩
  · show s.history.take (inc s.currentIndex) ++ [n] = _
    rw [hi, h.history]
    simp only [Trail.entries, Trail.visit, List.take_append, List.length_reverse]
    rw [List.take_of_length_le (by simp)]
    simp
  · show inc s.currentIndex = _
    rw [hi]
    simp [Trail.visit]

theorem reduce_says {s : State U N} {b : Bar U} (a : Action U N) (h : Says s b)
    (hl : s.history.length < usizeMax) (ha : onScreen s a = true) :
    ∃ s' t, reduce parse str s a = some (s', t) ∧ Says s' (b.after parse str (.user a)) := by
  have hlen := b.trail.entries_length
  rw [← h.history] at hlen
  cases a with
  | reload => exact reload_says h
  | loaded ok => simp [onScreen] at ha
  | goBack =>
    have hb : 0 < s.currentIndex := by simpa [onScreen, State.canGoBack] using ha
    refine reload_says (b := b.after parse str (Event.user (N := N) .goBack)) ?_
    obtain ⟨⟨bs, hr, as⟩, x⟩ := b
    have hx := h.index
    cases bs with
    | nil => simp at hx; omega
    | cons c cs =>
      refine ⟨?_, ?_, h.text⟩
      · rw [show s.history = _ from h.history]
        simp [Bar.after, Trail.back, Trail.entries]
      · show dec s.currentIndex = _
        rw [dec_eq hb (by simp at hlen hx; omega), hx]
        simp [Bar.after, Trail.back]
  | goForward =>
    have hb : s.currentIndex < s.history.length - 1 := by
      simpa [onScreen, State.canGoForward] using ha
    refine reload_says (b := b.after parse str (Event.user (N := N) .goForward)) ?_
    obtain ⟨⟨bs, hr, as⟩, x⟩ := b
    have hx := h.index
    cases as with
    | nil => simp at hlen hx; omega
    | cons c cs =>
      refine ⟨?_, ?_, h.text⟩
      · rw [show s.history = _ from h.history]
        simp [Bar.after, Trail.forward, Trail.entries]
      · show inc s.currentIndex = _
        rw [inc_eq (by omega), hx]
        simp [Bar.after, Trail.forward]
  | toggleWireframe => exact ⟨_, _, rfl, ⟨h.history, h.index, h.text⟩⟩
  | toggleDeveloperMode => exact ⟨_, _, rfl, ⟨h.history, h.index, h.text⟩⟩
  | inspector i => exact ⟨_, _, rfl, ⟨h.history, h.index, h.text⟩⟩
  | navigate n => exact reload_says (navigate_says n h hl)
  | updateLocation x => exact ⟨_, _, rfl, ⟨h.history, h.index, rfl⟩⟩
  | navigateLocation =>
    rw [show reduce parse str s .navigateLocation = reduceNavigate s { url := parse b.text } from by
      rw [← h.text]; rfl]
    exact reload_says (navigate_says _ h hl)

theorem after_length (b : Bar U) (e : Event U N) :
    (b.after parse str e).trail.entries.length ≤ b.trail.entries.length + 1 := by
  obtain ⟨⟨bs, hr, as⟩, x⟩ := b
  cases e with
  | arrives f => simp [Bar.after]
  | user a =>
    cases a <;> simp only [Bar.after, Trail.visit, Trail.entries_length, List.length_cons,
      List.length_nil] <;> try omega
    · cases bs <;> simp [Trail.back]
      omega
    · cases as <;> simp [Trail.forward]
      omega

theorem step_says {w : World U N} {b : Bar U} (e : Event U N) (h : Says w.state b)
    (hl : w.state.history.length < usizeMax)
    (he : ByButton w e) :
    ∃ w', step parse str w e = some w' ∧ Says w'.state (b.after parse str e) := by
  cases e with
  | user a =>
    obtain ⟨s', t, hr, hs⟩ := reduce_says (parse := parse) (str := str) a h hl he
    exact ⟨{ w with state := s', pending := w.pending ++ t.toList }, by simp only [step, hr], hs⟩
  | arrives f =>
    cases hp : w.pending with
    | nil => exact absurd hp he
    | cons n rest =>
      simp only [step, hp, reduce, h.current]
      exact ⟨_, rfl, ⟨h.history, h.index, rfl⟩⟩

theorem run_says (es : List (Event U N)) : ∀ {w : World U N} {b : Bar U}, Says w.state b →
    w.state.history.length + es.length ≤ usizeMax → ByButtons parse str w es →
    ∃ w', run parse str w es = some w' ∧ Says w'.state (es.foldl (Bar.after parse str) b) := by
  induction es with
  | nil => intro w b h _ _; exact ⟨w, rfl, h⟩
  | cons e es ih =>
    intro w b h hl hb
    simp only [List.length_cons] at hl
    obtain ⟨w', hs, hw⟩ := step_says (parse := parse) (str := str) e h (by omega) hb.1
    have hlen := after_length (parse := parse) (str := str) b e
    rw [← hw.history, ← h.history] at hlen
    obtain ⟨w'', hr, hh⟩ := ih hw (by omega) (hb.2 _ hs)
    exact ⟨w'', by simp only [run, hs]; exact hr, hh⟩

theorem start_says (first : U) (dev : Bool) :
    Says (start (N := N) str first dev).state ⟨⟨[], { url := first }, []⟩, str first⟩ :=
  ⟨rfl, rfl, rfl⟩

/-- One load for the status *loading*, none otherwise. -/
def OneLoad (w : World U N) : Prop :=
  match w.state.status with
  | .loading => w.pending.length = 1
  | .loaded => w.pending = []

theorem reload_one {s s' : State U N} {t : Option (Nav U)} (h : reduceReload s = some (s', t)) :
    s'.status = .loading ∧ (s.status = .loading → t = none) ∧
      (s.status = .loaded → t.isSome = true ∧ t = s.currentUrl) ∧
      s'.loadingOk = s.loadingOk ∧ s'.currentUrl = s.currentUrl := by
  unfold reduceReload at h
  cases hs : s.status with
  | loading =>
    rw [hs] at h
    obtain ⟨rfl, rfl⟩ := (Prod.mk.injEq ..).mp (Option.some.inj h)
    exact ⟨hs, fun _ => rfl, by simp, rfl, rfl⟩
  | loaded =>
    rw [hs] at h
    cases hc : s.currentUrl with
    | none => rw [hc] at h; cases h
    | some n =>
      rw [hc] at h
      obtain ⟨rfl, rfl⟩ := (Prod.mk.injEq ..).mp (Option.some.inj h)
      exact ⟨rfl, by simp, fun _ => ⟨rfl, rfl⟩, rfl, hc⟩

/-- What an action of the user does to the status: a load starts if and only if none was under way
    and the action is one that loads; it is the load of the entry one is at then. -/
theorem reduce_status {s s' : State U N} {a : Action U N} {t : Option (Nav U)}
    (ha : ∀ ok, a ≠ .loaded ok) (h : reduce parse str s a = some (s', t)) :
    s'.loadingOk = s.loadingOk ∧
    ((s'.status = s.status ∧ t = none ∧ (moves a = true → s.status = .loading) ∧
        (moves a = false → s'.currentUrl = s.currentUrl)) ∨
      (s.status = .loaded ∧ s'.status = .loading ∧ t.isSome = true ∧ t = s'.currentUrl)) := by
  have key : ∀ (s0 : State U N), s0.status = s.status → s0.loadingOk = s.loadingOk →
      (moves a = false → s0.currentUrl = s.currentUrl) →
      reduceReload s0 = some (s', t) → s'.loadingOk = s.loadingOk ∧
        ((s'.status = s.status ∧ t = none ∧ (moves a = true → s.status = .loading) ∧
          (moves a = false → s'.currentUrl = s.currentUrl)) ∨
        (s.status = .loaded ∧ s'.status = .loading ∧ t.isSome = true ∧ t = s'.currentUrl)) := by
    intro s0 h1 h2 h3 h4
    obtain ⟨g1, g2, g3, g4, g5⟩ := reload_one h4
    refine ⟨g4.trans h2, ?_⟩
    cases hs : s.status with
    | loading =>
      exact .inl ⟨g1, g2 (h1.trans hs), fun _ => rfl, fun hm => g5.trans (h3 hm)⟩
    | loaded =>
      obtain ⟨k1, k2⟩ := g3 (h1.trans hs)
      exact .inr ⟨rfl, g1, k1, k2.trans g5.symm⟩
  cases a with
  | reload => exact key s rfl rfl (fun _ => rfl) h
  | loaded ok => exact absurd rfl (ha ok)
  | goBack =>
    exact key { s with currentIndex := dec s.currentIndex } rfl rfl (by simp [moves]) h
  | goForward =>
    exact key { s with currentIndex := inc s.currentIndex } rfl rfl (by simp [moves]) h
  | navigate n =>
    exact key { s with
      history := s.history.take (inc s.currentIndex) ++ [n]
      currentIndex := inc s.currentIndex } rfl rfl (by simp [moves]) h
  | navigateLocation =>
    exact key { s with
      history := s.history.take (inc s.currentIndex) ++ [{ url := parse s.locationInput }]
      currentIndex := inc s.currentIndex } rfl rfl (by simp [moves]) h
  | toggleWireframe =>
    obtain ⟨rfl, rfl⟩ := (Prod.mk.injEq ..).mp (Option.some.inj h)
    exact ⟨rfl, .inl ⟨rfl, rfl, by simp [moves], fun _ => rfl⟩⟩
  | toggleDeveloperMode =>
    obtain ⟨rfl, rfl⟩ := (Prod.mk.injEq ..).mp (Option.some.inj h)
    exact ⟨rfl, .inl ⟨rfl, rfl, by simp [moves], fun _ => rfl⟩⟩
  | inspector i =>
    obtain ⟨rfl, rfl⟩ := (Prod.mk.injEq ..).mp (Option.some.inj h)
    exact ⟨rfl, .inl ⟨rfl, rfl, by simp [moves], fun _ => rfl⟩⟩
  | updateLocation x =>
    obtain ⟨rfl, rfl⟩ := (Prod.mk.injEq ..).mp (Option.some.inj h)
    exact ⟨rfl, .inl ⟨rfl, rfl, by simp [moves], fun _ => rfl⟩⟩

/-- `Loaded` is not among the actions of the user. -/
def NoFake : Event U N → Prop
  | .user (.loaded _) => False
  | _ => True

theorem loaded_reduce {s s' : State U N} {ok : Bool} {t : Option (Nav U)}
    (h : reduce parse str s (.loaded ok) = some (s', t)) :
    t = none ∧ s'.status = .loaded ∧ s'.loadingOk = ok ∧ s'.currentUrl = s.currentUrl := by
  simp only [reduce] at h
  cases hc : s.currentUrl with
  | none => rw [hc] at h; cases h
  | some n =>
    rw [hc] at h
    obtain ⟨rfl, rfl⟩ := (Prod.mk.injEq ..).mp (Option.some.inj h)
    exact ⟨rfl, rfl, rfl, hc⟩

/-- The loads under way are what the status says, and if nobody was in a hurry the load under way is
    that of the entry one is at, and what is on the screen in between is the entry one is at. -/
structure Steady (w : World U N) : Prop where
  one : OneLoad w
  loading : w.state.status = .loading → ∃ n, w.pending = [n] ∧ w.state.currentUrl = some n
  loaded : w.state.status = .loaded → w.state.loadingOk = true → w.state.currentUrl = some w.shown

theorem step_one {w w' : World U N} {e : Event U N} (h : OneLoad w) (hf : NoFake e)
    (hs : step parse str w e = some w') : OneLoad w' := by
  cases e with
  | user a =>
    have ha : ∀ ok, a ≠ .loaded ok := by rintro ok rfl; exact hf
    simp only [step] at hs
    cases hr : reduce parse str w.state a with
    | none => rw [hr] at hs; cases hs
    | some p =>
      obtain ⟨s', t⟩ := p
      rw [hr] at hs
      obtain rfl := Option.some.inj hs
      obtain ⟨_, hh⟩ := reduce_status ha hr
      unfold OneLoad at *
      rcases hh with ⟨h1, rfl, _⟩ | ⟨h1, h2, h3, _⟩
      · simp only [h1, Option.toList, List.append_nil]; exact h
      · rw [h1] at h
        obtain ⟨n, rfl⟩ := Option.isSome_iff_exists.mp h3
        simp only [h2]
        simp only at h
        simp [h]
  | arrives f =>
    simp only [step] at hs
    cases hp : w.pending with
    | nil => rw [hp] at hs; obtain rfl := Option.some.inj hs; exact h
    | cons n rest =>
      rw [hp] at hs
      simp only at hs
      cases hr : reduce parse str w.state (.loaded (loadLocation w.shown n f).2) with
      | none => rw [hr] at hs; cases hs
      | some p =>
        obtain ⟨s', t⟩ := p
        rw [hr] at hs
        obtain rfl := Option.some.inj hs
        obtain ⟨rfl, h2, _⟩ := loaded_reduce hr
        unfold OneLoad at *
        simp only [h2, Option.toList, List.append_nil]
        cases hst : w.state.status with
        | loading =>
          rw [hst] at h
          simp only [hp, List.length_cons] at h
          exact List.length_eq_zero_iff.mp (by omega)
        | loaded => rw [hst, hp] at h; simp at h

theorem step_steady {w w' : World U N} {e : Event U N} (h : Steady w) (hf : NoFake e)
    (hq : Waits w e)
    (hs : step parse str w e = some w') : Steady w' := by
  refine ⟨step_one h.one hf hs, ?_, ?_⟩ <;> cases e with
  | user a =>
    have ha : ∀ ok, a ≠ .loaded ok := by rintro ok rfl; exact hf
    simp only [step] at hs
    cases hr : reduce parse str w.state a with
    | none => rw [hr] at hs; cases hs
    | some p =>
      obtain ⟨s', t⟩ := p
      rw [hr] at hs
      obtain rfl := Option.some.inj hs
      obtain ⟨hok, hh⟩ := reduce_status ha hr
      have hone := h.one
      unfold OneLoad at hone
      rcases hh with ⟨h1, rfl, h3, h4⟩ | ⟨h1, h2, h3, h5⟩
      · have hm : moves a = false := by
          cases hm : moves a with
          | false => rfl
          | true =>
            have hl := h3 hm
            rw [hl] at hone
            simp only [hq hm] at hone
            simp at hone
        simp only [h1, h4 hm, hok, Option.toList, List.append_nil]
        first
          | exact h.loading
          | exact h.loaded
      · obtain ⟨n, rfl⟩ := Option.isSome_iff_exists.mp h3
        rw [h1] at hone
        simp only at hone
        first
          | exact fun _ => ⟨n, by simp [hone], h5.symm⟩
          | (intro hx; rw [h2] at hx; cases hx)
  | arrives f =>
    simp only [step] at hs
    cases hp : w.pending with
    | nil =>
      rw [hp] at hs; obtain rfl := Option.some.inj hs
      first
        | exact h.loading
        | exact h.loaded
    | cons n rest =>
      rw [hp] at hs
      simp only at hs
      cases hr : reduce parse str w.state (.loaded (loadLocation w.shown n f).2) with
      | none => rw [hr] at hs; cases hs
      | some p =>
        obtain ⟨s', t⟩ := p
        rw [hr] at hs
        obtain rfl := Option.some.inj hs
        obtain ⟨rfl, h2, h3, h4⟩ := loaded_reduce hr
        show s'.status = _ → _
        rw [h2]
        try rw [h3, h4]
        have hone := h.one
        unfold OneLoad at hone
        have hst : w.state.status = .loading := by
          cases hst : w.state.status with
          | loading => rfl
          | loaded => rw [hst, hp] at hone; simp at hone
        obtain ⟨m, hm, hc⟩ := h.loading hst
        rw [hp] at hm
        obtain ⟨rfl, rfl⟩ := List.cons.inj hm
        first
          | (intro hx; cases hx; done)
          | (intro _ hok
             rw [hc]
             unfold loadLocation at hok ⊢
             cases hna : n.action <;> cases f <;> simp_all)

end

end Verif.Browser
