import Verif.Run.Spec
/-!
# Running: lemmas
-/
namespace Verif.Run

theorem paginates_iff (o : Opts) : o.paginates = true ↔ Paged o := by
  unfold Opts.paginates Paged
  cases o.flow <;> simp

theorem loadExtra_spec {w : World} {tr tr' : List Ev} {x : Option String} {r : Option (Option Doc)}
    (h : loadExtra w tr x = (tr', r)) :
    ∃ evs, tr' = tr ++ evs ∧ (∀ e ∈ evs, e.isLoad) ∧ ∀ d, r = some d → Extra x evs d := by
  cases x with
  | none =>
    simp only [loadExtra] at h
    cases h
    exact ⟨[], by simp, by simp, fun d h => by cases h; exact .none⟩
  | some u =>
    simp only [loadExtra, loadOne] at h
    cases hl : w.load tr u with
    | none =>
      rw [hl] at h; cases h
      exact ⟨_, rfl, by simp [Ev.isLoad], fun d h => by cases h⟩
    | some d =>
      rw [hl] at h; cases h
      exact ⟨_, rfl, by simp [Ev.isLoad], fun d h => by cases h; exact .some⟩

theorem runSingle_spec {w : World} {o : Opts} {tr tr' : List Ev} {u : String} {r : Option (List Page)}
    (h : runSingle w o tr u = (tr', r)) :
    ∃ evs, tr' = tr ++ evs ∧ (∀ e ∈ evs, e.isLoad) ∧ ∀ ps, r = some ps → One w o u evs ps := by
  unfold runSingle loadOne at h
  cases hl : w.load tr u with
  | none =>
    simp only [hl] at h
    cases h
    exact ⟨_, rfl, by simp [Ev.isLoad], fun _ h => by cases h⟩
  | some d =>
    simp only [hl] at h
    by_cases hp : o.paginates = true
    · rw [if_pos hp] at h
      cases he : loadExtra w (tr ++ [.load u (some d)]) o.header with
      | mk tr1 r1 =>
        obtain ⟨e1, h1, l1, x1⟩ := loadExtra_spec he
        rw [he] at h
        cases r1 with
        | none =>
          cases h
          exact ⟨.load u (some d) :: e1, by rw [h1]; simp, by simp [Ev.isLoad]; exact l1, fun _ h => by cases h⟩
        | some hd =>
          simp only at h
          cases hf : loadExtra w tr1 o.footer with
          | mk tr2 r2 =>
            obtain ⟨e2, h2, l2, x2⟩ := loadExtra_spec hf
            rw [hf] at h
            have l3 : ∀ e ∈ Ev.load u (some d) :: (e1 ++ e2), e.isLoad := by
              intro e he
              rcases List.mem_cons.1 he with rfl | he
              · trivial
              · rcases List.mem_append.1 he with he | he
                · exact l1 e he
                · exact l2 e he
            cases r2 with
            | none =>
              cases h
              exact ⟨.load u (some d) :: (e1 ++ e2), by rw [h2, h1]; simp, l3, fun _ h => by cases h⟩
            | some f =>
              cases h
              refine ⟨.load u (some d) :: (e1 ++ e2), by rw [h2, h1]; simp, l3, fun ps h => ?_⟩
              cases h
              exact .paged ((paginates_iff o).1 hp) (x1 _ rfl) (x2 _ rfl)
    · rw [if_neg hp] at h
      cases h
      exact ⟨_, rfl, by simp [Ev.isLoad], fun ps h => by
        cases h; exact .single fun hq => hp ((paginates_iff o).2 hq)⟩

theorem concatLoop_spec {w : World} {o : Opts} (us : List String) : ∀ {tr tr' : List Ev} {acc : List Page}
    {r : Option (List Page)}, concatLoop w o tr acc us = (tr', r) →
    ∃ evs, tr' = tr ++ evs ∧ (∀ e ∈ evs, e.isLoad) ∧ ∀ ps, r = some ps → ∃ ps', ps = acc ++ ps' ∧ All w o us evs ps' := by
  induction us with
  | nil =>
    intro tr tr' acc r h
    simp only [concatLoop] at h
    cases h
    exact ⟨[], by simp, by simp, fun ps h => by cases h; exact ⟨[], by simp, .nil⟩⟩
  | cons u us ih =>
    intro tr tr' acc r h
    simp only [concatLoop] at h
    cases hs : runSingle w o tr u with
    | mk tr1 r1 =>
      obtain ⟨e1, h1, l1, x1⟩ := runSingle_spec hs
      rw [hs] at h
      cases r1 with
      | none => cases h; exact ⟨e1, h1, l1, fun _ h => by cases h⟩
      | some ps1 =>
        obtain ⟨e2, h2, l2, x2⟩ := ih h
        refine ⟨e1 ++ e2, by rw [h2, h1]; simp, ?_, fun ps hr => ?_⟩
        · intro e he
          rcases List.mem_append.1 he with he | he
          · exact l1 e he
          · exact l2 e he
        · obtain ⟨ps2, h3, h4⟩ := x2 ps hr
          exact ⟨ps1 ++ ps2, by rw [h3]; simp, .cons (x1 _ rfl) h4⟩

theorem separateLoop_spec {w : World} {o : Opts} (us : List String) : ∀ {tr tr' : List Ev} {ok : Bool},
    separateLoop w o tr us = (tr', ok) →
    ∃ rest evs tail, tr' = tr ++ evs ++ tail ∧ Saved w o us rest evs ∧
      (∀ u ps c, .put u ps c true ∉ tail) ∧ ((ok = true ∧ rest = [] ∧ tail = []) ∨ (ok = false ∧ rest ≠ [])) := by
  induction us with
  | nil =>
    intro tr tr' ok h
    simp only [separateLoop] at h
    cases h
    exact ⟨[], [], [], by simp, .stop, by simp, Or.inl ⟨rfl, rfl, rfl⟩⟩
  | cons u us ih =>
    intro tr tr' ok h
    simp only [separateLoop] at h
    split at h
    · cases h
      exact ⟨u :: us, [], [], by simp, .stop, by simp, Or.inr ⟨rfl, by simp⟩⟩
    · cases hs : runSingle w o tr u with
      | mk tr1 r1 =>
        obtain ⟨e1, h1, l1, x1⟩ := runSingle_spec hs
        have np : ∀ v ps c b, Ev.put v ps c b ∉ e1 := fun v ps c b hm => l1 _ hm
        rw [hs] at h
        cases r1 with
        | none =>
          cases h
          exact ⟨u :: us, [], e1, by simp [h1], .stop, fun v ps c => np v ps c true, Or.inr ⟨rfl, by simp⟩⟩
        | some ps =>
          simp only [save] at h
          by_cases hen : w.encode ps = true
          · rw [if_pos hen] at h
            cases hput : w.put tr1 (w.name u) ps with
            | false =>
              rw [hput] at h
              cases h
              refine ⟨u :: us, [], e1 ++ [.put (w.name u) ps us.isEmpty false], by simp [h1], .stop, ?_,
                Or.inr ⟨rfl, by simp⟩⟩
              intro v qs c hm
              rcases List.mem_append.1 hm with hm | hm
              · exact np v qs c true hm
              · simp at hm
            | true =>
              rw [hput] at h
              obtain ⟨rest, evs, tail, h2, h3, h4, h5⟩ := ih h
              exact ⟨rest, e1 ++ (.put (w.name u) ps us.isEmpty true :: evs), tail, by rw [h2, h1]; simp,
                .cons (x1 _ rfl) hen h3, h4, h5⟩
          · rw [if_neg hen] at h
            cases h
            exact ⟨u :: us, [], e1, by simp [h1], .stop, fun v ps c => np v ps c true, Or.inr ⟨rfl, by simp⟩⟩

theorem extra_loads {x : Option String} {evs : List Ev} {d : Option Doc} (h : Extra x evs d) : ∀ e ∈ evs, e.isLoad := by
  cases h with
  | none => simp
  | some => simp [Ev.isLoad]

theorem one_loads {w : World} {o : Opts} {u : String} {evs : List Ev} {ps : List Page} (h : One w o u evs ps) :
    ∀ e ∈ evs, e.isLoad := by
  cases h with
  | single _ => simp [Ev.isLoad]
  | paged _ h f =>
    intro e he
    rcases List.mem_cons.1 he with rfl | he
    · trivial
    · rcases List.mem_append.1 he with he | he
      · exact extra_loads h e he
      · exact extra_loads f e he

theorem all_loads {w : World} {o : Opts} {us : List String} {evs : List Ev} {ps : List Page} (h : All w o us evs ps) :
    ∀ e ∈ evs, e.isLoad := by
  induction h with
  | nil => simp
  | cons h1 _ ih =>
    intro e he
    rcases List.mem_append.1 he with he | he
    · exact one_loads h1 e he
    · exact ih e he

/-- The list of what was saved under a name. -/
def savedAs (tr : List Ev) (url : String) : List (List Page) :=
  tr.filterMap fun e => match e with
    | .put u ps _ true => if u = url then some ps else none
    | _ => none

theorem savedAs_append (a b : List Ev) (url : String) : savedAs (a ++ b) url = savedAs a url ++ savedAs b url := by
  simp [savedAs]

theorem savedAs_loads {evs : List Ev} (h : ∀ e ∈ evs, e.isLoad) (url : String) : savedAs evs url = [] := by
  unfold savedAs
  rw [List.filterMap_eq_nil_iff]
  intro e he
  cases e with
  | load _ _ => rfl
  | put _ _ _ _ => exact absurd (h _ he) (by simp [Ev.isLoad])

theorem savedAs_none {tail : List Ev} (h : ∀ u ps c, .put u ps c true ∉ tail) (url : String) : savedAs tail url = [] := by
  unfold savedAs
  rw [List.filterMap_eq_nil_iff]
  intro e he
  cases e with
  | load _ _ => rfl
  | put u ps c b =>
    cases b with
    | false => rfl
    | true => exact absurd he (h u ps c)

theorem saved_other {w : World} {o : Opts} {us rest : List String} {evs : List Ev} (h : Saved w o us rest evs) {url : String}
    (hn : ∀ u ∈ us, w.name u ≠ url) : savedAs evs url = [] := by
  induction h with
  | stop => rfl
  | cons h1 _ _ ih =>
    rw [savedAs_append, savedAs_loads (one_loads h1)]
    simp only [savedAs, List.nil_append, List.filterMap_cons]
    rw [if_neg (hn _ List.mem_cons_self)]
    exact ih fun u hu => hn u (List.mem_cons_of_mem _ hu)

end Verif.Run
