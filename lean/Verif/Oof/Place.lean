import Verif.Oof.Lemmas
/-! # Lemmas: where the boxes out of the flow are laid out -/
namespace Verif.Oof
open Spec

theorem each_mem {P : Look → List Box → Prop} {c : Box} : ∀ {cs : List Box}, EachAll P cs → c ∈ cs → Each P c
  | d :: cs, h, hc => by
    simp only [EachAll] at h
    rcases List.mem_cons.1 hc with rfl | hc
    · exact h.1
    · exact each_mem h.2 hc

theorem each_of {P : Look → List Box → Prop} : ∀ {cs : List Box}, (∀ c ∈ cs, Each P c) → EachAll P cs
  | [], _ => trivial
  | c :: cs, h => ⟨h c List.mem_cons_self, each_of fun d hd => h d (List.mem_cons_of_mem _ hd)⟩

theorem each_kids {P : Look → List Box → Prop} {k : Look} {cs : List Box} (h : Each P (.mk k cs)) :
    P k cs ∧ ∀ c ∈ cs, Each P c := by
  simp only [Each] at h
  exact ⟨h.1, fun c hc => each_mem h.2 hc⟩

/-- A pending box. -/
def Fine (c : Box) : Prop := away c.look.tag.pos = true ∧ Each Keeps c

/-- Layout of a box accounts for all that is out of the flow in it. -/
def Accounts (g : Box → Option Out) : Prop := ∀ c o, g c = some o → Each Keeps c →
  (∀ d ∈ o.stash, Fine d) ∧ ∀ anc, (want anc c).Perm (o.placed ++ due anc o.stash)

theorem around_want {c : Box} (h : ∀ w ∈ c.look.wraps, w.pos = .static) (anc : List Tag) :
    want (around c ++ anc) c = want anc c := want_same (fun p _ => nearest_around h p) c

/-- What the children of a box need. -/
theorem wantAll_cons {c : Box} {cs : List Box} {anc : List Tag} (h : ∀ w ∈ c.look.wraps, w.pos = .static) :
    wantAll anc (c :: cs) =
      (if away c.look.tag.pos then [(c.look.tag.id, nearest anc c.look.tag.pos)] else []) ++
        (want anc c ++ wantAll anc cs) := by
  rw [wantAll, around_want h, show nearest (around c ++ anc) c.look.tag.pos = _ from nearest_around h _]

theorem runFlow_accounts {g : Box → Option Out} (hg : Accounts g) : ∀ (cs : List Box) (r : Run), runFlow g cs = some r →
    (∀ c ∈ cs, ∀ w ∈ c.look.wraps, w.pos = .static) → (∀ c ∈ cs, Each Keeps c) →
    (∀ d ∈ r.stash, Fine d) ∧ ∀ anc, (wantAll anc cs).Perm (r.placed ++ due anc r.stash)
  | [], r, h, _, _ => by
    simp only [runFlow, Option.some.injEq] at h
    subst h
    simp [wantAll]
  | c :: cs, r, h, hw, hk => by
    have hw' := hw c List.mem_cons_self
    simp only [runFlow] at h
    split at h
    · rename_i ha
      rw [oof_away] at ha
      split at h
      · cases h
      · rename_i r' hr
        obtain ⟨h1, h2⟩ := runFlow_accounts hg cs r' hr (fun d hd => hw d (List.mem_cons_of_mem _ hd))
          fun d hd => hk d (List.mem_cons_of_mem _ hd)
        simp only [Option.some.injEq] at h
        subst h
        refine ⟨?_, fun anc => ?_⟩
        · intro d hd
          simp only [Run.append, List.cons_append, List.nil_append, List.mem_cons] at hd
          rcases hd with rfl | hd
          · exact ⟨ha, hk _ List.mem_cons_self⟩
          · exact h1 d hd
        · rw [wantAll_cons hw', if_pos ha]
          have := h2 anc
          simp only [Run.append, List.nil_append, List.cons_append, due_cons]
          refine List.perm_iff_count.2 fun a => ?_
          have := this.count_eq a
          simp only [List.count_append, List.count_cons] at this ⊢
          omega
    · rename_i ha
      rw [oof_away] at ha
      split at h
      · cases h
      · rename_i o ho
        split at h
        · cases h
        · rename_i r' hr
          obtain ⟨h1, h2⟩ := runFlow_accounts hg cs r' hr (fun d hd => hw d (List.mem_cons_of_mem _ hd))
            fun d hd => hk d (List.mem_cons_of_mem _ hd)
          obtain ⟨h3, h4⟩ := hg c o ho (hk c List.mem_cons_self)
          simp only [Option.some.injEq] at h
          subst h
          refine ⟨?_, fun anc => ?_⟩
          · intro d hd
            rcases List.mem_append.1 hd with hd | hd
            · exact h3 d hd
            · exact h1 d hd
          · rw [wantAll_cons hw', if_neg ha]
            have h2 := h2 anc
            have h4 := h4 anc
            simp only [Run.append, due_append, List.nil_append]
            refine List.perm_iff_count.2 fun a => ?_
            have h2 := h2.count_eq a
            have h4 := h4.count_eq a
            simp only [List.count_append] at h2 h4 ⊢
            omega

/-- What the children of a box need that are laid out by it. -/
def needs (anc : List Tag) (cs : List Box) : List Placing := cs.flatMap (want anc)

theorem runAll_accounts {g : Box → Option Out} (hg : Accounts g) : ∀ (cs : List Box) (r : Run), runAll g cs = some r →
    (∀ c ∈ cs, Each Keeps c) →
    (∀ d ∈ r.stash, Fine d) ∧ ∀ anc, (needs anc cs).Perm (r.placed ++ due anc r.stash)
  | [], r, h, _ => by
    simp only [runAll, Option.some.injEq] at h
    subst h
    simp [needs]
  | c :: cs, r, h, hk => by
    simp only [runAll] at h
    split at h
    · cases h
    · rename_i o ho
      split at h
      · cases h
      · rename_i r' hr
        obtain ⟨h1, h2⟩ := runAll_accounts hg cs r' hr fun d hd => hk d (List.mem_cons_of_mem _ hd)
        obtain ⟨h3, h4⟩ := hg c o ho (hk c List.mem_cons_self)
        simp only [Option.some.injEq] at h
        subst h
        refine ⟨?_, fun anc => ?_⟩
        · intro d hd
          rcases List.mem_append.1 hd with hd | hd
          · exact h3 d hd
          · exact h1 d hd
        · have h2 := h2 anc
          have h4 := h4 anc
          simp only [Run.append, due_append, needs, List.flatMap_cons] at h2 ⊢
          refine List.perm_iff_count.2 fun a => ?_
          have h2 := h2.count_eq a
          have h4 := h4.count_eq a
          simp only [List.count_append] at h2 h4 ⊢
          omega

theorem wantAll_needs (anc : List Tag) : ∀ cs : List Box, (∀ c ∈ cs, ∀ w ∈ c.look.wraps, w.pos = .static) →
    (∀ c ∈ cs, away c.look.tag.pos = false) → wantAll anc cs = needs anc cs
  | [], _, _ => rfl
  | c :: cs, hw, ha => by
    rw [wantAll_cons (hw c List.mem_cons_self), if_neg (by simp [ha c List.mem_cons_self]),
      wantAll_needs anc cs (fun d hd => hw d (List.mem_cons_of_mem _ hd)) fun d hd => ha d (List.mem_cons_of_mem _ hd)]
    simp [needs]

/-- Children in the flow, and the others. -/
theorem wantAll_split (anc : List Tag) : ∀ cs : List Box, (∀ c ∈ cs, ∀ w ∈ c.look.wraps, w.pos = .static) →
    (∀ c ∈ cs, c.look.floats = false) →
    (wantAll anc cs).Perm (needs anc (cs.filter fun c => !c.removed) ++ due anc (cs.filter Box.oof))
  | [], _, _ => by simp [wantAll, needs]
  | c :: cs, hw, hf => by
    have ih := wantAll_split anc cs (fun d hd => hw d (List.mem_cons_of_mem _ hd)) fun d hd => hf d (List.mem_cons_of_mem _ hd)
    have h1 := hf c List.mem_cons_self
    rw [wantAll_cons (hw c List.mem_cons_self)]
    refine List.perm_iff_count.2 fun a => ?_
    have ih := ih.count_eq a
    cases h2 : c.oof
    · have h3 := h2
      rw [oof_away] at h3
      simp [List.filter_cons, Box.removed, h1, h2, h3, needs, List.count_append] at ih ⊢
      omega
    · have h3 := h2
      rw [oof_away] at h3
      simp [List.filter_cons, Box.removed, h1, h2, h3, needs, List.count_append, List.count_cons] at ih ⊢
      omega

theorem runDrop_accounts {g : Box → Option Out} (hg : Accounts g) {cs : List Box} {r : Run} (h : runDrop g cs = some r)
    (hw : ∀ c ∈ cs, ∀ w ∈ c.look.wraps, w.pos = .static)
    (hd : ∀ c ∈ cs, away c.look.tag.pos = false ∧ ∀ p ∈ want [] c, p.2 ≠ none) (hk : ∀ c ∈ cs, Each Keeps c) :
    (∀ d ∈ r.stash, Fine d) ∧ ∀ anc, (wantAll anc cs).Perm (r.placed ++ due anc r.stash) := by
  simp only [runDrop] at h
  split at h
  · cases h
  · rename_i r' hr
    obtain ⟨_, h2⟩ := runAll_accounts hg cs r' hr hk
    have hn : r'.stash = [] := by
      cases hs : r'.stash with
      | nil => rfl
      | cons e es =>
        have := (h2 []).mem_iff (a := (e.look.tag.id, nearest [] e.look.tag.pos))
        rw [hs] at this
        have hm : (e.look.tag.id, nearest [] e.look.tag.pos) ∈ needs [] cs := this.2 (by simp)
        obtain ⟨c, hc, hm⟩ := List.mem_flatMap.1 hm
        exact absurd rfl ((hd c hc).2 _ hm)
    simp only [Option.some.injEq] at h
    subst h
    refine ⟨by simp, fun anc => ?_⟩
    rw [wantAll_needs anc cs hw fun c hc => (hd c hc).1]
    have := h2 anc
    rw [hn] at this
    simpa using this

theorem run_accounts {g : Box → Option Out} (hg : Accounts g) {k : Look} {cs : List Box} {r : Run}
    (h : run g k cs = some r) (hK : Keeps k cs) (hk : ∀ c ∈ cs, Each Keeps c) :
    (∀ d ∈ r.stash, Fine d) ∧ ∀ anc, (wantAll anc cs).Perm (r.placed ++ due anc r.stash) := by
  cases hc : k.ctx <;> simp only [run, hc] at h
  · exact runFlow_accounts hg cs r h hK.wraps hk
  · exact runFlow_accounts hg cs r h hK.wraps hk
  · obtain ⟨hf, hi⟩ := hK.flex hc
    simp only [runFlex] at h
    split at h
    · rename_i he
      simp only [Option.some.injEq] at h
      subst h
      have hn : cs = [] := by
        rcases hi with hi | ⟨c, hc, hi⟩
        · exact hi
        · have : c ∈ cs.filter fun c => !c.removed :=
            List.mem_filter.2 ⟨hc, by simp [Box.removed, hf c hc, oof_away, hi]⟩
          rw [List.isEmpty_iff.1 he] at this
          cases this
      subst hn
      simp [wantAll]
    · split at h
      · cases h
      · rename_i r' hr
        obtain ⟨h1, h2⟩ := runAll_accounts hg _ r' hr fun c hc => hk c (List.mem_filter.1 hc).1
        simp only [Option.some.injEq] at h
        subst h
        refine ⟨?_, fun anc => ?_⟩
        · intro d hd
          rcases List.mem_append.1 hd with hd | hd
          · exact h1 d hd
          · have := List.mem_filter.1 hd
            exact ⟨by rw [← oof_away]; exact this.2, hk d this.1⟩
        · have h2 := h2 anc
          have h3 := wantAll_split anc cs hK.wraps hf
          simp only [due_append]
          refine List.perm_iff_count.2 fun a => ?_
          have h2 := h2.count_eq a
          have h3 := h3.count_eq a
          simp only [List.count_append] at h2 h3 ⊢
          omega
  · exact runDrop_accounts hg h hK.wraps (hK.held (Or.inl hc)) hk
  · exact runDrop_accounts hg h hK.wraps (hK.held (Or.inr hc)) hk

/-- The pending boxes: `anc` are the ancestors with the box that lays them out, `bnc` those without it. -/
theorem drain_accounts {g : Box → Option Out} (hg : Accounts g) {k : Option Tag} {anc bnc : List Tag}
    (hit : ∀ c, Fine c → handles k c.look.tag = true → nearest anc c.look.tag.pos = k.map Tag.id)
    (miss : ∀ c, Fine c → handles k c.look.tag = false →
      nearest anc c.look.tag.pos = nearest bnc c.look.tag.pos ∧ want anc c = want bnc c) :
    ∀ (n : Nat) (fs : List Frag) (P : List Box) (d : Run), drain g n k fs P = some d → (∀ c ∈ P, Fine c) →
    (∀ c ∈ d.stash, Fine c ∧ handles k c.look.tag = false) ∧ (due anc P).Perm (d.placed ++ due bnc d.stash)
  | 0, _, _, _, h, _ => by simp [drain] at h
  | n + 1, fs, [], d, h, _ => by
    simp only [drain, Option.some.injEq] at h
    subst h
    simp
  | n + 1, fs, c :: rest, d, h, hf => by
    have hc := hf c List.mem_cons_self
    simp only [drain] at h
    split at h
    · rename_i hh
      split at h
      · cases h
      · rename_i o ho
        split at h
        · cases h
        · rename_i d' hd
          obtain ⟨h1, h2⟩ := hg c o ho hc.2
          obtain ⟨h3, h4⟩ := drain_accounts hg hit miss n _ _ d' hd (by
            intro e he
            rcases List.mem_append.1 he with he | he
            · exact hf e (List.mem_cons_of_mem _ he)
            · exact h1 e he)
          simp only [Option.some.injEq] at h
          subst h
          refine ⟨h3, ?_⟩
          have h2 := h2 anc
          simp only [due_cons, due_append, hit c hc hh] at h4 ⊢
          refine List.perm_iff_count.2 fun a => ?_
          have h2 := h2.count_eq a
          have h4 := h4.count_eq a
          simp only [List.count_append, List.count_cons, Box.id, List.cons_append] at h2 h4 ⊢
          omega
    · rename_i hh
      split at h
      · cases h
      · rename_i d' hd
        obtain ⟨h3, h4⟩ := drain_accounts hg hit miss n _ _ d' hd fun e he => hf e (List.mem_cons_of_mem _ he)
        obtain ⟨m1, m2⟩ := miss c hc (by simpa using hh)
        simp only [Option.some.injEq] at h
        subst h
        refine ⟨?_, ?_⟩
        · intro e he
          rcases List.mem_cons.1 he with rfl | he
          · exact ⟨hc, by simpa using hh⟩
          · exact h3 e he
        · simp only [due_cons, m1, m2]
          refine List.perm_iff_count.2 fun a => ?_
          have h4 := h4.count_eq a
          simp only [List.count_append, List.count_cons, List.cons_append] at h4 ⊢
          omega

theorem lay_accounts : ∀ n, Accounts (lay n)
  | 0 => by intro c o h; simp [lay] at h
  | n + 1 => by
    rintro ⟨k, cs⟩ o h hK
    obtain ⟨hK, hk⟩ := each_kids hK
    simp only [lay] at h
    split at h
    · cases h
    · rename_i r hr
      split at h
      · cases h
      · rename_i d hd
        obtain ⟨h1, h2⟩ := run_accounts (lay_accounts n) hr hK hk
        have h3 := fun anc => drain_accounts (lay_accounts n) (k := some k.tag) (anc := k.tag :: anc) (bnc := anc)
          (by
            intro c _ hh
            rw [handles_holds] at hh
            exact nearest_hit hh)
          (by
            intro c hc hh
            rw [handles_holds] at hh
            exact ⟨nearest_miss hh, want_skip hc.1 hh⟩) _ _ _ _ hd h1
        simp only [Option.some.injEq] at h
        subst h
        refine ⟨fun e he => ((h3 []).1 e he).1, fun anc => ?_⟩
        have h2 := h2 (k.tag :: anc)
        have h3 := (h3 anc).2
        simp only [want]
        refine List.perm_iff_count.2 fun a => ?_
        have h2 := h2.count_eq a
        have h3 := h3.count_eq a
        simp only [List.count_append] at h2 h3 ⊢
        omega

theorem layRoot_accounts {n : Nat} {b : Box} {o : Out} (h : layRoot n b = some o) (hK : Each Keeps b) :
    o.stash = [] ∧ o.placed.Perm (want [] b) := by
  simp only [layRoot] at h
  split at h
  · cases h
  · rename_i p hp
    split at h
    · cases h
    · rename_i d hd
      obtain ⟨h1, h2⟩ := lay_accounts n b p hp hK
      obtain ⟨h3, h4⟩ := drain_accounts (lay_accounts n) (k := none) (anc := []) (bnc := []) (by
        intro c _ _
        rfl) (by
        intro c _ hh
        simp [handles] at hh) _ _ _ _ hd h1
      have hs : d.stash = [] := by
        cases hs : d.stash with
        | nil => rfl
        | cons e es =>
          have := (h3 e (by rw [hs]; exact List.mem_cons_self)).2
          simp [handles] at this
      simp only [Option.some.injEq] at h
      subst h
      refine ⟨hs, ?_⟩
      have h2 := h2 []
      refine List.perm_iff_count.2 fun a => ?_
      have h2 := h2.count_eq a
      have h4 := h4.count_eq a
      simp only [List.count_append, hs, due_nil, List.count_nil] at h2 h4 ⊢
      omega

end Verif.Oof
