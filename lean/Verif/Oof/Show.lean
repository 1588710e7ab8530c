import Verif.Oof.Place
/-! # Lemmas: what is painted, and what the overflow covers -/
namespace Verif.Oof
open Spec

mutual
/-- The boxes of a fragment and below it, through placeholders not. -/
def solid : Frag → List Look
  | .box l _ ks => l :: solidAll ks
  | .hole _ => []
  | .filled _ _ => []
def solidAll : List Frag → List Look
  | [] => []
  | f :: fs => solid f ++ solidAll fs
end

mutual
/-- The placeholders without a fragment that painting comes to. -/
def opens : Frag → List Nat
  | .box _ _ ks => opensAll ks
  | .hole i => [i]
  | .filled _ f => opens f
def opensAll : List Frag → List Nat
  | [] => []
  | f :: fs => (if f.isOof then [] else opens f) ++ opensAll fs
end

theorem solidAll_append : ∀ a b : List Frag, solidAll (a ++ b) = solidAll a ++ solidAll b
  | [], b => rfl
  | f :: a, b => by simp [solidAll, solidAll_append a b]

theorem opensAll_append : ∀ a b : List Frag, opensAll (a ++ b) = opensAll a ++ opensAll b
  | [], b => rfl
  | f :: a, b => by simp [opensAll, opensAll_append a b]

theorem paintedAll_append : ∀ a b : List Frag, paintedAll (a ++ b) = paintedAll a ++ paintedAll b
  | [], b => rfl
  | f :: a, b => by simp [paintedAll, paintedAll_append a b]

theorem everyAll_append : ∀ a b : List Box, everyAll (a ++ b) = everyAll a ++ everyAll b
  | [], b => rfl
  | f :: a, b => by simp [everyAll, everyAll_append a b]

theorem solid_flag (f : Frag) : solid f.flag = solid f := by cases f <;> simp [Frag.flag, solid]
theorem opens_flag (f : Frag) : opens f.flag = opens f := by cases f <;> simp [Frag.flag, opens]
theorem painted_flag (f : Frag) : painted f.flag = painted f := by cases f <;> simp [Frag.flag, painted]

mutual
theorem solid_fill (i : Nat) (g : Frag) : ∀ f : Frag, solid (fill i g f) = solid f
  | .box l o ks => by simp [fill, solid, solidAll_fill i g ks]
  | .hole j => by
    simp only [fill]
    split <;> simp [solid]
  | .filled j h => by simp [fill, solid]
theorem solidAll_fill (i : Nat) (g : Frag) : ∀ fs : List Frag, solidAll (fillAll i g fs) = solidAll fs
  | [] => rfl
  | f :: fs => by simp [fillAll, solidAll, solid_fill i g f, solidAll_fill i g fs]
end

theorem isOof_fill (i : Nat) (g f : Frag) : (fill i g f).isOof = f.isOof := by
  cases f with
  | box => rfl
  | hole j => simp only [fill]; split <;> rfl
  | filled => rfl

mutual
theorem painted_fill (i : Nat) (g : Frag) (a : Nat) : ∀ f : Frag,
    (painted (fill i g f)).count a = (painted f).count a + (opens f).count i * (painted g).count a
  | .box l o ks => by
    simp only [fill, painted, opens, List.count_cons, paintedAll_fill i g a ks]
    omega
  | .hole j => by
    simp only [fill]
    split
    · rename_i h
      simp [painted, opens, h]
    · rename_i h
      simp [painted, opens, List.count_cons, h]
  | .filled j h => by simp [fill, painted, opens, painted_fill i g a h]
theorem paintedAll_fill (i : Nat) (g : Frag) (a : Nat) : ∀ fs : List Frag,
    (paintedAll (fillAll i g fs)).count a = (paintedAll fs).count a + (opensAll fs).count i * (painted g).count a
  | [] => by simp [fillAll, paintedAll, opensAll]
  | f :: fs => by
    simp only [fillAll, paintedAll, opensAll, isOof_fill]
    have h1 := painted_fill i g a f
    have h2 := paintedAll_fill i g a fs
    cases f.isOof
    · simp only [Bool.false_eq_true, if_false, List.count_append, h1, h2, Nat.add_mul]
      omega
    · simp only [if_true, List.nil_append, h2]
end

mutual
theorem opens_fill (i : Nat) (g : Frag) (a : Nat) : ∀ f : Frag,
    (opens (fill i g f)).count a + (if i = a then (opens f).count i else 0) =
      (opens f).count a + (opens f).count i * (opens g).count a
  | .box l o ks => by
    simp only [fill, opens]
    exact opensAll_fill i g a ks
  | .hole j => by
    simp only [fill]
    split
    · rename_i h
      subst h
      by_cases h : j = a
      · subst h
        simp [opens]
        omega
      · simp [opens, h]
    · rename_i h
      by_cases h' : i = a
      · subst h'
        simp [opens, List.count_cons, h]
      · simp [opens, List.count_cons, h, h']
  | .filled j h => by
    simp only [fill, opens]
    exact opens_fill i g a h
theorem opensAll_fill (i : Nat) (g : Frag) (a : Nat) : ∀ fs : List Frag,
    (opensAll (fillAll i g fs)).count a + (if i = a then (opensAll fs).count i else 0) =
      (opensAll fs).count a + (opensAll fs).count i * (opens g).count a
  | [] => by simp [fillAll, opensAll]
  | f :: fs => by
    simp only [fillAll, opensAll, isOof_fill]
    have h1 := opens_fill i g a f
    have h2 := opensAll_fill i g a fs
    cases f.isOof
    · simp only [Bool.false_eq_true, if_false, List.count_append, Nat.add_mul]
      by_cases h : i = a
      · simp only [if_pos h] at h1 h2 ⊢
        omega
      · simp only [if_neg h] at h1 h2 ⊢
        omega
    · simpa only [if_true, List.nil_append] using h2
end

/-! ## Every box has a fragment -/

/-- What was laid out has a fragment, apart from what is handed on. -/
def Solid (g : Box → Option Out) : Prop := ∀ c o, g c = some o → Each Keeps c →
  (every c).Perm (solid o.frag ++ everyAll o.stash)

theorem runAll_solid {g : Box → Option Out} (hg : Solid g) : ∀ (cs : List Box) (r : Run), runAll g cs = some r →
    (∀ c ∈ cs, Each Keeps c) → (everyAll cs).Perm (solidAll r.frags ++ everyAll r.stash)
  | [], r, h, _ => by
    simp only [runAll, Option.some.injEq] at h
    subst h
    simp [everyAll, solidAll]
  | c :: cs, r, h, hk => by
    simp only [runAll] at h
    split at h
    · cases h
    · rename_i o ho
      split at h
      · cases h
      · rename_i r' hr
        have h1 := runAll_solid hg cs r' hr fun d hd => hk d (List.mem_cons_of_mem _ hd)
        have h2 := hg c o ho (hk c List.mem_cons_self)
        simp only [Option.some.injEq] at h
        subst h
        refine List.perm_iff_count.2 fun a => ?_
        have h1 := h1.count_eq a
        have h2 := h2.count_eq a
        simp only [Run.append, everyAll, everyAll_append, solidAll, List.nil_append, List.cons_append,
          List.count_append] at h1 h2 ⊢
        omega

theorem runFlow_solid {g : Box → Option Out} (hg : Solid g) : ∀ (cs : List Box) (r : Run), runFlow g cs = some r →
    (∀ c ∈ cs, Each Keeps c) → (everyAll cs).Perm (solidAll r.frags ++ everyAll r.stash)
  | [], r, h, _ => by
    simp only [runFlow, Option.some.injEq] at h
    subst h
    simp [everyAll, solidAll]
  | c :: cs, r, h, hk => by
    simp only [runFlow] at h
    split at h
    · split at h
      · cases h
      · rename_i r' hr
        have h1 := runFlow_solid hg cs r' hr fun d hd => hk d (List.mem_cons_of_mem _ hd)
        simp only [Option.some.injEq] at h
        subst h
        refine List.perm_iff_count.2 fun a => ?_
        have h1 := h1.count_eq a
        simp only [Run.append, everyAll, solidAll, solid, List.nil_append, List.cons_append,
          List.count_append] at h1 ⊢
        omega
    · split at h
      · cases h
      · rename_i o ho
        split at h
        · cases h
        · rename_i r' hr
          have h1 := runFlow_solid hg cs r' hr fun d hd => hk d (List.mem_cons_of_mem _ hd)
          have h2 := hg c o ho (hk c List.mem_cons_self)
          simp only [Option.some.injEq] at h
          subst h
          refine List.perm_iff_count.2 fun a => ?_
          have h1 := h1.count_eq a
          have h2 := h2.count_eq a
          simp only [Run.append, everyAll, everyAll_append, solidAll, List.nil_append, List.cons_append,
            List.count_append] at h1 h2 ⊢
          omega

theorem every_split : ∀ cs : List Box, (∀ c ∈ cs, c.look.floats = false) →
    (everyAll cs).Perm (everyAll (cs.filter fun c => !c.removed) ++ everyAll (cs.filter Box.oof))
  | [], _ => by simp [everyAll]
  | c :: cs, hf => by
    have ih := every_split cs fun d hd => hf d (List.mem_cons_of_mem _ hd)
    have h1 := hf c List.mem_cons_self
    refine List.perm_iff_count.2 fun a => ?_
    have ih := ih.count_eq a
    cases h2 : c.oof <;> simp [List.filter_cons, Box.removed, h1, h2, everyAll, List.count_append] at ih ⊢ <;> omega

/-- Under `Keeps`, tables and drawings have nothing to drop. -/
theorem stash_nil {g : Box → Option Out} (hg : Accounts g) {cs : List Box} {r : Run} (h : runAll g cs = some r)
    (hd : ∀ c ∈ cs, away c.look.tag.pos = false ∧ ∀ p ∈ want [] c, p.2 ≠ none) (hk : ∀ c ∈ cs, Each Keeps c) :
    r.stash = [] := by
  obtain ⟨_, h2⟩ := runAll_accounts hg cs r h hk
  cases hs : r.stash with
  | nil => rfl
  | cons e es =>
    have := (h2 []).mem_iff (a := (e.look.tag.id, nearest [] e.look.tag.pos))
    rw [hs] at this
    have hm : (e.look.tag.id, nearest [] e.look.tag.pos) ∈ needs [] cs := this.2 (by simp)
    obtain ⟨c, hc, hm⟩ := List.mem_flatMap.1 hm
    exact absurd rfl ((hd c hc).2 _ hm)

/-- A flex container has something in the flow. -/
theorem flex_empty {k : Look} {cs : List Box} (hK : Keeps k cs) (hc : k.ctx = .flex)
    (he : (cs.filter fun c => !c.removed).isEmpty = true) : cs = [] := by
  obtain ⟨hf, hi⟩ := hK.flex hc
  rcases hi with hi | ⟨c, hc, hi⟩
  · exact hi
  · have : c ∈ cs.filter fun c => !c.removed :=
      List.mem_filter.2 ⟨hc, by simp [Box.removed, hf c hc, oof_away, hi]⟩
    rw [List.isEmpty_iff.1 he] at this
    cases this

theorem run_solid {g : Box → Option Out} (ha : Accounts g) (hg : Solid g) {k : Look} {cs : List Box} {r : Run}
    (h : run g k cs = some r) (hK : Keeps k cs) (hk : ∀ c ∈ cs, Each Keeps c) :
    (everyAll cs).Perm (solidAll r.frags ++ everyAll r.stash) := by
  have drop : (k.ctx = .table ∨ k.ctx = .drawing) → runDrop g cs = some r →
      (everyAll cs).Perm (solidAll r.frags ++ everyAll r.stash) := by
    intro hc h
    simp only [runDrop] at h
    split at h
    · cases h
    · rename_i r' hr
      have h1 := runAll_solid hg cs r' hr hk
      rw [stash_nil ha hr (hK.held hc) hk] at h1
      simp only [Option.some.injEq] at h
      subst h
      exact h1
  cases hc : k.ctx <;> simp only [run, hc] at h
  · exact runFlow_solid hg cs r h hk
  · exact runFlow_solid hg cs r h hk
  · simp only [runFlex] at h
    split at h
    · rename_i he
      have := flex_empty hK hc he
      subst this
      simp only [Option.some.injEq] at h
      subst h
      simp [everyAll, solidAll]
    · split at h
      · cases h
      · rename_i r' hr
        have h1 := runAll_solid hg _ r' hr fun c hc => hk c (List.mem_filter.1 hc).1
        have h2 := every_split cs (hK.flex hc).1
        simp only [Option.some.injEq] at h
        subst h
        refine List.perm_iff_count.2 fun a => ?_
        have h1 := h1.count_eq a
        have h2 := h2.count_eq a
        simp only [everyAll_append, List.count_append] at h1 h2 ⊢
        omega
  · exact drop (Or.inl hc) h
  · exact drop (Or.inr hc) h

theorem drain_solid {g : Box → Option Out} (ha : Accounts g) (hg : Solid g) {k : Option Tag} :
    ∀ (n : Nat) (fs : List Frag) (P : List Box) (d : Run), drain g n k fs P = some d → (∀ c ∈ P, Fine c) →
    (solidAll fs ++ everyAll P).Perm (solidAll d.frags ++ everyAll d.stash)
  | 0, _, _, _, h, _ => by simp [drain] at h
  | n + 1, fs, [], d, h, _ => by
    simp only [drain, Option.some.injEq] at h
    subst h
    exact List.Perm.refl _
  | n + 1, fs, c :: rest, d, h, hf => by
    have hc := hf c List.mem_cons_self
    simp only [drain] at h
    split at h
    · split at h
      · cases h
      · rename_i o ho
        split at h
        · cases h
        · rename_i d' hd
          have h1 := hg c o ho hc.2
          have h3 := drain_solid ha hg n _ _ d' hd (by
            intro e he
            rcases List.mem_append.1 he with he | he
            · exact hf e (List.mem_cons_of_mem _ he)
            · exact (ha c o ho hc.2).1 e he)
          simp only [Option.some.injEq] at h
          subst h
          refine List.perm_iff_count.2 fun a => ?_
          have h1 := h1.count_eq a
          have h3 := h3.count_eq a
          simp only [solidAll_append, solidAll_fill, solidAll, solid_flag, everyAll_append, everyAll,
            List.count_append, List.count_nil] at h1 h3 ⊢
          omega
    · split at h
      · cases h
      · rename_i d' hd
        have h3 := drain_solid ha hg n _ _ d' hd fun e he => hf e (List.mem_cons_of_mem _ he)
        simp only [Option.some.injEq] at h
        subst h
        refine List.perm_iff_count.2 fun a => ?_
        have h3 := h3.count_eq a
        simp only [everyAll, List.count_append] at h3 ⊢
        omega

theorem lay_frag {n : Nat} {b : Box} {o : Out} (h : lay n b = some o) : ∃ ks, o.frag = .box b.look false ks := by
  cases n with
  | zero => simp [lay] at h
  | succ n =>
    obtain ⟨k, cs⟩ := b
    simp only [lay] at h
    split at h
    · cases h
    · split at h
      · cases h
      · simp only [Option.some.injEq] at h
        subst h
        exact ⟨_, rfl⟩

theorem lay_solid : ∀ n, Solid (lay n)
  | 0 => by intro c o h; simp [lay] at h
  | n + 1 => by
    rintro ⟨k, cs⟩ o h hK
    obtain ⟨hK, hk⟩ := each_kids hK
    simp only [lay] at h
    split at h
    · cases h
    · rename_i r hr
      split at h
      · cases h
      · rename_i d hd
        have h1 := (run_accounts (lay_accounts n) hr hK hk).1
        have h2 := run_solid (lay_accounts n) (lay_solid n) hr hK hk
        have h3 := drain_solid (lay_accounts n) (lay_solid n) _ _ _ _ hd h1
        simp only [Option.some.injEq] at h
        subst h
        simp only [every, solid, List.cons_append]
        exact (h2.trans h3).cons k

theorem layRoot_solid {n : Nat} {b : Box} {o : Out} (h : layRoot n b = some o) (hK : Each Keeps b) :
    (every b).Perm (solid o.frag) := by
  have hs := (layRoot_accounts h hK).1
  simp only [layRoot] at h
  split at h
  · cases h
  · rename_i p hp
    split at h
    · cases h
    · rename_i d hd
      obtain ⟨ks, hp'⟩ := lay_frag hp
      have h1 := (lay_accounts n b p hp hK).1
      have h2 := lay_solid n b p hp hK
      have h3 := drain_solid (lay_accounts n) (lay_solid n) _ _ _ _ hd h1
      simp only [Option.some.injEq] at h
      subst h
      simp only at hs
      rw [hp'] at h2 h3
      refine List.perm_iff_count.2 fun a => ?_
      have h2 := h2.count_eq a
      have h3 := h3.count_eq a
      simp only [hs, solid, Frag.kids, everyAll, List.count_append, List.count_cons, List.count_nil] at h2 h3 ⊢
      omega

/-! ## Every box is painted once -/

/-- The names of boxes and of all below them. -/
def namesAll (cs : List Box) : List Nat := (everyAll cs).map fun l => l.tag.id

theorem namesAll_cons (c : Box) (cs : List Box) : namesAll (c :: cs) = names c ++ namesAll cs := by
  simp [namesAll, names, everyAll]

theorem namesAll_append (a b : List Box) : namesAll (a ++ b) = namesAll a ++ namesAll b := by
  simp [namesAll, everyAll_append]

theorem names_self (c : Box) : 1 ≤ (names c).count c.id := by
  obtain ⟨k, cs⟩ := c
  simp [names, every, Box.id, Box.look]

/-- The names of boxes alone. -/
def heads (P : List Box) : List Nat := P.map Box.id

theorem heads_le (a : Nat) : ∀ P : List Box, (heads P).count a ≤ (namesAll P).count a
  | [] => by simp [heads]
  | c :: P => by
    have h1 := heads_le a P
    have h2 := names_self c
    simp only [heads, List.map_cons, List.count_cons, namesAll_cons, List.count_append] at h1 ⊢
    by_cases h : c.id = a
    · subst h
      simp
      omega
    · simp [h]
      omega

/-- What was laid out is painted, apart from what is handed on, and that has its placeholders. -/
def Painted (g : Box → Option Out) : Prop := ∀ c o, g c = some o → Each Keeps c → Each Shows c → (names c).Nodup →
  o.frag.isOof = false ∧ (heads o.stash).Perm (opens o.frag) ∧ (names c).Perm (painted o.frag ++ namesAll o.stash)

theorem nodup_head {c : Box} {cs : List Box} (h : (namesAll (c :: cs)).Nodup) :
    (names c).Nodup ∧ (namesAll cs).Nodup := by
  rw [namesAll_cons] at h
  exact ⟨(List.nodup_append.1 h).1, (List.nodup_append.1 h).2.1⟩

theorem runAll_painted {g : Box → Option Out} (hg : Painted g) : ∀ (cs : List Box) (r : Run), runAll g cs = some r →
    (∀ c ∈ cs, Each Keeps c) → (∀ c ∈ cs, Each Shows c) → (namesAll cs).Nodup →
    (heads r.stash).Perm (opensAll r.frags) ∧ (namesAll cs).Perm (paintedAll r.frags ++ namesAll r.stash)
  | [], r, h, _, _, _ => by
    simp only [runAll, Option.some.injEq] at h
    subst h
    simp [heads, opensAll, namesAll, paintedAll, everyAll]
  | c :: cs, r, h, hk, hs, hn => by
    obtain ⟨hn1, hn2⟩ := nodup_head hn
    simp only [runAll] at h
    split at h
    · cases h
    · rename_i o ho
      split at h
      · cases h
      · rename_i r' hr
        obtain ⟨h1, h2⟩ := runAll_painted hg cs r' hr (fun d hd => hk d (List.mem_cons_of_mem _ hd))
          (fun d hd => hs d (List.mem_cons_of_mem _ hd)) hn2
        obtain ⟨h3, h4, h5⟩ := hg c o ho (hk c List.mem_cons_self) (hs c List.mem_cons_self) hn1
        simp only [Option.some.injEq] at h
        subst h
        refine ⟨List.perm_iff_count.2 fun a => ?_, List.perm_iff_count.2 fun a => ?_⟩
        · have h1 := h1.count_eq a
          have h4 := h4.count_eq a
          simp only [Run.append, heads, List.map_append, opensAll, h3, List.nil_append, List.cons_append,
            List.count_append, Bool.false_eq_true, if_false] at h1 h4 ⊢
          omega
        · have h2 := h2.count_eq a
          have h5 := h5.count_eq a
          simp only [Run.append, namesAll_cons, namesAll_append, paintedAll, h3, List.nil_append, List.cons_append,
            List.count_append, Bool.false_eq_true, if_false] at h2 h5 ⊢
          omega

theorem runFlow_painted {g : Box → Option Out} (hg : Painted g) : ∀ (cs : List Box) (r : Run), runFlow g cs = some r →
    (∀ c ∈ cs, Each Keeps c) → (∀ c ∈ cs, Each Shows c) → (namesAll cs).Nodup →
    (heads r.stash).Perm (opensAll r.frags) ∧ (namesAll cs).Perm (paintedAll r.frags ++ namesAll r.stash)
  | [], r, h, _, _, _ => by
    simp only [runFlow, Option.some.injEq] at h
    subst h
    simp [heads, opensAll, namesAll, paintedAll, everyAll]
  | c :: cs, r, h, hk, hs, hn => by
    obtain ⟨hn1, hn2⟩ := nodup_head hn
    simp only [runFlow] at h
    split at h
    · split at h
      · cases h
      · rename_i r' hr
        obtain ⟨h1, h2⟩ := runFlow_painted hg cs r' hr (fun d hd => hk d (List.mem_cons_of_mem _ hd))
          (fun d hd => hs d (List.mem_cons_of_mem _ hd)) hn2
        simp only [Option.some.injEq] at h
        subst h
        refine ⟨List.perm_iff_count.2 fun a => ?_, List.perm_iff_count.2 fun a => ?_⟩
        · have h1 := h1.count_eq a
          simp only [Run.append, heads, List.map_cons, opensAll, opens, Frag.isOof, List.nil_append, List.cons_append,
            List.count_append, List.count_cons, Bool.false_eq_true, if_false] at h1 ⊢
          omega
        · have h2 := h2.count_eq a
          simp only [Run.append, namesAll_cons, paintedAll, painted, Frag.isOof, List.nil_append,
            List.cons_append, List.count_append, Bool.false_eq_true, if_false] at h2 ⊢
          omega
    · split at h
      · cases h
      · rename_i o ho
        split at h
        · cases h
        · rename_i r' hr
          obtain ⟨h1, h2⟩ := runFlow_painted hg cs r' hr (fun d hd => hk d (List.mem_cons_of_mem _ hd))
            (fun d hd => hs d (List.mem_cons_of_mem _ hd)) hn2
          obtain ⟨h3, h4, h5⟩ := hg c o ho (hk c List.mem_cons_self) (hs c List.mem_cons_self) hn1
          simp only [Option.some.injEq] at h
          subst h
          refine ⟨List.perm_iff_count.2 fun a => ?_, List.perm_iff_count.2 fun a => ?_⟩
          · have h1 := h1.count_eq a
            have h4 := h4.count_eq a
            simp only [Run.append, heads, List.map_append, opensAll, h3, List.nil_append, List.cons_append,
              List.count_append, Bool.false_eq_true, if_false] at h1 h4 ⊢
            omega
          · have h2 := h2.count_eq a
            have h5 := h5.count_eq a
            simp only [Run.append, namesAll_cons, namesAll_append, paintedAll, h3, List.nil_append, List.cons_append,
              List.count_append, Bool.false_eq_true, if_false] at h2 h5 ⊢
            omega

theorem run_painted {g : Box → Option Out} (ha : Accounts g) (hg : Painted g) {k : Look} {cs : List Box} {r : Run}
    (h : run g k cs = some r) (hK : Keeps k cs) (hS : Shows k cs) (hk : ∀ c ∈ cs, Each Keeps c)
    (hs : ∀ c ∈ cs, Each Shows c) (hn : (namesAll cs).Nodup) :
    (heads r.stash).Perm (opensAll r.frags) ∧ (namesAll cs).Perm (paintedAll r.frags ++ namesAll r.stash) := by
  have drop : (k.ctx = .table ∨ k.ctx = .drawing) → runDrop g cs = some r →
      (heads r.stash).Perm (opensAll r.frags) ∧ (namesAll cs).Perm (paintedAll r.frags ++ namesAll r.stash) := by
    intro hc h
    simp only [runDrop] at h
    split at h
    · cases h
    · rename_i r' hr
      have h1 := runAll_painted hg cs r' hr hk hs hn
      rw [stash_nil ha hr (hK.held hc) hk] at h1
      simp only [Option.some.injEq] at h
      subst h
      exact h1
  cases hc : k.ctx <;> simp only [run, hc] at h
  · exact runFlow_painted hg cs r h hk hs hn
  · exact runFlow_painted hg cs r h hk hs hn
  · simp only [runFlex] at h
    split at h
    · rename_i he
      have := flex_empty hK hc he
      subst this
      simp only [Option.some.injEq] at h
      subst h
      simp [heads, opensAll, namesAll, paintedAll, everyAll]
    · have h1 : cs.filter (fun c => !c.removed) = cs := List.filter_eq_self.2 fun c hc' => by
        simp [Box.removed, (hK.flex hc).1 c hc', oof_away, hS hc c hc']
      have h2 : cs.filter Box.oof = [] := List.filter_eq_nil_iff.2 fun c hc' => by
        simp [oof_away, hS hc c hc']
      rw [h1, h2] at h
      split at h
      · cases h
      · rename_i r' hr
        simp only [Option.some.injEq] at h
        subst h
        simpa using runAll_painted hg cs r' hr hk hs hn
  · exact drop (Or.inl hc) h
  · exact drop (Or.inr hc) h

/-! What is handed on is in the tree. -/

/-- What holds all over a tree holds all over what is handed on. -/
def Hands (P : Look → List Box → Prop) (g : Box → Option Out) : Prop :=
  ∀ c o, g c = some o → Each P c → ∀ e ∈ o.stash, Each P e

theorem runFlow_hands {P : Look → List Box → Prop} {g : Box → Option Out} (hg : Hands P g) :
    ∀ (cs : List Box) (r : Run), runFlow g cs = some r → (∀ c ∈ cs, Each P c) → ∀ e ∈ r.stash, Each P e
  | [], r, h, _ => by
    simp only [runFlow, Option.some.injEq] at h
    subst h
    simp
  | c :: cs, r, h, hk => by
    simp only [runFlow] at h
    split at h
    · split at h
      · cases h
      · rename_i r' hr
        have h1 := runFlow_hands hg cs r' hr fun d hd => hk d (List.mem_cons_of_mem _ hd)
        simp only [Option.some.injEq] at h
        subst h
        intro e he
        rcases List.mem_append.1 he with he | he
        · rw [List.mem_singleton.1 he]
          exact hk c List.mem_cons_self
        · exact h1 e he
    · split at h
      · cases h
      · rename_i o ho
        split at h
        · cases h
        · rename_i r' hr
          have h1 := runFlow_hands hg cs r' hr fun d hd => hk d (List.mem_cons_of_mem _ hd)
          simp only [Option.some.injEq] at h
          subst h
          intro e he
          rcases List.mem_append.1 he with he | he
          · exact hg c o ho (hk c List.mem_cons_self) e he
          · exact h1 e he

theorem runAll_hands {P : Look → List Box → Prop} {g : Box → Option Out} (hg : Hands P g) :
    ∀ (cs : List Box) (r : Run), runAll g cs = some r → (∀ c ∈ cs, Each P c) → ∀ e ∈ r.stash, Each P e
  | [], r, h, _ => by
    simp only [runAll, Option.some.injEq] at h
    subst h
    simp
  | c :: cs, r, h, hk => by
    simp only [runAll] at h
    split at h
    · cases h
    · rename_i o ho
      split at h
      · cases h
      · rename_i r' hr
        have h1 := runAll_hands hg cs r' hr fun d hd => hk d (List.mem_cons_of_mem _ hd)
        simp only [Option.some.injEq] at h
        subst h
        intro e he
        rcases List.mem_append.1 he with he | he
        · exact hg c o ho (hk c List.mem_cons_self) e he
        · exact h1 e he

theorem run_hands {P : Look → List Box → Prop} {g : Box → Option Out} (hg : Hands P g) {k : Look} {cs : List Box} {r : Run}
    (h : run g k cs = some r) (hk : ∀ c ∈ cs, Each P c) : ∀ e ∈ r.stash, Each P e := by
  have drop : runDrop g cs = some r → ∀ e ∈ r.stash, Each P e := by
    intro h
    simp only [runDrop] at h
    split at h
    · cases h
    · simp only [Option.some.injEq] at h
      subst h
      simp
  cases hc : k.ctx <;> simp only [run, hc] at h
  · exact runFlow_hands hg cs r h hk
  · exact runFlow_hands hg cs r h hk
  · simp only [runFlex] at h
    split at h
    · simp only [Option.some.injEq] at h
      subst h
      simp
    · split at h
      · cases h
      · rename_i r' hr
        have h1 := runAll_hands hg _ r' hr fun c hc => hk c (List.mem_filter.1 hc).1
        simp only [Option.some.injEq] at h
        subst h
        intro e he
        rcases List.mem_append.1 he with he | he
        · exact h1 e he
        · exact hk e (List.mem_filter.1 he).1
  · exact drop h
  · exact drop h

theorem drain_hands {P : Look → List Box → Prop} {g : Box → Option Out} (hg : Hands P g) {k : Option Tag} :
    ∀ (n : Nat) (fs : List Frag) (Q : List Box) (d : Run), drain g n k fs Q = some d → (∀ c ∈ Q, Each P c) →
    ∀ e ∈ d.stash, Each P e
  | 0, _, _, _, h, _ => by simp [drain] at h
  | n + 1, fs, [], d, h, _ => by
    simp only [drain, Option.some.injEq] at h
    subst h
    simp
  | n + 1, fs, c :: rest, d, h, hf => by
    simp only [drain] at h
    split at h
    · split at h
      · cases h
      · rename_i o ho
        split at h
        · cases h
        · rename_i d' hd
          have h1 := drain_hands hg n _ _ d' hd (by
            intro e he
            rcases List.mem_append.1 he with he | he
            · exact hf e (List.mem_cons_of_mem _ he)
            · exact hg c o ho (hf c List.mem_cons_self) e he)
          simp only [Option.some.injEq] at h
          subst h
          exact h1
    · split at h
      · cases h
      · rename_i d' hd
        have h1 := drain_hands hg n _ _ d' hd fun e he => hf e (List.mem_cons_of_mem _ he)
        simp only [Option.some.injEq] at h
        subst h
        intro e he
        rcases List.mem_cons.1 he with rfl | he
        · exact hf _ List.mem_cons_self
        · exact h1 e he

theorem lay_hands {P : Look → List Box → Prop} : ∀ n, Hands P (lay n)
  | 0 => by intro c o h; simp [lay] at h
  | n + 1 => by
    rintro ⟨k, cs⟩ o h hK
    obtain ⟨_, hk⟩ := each_kids hK
    simp only [lay] at h
    split at h
    · cases h
    · rename_i r hr
      split at h
      · cases h
      · rename_i d hd
        have h1 := drain_hands (lay_hands n) _ _ _ _ hd (run_hands (lay_hands n) hr hk)
        simp only [Option.some.injEq] at h
        subst h
        exact h1

/-- The names of what is pending, at most once each. -/
theorem drain_painted {n : Nat} (ha : Accounts (lay n)) (hg : Painted (lay n)) {k : Option Tag} :
    ∀ (m : Nat) (fs : List Frag) (P : List Box) (L : List Box) (d : Run), drain (lay n) m k fs P = some d →
    (∀ c ∈ P, Fine c ∧ Each Shows c) → (∀ a, (namesAll P).count a + (namesAll L).count a ≤ 1) →
    (heads P ++ heads L).Perm (opensAll fs) →
    (heads d.stash ++ heads L).Perm (opensAll d.frags) ∧
      (paintedAll fs ++ namesAll P).Perm (paintedAll d.frags ++ namesAll d.stash)
  | 0, _, _, _, _, h, _, _, _ => by simp [drain] at h
  | m + 1, fs, [], L, d, h, _, _, hp => by
    simp only [drain, Option.some.injEq] at h
    subst h
    exact ⟨hp, List.Perm.refl _⟩
  | m + 1, fs, c :: rest, L, d, h, hf, hn, hp => by
    obtain ⟨hc, hc'⟩ := hf c List.mem_cons_self
    simp only [drain] at h
    split at h
    · split at h
      · cases h
      · rename_i o ho
        split at h
        · cases h
        · rename_i d' hd
          have hnc : (names c).Nodup := List.nodup_iff_count.2 fun a => by
            have := hn a
            rw [namesAll_cons, List.count_append] at this
            omega
          obtain ⟨h1, h2, h3⟩ := hg c o ho hc.2 hc' hnc
          obtain ⟨ks, hks⟩ := lay_frag ho
          have hoof : o.frag.flag.isOof = true := by rw [hks]; rfl
          have one : (opensAll fs).count c.id = 1 := by
            have e1 := hp.count_eq c.id
            have e2 := hn c.id
            have e3 := heads_le c.id rest
            have e4 := heads_le c.id L
            have e5 := names_self c
            rw [namesAll_cons, List.count_append] at e2
            simp only [heads, List.map_cons, List.cons_append, List.count_cons_self, List.count_append] at e1 e3 e4
            omega
          have hsub : ∀ a, (namesAll o.stash).count a ≤ (names c).count a := fun a => by
            have := h3.count_eq a
            rw [List.count_append] at this
            omega
          have := drain_painted ha hg m _ (rest ++ o.stash) L d' hd (by
            intro e he
            rcases List.mem_append.1 he with he | he
            · exact hf e (List.mem_cons_of_mem _ he)
            · exact ⟨(ha c o ho hc.2).1 e he, lay_hands n c o ho hc' e he⟩) (by
            intro a
            have e1 := hn a
            have e2 := hsub a
            rw [namesAll_cons, List.count_append] at e1
            rw [namesAll_append, List.count_append]
            omega) (by
            refine List.perm_iff_count.2 fun a => ?_
            have e1 := hp.count_eq a
            have e2 := opensAll_fill c.id o.frag.flag a fs
            have e3 := h2.count_eq a
            rw [one, opens_flag] at e2
            simp only [opensAll_append, opensAll, hoof, heads, List.map_append, List.map_cons, List.cons_append,
              List.count_append, List.count_cons, List.count_nil, if_true] at e1 e2 e3 ⊢
            by_cases hca : c.id = a
            · simp [hca] at e1 e2 ⊢
              omega
            · simp [hca] at e1 e2 ⊢
              omega)
          obtain ⟨h4, h5⟩ := this
          simp only [Option.some.injEq] at h
          subst h
          refine ⟨h4, List.perm_iff_count.2 fun a => ?_⟩
          have e1 := h5.count_eq a
          have e2 := paintedAll_fill c.id o.frag.flag a fs
          have e3 := h3.count_eq a
          rw [one, painted_flag] at e2
          simp only [paintedAll_append, paintedAll, hoof, namesAll_cons, namesAll_append, List.count_append,
            List.count_nil, if_true] at e1 e2 e3 ⊢
          omega
    · split at h
      · cases h
      · rename_i d' hd
        obtain ⟨h4, h5⟩ := drain_painted ha hg m fs rest (c :: L) d' hd (fun e he => hf e (List.mem_cons_of_mem _ he))
          (by
            intro a
            have := hn a
            simp only [namesAll_cons, List.count_append] at this ⊢
            omega) (by
            refine List.perm_iff_count.2 fun a => ?_
            have := hp.count_eq a
            simp only [heads, List.map_cons, List.cons_append, List.count_append, List.count_cons] at this ⊢
            omega)
        simp only [Option.some.injEq] at h
        subst h
        refine ⟨List.perm_iff_count.2 fun a => ?_, List.perm_iff_count.2 fun a => ?_⟩
        · have := h4.count_eq a
          simp only [heads, List.map_cons, List.cons_append, List.count_append, List.count_cons] at this ⊢
          omega
        · have := h5.count_eq a
          simp only [namesAll_cons, List.count_append] at this ⊢
          omega

theorem lay_painted : ∀ n, Painted (lay n)
  | 0 => by intro c o h; simp [lay] at h
  | n + 1 => by
    rintro ⟨k, cs⟩ o h hK hS hN
    obtain ⟨hK, hk⟩ := each_kids hK
    obtain ⟨hS, hs⟩ := each_kids hS
    have hN' : (k.tag.id :: namesAll cs).Nodup := hN
    simp only [lay] at h
    split at h
    · cases h
    · rename_i r hr
      split at h
      · cases h
      · rename_i d hd
        have h0 := (run_accounts (lay_accounts n) hr hK hk).1
        obtain ⟨h1, h2⟩ := run_painted (lay_accounts n) (lay_painted n) hr hK hS hk hs (List.nodup_cons.1 hN').2
        have hh := run_hands (lay_hands n) hr hs
        obtain ⟨h3, h4⟩ := drain_painted (lay_accounts n) (lay_painted n) n r.frags r.stash [] d hd
          (fun c hc => ⟨h0 c hc, hh c hc⟩) (by
            intro a
            have e1 := List.nodup_iff_count.1 (List.nodup_cons.1 hN').2 a
            have e2 := h2.count_eq a
            rw [List.count_append] at e2
            simp only [namesAll, everyAll, List.map_nil, List.count_nil] at *
            omega) (by simpa [heads] using h1)
        simp only [Option.some.injEq] at h
        subst h
        refine ⟨rfl, by simpa [heads, opens] using h3, ?_⟩
        show (k.tag.id :: namesAll cs).Perm (k.tag.id :: paintedAll d.frags ++ namesAll d.stash)
        exact (h2.trans h4).cons _

theorem layRoot_painted {n : Nat} {b : Box} {o : Out} (h : layRoot n b = some o) (hK : Each Keeps b) (hS : Each Shows b)
    (hN : (names b).Nodup) : (painted o.frag).Perm (names b) := by
  have hs := (layRoot_accounts h hK).1
  simp only [layRoot] at h
  split at h
  · cases h
  · rename_i p hp
    split at h
    · cases h
    · rename_i d hd
      obtain ⟨ks, hp'⟩ := lay_frag hp
      have h0 := (lay_accounts n b p hp hK).1
      obtain ⟨_, h1, h2⟩ := lay_painted n b p hp hK hS hN
      have hh := lay_hands n b p hp hS
      obtain ⟨h3, h4⟩ := drain_painted (lay_accounts n) (lay_painted n) n p.frag.kids p.stash [] d hd
        (fun c hc => ⟨h0 c hc, hh c hc⟩) (by
          intro a
          have e1 := List.nodup_iff_count.1 hN a
          have e2 := h2.count_eq a
          rw [List.count_append] at e2
          simp only [namesAll, everyAll, List.map_nil, List.count_nil] at *
          omega) (by
          rw [hp'] at h1 ⊢
          simpa [heads, opens, Frag.kids] using h1)
      simp only [Option.some.injEq] at h
      subst h
      simp only at hs
      rw [hp'] at h2 h4
      refine List.perm_iff_count.2 fun a => ?_
      have h2 := h2.count_eq a
      have h4 := h4.count_eq a
      simp only [hs, painted, Frag.kids, namesAll, everyAll, List.map_nil, List.count_append, List.count_cons,
        List.count_nil] at h2 h4 ⊢
      omega

/-! ## Overflow -/

theorem inside_refl (a : Rect) : Inside a a := ⟨Rat.le_refl, Rat.le_refl, Rat.le_refl, Rat.le_refl⟩

theorem inside_trans {a b c : Rect} (h : Inside a b) (h' : Inside b c) : Inside a c :=
  ⟨Rat.le_trans h'.1 h.1, Rat.le_trans h'.2.1 h.2.1, Rat.le_trans h.2.2.1 h'.2.2.1, Rat.le_trans h.2.2.2 h'.2.2.2⟩

theorem merge_left (a b : Rect) : Inside a (merge a b) := by
  unfold Inside merge
  refine ⟨?_, ?_, ?_, ?_⟩ <;> grind

theorem merge_right (a b : Rect) : Inside b (merge a b) := by
  unfold Inside merge
  refine ⟨?_, ?_, ?_, ?_⟩ <;> grind

theorem merge_least {a b c : Rect} (ha : Inside a c) (hb : Inside b c) : Inside (merge a b) c := by
  unfold Inside merge at *
  refine ⟨?_, ?_, ?_, ?_⟩ <;> grind

mutual
theorem overflow_covers : ∀ (f : Frag) (l : Look), l ∈ solid f → Inside l.area (overflow f)
  | .box k o ks, l, h => by
    simp only [solid, List.mem_cons] at h
    simp only [overflow]
    obtain ⟨h1, h2⟩ := overflowAll_covers ks k.area
    rcases h with rfl | h
    · exact h1
    · exact h2 l h
  | .hole _, l, h => by simp [solid] at h
  | .filled _ _, l, h => by simp [solid] at h
theorem overflowAll_covers : ∀ (fs : List Frag) (r : Rect),
    Inside r (overflowAll r fs) ∧ ∀ l ∈ solidAll fs, Inside l.area (overflowAll r fs)
  | [], r => ⟨inside_refl r, by simp [solidAll]⟩
  | f :: fs, r => by
    obtain ⟨h1, h2⟩ := overflowAll_covers fs (merge r (overflow f))
    refine ⟨inside_trans (merge_left _ _) h1, fun l hl => ?_⟩
    simp only [solidAll, List.mem_append] at hl
    rcases hl with hl | hl
    · exact inside_trans (inside_trans (overflow_covers f l hl) (merge_right _ _)) h1
    · exact h2 l hl
end

mutual
theorem overflow_least {R : Rect} (hz : Inside Rect.zero R) : ∀ (f : Frag), (∀ l ∈ solid f, Inside l.area R) →
    Inside (overflow f) R
  | .box k o ks, h => by
    simp only [overflow]
    exact overflowAll_least hz ks k.area (h k (by simp [solid])) fun l hl => h l (by simp [solid, hl])
  | .hole _, _ => hz
  | .filled _ _, _ => hz
theorem overflowAll_least {R : Rect} (hz : Inside Rect.zero R) : ∀ (fs : List Frag) (r : Rect), Inside r R →
    (∀ l ∈ solidAll fs, Inside l.area R) → Inside (overflowAll r fs) R
  | [], _, hr, _ => hr
  | f :: fs, r, hr, h => by
    simp only [overflowAll]
    exact overflowAll_least hz fs _ (merge_least hr (overflow_least hz f fun l hl => h l (by simp [solidAll, hl])))
      fun l hl => h l (by simp [solidAll, hl])
end

theorem layRoot_frag {n : Nat} {b : Box} {o : Out} (h : layRoot n b = some o) : ∃ ks, o.frag = .box b.look false ks := by
  simp only [layRoot] at h
  split at h
  · cases h
  · split at h
    · cases h
    · simp only [Option.some.injEq] at h
      subst h
      exact ⟨_, rfl⟩

end Verif.Oof
