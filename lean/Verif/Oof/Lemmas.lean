import Verif.Oof.Spec
/-! # Lemmas: what layout keeps of the boxes out of the flow -/
namespace Verif.Oof
open Spec

/-- What pending boxes will still need. -/
def due (anc : List Tag) (P : List Box) : List Placing :=
  P.flatMap fun c => (c.look.tag.id, nearest anc c.look.tag.pos) :: want anc c

@[simp] theorem due_nil (anc : List Tag) : due anc [] = [] := rfl
@[simp] theorem due_cons (anc : List Tag) (c : Box) (P : List Box) :
    due anc (c :: P) = (c.look.tag.id, nearest anc c.look.tag.pos) :: want anc c ++ due anc P := by
  simp [due]
@[simp] theorem due_append (anc : List Tag) (P Q : List Box) : due anc (P ++ Q) = due anc P ++ due anc Q := by
  simp [due]

theorem oof_away (c : Box) : c.oof = away c.look.tag.pos := by
  unfold Box.oof Tag.oof away
  cases c.look.tag.pos <;> rfl

theorem handles_holds (t c : Tag) : handles (some t) c = holds t c.pos := by
  obtain ⟨_, p, m⟩ := t
  obtain ⟨_, q, _⟩ := c
  cases p <;> cases m <;> cases q <;> rfl

/-! ## The nearest containing block -/

theorem nearest_hit {t : Tag} {anc : List Tag} {p : Pos} (h : holds t p = true) : nearest (t :: anc) p = some t.id := by
  simp [nearest, h]

theorem nearest_miss {t : Tag} {anc : List Tag} {p : Pos} (h : holds t p = false) :
    nearest (t :: anc) p = nearest anc p := by
  simp [nearest, h]

theorem nearest_around {ws anc : List Tag} (h : ∀ w ∈ ws, w.pos = .static) (p : Pos) :
    nearest (ws.map (fun w => { w with moved := false }) ++ anc) p = nearest anc p := by
  induction ws with
  | nil => rfl
  | cons w ws ih =>
    rw [List.map_cons, List.cons_append, nearest_miss, ih fun v hv => h v (List.mem_cons_of_mem _ hv)]
    have := h w List.mem_cons_self
    cases p <;> simp [holds, this]

/-- `anc` and `bnc` find the same containing blocks. -/
def Same (anc bnc : List Tag) : Prop := ∀ p, away p = true → nearest anc p = nearest bnc p

theorem Same.cons {anc bnc : List Tag} (h : Same anc bnc) (t : Tag) : Same (t :: anc) (t :: bnc) := by
  intro p hp
  cases ht : holds t p
  · rw [nearest_miss ht, nearest_miss ht, h p hp]
  · rw [nearest_hit ht, nearest_hit ht]

theorem Same.append {anc bnc : List Tag} (h : Same anc bnc) (ts : List Tag) : Same (ts ++ anc) (ts ++ bnc) := by
  induction ts with
  | nil => exact h
  | cons t ts ih => exact ih.cons t

mutual
theorem want_same {anc bnc : List Tag} (h : Same anc bnc) : ∀ b : Box, want anc b = want bnc b
  | .mk k cs => by
    simp only [want]
    exact wantAll_same (h.cons k.tag) cs
theorem wantAll_same {anc bnc : List Tag} (h : Same anc bnc) : ∀ cs : List Box, wantAll anc cs = wantAll bnc cs
  | [] => rfl
  | c :: cs => by
    simp only [wantAll]
    rw [want_same (h.append (around c)) c, wantAll_same h cs]
    cases hc : away c.look.tag.pos with
    | false => rfl
    | true => rw [h.append (around c) _ hc]
end

/-- A box that does not hold a pending box holds nothing of what is in that box. -/
theorem want_skip {t : Tag} {anc : List Tag} {c : Box} (hc : away c.look.tag.pos = true)
    (ht : holds t c.look.tag.pos = false) : want (t :: anc) c = want anc c := by
  obtain ⟨k, cs⟩ := c
  simp only [want]
  apply wantAll_same
  intro p hp
  have hm : t.moved = false := by
    simp only [Box.look] at ht hc
    cases hk : k.tag.pos <;> simp [hk, holds, away] at ht hc <;> simp [ht]
  have hs : k.tag.pos ≠ .static := by
    intro hk
    simp [Box.look, hk, away] at hc
  cases p <;> simp [away] at hp
  · rw [nearest_hit (by simp [holds, hs]), nearest_hit (by simp [holds, hs])]
  · cases hk : holds k.tag .fixed
    · rw [nearest_miss hk, nearest_miss hk, nearest_miss (by simp [holds, hm])]
    · rw [nearest_hit hk, nearest_hit hk]

/-! ## Sizes -/

@[simp] theorem sizeAll_append : ∀ P Q : List Box, sizeAll (P ++ Q) = sizeAll P + sizeAll Q
  | [], Q => by simp [sizeAll]
  | c :: P, Q => by simp [sizeAll, sizeAll_append P Q]; omega

theorem size_pos (b : Box) : 1 ≤ size b := by
  obtain ⟨k, cs⟩ := b
  simp [size]

theorem sizeAll_filter (p : Box → Bool) : ∀ cs : List Box,
    sizeAll (cs.filter p) + sizeAll (cs.filter fun c => !p c) = sizeAll cs
  | [] => by simp [sizeAll]
  | c :: cs => by
    have := sizeAll_filter p cs
    cases h : p c <;> simp [List.filter_cons, h, sizeAll] <;> omega

theorem sizeAll_filter_le (p : Box → Bool) (cs : List Box) : sizeAll (cs.filter p) ≤ sizeAll cs := by
  have := sizeAll_filter p cs
  omega

theorem size_mem {c : Box} : ∀ {cs : List Box}, c ∈ cs → size c ≤ sizeAll cs
  | d :: cs, h => by
    simp only [sizeAll]
    rcases List.mem_cons.1 h with rfl | h
    · omega
    · have := size_mem h
      omega

/-- What is handed on is less than what was laid out. -/
def Small (g : Box → Option Out) : Prop := ∀ c o, g c = some o → sizeAll o.stash < size c

theorem runFlow_small {g : Box → Option Out} (hg : Small g) : ∀ (cs : List Box) (r : Run), runFlow g cs = some r →
    sizeAll r.stash ≤ sizeAll cs
  | [], r, h => by
    simp only [runFlow, Option.some.injEq] at h
    subst h
    simp [sizeAll]
  | c :: cs, r, h => by
    simp only [runFlow] at h
    split at h
    · split at h
      · cases h
      · rename_i r' hr
        have := runFlow_small hg cs r' hr
        simp only [Option.some.injEq] at h
        subst h
        simp [Run.append, sizeAll]
        omega
    · split at h
      · cases h
      · rename_i o ho
        split at h
        · cases h
        · rename_i r' hr
          have := runFlow_small hg cs r' hr
          have := hg c o ho
          simp only [Option.some.injEq] at h
          subst h
          simp [Run.append, sizeAll]
          omega

theorem runAll_small {g : Box → Option Out} (hg : Small g) : ∀ (cs : List Box) (r : Run), runAll g cs = some r →
    sizeAll r.stash ≤ sizeAll cs
  | [], r, h => by
    simp only [runAll, Option.some.injEq] at h
    subst h
    simp [sizeAll]
  | c :: cs, r, h => by
    simp only [runAll] at h
    split at h
    · cases h
    · rename_i o ho
      split at h
      · cases h
      · rename_i r' hr
        have := runAll_small hg cs r' hr
        have := hg c o ho
        simp only [Option.some.injEq] at h
        subst h
        simp [Run.append, sizeAll]
        omega

theorem split_sizes (cs : List Box) :
    sizeAll (cs.filter fun c => !c.removed) + sizeAll (cs.filter Box.oof) ≤ sizeAll cs := by
  induction cs with
  | nil => simp [sizeAll]
  | cons c cs ih =>
    cases h : c.oof <;> cases h' : c.look.floats <;> simp [List.filter_cons, Box.removed, h, h', sizeAll] at ih ⊢ <;> omega

theorem run_small {g : Box → Option Out} (hg : Small g) {k : Look} {cs : List Box} {r : Run} (h : run g k cs = some r) :
    sizeAll r.stash ≤ sizeAll cs := by
  have drop : runDrop g cs = some r → sizeAll r.stash ≤ sizeAll cs := by
    intro h
    simp only [runDrop] at h
    split at h
    · cases h
    · simp only [Option.some.injEq] at h
      subst h
      simp [sizeAll]
  cases hk : k.ctx <;> simp only [run, hk] at h
  · exact runFlow_small hg _ _ h
  · exact runFlow_small hg _ _ h
  · simp only [runFlex] at h
    split at h
    · simp only [Option.some.injEq] at h
      subst h
      simp [sizeAll]
    · split at h
      · cases h
      · rename_i r' hr
        have := runAll_small hg _ _ hr
        have := split_sizes cs
        simp only [Option.some.injEq] at h
        subst h
        simp only [sizeAll_append]
        omega
  · exact drop h
  · exact drop h

theorem drain_small {g : Box → Option Out} (hg : Small g) : ∀ (n : Nat) (k : Option Tag) (fs : List Frag) (P : List Box)
    (d : Run), drain g n k fs P = some d → sizeAll d.stash ≤ sizeAll P
  | 0, _, _, _, _, h => by simp [drain] at h
  | n + 1, k, fs, [], d, h => by
    simp only [drain, Option.some.injEq] at h
    subst h
    simp [sizeAll]
  | n + 1, k, fs, c :: rest, d, h => by
    simp only [drain] at h
    split at h
    · split at h
      · cases h
      · rename_i o ho
        split at h
        · cases h
        · rename_i d' hd
          have := drain_small hg n k _ _ d' hd
          have := hg c o ho
          simp only [Option.some.injEq] at h
          subst h
          simp [sizeAll] at this ⊢
          simp at *
          omega
    · split at h
      · cases h
      · rename_i d' hd
        have := drain_small hg n k _ _ d' hd
        simp only [Option.some.injEq] at h
        subst h
        simp [sizeAll]
        omega

theorem lay_small : ∀ n, Small (lay n)
  | 0 => by intro c o h; simp [lay] at h
  | n + 1 => by
    rintro ⟨k, cs⟩ o h
    simp only [lay] at h
    split at h
    · cases h
    · rename_i r hr
      split at h
      · cases h
      · rename_i d hd
        have h1 := run_small (lay_small n) hr
        have h2 := drain_small (lay_small n) _ _ _ _ _ hd
        simp only [Option.some.injEq] at h
        subst h
        simp only [size]
        omega

/-! ## Layout ends -/

theorem runFlow_ends {g : Box → Option Out} : ∀ (cs : List Box), (∀ c ∈ cs, (g c).isSome) → (runFlow g cs).isSome
  | [], _ => rfl
  | c :: cs, h => by
    obtain ⟨r, hr⟩ := Option.isSome_iff_exists.1 (runFlow_ends cs fun d hd => h d (List.mem_cons_of_mem _ hd))
    obtain ⟨o, ho⟩ := Option.isSome_iff_exists.1 (h c List.mem_cons_self)
    simp only [runFlow, hr, ho]
    split <;> rfl

theorem runAll_ends {g : Box → Option Out} : ∀ (cs : List Box), (∀ c ∈ cs, (g c).isSome) → (runAll g cs).isSome
  | [], _ => rfl
  | c :: cs, h => by
    obtain ⟨r, hr⟩ := Option.isSome_iff_exists.1 (runAll_ends cs fun d hd => h d (List.mem_cons_of_mem _ hd))
    obtain ⟨o, ho⟩ := Option.isSome_iff_exists.1 (h c List.mem_cons_self)
    simp only [runAll, hr, ho]
    rfl

theorem run_ends {g : Box → Option Out} {k : Look} {cs : List Box} (h : ∀ c ∈ cs, (g c).isSome) :
    (run g k cs).isSome := by
  have drop : (runDrop g cs).isSome := by
    obtain ⟨r, hr⟩ := Option.isSome_iff_exists.1 (runAll_ends cs h)
    simp [runDrop, hr]
  cases hk : k.ctx <;> simp only [run, hk]
  · exact runFlow_ends cs h
  · exact runFlow_ends cs h
  · simp only [runFlex]
    split
    · rfl
    · obtain ⟨r, hr⟩ := Option.isSome_iff_exists.1
        (runAll_ends (g := g) (cs.filter fun c => !c.removed) fun c hc => h c (List.mem_filter.1 hc).1)
      simp [hr]
  · exact drop
  · exact drop

theorem drain_ends {g : Box → Option Out} (hg : Small g) : ∀ (n : Nat) (k : Option Tag) (fs : List Frag) (P : List Box),
    sizeAll P < n → (∀ c, size c ≤ sizeAll P → (g c).isSome) → (drain g n k fs P).isSome
  | 0, _, _, _, h, _ => by omega
  | n + 1, k, fs, [], _, _ => rfl
  | n + 1, k, fs, c :: rest, h, hs => by
    have hp := size_pos c
    simp only [sizeAll] at h hs
    obtain ⟨o, ho⟩ := Option.isSome_iff_exists.1 (hs c (by omega))
    have hz := hg c o ho
    simp only [drain, ho]
    split
    · obtain ⟨d, hd⟩ := Option.isSome_iff_exists.1 (drain_ends hg n k
        (fillAll c.id o.frag.flag fs ++ [o.frag.flag]) (rest ++ o.stash) (by simp; omega)
        fun e he => hs e (by simp at he; omega))
      simp [hd]
    · obtain ⟨d, hd⟩ := Option.isSome_iff_exists.1 (drain_ends hg n k fs rest (by omega) fun e he => hs e (by omega))
      simp [hd]

theorem lay_ends : ∀ (n : Nat) (b : Box), size b < n → (lay n b).isSome
  | 0, _, h => by omega
  | n + 1, .mk k cs, h => by
    simp only [size] at h
    obtain ⟨r, hr⟩ := Option.isSome_iff_exists.1 (run_ends (g := lay n) (k := k) (cs := cs) fun c hc => lay_ends n c (by
      have := size_mem hc
      omega))
    have hz := run_small (lay_small n) hr
    obtain ⟨d, hd⟩ := Option.isSome_iff_exists.1 (drain_ends (lay_small n) n (some k.tag) r.frags r.stash (by omega)
      fun c hc => lay_ends n c (by omega))
    simp [lay, hr, hd]

theorem layRoot_ends (n : Nat) (b : Box) (h : size b < n) : (layRoot n b).isSome := by
  obtain ⟨o, ho⟩ := Option.isSome_iff_exists.1 (lay_ends n b h)
  have hz := lay_small n b o ho
  obtain ⟨d, hd⟩ := Option.isSome_iff_exists.1 (drain_ends (lay_small n) n none o.frag.kids o.stash (by omega)
    fun c hc => lay_ends n c (by omega))
  simp [layRoot, ho, hd]

end Verif.Oof
