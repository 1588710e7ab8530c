import Verif.Cascade.Lemmas
namespace Verif.Cascade

/-- The declarations and expansions agree on which names are shorthands, and the longhands
of a shorthand depend on its name only. -/
structure Regular (expand : Decl → List (Nat × Nat)) (isShort : Nat → Bool) (longhands : Nat → List Nat)
    (ds : List Decl) : Prop where
  flag : ∀ d ∈ ds, d.shorthand = isShort d.name
  longs : ∀ s, isShort s = true → ∀ n ∈ longhands s, isShort n = false
  nodup : ∀ s, (longhands s).Nodup
  names : ∀ d ∈ ds, d.shorthand = true → (expand d).map (·.1) = longhands d.name

theorem winner_unique {ds n d d'} (h : Winner ds n d) (h' : Winner ds n d') : d = d' := by
  have a := (lookup_iff_winner ds n d).2 h
  have b := (lookup_iff_winner ds n d').2 h'
  rw [a] at b; exact Option.some.inj b

theorem winner_mem {ds n d} (h : Winner ds n d) : d ∈ ds ∧ d.name = n ∧ d.bogus = false := by
  obtain ⟨pre, post, rfl, h1, h2, _⟩ := h
  exact ⟨by simp, h1, h2⟩

theorem lookup_filter_ne (m : Entries) (n k : Nat) (h : n ≠ k) :
    Entries.lookup (m.filter (fun q => q.1 != k)) n = m.lookup n := by
  induction m with
  | nil => rfl
  | cons a m ih =>
    unfold Entries.lookup at *
    simp only [List.filter_cons]
    by_cases hk : a.1 = k
    · have : (a.1 == n) = false := by simp; omega
      simp [hk, List.find?_cons] 
      have h3 : (k == n) = false := by simp; omega
      rw [h3]; simpa using ih
    · simp only [bne_iff_ne, ne_eq, hk, not_false_eq_true, if_true, List.find?_cons]
      split <;> simp_all

/-- The longhand entries a shorthand entry contributes to `n`. -/
def contrib (expand : Decl → List (Nat × Nat)) (n : Nat) (e : Entry) : List Entry :=
  ((expand e.decl).filter (·.1 == n)).map (fun p => ⟨longhand e.decl p, e.order⟩)

def pickAll (o : Option Entry) (l : List Entry) : Option Entry := l.foldl (fun o e => some (pick o e)) o

theorem lookup_puts (e : Entry) (n : Nat) (ps : List (Nat × Nat)) : ∀ m : Entries,
    (ps.foldl (fun m p => putLonghand m p.1 ⟨longhand e.decl p, e.order⟩) m).lookup n =
      pickAll (m.lookup n) ((ps.filter (·.1 == n)).map (fun p => ⟨longhand e.decl p, e.order⟩)) := by
  induction ps with
  | nil => intro m; rfl
  | cons p ps ih =>
    intro m
    simp only [List.foldl_cons, ih, lookup_put, List.filter_cons]
    by_cases h : p.1 = n
    · subst h; simp [pickAll]
    · have : ¬ n = p.1 := fun e => h e.symm
      simp [h, this]

theorem lookup_expand_aux (expand : Decl → List (Nat × Nat)) (n : Nat) (l : List Entry)
    (hl : ∀ e ∈ l, e.decl.name ≠ n) : ∀ m : Entries,
    (l.foldl (fun m e => (expand e.decl).foldl (fun m p => putLonghand m p.1 ⟨longhand e.decl p, e.order⟩)
      (m.filter (fun q => q.1 != e.decl.name))) m).lookup n =
      pickAll (m.lookup n) (l.flatMap (contrib expand n)) := by
  induction l with
  | nil => intro m; rfl
  | cons e l ih =>
    intro m
    simp only [List.foldl_cons, List.flatMap_cons]
    rw [ih (fun x hx => hl x (by simp [hx])), lookup_puts, lookup_filter_ne _ _ _ (fun h => hl e (by simp) h.symm)]
    simp [pickAll, contrib, List.foldl_append]

theorem pickAll_best (l : List Entry) : ∀ (o : Option Entry),
    (pickAll o l = none ↔ o.toList ++ l = []) ∧ ∀ e, pickAll o l = some e → Best (o.toList ++ l) e := by
  induction l with
  | nil =>
    intro o
    cases o with
    | none => simp [pickAll]
    | some x => simp [pickAll, Best, le_refl]
  | cons a l ih =>
    intro o
    have := ih (some (pick o a))
    simp only [pickAll, List.foldl_cons] at this ⊢
    constructor
    · rw [this.1]; simp
    · intro e he
      have hb := this.2 e he
      simp only [Option.toList_some, List.singleton_append] at hb
      have hp : Best (o.toList ++ [a]) (pick o a) := by
        cases o with
        | none => simp [pick, Best, le_refl]
        | some x =>
          show Best _ (if a.compare x ≠ .lt then a else x)
          by_cases hc : a.compare x ≠ .lt
          · rw [if_pos hc]
            have := (compare_iff x a).1 hc
            simp [Best, le_refl, this]
          · rw [if_neg hc]
            have : Le a x := by
              rcases le_total x a with h | h
              · exact absurd ((compare_iff x a).2 h) hc
              · exact h
            simp [Best, le_refl, this]
      refine ⟨?_, ?_⟩
      · rcases List.mem_cons.1 hb.1 with h | h
        · rw [h]
          have := hp.1
          simp only [List.mem_append, List.mem_singleton, List.mem_cons] at this ⊢
          rcases this with h | h
          · exact .inl h
          · exact .inr (.inl (by simpa using h))
        · simp [h]
      · intro x hx
        simp only [List.mem_append, List.mem_cons] at hx
        rcases hx with hx | rfl | hx
        · exact le_trans (hp.2 x (by simp [hx])) (hb.2 _ (by simp))
        · exact le_trans (hp.2 x (by simp)) (hb.2 _ (by simp))
        · exact hb.2 x (by simp [hx])

theorem mem_putLonghand {m : Entries} {n e k x} (h : (k, x) ∈ putLonghand m n e) : (k, x) ∈ m ∨ (k = n ∧ x = e) := by
  induction m with
  | nil => simp [putLonghand] at h; exact .inr h
  | cons a m ih =>
    obtain ⟨q, y⟩ := a
    simp only [putLonghand] at h
    split at h
    · rename_i hq
      rcases List.mem_cons.1 h with h | h
      · rw [Prod.mk.injEq] at h
        split at h
        · exact .inr ⟨by rw [h.1, hq], h.2⟩
        · exact .inl (by rw [h.1, h.2]; simp)
      · exact .inl (by simp [h])
    · rcases List.mem_cons.1 h with h | h
      · exact .inl (by rw [h]; simp)
      · rcases ih h with h | h
        · exact .inl (by simp [h])
        · exact .inr h

theorem keys_putLonghand (m : Entries) (n e) :
    (putLonghand m n e).map (·.1) = if n ∈ m.map (·.1) then m.map (·.1) else m.map (·.1) ++ [n] := by
  induction m with
  | nil => simp [putLonghand]
  | cons a m ih =>
    obtain ⟨q, y⟩ := a
    simp only [putLonghand]
    by_cases hq : q = n
    · simp [hq]
    · have : ¬ n = q := fun e => hq e.symm
      simp only [hq, if_false, List.map_cons, ih, List.mem_cons, this, false_or]
      split <;> simp

structure WF (m : Entries) : Prop where
  key : ∀ p ∈ m, p.2.decl.name = p.1
  nodup : (m.map (·.1)).Nodup

theorem cascade_wf (ds : List Decl) : WF (cascade ds).entries := by
  have : ∀ (ds : List Decl) (s : State), WF s.entries → WF (ds.foldl put s).entries := by
    intro ds
    induction ds with
    | nil => intro s h; exact h
    | cons d ds ih =>
      intro s h
      simp only [List.foldl_cons]
      apply ih
      unfold put
      split
      · exact h
      · constructor
        · rintro ⟨k, x⟩ hp
          rcases mem_putLonghand hp with hp | ⟨rfl, rfl⟩
          · exact h.key _ hp
          · rfl
        · simp only [keys_putLonghand]
          split
          · exact h.nodup
          · rename_i hn
            rw [List.nodup_append]
            exact ⟨h.nodup, by simp, by intro a ha b hb; simp at hb; subst hb; intro e; subst e; exact hn ha⟩
  exact this ds {} ⟨by simp, by simp⟩

theorem lookup_of_mem {m : Entries} (h : WF m) {k x} (hm : (k, x) ∈ m) : m.lookup k = some x := by
  have := h.nodup
  clear h
  induction m with
  | nil => simp at hm
  | cons a m ih =>
    simp only [List.map_cons, List.nodup_cons] at this
    unfold Entries.lookup at *
    rcases List.mem_cons.1 hm with h | h
    · subst h; simp
    · have hne : (a.1 == k) = false := by
        simp only [beq_eq_false_iff_ne]
        intro e; apply this.1; rw [e]; exact List.mem_map.2 ⟨_, h, rfl⟩
      simp only [List.find?_cons, hne]
      exact ih h this.2

theorem mem_of_lookup {m : Entries} {k x} (h : m.lookup k = some x) : (k, x) ∈ m := by
  unfold Entries.lookup at h
  rw [Option.map_eq_some_iff] at h
  obtain ⟨p, hp, rfl⟩ := h
  have := List.mem_of_find?_eq_some hp
  have h2 := List.find?_some hp
  simp at h2; rw [← h2]; exact this

theorem numbered_mem_split {d o} : ∀ (ds : List Decl) i, (⟨d, o⟩ : Entry) ∈ numbered ds i →
    ∃ pre post, ds = pre ++ d :: post ∧ d.bogus = false ∧
      numbered ds i = numbered pre i ++ ⟨d, o⟩ :: numbered post (o + 1) ∧ ∀ e ∈ numbered pre i, e.order < o := by
  intro ds
  induction ds with
  | nil => intro i h; simp [numbered] at h
  | cons x ds ih =>
    intro i h
    simp only [numbered] at h
    cases hx : x.bogus with
    | true =>
      simp only [hx, if_true] at h
      obtain ⟨pre, post, h1, h2, h3, h4⟩ := ih i h
      exact ⟨x :: pre, post, by simp [h1], h2, by simp [numbered, hx, h3], by simpa [numbered, hx] using h4⟩
    | false =>
      simp only [hx, Bool.false_eq_true, if_false, List.mem_cons] at h
      rcases h with h | h
      · cases h
        exact ⟨[], ds, rfl, hx, by simp [numbered, hx], by simp [numbered]⟩
      · have hge := numbered_ge ds (i+1) _ h
        obtain ⟨pre, post, h1, h2, h3, h4⟩ := ih (i + 1) h
        refine ⟨x :: pre, post, by simp [h1], h2, by simp [numbered, hx, h3], ?_⟩
        intro e he
        simp [numbered, hx] at he
        rcases he with rfl | he
        · exact hge
        · exact h4 e he

/-- All entries for `n`, with every shorthand written out. -/
def all (expand : Decl → List (Nat × Nat)) (ds : List Decl) (n : Nat) (e : Entry) : Prop :=
  ∃ x ∈ numbered ds 0, (x.decl.shorthand = false ∧ x.decl.name = n ∧ e = x) ∨
    (x.decl.shorthand = true ∧ e ∈ contrib expand n x)

theorem numbered_mem_ds {ds i} {x : Entry} (h : x ∈ numbered ds i) : x.decl ∈ ds ∧ x.decl.bogus = false :=
  (mem_numbered ds i x.decl).1 ⟨x.order, h⟩

theorem longhand_weights (d p) : weights (longhand d p) = weights d := rfl
theorem le_contrib {x e y : Entry} (hx : weights x.decl = weights y.decl) (ho : x.order = y.order) : Le x e ↔ Le y e := by
  unfold Le Lower; rw [hx, ho]
theorem le_contrib' {x e y : Entry} (hx : weights x.decl = weights y.decl) (ho : x.order = y.order) : Le e x ↔ Le e y := by
  unfold Le Lower; rw [hx, ho]

theorem mem_contrib {expand n e x} (h : e ∈ contrib expand n x) : weights e.decl = weights x.decl ∧ e.order = x.order := by
  unfold contrib at h
  rw [List.mem_map] at h
  obtain ⟨p, _, rfl⟩ := h
  exact ⟨rfl, rfl⟩

theorem final_best {expand isShort longhands ds} (hr : Regular expand isShort longhands ds) {n} (hn : isShort n = false) :
    ((expandShorthands expand (cascade ds).entries).lookup n = none → ∀ e, ¬ all expand ds n e) ∧
    ∀ e, (expandShorthands expand (cascade ds).entries).lookup n = some e →
      all expand ds n e ∧ ∀ x, all expand ds n x → Le x e := by
  have hH := cascade_holds ds
  have hW := cascade_wf ds
  generalize hm : (cascade ds).entries = m at *
  -- entries of the map are numbered declarations
  have hmem : ∀ k x, (k, x) ∈ m → x ∈ numbered ds 0 ∧ x.decl.name = k ∧ ∀ y ∈ numbered ds 0, y.decl.name = k → Le y x := by
    intro k x h
    have := hH.some_ k x (lookup_of_mem hW h)
    unfold named at this
    refine ⟨(List.mem_filter.1 this.1).1, by simpa using (List.mem_filter.1 this.1).2, ?_⟩
    intro y hy hk
    exact this.2 y (List.mem_filter.2 ⟨hy, by simpa using hk⟩)
  have hS : ∀ e ∈ (m.map (·.2)).filter (·.decl.shorthand), e.decl.name ≠ n := by
    intro e he hen
    rw [List.mem_filter, List.mem_map] at he
    obtain ⟨⟨p, hp, rfl⟩, hs⟩ := he
    have := hmem p.1 p.2 hp
    have h1 := hr.flag _ (numbered_mem_ds this.1).1
    rw [hen, hn] at h1
    rw [h1] at hs; cases hs
  have hL : (expandShorthands expand m).lookup n =
      pickAll (m.lookup n) (((m.map (·.2)).filter (·.decl.shorthand)).flatMap (contrib expand n)) :=
    lookup_expand_aux expand n _ hS m
  obtain ⟨hb0, hb1⟩ := pickAll_best (((m.map (·.2)).filter (·.decl.shorthand)).flatMap (contrib expand n)) (m.lookup n)
  rw [← hL] at hb0 hb1
  -- every written out entry is dominated by an entry of the final list
  have hdom : ∀ x, all expand ds n x → ∃ y ∈ (m.lookup n).toList ++
      ((m.map (·.2)).filter (·.decl.shorthand)).flatMap (contrib expand n), Le x y := by
    rintro x ⟨z, hz, ⟨hzs, hzn, rfl⟩ | ⟨hzs, hc⟩⟩
    · cases hl : m.lookup n with
      | none =>
        have := (hH.none_ n).1 hl
        have hx : x ∈ named (numbered ds 0) n := List.mem_filter.2 ⟨hz, by simpa using hzn⟩
        rw [this] at hx; cases hx
      | some y =>
        exact ⟨y, by simp, (hmem n y (mem_of_lookup hl)).2.2 x hz hzn⟩
    · cases hl : m.lookup z.decl.name with
      | none =>
        have := (hH.none_ _).1 hl
        have hx : z ∈ named (numbered ds 0) z.decl.name := List.mem_filter.2 ⟨hz, by simp⟩
        rw [this] at hx; cases hx
      | some w =>
        have hw := hmem _ w (mem_of_lookup hl)
        have hwd := (numbered_mem_ds hw.1).1
        have hzd := (numbered_mem_ds hz).1
        have hws : w.decl.shorthand = true := by rw [hr.flag _ hwd, hw.2.1, ← hr.flag _ hzd, hzs]
        have hnl : n ∈ longhands z.decl.name := by
          rw [← hr.names _ hzd hzs]
          unfold contrib at hc
          simp only [List.mem_map, List.mem_filter] at hc
          obtain ⟨p, ⟨hp, hpn⟩, _⟩ := hc
          exact List.mem_map.2 ⟨p, hp, by simpa using hpn⟩
        rw [← hw.2.1, ← hr.names _ hwd hws] at hnl
        obtain ⟨p, hp, hpn⟩ := List.mem_map.1 hnl
        have hpc : (⟨longhand w.decl p, w.order⟩ : Entry) ∈ contrib expand n w :=
          List.mem_map.2 ⟨p, List.mem_filter.2 ⟨hp, by simpa using hpn⟩, rfl⟩
        refine ⟨_, List.mem_append.2 (.inr (List.mem_flatMap.2 ⟨w, List.mem_filter.2 ⟨List.mem_map.2 ⟨_, mem_of_lookup hl, rfl⟩, hws⟩, hpc⟩)), ?_⟩
        have h1 := mem_contrib hc
        have h2 := mem_contrib hpc
        rw [le_contrib h1.1 h1.2, le_contrib' h2.1 h2.2]
        exact hw.2.2 z hz rfl
  constructor
  · intro hnone e he
    obtain ⟨y, hy, _⟩ := hdom e he
    rw [hb0.1 hnone] at hy; cases hy
  · intro e he
    obtain ⟨h1, h2⟩ := hb1 e he
    refine ⟨?_, fun x hx => ?_⟩
    · rcases List.mem_append.1 h1 with h | h
      · rw [Option.mem_toList] at h
        have hw := hmem _ e (mem_of_lookup h)
        exact ⟨e, hw.1, .inl ⟨by rw [hr.flag _ (numbered_mem_ds hw.1).1, hw.2.1, hn], hw.2.1, rfl⟩⟩
      · obtain ⟨w, hw, hc⟩ := List.mem_flatMap.1 h
        rw [List.mem_filter, List.mem_map] at hw
        obtain ⟨⟨p, hp, rfl⟩, hs⟩ := hw
        exact ⟨p.2, (hmem p.1 p.2 hp).1, .inr ⟨hs, hc⟩⟩
    · obtain ⟨y, hy, hxy⟩ := hdom x hx
      exact le_trans hxy (h2 y hy)

theorem inPlace_eq (d : Decl) : inPlace d = longhand d := rfl

theorem writtenOut_append (expand a b) : writtenOut expand (a ++ b) = writtenOut expand a ++ writtenOut expand b := by
  simp [writtenOut]

theorem mem_writtenOut {expand ds n x} (hx : x ∈ writtenOut expand ds) (hn : x.name = n) :
    ∃ d ∈ ds, d.bogus = x.bogus ∧ weights x = weights d ∧
      ((d.shorthand = false ∧ d.name = n ∧ x = d) ∨ (d.shorthand = true ∧ ∃ p ∈ expand d, p.1 = n ∧ x = longhand d p)) := by
  unfold writtenOut at hx
  obtain ⟨d, hd, hx⟩ := List.mem_flatMap.1 hx
  split at hx
  · rename_i hs
    obtain ⟨p, hp, rfl⟩ := List.mem_map.1 hx
    exact ⟨d, hd, rfl, rfl, .inr ⟨hs, p, hp, hn, rfl⟩⟩
  · rename_i hs
    simp at hx
    subst hx
    exact ⟨x, hd, rfl, rfl, .inl ⟨by simpa using hs, hn, rfl⟩⟩

/-- An entry coming from declaration `x` of the list is an `all` entry. -/
theorem all_of_numbered {expand ds n} {d x : Decl} {o} (hd : (⟨d, o⟩ : Entry) ∈ numbered ds 0)
    (h : (d.shorthand = false ∧ d.name = n ∧ x = d) ∨ (d.shorthand = true ∧ ∃ p ∈ expand d, p.1 = n ∧ x = longhand d p)) :
    all expand ds n ⟨x, o⟩ := by
  refine ⟨_, hd, ?_⟩
  rcases h with ⟨h1, h2, rfl⟩ | ⟨h1, p, hp, hpn, rfl⟩
  · exact .inl ⟨h1, h2, rfl⟩
  · exact .inr ⟨h1, List.mem_map.2 ⟨p, List.mem_filter.2 ⟨hp, by simpa using hpn⟩, rfl⟩⟩

theorem best_winner {expand isShort longhands ds} (hr : Regular expand isShort longhands ds) {n} {e : Entry}
    (he : all expand ds n e) (hbest : ∀ x, all expand ds n x → Le x e) : Winner (writtenOut expand ds) n e.decl := by
  obtain ⟨z, hz, hc⟩ := he
  obtain ⟨d, o⟩ := z
  obtain ⟨pre, post, hds, hbog, hnum, hlt⟩ := numbered_mem_split ds 0 hz
  have heo : e.order = o ∧ weights e.decl = weights d ∧ e.decl.bogus = false ∧ e.decl.name = n := by
    rcases hc with ⟨_, h2, rfl⟩ | ⟨_, h2⟩
    · exact ⟨rfl, rfl, hbog, h2⟩
    · have := mem_contrib h2
      refine ⟨this.2, this.1, ?_⟩
      unfold contrib at h2
      obtain ⟨p, hp, rfl⟩ := List.mem_map.1 h2
      exact ⟨hbog, by show p.1 = n; simpa using (List.mem_filter.1 hp).2⟩
  have hdmem : d ∈ ds := by rw [hds]; simp
  -- the written out form of `d` around the entry
  have hloc : ∃ a b, writtenOut expand [d] = a ++ e.decl :: b ∧ (∀ x ∈ a, x.name ≠ n) ∧ (∀ x ∈ b, x.name ≠ n) := by
    rcases hc with ⟨h1, h2, rfl⟩ | ⟨h1, h2⟩
    · exact ⟨[], [], by simp only at h1; simp [writtenOut, h1], by simp, by simp⟩
    · simp only at h1
      unfold contrib at h2
      obtain ⟨p, hp, rfl⟩ := List.mem_map.1 h2
      have hpn : p.1 = n := by simpa using (List.mem_filter.1 hp).2
      obtain ⟨a, b, hab⟩ := List.append_of_mem (List.mem_filter.1 hp).1
      have hnd := hr.nodup d.name
      rw [← hr.names d hdmem h1, hab, List.map_append, List.map_cons, List.nodup_append] at hnd
      refine ⟨a.map (longhand d), b.map (longhand d), by simp [writtenOut, h1, hab, inPlace_eq], ?_, ?_⟩
      · intro x hx hxn
        obtain ⟨q, hq, rfl⟩ := List.mem_map.1 hx
        exact hnd.2.2 q.1 (List.mem_map.2 ⟨q, hq, rfl⟩) p.1 (by simp) (by rw [hpn]; exact hxn)
      · intro x hx hxn
        obtain ⟨q, hq, rfl⟩ := List.mem_map.1 hx
        have := (List.nodup_cons.1 hnd.2.1).1
        apply this
        rw [hpn]
        exact List.mem_map.2 ⟨q, hq, hxn⟩
  obtain ⟨a, b, hab, ha, hb⟩ := hloc
  refine ⟨writtenOut expand pre ++ a, b ++ writtenOut expand post, ?_, heo.2.2.2, heo.2.2.1, ?_, ?_⟩
  · have : ds = pre ++ ([d] ++ post) := by simpa using hds
    rw [this, writtenOut_append, writtenOut_append, hab]; simp
  · intro x hx hxn hxb
    rcases List.mem_append.1 hx with hx | hx
    · obtain ⟨dx, hdx, h1, h2, h3⟩ := mem_writtenOut hx hxn
      obtain ⟨ox, hox⟩ := (mem_numbered pre 0 dx).2 ⟨hdx, by rw [h1, hxb]⟩
      exact not_lower_of_le (hbest ⟨x, ox⟩ (all_of_numbered (d := dx) (by rw [hnum]; simp [hox]) h3))
    · exact absurd hxn (ha x hx)
  · intro x hx hxn hxb
    rcases List.mem_append.1 hx with hx | hx
    · exact absurd hxn (hb x hx)
    · obtain ⟨dx, hdx, h1, h2, h3⟩ := mem_writtenOut hx hxn
      obtain ⟨ox, hox⟩ := (mem_numbered post (o+1) dx).2 ⟨hdx, by rw [h1, hxb]⟩
      refine lower_of_le (hbest ⟨x, ox⟩ (all_of_numbered (d := dx) (by rw [hnum]; simp [hox]) h3)) ?_
      have := numbered_ge post (o+1) _ hox
      rw [heo.1]; exact this

theorem expand_iff_winner {expand isShort longhands ds} (hr : Regular expand isShort longhands ds) {n}
    (hn : isShort n = false) (d : Decl) :
    ((expandShorthands expand (cascade ds).entries).lookup n).map (·.decl) = some d ↔ Winner (writtenOut expand ds) n d := by
  obtain ⟨h0, h1⟩ := final_best hr hn
  constructor
  · intro h
    obtain ⟨e, he, rfl⟩ := Option.map_eq_some_iff.1 h
    have := h1 e he
    exact best_winner hr this.1 this.2
  · intro hw
    cases hl : (expandShorthands expand (cascade ds).entries).lookup n with
    | none =>
      obtain ⟨hm, hnm, hbg⟩ := winner_mem hw
      obtain ⟨dx, hdx, h1, h2, h3⟩ := mem_writtenOut hm hnm
      obtain ⟨ox, hox⟩ := (mem_numbered ds 0 dx).2 ⟨hdx, by rw [h1, hbg]⟩
      exact absurd (all_of_numbered hox h3) (h0 hl _)
    | some e =>
      have := h1 e hl
      rw [Option.map_some, winner_unique (best_winner hr this.1 this.2) hw]

end Verif.Cascade
