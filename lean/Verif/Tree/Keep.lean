import Verif.Tree.Sound
/-
The larger operations of the tree builder keep its invariant.
-/
namespace Verif.Tree
open Verif.Html (Str Attr Content)

variable {P : Src}

/-! ### The stack and the list of formatting elements -/

theorem Sound.stack {s : St} (hs : Sound P s) {st : List El} (h : List.Sublist st s.stack) :
    Sound P { s with stack := st } := by
  have hr := hs.1.1.refs
  refine ⟨⟨⟨hs.1.1.heap, ⟨?_, ?_, ?_, hr.listed, hr.head, hr.form⟩, hs.1.1.src, hs.1.1.pending⟩, hs.1.2⟩, hs.2⟩
  · intro e he; exact hr.opened e (h.mem he)
  · intro e he; exact hr.low e ((dropLast_sub h).mem he)
  · exact hr.once.sublist (h.filter _)

theorem Sound.entries {s : St} (hs : Sound P s) {es : List Entry} {a : Nat}
    (h : ∀ e n as, Entry.elem e n as ∈ es → Listed P s.data s.next e n as) :
    Sound P { s with entries := es, after := a } := by
  have hr := hs.1.1.refs
  exact ⟨⟨⟨hs.1.1.heap, ⟨hr.opened, hr.low, hr.once, h, hr.head, hr.form⟩, hs.1.1.src, hs.1.1.pending⟩,
    hs.1.2⟩, hs.2⟩

theorem Sound.form {s : St} (hs : Sound P s) {f : Option El}
    (h : ∀ e, f = some e → Valid s.data s.next e) : Sound P { s with form := f } := by
  have hr := hs.1.1.refs
  exact ⟨⟨⟨hs.1.1.heap, ⟨hr.opened, hr.low, hr.once, hr.listed, hr.head, h⟩, hs.1.1.src,
    hs.1.1.pending⟩, hs.1.2⟩, hs.2⟩

theorem Sound.head {s : St} (hs : Sound P s) {e : El} (hv : Valid s.data s.next e)
    (hq : e.q = h (nm! "head")) : Sound P { s with head := some e } := by
  have hr := hs.1.1.refs
  exact ⟨⟨⟨hs.1.1.heap, ⟨hr.opened, hr.low, hr.once, hr.listed, by intro e' he; cases he; exact ⟨hv, hq⟩,
    hr.form⟩, hs.1.1.src, hs.1.1.pending⟩, hs.1.2⟩, hs.2⟩

/-- Another mode. -/
theorem Sound.mode {s : St} (hs : Sound P s) {m : Mode} (h1 : m.early = false)
    (h2 : m ≠ .text) (h3 : m ≠ .inTableText) : Sound P { s with mode := m } :=
  ⟨hs.1, h1, fun h => h.elim (fun k => hs.2.2 (Or.inl k)) fun h => h.elim (fun e => absurd e h2)
    fun e => absurd e h3⟩

theorem Sound.later {s : St} (hs : Sound P s) {m : Mode} (h1 : m.early = false) :
    Sound P { s with mode := m, orig := s.mode } :=
  ⟨hs.1, h1, fun _ => hs.2.1⟩

theorem Sound.pop {s : St} (hs : Sound P s) : Post (Sound P) (pop s) := by
  unfold Tree.pop
  split
  case h_1 => exact Post.error _
  case h_2 e r he => exact Post.ok (hs.stack (by rw [he]; exact List.sublist_cons_self _ _))

theorem Sound.popUntil {s : St} (hs : Sound P s) (el : El) : Sound P (popUntil s el) :=
  hs.stack (dropPast_sub _ _)

theorem Sound.popUntilOneOf {s : St} (hs : Sound P s) (ns : List Str) : Sound P (popUntilOneOf s ns) :=
  hs.stack (dropPast_sub _ _)

theorem Sound.removeOpen {s : St} (hs : Sound P s) (el : El) : Sound P (removeOpen s el) :=
  hs.stack List.filter_sublist

theorem implied_sub (ex : List Str) : ∀ l, Post (fun r => List.Sublist r l) (implied ex l)
  | [] => Post.error _
  | e :: r => by
    rw [implied]
    refine Post.ite ((implied_sub ex r).mono fun x hx => hx.cons _) (Post.ok (List.Sublist.refl _))

theorem Sound.impliedEnds {s : St} (hs : Sound P s) (ex : List Str) :
    Post (Sound P) (impliedEnds s ex) :=
  Post.bind _ (implied_sub ex s.stack) fun _ hx => Post.ok (hs.stack hx)

theorem clearTo_sub (ns : List Str) : ∀ l, Post (fun r => List.Sublist r l) (clearTo ns l)
  | [] => Post.error _
  | e :: r => by
    rw [clearTo]
    refine Post.ite (Post.ok (List.Sublist.refl _)) ((clearTo_sub ns r).mono fun x hx => hx.cons _)

theorem Sound.clearStack {s : St} (hs : Sound P s) (ns : List Str) : Post (Sound P) (clearStack s ns) :=
  Post.bind _ (clearTo_sub ns s.stack) fun _ hx => Post.ok (hs.stack hx)

theorem Sound.removeEntry {s : St} (hs : Sound P s) (el : El) : Sound P (removeEntry s el) := by
  unfold Tree.removeEntry
  split
  · exact hs
  · exact hs.entries fun e n as he => hs.1.1.refs.listed e n as (List.mem_of_mem_eraseIdx he)

theorem Sound.pushMarker {s : St} (hs : Sound P s) : Sound P (pushMarker s) := by
  refine hs.entries fun e n as he => hs.1.1.refs.listed e n as ?_
  rw [List.mem_append, List.mem_singleton] at he
  rcases he with he | he
  · exact he
  · cases he

theorem dropMarker_mem {r : List Entry} {x : Entry} : ∀ {l : List Entry}, dropMarker l = some r →
    x ∈ r → x ∈ l := by
  intro l
  induction l with
  | nil => intro h; cases h
  | cons e l ih =>
    intro h hx
    cases e with
    | marker => cases h; exact List.mem_cons_of_mem _ hx
    | elem _ _ _ => exact List.mem_cons_of_mem _ (ih h hx)

theorem Sound.clearMarker {s : St} (hs : Sound P s) : Post (Sound P) (clearMarker s) := by
  unfold Tree.clearMarker
  refine Post.ite (Post.ok hs) ?_
  split
  case h_1 => exact Post.error _
  case h_2 r hr =>
    refine Post.ok (hs.entries fun e n as he => hs.1.1.refs.listed e n as ?_)
    have := dropMarker_mem hr (List.mem_reverse.mp he)
    exact List.mem_reverse.mp this

theorem Sound.pushEntry {s : St} (hs : Sound P s) {el : El} {n : Str} {as : List Attr}
    (hl : Listed P s.data s.next el n as) : Post (Sound P) (pushEntry s el n as) := by
  unfold Tree.pushEntry
  refine Post.any fun l => Post.ok ?_
  have key : ∀ {s' : St}, Sound P s' → s'.data = s.data → s'.next = s.next →
      Sound P { s' with entries := s'.entries ++ [.elem el n as] } := by
    intro s' hs' e1 e2
    refine hs'.entries (a := s'.after) fun e m bs he => ?_
    rw [List.mem_append, List.mem_singleton] at he
    rcases he with he | he
    · exact hs'.1.1.refs.listed e m bs he
    · cases he
      rw [e1, e2]
      exact hl
  cases l with
  | nil => exact key hs rfl rfl
  | cons e r =>
    dsimp only
    split
    · refine key (hs.removeEntry e) ?_ ?_
      · unfold Tree.removeEntry; split <;> rfl
      · unfold Tree.removeEntry; split <;> rfl
    · exact key hs rfl rfl

/-! ### Elements, characters, comments -/

theorem insert_same (p : Place) (s : St) (n : Nat) :
    (p.insert s n).data = s.data ∧ (p.insert s n).next = s.next ∧ (p.insert s n).stack = s.stack ∧
    (p.insert s n).entries = s.entries := by
  obtain ⟨e1, e2, _, _, e5, e6, _⟩ := detach_same s n
  unfold Place.insert
  split
  · exact ⟨e1, e2, e5, e6⟩
  · exact ⟨e1, e2, e5, e6⟩

theorem insert_parent (p : Place) (s : St) (n : Nat) : (p.insert s n).parent n = some p.parent := by
  unfold Place.insert
  split
  · exact update_eq
  · exact update_eq

/-- An element that is not the document's child is opened. -/
theorem Sound.push {s : St} (hs : Sound P s) {el : El} (hv : Valid s.data s.next el)
    (hp : s.parent el.id ≠ some 0) (hn : el.q = h (nm! "head") ∨ ∀ e ∈ s.stack, e ≠ el) :
    Sound P { s with stack := el :: s.stack } := by
  have hr := hs.1.1.refs
  refine ⟨⟨⟨hs.1.1.heap, ⟨?_, ?_, ?_, hr.listed, hr.head, hr.form⟩, hs.1.1.src, hs.1.1.pending⟩, hs.1.2⟩, hs.2⟩
  · intro e he
    rcases List.mem_cons.mp he with rfl | he
    · exact hv
    · exact hr.opened e he
  · intro e he
    cases hst : s.stack with
    | nil =>
      have he : e ∈ (el :: s.stack).dropLast := he
      rw [hst] at he
      cases he
    | cons x xs =>
      have he : e ∈ (el :: s.stack).dropLast := he
      rw [hst, List.dropLast_cons₂] at he
      rcases List.mem_cons.mp he with rfl | he
      · exact hp
      · exact hr.low e (by rw [hst]; exact he)
  · show ((el :: s.stack).filter _).Nodup
    rw [List.filter_cons]
    split
    case isTrue hq =>
      refine List.nodup_cons.mpr ⟨?_, hr.once⟩
      intro hm
      rcases hn with hn | hn
      · simp [hn] at hq
      · exact hn el ((List.mem_filter.mp hm).1) rfl
    case isFalse => exact hr.once

theorem Sound.createFor (hP : P.Closed) {s : St} (hs : Sound P s) {ns : Ns} {n : Str}
    {as : List Attr} (ht : P.tag n as) :
    Sound P (Tree.createFor s ns n as).1 ∧ (Tree.createFor s ns n as).2.q = ⟨ns, n⟩ ∧
    (Tree.createFor s ns n as).2.id = s.next ∧
    Valid (Tree.createFor s ns n as).1.data (Tree.createFor s ns n as).1.next (Tree.createFor s ns n as).2 ∧
    Loose (Tree.createFor s ns n as).1 s.next := by
  refine ⟨hs.alloc (hP.made ns n as ht) (by nofun), rfl, rfl, ⟨Nat.lt_succ_self _, ?_⟩,
    hs.fresh (by exact id)⟩
  exact ⟨tokenAttrs as, update_eq⟩

theorem Sound.insertForeign (hP : P.Closed) {s : St} (hs : Sound P s) {ns : Ns} {n : Str}
    {as : List Attr} (ht : P.tag n as) :
    Post (fun r => Sound P r.1 ∧ Valid r.1.data r.1.next r.2 ∧ r.2.q = ⟨ns, n⟩)
      (insertForeign s ns n as) := by
  unfold Tree.insertForeign
  refine Post.bind _ (hs.place (t := none) nofun) fun loc hl => ?_
  obtain ⟨h1, h2, h3, h4, h5⟩ := hs.createFor hP (ns := ns) ht
  have hi := h1.insert (p := loc) (by rw [← h3] at h5; exact h5) (Spot.alloc hl)
  obtain ⟨e1, e2, e3, e4⟩ := insert_same loc (Tree.createFor s ns n as).1 (Tree.createFor s ns n as).2.id
  have hv : Valid (loc.insert (Tree.createFor s ns n as).1 (Tree.createFor s ns n as).2.id).data
      (loc.insert (Tree.createFor s ns n as).1 (Tree.createFor s ns n as).2.id).next (Tree.createFor s ns n as).2 := by
    rw [e1, e2]; exact h4
  refine Post.ok ⟨hi.push hv ?_ (Or.inr ?_), hv, h2⟩
  · intro e
    have := (insert_parent loc (Tree.createFor s ns n as).1 (Tree.createFor s ns n as).2.id).symm.trans e
    injection this with this
    exact hl.pos this
  · intro e he e'
    subst e'
    rw [e3] at he
    have : (Tree.createFor s ns n as).2 ∈ s.stack := he
    exact absurd (hs.1.1.refs.opened _ this).1 (by rw [h3]; exact Nat.lt_irrefl _)

theorem Sound.insertHtml (hP : P.Closed) {s : St} (hs : Sound P s) {n : Str} {as : List Attr}
    (ht : P.tag n as) : Post (Sound P) (insertHtml s n as) :=
  Post.bind _ (hs.insertForeign hP ht) fun _ hr => Post.ok hr.1

theorem Sound.insertVoid (hP : P.Closed) {s : St} (hs : Sound P s) {n : Str} {as : List Attr}
    (ht : P.tag n as) : Post (Sound P) (insertVoid s n as) :=
  Post.bind _ (hs.insertHtml hP ht) fun _ hr => hr.pop

theorem Sound.parseRaw (hP : P.Closed) {s : St} (hs : Sound P s) {k : Content} {n : Str}
    {as : List Attr} (ht : P.tag n as) : Post (Sound P) (parseRaw s k n as) :=
  Post.bind _ (hs.insertHtml hP ht) fun _ hr => Post.ok (hr.later (m := .text) rfl)

theorem prev_mem {p : Place} {s : St} {m : Nat} (h : p.prev s = some m) : ∃ q, m ∈ s.kids q := by
  unfold Place.prev at h
  split at h
  case h_1 c _ =>
    rw [Option.bind_eq_some_iff] at h
    obtain ⟨q, _, hq⟩ := h
    refine ⟨q, ?_⟩
    generalize s.kids q = l at hq ⊢
    induction l with
    | nil => cases hq
    | cons x l ih =>
      cases l with
      | nil => cases hq
      | cons y l =>
        rw [prevIn] at hq
        split at hq
        · cases hq; simp
        · exact List.mem_cons_of_mem _ (ih hq)
  case h_2 => exact ⟨_, List.mem_of_getLast? h⟩

theorem Sound.insertChar {s : St} (hs : Sound P s) {c : Char} (hc : P.char c) :
    Post (Sound P) (insertChar s c) := by
  unfold Tree.insertChar
  refine Post.bind _ (hs.place (t := none) nofun) fun loc hl => ?_
  refine Post.ite (Post.ok hs) ?_
  split
  case h_1 p d hp =>
    rw [Option.map_eq_some_iff] at hp
    obtain ⟨m, hm, e⟩ := hp
    injection e with e1 e2
    subst e1
    refine Post.ok (hs.change ?_ ?_)
    · rw [e2]; exact .text _ _
    · intro hlt
      have := hs.1.1.src m hlt
      rw [e2] at this
      refine ⟨by simp, ?_⟩
      intro x hx
      rw [List.mem_append, List.mem_singleton] at hx
      rcases hx with hx | rfl
      · exact this.2 x hx
      · exact hc
  case h_2 =>
    refine Post.ok ((hs.alloc (d := .text [c]) ⟨by simp, ?_⟩ (by nofun)).insert
      (hs.fresh (by exact id)) (Spot.alloc hl))
    intro x hx
    rw [List.mem_singleton] at hx
    rw [hx]; exact hc

theorem Sound.addComment {s : St} (hs : Sound P s) {d : Str} {p : Place} (hd : P.comment d)
    (hp : Spot s p.parent) : Sound P (p.insert (Tree.alloc s (.comment d)).1 s.next) :=
  (hs.alloc (d := .comment d) hd (by nofun)).insert (hs.fresh (by exact id)) (Spot.alloc hp)

theorem Sound.insertComment {s : St} (hs : Sound P s) {d : Str} (hd : P.comment d) :
    Post (Sound P) (insertComment s d) := by
  unfold Tree.insertComment
  exact Post.bind _ (hs.place (t := none) nofun) fun loc hl => Post.ok (hs.addComment hd hl)

theorem Sound.commentAt {s : St} (hs : Sound P s) {d : Str} {p : Place} (hd : P.comment d)
    (hp : Spot s p.parent) : Post (Sound P) (Tree.insertComment s d (some p)) :=
  Post.ok (hs.addComment hd hp)

/-! ### Reconstruction -/

theorem Sound.remake (hP : P.Closed) : ∀ {es : List Entry} {s : St}, Sound P s →
    (∀ e n as, Entry.elem e n as ∈ es → P.tag n as ∧ n ≠ nm! "head") →
    Post (fun r => Sound P r.1 ∧ s.next ≤ r.1.next ∧
        (∀ e, Valid s.data s.next e → Valid r.1.data r.1.next e) ∧
        ∀ e n as, Entry.elem e n as ∈ r.2 → Listed P r.1.data r.1.next e n as)
      (remake s es) := by
  intro es
  induction es with
  | nil => 
    intro s hs _
    exact Post.ok ⟨hs, Nat.le_refl _, fun _ h => h, by intro e n as he; cases he⟩
  | cons e es ih =>
    intro s hs ht
    cases e with
    | marker => exact Post.error _
    | elem el n as =>
      rw [Tree.remake]
      have hn := ht el n as (by simp)
      have h1 := hs.insertForeign hP (ns := .html) hn.1
      have h2 : Post (fun r => (Sound P r.1 ∧ Valid r.1.data r.1.next r.2 ∧ r.2.q = ⟨.html, n⟩) ∧
          s.next ≤ r.1.next ∧ ∀ e, Valid s.data s.next e → Valid r.1.data r.1.next e)
          (Tree.insertForeign s .html n as) := by
        intro r hr
        refine ⟨h1 r hr, ?_⟩
        unfold Tree.insertForeign at hr
        cases hl : Tree.place s with
        | error e => rw [hl] at hr; cases hr
        | ok loc =>
          rw [hl] at hr
          injection hr with hr
          rw [← hr]
          obtain ⟨e1, e2, _⟩ := insert_same loc (Tree.createFor s .html n as).1 (Tree.createFor s .html n as).2.id
          constructor
          · show s.next ≤ (loc.insert (Tree.createFor s .html n as).1 (Tree.createFor s .html n as).2.id).next
            rw [e2]
            exact Nat.le_succ _
          · intro e he
            show Valid (loc.insert (Tree.createFor s .html n as).1 (Tree.createFor s .html n as).2.id).data
              (loc.insert (Tree.createFor s .html n as).1 (Tree.createFor s .html n as).2.id).next e
            rw [e1, e2]
            exact he.alloc
      refine Post.bind _ h2 fun r hr => ?_
      refine Post.bind _ (ih hr.1.1 fun e n as he => ht e n as (by simp [he])) fun r' hr' => ?_
      refine Post.ok ⟨hr'.1, Nat.le_trans hr.2.1 hr'.2.1, fun e he => hr'.2.2.1 e (hr.2.2 e he), ?_⟩
      intro e m bs he
      rcases List.mem_cons.mp he with he | he
      · cases he
        exact ⟨hr'.2.2.1 _ hr.1.2.1, hn.1, hr.1.2.2, hn.2⟩
      · exact hr'.2.2.2 e m bs he

theorem Sound.reconstruct (hP : P.Closed) {s : St} (hs : Sound P s) : Post (Sound P) (reconstruct s) := by
  unfold Tree.reconstruct
  refine Post.bind _ (hs.remake hP fun e n as he =>
    let l := hs.1.1.refs.listed e n as (List.mem_of_mem_drop he); ⟨l.tag, l.other⟩) fun r hr => Post.ok ?_
  split
  · exact hr.1
  · refine hr.1.entries (a := r.1.after) fun e n as he => ?_
    rw [List.mem_append] at he
    rcases he with he | he
    · have := hs.1.1.refs.listed e n as (List.mem_of_mem_take he)
      exact ⟨hr.2.2.1 e this.valid, this.tag, this.name, this.other⟩
    · exact hr.2.2.2 e n as he

theorem resetMode_late (b : Bool) : ∀ l,
    Post (fun m => m.early = false ∧ m ≠ .text ∧ m ≠ .inTableText) (resetMode b l)
  | [] => Post.error _
  | e :: r => by
    have ih := resetMode_late b r
    rw [resetMode]
    repeat' first | exact ih | exact Post.ok (by decide) | refine Post.ite ?_ ?_
    cases b <;> exact Post.ok (by decide)

theorem Sound.reset {s : St} (hs : Sound P s) : Post (Sound P) (reset s) :=
  Post.bind _ (resetMode_late _ _) fun _ hm => Post.ok (hs.mode hm.1 hm.2.1 hm.2.2)

/-! ### The adoption agency -/

/-- What was there stays. -/
structure Grow (s s' : St) : Prop where
  next : s.next ≤ s'.next
  valid : ∀ e, Valid s.data s.next e → Valid s'.data s'.next e
  kind : ∀ n, n < s.next → (s.data n).Like (s'.data n)
  free : ∀ n, n < s.next → s'.parent n = some 0 → s.parent n = some 0

theorem Grow.refl (s : St) : Grow s s := ⟨Nat.le_refl _, fun _ h => h, fun _ _ => .refl _, fun _ _ h => h⟩

theorem Like.trans {a b c : Data} (h1 : a.Like b) (h2 : b.Like c) : a.Like c := by
  cases h1
  · exact h2
  · cases h2
    · exact .element _ _ _
    · exact .element _ _ _
  · cases h2
    · exact .text _ _
    · exact .text _ _

theorem Grow.trans {a b c : St} (h1 : Grow a b) (h2 : Grow b c) : Grow a c :=
  ⟨Nat.le_trans h1.next h2.next, fun e h => h2.valid e (h1.valid e h),
   fun n hn => Like.trans (h1.kind n hn) (h2.kind n (Nat.lt_of_lt_of_le hn h1.next)),
   fun n hn h => h1.free n hn (h2.free n (Nat.lt_of_lt_of_le hn h1.next) h)⟩

theorem Grow.same {s s' : St} (h1 : s'.next = s.next) (h2 : s'.data = s.data) (h3 : s'.parent = s.parent) :
    Grow s s' := by
  refine ⟨Nat.le_of_eq h1.symm, ?_, ?_, ?_⟩
  · intro e he; rw [h1, h2]; exact he
  · intro n _; rw [h2]; exact .refl _
  · intro n _ h; rw [← h3]; exact h

theorem Grow.alloc {P : Src} {s : St} (_ : Sound P s) (d : Data) : Grow s (Tree.alloc s d).1 := by
  refine ⟨Nat.le_succ _, fun e he => he.alloc, ?_, ?_⟩
  · intro n hn
    show (s.data n).Like (update s.data s.next d n)
    rw [update_ne (Nat.ne_of_lt hn)]
    exact .refl _
  · intro n hn hp
    have hp : update s.parent s.next none n = some 0 := hp
    rwa [update_ne (Nat.ne_of_lt hn)] at hp

theorem detach_parent {P : Src} {s : St} (hs : Sound P s) {n : Nat} (hn : Loose s n) (m : Nat) :
    (detach s n).parent m = some 0 → s.parent m = some 0 := by
  obtain ⟨_, g2, _, _, g5⟩ := detach_heap hs.1.1.heap hn.free
  intro h
  by_cases e : m = n
  · subst e; rw [g2] at h; cases h
  · rw [← g5 m e]; exact h

theorem Grow.append {P : Src} {s : St} (hs : Sound P s) {n p : Nat} (hn : Loose s n) (hp : p ≠ 0) :
    Grow s (append s p n) := by
  obtain ⟨e1, e2, _⟩ := detach_same s n
  refine ⟨Nat.le_of_eq e2.symm, ?_, ?_, ?_⟩
  · intro e he
    show Valid (detach s n).data (detach s n).next e
    rw [e1, e2]; exact he
  · intro m _
    show (s.data m).Like ((detach s n).data m)
    rw [e1]; exact .refl _
  · intro m _ h
    have h : update (detach s n).parent n (some p) m = some 0 := h
    unfold update at h
    split at h
    case isTrue => injection h with h; exact absurd h hp
    case isFalse => exact detach_parent hs hn m h

theorem Grow.insertBefore {P : Src} {s : St} (hs : Sound P s) {n p c : Nat} (hn : Loose s n)
    (hp : p ≠ 0) : Grow s (insertBefore s p n c) := by
  obtain ⟨e1, e2, _⟩ := detach_same s n
  refine ⟨Nat.le_of_eq e2.symm, ?_, ?_, ?_⟩
  · intro e he
    show Valid (detach s n).data (detach s n).next e
    rw [e1, e2]; exact he
  · intro m _
    show (s.data m).Like ((detach s n).data m)
    rw [e1]; exact .refl _
  · intro m _ h
    have h : update (detach s n).parent n (some p) m = some 0 := h
    unfold update at h
    split at h
    case isTrue => injection h with h; exact absurd h hp
    case isFalse => exact detach_parent hs hn m h

theorem Grow.insert {P : Src} {s : St} (hs : Sound P s) {n : Nat} {p : Place} (hn : Loose s n)
    (hp : p.parent ≠ 0) : Grow s (p.insert s n) := by
  unfold Place.insert
  split
  · exact Grow.insertBefore hs hn hp
  · exact Grow.append hs hn hp

theorem Loose.grow {s s' : St} {n : Nat} (h : Loose s n) (hg : Grow s s') : Loose s' n :=
  ⟨Nat.lt_of_lt_of_le h.lt hg.next, h.pos, fun hd => h.kind (Like.back (hg.kind n h.lt) hd),
   fun hp => h.free (hg.free n h.lt hp)⟩

theorem elementAbove_mem {el x : El} : ∀ {l : List El}, elementAbove el l = some x → x ∈ l := by
  intro l
  induction l with
  | nil => intro h; cases h
  | cons y l ih =>
    cases l with
    | nil => intro h; cases h
    | cons z l =>
      intro h
      rw [elementAbove] at h
      split at h
      · cases h; simp
      · exact List.mem_cons_of_mem _ (ih h)

theorem orNull_eq {α : Type} (o : Option α) : Post (fun a => o = some a) (orNull o) := by
  cases o with
  | none => exact Post.error _
  | some a => exact Post.ok rfl

theorem Sound.entryToken {s : St} (hs : Sound P s) (el : El) :
    Post (fun p => Listed P s.data s.next el p.1 p.2) (entryToken s el) := by
  unfold Tree.entryToken
  split
  case h_1 e n as hf =>
    refine Post.ok ?_
    have h1 := List.find?_some hf
    have : e = el := by simpa [Entry.is] using h1
    subst this
    exact hs.1.1.refs.listed e n as (List.mem_of_find?_eq_some hf)
  case h_2 => exact Post.error _

theorem Sound.replaceEntry {s : St} (hs : Sound P s) {old el : El} {n : Str} {as : List Attr}
    (hl : Listed P s.data s.next el n as) :
    Post (fun s' => ∃ es, s' = { s with entries := es } ∧ Sound P s') (replaceEntry s old el n as) := by
  unfold Tree.replaceEntry
  split
  case h_1 => exact Post.error _
  case h_2 i _ =>
    refine Post.ok ⟨_, rfl, hs.entries (a := s.after) fun e m bs he => ?_⟩
    rcases List.mem_or_eq_of_mem_set he with he | he
    · exact hs.1.1.refs.listed e m bs he
    · cases he; exact hl

theorem map_dropLast' {α β : Type} (f : α → β) : ∀ l : List α, (l.map f).dropLast = l.dropLast.map f
  | [] => rfl
  | [_] => rfl
  | x :: y :: r => by
    rw [List.map_cons, List.map_cons, List.dropLast_cons₂, List.dropLast_cons₂, List.map_cons,
      ← List.map_cons, map_dropLast' f (y :: r)]

theorem Sound.replaceOpen {s : St} (hs : Sound P s) {old el : El} (hv : Valid s.data s.next el)
    (hp : s.parent el.id ≠ some 0) (hn : ∀ e ∈ s.stack, e ≠ el) (ho : old.q ≠ h (nm! "head"))
    (he : el.q ≠ h (nm! "head")) :
    Post (fun s' => ∃ st, s' = { s with stack := st } ∧ Sound P s') (replaceOpen s old el) := by
  have hr := hs.1.1.refs
  unfold Tree.replaceOpen
  refine Post.ite (Post.ok ⟨_, rfl, ?_⟩) (Post.error _)
  refine ⟨⟨⟨hs.1.1.heap, ⟨?_, ?_, ?_, hr.listed, hr.head, hr.form⟩, hs.1.1.src, hs.1.1.pending⟩, hs.1.2⟩, hs.2⟩
  · intro e hm
    rw [List.mem_map] at hm
    obtain ⟨x, hx, rfl⟩ := hm
    split
    · exact hv
    · exact hr.opened x hx
  · intro e hm
    rw [map_dropLast', List.mem_map] at hm
    obtain ⟨x, hx, rfl⟩ := hm
    split
    · exact hp
    · exact hr.low x hx
  · show ((s.stack.map fun e => if e = old then el else e).filter _).Nodup
    rw [List.filter_map]
    have : (List.filter ((fun e : El => decide (e.q ≠ h (nm! "head"))) ∘ fun e => if e = old then el else e) s.stack)
        = s.stack.filter fun e => e.q ≠ h (nm! "head") := by
      apply List.filter_congr
      intro x _
      simp only [Function.comp]
      split
      case isTrue e => subst e; simp [he, ho]
      case isFalse => rfl
    rw [this]
    have hm := hr.once
    have hsub : ∀ x ∈ s.stack.filter (fun e => decide (e.q ≠ h (nm! "head"))), x ≠ el := fun x hx =>
      hn x (List.mem_filter.mp hx).1
    revert hm hsub
    generalize s.stack.filter (fun e => decide (e.q ≠ h (nm! "head"))) = l
    intro hm hsub
    rw [List.Nodup, List.pairwise_map]
    refine hm.imp_of_mem ?_
    intro a b ha hb hab
    split
    case isTrue e1 =>
      split
      case isTrue e2 => exact absurd (e1.trans e2.symm) hab
      case isFalse => exact (hsub b hb).symm
    case isFalse e1 =>
      split
      case isTrue e2 => exact hsub a ha
      case isFalse => exact hab

theorem Sound.inner (hP : P.Closed) (fe fb : El) : ∀ (fuel counter : Nat) (node : El) (s : St)
    (last : El) (bm : Nat), Sound P s → Valid s.data s.next last → s.parent last.id ≠ some 0 →
    Post (fun r => Sound P r.1 ∧ Valid r.1.data r.1.next r.2.1 ∧ r.1.parent r.2.1.id ≠ some 0 ∧ Grow s r.1)
      (inner fe fb fuel counter node s last bm) := by
  intro fuel
  induction fuel with
  | zero => intro _ _ _ _ _ _ _ _; exact Post.error _
  | succ fuel ih =>
    intro counter node s last bm hs hv hp
    rw [Tree.inner]
    refine Post.any fun next => ?_
    refine Post.ite (Post.ok ⟨hs, hv, hp, Grow.refl s⟩) ?_
    have h1 : Sound P (if (3 < counter && hasEntry s node) = true then Tree.removeEntry s node else s) ∧
        Grow s (if (3 < counter && hasEntry s node) = true then Tree.removeEntry s node else s) := by
      split
      · refine ⟨hs.removeEntry node, Grow.same ?_ ?_ ?_⟩ <;> (unfold Tree.removeEntry; split <;> rfl)
      · exact ⟨hs, Grow.refl s⟩
    have hst : (if (3 < counter && hasEntry s node) = true then Tree.removeEntry s node else s).stack = s.stack := by
      split
      · unfold Tree.removeEntry; split <;> rfl
      · rfl
    have hpar : (if (3 < counter && hasEntry s node) = true then Tree.removeEntry s node else s).parent = s.parent := by
      split
      · unfold Tree.removeEntry; split <;> rfl
      · rfl
    revert h1 hst hpar
    generalize (if (3 < counter && hasEntry s node) = true then Tree.removeEntry s node else s) = s1
    intro ⟨h1, hg1⟩ hst hpar
    dsimp only
    have hv1 := hg1.valid _ hv
    have hp1 : s1.parent last.id ≠ some 0 := by rw [hpar]; exact hp
    refine Post.ite ?_ ?_
    · exact (ih (counter + 1) next (Tree.removeOpen s1 node) last bm (h1.removeOpen node) hv1 hp1).mono
        fun r hr => ⟨hr.1, hr.2.1, hr.2.2.1, hg1.trans
          (Grow.trans (b := Tree.removeOpen s1 node) (Grow.same rfl rfl rfl) hr.2.2.2)⟩
    · refine Post.bind _ (h1.entryToken node) fun p hl => ?_
      obtain ⟨n, as⟩ := p
      dsimp only at hl ⊢
      obtain ⟨c1, c2, c3, c4, c5⟩ := h1.createFor hP (ns := .html) hl.tag
      have hg2 : Grow s1 (Tree.createFor s1 .html n as).1 := Grow.alloc h1 _
      have hfresh : ∀ e ∈ (Tree.createFor s1 .html n as).1.stack, e ≠ (Tree.createFor s1 .html n as).2 := by
        intro e he e'
        have := (h1.1.1.refs.opened e he).1
        rw [e', c3] at this
        exact Nat.lt_irrefl _ this
      have hl2 : Listed P (Tree.createFor s1 .html n as).1.data (Tree.createFor s1 .html n as).1.next
          (Tree.createFor s1 .html n as).2 n as := ⟨c4, hl.tag, c2, hl.other⟩
      have hv2 := hg2.valid _ hv1
      have hf2 : Loose (Tree.createFor s1 .html n as).1 last.id :=
        (h1.loose hv1 hp1).grow hg2
      revert c1 c2 c3 c4 c5 hg2 hfresh hl2 hv2 hf2
      generalize Tree.createFor s1 .html n as = cr
      obtain ⟨s2, el⟩ := cr
      dsimp only
      intro c1 c2 c3 c4 c5 hg2 hfresh hl2 hv2 hf2
      rw [← c3] at c5
      refine Post.bind _ (c1.replaceEntry hl2) fun s3 h3 => ?_
      obtain ⟨es, rfl, h3⟩ := h3
      have hne : h n ≠ h (nm! "head") := by
        intro e
        injection e with _ e
        exact hl.other e
      refine Post.bind _ (h3.replaceOpen c4 c5.free hfresh (by rw [hl.name]; exact hne)
        (by rw [c2]; exact hne)) fun s4 h4 => ?_
      obtain ⟨st, rfl, h4⟩ := h4
      refine Post.any fun next => Post.any fun i => ?_
      have hsp : Spot _ el.id := h4.spot c4
      have hlo : Loose { s2 with entries := es, stack := st } last.id := ⟨hf2.lt, hf2.pos, hf2.kind, hf2.free⟩
      have hap := h4.append hlo hsp
      have hg3 := Grow.append h4 hlo hsp.pos
      have hel : Loose { s2 with entries := es, stack := st } el.id := ⟨c5.lt, c5.pos, c5.kind, c5.free⟩
      refine (ih (counter + 1) next _ el _ hap (hg3.valid _ c4) (hel.grow hg3).free).mono ?_
      intro r hr
      refine ⟨hr.1, hr.2.1, hr.2.2.1, hg1.trans (hg2.trans ?_)⟩
      refine Grow.trans ?_ (hg3.trans hr.2.2.2)
      exact Grow.same rfl rfl rfl

theorem append_same (s : St) (p n : Nat) :
    (append s p n).stack = s.stack ∧ (append s p n).entries = s.entries := by
  obtain ⟨_, _, _, _, e5, e6, _⟩ := detach_same s n
  exact ⟨e5, e6⟩

theorem Sound.moveAll {dst : Nat} (hd : dst ≠ 0) : ∀ (l : List Nat) {s : St}, Sound P s →
    Spot s dst → (∀ c ∈ l, Loose s c) →
    Sound P (l.foldl (fun s c => Tree.append s dst c) s) ∧
    Grow s (l.foldl (fun s c => Tree.append s dst c) s) ∧
    (l.foldl (fun s c => Tree.append s dst c) s).stack = s.stack
  | [], s, hs, _, _ => ⟨hs, Grow.refl s, rfl⟩
  | c :: r, s, hs, hsp, hl => by
    have hc := hl c (by simp)
    have hg := Grow.append hs hc hd
    obtain ⟨h1, h2, h3⟩ := Sound.moveAll hd r (hs.append hc hsp)
      ⟨Nat.lt_of_lt_of_le hsp.lt hg.next, hsp.pos, Like.element (hg.kind dst hsp.lt) hsp.kind⟩
      fun x hx => (hl x (by simp [hx])).grow hg
    exact ⟨h1, hg.trans h2, h3.trans (append_same s dst c).1⟩

theorem insertBelow_spec {below el : El} : ∀ (l : List El), Post (fun r =>
    (∀ x ∈ r, x = el ∨ x ∈ l) ∧ (∀ x ∈ r.dropLast, x = el ∨ x ∈ l.dropLast) ∧ r ≠ [] ∧
    ∀ p : El → Bool, (l.filter p).Nodup → el ∉ l → (r.filter p).Nodup) (insertBelow below el l)
  | [] => Post.error _
  | x :: r => by
    rw [insertBelow]
    refine Post.ite (Post.ok ⟨?_, ?_, by simp, ?_⟩) ?_
    · intro y hy
      exact List.mem_cons.mp hy
    · intro y hy
      rw [List.dropLast_cons₂] at hy
      exact List.mem_cons.mp hy
    · intro p hn hm
      rw [List.filter_cons]
      split
      · exact List.nodup_cons.mpr ⟨fun h => hm (List.mem_filter.mp h).1, hn⟩
      · exact hn
    · have ih := insertBelow_spec (below := below) (el := el) r
      split
      case h_1 l hl =>
        obtain ⟨h1, h2, h3, h4⟩ := ih l hl
        refine Post.ok ⟨?_, ?_, by simp, ?_⟩
        · intro y hy
          rcases List.mem_cons.mp hy with rfl | hy
          · exact Or.inr (by simp)
          · exact (h1 y hy).imp id (List.mem_cons_of_mem _)
        · intro y hy
          cases r with
          | nil => cases hl
          | cons z zs =>
            cases l with
            | nil => exact absurd rfl h3
            | cons w ws =>
              rw [List.dropLast_cons₂] at hy ⊢
              rcases List.mem_cons.mp hy with rfl | hy
              · exact Or.inr (by simp)
              · exact (h2 y hy).imp id (List.mem_cons_of_mem _)
        · intro p hn hm
          rw [List.filter_cons] at hn ⊢
          split
          case isTrue hp =>
            rw [if_pos hp] at hn
            obtain ⟨n1, n2⟩ := List.nodup_cons.mp hn
            refine List.nodup_cons.mpr ⟨?_, h4 p n2 fun h => hm (List.mem_cons_of_mem _ h)⟩
            intro hx
            rw [List.mem_filter] at hx
            rcases h1 x hx.1 with e | e
            · exact hm (by simp [e])
            · exact n1 (List.mem_filter.mpr ⟨e, hx.2⟩)
          case isFalse hp =>
            rw [if_neg hp] at hn
            exact h4 p hn fun h => hm (List.mem_cons_of_mem _ h)
      case h_2 => exact Post.error _

theorem removeEntry_same (s : St) (el : El) :
    (removeEntry s el).data = s.data ∧ (removeEntry s el).next = s.next ∧
    (removeEntry s el).parent = s.parent ∧ (removeEntry s el).stack = s.stack := by
  unfold removeEntry
  split
  · exact ⟨rfl, rfl, rfl, rfl⟩
  · exact ⟨rfl, rfl, rfl, rfl⟩

theorem Sound.insertEntry {s : St} (hs : Sound P s) {i : Nat} {el : El} {n : Str} {as : List Attr}
    (hl : Listed P s.data s.next el n as) :
    Post (fun s' => ∃ es a, s' = { s with entries := es, after := a } ∧ Sound P s')
      (insertEntry s i (.elem el n as)) := by
  unfold Tree.insertEntry
  refine Post.ite (Post.error _) (Post.ok ⟨_, _, rfl, hs.entries fun e m bs he => ?_⟩)
  rw [List.mem_append, List.mem_cons] at he
  rcases he with he | he | he
  · exact hs.1.1.refs.listed e m bs (List.mem_of_mem_take he)
  · cases he; exact hl
  · exact hs.1.1.refs.listed e m bs (List.mem_of_mem_drop he)

theorem Sound.adoptBlock (hP : P.Closed) {s : St} (hs : Sound P s) {fe fb common : El}
    (hb : fb ∈ s.stack.dropLast) (hc : common ∈ s.stack) :
    Post (Sound P) (adoptBlock s fe fb common) := by
  have hr := hs.1.1.refs
  have hbm : fb ∈ s.stack := (List.dropLast_sublist _).mem hb
  have hvb := hr.opened fb hbm
  unfold Tree.adoptBlock
  refine Post.any fun bm => Post.any fun first => ?_
  refine Post.bind _ (hs.inner hP fe fb _ _ first s fb bm hvb (hr.low fb hb)) fun r h1 => ?_
  obtain ⟨s1, last, bm1⟩ := r
  obtain ⟨h1, hv, hp, hg⟩ := h1
  dsimp only at h1 hv hp hg ⊢
  refine Post.bind _ (h1.place (t := some common)
    (by intro e he; cases he; exact hg.valid _ (hr.opened _ hc))) fun loc hl => ?_
  have hlo := h1.loose hv hp
  have h2 := h1.insert (p := loc) hlo hl
  have hg2 := hg.trans (Grow.insert h1 (p := loc) hlo hl.pos)
  revert h2 hg2
  generalize loc.insert s1 last.id = s2
  intro h2 hg2
  refine Post.bind _ (h2.entryToken fe) fun p hle => ?_
  obtain ⟨n, as⟩ := p
  dsimp only at hle ⊢
  obtain ⟨c1, c2, c3, c4, c5⟩ := h2.createFor hP (ns := .html) hle.tag
  have hg3 : Grow s2 (Tree.createFor s2 .html n as).1 := Grow.alloc h2 _
  have hfresh : ∀ e ∈ (Tree.createFor s2 .html n as).1.stack, e ≠ (Tree.createFor s2 .html n as).2 := by
    intro e he e'
    have := (h2.1.1.refs.opened e he).1
    rw [e', c3] at this
    exact Nat.lt_irrefl _ this
  rw [← c3] at c5
  revert c1 c2 c4 c5 hg3 hfresh
  clear c3
  generalize Tree.createFor s2 .html n as = cr
  obtain ⟨s3, el⟩ := cr
  dsimp only
  intro c1 c2 c4 c5 hg3 hfresh
  have hvb3 := hg3.valid _ (hg2.valid _ hvb)
  have hsb := c1.spot hvb3
  have hse := c1.spot c4
  have hkids : ∀ c ∈ s3.kids fb.id, Loose s3 c := by
    intro c hc
    have hu := c1.1.1.heap.up c _ hc
    refine ⟨(c1.1.1.heap.bound _ _ hu).1, ?_, ?_, ?_⟩
    · intro e; subst e; rw [c1.1.1.heap.root] at hu; cases hu
    · intro hd; exact hsb.pos (c1.1.1.heap.dtype _ _ hu hd)
    · rw [hu]; intro e; injection e with e; exact hsb.pos e
  obtain ⟨h4, hg4, hst4⟩ := Sound.moveAll (P := P) hse.pos (s3.kids fb.id) c1 hse hkids
  have hloose := c5.grow hg4
  have hvb4 := hg4.valid _ hvb3
  have hv4 := hg4.valid _ c4
  change Post _ (do
    let s ← Tree.insertEntry (Tree.removeEntry (Tree.append (moveKids s3 fb.id el.id) fb.id el.id) fe)
      (bm1 - 1) (.elem el n as)
    let s := Tree.removeOpen s fe
    let st ← insertBelow fb el s.stack
    .ok { s with stack := st })
  unfold moveKids
  revert h4 hg4 hst4 hloose hvb4 hv4
  generalize (s3.kids fb.id).foldl (fun s c => Tree.append s el.id c) s3 = s4
  intro h4 hg4 hst4 hloose hvb4 hv4
  have hsp4 := h4.spot hvb4
  have h5 := h4.append hloose hsp4
  have hg5 := Grow.append h4 hloose hsp4.pos
  have hv5 := hg5.valid _ hv4
  have hp5 := (hloose.grow hg5).free
  have hst5 := (append_same s4 fb.id el.id).1.trans hst4
  revert h5 hg5 hv5 hp5 hst5
  generalize Tree.append s4 fb.id el.id = s5
  intro h5 hg5 hv5 hp5 hst5
  have h6 := h5.removeEntry fe
  obtain ⟨d1, d2, d3, d4⟩ := removeEntry_same s5 fe
  rw [← d1, ← d2] at hv5
  rw [← d3] at hp5
  rw [← d4] at hst5
  revert h6 hv5 hp5 hst5
  clear d1 d2 d3 d4 hg5 h5
  generalize Tree.removeEntry s5 fe = s6
  intro hv5 hp5 hst5 h6
  refine Post.bind _ (h6.insertEntry ⟨hv5, hle.tag, c2, hle.other⟩) fun s7 h7 => ?_
  obtain ⟨es, a, rfl, h7⟩ := h7
  have h8 := h7.removeOpen fe
  have hr8 := h8.1.1.refs
  refine Post.bind _ (insertBelow_spec _) fun st hst => Post.ok ?_
  obtain ⟨i1, i2, i3, i4⟩ := hst
  refine ⟨⟨⟨h8.1.1.heap, ⟨?_, ?_, ?_, hr8.listed, hr8.head, hr8.form⟩, h8.1.1.src, h8.1.1.pending⟩, h8.1.2⟩, h8.2⟩
  · intro e he
    rcases i1 e he with rfl | he
    · exact hv5
    · exact hr8.opened e he
  · intro e he
    rcases i2 e he with rfl | he
    · exact hp5
    · exact hr8.low e he
  · refine i4 _ hr8.once ?_
    intro hm
    have hm : el ∈ s6.stack.filter (· ≠ fe) := hm
    rw [hst5] at hm
    exact hfresh el (List.mem_filter.mp hm).1 rfl

theorem takeWhile_dropLast {α : Type} {p : α → Bool} {x y : α} {r : List α} : ∀ {l : List α},
    l.dropWhile p = y :: r → x ∈ l.takeWhile p → x ∈ l.dropLast := by
  intro l hd hx
  have e : l = l.takeWhile p ++ y :: r := by rw [← hd, List.takeWhile_append_dropWhile]
  rw [e, List.dropLast_append_of_ne_nil (by simp)]
  exact List.mem_append_left _ hx

theorem Sound.adoptLoop (hP : P.Closed) (n : Str) : ∀ (rounds : Nat) {s : St}, Sound P s →
    Post (Sound P) (adoptLoop n rounds s)
  | 0, _, hs => Post.ok hs
  | rounds + 1, s, hs => by
    rw [Tree.adoptLoop]
    refine Post.any fun o => ?_
    cases o with
    | none => exact Post.ok hs
    | some fe =>
      refine Post.ite (Post.ok (hs.removeEntry fe)) (Post.any fun b => Post.ite (Post.ok hs) ?_)
      split
      case h_1 => exact Post.ok ((hs.popUntil fe).removeEntry fe)
      case h_2 fb hfb =>
        split
        case h_1 x common r hd =>
          have hb := List.mem_reverse.mp (List.mem_of_find?_eq_some hfb)
          refine Post.bind _ (hs.adoptBlock hP (takeWhile_dropLast hd hb)
            (mem_dropWhile (p := fun x => decide (x ≠ fe)) (by rw [hd]; simp))) fun s' hs' => ?_
          exact Sound.adoptLoop hP n rounds hs'
        case h_2 => exact Post.error _

theorem Sound.adopts (hP : P.Closed) {s : St} (hs : Sound P s) (n : Str) : Post (Sound P) (Tree.adopt s n) := by
  unfold Tree.adopt
  exact Post.any fun cur => Post.ite (Post.ok (hs.removeOpen cur)) (hs.adoptLoop hP n 8)

/-! ### Attributes of a second tag -/

theorem Sound.mergeAttrs (hP : P.Closed) {n : Str} {bs : List Attr} (ht : P.tag n bs)
    (hn : n = nm! "html" ∨ n = nm! "body") {m : Nat} :
    ∀ (as : List Attr) {s : St}, Sound P s → (∀ a ∈ as, a ∈ bs) → Sound P (mergeAttrs s m as)
  | [], _, hs, _ => hs
  | a :: as, s, hs, ha => by
    unfold Tree.mergeAttrs
    rw [List.foldl_cons]
    refine Sound.mergeAttrs hP ht hn as ?_ fun x hx => ha x (by simp [hx])
    split
    · exact hs
    · cases hd : s.data m with
      | element q cs =>
        refine hs.change ?_ ?_
        · rw [hd]; exact .element _ _ _
        · intro hm
          have := hs.1.1.src m hm
          rw [hd] at this
          exact hP.merged n bs a q cs ht hn (ha a (by simp)) this
      | _ =>
        have e : { s with data := update s.data m (s.data m) } = s := by
          have : update s.data m (s.data m) = s.data := by
            funext k
            unfold update
            split
            case isTrue e => rw [e]
            case isFalse => rfl
          rw [this]
        rw [hd] at e
        first
        | exact e.symm ▸ hs

end Verif.Tree
