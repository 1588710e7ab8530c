import Verif.Tree.Good
/-
Start tags, end tags, text and comments outside of the parts of tables.
-/
namespace Verif.Tree
open Verif.Html (Str Attr Content)
open Spec

/-! ### The kinds of names -/

theorem findKind_mem {α : Type} {other k : α} {n : Str} : ∀ {tbl : List (α × List Str)},
    findKind other n tbl = k → k ≠ other → ∃ names, (k, names) ∈ tbl ∧ n ∈ names := by
  intro tbl
  induction tbl with
  | nil => intro hk hne; exact absurd hk.symm hne
  | cons p tbl ih =>
    obtain ⟨k', names⟩ := p
    intro hk hne
    rw [findKind] at hk
    split at hk
    · rename_i hn
      subst hk
      exact ⟨names, by simp, by simpa using hn⟩
    · obtain ⟨ns, h1, h2⟩ := ih hk hne
      exact ⟨ns, by simp [h1], h2⟩

theorem findKind_other {α : Type} {other : α} {n : Str} : ∀ {tbl : List (α × List Str)},
    (∀ p ∈ tbl, n ∉ p.2) → findKind other n tbl = other := by
  intro tbl
  induction tbl with
  | nil => intro _; rfl
  | cons p tbl ih =>
    obtain ⟨k', names⟩ := p
    intro hk
    rw [findKind, if_neg (by simpa using hk (k', names) (by simp)), ih (fun p hp => hk p (by simp [hp]))]

/-- The names of a kind of start tag. -/
def startsOf (k : BodyStart) : List Str := (bodyStartNames.filter (·.1 == k)).flatMap (·.2)

theorem mem_startsOf {n : Str} {k : BodyStart} (hk : bodyStart n = k) (hne : k ≠ .other) :
    n ∈ startsOf k := by
  obtain ⟨names, h1, h2⟩ := findKind_mem hk hne
  exact List.mem_flatMap.mpr ⟨_, List.mem_filter.mpr ⟨h1, by simp⟩, h2⟩

def allStarts : List Str := bodyStartNames.flatMap (·.2)

theorem findKind_ne {α : Type} {other : α} {n : Str} : ∀ {tbl : List (α × List Str)},
    (∀ p ∈ tbl, p.1 ≠ other) → findKind other n tbl = other → ∀ p ∈ tbl, n ∉ p.2 := by
  intro tbl
  induction tbl with
  | nil => intro _ _ p hp; cases hp
  | cons q tbl ih =>
    obtain ⟨k', names⟩ := q
    intro ho hk p hp hn
    rw [findKind] at hk
    split at hk
    · exact ho (k', names) (by simp) hk
    · rename_i h1
      cases hp with
      | head => exact h1 (by simpa using hn)
      | tail _ hp => exact ih (fun p hp => ho p (by simp [hp])) hk p hp hn

theorem not_allStarts {n : Str} (hk : bodyStart n = .other) : n ∉ allStarts := by
  intro hn
  obtain ⟨p, hp, hm⟩ := List.mem_flatMap.mp hn
  have : ∀ p ∈ bodyStartNames, p.1 ≠ BodyStart.other := by decide
  exact findKind_ne this hk p hp hm

/-- The names that leave something behind besides their element. -/
def marked : List Str := marking ++ formats ++ [nm! "form"] ++ resets

/-- The parts of tables. -/
def parts : List Str :=
  [nm! "caption", nm! "colgroup", nm! "tbody", nm! "thead", nm! "tfoot", nm! "tr", nm! "td",
   nm! "th"]

/-! ### Elements -/

def newFrame (s : St) (n : Str) (as : List Attr) : Frame := ⟨⟨s.next, h n⟩, as, []⟩

theorem entry_none {f : Frame} (h1 : f.name ∉ marking) (h2 : f.name ∉ formats) : f.entry = none := by
  unfold Frame.entry QName.isIn
  unfold Frame.name at h1 h2
  simp [h1, h2]

theorem good_simple {s : St} {f : Frame} {fs : List Frame} {D : List Tree} (g : Good s (f :: fs) D)
    {n : Str} {as : List Attr} (hl : Link f.name n) (hn : n ∉ marked) (b : Bool) :
    Good { opened s f.el.id .html n as with framesetOk := b } (newFrame s n as :: f :: fs) D := by
  simp only [marked, List.mem_append, List.mem_singleton, not_or] at hn
  obtain ⟨⟨⟨h1, h2⟩, h3⟩, h4⟩ := hn
  have he : (newFrame s n as).entry = none := entry_none h1 h2
  refine g.enter ((g.toStk.opened .html n as).congr rfl rfl rfl rfl rfl) hl rfl ?_ g.after ?_ rfl g.skip
    (Or.inl ⟨h4, rfl⟩)
  · rw [he]
    simp [opened, added]
  · rw [if_neg (show (newFrame s n as).name ≠ nm! "form" from h3)]
    rfl

/-- Elements that come with an insertion mode. -/
theorem good_part {s : St} {f : Frame} {fs : List Frame} {D : List Tree} (g : Good s (f :: fs) D)
    {n : Str} {as : List Attr} {m : Mode} (hl : Link f.name n) (hn : modeFor n = some m)
    (h1 : n ∉ marking ++ formats) (h2 : n ≠ nm! "form") (b : Bool) :
    Good { opened s f.el.id .html n as with framesetOk := b, mode := m }
      (newFrame s n as :: f :: fs) D := by
  simp only [List.mem_append, not_or] at h1
  have he : (newFrame s n as).entry = none := entry_none h1.1 h1.2
  refine g.enter ((g.toStk.opened .html n as).congr rfl rfl rfl rfl rfl) hl rfl ?_ g.after ?_ rfl g.skip
    (Or.inr hn)
  · rw [he]
    simp [opened, added]
  · rw [if_neg (show (newFrame s n as).name ≠ nm! "form" from h2)]
    rfl

theorem endP_eq {s : St} {fs : List Frame} {D : List Tree} (g : Good s fs D)
    (hp : nm! "p" ∉ around fs) : endP s = .ok s := by
  rw [endP, inButtonScope, inScopeOf_false g.toStk hp g.root (by decide)]
  rfl

theorem inScope_false {s : St} {fs : List Frame} {D : List Tree} (g : Good s fs D) {n : Str}
    (hp : n ∉ around fs) : inScope s n = .ok false := by
  rw [inScope, inScopeOf_false g.toStk hp g.root (by decide)]

theorem scopeLoop_ok {n : Str} {ends : QName → Bool} : ∀ {st : List El},
    (∃ e ∈ st, ends e.q = true) → ∃ b, scopeLoop n ends st = .ok b := by
  intro st
  induction st with
  | nil => rintro ⟨e, he, _⟩; cases he
  | cons x st ih =>
    rintro ⟨e, he, hen⟩
    rw [scopeLoop]
    split
    · exact ⟨_, rfl⟩
    · split
      · exact ⟨_, rfl⟩
      · rename_i hx
        cases he with
        | head => exact absurd hen hx
        | tail _ he => exact ih ⟨e, he, hen⟩

theorem inScope_ok {s : St} {fs : List Frame} {D : List Tree} (g : Good s fs D) (n : Str) :
    ∃ b, inScope s n = .ok b := by
  obtain ⟨f, hf, hq⟩ := g.root
  rw [inScope, inScopeOf, if_neg]
  · refine scopeLoop_ok ⟨f.el, ?_, by rw [hq]; decide⟩
    rw [g.stack]
    exact List.mem_map.mpr ⟨f, hf, rfl⟩
  · rw [g.stack]
    intro e
    rw [List.map_eq_nil_iff.mp e] at hf
    cases hf

/-- No element of this name before the next table cell. -/
theorem inScope_cell {s : St} {fs : List Frame} {D : List Tree} (g : Good s fs D) {n : Str}
    (hp : n ∉ (around fs).takeWhile (!isCell ·)) (hn : isCell n = false) :
    inScope s n = .ok false := by
  have key : ∀ fs : List Frame, (∀ f ∈ fs, f.el.q.ns = .html) → nm! "html" ∈ around fs →
      n ∉ (around fs).takeWhile (!isCell ·) →
      scopeLoop n (·.isIn scopeEnd) (fs.map Frame.el) = .ok false := by
    intro fs
    induction fs with
    | nil => intro _ h; cases h
    | cons f fs ih =>
      intro hh hr hp
      have hq : f.el.q = h f.name := q_eq (hh f (by simp))
      rw [List.map_cons, scopeLoop]
      unfold around at hp
      rw [List.map_cons, List.takeWhile_cons] at hp
      have hne : f.el.q ≠ h n := by
        intro e
        have hfn : f.name = n := by unfold Frame.name; rw [e]; rfl
        rw [hfn, hn] at hp
        exact hp (by simp)
      rw [if_neg hne]
      split
      · rfl
      · rename_i hse
        rw [hq, isIn_h] at hse
        have hc : isCell f.name = false := by
          cases hc : isCell f.name with
          | false => rfl
          | true =>
            exfalso
            apply hse
            have : ∀ n ∈ [nm! "td", nm! "th", nm! "caption"], scopeEnd.contains n = true := by decide
            exact this f.name (by simpa [isCell] using hc)
        rw [hc] at hp
        simp only [Bool.not_false, if_true, List.mem_cons, not_or] at hp
        refine ih (fun g hg => hh g (by simp [hg])) ?_ hp.2
        rcases List.mem_cons.mp hr with e | hr
        · exfalso
          apply hse
          rw [← e]
          decide
        · exact hr
  obtain ⟨f, hf, _⟩ := g.root
  rw [inScope, inScopeOf, if_neg, g.stack, key fs g.html g.path.html hp]
  rw [g.stack]
  intro e
  rw [List.map_eq_nil_iff.mp e] at hf
  cases hf

/-! ### Formatting elements -/

theorem similar_none {s : St} {el : El} : ∀ {es : List Entry},
    (∀ e ∈ es, ∃ e' n as, e = .elem e' n as ∧ e'.q ≠ el.q) → similar s el es = .ok [] := by
  intro es
  induction es with
  | nil => intro _; rfl
  | cons e es ih =>
    intro hh
    obtain ⟨e', n, as, rfl, hq⟩ := hh e (by simp)
    rw [similar, ih (fun e he => hh e (by simp [he]))]
    simp [bind, Except.bind, hq]

theorem findNamed_none {p : QName → Bool} : ∀ {es : List Entry},
    (∀ e ∈ es, ∃ e' n as, e = .elem e' n as ∧ p e'.q = false) → findNamed p es = .ok none := by
  intro es
  induction es with
  | nil => intro _; rfl
  | cons e es ih =>
    intro hh
    obtain ⟨e', n, as, rfl, hq⟩ := hh e (by simp)
    rw [findNamed, hq, ih (fun e he => hh e (by simp [he]))]
    rfl

theorem findNamed_last {p : QName → Bool} {el : El} {n : Str} {as : List Attr} (hp : p el.q = true) :
    ∀ {es : List Entry}, (∀ e ∈ es, ∃ e' n as, e = .elem e' n as ∧ p e'.q = false) →
    findNamed p (es ++ [.elem el n as]) = .ok (some el) := by
  intro es
  induction es with
  | nil => intro _; simp [findNamed, hp]
  | cons e es ih =>
    intro hh
    obtain ⟨e', n, as, rfl, hq⟩ := hh e (by simp)
    rw [List.cons_append, findNamed, hq, ih (fun e he => hh e (by simp [he]))]
    rfl

/-- The entries after the last marker have other names. -/
theorem Good.others {s : St} {fs : List Frame} {D : List Tree} (g : Good s fs D) {n : Str}
    (hp : n ∉ (around fs).takeWhile (!isCell ·)) :
    ∀ e ∈ s.entries.drop s.after, ∃ e' m as, e = .elem e' m as ∧ e'.q.name ≠ n := by
  intro e he
  rw [g.after, g.entries] at he
  obtain ⟨f, hf, rfl, hm⟩ := mem_after he g.html
  refine ⟨_, _, _, rfl, ?_⟩
  intro e
  exact hp (e ▸ hm)

theorem formats_entry {F : Frame} (hn : F.name ∈ formats) (hq : F.el.q.ns = .html) :
    F.entry = some (.elem F.el F.name F.attrs) := by
  have : ∀ n ∈ formats, n ∉ marking := by decide
  unfold Frame.entry QName.isIn
  have h2 := this _ hn
  unfold Frame.name at hn h2
  simp [hq, h2, hn, Frame.name]

/-- A formatting element, and its entry. -/
theorem push_format {s : St} {f : Frame} {fs : List Frame} {D : List Tree} (g : Good s (f :: fs) D)
    {n : Str} {as : List Attr} (hd : distinct as = true) (ha : Allowed (around (f :: fs)) n)
    (hb : n ∉ barred) (hn : n ∈ formats) :
    ∃ s', (do let (s, el) ← insertForeign s .html n as; pushEntry s el n as) = .ok s' ∧
      s'.lexer = s.lexer ∧ Good s' (newFrame s n as :: f :: fs) D := by
  have hm : ∀ n ∈ formats, n ≠ nm! "form" ∧ n ∉ resets := by decide
  have ho := g.others (ha.format hn)
  refine ⟨{ opened s f.el.id .html n as with
      entries := s.entries ++ [.elem ⟨s.next, h n⟩ n as] }, ?_, rfl, ?_⟩
  · rw [insert_eq g.toStk .html n hd]
    show pushEntry (opened s f.el.id .html n as) ⟨s.next, h n⟩ n as = _
    rw [pushEntry, show (opened s f.el.id .html n as).entries.drop (opened s f.el.id .html n as).after
      = s.entries.drop s.after from rfl, similar_none]
    · rfl
    · intro e he
      obtain ⟨e', m, as', rfl, hne⟩ := ho e he
      exact ⟨e', m, as', rfl, fun e => hne (by rw [e]; rfl)⟩
  · refine g.enter ((g.toStk.opened .html n as).congr rfl rfl rfl rfl rfl) (ha.link hb) rfl ?_ ?_ ?_
      rfl g.skip (Or.inl ⟨(hm n hn).2, rfl⟩)
    · rw [formats_entry (F := newFrame s n as) hn rfl]
      rfl
    · show s.after = afterMarker (s.entries ++ [_])
      rw [afterMarker_elem]
      exact g.after
    · rw [if_neg (show (newFrame s n as).name ≠ nm! "form" from (hm n hn).1)]
      rfl

theorem marking_entry {F : Frame} (hn : F.name ∈ marking) (hq : F.el.q.ns = .html) :
    F.entry = some .marker := by
  unfold Frame.entry QName.isIn
  unfold Frame.name at hn
  simp [hq, hn]

/-- The special elements that items are put in. -/
theorem startItem_top {s : St} {names : List Str} {ins : St → M St} {e : El} {st r : List El}
    {n : Str} (hst : st = e :: r) (he : e.q = h n) (h1 : n ∉ names) (h2 : specialHtml.contains n = true)
    (h3 : [nm! "address", nm! "div", nm! "p"].contains n = false) :
    startItem s names ins st = ins s := by
  rw [hst, startItem, he, isIn_h, if_neg (by simpa using h1), isIn_h, h3]
  have : special (h n) = true := h2
  rw [this]
  rfl

theorem ok_bind {α β : Type} (a : α) (k : α → M β) : ((Except.ok a : M α) >>= k) = k a := rfl

structure Entered (s s' : St) (n : Str) (as : List Attr) (fs : List Frame) (D : List Tree) :
    Prop where
  lexer : s'.lexer = s.lexer
  good : Good { s' with skipLf := false } (newFrame s n as :: fs) D
  feed : s'.skipLf = true → n ∈ [nm! "pre", nm! "listing"]

theorem entered {s s' : St} {n : Str} {as : List Attr} {fs : List Frame} {D : List Tree}
    (hl : s'.lexer = s.lexer) (g : Good s' (newFrame s n as :: fs) D) : Entered s s' n as fs D := by
  have hs : { s' with skipLf := false } = s' := by
    have hk := g.skip
    cases s'; simp only at hk; subst hk; rfl
  exact ⟨hl, by rw [hs]; exact g, fun h => by rw [g.skip] at h; cases h⟩

/-- A name that can be written as an element with parts. -/
structure Elem (n : Str) : Prop where
  empty : n ∉ emptyOnes
  raw : n ∉ textOnes
  bar : n ∉ barred

theorem opens_flow {s : St} {f : Frame} {fs : List Frame} {D : List Tree} (g : Good s (f :: fs) D)
    (hf : f.name ∉ holders) {n : Str} {as : List Attr} (hd : distinct as = true)
    (ha : Allowed (around (f :: fs)) n) (hn : Elem n) (hp : n ∉ parts) (d : Nat) :
    ∃ s', run (d + 3) none s (.opens n as false) = .ok s' ∧ Entered s s' n as (f :: fs) D := by
  have hft : flowTok (.opens n as false) = true := by
    have : ∀ n ∈ tableParts, n ∈ parts ∨ n ∈ barred := by decide
    simp only [flowTok, isOne, Bool.not_eq_true']
    cases hc : tableParts.contains n with
    | false => rfl
    | true =>
      rcases this n (by simpa using hc) with h | h
      · exact absurd h hp
      · exact absurd h hn.bar
  obtain ⟨d', -, hrun⟩ := g.inBody hf d hft
  rw [hrun]
  show ∃ s', bodyOpens (recAt d') s n as false = .ok s' ∧ _
  have hl := ha.link hn.bar
  have hrec := reconstruct_eq g.toCore
  have hins := insertHtml_eq g.toStk n hd
  have hcur : current s = .ok f.el := by rw [current, g.stack]; rfl
  have simple : n ∉ marked → ∀ b, Entered s { opened s f.el.id .html n as with framesetOk := b } n as
      (f :: fs) D := fun hm b => entered rfl (good_simple g hl hm b)
  have simple' : n ∉ marked → Entered s (opened s f.el.id .html n as) n as (f :: fs) D :=
    fun hm => simple hm s.framesetOk
  unfold bodyOpens
  cases hk : bodyStart n with
  | block =>
    have hm := mem_startsOf hk (by decide)
    have h1 : ∀ n ∈ startsOf .block, n ∈ blocks ∧ n ∉ marked := by decide
    refine ⟨_, ?_, simple' (h1 n hm).2⟩
    show (do let s ← endP s; insertHtml s n as) = _
    rw [endP_eq g (ha.block (h1 n hm).1)]
    exact hins
  | heading =>
    have hm := mem_startsOf hk (by decide)
    have h1 : ∀ n ∈ startsOf .heading, n ∈ blocks ∧ n ∉ marked ∧ n ∈ titles := by decide
    refine ⟨_, ?_, simple' (h1 n hm).2.1⟩
    have ht := ha.title (h1 n hm).2.2
    have hc : f.el.q.isIn headings = false := by
      rw [g.q, isIn_h]; simpa [around, headings, titles] using ht
    simp only [endP_eq g (ha.block (h1 n hm).1), ok_bind, hcur, hc, Bool.false_eq_true, if_false, hins]
  | pre =>
    have hm := mem_startsOf hk (by decide)
    have h1 : ∀ n ∈ startsOf .pre, n ∈ blocks ∧ n ∉ marked ∧ n ∈ [nm! "pre", nm! "listing"] := by decide
    refine ⟨{ opened s f.el.id .html n as with skipLf := true, framesetOk := false }, ?_, rfl, ?_,
      fun _ => (h1 n hm).2.2⟩
    · show (do let s ← endP s; _) = _
      rw [endP_eq g (ha.block (h1 n hm).1)]
      show (do let s ← insertHtml s n as; _) = _
      rw [hins]
      rfl
    · have := (simple (h1 n hm).2.1 false).good
      exact this
  | form =>
    have hm := mem_startsOf hk (by decide)
    have hn' : n = nm! "form" := by simpa [startsOf, bodyStartNames] using hm
    have h1 : nm! "form" ∉ marking ∧ nm! "form" ∉ formats ∧ nm! "form" ∉ resets := by decide
    subst hn'
    have hnf := ha.lone (by decide)
    have hsf : s.form = none := by
      rw [g.form, List.find?_eq_none.mpr]
      · rfl
      · intro x hx e
        apply hnf
        exact List.mem_map.mpr ⟨x, hx, by unfold Frame.name; rw [beq_iff_eq.mp e]; rfl⟩
    have hno : ∀ {n}, n ≠ nm! "template_" →
        hasOpen (opened s f.el.id .html n as) (nm! "template_") = false := by
      intro n hn
      have := g.noTemplate
      rw [hasOpen] at this ⊢
      show List.any (_ :: s.stack) _ = false
      rw [List.any_cons, this]
      simp [h, hn]
    refine ⟨{ opened s f.el.id .html (nm! "form") as with form := some ⟨s.next, h (nm! "form")⟩ }, ?_,
      entered rfl ?_⟩
    · show (if s.form.isSome && _ then _ else _) = _
      rw [hsf, if_neg (by simp)]
      show (do let s ← endP s; _) = _
      rw [endP_eq g (ha.block (by decide))]
      show (do let (s, el) ← insertForeign s .html _ as; _) = _
      rw [insert_eq g.toStk .html _ hd]
      show Except.ok (if hasOpen (opened s f.el.id .html (nm! "form") as) (nm! "template_") then _ else _) = _
      rw [hno (by decide)]
      rfl
    · refine g.enter ((g.toStk.opened .html _ as).congr rfl rfl rfl rfl rfl) hl rfl ?_ g.after ?_ rfl
        g.skip (Or.inl ⟨h1.2.2, rfl⟩)
      · rw [entry_none (f := newFrame s (nm! "form") as) h1.1 h1.2.1]
        simp [opened, added]
      · rw [if_pos (show (newFrame s (nm! "form") as).name = nm! "form" from rfl)]
        rfl
  | li =>
    have hm := mem_startsOf hk (by decide)
    have hn' : n = nm! "li" := by simpa [startsOf, bodyStartNames] using hm
    subst hn'
    have hpar := ha.parent _ (show parents.lookup (nm! "li") = some [nm! "ul", nm! "ol", nm! "menu"] by decide)
    refine ⟨_, ?_, simple (by decide) false⟩
    show startItem _ _ _ s.stack = _
    have h1 : ∀ n ∈ [nm! "ul", nm! "ol", nm! "menu"], n ∉ [nm! "li"] ∧ specialHtml.contains n = true ∧
      [nm! "address", nm! "div", nm! "p"].contains n = false := by decide
    obtain ⟨h2, h3, h4⟩ := h1 f.name hpar
    rw [startItem_top g.stack g.q h2 h3 h4]
    have gb : Good { s with framesetOk := false } (f :: fs) D :=
      ⟨⟨g.toStk.congr rfl rfl rfl rfl rfl, g.entries, g.after, g.form⟩, g.path, g.html, g.head, g.skip,
        g.mode⟩
    rw [endP_eq gb (ha.block (by decide))]
    exact insertHtml_eq gb.toStk _ hd
  | dd =>
    have hm := mem_startsOf hk (by decide)
    have hpar : ∀ n ∈ startsOf .dd, parents.lookup n = some [nm! "dl"] ∧ n ∈ blocks ∧ n ∉ marked := by decide
    obtain ⟨hpar, hbl, hmk⟩ := hpar n hm
    have hpar := ha.parent _ hpar
    refine ⟨_, ?_, simple hmk false⟩
    show startItem _ _ _ s.stack = _
    have h1 : ∀ n ∈ [nm! "dl"], n ∉ [nm! "dd", nm! "dt"] ∧ specialHtml.contains n = true ∧
      [nm! "address", nm! "div", nm! "p"].contains n = false := by decide
    obtain ⟨h2, h3, h4⟩ := h1 f.name hpar
    rw [startItem_top g.stack g.q h2 h3 h4]
    have gb : Good { s with framesetOk := false } (f :: fs) D :=
      ⟨⟨g.toStk.congr rfl rfl rfl rfl rfl, g.entries, g.after, g.form⟩, g.path, g.html, g.head, g.skip,
        g.mode⟩
    rw [endP_eq gb (ha.block hbl)]
    exact insertHtml_eq gb.toStk _ hd
  | button =>
    have hm := mem_startsOf hk (by decide)
    have hn' : n = nm! "button" := by simpa [startsOf, bodyStartNames] using hm
    subst hn'
    refine ⟨_, ?_, simple (by decide) false⟩
    simp only [inScope_false g (ha.lone (by decide)), ok_bind, Bool.false_eq_true, if_false, hrec, hins]
  | a =>
    have hm := mem_startsOf hk (by decide)
    have hn' : n = nm! "a" := by simpa [startsOf, bodyStartNames] using hm
    subst hn'
    obtain ⟨s', h1, h2, h3⟩ := push_format g hd ha hn.bar (by decide)
    refine ⟨s', ?_, entered h2 h3⟩
    have hno : findNamed (· = h (nm! "a")) (s.entries.drop s.after) = .ok none := by
      apply findNamed_none
      intro e he
      obtain ⟨e', m, as', rfl, hne⟩ := g.others (ha.format (by decide)) e he
      exact ⟨e', m, as', rfl, decide_eq_false fun e => hne (by rw [e]; rfl)⟩
    simp only [hno, ok_bind, hrec]
    exact h1
  | formatting =>
    have hm := mem_startsOf hk (by decide)
    have hfm : ∀ n ∈ startsOf .formatting, n ∈ formats := by decide
    obtain ⟨s', h1, h2, h3⟩ := push_format g hd ha hn.bar (hfm n hm)
    refine ⟨s', ?_, entered h2 h3⟩
    show (do let s ← reconstruct s; _) = _
    rw [hrec]
    exact h1
  | nobr =>
    have hm := mem_startsOf hk (by decide)
    have hn' : n = nm! "nobr" := by simpa [startsOf, bodyStartNames] using hm
    subst hn'
    obtain ⟨s', h1, h2, h3⟩ := push_format g hd ha hn.bar (by decide)
    refine ⟨s', ?_, entered h2 h3⟩
    show (do let s ← reconstruct s; _) = _
    rw [hrec]
    simp only [ok_bind, inScope_cell g (ha.format (by decide)) (show isCell (nm! "nobr") = false by decide),
      Bool.false_eq_true, if_false]
    exact h1
  | embed =>
    have hm := mem_startsOf hk (by decide)
    have he : ∀ n ∈ startsOf .embed, n ∈ lone ∧ n ∈ marking ∧ n ≠ nm! "form" ∧ n ∉ resets := by decide
    obtain ⟨h1, h2, h3, h4⟩ := he n hm
    refine ⟨{ pushMarker (opened s f.el.id .html n as) with framesetOk := false }, ?_, entered rfl ?_⟩
    · simp only [inScope_false g (ha.lone h1), ok_bind, Bool.false_eq_true, if_false, hrec, hins]
    · refine g.enter ((g.toStk.opened .html n as).congr rfl rfl rfl rfl rfl) hl rfl ?_ ?_ ?_ rfl
        g.skip (Or.inl ⟨h4, rfl⟩)
      · rw [marking_entry (F := newFrame s n as) h2 rfl]
        rfl
      · show s.entries.length + 1 = afterMarker (s.entries ++ [.marker])
        rw [afterMarker_marker]
      · rw [if_neg (show (newFrame s n as).name ≠ nm! "form" from h3)]
        rfl
  | table =>
    have hm := mem_startsOf hk (by decide)
    have hn' : n = nm! "table" := by simpa [startsOf, bodyStartNames] using hm
    subst hn'
    refine ⟨{ opened s f.el.id .html (nm! "table") as with framesetOk := false, mode := .inTable }, ?_, entered rfl ?_⟩
    · show (do let s ← insertHtml s _ as; _) = _
      rw [hins]
      rfl
    · exact good_part g hl (by decide) (by decide) (by decide) false
  | select =>
    have hm := mem_startsOf hk (by decide)
    have hn' : n = nm! "select" := by simpa [startsOf, bodyStartNames] using hm
    subst hn'
    refine ⟨_, ?_, simple (by decide) false⟩
    simp only [inScope_false g (ha.lone (by decide)), ok_bind, Bool.false_eq_true, if_false, hrec, hins]
  | option =>
    have hm := mem_startsOf hk (by decide)
    have hn' : n = nm! "option" := by simpa [startsOf, bodyStartNames] using hm
    subst hn'
    have hpar := ha.parent _ (show parents.lookup (nm! "option") =
      some [nm! "select", nm! "optgroup", nm! "datalist"] by decide)
    have hpc : ∀ n ∈ [nm! "select", nm! "optgroup", nm! "datalist"],
      (impliedEnd.contains n && !([nm! "optgroup"].contains n)) = false ∧ n ≠ nm! "option" := by decide
    obtain ⟨hi, hno⟩ := hpc f.name hpar
    refine ⟨_, ?_, simple' (by decide)⟩
    obtain ⟨b, hb⟩ := inScope_ok g (nm! "select")
    obtain ⟨c, hc⟩ := inScope_ok g (nm! "option")
    have hq : f.el.q ≠ h (nm! "option") := by rw [g.q]; intro e; exact hno (congrArg QName.name e)
    have hie := impliedEnds_eq g.toStk (ex := [nm! "optgroup"]) (by rw [g.q, isIn_h, isIn_h]; exact hi)
    cases b <;> simp only [hb, ok_bind, Bool.false_eq_true, if_false, if_true, hcur, hq, hie, hc, hrec, hins]
  | optgroup =>
    have hm := mem_startsOf hk (by decide)
    have hn' : n = nm! "optgroup" := by simpa [startsOf, bodyStartNames] using hm
    subst hn'
    have hpar := ha.parent _ (show parents.lookup (nm! "optgroup") = some [nm! "select"] by decide)
    have hfn : f.name = nm! "select" := by simpa [around] using hpar
    refine ⟨_, ?_, simple' (by decide)⟩
    have hsel : inScope s (nm! "select") = .ok true := inScopeOf_true g.toStk (by rw [g.q, hfn])
    obtain ⟨b, hb⟩ := inScope_ok g (nm! "option")
    obtain ⟨c, hc⟩ := inScope_ok g (nm! "optgroup")
    have hq : f.el.q ≠ h (nm! "option") := by rw [g.q, hfn]; decide
    have hie := impliedEnds_eq g.toStk (ex := [nm! "optgroup"]) (by rw [g.q, isIn_h, isIn_h, hfn]; decide)
    cases b <;> cases c <;>
      simp only [hsel, hb, ok_bind, Bool.false_eq_true, if_false, if_true, hcur, hq, hie, hc, hrec, hins]
  | rb =>
    have hm := mem_startsOf hk (by decide)
    have hpar : ∀ n ∈ startsOf .rb, parents.lookup n = some [nm! "ruby"] ∧ n ∉ marked := by decide
    obtain ⟨hpar, hmk⟩ := hpar n hm
    have hfn : f.name = nm! "ruby" := by simpa [around] using ha.parent _ hpar
    refine ⟨_, ?_, simple' hmk⟩
    have hsel : inScope s (nm! "ruby") = .ok true := inScopeOf_true g.toStk (by rw [g.q, hfn])
    have hie := impliedEnds_eq g.toStk (ex := []) (by rw [g.q, isIn_h, isIn_h, hfn]; decide)
    simp only [hsel, ok_bind, if_true, hie, hins]
  | rp =>
    have hm := mem_startsOf hk (by decide)
    have hpar : ∀ n ∈ startsOf .rp, parents.lookup n = some [nm! "ruby"] ∧ n ∉ marked := by decide
    obtain ⟨hpar, hmk⟩ := hpar n hm
    have hfn : f.name = nm! "ruby" := by simpa [around] using ha.parent _ hpar
    refine ⟨_, ?_, simple' hmk⟩
    have hsel : inScope s (nm! "ruby") = .ok true := inScopeOf_true g.toStk (by rw [g.q, hfn])
    have hie := impliedEnds_eq g.toStk (ex := [nm! "rtc"]) (by rw [g.q, isIn_h, isIn_h, hfn]; decide)
    simp only [hsel, ok_bind, if_true, hie, hins]
  | other =>
    have hna := not_allStarts hk
    have hsub : ∀ n ∈ marked, n ∈ allStarts := by decide
    refine ⟨_, ?_, simple' (fun h => hna (hsub n h))⟩
    show (do let s ← reconstruct s; _) = _
    rw [hrec]
    exact hins
  | _ =>
    exfalso
    have key : ∀ k ∈ [BodyStart.html, .inHead, .body, .frameset, .plaintext, .void, .input, .param, .hr,
        .image, .textarea, .xmp, .iframe, .noembed, .math, .svg, .ignored], ∀ n ∈ startsOf k,
        n ∈ barred ∨ n ∈ textOnes ∨ n ∈ emptyOnes ∨ n ∈ parts := by decide
    have hm := mem_startsOf hk (by decide)
    rcases key _ (by decide) n hm with h | h | h | h
    · exact hn.bar h
    · exact hn.raw h
    · exact hn.empty h
    · exact hp h

/-! ### End tags -/

def endsOf (k : BodyEnd) : List Str := (bodyEndNames.filter (·.1 == k)).flatMap (·.2)

theorem mem_endsOf {n : Str} {k : BodyEnd} (hk : bodyEnd n = k) (hne : k ≠ .other) :
    n ∈ endsOf k := by
  obtain ⟨names, h1, h2⟩ := findKind_mem hk hne
  exact List.mem_flatMap.mpr ⟨_, List.mem_filter.mpr ⟨h1, by simp⟩, h2⟩

def allEnds : List Str := bodyEndNames.flatMap (·.2)

theorem not_allEnds {n : Str} (hk : bodyEnd n = .other) : n ∉ allEnds := by
  intro hn
  obtain ⟨p, hp, hm⟩ := List.mem_flatMap.mp hn
  have : ∀ p ∈ bodyEndNames, p.1 ≠ BodyEnd.other := by decide
  exact findKind_ne this hk p hp hm

theorem good_out {s : St} {f f' : Frame} {fs : List Frame} {D : List Tree}
    (g : Good s (f :: f' :: fs) D) (hn : f.name ∉ marked) :
    Good { s with stack := s.stack.tail } (f'.add f.tree :: fs) D := by
  have hb : nm! "body" ∈ marked := by decide
  have hne : f.name ≠ nm! "body" := fun e => hn (e ▸ hb)
  simp only [marked, List.mem_append, List.mem_singleton, not_or] at hn
  obtain ⟨⟨⟨h1, h2⟩, h3⟩, h4⟩ := hn
  refine g.leave hne g.toStk.closed ?_ g.after (Or.inl ⟨h3, rfl⟩) rfl g.skip (Or.inl ⟨h4, rfl⟩)
  show s.entries = _
  rw [g.entries, entriesOf_cons, entry_none h1 h2]
  simp

/-- The entry of an open element is the last one. -/
theorem removeEntry_last {s : St} {es : List Entry} {el : El} {n : Str} {as : List Attr}
    (he : s.entries = es ++ [.elem el n as]) (ha : s.after = afterMarker s.entries)
    (hne : ∀ e ∈ es, e.is el = false) :
    removeEntry s el = { s with entries := es } := by
  have hi : entryIndex s el = some es.length := by
    rw [entryIndex, he, List.findIdx?_append]
    rw [List.findIdx?_eq_none_iff.mpr hne]
    simp [Entry.is, List.findIdx?_cons]
  have hle : ¬ es.length < s.after := by
    rw [ha, he, afterMarker_elem]
    have := afterMarker_le es
    omega
  unfold removeEntry
  rw [hi]
  simp only [hle, if_false]
  rw [he, List.eraseIdx_append_of_length_le (Nat.le_refl _)]
  simp

theorem anyInScope_top {s : St} {f : Frame} {fs : List Frame} {D : List Tree} (g : Good s (f :: fs) D) :
    ∀ {l : List Str}, f.name ∈ l → anyInScope s l = .ok true := by
  intro l
  induction l with
  | nil => intro hm; cases hm
  | cons n l ih =>
    intro hm
    rw [anyInScope]
    rcases List.mem_cons.mp hm with rfl | hm
    · rw [inScope, inScopeOf_true g.toStk g.q]
      rfl
    · obtain ⟨b, hb⟩ := inScope_ok g n
      rw [hb]
      cases b
      · exact ih hm
      · rfl

theorem fresh_filter {s : St} {f : Frame} {fs : List Frame} {D : List Tree} (hs : Stk s (f :: fs) D) :
    s.stack.filter (· ≠ f.el) = s.stack.tail := by
  rw [hs.stack, List.map_cons, List.filter_cons, List.tail_cons]
  simp only [ne_eq, not_true_eq_false, decide_false, Bool.false_eq_true, if_false]
  rw [List.filter_eq_self]
  intro e he
  have := hs.fresh
  simp only [decide_eq_true_eq]
  rintro rfl
  exact this he

theorem clearMarker_last {s : St} {es : List Entry} (he : s.entries = es ++ [.marker]) :
    clearMarker s = .ok { s with entries := es, after := afterMarker es } := by
  rw [clearMarker, if_neg (by rw [he]; simp), he]
  simp [dropMarker]

theorem closes_flow {s : St} {f f' : Frame} {fs : List Frame} {D : List Tree}
    (g : Good s (f :: f' :: fs) D) (hn : Elem f.name) (hp : f.name ∉ parts)
    (ht : f.name ≠ nm! "table") (ha : Allowed (around (f' :: fs)) f.name) (d : Nat) :
    ∃ s', run (d + 3) none s (.closes f.name [] false) = .ok s' ∧ s'.lexer = s.lexer ∧
      Good s' (f'.add f.tree :: fs) D := by
  have hnb : f.name ≠ nm! "body" := fun e => hn.bar (by rw [e]; decide)
  have hnr : f.name ∉ resets := by
    have : ∀ n ∈ resets, n ∈ parts ∨ n ∈ barred ∨ n = nm! "table" := by decide
    intro h
    rcases this _ h with h | h | h
    · exact hp h
    · exact hn.bar h
    · exact ht h
  have hfh : f.name ∉ holders := by
    have : ∀ n ∈ holders, n ∈ resets := by decide
    exact fun h => hnr (this _ h)
  have hft : flowTok (.closes f.name [] false) = true := by
    have : ∀ n ∈ [nm! "td", nm! "th", nm! "body", nm! "caption", nm! "col", nm! "colgroup",
        nm! "html", nm! "table", nm! "tbody", nm! "tfoot", nm! "thead", nm! "tr"],
        n ∈ resets ∨ n ∈ barred := by decide
    simp only [flowTok, isOne, Bool.not_eq_true']
    rw [Bool.eq_false_iff]
    intro hc
    rcases this f.name (List.contains_iff_mem.mp hc) with h | h
    · exact hnr h
    · exact hn.bar h
  obtain ⟨d', -, hrun⟩ := g.inBody hfh d hft
  rw [hrun]
  show ∃ s', bodyCloses (recAt d') s f.name [] false = .ok s' ∧ _
  have hsc : ∀ ends, inScopeOf s ends f.name = .ok true := fun ends => inScopeOf_true g.toStk g.q
  have hpop : ∀ names, f.name ∈ names → popUntilOneOf s names = { s with stack := s.stack.tail } :=
    fun names hm => popUntilOneOf_eq g.toStk (by rw [g.q, isIn_h]; simpa using hm)
  have himp : ∀ ex, f.name ∉ impliedEnd ∨ f.name ∈ ex → impliedEnds s ex = .ok s := by
    intro ex hx
    refine impliedEnds_eq g.toStk ?_
    rw [g.q, isIn_h, isIn_h]
    rcases hx with h | h <;> simp [h]
  have simple : f.name ∉ marked → ∀ m : M St, m = .ok { s with stack := s.stack.tail } →
      ∃ s', m = .ok s' ∧ s'.lexer = s.lexer ∧ Good s' (f'.add f.tree :: fs) D := by
    rintro hm m rfl
    exact ⟨_, rfl, rfl, good_out g hm⟩
  unfold bodyCloses
  cases hk : bodyEnd f.name with
  | block =>
    have hm := mem_endsOf hk (by decide)
    have h1 : ∀ n ∈ endsOf .block, n ∉ marked ∧ n ∉ impliedEnd := by decide
    apply simple (h1 _ hm).1
    simp only [inScope, hsc, ok_bind, if_true, himp [] (Or.inl (h1 _ hm).2), hpop [f.name] (by simp)]
  | p =>
    have hm := mem_endsOf hk (by decide)
    have hn' : f.name = nm! "p" := by simpa [endsOf, bodyEndNames] using hm
    apply simple (by rw [hn']; decide)
    have h1 := himp [nm! "p"] (Or.inr (by rw [hn']; simp))
    have h2 := hpop [nm! "p"] (by rw [hn']; simp)
    have h3 := fun ends => hn' ▸ hsc ends
    simp only [inButtonScope, h3, ok_bind, if_true, closeP, h1, h2]
  | li =>
    have hm := mem_endsOf hk (by decide)
    have hn' : f.name = nm! "li" := by simpa [endsOf, bodyEndNames] using hm
    apply simple (by rw [hn']; decide)
    have h1 := himp [nm! "li"] (Or.inr (by rw [hn']; simp))
    have h2 := hpop [nm! "li"] (by rw [hn']; simp)
    have h3 := fun ends => hn' ▸ hsc ends
    simp only [inListScope, h3, ok_bind, if_true, h1, h2]
  | dd =>
    have hm := mem_endsOf hk (by decide)
    have h1 : ∀ n ∈ endsOf .dd, n ∉ marked := by decide
    apply simple (h1 _ hm)
    simp only [inScope, hsc, ok_bind, if_true, himp [f.name] (Or.inr (by simp)), hpop [f.name] (by simp)]
  | heading =>
    have hm := mem_endsOf hk (by decide)
    have h1 : ∀ n ∈ endsOf .heading, n ∉ marked ∧ n ∉ impliedEnd ∧ n ∈ headings := by decide
    apply simple (h1 _ hm).1
    simp only [anyInScope_top g (h1 _ hm).2.2, ok_bind, if_true, himp [] (Or.inl (h1 _ hm).2.1),
      hpop headings (h1 _ hm).2.2]
  | form =>
    have hm := mem_endsOf hk (by decide)
    have hn' : f.name = nm! "form" := by simpa [endsOf, bodyEndNames] using hm
    have hsf : s.form = some f.el := by
      rw [g.form, List.find?_cons]
      rw [show (f.el.q == h (nm! "form")) = true by rw [g.q, hn']; simp]
      rfl
    have hs' : Stk { s with form := none } (f :: f' :: fs) D := g.toStk.congr rfl rfl rfl rfl rfl
    refine ⟨{ s with form := none, stack := s.stack.tail }, ?_, rfl, ?_⟩
    · have h1 : inScopeOf { s with form := none } (·.isIn scopeEnd) f.el.q.name = .ok true :=
        inScopeOf_true hs' g.q
      have h2 : impliedEnds { s with form := none } [] = .ok { s with form := none } := by
        refine impliedEnds_eq hs' ?_
        rw [g.q, isIn_h, isIn_h, hn']
        decide
      have h3 := fresh_filter g.toStk
      simp only [g.noTemplate, Bool.not_false, if_true, hsf, inScope, h1, ok_bind, h2]
      rw [removeOpen, h3]
    · have hc : Stk { s with form := none, stack := s.stack.tail } (f'.add f.tree :: fs) D :=
        hs'.closed
      refine g.leave hnb hc ?_ g.after (Or.inr ⟨hn', ?_, rfl⟩) rfl g.skip (Or.inl ⟨hnr, rfl⟩)
      · show s.entries = _
        rw [g.entries, entriesOf_cons, entry_none (by rw [hn']; decide) (by rw [hn']; decide)]
        simp
      · have := ha.lone (by rw [hn']; decide)
        rwa [hn'] at this
  | formatting =>
    have hm := mem_endsOf hk (by decide)
    have h1 : ∀ n ∈ endsOf .formatting, n ∈ formats ∧ n ≠ nm! "form" := by decide
    obtain ⟨hfm, hnf⟩ := h1 _ hm
    have hen : s.entries = entriesOf (f' :: fs) ++ [.elem f.el f.name f.attrs] := by
      rw [g.entries, entriesOf_cons, formats_entry hfm (g.html f (by simp))]
      rfl
    have hold : ∀ e ∈ entriesOf (f' :: fs), e.is f.el = false := by
      intro e he
      cases e with
      | marker => rfl
      | elem e n as =>
        obtain ⟨x, hx, rfl, -⟩ := mem_entriesOf he
        simp only [Entry.is, decide_eq_false_iff_not]
        intro e
        exact g.toStk.fresh (List.mem_map.mpr ⟨x, hx, e⟩)
    have haft : s.after = afterMarker (entriesOf (f' :: fs)) := by
      rw [g.after, hen, afterMarker_elem]
    have hrest : ∀ e ∈ (entriesOf (f' :: fs)).drop s.after, ∃ e' m as, e = .elem e' m as ∧
        e'.q.name ≠ f.name := by
      intro e he
      rw [haft] at he
      obtain ⟨x, hx, rfl, hm⟩ := mem_after he (fun y hy => g.html y (List.mem_cons_of_mem _ hy))
      refine ⟨_, _, _, rfl, ?_⟩
      intro e
      exact ha.format hfm (e ▸ hm)
    have hfind : findNamed (·.name = f.name) (s.entries.drop s.after) = .ok (some f.el) := by
      rw [hen, List.drop_append_of_le_length (by rw [haft]; exact afterMarker_le _)]
      refine findNamed_last (decide_eq_true rfl) ?_
      intro e he
      obtain ⟨e', m, as, rfl, hne⟩ := hrest e he
      exact ⟨e', m, as, rfl, decide_eq_false hne⟩
    refine ⟨{ s with stack := s.stack.tail, entries := entriesOf (f' :: fs) }, ?_, rfl, ?_⟩
    · show adopt s f.name = _
      have hcur : current s = .ok f.el := by rw [current, g.stack]; rfl
      have hhe : hasEntry s f.el = true := by
        rw [hasEntry, hen, List.any_append]
        simp [Entry.is]
      have hct : s.stack.contains f.el = true := by
        rw [g.stack]
        simp
      have hsp : s.stack.takeWhile (· ≠ f.el) = [] := by
        rw [g.stack]
        simp
      have hpu : popUntil s f.el = { s with stack := s.stack.tail } := by
        rw [popUntil, g.stack]
        simp [dropPast]
      have hre : removeEntry { s with stack := s.stack.tail } f.el =
          { s with stack := s.stack.tail, entries := entriesOf (f' :: fs) } :=
        removeEntry_last (s := { s with stack := s.stack.tail }) hen g.after hold
      have hsc' : inScopeOf s (·.isIn scopeEnd) f.el.q.name = .ok true := hsc _
      simp only [adopt, hcur, ok_bind, hhe, Bool.not_true, Bool.and_false, Bool.false_eq_true, if_false]
      simp only [adoptLoop, hfind, ok_bind, hct, Bool.not_true, Bool.false_eq_true, if_false, inScope, hsc']
      rw [hsp]
      simp only [List.reverse_nil, List.find?_nil, hpu, hre]
    · have hc : Stk { s with stack := s.stack.tail, entries := entriesOf (f' :: fs) }
          (f'.add f.tree :: fs) D := g.toStk.closed.congr rfl rfl rfl rfl rfl
      exact g.leave hnb hc rfl haft (Or.inl ⟨hnf, rfl⟩) rfl g.skip (Or.inl ⟨hnr, rfl⟩)
  | embed =>
    have hm := mem_endsOf hk (by decide)
    have h1 : ∀ n ∈ endsOf .embed, n ∈ marking ∧ n ≠ nm! "form" ∧ n ∉ impliedEnd := by decide
    obtain ⟨hmk, hnf, hni⟩ := h1 _ hm
    have hen : s.entries = entriesOf (f' :: fs) ++ [.marker] := by
      rw [g.entries, entriesOf_cons, marking_entry hmk (g.html f (by simp))]
      rfl
    refine ⟨{ s with stack := s.stack.tail, entries := entriesOf (f' :: fs),
                     after := afterMarker (entriesOf (f' :: fs)) }, ?_, rfl, ?_⟩
    · have hcm := clearMarker_last (s := { s with stack := s.stack.tail }) hen
      simp only [inScope, hsc, ok_bind, if_true, himp [] (Or.inl hni), hpop [f.name] (by simp), hcm]
    · have hc : Stk { s with stack := s.stack.tail, entries := entriesOf (f' :: fs), after := afterMarker (entriesOf (f' :: fs)) }
          (f'.add f.tree :: fs) D := g.toStk.closed.congr rfl rfl rfl rfl rfl
      exact g.leave hnb hc rfl rfl (Or.inl ⟨hnf, rfl⟩) rfl g.skip (Or.inl ⟨hnr, rfl⟩)
  | other =>
    have hna := not_allEnds hk
    have hsub : ∀ n ∈ marked, n ∈ allEnds ∨ n ∈ resets := by decide
    apply simple
    · intro h
      rcases hsub _ h with h | h
      · exact hna h
      · exact hnr h
    · show otherEnd s f.name s.stack = _
      have hst := g.stack
      rw [List.map_cons] at hst
      have hdw : s.stack.dropWhile (· ≠ f.el) = f.el :: s.stack.tail := by
        rw [hst]
        simp
      rw [show otherEnd s f.name s.stack = otherEnd s f.name (f.el :: List.map Frame.el (f' :: fs)) by rw [← hst]]
      rw [otherEnd, if_pos (show f.el.q.name = f.name from rfl), if_pos (g.html f (by simp)),
        himp [f.name] (Or.inr (by simp))]
      simp only [ok_bind]
      rw [hdw]
  | _ =>
    exfalso
    have key : ∀ k ∈ [BodyEnd.template, .body, .html, .br], ∀ n ∈ endsOf k,
        n ∈ barred ∨ n ∈ emptyOnes := by decide
    have hm := mem_endsOf hk (by decide)
    rcases key _ (by decide) _ hm with h | h
    · exact hn.bar h
    · exact hn.empty h

end Verif.Tree
