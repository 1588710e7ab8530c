import Verif.Tree.Core
/-
The states between two tokens, and how elements are entered and left.
-/
namespace Verif.Tree
open Verif.Html (Str Attr Content)
open Spec

/-! ### The names of the open elements -/

def flow : Mode → Bool
  | .inBody | .inCell | .inCaption => true
  | _ => false

/-- The names that decide the insertion mode. -/
def resets : List Str :=
  [nm! "td", nm! "th", nm! "tr", nm! "tbody", nm! "thead", nm! "tfoot", nm! "caption",
   nm! "colgroup", nm! "table", nm! "head", nm! "body", nm! "frameset", nm! "html"]

structure Link (m n : Str) : Prop where
  name : n ∉ [nm! "html", nm! "head", nm! "body", nm! "frameset", nm! "template_", nm! "col"]
  child : ∀ ks, children.lookup m = some ks → n ∈ ks
  parent : ∀ ps, parents.lookup n = some ps → m ∈ ps

inductive Path : List Str → Prop
  | body : Path [nm! "body", nm! "html"]
  | more {m n : Str} {r : List Str} : Link m n → Path (m :: r) → Path (n :: m :: r)

theorem Path.html {ns : List Str} (h : Path ns) : nm! "html" ∈ ns := by
  induction h with
  | body => simp
  | more _ _ ih => exact List.mem_cons_of_mem _ ih

theorem Path.noTemplate {ns : List Str} (h : Path ns) : nm! "template_" ∉ ns := by
  induction h with
  | body => decide
  | more hl _ ih =>
    intro hm
    cases hm with
    | head => exact hl.name (by simp)
    | tail _ hm => exact ih hm

def modeFor (n : Str) : Option Mode :=
  if n ∈ [nm! "td", nm! "th"] then some .inCell
  else if n = nm! "tr" then some .inRow
  else if n ∈ [nm! "tbody", nm! "thead", nm! "tfoot"] then some .inTableBody
  else if n = nm! "caption" then some .inCaption
  else if n = nm! "colgroup" then some .inColumnGroup
  else if n = nm! "table" then some .inTable
  else if n = nm! "body" then some .inBody
  else none

theorem resetMode_some {n : Str} {m : Mode} (hm : modeFor n = some m) (i : Nat) {r : List El}
    (hr : r ≠ []) : resetMode true (⟨i, h n⟩ :: r) = .ok m := by
  have hr' : r.isEmpty = false := by cases r <;> simp_all
  unfold modeFor at hm
  rw [resetMode]
  split at hm
  · rename_i hn
    cases hm
    rw [if_pos]
    simp only [hr', QName.isIn, h]
    simpa using hn
  rename_i h1
  rw [if_neg (by simp only [QName.isIn, h]; simp_all)]
  split at hm
  · rename_i hn
    cases hm
    rw [if_pos (by rw [hn])]
  rename_i h2
  rw [if_neg (by simp only [h, QName.mk.injEq]; simp [h2])]
  split at hm
  · rename_i hn
    cases hm
    rw [if_pos (by simp only [QName.isIn, h]; simpa using hn)]
  rename_i h3
  rw [if_neg (by simp only [QName.isIn, h]; simp_all)]
  split at hm
  · rename_i hn
    cases hm
    rw [if_pos (by rw [hn])]
  rename_i h4
  rw [if_neg (by simp only [h, QName.mk.injEq]; simp [h4])]
  split at hm
  · rename_i hn
    cases hm
    rw [if_pos (by rw [hn])]
  rename_i h5
  rw [if_neg (by simp only [h, QName.mk.injEq]; simp [h5])]
  split at hm
  · rename_i hn
    cases hm
    rw [if_pos (by rw [hn])]
  rename_i h6
  rw [if_neg (by simp only [h, QName.mk.injEq]; simp [h6])]
  split at hm
  · rename_i hn
    cases hm
    subst hn
    rw [if_neg (by simp [h]), if_pos rfl]
  cases hm

theorem resetMode_none {n : Str} (hn : n ∉ resets) (i : Nat) (r : List El) :
    resetMode true (⟨i, h n⟩ :: r) = resetMode true r := by
  simp only [resets, List.mem_cons, List.not_mem_nil, or_false, not_or] at hn
  rw [resetMode]
  obtain ⟨h1, h2, h3, h4, h5, h6, h7, h8, h9, h10, h11, h12, h13⟩ := hn
  simp [h, QName.isIn, h1, h2, h3, h4, h5, h6, h7, h8, h9, h10, h11, h12, h13]

/-- The elements that hold nothing but parts of tables. -/
def holders : List Str :=
  [nm! "table", nm! "colgroup", nm! "thead", nm! "tbody", nm! "tfoot", nm! "tr"]

theorem lookup_children (n : Str) (hn : n ∉ holders) : children.lookup n = none := by
  simp only [holders, List.mem_cons, List.not_mem_nil, or_false, not_or] at hn
  obtain ⟨h1, h2, h3, h4, h5, h6⟩ := hn
  simp [children, h1, h2, h3, h4, h5, h6]

theorem lookup_holders (n : Str) (hn : n ∈ holders) :
    ∃ ks, children.lookup n = some ks ∧ ∀ k ∈ ks,
      k ∈ [nm! "caption", nm! "colgroup", nm! "thead", nm! "tbody", nm! "tfoot", nm! "tr",
        nm! "td", nm! "th", nm! "col"] := by
  have : ∀ n ∈ holders, ((children.lookup n).map fun ks => ks.all fun k =>
      [nm! "caption", nm! "colgroup", nm! "thead", nm! "tbody", nm! "tfoot", nm! "tr",
        nm! "td", nm! "th", nm! "col"].contains k) = some true := by decide
  have h := this n hn
  rw [Option.map_eq_some_iff] at h
  obtain ⟨ks, h1, h2⟩ := h
  refine ⟨ks, h1, ?_⟩
  intro k hk
  rw [List.all_eq_true] at h2
  simpa using h2 k hk

/-- The mode when the innermost element is none of a table's own. -/
theorem Path.flow {ns : List Str} (hp : Path ns) {st : List El} (hst : st.map (·.q.name) = ns)
    (hh : ∀ e ∈ st, e.q.ns = .html) :
    ∃ m, resetMode true st = .ok m ∧ ((ns.headD []) ∉ holders → Tree.flow m = true) ∧
      (∀ m', modeFor (ns.headD []) = some m' → m = m') := by
  induction hp generalizing st with
  | body =>
    obtain ⟨a, st, rfl⟩ : ∃ a st', st = a :: st' := by cases st <;> simp at hst ⊢
    obtain ⟨b, st, rfl⟩ : ∃ a st', st = a :: st' := by cases st <;> simp at hst ⊢
    · simp only [List.map_cons, List.map_nil, List.cons.injEq, and_true] at hst
      have ha : a = ⟨a.id, h (nm! "body")⟩ := by
        rw [← hst.1, ← q_eq (hh a (by simp))]
      rw [ha, resetMode_some (m := .inBody) (by decide) _ (by simp)]
      exact ⟨_, rfl, fun _ => rfl, fun m' hm' => by simp [modeFor] at hm'; exact hm'⟩
  | @more m n r hl hp ih =>
    match st, hst with
    | e :: st, hst =>
      rw [List.map_cons, List.cons.injEq] at hst
      obtain ⟨mo, h1, h2, h3⟩ := ih hst.2 (fun e he => hh e (by simp [he]))
      have he : e = ⟨e.id, h n⟩ := by rw [← hst.1, ← q_eq (hh e (by simp))]
      have hst' : st ≠ [] := by
        rintro rfl
        exact absurd hst.2 (by simp)
      rw [he]
      simp only [List.headD_cons]
      by_cases hn : n ∈ resets
      · have key : ∀ n ∈ resets, n ∉ [nm! "html", nm! "head", nm! "body", nm! "frameset", nm! "template_", nm! "col"] →
            ∃ m, modeFor n = some m ∧ (n ∉ holders → Tree.flow m = true) := by
          intro n hn hne
          have : ∀ n ∈ resets, n ∉ [nm! "html", nm! "head", nm! "body", nm! "frameset", nm! "template_", nm! "col"] →
            ((modeFor n).isSome = true ∧ (n ∉ holders → (modeFor n).map Tree.flow = some true)) := by
            decide
          obtain ⟨h1, h2⟩ := this n hn hne
          rw [Option.isSome_iff_exists] at h1
          obtain ⟨m, hm⟩ := h1
          refine ⟨m, hm, fun hh => ?_⟩
          have := h2 hh
          rw [hm] at this
          simpa using this
        obtain ⟨m', hm', hf⟩ := key n hn hl.name
        rw [resetMode_some hm' _ hst']
        exact ⟨m', rfl, hf, fun m'' h => by rw [hm'] at h; exact Option.some.inj h⟩
      · rw [resetMode_none hn]
        refine ⟨mo, h1, fun hnh => h2 ?_, fun m' hm' => ?_⟩
        · intro hmh
          obtain ⟨ks, hk1, hk2⟩ := lookup_holders m hmh
          have := hk2 n (hl.child ks hk1)
          have hcol : n ≠ nm! "col" := fun e => hl.name (by simp [e])
          have hsub : ∀ k ∈ [nm! "caption", nm! "colgroup", nm! "thead", nm! "tbody", nm! "tfoot",
              nm! "tr", nm! "td", nm! "th"], k ∈ resets := by decide
          apply hn
          apply hsub
          simp only [List.mem_cons, List.not_mem_nil, or_false, hcol] at this ⊢
          exact this
        · exfalso
          have : ∀ n, n ∉ resets → modeFor n = none := by
            intro n hn
            simp only [resets, List.mem_cons, List.not_mem_nil, or_false, not_or] at hn
            obtain ⟨h1, h2, h3, h4, h5, h6, h7, h8, h9, h10, h11, h12, h13⟩ := hn
            simp [modeFor, h1, h2, h3, h4, h5, h6, h7, h8, h9, h10, h11, h12, h13]
          rw [this n hn] at hm'
          cases hm'

/-! ### Between two tokens -/

structure Good (s : St) (fs : List Frame) (D : List Tree) : Prop extends Core s fs D where
  path : Path (around fs)
  html : ∀ f ∈ fs, f.el.q.ns = .html
  head : s.head.isSome = true
  skip : s.skipLf = false
  mode : resetMode true s.stack = .ok s.mode

theorem Good.lexer {s : St} {fs : List Frame} {D : List Tree} (g : Good s fs D) (l : Option Content) :
    Good { s with lexer := l } fs D :=
  ⟨⟨g.toStk.congr rfl rfl rfl rfl rfl, g.entries, g.after, g.form⟩, g.path, g.html, g.head, g.skip,
    g.mode⟩

theorem Good.root {s : St} {fs : List Frame} {D : List Tree} (g : Good s fs D) :
    ∃ f ∈ fs, f.el.q = h (nm! "html") := by
  obtain ⟨f, hf, hn⟩ := List.mem_map.mp g.path.html
  exact ⟨f, hf, by rw [q_eq (g.html f hf), ← hn]; rfl⟩

theorem Good.noTemplate {s : St} {fs : List Frame} {D : List Tree} (g : Good s fs D) :
    hasOpen s (nm! "template_") = false := by
  rw [hasOpen, List.any_eq_false]
  intro e he
  rw [g.stack] at he
  obtain ⟨f, hf, rfl⟩ := List.mem_map.mp he
  intro hq
  apply g.path.noTemplate
  exact List.mem_map.mpr ⟨f, hf, by unfold Frame.name; rw [beq_iff_eq.mp hq]; rfl⟩

theorem Good.mode' {s : St} {f : Frame} {fs : List Frame} {D : List Tree} (g : Good s (f :: fs) D) :
    (f.name ∉ holders → flow s.mode = true) ∧ ∀ m, modeFor f.name = some m → s.mode = m := by
  obtain ⟨m, h1, h2, h3⟩ := g.path.flow (st := s.stack)
    (by rw [g.stack, List.map_map]; rfl)
    (by
      intro e he
      rw [g.stack] at he
      obtain ⟨f, hf, rfl⟩ := List.mem_map.mp he
      exact g.html f hf)
  have := g.mode
  rw [h1] at this
  cases this
  exact ⟨h2, h3⟩

theorem Good.q {s : St} {f : Frame} {fs : List Frame} {D : List Tree} (g : Good s (f :: fs) D) :
    f.el.q = h f.name := q_eq (g.html f (by simp))

/-- The top is one of the names. -/
theorem isIn_h (n : Str) (l : List Str) : (h n).isIn l = l.contains n := by
  simp [QName.isIn, h]

theorem Good.enter {s s' : St} {f F : Frame} {fs : List Frame} {D : List Tree}
    (g : Good s (f :: fs) D) (hs : Stk s' (F :: f :: fs) D) (hl : Link f.name F.name)
    (hq : F.el.q.ns = .html) (he : s'.entries = s.entries ++ F.entry.toList)
    (ha : s'.after = afterMarker s'.entries)
    (hf : s'.form = if F.name = nm! "form" then some F.el else s.form)
    (hh : s'.head = s.head) (hk : s'.skipLf = false)
    (hm : (F.name ∉ resets ∧ s'.mode = s.mode) ∨ modeFor F.name = some s'.mode) :
    Good s' (F :: f :: fs) D := by
  refine ⟨⟨hs, ?_, ha, ?_⟩, Path.more hl g.path, ?_, by rw [hh]; exact g.head, hk, ?_⟩
  · rw [he, g.entries, entriesOf_cons F]
  · rw [hf, List.find?_cons]
    by_cases hn : F.name = nm! "form"
    · have : F.el.q = h (nm! "form") := by rw [q_eq hq]; exact congrArg h hn
      rw [if_pos hn, this, beq_self_eq_true]
      rfl
    · have : (F.el.q == h (nm! "form")) = false := by
        rw [beq_eq_false_iff_ne]
        intro e
        apply hn
        unfold Frame.name
        rw [e]
        rfl
      rw [if_neg hn, this, g.form]
  · intro x hx
    cases hx with
    | head => exact hq
    | tail _ hx => exact g.html x hx
  · rw [hs.stack, List.map_cons, ← g.stack]
    have hF : F.el = ⟨F.el.id, h F.name⟩ := by
      have := q_eq hq
      cases hF : F.el with
      | mk i q => rw [hF] at this; simp only at this; rw [this]; unfold Frame.name; rw [hF]
    rw [hF]
    rcases hm with ⟨h1, h2⟩ | h1
    · rw [resetMode_none h1, h2]
      exact g.mode
    · rw [resetMode_some h1]
      rw [g.stack]
      simp

theorem Path.tail {n m : Str} {r : List Str} (hp : Path (n :: m :: r)) (hn : n ≠ nm! "body") :
    Link m n ∧ Path (m :: r) := by
  cases hp with
  | body => exact absurd rfl hn
  | more h1 h2 => exact ⟨h1, h2⟩

theorem Good.leave {s s' : St} {f f' : Frame} {fs : List Frame} {D : List Tree}
    (g : Good s (f :: f' :: fs) D) (hn : f.name ≠ nm! "body")
    (hs : Stk s' (f'.add f.tree :: fs) D)
    (he : s'.entries = entriesOf (f' :: fs)) (ha : s'.after = afterMarker s'.entries)
    (hf : f.name ≠ nm! "form" ∧ s'.form = s.form ∨
      f.name = nm! "form" ∧ nm! "form" ∉ around (f' :: fs) ∧ s'.form = none)
    (hh : s'.head = s.head) (hk : s'.skipLf = false)
    (hm : (f.name ∉ resets ∧ s'.mode = s.mode) ∨ resetMode true s'.stack = .ok s'.mode) :
    Good s' (f'.add f.tree :: fs) D := by
  refine ⟨⟨hs, ?_, ha, ?_⟩, (g.path.tail hn).2, ?_, by rw [hh]; exact g.head, hk, ?_⟩
  · rw [he]
    rw [entriesOf_cons, entriesOf_cons]
    rfl
  · rcases hf with ⟨h1, h2⟩ | ⟨h1, h2, h3⟩
    · rw [h2, g.form, List.find?_cons]
      have : (f.el.q == h (nm! "form")) = false := by
        rw [beq_eq_false_iff_ne]
        intro e
        apply h1
        unfold Frame.name
        rw [e]
        rfl
      rw [this]
      simp only [List.find?_cons, Frame.add]
      split <;> rfl
    · rw [h3, List.find?_eq_none.mpr]
      · rfl
      · intro x hx e
        apply h2
        have e' := beq_iff_eq.mp e
        cases hx with
        | head => simp only [Frame.add] at e'; simp [around, Frame.name, e', h]
        | tail _ hx =>
          simp only [around, List.map_cons, List.mem_cons, List.mem_map]
          exact Or.inr ⟨x, hx, by unfold Frame.name; rw [e']; rfl⟩
  · intro x hx
    cases hx with
    | head => exact g.html f' (by simp)
    | tail _ hx => exact g.html x (.tail _ (.tail _ hx))
  · rcases hm with ⟨h1, h2⟩ | h1
    · have := g.mode
      rw [g.stack, List.map_cons] at this
      have hF : f.el = ⟨f.el.id, h f.name⟩ := by
        have := g.q
        cases hF : f.el with
        | mk i q => rw [hF] at this; simp only at this; rw [this]
      rw [hF, resetMode_none h1] at this
      rw [hs.stack, h2]
      exact this
    · exact h1

/-! ### Calls -/

def recAt (d : Nat) : Rec := ⟨run d none, fun m => run d (some m)⟩

theorem run_some (d : Nat) (m : Mode) (s : St) (t : Tok) :
    run (d + 1) (some m) s t = handle (recAt d) m s t := rfl

theorem run_none' {d : Nat} {s : St} {t : Tok} (hk : s.skipLf = false) (hf : forHtml s t = true) :
    run (d + 2) none s t = handle (recAt d) s.mode s t := by
  have hs : { s with skipLf := false } = s := by cases s; simp only at hk; subst hk; rfl
  show acceptStep (recAt (d + 1)) s t = _
  rw [acceptStep, if_neg (by simp [hk])]
  show (if forHtml { s with skipLf := false } t then _ else _) = _
  rw [hs, if_pos hf]
  rfl

theorem forHtml_top {s : St} {e : El} {st : List El} (h1 : s.stack = e :: st) (h2 : e.q.ns = .html)
    (t : Tok) : forHtml s t = true := by
  simp [forHtml, h1, h2]

theorem Good.run {s : St} {f : Frame} {fs : List Frame} {D : List Tree} (g : Good s (f :: fs) D)
    (d : Nat) (t : Tok) : run (d + 2) none s t = handle (recAt d) s.mode s t :=
  run_none' g.skip (forHtml_top g.stack (g.html f (by simp)) t)

/-- The tokens that the table modes for cells and captions give to "in body". -/
def flowTok : Tok → Bool
  | .opens n _ _ => !isOne n tableParts
  | .closes n _ _ => !isOne n [nm! "td", nm! "th", nm! "body", nm! "caption", nm! "col",
      nm! "colgroup", nm! "html", nm! "table", nm! "tbody", nm! "tfoot", nm! "thead", nm! "tr"]
  | _ => true

theorem Good.inBody {s : St} {f : Frame} {fs : List Frame} {D : List Tree} (g : Good s (f :: fs) D)
    (hf : f.name ∉ holders) (d : Nat) {t : Tok} (ht : flowTok t = true) :
    ∃ d', d ≤ d' ∧ Tree.run (d + 3) none s t = Tree.inBody (recAt d') s t := by
  have hm := g.mode'.1 hf
  rw [g.run (d + 1) t]
  generalize hmo : s.mode = m at hm
  cases m <;> first | (exact absurd hm (by decide)) | skip
  · exact ⟨d + 1, by omega, rfl⟩
  · refine ⟨d, by omega, ?_⟩
    show inCaption (recAt (d + 1)) s t = _
    cases t <;> try rfl
    · rename_i n as self
      have hn : isOne n tableParts = false := by simpa [flowTok] using ht
      simp only [inCaption, hn]
      rfl
    · rename_i n as self
      simp only [flowTok, isOne, Bool.not_eq_true', List.contains_eq_mem, List.mem_cons,
        List.not_mem_nil, or_false, decide_eq_false_iff_not, not_or] at ht
      simp only [inCaption, isOne, List.contains_eq_mem, List.mem_cons, List.not_mem_nil, or_false,
        ht, decide_false, if_false, Bool.false_eq_true]
      rfl
  · refine ⟨d, by omega, ?_⟩
    show inCell (recAt (d + 1)) s t = _
    cases t <;> try rfl
    · rename_i n as self
      have hn : isOne n tableParts = false := by simpa [flowTok] using ht
      simp only [inCell, hn]
      rfl
    · rename_i n as self
      simp only [flowTok, isOne, Bool.not_eq_true', List.contains_eq_mem, List.mem_cons,
        List.not_mem_nil, or_false, decide_eq_false_iff_not, not_or] at ht
      simp only [inCell, isOne, List.contains_eq_mem, List.mem_cons, List.not_mem_nil, or_false,
        ht, decide_false, if_false, Bool.false_eq_true]
      rfl

/-! ### What `allowed` says -/

structure Allowed (around : List Str) (n : Str) : Prop where
  block : n ∈ blocks → nm! "p" ∉ around
  title : n ∈ titles → around.headD [] ∉ titles
  lone : n ∈ lone → n ∉ around
  format : n ∈ formats → n ∉ around.takeWhile (!isCell ·)
  input : n = nm! "input" → nm! "select" ∉ around
  parent : ∀ ps, parents.lookup n = some ps → around.headD [] ∈ ps
  child : ∀ ks, children.lookup (around.headD []) = some ks → n ∈ ks

theorem allowed_iff {around : List Str} {n : Str} (ha : allowed around n = true) :
    Allowed around n := by
  simp only [allowed, Bool.and_eq_true] at ha
  obtain ⟨⟨⟨⟨⟨⟨h1, h2⟩, h3⟩, h4⟩, h5⟩, h6⟩, h7⟩ := ha
  refine ⟨?_, ?_, ?_, ?_, ?_, ?_, ?_⟩
  · intro hn
    simpa [hn] using h1
  · intro hn
    simpa [hn] using h2
  · intro hn
    simpa [hn] using h3
  · intro hn
    simp only [List.contains_iff_mem.mpr hn, Bool.not_true, Bool.false_or, Bool.not_eq_true'] at h4
    rw [← List.contains_iff_mem, h4]
    simp
  · intro hn
    simpa [hn] using h5
  · intro ps hps
    rw [hps] at h6
    simpa using h6
  · intro ks hks
    rw [hks] at h7
    simpa using h7

theorem Allowed.link {m n : Str} {r : List Str} (ha : Allowed (m :: r) n) (hb : n ∉ barred) :
    Link m n := by
  refine ⟨?_, ha.child, ha.parent⟩
  intro hn
  have : ∀ n ∈ [nm! "html", nm! "head", nm! "body", nm! "frameset", nm! "template_", nm! "col"],
    n ∈ barred := by decide
  exact hb (this n hn)

end Verif.Tree
