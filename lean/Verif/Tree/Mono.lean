import Verif.Tree.Model
/-
A run that ends within some depth of calls ends the same way within any greater depth.
-/
namespace Verif.Tree
open Verif.Html (Str Attr Content)

/-- The right is the left, or the left does not end. -/
def Le {α : Type} (a b : M α) : Prop := a = .error .endless ∨ a = b

theorem Le.refl {α : Type} (a : M α) : Le a a := Or.inr rfl

theorem Le.bind {α β : Type} {a b : M α} {f g : α → M β} (h : Le a b) (hf : ∀ x, Le (f x) (g x)) :
    Le (a >>= f) (b >>= g) := by
  rcases h with h | h
  · exact Or.inl (by rw [h]; rfl)
  · subst h
    cases a with
    | error e => exact Or.inr rfl
    | ok x => exact hf x

theorem Le.ite {α : Type} {c : Prop} [Decidable c] {a b a' b' : M α} (h1 : Le a a') (h2 : Le b b') :
    Le (if c then a else b) (if c then a' else b') := by
  split
  · exact h1
  · exact h2

structure RecLe (k k' : Rec) : Prop where
  accept : ∀ s t, Le (k.accept s t) (k'.accept s t)
  acceptIn : ∀ m s t, Le (k.acceptIn m s t) (k'.acceptIn m s t)

macro "mono" h:ident : tactic => `(tactic|
  repeat' first
    | exact Le.refl _
    | exact RecLe.accept $h _ _
    | exact RecLe.acceptIn $h _ _ _
    | refine Le.bind ?_ (fun _ => ?_)
    | refine Le.ite ?_ ?_
    | split)

variable {k k' : Rec} (h : RecLe k k')
include h

theorem initial_le (s : St) (t : Tok) : Le (initial k s t) (initial k' s t) := by
  unfold initial; mono h
theorem beforeHtml_le (s : St) (t : Tok) : Le (beforeHtml k s t) (beforeHtml k' s t) := by
  unfold beforeHtml impliedHtml; mono h
theorem beforeHead_le (s : St) (t : Tok) : Le (beforeHead k s t) (beforeHead k' s t) := by
  unfold beforeHead impliedHead; mono h
theorem inHead_le (s : St) (t : Tok) : Le (inHead k s t) (inHead k' s t) := by
  unfold inHead leaveHead; mono h
theorem inHeadNoscript_le (s : St) (t : Tok) : Le (inHeadNoscript k s t) (inHeadNoscript k' s t) := by
  unfold inHeadNoscript leaveNoscript; mono h
theorem afterHead_le (s : St) (t : Tok) : Le (afterHead k s t) (afterHead k' s t) := by
  unfold afterHead impliedBody; mono h
theorem bodyOpens_le (s : St) (n : Str) (as : List Attr) (self : Bool) :
    Le (bodyOpens k s n as self) (bodyOpens k' s n as self) := by
  unfold bodyOpens; mono h
theorem bodyCloses_le (s : St) (n : Str) (as : List Attr) (self : Bool) :
    Le (bodyCloses k s n as self) (bodyCloses k' s n as self) := by
  unfold bodyCloses; mono h
theorem inBody_le (s : St) (t : Tok) : Le (inBody k s t) (inBody k' s t) := by
  unfold inBody
  split
  case h_4 => exact bodyOpens_le h _ _ _ _
  case h_5 => exact bodyCloses_le h _ _ _ _
  all_goals mono h
theorem fosterIn_le (s : St) (t : Tok) : Le (fosterIn k s t) (fosterIn k' s t) := by
  unfold fosterIn; mono h
theorem inTable_le (s : St) (t : Tok) : Le (inTable k s t) (inTable k' s t) := by
  unfold inTable fosterIn; mono h
theorem fosterChars_le (s : St) (cs : List Char) : Le (fosterChars k s cs) (fosterChars k' s cs) := by
  induction cs generalizing s with
  | nil => exact Le.refl _
  | cons c cs ih =>
    unfold fosterChars
    exact Le.bind (fosterIn_le h _ _) fun _ => ih _
theorem inTableText_le (s : St) (t : Tok) : Le (inTableText k s t) (inTableText k' s t) := by
  unfold inTableText
  repeat' first
    | exact fosterChars_le h _ _
    | exact Le.refl _
    | exact RecLe.accept h _ _
    | exact RecLe.acceptIn h _ _ _
    | refine Le.bind ?_ (fun _ => ?_)
    | refine Le.ite ?_ ?_
    | split
theorem inCaption_le (s : St) (t : Tok) : Le (inCaption k s t) (inCaption k' s t) := by
  unfold inCaption; mono h
theorem inColumnGroup_le (s : St) (t : Tok) : Le (inColumnGroup k s t) (inColumnGroup k' s t) := by
  unfold inColumnGroup leaveColgroup; mono h
theorem inTableBody_le (s : St) (t : Tok) : Le (inTableBody k s t) (inTableBody k' s t) := by
  unfold inTableBody; mono h
theorem inRow_le (s : St) (t : Tok) : Le (inRow k s t) (inRow k' s t) := by
  unfold inRow; mono h
theorem inCell_le (s : St) (t : Tok) : Le (inCell k s t) (inCell k' s t) := by
  unfold inCell; mono h
theorem inTemplate_le (s : St) (t : Tok) : Le (inTemplate k s t) (inTemplate k' s t) := by
  unfold inTemplate; mono h
theorem afterBody_le (s : St) (t : Tok) : Le (afterBody k s t) (afterBody k' s t) := by
  unfold afterBody; mono h
theorem inFrameset_le (s : St) (t : Tok) : Le (inFrameset k s t) (inFrameset k' s t) := by
  unfold inFrameset; mono h
theorem afterFrameset_le (s : St) (t : Tok) : Le (afterFrameset k s t) (afterFrameset k' s t) := by
  unfold afterFrameset; mono h
theorem afterAfterBody_le (s : St) (t : Tok) : Le (afterAfterBody k s t) (afterAfterBody k' s t) := by
  unfold afterAfterBody; mono h
theorem afterAfterFrameset_le (s : St) (t : Tok) :
    Le (afterAfterFrameset k s t) (afterAfterFrameset k' s t) := by
  unfold afterAfterFrameset; mono h
theorem foreignEnd_le (s : St) (t : Tok) (n : Str) (st : List El) :
    Le (foreignEnd k s t n st) (foreignEnd k' s t n st) := by
  induction st with
  | nil => exact Le.refl _
  | cons e st ih => unfold foreignEnd; repeat' first | exact ih | exact Le.refl _ | exact RecLe.acceptIn h _ _ _ | exact RecLe.accept h _ _ | split
theorem foreign_le (s : St) (t : Tok) : Le (foreign k s t) (foreign k' s t) := by
  unfold foreign breakOut
  cases t with
  | opens n as self => exact Le.ite (RecLe.accept h _ _) (Le.refl _)
  | closes n as self =>
    refine Le.ite (RecLe.accept h _ _) (Le.bind (Le.refl _) fun e => Le.ite (Le.refl _) ?_)
    exact foreignEnd_le h _ _ _ _
  | _ => exact Le.refl _

theorem handle_le (m : Mode) (s : St) (t : Tok) : Le (handle k m s t) (handle k' m s t) := by
  cases m
  · exact initial_le h s t
  · exact beforeHtml_le h s t
  · exact beforeHead_le h s t
  · exact inHead_le h s t
  · exact inHeadNoscript_le h s t
  · exact afterHead_le h s t
  · exact inBody_le h s t
  · exact Le.refl _
  · exact inTable_le h s t
  · exact inTableText_le h s t
  · exact inCaption_le h s t
  · exact inColumnGroup_le h s t
  · exact inTableBody_le h s t
  · exact inRow_le h s t
  · exact inCell_le h s t
  · exact inTemplate_le h s t
  · exact afterBody_le h s t
  · exact inFrameset_le h s t
  · exact afterFrameset_le h s t
  · exact afterAfterBody_le h s t
  · exact afterAfterFrameset_le h s t

omit h in
theorem run_le : ∀ (d : Nat) (m : Option Mode) (s : St) (t : Tok), Le (run d m s t) (run (d + 1) m s t) := by
  intro d
  induction d with
  | zero => intro m s t; exact Or.inl rfl
  | succ d ih =>
    intro m s t
    have hk : RecLe ⟨run d none, fun m => run d (some m)⟩
        ⟨run (d + 1) none, fun m => run (d + 1) (some m)⟩ :=
      ⟨fun s t => ih none s t, fun m s t => ih (some m) s t⟩
    cases m with
    | some m => exact handle_le hk m s t
    | none =>
      show Le (acceptStep _ s t) (acceptStep _ s t)
      unfold acceptStep
      refine Le.ite (Le.refl _) ?_
      exact Le.ite (hk.acceptIn _ _ _) (foreign_le hk _ _)

omit h in
/-- What a run gives does not change with the depth, once it ends. -/
theorem run_stays {d d' : Nat} (hd : d ≤ d') {m : Option Mode} {s : St} {t : Tok}
    (hr : run d m s t ≠ .error .endless) : run d' m s t = run d m s t := by
  obtain ⟨e, rfl⟩ : ∃ e, d' = d + e := ⟨d' - d, by omega⟩
  induction e with
  | zero => rfl
  | succ e ih =>
    have ih := ih (by omega)
    rcases run_le (d + e) m s t with h | h
    · rw [ih] at h; exact absurd h hr
    · rw [← Nat.add_assoc, ← h, ih]

omit h in
theorem run_mono {d d' : Nat} (hd : d ≤ d') {m : Option Mode} {s s' : St} {t : Tok}
    (hr : run d m s t = .ok s') : run d' m s t = .ok s' := by
  rw [run_stays hd (by rw [hr]; simp), hr]

omit h in
theorem build_stays {d d' : Nat} (hd : d ≤ d') : ∀ {ts : List Tok} {s : St},
    build d s ts ≠ .error .endless → build d' s ts = build d s ts := by
  intro ts
  induction ts with
  | nil => intro s hr; rfl
  | cons t ts ih =>
    intro s hr
    rw [build] at hr ⊢
    rw [build]
    have h1 : feed d' s t = feed d s t := by
      refine run_stays hd fun h => hr ?_
      show feed d s t >>= _ = _
      rw [show feed d s t = .error .endless from h]
      rfl
    rw [h1]
    cases hf : feed d s t with
    | error e => rfl
    | ok s1 =>
      rw [hf] at hr
      exact ih hr

end Verif.Tree
