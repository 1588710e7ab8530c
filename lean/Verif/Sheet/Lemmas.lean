import Verif.Sheet.Spec
import Verif.Values.Lemmas
import Verif.Run.Props

/-!
# Sheets: lemmas

The memo of the decorator never holds anything but what would be computed again, so each page can be told from its
number alone.
-/

namespace Verif.Sheet
open Verif.Run (Flow Orientation)

variable {tall : Doc → Media → Rat} {s : Settings} {d : Decorator} {m : Media} {view : Size} {css : Nat → Sides}

/-- What the heights are when nothing was remembered. -/
def fresh (tall : Doc → Media → Rat) (d : Decorator) (m : Media) (area : Size) : Rat × Rat :=
  (heightOf tall m area d.header d.headerSize, heightOf tall m area d.footer d.footerSize)

def Good (tall : Doc → Media → Rat) (d : Decorator) (m : Media) (memo : Memo) : Prop :=
  ∀ area h, lookup memo area = some h → h = fresh tall d m area

theorem lookup_snoc (memo : Memo) (a b : Size) (h : Rat × Rat) :
    lookup (memo ++ [(a, h)]) b = (lookup memo b).or (if a = b then some h else none) := by
  unfold lookup
  rw [List.find?_append]
  cases hf : memo.find? (fun x => decide (x.1 = b)) with
  | some x => simp
  | none => by_cases hab : a = b <;> simp [hab, List.find?]

theorem heights_spec {memo : Memo} (hg : Good tall d m memo) (area : Size) :
    (heights tall d m memo area).2 = fresh tall d m area ∧ Good tall d m (heights tall d m memo area).1 ∧
    lookup (heights tall d m memo area).1 area = some (fresh tall d m area) ∧
    ∀ b h, lookup memo b = some h → lookup (heights tall d m memo area).1 b = some h := by
  unfold heights
  cases hl : lookup memo area with
  | some h => exact ⟨hg _ _ hl, hg, by rw [hl, hg _ _ hl], fun _ _ hb => hb⟩
  | none =>
    refine ⟨rfl, ?_, ?_, ?_⟩
    · intro b h hb
      simp only [lookup_snoc] at hb
      cases hm : lookup memo b with
      | some h' => rw [hm] at hb; cases hb; exact hg _ _ hm
      | none =>
        rw [hm] at hb
        by_cases hab : area = b
        · subst hab; simp at hb; exact hb.symm
        · simp [hab] at hb
    · simp [lookup_snoc, hl, fresh]
    · intro b h hb
      simp [lookup_snoc, hb]

/-- A page by its number. -/
def infoOf (tall : Doc → Media → Rat) (s : Settings) (d : Decorator) (m : Media) (view : Size) (css : Nat → Sides)
    (number : Nat) : Info :=
  let page : Rect := ⟨0, 0, view.width, view.height⟩
  let decoration := page.shrink (resolvePageMargin s.margins (css number) page)
  let h := fresh tall d m decoration.size
  ⟨number, page, decoration, decoration.shrink ⟨h.1, 0, h.2, 0⟩⟩

theorem collect_spec (n done : Nat) (memo : Memo) (hg : Good tall d m memo) :
    Good tall d m (collect tall s d m view css n done memo).1 ∧
    (∀ b h, lookup memo b = some h → lookup (collect tall s d m view css n done memo).1 b = some h) ∧
    (collect tall s d m view css n done memo).2 =
      (List.range' (done + 1) n).map (infoOf tall s d m view css) ∧
    ∀ i ∈ (collect tall s d m view css n done memo).2,
      lookup (collect tall s d m view css n done memo).1 i.decoration.size = some (fresh tall d m i.decoration.size) := by
  induction n generalizing done memo with
  | zero => exact ⟨hg, fun _ _ h => h, rfl, by simp [collect]⟩
  | succ n ih =>
    simp only [collect]
    have h1 := heights_spec hg (infoOf tall s d m view css (done + 1)).decoration.size
    have hc : collectOne tall s d m view memo (done + 1) (css (done + 1)) =
        ((heights tall d m memo (infoOf tall s d m view css (done + 1)).decoration.size).1,
          infoOf tall s d m view css (done + 1)) := by
      simp only [collectOne, decoLayout, infoOf]
      refine congrArg (Prod.mk _) ?_
      have := h1.1
      simp only [infoOf] at this
      rw [this]
    rw [hc]
    obtain ⟨g2, k2, e2, f2⟩ := ih (done + 1) _ h1.2.1
    refine ⟨g2, fun b h hb => k2 _ _ (h1.2.2.2 _ _ hb), ?_, ?_⟩
    · simp only [e2, List.range'_succ, List.map_cons]
    · intro i hi
      rcases List.mem_cons.1 hi with rfl | hi
      · exact k2 _ _ h1.2.2.1
      · exact f2 _ hi

/-- Header and footer of a page. -/
def decosOf (d : Decorator) (m : Media) (area : Rect) (h : Rat × Rat) : List Item :=
  (match d.header with
    | some doc => [.decoration doc (viewed m ⟨area.width, h.1⟩) area.x area.y]
    | none => []) ++
  (match d.footer with
    | some doc => [.decoration doc (viewed m ⟨area.width, h.2⟩) area.x (area.y + area.height - h.2)]
    | none => [])

theorem decosOf_deco (d : Decorator) (m : Media) (area : Rect) (h : Rat × Rat) :
    ∀ i ∈ decosOf d m area h, ∃ d m x y, i = Item.decoration d m x y := by
  intro i hi
  rcases List.mem_append.1 hi with hi | hi <;> split at hi <;> simp at hi <;> exact ⟨_, _, _, _, hi⟩

/-- A painted page by its number. -/
def sheetOf (tall : Doc → Media → Rat) (s : Settings) (d : Decorator) (m : Media) (view : Size) (css : Nat → Sides)
    (zoom : Rat) (number : Nat) : Sheet :=
  let i := infoOf tall s d m view css number
  ⟨i, pageSize s, zoom,
    (if s.headerFooter && decide (s.margins ≠ .preset .none) then paintMargins i.page i.content else []) ++
    decosOf d m i.decoration (fresh tall d m i.decoration.size) ++
    [.content i.content]⟩

theorem sheet_items (zoom : Rat) (number : Nat) (p : Sheet) (h : p = sheetOf tall s d m view css zoom number) :
    ∃ ds, p.items = (if s.headerFooter && decide (s.margins ≠ .preset .none) then paintMargins p.info.page p.info.content
        else []) ++ ds ++ [.content p.info.content] ∧ ∀ i ∈ ds, ∃ d m x y, i = Item.decoration d m x y := by
  subst h
  exact ⟨decosOf d m (infoOf tall s d m view css number).decoration
    (fresh tall d m (infoOf tall s d m view css number).decoration.size), rfl, decosOf_deco _ _ _ _⟩

theorem paintAll_spec (memo : Memo) (zoom : Rat) (l : List Nat)
    (h : ∀ k ∈ l, lookup memo (infoOf tall s d m view css k).decoration.size =
      some (fresh tall d m (infoOf tall s d m view css k).decoration.size)) :
    paintAll s d m zoom memo (l.map (infoOf tall s d m view css)) =
      some (l.map (sheetOf tall s d m view css zoom)) := by
  induction l with
  | nil => rfl
  | cons k l ih =>
    have h1 : paintPage s d m zoom memo (infoOf tall s d m view css k) = some (sheetOf tall s d m view css zoom k) := by
      simp only [paintPage, decorate, h k List.mem_cons_self, sheetOf]
      rfl
    simp only [List.map_cons, paintAll, h1, ih fun j hj => h j (List.mem_cons_of_mem _ hj)]

theorem good_nil : Good tall d m [] := by intro a h hl; simp [lookup] at hl

/-- Printing, page by page. -/
theorem printed_eq {o : Opts} {k : Rat} (hk : o.scale.toDppx = some k) (h0 : k ≠ 0) (n : Nat) :
    printed tall o css n =
      .pages ((List.range' 1 n).map (sheetOf tall (derivePrintSettings o)
        ⟨o.header, o.footer, o.headerSize, o.footerSize⟩ (forPrint (derivePrintSettings o))
        ⟨(pageSize (derivePrintSettings o)).width / k, (pageSize (derivePrintSettings o)).height / k⟩ css k)) := by
  have hr : (forPrint (derivePrintSettings o)).resolution = some k := hk
  have hv : scaledViewport (forPrint (derivePrintSettings o)) =
      some ⟨(pageSize (derivePrintSettings o)).width / k, (pageSize (derivePrintSettings o)).height / k⟩ := by
    simp only [scaledViewport, hr, h0, if_false]
    rfl
  simp only [printed, hr, hv]
  obtain ⟨_, _, e, f⟩ := collect_spec (tall := tall) (s := derivePrintSettings o)
    (d := ⟨o.header, o.footer, o.headerSize, o.footerSize⟩) (m := forPrint (derivePrintSettings o))
    (view := ⟨(pageSize (derivePrintSettings o)).width / k, (pageSize (derivePrintSettings o)).height / k⟩) (css := css)
    n 0 [] good_nil
  rw [e] at f
  rw [e, paintAll_spec]
  intro j hj
  exact f _ (List.mem_map_of_mem hj)

theorem printed_cases (o : Opts) (n : Nat) :
    printed tall o css n = .noScale ∨ ∃ k, o.scale.toDppx = some k ∧ k ≠ 0 := by
  cases hk : o.scale.toDppx with
  | none => left; simp [printed, forPrint, derivePrintSettings, scaledViewport, hk]
  | some k =>
    by_cases h0 : k = 0
    · left; simp [printed, forPrint, derivePrintSettings, scaledViewport, hk, h0]
    · exact Or.inr ⟨k, rfl, h0⟩

/-- The pages that come out are the pages by their numbers. -/
theorem printed_sheet {o : Opts} {n : Nat} {l : List Sheet} (h : printed tall o css n = .pages l) :
    ∃ k, o.scale.toDppx = some k ∧ k ≠ 0 ∧ ∀ p ∈ l, ∃ j, p = sheetOf tall (derivePrintSettings o)
        ⟨o.header, o.footer, o.headerSize, o.footerSize⟩ (forPrint (derivePrintSettings o))
        ⟨(pageSize (derivePrintSettings o)).width / k, (pageSize (derivePrintSettings o)).height / k⟩ css k j := by
  rcases printed_cases (tall := tall) (css := css) o n with h' | ⟨k, hk, h0⟩
  · rw [h] at h'; cases h'
  · rw [printed_eq hk h0] at h
    cases h
    refine ⟨k, hk, h0, fun p hp => ?_⟩
    obtain ⟨j, _, rfl⟩ := List.mem_map.1 hp
    exact ⟨j, rfl⟩

end Verif.Sheet
