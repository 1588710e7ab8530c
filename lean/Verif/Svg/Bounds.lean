import Verif.Svg.Spec

/-!
# Drawings: bounds, and what breaks down (C183, C184)
-/

namespace Verif.Svg
open Verif.Values Verif.Transform Spec

/-! ## C183 -/

theorem covers_refl (r : Rect) : Covers r r := ⟨by grind, by grind, by grind, by grind⟩

theorem covers_trans {a b c : Rect} (h : Covers a b) (h' : Covers b c) : Covers a c := by
  simp only [Covers] at *; grind

theorem merge_left (a b : Rect) : Covers (merge a b) a := by
  simp only [Covers, merge]; grind

theorem merge_right (a b : Rect) : Covers (merge a b) b := by
  simp only [Covers, merge]; grind

theorem merge_least {a b c : Rect} (h : Covers c a) (h' : Covers c b) : Covers c (merge a b) := by
  simp only [Covers, merge] at *; grind

theorem mergeAll_covers (bs : List Rect) : ∀ b, Covers (mergeAll b bs) b ∧
    (∀ r ∈ bs, Covers (mergeAll b bs) r) ∧
    ∀ c, Covers c b → (∀ r ∈ bs, Covers c r) → Covers c (mergeAll b bs) := by
  induction bs with
  | nil => exact fun b => ⟨covers_refl b, by simp, fun c h _ => h⟩
  | cons x bs ih =>
    intro b
    obtain ⟨h1, h2, h3⟩ := ih (merge b x)
    refine ⟨covers_trans h1 (merge_left b x), fun r hr => ?_, fun c hb hc => ?_⟩
    · rcases List.mem_cons.1 hr with rfl | hr
      · exact covers_trans h1 (merge_right b r)
      · exact h2 r hr
    · exact h3 c (merge_least hb (hc x (List.mem_cons_self ..)))
        (fun r hr => hc r (List.mem_cons_of_mem _ hr))

/-- The merged boxes of some things, of which each is the least around something. -/
theorem mergeAll_least {bs : List Rect} {Q : Rect → Rect → Prop} {b : Rect}
    (h : ∀ x ∈ b :: bs, Least x (Q x)) :
    Least (mergeAll b bs) (fun r => ∃ x ∈ b :: bs, Q x r) := by
  obtain ⟨h1, h2, h3⟩ := mergeAll_covers bs b
  have hm : ∀ x ∈ b :: bs, Covers (mergeAll b bs) x := fun x hx => by
    rcases List.mem_cons.1 hx with rfl | hx
    · exact h1
    · exact h2 x hx
  refine ⟨fun r ⟨x, hx, hr⟩ => covers_trans (hm x hx) ((h x hx).1 r hr), fun b' hb => ?_⟩
  have hb' : ∀ x ∈ b :: bs, Covers b' x := fun x hx => (h x hx).2 b' (fun r hr => hb r ⟨x, hx, hr⟩)
  exact h3 b' (hb' b (List.mem_cons_self ..)) (fun r hr => hb' r (List.mem_cons_of_mem _ hr))

theorem objectBoxes_map (cs : List Frag) : objectBoxes cs = cs.map objectBox := by
  induction cs with
  | nil => rfl
  | cons c cs ih => simp [objectBoxes, ih]

theorem strokeBoxes_map (cs : List Frag) : strokeBoxes cs = cs.map strokeBox := by
  induction cs with
  | nil => rfl
  | cons c cs ih => simp [strokeBoxes, ih]

/-- The merged boxes of the children of a group. -/
theorem group_least {cs : List Frag} (hne : cs ≠ []) (box : Frag → Rect) (P : Frag → Rect → Prop)
    (h : ∀ c ∈ cs, Least (box c) (P c)) {b : Rect}
    (hb : b = match cs.map box with | [] => empty | b :: bs => mergeAll b bs) :
    Least b (fun r => ∃ c ∈ cs, P c r) := by
  cases cs with
  | nil => exact absurd rfl hne
  | cons c cs =>
    simp only [List.map_cons] at hb
    subst hb
    obtain ⟨h1, h2, h3⟩ := mergeAll_covers (cs.map box) (box c)
    have hm : ∀ x ∈ c :: cs, Covers (mergeAll (box c) (cs.map box)) (box x) := fun x hx => by
      rcases List.mem_cons.1 hx with rfl | hx
      · exact h1
      · exact h2 _ (List.mem_map_of_mem hx)
    refine ⟨fun r ⟨x, hx, hr⟩ => covers_trans (hm x hx) ((h x hx).1 r hr), fun b' hb => ?_⟩
    have hb' : ∀ x ∈ c :: cs, Covers b' (box x) :=
      fun x hx => (h x hx).2 b' (fun r hr => hb r ⟨x, hx, hr⟩)
    refine h3 b' (hb' c (List.mem_cons_self ..)) (fun r hr => ?_)
    obtain ⟨x, hx, rfl⟩ := List.mem_map.1 hr
    exact hb' x (List.mem_cons_of_mem _ hx)

theorem noEmpty_child {s : Style} {cs : List Frag} {c : Frag} (h : NoEmpty (.group s cs))
    (hc : c ∈ cs) : NoEmpty c := fun s' cs' hi => h s' cs' (.group hc hi)

/-- What is said of a single thing. -/
theorem least_one {f : Frag} {b : Rect} {P : Frag → Rect → Prop}
    (hw : ∀ g, Within g f → g = f) (h1 : P f b) (h2 : ∀ r, P f r → r = b) :
    Least b (fun r => ∃ g, Within g f ∧ P g r) := by
  refine ⟨fun r ⟨g, hg, hr⟩ => ?_, fun b' hb => hb b ⟨f, .here, h1⟩⟩
  cases hw g hg
  rw [h2 r hr]
  exact covers_refl _

theorem rect_ext {a b : Rect} (h1 : a.x = b.x) (h2 : a.y = b.y) (h3 : a.width = b.width)
    (h4 : a.height = b.height) : a = b := by
  cases a; cases b; simp_all

theorem within_group {s : Style} {cs : List Frag} {P : Frag → Rect → Prop}
    (hp : ∀ r, ¬ P (.group s cs) r) {b : Rect}
    (h : Least b (fun r => ∃ c ∈ cs, ∃ g, Within g c ∧ P g r)) :
    Least b (fun r => ∃ g, Within g (.group s cs) ∧ P g r) := by
  refine ⟨fun r ⟨g, hg, hr⟩ => ?_, fun b' hb => h.2 b' (fun r ⟨c, hc, g, hg, hr⟩ =>
    hb r ⟨g, .group hc hg, hr⟩)⟩
  cases hg with
  | here => exact absurd hr (hp r)
  | group hc hi => exact h.1 r ⟨_, hc, g, hi, hr⟩

theorem object_least : ∀ (n : Nat) (f : Frag), sizeOf f < n → NoEmpty f →
    Least (objectBox f) (fun r => ∃ g, Within g f ∧ Outline g r) := by
  intro n
  induction n with
  | zero => intro f h; omega
  | succ n ih =>
    intro f hn hf
    cases f with
    | rect s r w =>
      exact least_one (fun g hg => by cases hg; rfl) .rect (fun r hr => by cases hr; rfl)
    | circle s cx cy r w =>
      refine least_one (fun g hg => by cases hg; rfl) ?_ (fun r hr => ?_)
      · have : objectBox (.circle s cx cy r w) = ⟨cx - r, cy - r, r + r, r + r⟩ := by
          apply rect_ext <;> simp only [objectBox] <;> grind
        rw [this]; exact .circle
      · cases hr
        apply rect_ext <;> simp only [objectBox] <;> grind
    | path s b w =>
      exact least_one (fun g hg => by cases hg; rfl) .path (fun r hr => by cases hr; rfl)
    | root s m b cs =>
      exact least_one (fun g hg => by cases hg; rfl) .root (fun r hr => by cases hr; rfl)
    | foreign s b =>
      exact least_one (fun g hg => by cases hg; rfl) .foreign (fun r hr => by cases hr; rfl)
    | group s cs =>
      refine within_group (fun r h => by cases h) ?_
      refine group_least (hf s cs .here) objectBox (fun c r => ∃ g, Within g c ∧ Outline g r)
        (fun c hc => ih c ?_ (noEmpty_child hf hc)) ?_
      · have := List.sizeOf_lt_of_mem hc
        simp only [Frag.group.sizeOf_spec] at hn
        omega
      · simp only [objectBox, objectBoxes_map]
        cases cs <;> rfl

theorem stroke_least : ∀ (n : Nat) (f : Frag), sizeOf f < n → NoEmpty f →
    Least (strokeBox f) (fun r => ∃ g, Within g f ∧ Inked g r) := by
  intro n
  induction n with
  | zero => intro f h; omega
  | succ n ih =>
    intro f hn hf
    cases f with
    | rect s r w =>
      refine least_one (fun g hg => by cases hg; rfl) ?_ (fun r hr => ?_)
      · have : strokeBox (.rect s r w) = ⟨r.x - w / 2, r.y - w / 2, r.width + w, r.height + w⟩ := by
          apply rect_ext <;> simp only [strokeBox, grow] <;> grind
        rw [this]; exact .rect
      · cases hr
        apply rect_ext <;> simp only [strokeBox, grow] <;> grind
    | circle s cx cy r w =>
      refine least_one (fun g hg => by cases hg; rfl) ?_ (fun r hr => ?_)
      · have : strokeBox (.circle s cx cy r w) =
            ⟨cx - r - w / 2, cy - r - w / 2, r + r + w, r + r + w⟩ := by
          apply rect_ext <;> simp only [strokeBox, grow] <;> grind
        rw [this]; exact .circle
      · cases hr
        apply rect_ext <;> simp only [strokeBox, grow] <;> grind
    | path s r w =>
      refine least_one (fun g hg => by cases hg; rfl) ?_ (fun r hr => ?_)
      · have : strokeBox (.path s r w) = ⟨r.x - w / 2, r.y - w / 2, r.width + w, r.height + w⟩ := by
          apply rect_ext <;> simp only [strokeBox, grow] <;> grind
        rw [this]; exact .path
      · cases hr
        apply rect_ext <;> simp only [strokeBox, grow] <;> grind
    | root s m b cs =>
      exact least_one (fun g hg => by cases hg; rfl) .root (fun r hr => by cases hr; rfl)
    | foreign s b =>
      exact least_one (fun g hg => by cases hg; rfl) .foreign (fun r hr => by cases hr; rfl)
    | group s cs =>
      refine within_group (fun r h => by cases h) ?_
      refine group_least (hf s cs .here) strokeBox (fun c r => ∃ g, Within g c ∧ Inked g r)
        (fun c hc => ih c ?_ (noEmpty_child hf hc)) ?_
      · have := List.sizeOf_lt_of_mem hc
        simp only [Frag.group.sizeOf_spec] at hn
        omega
      · simp only [strokeBox, strokeBoxes_map]
        cases cs <;> rfl

/-- **C183 (in part).** What the percentages and keywords of a transform of an element are about, with
`transform-box: fill-box` (or `content-box`), is the smallest rectangle around the outlines of all
shapes in it, and with `stroke-box` (or `border-box`) around their strokes too, if no group is empty.
The transforms of the shapes in a group do not count; see below. -/
theorem C183_least_partial (f : Frag) (hf : NoEmpty f) (view : Rect) :
    (∀ k, k = .fill ∨ k = .content → Least (reference (objectBox f) (strokeBox f) view k)
      (fun r => ∃ g, Within g f ∧ Outline g r)) ∧
    (∀ k, k = .stroke ∨ k = .border → Least (reference (objectBox f) (strokeBox f) view k)
      (fun r => ∃ g, Within g f ∧ Inked g r)) := by
  refine ⟨fun k hk => ?_, fun k hk => ?_⟩
  · rcases hk with rfl | rfl <;> exact object_least _ f (Nat.lt_succ_self _) hf
  · rcases hk with rfl | rfl <;> exact stroke_least _ f (Nat.lt_succ_self _) hf

/-- A group with a rectangle and a circle in another group. -/
example : NoEmpty (.group {} [.rect {} ⟨1, 2, 3, 4⟩ 1, .group {} [.circle {} 10 10 5 1]]) ∧
    objectBox (.group {} [.rect {} ⟨1, 2, 3, 4⟩ 1, .group {} [.circle {} 10 10 5 1]]) =
      ⟨1, 2, 14, 13⟩ := by
  refine ⟨fun s cs h => ?_, by decide +kernel⟩
  cases h with
  | here => simp
  | group hc hi =>
    simp only [List.mem_cons, List.not_mem_nil, or_false] at hc
    rcases hc with rfl | rfl
    · cases hi
    · cases hi with
      | here => simp
      | group hc hi =>
        simp only [List.mem_cons, List.not_mem_nil, or_false] at hc
        subst hc; cases hi

/-- **C183.** It is false that an empty group does not count: the corner of the drawing is taken for
it. -/
theorem C183_empty_fails :
    objectBox (.group {} [.rect {} ⟨100, 100, 10, 10⟩ 0, .group {} []]) = ⟨0, 0, 110, 110⟩ ∧
      objectBox (.group {} [.rect {} ⟨100, 100, 10, 10⟩ 0]) = ⟨100, 100, 10, 10⟩ := by
  decide +kernel

/-- **C183.** It is false that a shape counts where it is painted: the box of a group is the same
whatever the transforms in it. -/
theorem C183_transform_fails (s : Style) (r : Rect) (w : Rat) (fs : Option (List Fn)) (q : Style) :
    objectBox (.group q [.rect { s with transform := fs } r w]) = objectBox (.group q [.rect s r w]) :=
  rfl

/-! ## C184 -/

theorem fromSize_usable {s : Size} (h : Usable s) : ∃ v, fromSize s = .ok v := by
  cases h <;> exact ⟨_, rfl⟩

theorem resolveRectangle_usable {s : Style} (hw : Usable s.width) (hh : Usable s.height) (rel : Pt) :
    ∃ r, resolveRectangle s rel = .ok r := by
  obtain ⟨a, ha⟩ := fromSize_usable hw
  obtain ⟨b, hb⟩ := fromSize_usable hh
  exact ⟨_, by simp only [resolveRectangle, ha, hb]; rfl⟩

/-- An element can be laid out by itself. -/
def Fine (e : El) : Prop :=
  (∀ s, Sized s e → Usable s.width ∧ Usable s.height) ∧
  ∀ s cs, e = .root s cs → ∀ vb, s.viewBox = some vb → vb.width ≠ 0 ∧ vb.height ≠ 0

theorem rootTransform_fine (o : Order) {vb : Option ViewBox}
    (h : ∀ v, vb = some v → v.width ≠ 0 ∧ v.height ≠ 0) (pos size : Pt) :
    ∃ m, rootTransform o vb pos size = .ok m := by
  cases vb with
  | none => exact ⟨_, rfl⟩
  | some v =>
    obtain ⟨h1, h2⟩ := h v rfl
    simp only [rootTransform, viewportTransform, h1, h2, or_self, if_false]
    exact ⟨_, rfl⟩

mutual
theorem commit_fine (o : Order) (diag : Pt → Rat) : ∀ (e : El) (rel : Pt),
    (∀ p, Part p e → Fine p) → ∃ g, commit o diag rel e = .ok g
  | .rect s, rel, h => by
    obtain ⟨hw, hh⟩ := (h _ .here).1 s .rect
    obtain ⟨r, hr⟩ := resolveRectangle_usable hw hh rel
    exact ⟨_, by simp only [commit, hr]; rfl⟩
  | .circle s, rel, h => ⟨_, rfl⟩
  | .path s b, rel, h => ⟨_, rfl⟩
  | .group s cs, rel, h => by
    obtain ⟨fs, hfs⟩ := commitAll_fine o diag cs rel (fun c hc p hp => h p (.group hc hp))
    exact ⟨_, by simp only [commit, hfs]; rfl⟩
  | .root s cs, rel, h => by
    obtain ⟨hw, hh⟩ := (h _ .here).1 s .root
    obtain ⟨r, hr⟩ := resolveRectangle_usable hw hh rel
    obtain ⟨m, hm⟩ := rootTransform_fine o ((h _ .here).2 s cs rfl) (r.x, r.y) (r.width, r.height)
    obtain ⟨fs, hfs⟩ := commitAll_fine o diag cs (percentageBase s.viewBox (r.width, r.height))
      (fun c hc p hp => h p (.root hc hp))
    exact ⟨_, by simp only [commit, hr, hm, hfs]; rfl⟩
  | .foreign s, rel, h => by
    obtain ⟨hw, hh⟩ := (h _ .here).1 s .foreign
    obtain ⟨r, hr⟩ := resolveRectangle_usable hw hh rel
    exact ⟨_, by simp only [commit, hr]; rfl⟩
theorem commitAll_fine (o : Order) (diag : Pt → Rat) : ∀ (es : List El) (rel : Pt),
    (∀ c ∈ es, ∀ p, Part p c → Fine p) → ∃ gs, commitAll o diag rel es = .ok gs
  | [], rel, h => ⟨_, rfl⟩
  | e :: es, rel, h => by
    obtain ⟨g, hg⟩ := commit_fine o diag e rel (h e (List.mem_cons_self ..))
    obtain ⟨gs, hgs⟩ := commitAll_fine o diag es rel (fun c hc => h c (List.mem_cons_of_mem _ hc))
    exact ⟨_, by simp only [commitAll, hg, hgs]; rfl⟩
end

/-- **C184 (in part).** A drawing whose width and height are known is laid out, without a stop or an
infinite number, if the sizes of its elements, as far as they count, are `auto`, a length, a
percentage or a `calc()` of two operands, and no view box has a width or height of zero.  Not for other
sizes and view boxes; see below. -/
theorem C184_ok_partial (o : Order) (diag : Pt → Rat) (s : Style) (cs : List El) (w h : Rat)
    (containing pos : Pt)
    (hs : ∀ e, Part e (.root s cs) →
      (∀ s, Sized s e → Usable s.width ∧ Usable s.height) ∧
      ∀ s cs, e = .root s cs → ∀ vb, s.viewBox = some vb → vb.width ≠ 0 ∧ vb.height ≠ 0) :
    ∃ g, run o diag s cs (some w, some h) containing pos = .ok g := by
  have ab : ∀ {z : Size}, Usable z → ∃ l, absoluteValue z = .ok l := fun hz => by
    cases hz with
    | auto => exact ⟨_, rfl⟩
    | @value v => cases v <;> exact ⟨_, rfl⟩
    | two => exact ⟨_, rfl⟩
  obtain ⟨hw, hh⟩ := (hs _ .here).1 s .root
  obtain ⟨a, ha⟩ := ab hw
  obtain ⟨b, hb⟩ := ab hh
  have hq : ∃ q, aspectRatio s.viewBox s.width s.height = .ok q := by
    simp only [aspectRatio, ha, hb]
    cases a <;> cases b <;> exact ⟨_, rfl⟩
  obtain ⟨q, hq⟩ := hq
  have hd : defaultSizing (some w, some h) q containing = .ok (w, h) := by cases q <;> rfl
  obtain ⟨m, hm⟩ := rootTransform_fine o ((hs _ .here).2 s cs rfl) pos (w, h)
  obtain ⟨fs, hfs⟩ := commitAll_fine o diag cs (percentageBase s.viewBox (w, h))
    (fun c hc p hp => hs p (.root hc hp))
  exact ⟨_, by simp only [run, hq, hd, commitRoot, hm, hfs]; rfl⟩

/-- A drawing with a rectangle in a group. -/
example : ∀ e, Part e (.root { viewBox := some ⟨0, 0, 10, 10⟩ } [.group {} [.rect {}]]) →
    (∀ s, Sized s e → Usable s.width ∧ Usable s.height) ∧
      ∀ s cs, e = .root s cs → ∀ vb, s.viewBox = some vb → vb.width ≠ 0 ∧ vb.height ≠ 0 := by
  intro e he
  cases he with
  | here =>
    refine ⟨fun s h => ?_, fun s cs h vb hv => ?_⟩
    · cases h; exact ⟨.auto, .auto⟩
    · cases h; cases hv; decide +kernel
  | root hc hi =>
    simp only [List.mem_cons, List.not_mem_nil, or_false] at hc
    subst hc
    cases hi with
    | here => exact ⟨fun s h => (by cases h), fun s cs h => (by cases h)⟩
    | group hc hi =>
      simp only [List.mem_cons, List.not_mem_nil, or_false] at hc
      subst hc
      cases hi
      exact ⟨fun s h => by cases h; exact ⟨.auto, .auto⟩, fun s cs h => by cases h⟩

/-- **C184.** It is false of all sizes that can be declared: a rectangle with
`width: min-content` or `width: calc(5)` stops the program. -/
theorem C184_stops_fails (o : Order) (diag : Pt → Rat) (rel : Pt) (s : Style) :
    declared parseSize [.ident "min-content".toList] = some .minContent ∧
    commit o diag rel (.rect { s with width := .minContent }) = .error .panic ∧
    declared parseSize [.func "calc(".toList [.number "5".toList]] = some (.calc (.one (.num 5))) ∧
    commit o diag rel (.rect { s with width := .calc (.one (.num 5)) }) = .error .panic := by
  refine ⟨by decide +kernel, ?_, by decide +kernel, ?_⟩ <;>
  simp [commit, resolveRectangle, fromSize, extractValue]

end Verif.Svg
