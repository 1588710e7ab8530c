import Verif.Registry.Slots
import Verif.Cascade.Model
/-!
# C105–C110: what the properties do to computed values
-/
namespace Verif.Registry

variable {V : Type}

/-! ## A case to try the theorems on -/

/-- Values as numbers; colours and weights already computed, `0` being `currentcolor`,
`bolder` and `larger`, and `auto` for an outline colour. -/
def litNum : Lit → Nat
  | .black => 1 | .regular => 2 | .medium => 3 | .currentColor => 0 | .auto => 0 | .zero => 10 | .none => 11
  | .normal => 12 | .baseline => 13 | _ => 14
def num : Calc Nat where
  lit := litNum
  color x y := if x = 0 then y + 1000 else x
  weight x y := if x = 0 then y + 1000 else x
  size x p := if x = 0 then p .fontSize + 1000 else x
  outline x s k := if x = 0 then s + k + 1000 else x

theorem num_lawful : num.Lawful where
  color_idem v x y := by by_cases h : v = 0 <;> simp [num, h]
  weight_idem v x y := by by_cases h : v = 0 <;> simp [num, h]
  size_idem v p q := by by_cases h : v = 0 <;> simp [num, h]
  outline_idem v s k s' k' := by by_cases h : v = 0 <;> simp [num, h]
  color_lit x := rfl
  weight_lit x := rfl
  size_lit p := rfl

/-- Some parent: all its values are told apart by what was declared on it. -/
def parentEs : List (Name × Value Nat) :=
  [(.color, [some 0]), (.marginTop, [some 51]), (.marginRight, [some 52]), (.marginBottom, [some 53]),
   (.marginLeft, [some 54]), (.borderTopLeftRadius, [some 61, some 62]), (.borderTopWidth, [some 71]),
   (.borderRightWidth, [some 72]), (.borderBottomWidth, [some 73]), (.borderLeftWidth, [some 74]),
   (.visibility, [some 81]), (.fontWeight, [some 700]), (.baselineShift, [some 91])]
def someParent : Style Nat := computeValues num (fun _ => 5) registry (initialValues num (fun _ => 5) registry) parentEs
theorem someParent_computed : Computed num (fun _ => 5) registry someParent := .child _ _ .root

/-! ## C105: `inherit` -/

/-- The properties whose `inherit` is wrong or not implemented. -/
def wrongInherit : List Name :=
  [.backgroundImage, .backgroundPosition, .backgroundRepeat, .background, .lineHeight, .borderColor, .borderStyle,
   .borderWidth, .border, .borderTopLeftRadius, .borderBottomRightRadius, .marginInline, .marginBlock]

theorem inherit_table : ∀ r ∈ registry, r.name ∉ wrongInherit →
    (∀ t ∈ slots r, t.2.1 ∈ sets r.name ∧ r.load[t.2.2]? = some t.2.1) ∧
    (∀ f ∈ sets r.name, ∃ t ∈ slots r, t.2.1 = f) := by decide +kernel

theorem declare_inherit {c : Calc V} (r : Reg) (hr : r ∈ registry) (hn : r.name ∉ wrongInherit) {parent : Style V}
    (hs : Settled c parent) (child : Style V) (f : Field) :
    declare c r parent child (r.loadValue parent) f = if f ∈ sets r.name then parent f else child f := by
  obtain ⟨h1, h2⟩ := inherit_table r hr hn
  have comp : ∀ j g, r.load[j]? = some g → component (r.loadValue parent) j = some (parent g) := by
    intro j g h; simp [component, Reg.loadValue, h]
  split
  · next hf =>
    refine all_const c parent _ child f _ ?_ (.inr ?_)
    · intro e he x hx s'
      obtain ⟨j, hj, hc⟩ := gives_slot hr he hx
      have := (h1 _ hj).2
      rw [comp j f this] at hc; cases hc
      exact settled_step hs (slot_special r hr _ hj) _ _
    · obtain ⟨t, ht, e⟩ := h2 f hf
      obtain ⟨m, g, j⟩ := t
      simp only at e; subst e
      obtain ⟨e, he, _, hg⟩ := slot_gives (v := r.loadValue parent) hr ht (comp j g (h1 _ ht).2)
      exact ⟨e, he, _, hg⟩
  · next hf =>
    refine all_untouched c parent _ child f ?_
    intro e he x hx
    obtain ⟨j, hj, _⟩ := gives_slot hr he hx
    exact hf (h1 _ hj).1

/-- **C105**, for the properties outside `wrongInherit`: `inherit` gives an element its
parent's values of what the property sets and leaves everything else as it was.  Missing: the
properties for which it is false (below) or not implemented. -/
theorem C105_inherit_partial {c : Calc V} (hl : c.Lawful) {fresh : Style V} {order : List Reg}
    (hp : order.Perm registry) {parent : Style V} (hc : Computed c fresh order parent) (r : Reg) (hr : r ∈ registry)
    (hn : r.name ∉ wrongInherit) (child : Style V) (f : Field) :
    declare c r parent child (r.defaulted c .inherit parent) f = if f ∈ sets r.name then parent f else child f :=
  declare_inherit r hr hn (settled_computed hl hp hc) child f

example : marginR ∈ registry ∧ marginR.name ∉ wrongInherit ∧ verticalAlignR.name ∉ wrongInherit ∧
    sets marginR.name = [.marginTop, .marginRight, .marginBottom, .marginLeft] ∧ someParent .marginLeft = 54 := by
  decide +kernel
example : declare num marginR someParent (fun _ => 9) (marginR.defaulted num .inherit someParent) .marginLeft = 54 := by
  decide +kernel

/-- What C105 says of one property. -/
def Inherits (r : Reg) : Prop :=
  ∀ child : Style Nat, ∀ f, declare num r someParent child (r.defaulted num .inherit someParent) f =
    if f ∈ sets r.name then someParent f else child f

/-- `border-top-left-radius: inherit` swaps the two radii of the corner. -/
theorem C105_corner_fails : ¬ Inherits borderTopLeftRadiusR ∧
    ∀ child, declare num borderTopLeftRadiusR someParent child
      (borderTopLeftRadiusR.defaulted num .inherit someParent) .radiusA = someParent .radiusB := by
  refine ⟨fun h => ?_, fun child => ?_⟩
  · have := h (fun _ => 9) .radiusA; revert this; decide +kernel
  · have : Gives (V := Nat) (.borderTopLeftRadius, [some (someParent .radiusA), some (someParent .radiusB)]) .radiusA
        (someParent .radiusB) := ⟨borderTopLeftRadiusR, 1, by decide +kernel, by decide +kernel, rfl⟩
    exact all_one num someParent [(.borderTopLeftRadius, _)] child .radiusA (by simp) List.mem_cons_self this
      (by intro e he hne; rw [List.mem_singleton.1 he] at hne; exact absurd rfl hne)

/-- `border-width: inherit` gives the top border the parent's left width and the left one the
parent's bottom width. -/
theorem C105_border_width_fails : ¬ Inherits borderWidthR ∧
    (∀ g, declare num borderWidthR someParent (fun _ => 9) (borderWidthR.defaulted num .inherit someParent) g =
      if g = .borderTopWidth then someParent .borderLeftWidth
      else if g = .borderRightWidth then someParent .borderRightWidth
      else if g = .borderBottomWidth then someParent .borderTopWidth
      else if g = .borderLeftWidth then someParent .borderBottomWidth else 9) := by
  refine ⟨fun h => ?_, fun g => ?_⟩
  · have := h (fun _ => 9) .borderTopWidth; revert this; decide +kernel
  · cases g <;> decide +kernel

/-- `margin-inline: inherit` gives both sides the parent's right margin. -/
theorem C105_margin_inline_fails : ¬ Inherits marginInlineR ∧ ¬ Inherits marginBlockR ∧
    declare num marginInlineR someParent (fun _ => 9) (marginInlineR.defaulted num .inherit someParent) .marginLeft =
      someParent .marginRight := by
  refine ⟨fun h => ?_, fun h => ?_, by decide +kernel⟩
  · have := h (fun _ => 9) .marginLeft; revert this; decide +kernel
  · have := h (fun _ => 9) .marginBottom; revert this; decide +kernel

/-- `border: inherit` gives all four sides the parent's top border. -/
theorem C105_border_fails : ¬ Inherits borderR ∧
    declare num borderR someParent (fun _ => 9) (borderR.defaulted num .inherit someParent) .borderLeftWidth =
      someParent .borderTopWidth := by
  refine ⟨fun h => ?_, by decide +kernel⟩
  have := h (fun _ => 9) .borderLeftWidth; revert this; decide +kernel

/-! ## C106: `initial` -/

/-- The properties whose `initial` differs from the CSS one, resets less than CSS says, or is
not implemented. -/
def wrongInitial : List Name :=
  [.backgroundImage, .backgroundPosition, .backgroundRepeat, .background, .lineHeight, .alignContent, .justifyContent,
   .alignItems, .textAlign, .borderTopColor, .borderRightColor, .borderBottomColor, .borderLeftColor, .borderColor,
   .verticalAlign, .font]

theorem initial_table : ∀ r ∈ registry, r.name ∉ wrongInitial →
    (∀ t ∈ slots r, t.2.1 ∈ sets r.name ∧ component r.initial t.2.2 = some (initially t.2.1)) ∧
    (∀ f ∈ sets r.name, ∃ t ∈ slots r, t.2.1 = f) := by decide +kernel

theorem declare_initial {c : Calc V} (hl : c.Lawful) (r : Reg) (hr : r ∈ registry) (hn : r.name ∉ wrongInitial)
    (parent child : Style V) (f : Field) :
    declare c r parent child (r.initialValue c) f =
      if f ∈ sets r.name then
        if f = .outlineColor then
          c.outline (c.lit .auto) (declare c r parent child (r.initialValue c) .outlineStyle)
            (declare c r parent child (r.initialValue c) .color)
        else c.lit (initially f)
      else child f := by
  obtain ⟨h1, h2⟩ := initial_table r hr hn
  have comp : ∀ j g, component r.initial j = some (initially g) →
      component (r.initialValue c) j = some (c.lit (initially g)) := by
    intro j g h; rw [Reg.initialValue, component_map, h]; rfl
  split
  · next hf =>
    obtain ⟨t, ht, e⟩ := h2 f hf
    obtain ⟨m, g, j⟩ := t
    simp only at e; subst e
    obtain ⟨e, he, hm, hg⟩ := slot_gives (v := r.initialValue c) hr ht (comp j g (h1 _ ht).2)
    split
    · next hgo =>
      subst hgo
      have hm' : e.1 = .outlineColor := hm.trans ((slot_special r hr _ ht).2.2.2.2 rfl)
      have := all_one c parent _ child .outlineColor (entries_nodup hr (r.initialValue c)) he hg ?_
      · rw [hm'] at this; exact this
      · intro e' he' hne x hx
        obtain ⟨j', hj', _⟩ := gives_slot hr he' hx
        exact hne (((slot_special r hr _ hj').2.2.2.2 rfl).trans hm'.symm)
    · next hgo =>
      refine all_const c parent _ child g _ ?_ (.inr ⟨e, he, _, hg⟩)
      intro e' he' x hx s'
      obtain ⟨j', hj', hc⟩ := gives_slot hr he' hx
      rw [comp j' g (h1 _ hj').2] at hc; cases hc
      exact initial_step hl (slot_special r hr _ hj') hgo (fun e => by subst e; rfl) (fun e => by subst e; rfl)
        (fun e => by subst e; rfl) _ _
  · next hf =>
    refine all_untouched c parent _ child f ?_
    intro e he x hx
    obtain ⟨j, hj, _⟩ := gives_slot hr he hx
    exact hf (h1 _ hj).1

/-- **C106**, for the properties outside `wrongInitial`: `initial` gives what the property
sets the initial values of CSS and leaves everything else as it was.  The initial outline
colour is computed from the element's own outline style and colour.  Missing: the properties
for which it is false or not implemented. -/
theorem C106_initial_partial {c : Calc V} (hl : c.Lawful) (r : Reg) (hr : r ∈ registry) (hn : r.name ∉ wrongInitial)
    (parent child : Style V) (f : Field) :
    declare c r parent child (r.defaulted c .initial parent) f =
      if f ∈ sets r.name then
        if f = .outlineColor then
          c.outline (c.lit .auto) (declare c r parent child (r.defaulted c .initial parent) .outlineStyle)
            (declare c r parent child (r.defaulted c .initial parent) .color)
        else c.lit (initially f)
      else child f :=
  declare_initial hl r hr hn parent child f

example : outlineR ∈ registry ∧ outlineR.name ∉ wrongInitial ∧ borderR.name ∉ wrongInitial ∧
    declare num outlineR someParent (fun _ => 9) (outlineR.defaulted num .initial someParent) .outlineColor = 11 + 9 + 1000 ∧
    declare num marginR someParent (fun _ => 9) (marginR.defaulted num .initial someParent) .marginLeft = 10 := by
  decide +kernel

/-- `font: initial` keeps the weight; `vertical-align: initial` keeps the shift;
`border-top-color: initial` is black, not the element's colour. -/
theorem C106_initial_fails (child : Style Nat) :
    declare num fontR someParent child (fontR.defaulted num .initial someParent) .fontWeight = child .fontWeight ∧
    declare num verticalAlignR someParent child (verticalAlignR.defaulted num .initial someParent) .baselineShift =
      child .baselineShift ∧
    (component (borderTopColorR.initialValue num) 0 = some (num.lit .black) ∧ initially .borderTopColor = .currentColor) := by
  have keep : ∀ r ∈ registry, ∀ f, (∀ t ∈ slots r, t.2.1 = f → component r.initial t.2.2 = none) →
      declare num r someParent child (r.defaulted num .initial someParent) f = child f := by
    intro r hr f h
    refine all_untouched num someParent _ child f ?_
    intro e he x hx
    obtain ⟨j, hj, hc⟩ := gives_slot hr he hx
    have hcc : component (r.initialValue num) j = some x := hc
    rw [Reg.initialValue, component_map, h _ hj rfl] at hcc
    cases hcc
  exact ⟨keep fontR (by decide +kernel) _ (by decide +kernel), keep verticalAlignR (by decide +kernel) _ (by decide +kernel),
    rfl, rfl⟩

/-! ## C107: `unset` -/

/-- The registrations whose inherited flag is not that of CSS: `visibility` and
`dominant-baseline` lack it, and `font` and `list-style` are shorthands of inherited
properties. -/
def wrongUnset : List Name := [.visibility, .dominantBaseline, .font, .listStyle]

theorem unset_table : ∀ r ∈ registry, r.name ∉ wrongUnset → ∀ f ∈ sets r.name, r.inherited = passesDown f := by
  decide +kernel

/-- **C107**, for the properties outside the three lists: `unset` is `inherit` for what CSS
says passes down and `initial` for the rest. -/
theorem C107_unset_partial {c : Calc V} (hl : c.Lawful) {fresh : Style V} {order : List Reg}
    (hp : order.Perm registry) {parent : Style V} (hc : Computed c fresh order parent) (r : Reg) (hr : r ∈ registry)
    (h1 : r.name ∉ wrongInherit) (h2 : r.name ∉ wrongInitial) (h3 : r.name ∉ wrongUnset) (child : Style V) (f : Field)
    (ho : f ≠ .outlineColor) :
    declare c r parent child (r.defaulted c .unset parent) f =
      if f ∈ sets r.name then if passesDown f then parent f else c.lit (initially f) else child f := by
  have ht := unset_table r hr h3
  cases hi : r.inherited with
  | true =>
    have : r.defaulted c .unset parent = r.loadValue parent := by simp [Reg.defaulted, hi]
    rw [this, declare_inherit r hr h1 (settled_computed hl hp hc)]
    split
    · next hf => rw [← ht f hf, hi]; rfl
    · rfl
  | false =>
    have : r.defaulted c .unset parent = r.initialValue c := by simp [Reg.defaulted, hi]
    rw [this, declare_initial hl r hr h2, if_neg ho]
    split
    · next hf => rw [← ht f hf, hi]; rfl
    · rfl

example : colorR.name ∉ wrongInherit ∧ colorR.name ∉ wrongInitial ∧ colorR.name ∉ wrongUnset ∧
    declare num colorR someParent (fun _ => 9) (colorR.defaulted num .unset someParent) .color = 1001 ∧
    declare num paddingR someParent (fun _ => 9) (paddingR.defaulted num .unset someParent) .paddingTop = 10 := by
  decide +kernel

/-- `visibility: unset` does not take the parent's visibility, and `font: unset` does not take
its font. -/
theorem C107_unset_fails : passesDown .visibility = true ∧ passesDown .fontSize = true ∧
    declare num visibilityR someParent (fun _ => 9) (visibilityR.defaulted num .unset someParent) .visibility ≠
      someParent .visibility ∧
    ∃ parent : Style Nat, Computed num (fun _ => 5) registry parent ∧
      declare num fontR parent (fun _ => 9) (fontR.defaulted num .unset parent) .fontSize ≠ parent .fontSize := by
  refine ⟨rfl, rfl, by decide +kernel,
    computeValues num (fun _ => 5) registry (initialValues num (fun _ => 5) registry) [(.fontSize, [some 77])],
    .child _ _ .root, by decide +kernel⟩

/-! ## C108: values nothing declares -/

/-- The values that do not start as CSS says. -/
def wrongDefault : List Field :=
  [.visibility, .dominantBaseline, .lineHeight, .backgroundImage, .backgroundPosition, .backgroundRepeat, .order,
   .borderTopColor, .borderRightColor, .borderBottomColor, .borderLeftColor, .alignContent, .justifyContent, .alignItems,
   .outlineColor]

theorem default_inherited : ∀ f, passesDown f = true → f ∉ wrongDefault →
    ∃ r ∈ registry, r.inherited = true ∧ ∃ q ∈ r.copies, q.1 = f := by
  intro f
  cases f <;> intro h h' <;> first | exact absurd h (by decide) | exact absurd (by decide) h' | decide +kernel

theorem default_not : ∀ r ∈ registry, r.inherited = true → ∀ q ∈ r.copies, passesDown q.1 = true := by decide +kernel

theorem default_initial : ∀ r ∈ registry, r.shorthand = false → ∀ w ∈ r.writes, w.1 ∉ Field.textAlign :: wrongDefault →
    component r.initial w.2 = some (initially w.1) := by decide +kernel

theorem default_some : ∀ f, f ∉ Field.textAlign :: wrongDefault →
    ∃ r ∈ registry, r.shorthand = false ∧ ∃ w ∈ r.writes, w.1 = f := by
  intro f
  cases f <;> intro h <;> first | exact absurd (by decide) h | decide +kernel

/-- **C108**, for the values outside `wrongDefault`: with nothing declared, an element has its
parent's value of what CSS says passes down and the initial value of the rest, in whatever
order the registrations are gone through.  Missing: the values for which it is false. -/
theorem C108_default_partial {c : Calc V} (hl : c.Lawful) (fresh : Style V) {order : List Reg}
    (hp : order.Perm registry) (parent : Style V) (f : Field) (hf : f ∉ wrongDefault) :
    computeValues c fresh order parent [] f = if passesDown f then parent f else c.lit (initially f) := by
  show inheritsValues c fresh order parent f = _
  unfold inheritsValues
  split
  · next h => exact inherit_copies parent hp _ (.inr (default_inherited f h hf))
  · next h =>
    rw [inherit_not parent hp _ (fun r hr hi q hq e => h (by rw [← e]; exact default_not r hr hi q hq))]
    have hf' : f ∉ Field.textAlign :: wrongDefault := by
      intro hm
      rcases List.mem_cons.1 hm with e | hm
      · subst e; exact h rfl
      · exact hf hm
    have ho : f ≠ .outlineColor := by intro e; subst e; exact hf (by decide)
    exact initialValues_eq hl fresh hp ho (fun r hr hs w hw e => by rw [← e]; exact default_initial r hr hs w hw (e ▸ hf'))
      (default_some f hf')

/-- The style of the document itself: the initial values of CSS. -/
theorem C108_document_partial {c : Calc V} (hl : c.Lawful) (fresh : Style V) {order : List Reg}
    (hp : order.Perm registry) (f : Field) (hf : f ∉ wrongDefault) (ht : f ≠ .textAlign) :
    initialValues c fresh order f = c.lit (initially f) := by
  have hf' : f ∉ Field.textAlign :: wrongDefault := by
    intro hm
    rcases List.mem_cons.1 hm with e | hm
    · exact ht e
    · exact hf hm
  have ho : f ≠ .outlineColor := by intro e; subst e; exact hf (by decide)
  exact initialValues_eq hl fresh hp ho (fun r hr hs w hw e => by rw [← e]; exact default_initial r hr hs w hw (e ▸ hf'))
    (default_some f hf')

example : Field.color ∉ wrongDefault ∧ passesDown .color = true ∧ Field.width ∉ wrongDefault ∧ passesDown .width = false ∧
    registry.reverse.Perm registry ∧
    computeValues num (fun _ => 5) registry.reverse someParent [] .color = someParent .color ∧
    computeValues num (fun _ => 5) registry.reverse someParent [] .marginLeft = 10 ∧ someParent .marginLeft = 54 :=
  ⟨by decide, rfl, by decide, rfl, List.reverse_perm _, by decide +kernel, by decide +kernel, by decide +kernel⟩

/-- `visibility` does not pass down: under a hidden element things are visible. -/
theorem C108_visibility_fails {c : Calc V} (hl : c.Lawful) (fresh : Style V) {order : List Reg}
    (hp : order.Perm registry) (parent : Style V) : passesDown .visibility = true ∧
    computeValues c fresh order parent [] .visibility = c.lit .visible := by
  refine ⟨rfl, ?_⟩
  show inheritsValues c fresh order parent .visibility = _
  unfold inheritsValues
  rw [inherit_not parent hp _ (by decide +kernel)]
  exact initialValues_eq hl fresh hp (by decide) (by decide +kernel) (by decide +kernel)

/-! ## C109: declared values reach the element, whatever the order of the map -/

/-- The longhands that do not do what CSS says with the value they are given. -/
def wrongApply : List Name :=
  [.backgroundImage, .backgroundPosition, .backgroundRepeat, .lineHeight, .marginInline, .marginBlock]

theorem apply_table : ∀ r ∈ registry, r.shorthand = false → r.name ∉ wrongApply →
    (∀ w ∈ r.writes, (sets r.name)[w.2]? = some w.1) ∧
    (∀ i, i < (sets r.name).length → ∃ w ∈ r.writes, w.2 = i ∧ (sets r.name)[i]? = some w.1) := by decide +kernel

theorem writes_iff {r : Reg} (hr : r ∈ registry) (hs : r.shorthand = false) (hn : r.name ∉ wrongApply) (f : Field) (i : Nat) :
    (f, i) ∈ r.writes ↔ (sets r.name)[i]? = some f := by
  obtain ⟨h1, h2⟩ := apply_table r hr hs hn
  constructor
  · intro h; exact h1 _ h
  · intro h
    obtain ⟨hlt, _⟩ := List.getElem?_eq_some_iff.1 h
    obtain ⟨w, hw, e, hg⟩ := h2 i hlt
    rw [h] at hg; cases hg
    rw [← e]; exact hw

theorem gives_sets {e : Name × Value V} (hl : Longhand e.1) (hn : e.1 ∉ wrongApply) {f : Field} {x : V} :
    Gives e f x ↔ ∃ i, (sets e.1)[i]? = some f ∧ component e.2 i = some x := by
  obtain ⟨r, hr, hrn, hs⟩ := hl
  have hf := find_self r hr
  rw [hrn] at hf
  constructor
  · rintro ⟨r', i, hf', hi, hx⟩
    rw [hf] at hf'; cases hf'
    exact ⟨i, hrn ▸ (writes_iff hr hs (hrn ▸ hn) f i).1 hi, hx⟩
  · rintro ⟨i, hi, hx⟩
    exact ⟨r, i, hf, (writes_iff hr hs (hrn ▸ hn) f i).2 (hrn ▸ hi), hx⟩

/-- **C109**, for entries of longhands outside `wrongApply`: if one entry alone sets a value,
the element has what was declared for it, computed from its parent and from its own final
style, whatever the order of the entries.  Missing: properties that set the same value under
another name, and those of `wrongApply`. -/
theorem C109_declared_partial (c : Calc V) (fresh : Style V) (order : List Reg) (parent : Style V)
    (es : List (Name × Value V)) (hlong : ∀ e ∈ es, Longhand e.1 ∧ e.1 ∉ wrongApply) (hn : (es.map (·.1)).Nodup)
    (n : Name) (v : Value V) (he : (n, v) ∈ es) (f : Field) (i : Nat) (hi : (sets n)[i]? = some f) (x : V)
    (hx : v[i]? = some (some x)) (ho : ∀ e ∈ es, e.1 ≠ n → f ∉ sets e.1) :
    computeValues c fresh order parent es f = asComputed c n parent (computeValues c fresh order parent es) x := by
  refine all_one c parent es _ f hn he ?_ ?_
  · exact (gives_sets (hlong _ he).1 (hlong _ he).2).2 ⟨i, hi, by simp [component, hx]⟩
  · intro e' he' hne x' hx'
    obtain ⟨j, hj, _⟩ := (gives_sets (hlong _ he').1 (hlong _ he').2).1 hx'
    exact ho e' he' hne (List.mem_of_getElem? hj)

/-- What no entry sets is as if nothing were declared. -/
theorem C109_rest_partial (c : Calc V) (fresh : Style V) (order : List Reg) (parent : Style V)
    (es : List (Name × Value V)) (hlong : ∀ e ∈ es, Longhand e.1 ∧ e.1 ∉ wrongApply) (f : Field)
    (ho : ∀ e ∈ es, f ∉ sets e.1) :
    computeValues c fresh order parent es f = computeValues c fresh order parent [] f := by
  refine all_untouched c parent es _ f ?_
  intro e' he' x' hx'
  obtain ⟨j, hj, _⟩ := (gives_sets (hlong _ he').1 (hlong _ he').2).1 hx'
  exact ho e' he' (List.mem_of_getElem? hj)

/-- The order in which the map gives its entries does not matter, when no two of them set the
same value. -/
theorem C109_order_free_partial (c : Calc V) (fresh : Style V) (order : List Reg) (parent : Style V)
    (es es' : List (Name × Value V)) (hperm : es.Perm es') (hlong : ∀ e ∈ es, Longhand e.1 ∧ e.1 ∉ wrongApply)
    (hn : (es.map (·.1)).Nodup) (hd : ∀ e ∈ es, ∀ e' ∈ es, e.1 ≠ e'.1 → ∀ f ∈ sets e.1, f ∉ sets e'.1) :
    computeValues c fresh order parent es = computeValues c fresh order parent es' := by
  have hlong' : ∀ e ∈ es', Longhand e.1 ∧ e.1 ∉ wrongApply := fun e he => hlong e (hperm.mem_iff.2 he)
  have hn' : (es'.map (·.1)).Nodup := (hperm.map _).nodup_iff.1 hn
  have alone : ∀ e ∈ es, ∀ f x, Gives e f x → ∀ e' ∈ es, e'.1 ≠ e.1 → ∀ x', ¬ Gives e' f x' := by
    intro e he f x hx e' he' hne x' hx'
    obtain ⟨i, hi, _⟩ := (gives_sets (hlong _ he).1 (hlong _ he).2).1 hx
    obtain ⟨j, hj, _⟩ := (gives_sets (hlong _ he').1 (hlong _ he').2).1 hx'
    exact hd e he e' he' (Ne.symm hne) f (List.mem_of_getElem? hi) (List.mem_of_getElem? hj)
  have main : ∀ f, (∀ g, f = .outlineColor → g ≠ .outlineColor →
      computeValues c fresh order parent es g = computeValues c fresh order parent es' g) →
      computeValues c fresh order parent es f = computeValues c fresh order parent es' f := by
    intro f hg
    by_cases h : ∃ e ∈ es, ∃ x, Gives e f x
    · obtain ⟨e, he, x, hx⟩ := h
      have h1 := all_one c parent es (inheritsValues c fresh order parent) f hn he hx (alone e he f x hx)
      have h2 := all_one c parent es' (inheritsValues c fresh order parent) f hn' (hperm.mem_iff.1 he) hx
        (fun e' he' => alone e he f x hx e' (hperm.mem_iff.2 he'))
      show applyAll c parent es _ f = applyAll c parent es' _ f
      rw [h1, h2]
      by_cases hof : e.1 = .outlineColor
      · have hfo : f = .outlineColor := by
          obtain ⟨i, hi, _⟩ := (gives_sets (hlong _ he).1 (hlong _ he).2).1 hx
          rw [hof] at hi
          have := List.mem_of_getElem? hi
          simpa [sets] using this
        have a := hg .outlineStyle hfo (by decide)
        have b := hg .color hfo (by decide)
        unfold asComputed
        rw [show applyAll c parent es (inheritsValues c fresh order parent) .outlineStyle =
          applyAll c parent es' (inheritsValues c fresh order parent) .outlineStyle from a,
          show applyAll c parent es (inheritsValues c fresh order parent) .color =
          applyAll c parent es' (inheritsValues c fresh order parent) .color from b]
      · unfold asComputed; simp only [hof, if_false]
    · have hno : ∀ e ∈ es, ∀ x, ¬ Gives e f x := fun e he x hx => h ⟨e, he, x, hx⟩
      show applyAll c parent es _ f = applyAll c parent es' _ f
      rw [all_untouched c parent es _ f hno, all_untouched c parent es' _ f (fun e he => hno e (hperm.mem_iff.2 he))]
  have normal : ∀ g, g ≠ .outlineColor →
      computeValues c fresh order parent es g = computeValues c fresh order parent es' g :=
    fun g hg => main g (fun _ e => absurd e hg)
  funext f
  exact main f (fun g _ hg => normal g hg)

example : (∀ e ∈ parentEs, Longhand e.1 ∧ e.1 ∉ wrongApply) ∧ (parentEs.map (·.1)).Nodup ∧
    (∀ e ∈ parentEs, ∀ e' ∈ parentEs, e.1 ≠ e'.1 → ∀ f ∈ sets e.1, f ∉ sets e'.1) ∧
    (sets .borderTopLeftRadius)[0]? = some .radiusB ∧ someParent .radiusB = 61 ∧ someParent .color = 1001 ∧
    someParent .paddingTop = 10 := by
  refine ⟨?_, by decide +kernel, by decide +kernel, by decide +kernel, by decide +kernel, by decide +kernel, by decide +kernel⟩
  unfold Longhand
  decide +kernel

/-- Two names of one value: `margin-left` and `margin-inline-start` both set the left margin,
and the one the map gives last wins. -/
theorem C109_alias_fails (parent : Style Nat) :
    computeValues num (fun _ => 5) registry parent [(.marginLeft, [some 1]), (.marginInlineStart, [some 2])] .marginLeft = 2 ∧
    computeValues num (fun _ => 5) registry parent [(.marginInlineStart, [some 2]), (.marginLeft, [some 1])] .marginLeft = 1 := by
  constructor <;> rfl

/-- So an important declaration can lose: `margin-left: … !important; margin-inline-start: …`
leaves the map with both, and in the order they were put the second is applied last.  The names are
numbered 1 and 2 in the cascade. -/
theorem C109_important_fails :
    ((Cascade.cascade [{ name := 1, value := 10, important := true }, { name := 2, value := 20 }]).entries.map
      (fun p => (p.1, p.2.decl.value))) = [(1, 10), (2, 20)] ∧
    ∀ parent : Style Nat,
      computeValues num (fun _ => 5) registry parent [(.marginLeft, [some 10]), (.marginInlineStart, [some 20])] .marginLeft
        = 20 :=
  ⟨by decide, fun _ => rfl⟩

/-- `border-radius` is not taken as a shorthand of the corners.  After
`border-top-left-radius: 1; border-radius: 2; border-top-left-radius: 3` the map holds the corner
first, so `border-radius` is applied last and the corner is 2, although it was declared last. -/
theorem C109_radius_fails :
    ((Cascade.cascade [{ name := 1, value := 1 }, { name := 2, value := 2 }, { name := 1, value := 3 }]).entries.map
      (fun p => (p.1, p.2.decl.value))) = [(1, 3), (2, 2)] ∧
    ∀ parent : Style Nat,
      computeValues num (fun _ => 5) registry parent
        [(.borderTopLeftRadius, [some 3, some 3]), (.borderRadius, List.replicate 8 (some 2))] .radiusA = 2 :=
  ⟨by decide, fun _ => rfl⟩

/-- `margin-inline: a b` is read as four sides `a b a b` and gives both sides `b`. -/
theorem C109_margin_inline_fails (parent : Style Nat) (a b : Nat) :
    computeValues num (fun _ => 5) registry parent [(.marginInline, [some a, some b, some a, some b])] .marginLeft = b ∧
    computeValues num (fun _ => 5) registry parent [(.marginInline, [some a, some b, some a, some b])] .marginRight = b := by
  constructor <;> rfl

/-- Every property that has a class is registered, but for `gap` and `order`. -/
theorem C109_registered_partial (n : Name) (h : n ≠ .gap ∧ n ≠ .order) : ∃ r ∈ registry, r.name = n := by
  cases n <;> first | exact absurd rfl h.1 | exact absurd rfl h.2 | decide +kernel

example : Name.alignContent ≠ .gap ∧ Name.alignContent ≠ .order := by decide

/-- `gap` and `order` are not registered: declaring them does nothing. -/
theorem C109_unregistered_fails (c : Calc V) (fresh : Style V) (order : List Reg) (parent : Style V) (v w : Value V) :
    computeValues c fresh order parent [(.gap, v), (.order, w)] = computeValues c fresh order parent [] := by
  have h1 : find .gap = none := by decide +kernel
  have h2 : find .order = none := by decide +kernel
  funext f
  refine all_untouched c parent _ _ f ?_
  rintro e he x ⟨r, i, hf, _⟩
  simp only [List.mem_cons, List.not_mem_nil, or_false] at he
  rcases he with rfl | rfl
  · rw [h1] at hf; cases hf
  · rw [h2] at hf; cases hf

/-! ## C110: the outline's colour -/

/-- **C110**, when declared: an outline colour is computed from the outline style and the
colour the element ends up with, in whatever order those are declared.  Missing: an outline
colour that is not declared, for which it is false. -/
theorem C110_outline_partial (c : Calc V) (fresh : Style V) (order : List Reg) (parent : Style V)
    (es : List (Name × Value V)) (hlong : ∀ e ∈ es, Longhand e.1) (hn : (es.map (·.1)).Nodup) (x : V)
    (he : (.outlineColor, [some x]) ∈ es) :
    computeValues c fresh order parent es .outlineColor =
      c.outline x (computeValues c fresh order parent es .outlineStyle) (computeValues c fresh order parent es .color) := by
  have hw : ∀ r ∈ registry, r.name ≠ .outlineColor → ∀ w ∈ r.writes, w.1 ≠ .outlineColor :=
    fun r hr hne w hwm e => hne ((special r hr w hwm).2.2.2.2 e)
  have hfind : find .outlineColor = some outlineColorR := by decide +kernel
  have h := all_one c parent es (inheritsValues c fresh order parent) .outlineColor hn he (x := x)
    ⟨outlineColorR, 0, hfind, by decide, rfl⟩ ?_
  · exact h
  · rintro e' he' hne x' ⟨r, i, hf, hi, _⟩
    exact hw r (find_mem hf).1 (fun e => hne ((find_mem hf).2.symm.trans e)) _ hi rfl

example : computeValues num (fun _ => 5) registry someParent
    [(.outlineColor, [some 0]), (.color, [some 40]), (.outlineStyle, [some 7])] .outlineColor = 1047 := by decide +kernel

/-- With no outline colour declared, every element has the outline colour computed once for the
initial style, whatever its own colour and outline style and its parent are. -/
theorem C110_undeclared_fails : initially .outlineColor = .auto ∧
    ∀ (c : Calc V) (fresh : Style V) (order : List Reg) (parent : Style V) (es : List (Name × Value V)),
      order.Perm registry → (∀ e ∈ es, e.1 ≠ .outlineColor) →
      computeValues c fresh order parent es .outlineColor = initialValues c fresh order .outlineColor := by
  refine ⟨rfl, fun c fresh order parent es hp h => ?_⟩
  have h1 : applyAll c parent es (inheritsValues c fresh order parent) .outlineColor =
      inheritsValues c fresh order parent .outlineColor := by
    refine all_untouched c parent es _ .outlineColor ?_
    rintro e he x' ⟨r, i, hf, hi, _⟩
    have hname := ((special r (find_mem hf).1 _ hi).2.2.2).2 rfl
    rw [(find_mem hf).2] at hname
    exact h e he hname
  exact h1.trans (inherit_not parent hp _ (by decide +kernel))

end Verif.Registry
