import Verif.Forms.Lemmas
/-!
# Property C258: what an `<input>` shows
-/
namespace Verif.Forms
open Spec

/-- Attributes that are set one after another are proper, and each has the value that was given last. -/
theorem C258_attributes (l : List (Str × Str)) :
    let a := l.foldl (fun a p => Attrs.set p.1 p.2 a) []
    Proper a ∧ ∀ n v, (n, v) ∈ a ↔ l.reverse.find? (fun p => p.1 = n) = some (n, v) := by
  intro a
  suffices H : ∀ (l : List (Str × Str)), Proper (l.foldl (fun a p => Attrs.set p.1 p.2 a) []) ∧
      ∀ n, Attrs.get n (l.foldl (fun a p => Attrs.set p.1 p.2 a) []) = (l.reverse.find? (fun p => p.1 = n)).map (·.2) by
    refine ⟨(H l).1, fun n v => ?_⟩
    constructor
    · intro h
      have := get_of_mem (H l).1 h
      rw [(H l).2 n, Option.map_eq_some_iff] at this
      obtain ⟨p, h1, h2⟩ := this
      have h3 := List.find?_some h1
      simp only [decide_eq_true_eq] at h3
      rw [h1, ← h2, ← h3]
    · intro h
      refine mem_of_get ?_
      rw [(H l).2 n, h, Option.map_some]
  intro l
  rw [← List.reverse_reverse l]
  generalize l.reverse = l
  induction l with
  | nil => exact ⟨List.Pairwise.nil, fun _ => rfl⟩
  | cons p l ih =>
    simp only [List.reverse_cons, List.foldl_append, List.foldl_cons, List.foldl_nil, List.reverse_append, List.reverse_nil,
      List.nil_append, List.reverse_reverse, List.singleton_append, List.find?_cons]
    simp only [List.reverse_reverse] at ih
    refine ⟨set_proper _ _ ih.1, fun n => ?_⟩
    rw [get_set, ih.2 n]
    by_cases h : p.1 = n
    · simp [h]
    · simp [h]

example : Attrs.set "type".toList "radio".toList (Attrs.set "checked".toList [] (Attrs.set "type".toList "text".toList [])) =
    [("type".toList, "radio".toList), ("checked".toList, [])] := by decide +kernel

/-- No attributes abort the program. -/
theorem C258_no_panic (a : Attrs) : input a ≠ .panic := by
  unfold input
  simp only
  split
  · nofun
  split
  · nofun
  unfold inputProse
  split
  · rename_i h
    rw [has_eq, Option.isSome_iff_exists] at h
    obtain ⟨v, h⟩ := h
    rw [h]
    nofun
  split
  · rename_i h
    rw [has_eq, Option.isSome_iff_exists] at h
    obtain ⟨v, h⟩ := h
    rw [h]
    nofun
  · nofun

/-- The types of controls that are not fields for a text. -/
def Special (a : Attrs) : Prop :=
  ∃ t ∈ ["hidden", "checkbox", "radio", "password", "submit", "reset", "button", "image", "file", "color", "range"], OfType a t

theorem not_special {a : Attrs} (h : ¬ Special a) :
    (Attrs.get "type".toList a).getD [] ≠ "hidden".toList ∧
    ¬ ((Attrs.get "type".toList a).getD [] = "radio".toList ∨ (Attrs.get "type".toList a).getD [] = "checkbox".toList) := by
  have key : ∀ t : String, t.toList ≠ [] → t.toList.map Char.toLower = t.toList →
      t ∈ ["hidden", "checkbox", "radio", "password", "submit", "reset", "button", "image", "file", "color", "range"] →
      (Attrs.get "type".toList a).getD [] ≠ t.toList := by
    intro t h0 h1 h2 h3
    cases hg : Attrs.get "type".toList a with
    | none =>
      rw [hg] at h3
      exact h0 h3.symm
    | some v =>
      rw [hg, Option.getD_some] at h3
      exact h ⟨t, h2, v, mem_of_get hg, by rw [h3, h1]⟩
  refine ⟨key "hidden" (by decide) (by decide) (by simp), ?_⟩
  rintro (h | h)
  · exact key "radio" (by decide) (by decide) (by simp) h
  · exact key "checkbox" (by decide) (by decide) (by simp) h

theorem text_unique {a : Attrs} (hp : Proper a) {s s' : Str} (h : Text a s) (h' : Text a s') : s = s' := by
  have one : ∀ {n : String} {v w}, Has a n v → Has a n w → v = w := by
    intro n v w h1 h2
    have := (get_of_mem hp h1).symm.trans (get_of_mem hp h2)
    cases this
    rfl
  cases h with
  | value h1 h2 =>
    cases h' with
    | value h3 _ => exact one h1 h3
    | placeholder h3 _ => exact absurd (h3 _ h1) h2
    | empty h3 _ => exact absurd (h3 _ h1) h2
  | placeholder h1 h2 =>
    cases h' with
    | value h3 h4 => exact absurd (h1 _ h3) h4
    | placeholder _ h4 => exact one h2 h4
    | empty _ h4 => exact absurd h2 (h4 _)
  | empty h1 h2 =>
    cases h' with
    | value h3 h4 => exact absurd (h1 _ h3) h4
    | placeholder _ h4 => exact absurd h4 (h2 _)
    | empty _ _ => rfl

/-- **C258, fields for texts.** A field without type, or with one that the code does not know of, shows its value or else its
placeholder.  Missing: a placeholder beside an empty value. -/
theorem C258_text_partial (a : Attrs) (hp : Proper a) (hs : ¬ Special a)
    (hv : ¬ (Has a "value" [] ∧ ∃ v, Has a "placeholder" v ∧ v ≠ [])) :
    ∃ s, input a = .text s ∧ ∀ s', Text a s' ↔ s' = s := by
  suffices H : ∃ s, input a = .text s ∧ Text a s by
    obtain ⟨s, h1, h2⟩ := H
    exact ⟨s, h1, fun s' => ⟨fun h => text_unique hp h h2, fun h => h ▸ h2⟩⟩
  obtain ⟨h1, h2⟩ := not_special hs
  unfold input
  simp only [if_neg h1, if_neg h2]
  unfold inputProse
  rw [has_eq, has_eq]
  cases hg : Attrs.get "value".toList a with
  | some v =>
    refine ⟨v, by simp, ?_⟩
    have hm := mem_of_get hg
    by_cases h0 : v = []
    · subst h0
      have hall : ∀ v, Has a "value" v → v = [] := by
        intro w hw
        have := (get_of_mem hp hw).symm.trans hg
        cases this
        rfl
      cases hg' : Attrs.get "placeholder".toList a with
      | none =>
        refine .empty hall fun w hw => ?_
        have := (get_of_mem hp hw).symm.trans hg'
        cases this
      | some w =>
        have hw := mem_of_get hg'
        by_cases h0 : w = []
        · subst h0
          exact .placeholder hall hw
        · exact absurd ⟨hm, w, hw, h0⟩ hv
    · exact .value hm h0
  | none =>
    have hall : ∀ v, Has a "value" v → v = [] := by
      intro w hw
      have := (get_of_mem hp hw).symm.trans hg
      cases this
    cases hg' : Attrs.get "placeholder".toList a with
    | none =>
      refine ⟨[], by simp, .empty hall fun w hw => ?_⟩
      have := (get_of_mem hp hw).symm.trans hg'
      cases this
    | some w => exact ⟨w, by simp, .placeholder hall (mem_of_get hg')⟩

def named : Attrs := [("type".toList, "EMAIL".toList), ("placeholder".toList, "a@b".toList)]

theorem named_plain : Proper named ∧ ¬ Special named := by
  refine ⟨by unfold Proper named; decide +kernel, ?_⟩
  rintro ⟨t, ht, v, hv, h⟩
  have : v = "EMAIL".toList := by
    unfold Has named at hv
    have hg := get_of_mem (a := named) (by unfold Proper named; decide +kernel) hv
    have : Attrs.get "type".toList named = some "EMAIL".toList := by decide +kernel
    rw [this] at hg
    cases hg
    rfl
  subst this
  simp only [List.mem_cons, List.not_mem_nil, or_false] at ht
  rcases ht with rfl | rfl | rfl | rfl | rfl | rfl | rfl | rfl | rfl | rfl | rfl <;> exact absurd h (by decide +kernel)

example : input named = .text "a@b".toList := by decide +kernel

/-- A placeholder beside an empty value is not shown. -/
theorem C258_placeholder_fails : ¬ ∀ a : Attrs, Proper a → ¬ Special a → ∃ s, input a = .text s ∧ Text a s := by
  intro h
  have hp : Proper [("value".toList, []), ("placeholder".toList, "Name".toList)] := by unfold Proper; decide +kernel
  obtain ⟨s, h1, h2⟩ := h [("value".toList, []), ("placeholder".toList, "Name".toList)] hp
    (by
      rintro ⟨t, _, v, hv, _⟩
      have := get_of_mem hp hv
      exact absurd this (by
        have h : Attrs.get "type".toList [("value".toList, []), ("placeholder".toList, "Name".toList)] = none := by decide +kernel
        rw [h]
        nofun))
  have he : input [("value".toList, []), ("placeholder".toList, "Name".toList)] = .text [] := by decide +kernel
  rw [he] at h1
  cases h1
  have : Text [("value".toList, []), ("placeholder".toList, "Name".toList)] "Name".toList := by
    refine .placeholder (fun v hv => ?_) (by unfold Has; simp)
    have h := get_of_mem hp hv
    have h' : Attrs.get "value".toList [("value".toList, []), ("placeholder".toList, "Name".toList)] = some [] := by decide +kernel
    rw [h'] at h
    cases h
    rfl
  exact absurd (text_unique hp h2 this) (by decide)

/-- A password is printed in clear. -/
theorem C258_password_fails : ¬ ∀ (a : Attrs) (v : Str), Proper a → OfType a "password" → Has a "value" v → v ≠ [] →
    input a ≠ .text v := by
  intro h
  exact h [("type".toList, "password".toList), ("value".toList, "secret".toList)] "secret".toList (by unfold Proper; decide +kernel)
    ⟨"password".toList, by unfold Has; simp, by decide⟩ (by unfold Has; simp) (by decide) (by decide +kernel)

/-- A button to submit a form has no label unless one is given. -/
theorem C258_label_fails : ¬ ∀ a : Attrs, Proper a → OfType a "submit" → input a ≠ .text [] := by
  intro h
  exact h [("type".toList, "submit".toList)] (by unfold Proper; decide +kernel) ⟨"submit".toList, by unfold Has; simp, by decide⟩
    (by decide +kernel)

/-- **C258, hidden controls.** They show nothing.  Missing: types in other cases, and the box. -/
theorem C258_hidden_partial (a : Attrs) (hp : Proper a) (h : Has a "type" "hidden".toList) : input a = .nothing := by
  unfold input
  rw [get_of_mem hp h]
  simp

example : Proper [("type".toList, "hidden".toList), ("value".toList, "x".toList)] ∧
    Has [("type".toList, "hidden".toList), ("value".toList, "x".toList)] "type" "hidden".toList :=
  ⟨by unfold Proper; decide +kernel, by unfold Has; simp⟩

/-- In capitals they do. -/
theorem C258_hidden_fails : ¬ ∀ a : Attrs, Proper a → OfType a "hidden" → input a = .nothing := by
  intro h
  have := h [("type".toList, "HIDDEN".toList), ("value".toList, "x".toList)] (by unfold Proper; decide +kernel)
    ⟨"HIDDEN".toList, by unfold Has; simp, by decide +kernel⟩
  exact absurd this (by decide +kernel)

/-- Whatever an `<input>` shows, a box is made for it, also when it is hidden; in the box is the text, and nothing else. -/
theorem C258_box (a : Attrs) (e : Verif.Build.Elem) (d : Verif.Build.Disp) (rec : Verif.Build.Rec)
    (he : e.kind = .input (input a).toInput) :
    Verif.Build.boxFromElement e d rec = some (.mk (.own d) (some e.id)
      (match input a with
        | .text s => .prose (s.map .ch)
        | .scene _ => .atom e.id
        | _ => .none) []) := by
  unfold Verif.Build.boxFromElement Verif.Build.blockFlow
  cases h : input a <;> rw [h] at he <;> simp only [Shown.toInput] at he <;>
    simp only [Verif.Build.buildVoid, he] <;> rfl

/-- So a hidden control in a line has a box there, which has a border by the sheet of the browser (`res/html.css` 324–337). -/
theorem C258_hidden_box_fails : ¬ ∀ (a : Attrs) (e : Verif.Build.Elem), Has a "type" "hidden".toList →
    e.kind = .input (input a).toInput → e.disp = .dflt .flowRoot .inline false →
    Verif.Build.buildNode {} {} (.el e []) = some {} := by
  intro h
  have := h [("type".toList, "hidden".toList)] { id := 1, kind := .input .hidden, disp := .dflt .flowRoot .inline false }
    (by unfold Has; simp) (by decide +kernel) rfl
  have h' : (Verif.Build.buildNode {} {} (.el { id := 1, kind := .input .hidden, disp := .dflt .flowRoot .inline false } [])).map
      (fun st => st.inl.map List.length) = some (some 1) := by decide +kernel
  rw [this] at h'
  exact absurd h' (by decide)

theorem checked_iff {a : Attrs} (hp : Proper a) (hv : ¬ Has a "value" "on".toList) : checked a = true ↔ Ticked a := by
  unfold checked Ticked
  rw [Bool.or_eq_true, has_iff hp]
  constructor
  · rintro (h | h)
    · exact h
    · exfalso
      cases hg : Attrs.get "value".toList a with
      | none =>
        rw [hg] at h
        exact absurd h (by decide)
      | some v =>
        rw [hg, Option.getD_some, decide_eq_true_eq] at h
        exact hv (h ▸ mem_of_get hg)
  · exact .inl

theorem colour_two (b c : SBox) (k : Bool) (px py : Rat) :
    colourAt (b :: if k then [c] else []) px py = if k then (boxAt c px py).or (boxAt b px py) else boxAt b px py := by
  cases k <;> simp [colourAt]

/-- **C258, radio buttons.** They are discs, with a blue disc in the middle if and only if they are checked.  Missing: types in
other cases, the value `on`. -/
theorem C258_radio_partial (a : Attrs) (hp : Proper a) (ht : Has a "type" "radio".toList) (hv : ¬ Has a "value" "on".toList) :
    ∃ l, input a = .scene l ∧ ∀ px py,
      ((colourAt l px py).isSome ↔ Disc 7 7 px py) ∧
      (colourAt l px py = some .blue ↔ Ticked a ∧ Disc 7 5 px py) ∧
      (colourAt l px py = some .black ↔ Disc 7 7 px py ∧ ¬ Disc 7 6 px py) := by
  have hi : input a = .scene (frame "radio".toList :: if checked a then [mark "radio".toList] else []) := by
    unfold input
    rw [get_of_mem hp ht, Option.getD_some]
    simp only [if_neg (show "radio".toList ≠ "hidden".toList by decide), true_or, if_true]
  refine ⟨_, hi, fun px py => ?_⟩
  rw [colour_two]
  have hout : inRounded 0 0 14 14 99 px py ↔ Disc 7 7 px py := by
    have := round_disc (s := 14) (r := 99) (c := 7) (by norm_num) px py
    norm_num at this
    exact this
  have hin : inRounded 1 1 12 12 98 px py ↔ Disc 7 6 px py := by
    have := round_disc (s := 12) (r := 98) (c := 7) (by norm_num) px py
    norm_num at this
    exact this
  have hm : inRounded 2 2 10 10 99 px py ↔ Disc 7 5 px py := by
    have := round_disc (s := 10) (r := 99) (c := 7) (by norm_num) px py
    norm_num at this
    exact this
  have h56 : Disc 7 5 px py → Disc 7 6 px py := by unfold Disc; intro h; linarith
  have h67 : Disc 7 6 px py → Disc 7 7 px py := by unfold Disc; intro h; linarith
  have hb : boxAt (frame "radio".toList) px py = if Disc 7 7 px py then if Disc 7 6 px py then some .white else some .black else none := by
    unfold boxAt frame
    simp only [if_neg (show "radio".toList ≠ "checkbox".toList by decide)]
    norm_num
    simp only [hout, hin]
  have hc : boxAt (mark "radio".toList) px py = if Disc 7 5 px py then some .blue else none := by
    unfold boxAt mark frame SBox.shrink
    simp only [if_neg (show "radio".toList ≠ "checkbox".toList by decide)]
    norm_num
    simp only [hm]
    split <;> rfl
  rw [hb, hc, ← checked_iff hp hv]
  by_cases h5 : Disc 7 5 px py
  · simp only [if_pos h5, if_pos (h56 h5), if_pos (h67 (h56 h5))]
    cases checked a <;> simp [h5, h56 h5, h67 (h56 h5)]
  · simp only [if_neg h5]
    by_cases h6 : Disc 7 6 px py
    · simp only [if_pos h6, if_pos (h67 h6)]
      cases checked a <;> simp [h5, h6, h67 h6]
    · by_cases h7 : Disc 7 7 px py
      · cases checked a <;> simp [h5, h6, h7]
      · cases checked a <;> simp [h5, h6, h7]

def ticked : Attrs := [("type".toList, "radio".toList), ("checked".toList, []), ("value".toList, "a".toList)]

example : Proper ticked ∧ Has ticked "type" "radio".toList ∧ Ticked ticked ∧
    (match input ticked with | .scene l => colourAt l 7 7 | _ => none) = some .blue :=
  ⟨by unfold Proper ticked; decide +kernel, by unfold Has ticked; simp, ⟨[], by unfold Has ticked; simp⟩, by decide +kernel⟩

/-- **C258, checkboxes.** They are squares but for their corners, and blue in the middle if and only if they are checked, white
otherwise.  Missing: types in other cases, the value `on`. -/
theorem C258_checkbox_partial (a : Attrs) (hp : Proper a) (ht : Has a "type" "checkbox".toList) (hv : ¬ Has a "value" "on".toList) :
    ∃ l, input a = .scene l ∧ ∀ px py,
      ((colourAt l px py).isSome → Square 7 7 px py) ∧
      (Square 7 7 px py → |px - 7| ≤ 5 ∨ |py - 7| ≤ 5 → (colourAt l px py).isSome) ∧
      (Square 7 5 px py → |px - 7| ≤ 3 ∨ |py - 7| ≤ 3 → (Ticked a → colourAt l px py = some .blue) ∧
        (¬ Ticked a → colourAt l px py = some .white)) ∧
      (colourAt l px py = some .blue → Ticked a ∧ Square 7 5 px py) ∧
      (Square 7 7 px py → |px - 7| ≤ 5 ∨ |py - 7| ≤ 5 → ¬ Square 7 6 px py → colourAt l px py = some .black) := by
  have hi : input a = .scene (frame "checkbox".toList :: if checked a then [mark "checkbox".toList] else []) := by
    unfold input
    rw [get_of_mem hp ht, Option.getD_some]
    simp only [if_neg (show "checkbox".toList ≠ "hidden".toList by decide), or_true, if_true]
  refine ⟨_, hi, fun px py => ?_⟩
  rw [colour_two]
  have o1 : inRounded 0 0 14 14 2 px py → Square 7 7 px py := by
    have := @rounded_square 14 2 7 px py (by norm_num) (by norm_num)
    norm_num at this
    exact this
  have o2 : Square 7 7 px py → |px - 7| ≤ 5 ∨ |py - 7| ≤ 5 → inRounded 0 0 14 14 2 px py := by
    have := @square_rounded 14 2 7 px py (by norm_num) (by norm_num)
    norm_num at this
    exact this
  have i1 : inRounded 1 1 12 12 1 px py → Square 7 6 px py := by
    have := @rounded_square 12 1 7 px py (by norm_num) (by norm_num)
    norm_num at this
    exact this
  have i2 : Square 7 6 px py → |px - 7| ≤ 5 ∨ |py - 7| ≤ 5 → inRounded 1 1 12 12 1 px py := by
    have := @square_rounded 12 1 7 px py (by norm_num) (by norm_num)
    norm_num at this
    exact this
  have m1 : inRounded 2 2 10 10 2 px py → Square 7 5 px py := by
    have := @rounded_square 10 2 7 px py (by norm_num) (by norm_num)
    norm_num at this
    exact this
  have m2 : Square 7 5 px py → |px - 7| ≤ 3 ∨ |py - 7| ≤ 3 → inRounded 2 2 10 10 2 px py := by
    have := @square_rounded 10 2 7 px py (by norm_num) (by norm_num)
    norm_num at this
    exact this
  have s56 : Square 7 5 px py → Square 7 6 px py := fun ⟨h1, h2⟩ => ⟨by linarith, by linarith⟩
  have s67 : Square 7 6 px py → Square 7 7 px py := fun ⟨h1, h2⟩ => ⟨by linarith, by linarith⟩
  have hb : boxAt (frame "checkbox".toList) px py = if inRounded 0 0 14 14 2 px py then if inRounded 1 1 12 12 1 px py then some .white
      else some .black else none := by
    unfold boxAt frame
    norm_num
  have hc : boxAt (mark "checkbox".toList) px py = if inRounded 2 2 10 10 2 px py then some .blue else none := by
    unfold boxAt mark frame SBox.shrink
    norm_num
    split <;> rfl
  rw [hb, hc, ← checked_iff hp hv]
  have M0 : inRounded 2 2 10 10 2 px py → inRounded 0 0 14 14 2 px py := by
    intro h
    have h5 := m1 h
    exact o2 (s67 (s56 h5)) (.inl h5.1)
  refine ⟨?_, ?_, ?_, ?_, ?_⟩
  · intro h
    apply o1
    by_contra hn
    rw [if_neg hn, if_neg (fun h => hn (M0 h))] at h
    cases hk : checked a <;> simp [hk] at h
  · intro h1 h2
    rw [if_pos (o2 h1 h2)]
    by_cases h3 : inRounded 1 1 12 12 1 px py <;> by_cases h4 : inRounded 2 2 10 10 2 px py <;> cases checked a <;> simp [h3, h4]
  · intro h1 h2
    have h5 : |px - 7| ≤ 5 ∨ |py - 7| ≤ 5 := .inl h1.1
    rw [if_pos (m2 h1 h2), if_pos (o2 (s67 (s56 h1)) h5), if_pos (i2 (s56 h1) h5)]
    cases checked a <;> simp
  · intro h
    cases hk : checked a
    · rw [hk] at h
      simp only [Bool.false_eq_true, if_false] at h
      split at h
      · split at h <;> cases h
      · cases h
    · rw [hk] at h
      refine ⟨rfl, m1 ?_⟩
      by_contra hn
      rw [if_neg hn] at h
      simp only [if_true, Option.none_or] at h
      split at h
      · split at h <;> cases h
      · cases h
  · intro h1 h2 h3
    rw [if_neg (fun h => h3 (s56 (m1 h))), if_pos (o2 h1 h2), if_neg (fun h => h3 (i1 h))]
    cases checked a <;> rfl

example : (match input [("type".toList, "checkbox".toList)] with | .scene l => colourAt l 7 7 | _ => none) = some .white := by
  decide +kernel

/-- A checkbox with the value `on`, which is the default, is shown as checked. -/
theorem C258_value_fails : ¬ ∀ (a : Attrs) (l : List SBox), Proper a → Has a "type" "checkbox".toList → input a = .scene l →
    colourAt l 7 7 = some .blue → Ticked a := by
  intro h
  have hp : Proper [("type".toList, "checkbox".toList), ("value".toList, "on".toList)] := by unfold Proper; decide +kernel
  obtain ⟨v, hv⟩ := h [("type".toList, "checkbox".toList), ("value".toList, "on".toList)]
    [frame "checkbox".toList, mark "checkbox".toList] hp (by unfold Has; simp) (by decide +kernel) (by decide +kernel)
  have h1 := get_of_mem hp hv
  have h2 : Attrs.get "checked".toList [("type".toList, "checkbox".toList), ("value".toList, "on".toList)] = none := by decide +kernel
  rw [h2] at h1
  cases h1

/-- A checkbox whose type is in capitals is shown as a field. -/
theorem C258_case_fails : ¬ ∀ a : Attrs, Proper a → OfType a "checkbox" → ∃ l, input a = .scene l := by
  intro h
  obtain ⟨l, h⟩ := h [("type".toList, "Checkbox".toList), ("value".toList, "x".toList)] (by unfold Proper; decide +kernel)
    ⟨"Checkbox".toList, by unfold Has; simp, by decide +kernel⟩
  have h' : input [("type".toList, "Checkbox".toList), ("value".toList, "x".toList)] = .text "x".toList := by decide +kernel
  rw [h'] at h
  cases h

end Verif.Forms
