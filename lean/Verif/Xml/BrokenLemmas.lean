import Verif.Xml.DocSound

/-! # Faulty elements are rejected: helper lemmas -/
namespace Verif.Xml
open Spec

def Fails {α : Type} (r : R α) : Prop := r = .out ∨ r = .err

mutual
/-- Content read up to a place where no text begins. -/
theorem content_then {m : Mode} [Clean m] {sc : Scope} {src : Text} {kids : List Node} (h : ContentText m sc src kids) :
    ∀ {c : Context}, Agree c sc → ∀ {s : Text}, Stop s → ∀ fuel acc,
      afterText fuel c (src ++ s) acc = .out ∨
      ∃ f, afterText fuel c (src ++ s) acc = contentLoop f c s (acc ++ kids) := by
  intro c ha s hs fuel acc
  match h with
  | .last ht =>
    rcases afterText_eq ht hs fuel c acc with h | h
    · exact .inl h
    · right; rw [h, some_eq]; exact ⟨fuel, rfl⟩
  | @ContentText.item _ _ src t isrc ns more ks ht hi hm =>
    have e : src ++ isrc ++ more ++ s = src ++ (isrc ++ (more ++ s)) := by simp
    rw [e]
    rcases afterText_eq ht (hi.stop (more ++ s)) fuel c acc with h | h
    · exact .inl h
    · rw [h, some_eq]
      have hks := fun f acc => content_then hm ha hs f acc
      have := item_then hi ha (more ++ s) s ks hks fuel (acc ++ textNode t)
      simpa using this

theorem item_then {m : Mode} [Clean m] {sc : Scope} {src : Text} {ns : List Node} (h : ItemText m sc src ns) :
    ∀ {c : Context}, Agree c sc → ∀ s rest ks,
      (∀ fuel acc, afterText fuel c s acc = .out ∨ ∃ f, afterText fuel c s acc = contentLoop f c rest (acc ++ ks)) →
      ∀ fuel acc, contentLoop fuel c (src ++ s) acc = .out ∨
        ∃ f, contentLoop fuel c (src ++ s) acc = contentLoop f c rest (acc ++ ns ++ ks) := by
  intro c ha s rest ks hks fuel acc
  cases fuel with
  | zero => left; rw [contentLoop]
  | succ fuel =>
    rw [contentLoop]
    match h with
    | .element he =>
      rename_i n
      rcases parseElement_eq he ha s fuel with h | h
      · left; rw [h]
      · rw [h]
        have := hks fuel (acc ++ [n])
        unfold afterText at this
        exact this
    | .comment hc =>
      obtain ⟨t, ht⟩ := hc.head
      have hp := parseComment_eq hc s
      rw [ht] at hp ⊢
      rcases parseElement_bad (s := 45 :: 45 :: t ++ s) (show isNameStart 33 = false by decide) fuel c with h | h
      · left
        have e' : parseElement fuel c (60 :: 33 :: 45 :: 45 :: t ++ s) = .out := h
        rw [e']
      · rename_i d
        have e : parsePi (60 :: 33 :: 45 :: 45 :: t ++ s) = none := parsePi_bad (by decide)
        have e' : parseElement fuel c (60 :: 33 :: 45 :: 45 :: t ++ s) = .err := h
        rw [e', e, hp]
        have := hks fuel (acc ++ [.comment d])
        unfold afterText at this
        exact this
    | .pi hp =>
      obtain ⟨t, ht⟩ := hp.head
      have hp := parsePi_eq hp s
      rw [ht] at hp ⊢
      rcases parseElement_bad (s := t ++ s) (show isNameStart 63 = false by decide) fuel c with h | h
      · have e' : parseElement fuel c (60 :: 63 :: t ++ s) = .out := h
        left; rw [e']
      · have e' : parseElement fuel c (60 :: 63 :: t ++ s) = .err := h
        rw [e', hp]
        have := hks fuel acc
        unfold afterText at this
        rw [List.append_nil]
        exact this
end

/-- An element whose content is followed by something that is not its end tag. -/
theorem element_fails {m : Mode} [Clean m] {sc : Scope} {as : Written} {src body s : Text} {q : QName} {bs : Attrs}
    {kids : List Node} {c : Context}
    (ht : TagText m ⟨sc.outer, as :: sc.tags⟩ as src q bs) (hb : ContentText m ⟨sc.outer, as :: sc.tags⟩ body kids)
    (ha : Agree c sc) (hs : Stop s)
    (hend : ∀ f acc, Fails (contentLoop f (seeAll c as) s acc) ∨ contentLoop f (seeAll c as) s acc = .ok acc s)
    (hno : parseEndTag (seeAll c as) q s = none) (fuel : Nat) :
    Fails (parseElement fuel c (src ++ u ">" ++ (body ++ s))) := by
  cases fuel with
  | zero => left; rw [parseElement]
  | succ fuel =>
    rw [parseElement]
    rcases parseTag_wrong (c := c) (rest := body ++ s) ht (.inl rfl) (.inr rfl) (by decide) fuel with h | h
    · left; rw [h]
    rw [h]
    simp only
    rcases parseTag_eq (rest := body ++ s) ht (.inl rfl) ha fuel with h | h
    · left; rw [h]
    rw [h]
    simp only
    have hc := content_then hb (ha.see as) hs fuel []
    unfold afterText at hc
    cases htl : textLoop fuel (body ++ s) [] with
    | out => left; rfl
    | err => right; rfl
    | ok t s' =>
      rw [htl] at hc
      simp only [List.nil_append] at hc ⊢
      rcases hc with h | ⟨f, h⟩
      · left; rw [h]
      · rw [h]
        rcases hend f kids with (h | h) | h
        · left; rw [h]
        · right; rw [h]
        · right; rw [h]; simp only [hno]

theorem head_append {s more : Text} (h : ∃ c t, s = 60 :: c :: t ∧ isNameStart c = true) :
    ∃ c t, s ++ more = 60 :: c :: t ∧ isNameStart c = true := by
  obtain ⟨c, t, rfl, hc⟩ := h
  exact ⟨c, t ++ more, rfl, hc⟩

theorem Spec.Broken.head {m : Mode} {sc : Scope} {s : Text} (h : Broken m sc s) :
    ∃ c t, s = 60 :: c :: t ∧ isNameStart c = true := by
  cases h with
  | mismatch ht => simp only [List.append_assoc]; exact head_append ht.head
  | unclosed ht => simp only [List.append_assoc]; exact head_append ht.head
  | inside ht => simp only [List.append_assoc]; exact head_append ht.head

theorem broken_fails {m : Mode} [Clean m] {sc : Scope} {s : Text} (h : Broken m sc s) :
    ∀ {c : Context}, Agree c sc → ∀ fuel, Fails (parseElement fuel c s) := by
  induction h with
  | @mismatch sc as src q bs body kids name n w rest ht hb hn hq hw =>
    intro c ha fuel
    have e : src ++ u ">" ++ body ++ u "</" ++ name ++ w ++ u ">" ++ rest
        = src ++ u ">" ++ (body ++ (u "</" ++ (name ++ (w ++ (u ">" ++ rest))))) := by simp
    rw [e]
    refine element_fails ht hb ha (stop_of (show (47 : Rune) ≠ 33 by decide)) (fun f acc => ?_) ?_ fuel
    · rcases contentLoop_end (s := name ++ (w ++ (u ">" ++ rest))) f (seeAll c as) acc with h | h
      · exact .inl (.inl h)
      · exact .inr h
    · have hends : Ends (w ++ (u ">" ++ rest)) := by
        cases w with
        | nil => exact ends_of_not (by decide)
        | cons c w => exact ends_of_not (space_not_name (hw c (List.mem_cons_self ..)))
      have hne : ¬ (seeAll c as).element n = some q := fun h => hq (((ha.see as).element n q).1 h)
      show parseEndTag _ _ (u "</" ++ (name ++ (w ++ (u ">" ++ rest)))) = none
      simp only [parseEndTag, skip_append, parseQName_eq hn hends, if_neg hne]
  | @unclosed sc as src q bs body kids ht hb =>
    intro c ha fuel
    have := element_fails (s := []) ht hb ha (.inl rfl) (fun f acc => ?_) (parseEndTag_nil _ _) fuel
    · simpa using this
    · rcases contentLoop_nil f (seeAll c as) acc with h | h
      · exact .inl (.inl h)
      · exact .inr h
  | @inside sc as src q bs body kids child ht hb hchild ih =>
    intro c ha fuel
    obtain ⟨x, t, hx, hxs⟩ := hchild.head
    rw [List.append_assoc]
    have hne := nameStart_ne hxs
    refine element_fails ht hb ha (hx ▸ stop_of hne.1) (fun f acc => ?_) ?_ fuel
    · cases f with
      | zero => left; left; rw [contentLoop]
      | succ f =>
        rw [contentLoop]
        rcases ih (ha.see as) f with h | h
        · left; left; rw [h]
        · right
          rw [h, hx, parsePi_bad hne.2.1, parseComment_bad hne.1]
    · have : skip (u "</") child = none := by
        rw [hx, u_lts, skip_cons]
        exact skip_one_ne hne.2.2
      simp only [parseEndTag, this]

theorem document_fails {m : Mode} [Clean m] {ns : Option Text} {ds ms ts es : Text} {decl : Decl} {b t : List Node}
    (hd : DeclText m ds decl) (hm : MiscText m ms b) (ht : DoctypePart m ts t) (he : Broken m ⟨ns, []⟩ es)
    (hx : (∃ x, ds ++ (ms ++ (ts ++ es)) = u "<?xml" ++ x) → decl.version ≠ none) (fuel : Nat) :
    Fails (parseDocument fuel ns (ds ++ (ms ++ (ts ++ es)))) := by
  unfold parseDocument
  rcases parseProlog_eq hd hm ht he.head hx fuel with h | h
  · left; rw [h]
  · rw [h]
    simp only
    rcases broken_fails he (Agree.make ns) fuel with h | h
    · left; rw [h]
    · right; rw [h]

end Verif.Xml
