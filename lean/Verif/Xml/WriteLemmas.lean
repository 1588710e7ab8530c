import Verif.Xml.DocLemmas

/-! # Written trees: helper lemmas -/
namespace Verif.Xml
open Spec

/-! ## Escaped text -/

theorem entity_ref (e : String) (r : Rune) (h : (e, r) ∈ entities) : RefText .clean (u "&" ++ u e ++ u ";") r :=
  .entity h

/-- How the text goes on after one rune. -/
theorem escape_cons (a : Bool) (r : Rune) (rs : Text) :
    (∃ ref, RefText .clean ref r ∧ escapeString a (r :: rs) = ref ++ escapeString a rs) ∨
    (r ≠ 38 ∧ r ≠ 60 ∧ r ≠ 62 ∧ (a = true → r ≠ 34) ∧ escapeString a (r :: rs) = r :: escapeString a rs) := by
  rw [escapeString]
  by_cases h1 : r = 38
  · left
    refine ⟨_, ?_, by rw [if_pos h1]⟩
    rw [h1]; exact entity_ref "amp" 38 (by decide)
  by_cases h2 : r = 0xA0
  · left
    refine ⟨_, ?_, by rw [if_neg h1, if_pos h2]⟩
    rw [h2]; exact entity_ref "nbsp" 0xA0 (by decide)
  by_cases h3 : r = 60
  · left
    refine ⟨_, ?_, by rw [if_neg h1, if_neg h2, if_pos h3]⟩
    rw [h3]; exact entity_ref "lt" 60 (by decide)
  by_cases h4 : r = 62
  · left
    refine ⟨_, ?_, by rw [if_neg h1, if_neg h2, if_neg h3, if_pos h4]⟩
    rw [h4]; exact entity_ref "gt" 62 (by decide)
  by_cases h5 : a = true ∧ r = 34
  · left
    refine ⟨_, ?_, by rw [if_neg h1, if_neg h2, if_neg h3, if_neg h4, if_pos (by simp [h5.1, h5.2])]⟩
    rw [h5.2]; exact entity_ref "quot" 34 (by decide)
  · right
    refine ⟨h1, h3, h4, fun ha hr => h5 ⟨ha, hr⟩, ?_⟩
    rw [if_neg h1, if_neg h2, if_neg h3, if_neg h4, if_neg]
    · rfl
    · simp only [Bool.and_eq_true, beq_iff_eq]
      exact h5

theorem escape_no_gt (a : Bool) (t : Text) : 62 ∉ escapeString a t := by
  induction t with
  | nil => simp [escapeString]
  | cons r t ih =>
    rw [escapeString, List.mem_append, not_or]
    refine ⟨?_, ih⟩
    split
    · decide
    split
    · decide
    split
    · decide
    split
    · decide
    split
    · decide
    · rename_i h _
      simpa using Ne.symm h

theorem escape_text (t : Text) : CharText .clean (escapeString false t) t := by
  induction t with
  | nil => exact .nil
  | cons r t ih =>
    rcases escape_cons false r t with ⟨ref, h1, h2⟩ | ⟨h1, h2, h3, -, h4⟩
    · rw [h2]; exact .ref h1 ih
    · rw [h4]
      refine .plain h2 h1 ?_ (by simp) ih
      intro more hm
      have h62 : 62 ∉ r :: escapeString false t := by
        rw [List.mem_cons, not_or]
        exact ⟨Ne.symm h3, escape_no_gt _ _⟩
      rw [hm] at h62
      simp [u_cde] at h62

theorem escape_value (v : Text) : ValueText .clean 34 (escapeString true v) v := by
  induction v with
  | nil => exact .nil
  | cons r v ih =>
    rcases escape_cons true r v with ⟨ref, h1, h2⟩ | ⟨h1, h2, h3, h5, h4⟩
    · rw [h2]; exact .ref h1 ih
    · rw [h4]
      exact .plain (h5 rfl) (fun _ => h1) (by simp) ih

/-! ## Attributes -/

theorem writeAttrs_plain {as : Attrs} (h : ∀ a bs, as = a :: bs → ∀ b ∈ bs, b.1 ≠ ⟨none, u "is"⟩) :
    writeAttrs as = as.flatMap fun a => writeAttr a.1.localName a.2 := by
  have hf : ∀ l : Attrs, (∀ b ∈ l, b.1 ≠ isAttr) →
      l.find? (fun a => decide (a.1 = isAttr)) = none ∧ l.filter (fun a => decide (a.1 ≠ isAttr)) = l := by
    intro l hl
    refine ⟨?_, ?_⟩
    · rw [List.find?_eq_none]
      intro x hx
      simpa using hl x hx
    · rw [List.filter_eq_self]
      intro x hx
      simpa using hl x hx
  unfold writeAttrs
  cases as with
  | nil => rfl
  | cons a bs =>
    obtain ⟨h1, h2⟩ := hf bs (h a bs rfl)
    by_cases ha : a.1 = isAttr
    · rw [List.find?_cons_of_pos (by simpa using ha), List.filter_cons_of_neg (by simpa using ha), h2]
      simp [ha, isAttr]
    · rw [List.find?_cons_of_neg (by simpa using ha), List.filter_cons_of_pos (by simpa using ha), h1, h2]
      simp

/-- The attributes as the reader sees them. -/
def asWritten (as : Attrs) : Written := as.map fun a => (⟨none, a.1.localName⟩, a.2)

theorem writeAttrs_text (as : Attrs) (h : ∀ a ∈ as, a.1.ns = none ∧ NCName a.1.localName) :
    AttrsText .clean (as.flatMap fun a => writeAttr a.1.localName a.2) (asWritten as) := by
  induction as with
  | nil => exact .nil (by simp [Spaces])
  | cons a as ih =>
    have ha := h a (List.mem_cons_self ..)
    have := AttrsText.cons (m := .clean) (w := [32]) (name := a.1.localName) (q := 34)
      (by intro r hr; rw [List.mem_singleton.1 hr]; exact .inl rfl) (by simp) (.plain ha.2) (.inl rfl)
      (escape_value a.2) (ih fun b hb => h b (List.mem_cons_of_mem _ hb))
    simpa [writeAttr, asWritten, show u " " = [32] from rfl, show u "=\"" = [61, 34] from rfl,
      show u "\"" = [34] from rfl, u_eq] using this

theorem asWritten_names (sc : Scope) (as : Attrs) (h : ∀ a ∈ as, a.1.ns = none ∧ NCName a.1.localName) :
    AttrNames sc (asWritten as) as := by
  induction as with
  | nil => exact .nil
  | cons a as ih =>
    obtain ⟨⟨ns, l⟩, v⟩ := a
    have ha := (h _ (List.mem_cons_self ..)).1
    simp only at ha
    subst ha
    exact .cons .plain (ih fun b hb => h b (List.mem_cons_of_mem _ hb))

theorem lastOf_asWritten {as : Attrs} (h : ∀ a ∈ as, a.1.ns = none ∧ NCName a.1.localName)
    (hn : (as.map Prod.fst).Nodup) :
    lastOf (asWritten as) ⟨none, u "xmlns"⟩ = (as.find? fun a => a.1 = ⟨none, u "xmlns"⟩).map Prod.snd := by
  induction as with
  | nil => rfl
  | cons a as ih =>
    obtain ⟨⟨ns, l⟩, v⟩ := a
    have ha := (h _ (List.mem_cons_self ..)).1
    simp only at ha
    subst ha
    rw [List.map_cons, List.nodup_cons] at hn
    have := ih (fun b hb => h b (List.mem_cons_of_mem _ hb)) hn.2
    show lastOf ((⟨none, l⟩, v) :: asWritten as) _ = _
    rw [lastOf_cons, this]
    by_cases hl : l = u "xmlns"
    · subst hl
      have hnone : as.find? (fun a => decide (a.1 = ⟨none, u "xmlns"⟩)) = none := by
        rw [List.find?_eq_none]
        intro x hx hxe
        refine hn.1 ?_
        have hx1 : x.1 = ⟨none, u "xmlns"⟩ := by simpa using hxe
        exact List.mem_map.2 ⟨x, hx, hx1⟩
      rw [hnone, List.find?_cons_of_pos (by simp)]
      simp
    · rw [List.find?_cons_of_neg (by simpa using hl)]
      simp [hl]

theorem innerNs_eq {as : Attrs} (sc : Scope) (h : PlainAttrs as) :
    defaultNs ⟨sc.outer, asWritten as :: sc.tags⟩ = innerNs (defaultNs sc) as := by
  unfold innerNs
  rw [← lastOf_asWritten h.1 h.2.1]
  simp only [defaultNs, List.findSome?_cons]
  cases lastOf (asWritten as) ⟨none, u "xmlns"⟩ <;> simp

/-! ## Elements -/

theorem tagName_bare {q : QName} (h : q.ns ∈ bareNs) : tagName q = q.localName := by
  simp only [bareNs, List.mem_cons, List.not_mem_nil, or_false] at h
  unfold tagName
  rcases h with h | h | h | h
  · rw [if_neg]
    · simp [QName.repr, h]
    · rw [h]; simp
  · rw [if_pos (.inl h)]
  · rw [if_pos (.inr (.inr h))]
  · rw [if_pos (.inr (.inl h))]

theorem not_void {q : QName} (h : q.ns = some (u "http://www.w3.org/1999/xhtml") →
    ∀ e ∈ voidElements ++ rawElements, q.localName ≠ u e) : asVoid q = false ∧ rawParent q = false := by
  have key : ∀ names : List Text, (∀ t ∈ names, ∃ e ∈ voidElements ++ rawElements, t = u e) →
      (q.ns == some htmlNs && names.contains q.localName) = false := by
    intro names hn
    rw [Bool.eq_false_iff]
    intro ht
    simp only [Bool.and_eq_true, beq_iff_eq, List.contains_iff_mem] at ht
    obtain ⟨e, he, hq⟩ := hn _ ht.2
    exact h ht.1 e he hq
  refine ⟨key voidNames ?_, key rawNames ?_⟩
  · unfold voidNames; decide
  · unfold rawNames; decide

theorem u_append_nil : u "" = [] := rfl

mutual
theorem writeNode_text {d : Option Text} {raw : Bool} (n : Node) (h : Writable d n) :
    ∀ {sc : Scope}, defaultNs sc = d → ItemText .clean sc (writeNode raw n) [n] := by
  intro sc hd
  cases n with
  | text t => exact absurd h (by simp [Writable])
  | doctype a b c => exact absurd h (by simp [Writable])
  | comment c =>
    rw [Writable] at h
    rw [writeNode]
    exact .comment (.mk h.1 h.2)
  | element q as kids =>
    rw [Writable] at h
    obtain ⟨h1, h2, h3, h4, h5, h6⟩ := h
    obtain ⟨hv, hr⟩ := not_void h5
    subst hd
    have hin := innerNs_eq sc h4
    have hq : ElementName ⟨sc.outer, asWritten as :: sc.tags⟩ ⟨none, q.localName⟩ q := by
      have : q = ⟨defaultNs ⟨sc.outer, asWritten as :: sc.tags⟩, q.localName⟩ := by
        rw [hin, ← h2]
      conv => arg 3; rw [this]
      exact .plain
    have htag : TagText .clean ⟨sc.outer, asWritten as :: sc.tags⟩ (asWritten as)
        (u "<" ++ q.localName ++ as.flatMap fun a => writeAttr a.1.localName a.2) q as := by
      have := TagText.mk (m := .clean) (sc := ⟨sc.outer, asWritten as :: sc.tags⟩) (.plain h1) (writeAttrs_text as h4.1)
        (by simp) hq (asWritten_names _ as h4.1) (by simp)
      rwa [lastWins_nodup h4.2.1] at this
    have hbody := writeKids_text (d := innerNs (defaultNs sc) as) kids false h6 (sc := ⟨sc.outer, asWritten as :: sc.tags⟩) hin
      [] [] .nil (fun _ => rfl)
    rw [writeNode, tagName_bare h3, writeAttrs_plain h4.2.2, hv, hr]
    have := ElementText.full htag hbody (.plain h1) hq (w := []) (by simp [Spaces])
    refine .element ?_
    simpa [some_] using this

theorem writeKids_text {d : Option Text} (ns : List Node) (after : Bool) (h : WritableKids d after ns) :
    ∀ {sc : Scope}, defaultNs sc = d → ∀ s0 t0, CharText .clean s0 t0 → (after = false → t0 = []) →
      ContentText .clean sc (s0 ++ writeNodes false ns) (some_ t0 ++ ns) := by
  intro sc hd s0 t0 h0 hafter
  cases ns with
  | nil =>
    rw [writeNodes, List.append_nil, List.append_nil]
    exact .last h0
  | cons n ns =>
    cases n with
    | text t =>
      rw [WritableKids] at h
      obtain ⟨h1, h2, h3⟩ := h
      have ht0 := hafter h1
      subst ht0
      rw [writeNodes, writeNode]
      have happ : CharText .clean (s0 ++ escapeString false t) t := by
        have : ∀ {s t0 : Text}, CharText .clean s t0 → t0 = [] →
            ∀ {s' t'}, CharText .clean s' t' → (∀ x ∈ s', x ≠ 62) → CharText .clean (s ++ s') t' := by
          intro s t0 hs
          induction hs with
          | nil => intro _ s' t' h' _; exact h'
          | plain => intro he; cases he
          | ref => intro he; cases he
          | @cdata dd src t hw _ _ ih =>
            intro he s' t' h' hx
            simp only [List.append_eq_nil_iff] at he
            have := CharText.cdata (m := .clean) hw (by simp) (ih he.2 h' hx)
            rw [he.1] at this ⊢
            simpa using this
        refine this h0 rfl (escape_text t) ?_
        intro x hx e
        exact escape_no_gt false t (e ▸ hx)
      have := writeKids_text ns true h3 hd (s0 ++ escapeString false t) t happ (by simp)
      simp only [Bool.false_eq_true, if_false]
      rw [← List.append_assoc]
      have e : some_ ([] : Text) ++ Node.text t :: ns = some_ t ++ ns := by
        cases t with
        | nil => exact absurd rfl h2
        | cons => rfl
      rw [e]
      exact this
    | comment c =>
      rw [WritableKids] at h
      · have hi := writeNode_text (raw := false) (.comment c) h.1 hd
        have hk := writeKids_text ns false h.2 hd [] [] .nil (fun _ => rfl)
        rw [writeNodes, ← List.append_assoc]
        have := ContentText.item h0 hi hk
        simpa [some_] using this
      · simp
    | element q as kids =>
      rw [WritableKids] at h
      · have hi := writeNode_text (raw := false) (.element q as kids) h.1 hd
        have hk := writeKids_text ns false h.2 hd [] [] .nil (fun _ => rfl)
        rw [writeNodes, ← List.append_assoc]
        have := ContentText.item h0 hi hk
        simpa [some_] using this
      · simp
    | doctype a b c =>
      rw [WritableKids] at h
      · exact absurd h.1 (by simp [Writable])
      · simp
end

end Verif.Xml
