import Verif.Html.SafeTag
/-
The states of attributes keep the invariant.
-/
namespace Verif.Html
open Spec

theorem setLast_append (f : Attr → Attr) (a : Attr) : ∀ pre : List Attr,
    setLast f (pre ++ [a]) = pre ++ [f a]
  | [] => rfl
  | [b] => rfl
  | b :: c :: r => by
    show b :: setLast f ((c :: r) ++ [a]) = _
    rw [setLast_append f a (c :: r)]; rfl

theorem beginAttribute_eq {s : Lex} {t : Token} (h : s.token = some t) :
    beginAttribute s = { s with token := some { t with attrs := t.attrs ++ [{}] }, attr := true } := by
  simp [beginAttribute, onToken, h]

theorem openAttr_begin {t : Token} (hk : IsTag t) (hg : GoodTag t) :
    OpenAttr (some { t with attrs := t.attrs ++ [{}] }) :=
  ⟨_, t.attrs, rfl, hk, rfl, hg⟩

theorem isDuplicate_iff {pre : List Attr} {n : Str} (hn : AttrName n)
    (hp : ∀ a ∈ pre, AttrName a.name) (v : Str) :
    isDuplicate (pre ++ [⟨n, v⟩]) = true ↔ n ∈ pre.map Attr.name := by
  simp only [isDuplicate, List.getLast?_append, List.getLast?_singleton, Option.some_or,
    List.dropLast_concat, List.any_eq_true, List.mem_map]
  constructor
  · rintro ⟨b, hb, e⟩
    refine ⟨b, hb, ?_⟩
    have := (startWith_ci_lower (fun c hc => (hn.2.1 c hc).1)
      (fun c hc => ((hp b hb).2.1 c hc).1)).mp (by simpa using e)
    exact this.symm
  · rintro ⟨b, hb, rfl⟩
    refine ⟨b, hb, ?_⟩
    have := (startWith_ci_lower (fun c hc => (hn.2.1 c hc).1)
      (fun c hc => ((hp b hb).2.1 c hc).1)).mpr rfl
    simp [this]

theorem goodTag_snoc {t : Token} {pre : List Attr} (h : GoodTag { t with attrs := pre })
    {a : Attr} (hn : AttrName a.name) (hd : a.name ∉ pre.map Attr.name) :
    GoodTag { t with attrs := pre ++ [a] } := by
  refine ⟨h.name, ?_, ?_⟩
  · intro b hb
    rcases List.mem_append.mp hb with hb | hb
    · exact h.names b hb
    · rw [List.mem_singleton.mp hb]; exact hn
  · have hd' := h.distinct
    simp only [List.map_append, List.map_cons, List.map_nil]
    rw [List.nodup_append]
    refine ⟨hd', by simp, ?_⟩
    intro x hx y hy e
    rw [List.mem_singleton.mp hy] at e
    exact hd (e ▸ hx)

/-- Leaving the name of an attribute: the attribute is kept if its name is new, and dropped
otherwise. -/
theorem leave_eq {s : Lex} {t : Token} {pre : List Attr} (h : s.token = some t)
    (ha : t.attrs = pre ++ [({} : Attr)]) (hg : GoodTag { t with attrs := pre })
    (hs : s.attr = true) (hn : AttrName s.builder) :
    leaveAttributeName (commitAttrName s) =
      if s.builder ∈ pre.map Attr.name then
        { s with token := some { t with attrs := pre }, builder := [], attr := false }
      else
        { s with token := some { t with attrs := pre ++ [⟨s.builder, []⟩] }, builder := [] } := by
  have e : commitAttrName s = { s with token := some { t with attrs := pre ++ [⟨s.builder, []⟩] }, builder := [] } := by
    unfold commitAttrName
    rw [if_pos hs]
    unfold onAttr
    simp only [h]
    rw [if_neg (by rw [ha]; simp), ha, setLast_append]
    rfl
  rw [e]
  unfold leaveAttributeName
  simp only
  have hiff := isDuplicate_iff hn hg.names []
  by_cases hm : s.builder ∈ pre.map Attr.name
  · rw [if_pos hm]
    have hne : pre ≠ [] := by rintro rfl; simp at hm
    have : ¬ (pre ++ [(⟨s.builder, []⟩ : Attr)]).length ≤ 1 := by
      have := List.length_pos_iff.mpr hne
      simp only [List.length_append, List.length_singleton]; omega
    rw [if_neg this, if_neg (by rw [hs]; decide), if_pos (hiff.mpr hm)]
    simp
  · rw [if_neg hm]
    split
    · rfl
    · rw [if_neg (by rw [hs]; decide), if_neg (fun h => hm (hiff.mp h))]

theorem leave_keeps {s : Lex} (ho : OpenAttr s.token) (hs : s.attr = true)
    (hn : AttrName s.builder) :
    ∃ tok attr, leaveAttributeName (commitAttrName s) =
        { s with token := tok, builder := [], attr := attr } ∧
      TagTok tok ∧ HasAttr tok attr := by
  obtain ⟨t, pre, h, hk, ha, hg⟩ := ho
  rw [leave_eq h ha hg hs hn]
  by_cases hm : s.builder ∈ pre.map Attr.name
  · rw [if_pos hm]
    refine ⟨_, false, rfl, ⟨_, rfl, hk, hg⟩, ?_⟩
    intro _ _ h; cases h
  · rw [if_neg hm]
    refine ⟨some { t with attrs := pre ++ [⟨s.builder, []⟩] }, true, by rw [hs],
      ⟨_, rfl, hk, goodTag_snoc (a := ⟨s.builder, []⟩) hg hn hm⟩, ?_⟩
    intro u hu _
    cases hu
    simp

theorem goodTag_setLast {t : Token} (h : GoodTag t) (v : Str) :
    GoodTag { t with attrs := setLast (fun a => { a with value := v }) t.attrs } := by
  have key : ∀ as : List Attr,
      (setLast (fun a => { a with value := v }) as).map Attr.name = as.map Attr.name := by
    intro as
    rcases List.eq_nil_or_concat as with rfl | ⟨pre, a, rfl⟩
    · rfl
    · rw [List.concat_eq_append, setLast_append]; simp
  refine ⟨h.name, ?_, by rw [key]; exact h.distinct⟩
  intro a ha
  have : a.name ∈ t.attrs.map Attr.name := by
    rw [← key]; exact List.mem_map.mpr ⟨a, ha, rfl⟩
  obtain ⟨b, hb, e⟩ := List.mem_map.mp this
  rw [← e]; exact h.names b hb

theorem takeValue_keeps {s : Lex} (ht : TagTok s.token) (ha : HasAttr s.token s.attr) :
    ∃ tok, takeValue s = { s with token := tok, builder := [] } ∧ TagTok tok := by
  obtain ⟨t, h, hk, hg⟩ := ht
  unfold takeValue
  by_cases hs : s.attr = true
  · rw [if_pos hs]
    unfold onAttr
    simp only [h]
    rw [if_neg (ha t h hs)]
    exact ⟨_, rfl, ⟨_, rfl, hk, goodTag_setLast hg _⟩⟩
  · rw [if_neg hs]
    exact ⟨_, rfl, ⟨t, h, hk, hg⟩⟩

/-! ### The states -/

theorem beforeAttributeName_keeps (E : Env) :
    Keeps E .beforeAttributeName onBeforeAttributeName := by
  begin_state
  obtain ⟨⟨t, e, hk, hg⟩, hb⟩ := hl
  simp only at e hb
  subst e hb
  unfold onBeforeAttributeName
  split
  · next h =>
    cases eof with
    | true => have hc := he rfl; subst hc; exact absurd h (by decide)
    | false => exact .of_stay ⟨hf, ⟨t, rfl, hk, hg⟩, rfl⟩
  next hsp =>
  split
  · next h =>
    refine .of_again hf ⟨⟨t, rfl, hk, hg⟩, rfl, Or.inr h⟩ ?_
    have : stops c eof = true := by
      rcases h with rfl | rfl | rfl <;> simp [stops]
    simp [rank, this]
  next hst =>
  simp only [not_or, Bool.not_eq_true] at hst
  obtain ⟨h1, h2, h3⟩ := hst
  subst h3
  split
  · next h =>
    rw [beginAttribute_eq rfl]
    refine .of_stay ⟨hf, openAttr_begin hk hg, rfl, ?_⟩
    subst h
    exact attrName_one ⟨by unfold Upper; decide, by unfold Space; decide, by decide, by decide, by decide⟩
  · next h =>
    rw [beginAttribute_eq rfl]
    have hst : stops c false = false := by simp [stops, h1, h2, hsp]
    exact .of_again hf ⟨openAttr_begin hk hg, rfl, Or.inl rfl, Or.inr ⟨hst, h⟩⟩ (by simp [rank, hst])

theorem stops_iff {c : Char} {eof : Bool} :
    stops c eof = true ↔ (isSpace c = true ∨ c = '/' ∨ c = '>' ∨ eof = true) := by
  simp [stops, or_assoc]

theorem attrSoFar_ne {b : Str} (h : AttrSoFar b) (hb : b ≠ []) : AttrName b := by
  rcases h with h | h
  · exact absurd h hb
  · exact h

theorem attrSoFar_snoc {b : Str} {c : Char} (h : AttrSoFar b) (hc : NameChar c) (he : c ≠ '=') :
    AttrName (b ++ [c]) := by
  rcases h with h | h
  · rw [h]; exact attrName_one hc
  · exact attrName_snoc h hc he

theorem attributeName_keeps (E : Env) : Keeps E .attributeName onAttributeName := by
  begin_state
  obtain ⟨ho, hat, hn, hp⟩ := hl
  simp only at ho hat hn hp
  subst hat
  unfold onAttributeName
  split
  · next h =>
    have hst := stops_iff.mpr h
    have hb : b ≠ [] := by
      rcases hp with hp | hp
      · exact hp
      · rw [hst] at hp; cases hp.1
    obtain ⟨tok', attr', e, h1, h2⟩ := leave_keeps (s := ⟨.attributeName, ret, tok, last, cur, b, temp, peek, true, matched, out, fault⟩) ho rfl (attrSoFar_ne hn hb)
    rw [e]
    exact .of_again hf ⟨h1, rfl, Or.inl h2⟩ (by simp [rank, hst])
  next h =>
  have hst : stops c eof = false := by
    cases hh : stops c eof with
    | false => rfl
    | true => exact absurd (stops_iff.mp hh) h
  simp only [not_or, Bool.not_eq_true] at h
  obtain ⟨hsp, hsl, hgt, heof⟩ := h
  subst heof
  split
  · next hq =>
    have hb : b ≠ [] := by
      rcases hp with hp | hp
      · exact hp
      · exact absurd hq hp.2
    obtain ⟨tok', attr', e, h1, h2⟩ := leave_keeps (s := ⟨.attributeName, ret, tok, last, cur, b, temp, peek, true, matched, out, fault⟩) ho rfl (attrSoFar_ne hn hb)
    rw [e]
    exact .of_stay ⟨hf, h1, rfl, h2⟩
  next hq =>
  split
  · next hu =>
    have hl := lower_of_upper (upper_iff.mp hu)
    refine .of_stay ⟨hf, ho, rfl, attrSoFar_snoc hn (nameChar_of_lower hl) ?_⟩
    intro e; rw [e] at hl; exact absurd hl.1 (by decide)
  next hu =>
  split
  · exact .of_stay ⟨hf, ho, rfl, attrSoFar_snoc hn nameChar_replacement (by decide)⟩
  · next hnul =>
    exact .of_stay ⟨hf, ho, rfl, attrSoFar_snoc hn
      ⟨by simpa [upper_iff] using hu, space_iff'.mp hsp, hsl, hgt, hnul⟩ hq⟩

theorem afterAttributeName_keeps (E : Env) :
    Keeps E .afterAttributeName onAfterAttributeName := by
  begin_state
  obtain ⟨⟨t, e, hk, hg⟩, hb, ha⟩ := hl
  simp only at e hb ha
  subst e hb
  unfold onAfterAttributeName
  split
  · next h =>
    cases eof with
    | true => have hc := he rfl; subst hc; exact absurd h (by decide)
    | false =>
      refine .of_stay ⟨hf, ⟨t, rfl, hk, hg⟩, rfl, ?_⟩
      rcases ha with ha | rfl | rfl | ha
      · exact ha
      · exact absurd h (by decide)
      · exact absurd h (by decide)
      · cases ha
  next hsp =>
  split
  · next h =>
    cases eof with
    | true => have hc := he rfl; subst hc; exact absurd h (by decide)
    | false => exact .of_stay ⟨hf, ⟨t, rfl, hk, hg⟩, rfl⟩
  next hsl =>
  split
  · next h =>
    cases eof with
    | true => have hc := he rfl; subst hc; exact absurd h (by decide)
    | false =>
      refine .of_stay ⟨hf, ⟨t, rfl, hk, hg⟩, rfl, ?_⟩
      subst h
      rcases ha with ha | ha | ha | ha
      · exact ha
      · exact absurd ha (by decide)
      · exact absurd ha (by decide)
      · cases ha
  next hq =>
  split
  · next h =>
    cases eof with
    | true => have hc := he rfl; subst hc; exact absurd h (by decide)
    | false => exact .of_stay (emit_tag hf ⟨t, rfl, hk, hg⟩ rfl rfl)
  next hgt =>
  cases eof with
  | true => rw [if_pos rfl]; exact .of_done (hf.done E)
  | false =>
    rw [if_neg (by decide), beginAttribute_eq rfl]
    have hst : stops c false = false := by simp [stops, hsl, hgt, hsp]
    exact .of_again hf ⟨openAttr_begin hk hg, rfl, Or.inl rfl, Or.inr ⟨hst, hq⟩⟩ (by simp [rank, hst])

theorem beforeAttributeValue_keeps (E : Env) :
    Keeps E .beforeAttributeValue onBeforeAttributeValue := by
  begin_state
  obtain ⟨ht, hb, ha⟩ := hl
  simp only at ht hb ha
  subst hb
  unfold onBeforeAttributeValue
  cases eof with
  | true => at_end; exact .of_again hf ⟨ht, ha⟩ (by simp [rank])
  | false =>
    split
    · exact .of_stay ⟨hf, ht, rfl, ha⟩
    split
    · exact .of_stay ⟨hf, ht, ha⟩
    split
    · exact .of_stay ⟨hf, ht, ha⟩
    split
    · exact .of_stay (emit_tag hf ht rfl rfl)
    · exact .of_again hf ⟨ht, ha⟩ (by simp [rank])

set_option hygiene false in
/-- A quoted value. -/
macro "value_quoted" : tactic => `(tactic| (
  begin_state
  obtain ⟨ht, ha⟩ := hl
  simp only at ht ha
  unfold onValueQuoted
  cases eof with
  | true => at_end; exact .of_done (hf.done E)
  | false =>
    split
    · obtain ⟨tok', e, h1⟩ := takeValue_keeps (s := ⟨_, ret, tok, last, cur, b, temp, peek, attr, matched, out, fault⟩) ht ha
      rw [e]
      exact .of_stay ⟨hf, h1, rfl⟩
    split
    · exact .of_stay ⟨hf, Or.inr ⟨by simp [isValue], ht, ha⟩⟩
    split
    · exact .of_stay ⟨hf, ht, ha⟩
    split
    · contradiction
    · exact .of_stay ⟨hf, ht, ha⟩))

theorem valueDoubleQuoted_keeps (E : Env) :
    Keeps E .valueDoubleQuoted (onValueQuoted .valueDoubleQuoted '"') := by value_quoted
theorem valueSingleQuoted_keeps (E : Env) :
    Keeps E .valueSingleQuoted (onValueQuoted .valueSingleQuoted '\'') := by value_quoted

theorem valueUnquoted_keeps (E : Env) : Keeps E .valueUnquoted onValueUnquoted := by
  begin_state
  obtain ⟨ht, ha⟩ := hl
  simp only at ht ha
  unfold onValueUnquoted
  cases eof with
  | true => at_end; exact .of_done (hf.done E)
  | false =>
    split
    · obtain ⟨tok', e, h1⟩ := takeValue_keeps (s := ⟨.valueUnquoted, ret, tok, last, cur, b, temp, peek, attr, matched, out, fault⟩) ht ha
      rw [e]
      exact .of_stay ⟨hf, h1, rfl⟩
    split
    · exact .of_stay ⟨hf, Or.inr ⟨by simp [isValue], ht, ha⟩⟩
    split
    · obtain ⟨tok', e, h1⟩ := takeValue_keeps (s := ⟨.valueUnquoted, ret, tok, last, cur, b, temp, peek, attr, matched, out, fault⟩) ht ha
      rw [e]
      exact .of_stay (emit_tag hf h1 rfl rfl)
    split
    · exact .of_stay ⟨hf, ht, ha⟩
    split
    · contradiction
    · exact .of_stay ⟨hf, ht, ha⟩

theorem afterValueQuoted_keeps (E : Env) : Keeps E .afterValueQuoted onAfterValueQuoted := by
  begin_state
  obtain ⟨ht, hb⟩ := hl
  simp only at ht hb
  subst hb
  unfold onAfterValueQuoted
  cases eof with
  | true => at_end; exact .of_done (hf.done E)
  | false =>
    split
    · exact .of_stay ⟨hf, ht, rfl⟩
    split
    · exact .of_stay ⟨hf, ht, rfl⟩
    split
    · exact .of_stay (emit_tag hf ht rfl rfl)
    split
    · contradiction
    · exact .of_again hf ⟨ht, rfl⟩ (by simp [rank])

theorem selfClosing_keeps (E : Env) : Keeps E .selfClosingStartTag onSelfClosing := by
  begin_state
  obtain ⟨⟨t, e, hk, hg⟩, hb⟩ := hl
  simp only at e hb
  subst e hb
  unfold onSelfClosing
  cases eof with
  | true => at_end; exact .of_done (hf.done E)
  | false =>
    split
    · refine .of_stay (emit_tag hf ?_ rfl rfl)
      exact ⟨_, rfl, hk, ⟨hg.name, hg.names, hg.distinct⟩⟩
    split
    · contradiction
    · exact .of_again hf ⟨⟨t, rfl, hk, hg⟩, rfl⟩ (by simp [rank])

end Verif.Html
