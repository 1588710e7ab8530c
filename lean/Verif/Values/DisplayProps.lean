import Verif.Values.Lemmas

/-!
# Values: display (C99)
-/

namespace Verif.Values

/-- The keyword of a table a text is. -/
def kwLookup (table : List (String × α)) (w : List Char) : Option α :=
  (table.find? fun p => eqCi w p.1.toList).map (·.2)

theorem skipAny_ident (table : List (String × α)) (w : List Char) (r : List Tok) :
    skipAny table (.ident w :: r) = (kwLookup table w).map fun v => (v, r) := by
  unfold kwLookup
  induction table with
  | nil => rfl
  | cons p t ih =>
    obtain ⟨k, v⟩ := p
    unfold skipAny skipIdent
    by_cases h : eqCi w k.toList = true
    · simp [List.find?_cons, h]
    · simp [List.find?_cons, h, ih]

theorem skipAny_none (table : List (String × α)) {l : List Tok} (h : ∀ w r, l ≠ .ident w :: r) :
    skipAny table l = none := by
  induction table with
  | nil => rfl
  | cons p t ih =>
    obtain ⟨k, v⟩ := p
    have : skipIdent k.toList l = none := by
      unfold skipIdent
      split
      · next w r => exact absurd rfl (h w r)
      · rfl
    simp [skipAny, this, ih]

theorem skipAny_nil (table : List (String × α)) : skipAny table [] = none :=
  skipAny_none table (fun w r h => by cases h)

theorem kwLookup_congr {w k : List Char} (h : Cased w k) (table : List (String × α)) :
    kwLookup table w = kwLookup table k := by
  unfold kwLookup
  congr 2
  funext p
  exact h.eqCi_congr p.1.toList

theorem kwLookup_some {table : List (String × α)} {w : List Char} {v : α}
    (h : kwLookup table w = some v) : ∃ k, (k, v) ∈ table ∧ Cased w k.toList := by
  unfold kwLookup at h
  obtain ⟨p, hp, hv⟩ := Option.map_eq_some_iff.mp h
  obtain ⟨k, v'⟩ := p
  have h1 := List.mem_of_find?_eq_some hp
  have h2 := List.find?_some hp
  simp only at hv h2
  subst hv
  exact ⟨k, h1, eqCi_iff.mp h2⟩

def Part.in? : Part → Option Inside
  | .inside i => some i
  | _ => none
def Part.out? : Part → Option Outside
  | .outside i => some i
  | _ => none
def Part.isItem : Part → Bool
  | .item => true
  | _ => false

/-- What a keyword of a part is in each table. -/
structure PartKw (p : Part) : Prop where
  legacy : kwLookup legacyKw p.keyword.toList = none
  box : kwLookup boxKw p.keyword.toList = none
  internal : kwLookup internalKw p.keyword.toList = none
  inside : kwLookup insideKw p.keyword.toList = p.in?
  outside : kwLookup outsideKw p.keyword.toList = p.out?
  item : eqCi p.keyword.toList itemKw = p.isItem

theorem partKw (p : Part) : PartKw p := by
  rcases p with i | o | _
  · cases i <;> exact ⟨by decide +kernel, by decide +kernel, by decide +kernel, by decide +kernel,
      by decide +kernel, by decide +kernel⟩
  · cases o <;> exact ⟨by decide +kernel, by decide +kernel, by decide +kernel, by decide +kernel,
      by decide +kernel, by decide +kernel⟩
  · exact ⟨by decide +kernel, by decide +kernel, by decide +kernel, by decide +kernel,
      by decide +kernel, by decide +kernel⟩

/-- The inner part of the parser: what is left when no keyword stands alone. -/
def displayParts (l : List Tok) : Out Display :=
  let (inside, l1) := opt (skipAny insideKw l) l
  let (outside, l2) := opt (skipAny outsideKw l1) l1
  let (item, l3) := match skipIdent itemKw l2 with
    | some r => (true, r)
    | none => (false, l2)
  if inside.isNone && outside.isNone && !item then (none, l3)
  else (some (.default (inside.getD .flow) (outside.getD .block) item), l3)

theorem parseDisplay_part {w : List Char} {p : Part} (h : Cased w p.keyword.toList) (r : List Tok) :
    parseDisplay (.ident w :: r) = displayParts (.ident w :: r) := by
  have k := partKw p
  unfold parseDisplay
  rw [skipAny_ident, skipAny_ident, skipAny_ident, kwLookup_congr h, kwLookup_congr h,
    kwLookup_congr h, k.legacy, k.box, k.internal]
  rfl

theorem skipInside {w : List Char} {p : Part} (h : Cased w p.keyword.toList) (r : List Tok) :
    opt (skipAny insideKw (.ident w :: r)) (.ident w :: r) =
      (p.in?, if p.in?.isSome then r else .ident w :: r) := by
  rw [skipAny_ident, kwLookup_congr h, (partKw p).inside]
  cases p <;> rfl

theorem skipOutside {w : List Char} {p : Part} (h : Cased w p.keyword.toList) (r : List Tok) :
    opt (skipAny outsideKw (.ident w :: r)) (.ident w :: r) =
      (p.out?, if p.out?.isSome then r else .ident w :: r) := by
  rw [skipAny_ident, kwLookup_congr h, (partKw p).outside]
  cases p <;> rfl

theorem skipItem {w : List Char} {p : Part} (h : Cased w p.keyword.toList) (r : List Tok) :
    skipIdent itemKw (.ident w :: r) =
      if p.isItem then some r else none := by
  have := (partKw p).item
  simp only [skipIdent, h.eqCi_congr, this]

/-- **C99.** A keyword that stands alone, in any case, means what the table says. -/
theorem C99_alone {k : String} {d : Display} {w : List Char} (h : (k, d) ∈ aloneTable)
    (hw : Cased w k.toList) : declared parseDisplay [.ident w] = some d := by
  have key : ∀ x ∈ aloneTable,
      (kwLookup legacyKw x.1.toList).or ((kwLookup boxKw x.1.toList).or
        (kwLookup internalKw x.1.toList)) = some x.2 := by decide +kernel
  have := key _ h
  simp only [← kwLookup_congr hw] at this
  unfold declared parseDisplay
  simp only [eatWs, skipAny_ident]
  cases h1 : kwLookup legacyKw w with
  | some v => rw [h1] at this; simpa using this
  | none =>
    cases h2 : kwLookup boxKw w with
    | some v => rw [h1, h2] at this; simpa using this
    | none =>
      cases h3 : kwLookup internalKw w with
      | some v => rw [h1, h2, h3] at this; simpa using this
      | none => rw [h1, h2, h3] at this; simp at this

example : ("inline-block", Display.default .flowRoot .inline false) ∈ aloneTable ∧
    Cased "Inline-BLOCK".toList "inline-block".toList :=
  ⟨by decide +kernel, eqCi_iff.mp (by decide +kernel)⟩

/-- **C99 (in part).** Parts in the order inner layout, outer role, list item mean what they say,
each in any case and each but one left out at will.  Other orders: see below. -/
theorem C99_parts_partial {ps : List Part} {ts : List Tok} (hw : WrittenParts ps ts) (hne : ps ≠ [])
    (ho : (ps.map Part.kind).Pairwise (· < ·)) : declared parseDisplay ts = some (ofParts ps) := by
  have hd : ∀ {w p r}, Cased w (Part.keyword p).toList →
      declared parseDisplay (.ident w :: r) = declared displayParts (.ident w :: r) := by
    intro w p r h
    simp only [declared, eatWs, parseDisplay_part h]
  have hnil : skipIdent itemKw [] = none := rfl
  cases hw with
  | nil => exact absurd rfl hne
  | @cons w1 p1 ps ts h1 hw =>
    rw [hd h1]
    cases hw with
    | nil =>
      unfold declared displayParts
      simp only [eatWs, skipInside h1]
      cases p1 with
      | inside i => simp [skipAny_nil, hnil, opt, ofParts, Part.in?, Part.out?, Part.isItem]
      | outside o => simp [skipOutside h1, hnil, ofParts, Part.in?, Part.out?, Part.isItem]
      | item => simp [skipOutside h1, skipItem h1, ofParts, Part.in?, Part.out?, Part.isItem]
    | @cons w2 p2 ps ts h2 hw =>
      simp only [List.map_cons, List.pairwise_cons] at ho
      have k12 : p1.kind < p2.kind := ho.1 _ List.mem_cons_self
      cases hw with
      | nil =>
        unfold declared displayParts
        simp only [eatWs, skipInside h1]
        cases p1 with
        | inside i =>
          cases p2 with
          | inside j => simp [Part.kind] at k12
          | outside o => simp [skipOutside h2, hnil, ofParts, Part.in?, Part.out?, Part.isItem]
          | item => simp [skipOutside h2, skipItem h2, ofParts, Part.in?, Part.out?, Part.isItem]
        | outside o =>
          cases p2 with
          | inside j => simp [Part.kind] at k12
          | outside o => simp [Part.kind] at k12
          | item => simp [skipOutside h1, skipItem h2, ofParts, Part.in?, Part.out?, Part.isItem]
        | item => cases p2 <;> simp [Part.kind] at k12
      | @cons w3 p3 ps ts h3 hw =>
        have k23 : p2.kind < p3.kind := ho.2.1 _ List.mem_cons_self
        cases hw with
        | nil =>
          cases p1 <;> cases p2 <;> simp only [Part.kind] at k12 <;> try omega
          all_goals cases p3 <;> simp only [Part.kind] at k23 <;> try omega
          unfold declared displayParts
          simp only [eatWs, skipInside h1]
          simp [skipOutside h2, skipItem h3, ofParts, Part.in?, Part.out?, Part.isItem]
        | @cons w4 p4 ps ts h4 hw =>
          exfalso
          have k34 : p3.kind < p4.kind := (List.pairwise_cons.mp ho.2.2).1 _ List.mem_cons_self
          have : p4.kind ≤ 2 := by cases p4 <;> simp [Part.kind]
          omega

example : WrittenParts [.inside .table, .outside .inline] [.ident "table".toList, .ident "INLINE".toList] ∧
    ([Part.inside .table, .outside .inline].map Part.kind).Pairwise (· < ·) ∧
    ofParts [.inside .table, .outside .inline] = .default .table .inline false := by
  refine ⟨.cons (Cased.refl _) (.cons (eqCi_iff.mp (by decide +kernel)) .nil), by decide, by decide⟩

/-- **C99.** It is false that the order does not matter: no value with the outer role before the
inner layout is accepted, nor one with `list-item` before either. -/
theorem C99_order_fails {p q : Part} (h : q.kind < p.kind) {ts : List Tok}
    (hw : WrittenParts [p, q] ts) : declared parseDisplay ts = none := by
  cases hw with
  | cons h1 hw =>
    cases hw with
    | cons h2 hw =>
      cases hw
      unfold declared
      simp only [eatWs, parseDisplay_part h1]
      unfold displayParts
      simp only [skipInside h1]
      cases p with
      | inside i => cases q <;> simp [Part.kind] at h
      | outside o =>
        cases q with
        | inside j => simp [skipOutside h1, skipItem h2, Part.in?, Part.out?, Part.isItem]
        | outside o => simp [Part.kind] at h
        | item => simp [Part.kind] at h
      | item =>
        cases q with
        | inside j => simp [skipOutside h1, skipItem h1, Part.in?, Part.out?, Part.isItem]
        | outside o => simp [skipOutside h1, skipItem h1, Part.in?, Part.out?, Part.isItem]
        | item => simp [Part.kind] at h

example : WrittenParts [.outside .inline, .inside .table]
    [.ident "inline".toList, .ident "table".toList] :=
  .cons (Cased.refl _) (.cons (Cased.refl _) .nil)

/-- **C99.** It is false that `ruby` alone is inline: it is a block. -/
theorem C99_ruby_fails :
    declared parseDisplay [.ident "ruby".toList] = some (.default .ruby .block false) := by
  decide +kernel

/-- What an optional keyword read tells. -/
theorem opt_cases (table : List (String × α)) (l : List Tok) :
    (∃ w r v k, l = .ident w :: r ∧ (k, v) ∈ table ∧ Cased w k.toList ∧
      opt (skipAny table l) l = (some v, r)) ∨ opt (skipAny table l) l = (none, l) := by
  by_cases h : ∃ w r, l = .ident w :: r
  · obtain ⟨w, r, rfl⟩ := h
    rw [skipAny_ident]
    cases hk : kwLookup table w with
    | none => right; rfl
    | some v =>
      left
      obtain ⟨k, hk, hc⟩ := kwLookup_some hk
      exact ⟨w, r, v, k, rfl, hk, hc, rfl⟩
  · right
    rw [skipAny_none table (fun w r e => h ⟨w, r, e⟩)]
    rfl

theorem skipAny_some {table : List (String × α)} {l r : List Tok} {v : α}
    (h : skipAny table l = some (v, r)) :
    ∃ w k, l = .ident w :: r ∧ (k, v) ∈ table ∧ Cased w k.toList := by
  rcases opt_cases table l with ⟨w, r', v', k, rfl, hk, hc, he⟩ | he
  · rw [h] at he
    simp only [opt, Prod.mk.injEq, Option.some.injEq] at he
    obtain ⟨rfl, rfl⟩ := he
    exact ⟨w, k, rfl, hk, hc⟩
  · rw [h] at he; simp [opt] at he

theorem insideKw_part {k : String} {i : Inside} (h : (k, i) ∈ insideKw) :
    k = (Part.inside i).keyword := by
  have : ∀ x ∈ insideKw, x.1 = (Part.inside x.2).keyword := by decide +kernel
  exact this _ h

theorem outsideKw_part {k : String} {i : Outside} (h : (k, i) ∈ outsideKw) :
    k = (Part.outside i).keyword := by
  have : ∀ x ∈ outsideKw, x.1 = (Part.outside x.2).keyword := by decide +kernel
  exact this _ h

theorem skipItem_cases (l : List Tok) :
    (∃ w r, l = .ident w :: r ∧ Cased w Part.item.keyword.toList ∧
      skipIdent itemKw l = some r) ∨ skipIdent itemKw l = none := by
  unfold skipIdent
  split
  · next w r =>
    split
    · next h => exact .inl ⟨w, r, rfl, eqCi_iff.mp h, rfl⟩
    · exact .inr rfl
  · exact .inr rfl

/-- **C99.** Nothing else is accepted: what is accepted is a keyword that stands alone, or parts
each of another kind; and it means what they say. -/
theorem C99_only {ts : List Tok} {d : Display} (h : declared parseDisplay ts = some d) :
    (∃ k w, (k, d) ∈ aloneTable ∧ Cased w k.toList ∧ eatWs ts = [.ident w]) ∨
    (∃ ps, ps ≠ [] ∧ (ps.map Part.kind).Nodup ∧ WrittenParts ps (eatWs ts) ∧ d = ofParts ps) := by
  have tables : ∀ k d, (k, d) ∈ legacyKw ∨ (k, d) ∈ boxKw ∨ (k, d) ∈ internalKw →
      (k, d) ∈ aloneTable := by
    have h1 : ∀ x ∈ legacyKw, x ∈ aloneTable := by decide +kernel
    have h2 : ∀ x ∈ boxKw, x ∈ aloneTable := by decide +kernel
    have h3 : ∀ x ∈ internalKw, x ∈ aloneTable := by decide +kernel
    intro k d h
    rcases h with h | h | h
    · exact h1 _ h
    · exact h2 _ h
    · exact h3 _ h
  unfold declared at h
  generalize eatWs ts = l at h ⊢
  split at h
  case h_2 => cases h
  next v hp =>
  cases h
  unfold parseDisplay at hp
  split at hp
  · next d r hs =>
    left
    simp only [Prod.mk.injEq, Option.some.injEq] at hp
    obtain ⟨rfl, rfl⟩ := hp
    obtain ⟨w, k, hl, hk, hc⟩ := skipAny_some hs
    exact ⟨k, w, tables k d (.inl hk), hc, hl⟩
  split at hp
  · next d r hs =>
    left
    simp only [Prod.mk.injEq, Option.some.injEq] at hp
    obtain ⟨rfl, rfl⟩ := hp
    obtain ⟨w, k, hl, hk, hc⟩ := skipAny_some hs
    exact ⟨k, w, tables k d (.inr (.inl hk)), hc, hl⟩
  split at hp
  · next d r hs =>
    left
    simp only [Prod.mk.injEq, Option.some.injEq] at hp
    obtain ⟨rfl, rfl⟩ := hp
    obtain ⟨w, k, hl, hk, hc⟩ := skipAny_some hs
    exact ⟨k, w, tables k d (.inr (.inr hk)), hc, hl⟩
  right
  change displayParts l = (some d, []) at hp
  unfold displayParts at hp
  have hnil2 : skipAny outsideKw [] = none := skipAny_nil _
  rcases opt_cases insideKw l with ⟨w1, r1, i, k1, rfl, hk1, hc1, e1⟩ | e1
  · rw [insideKw_part hk1] at hc1
    simp only [e1] at hp
    rcases opt_cases outsideKw r1 with ⟨w2, r2, o, k2, rfl, hk2, hc2, e2⟩ | e2
    · rw [outsideKw_part hk2] at hc2
      simp only [e2] at hp
      rcases skipItem_cases r2 with ⟨w3, r3, rfl, hc3, e3⟩ | e3
      · simp [e3] at hp
        obtain ⟨rfl, rfl⟩ := hp
        exact ⟨[.inside i, .outside o, .item], by simp, by simp [Part.kind],
          .cons hc1 (.cons hc2 (.cons hc3 .nil)), by simp [ofParts, Part.in?, Part.out?, Part.isItem]⟩
      · simp [e3] at hp
        obtain ⟨rfl, rfl⟩ := hp
        exact ⟨[.inside i, .outside o], by simp, by simp [Part.kind],
          .cons hc1 (.cons hc2 .nil), by simp [ofParts, Part.in?, Part.out?, Part.isItem]⟩
    · simp only [e2] at hp
      rcases skipItem_cases r1 with ⟨w3, r3, rfl, hc3, e3⟩ | e3
      · simp [e3] at hp
        obtain ⟨rfl, rfl⟩ := hp
        exact ⟨[.inside i, .item], by simp, by simp [Part.kind],
          .cons hc1 (.cons hc3 .nil), by simp [ofParts, Part.in?, Part.out?, Part.isItem]⟩
      · simp [e3] at hp
        obtain ⟨rfl, rfl⟩ := hp
        exact ⟨[.inside i], by simp, by simp, .cons hc1 .nil, by simp [ofParts, Part.in?, Part.out?, Part.isItem]⟩
  · simp only [e1] at hp
    rcases opt_cases outsideKw l with ⟨w2, r2, o, k2, rfl, hk2, hc2, e2⟩ | e2
    · rw [outsideKw_part hk2] at hc2
      simp only [e2] at hp
      rcases skipItem_cases r2 with ⟨w3, r3, rfl, hc3, e3⟩ | e3
      · simp [e3] at hp
        obtain ⟨rfl, rfl⟩ := hp
        exact ⟨[.outside o, .item], by simp, by simp [Part.kind],
          .cons hc2 (.cons hc3 .nil), by simp [ofParts, Part.in?, Part.out?, Part.isItem]⟩
      · simp [e3] at hp
        obtain ⟨rfl, rfl⟩ := hp
        exact ⟨[.outside o], by simp, by simp, .cons hc2 .nil, by simp [ofParts, Part.in?, Part.out?, Part.isItem]⟩
    · simp only [e2] at hp
      rcases skipItem_cases l with ⟨w3, r3, rfl, hc3, e3⟩ | e3
      · simp [e3] at hp
        obtain ⟨rfl, rfl⟩ := hp
        exact ⟨[.item], by simp, by simp, .cons hc3 .nil, by simp [ofParts, Part.in?, Part.out?, Part.isItem]⟩
      · simp [e3] at hp

/-- **C99.** Making a box a block keeps its inner layout, but that a flow root becomes plain flow,
keeps whether it is a list item, and leaves `none` and `contents` alone; doing it twice is doing
it once. -/
theorem C99_blockify (junk junk' : Bool) (d : Display) :
    blockify junk' (blockify junk d) = blockify junk d ∧
    (∀ b, d = .box b → blockify junk d = d) ∧
    (∀ i o item, d = .default i o item → ∃ i',
      blockify junk d = .default i' .block item ∧ (i' = i ∨ i = .flowRoot ∧ i' = .flow)) := by
  refine ⟨?_, ?_, ?_⟩
  · rcases d with b | i | ⟨i, o, item⟩
    · rfl
    · rfl
    · cases i <;> cases o <;> rfl
  · rintro b rfl; rfl
  · rintro i o item rfl
    cases o <;> cases i <;> exact ⟨_, rfl, by simp⟩

/-- **C99.** It is false that making an internal table box a block is determined by it: the
result depends on a byte that was never written. -/
theorem C99_internal_fails (i : Internal) :
    blockify true (.internal i) ≠ blockify false (.internal i) := by
  simp [blockify]

/-- **C99.** It is false that making a box inline makes it inline: what was not inline is a
block. -/
theorem C99_inlinify_fails (i : Inside) (o : Outside) (item : Bool) (h : o ≠ .inline) :
    ∃ item', inlinify (.default i o item) = .default i .block item' := by
  cases o with
  | inline => exact absurd rfl h
  | block => cases i <;> exact ⟨_, rfl⟩
  | runIn => cases i <;> exact ⟨_, rfl⟩

end Verif.Values
