import Verif.Xml.Lemmas

/-! # References, text and attribute values: helper lemmas -/
namespace Verif.Xml
open Spec

/-! ## Numbers -/

theorem digit_iff {base : Nat} (hb : base ≤ 16) (c : Rune) (d : Nat) :
    digit base c = some d ↔ Digit base c d := by
  unfold digit Digit
  simp only [Option.filter_eq_some_iff, decide_eq_true_eq]
  split
  · simp only [Option.some.injEq]; omega
  · split
    · simp only [Option.some.injEq]; omega
    · split
      · simp only [Option.some.injEq]; omega
      · simp; omega

theorem Digit.ne_mark {base : Nat} {c : Rune} {d : Nat} (h : Digit base c d) : c ≠ 59 ∧ c ≠ 120 := by
  unfold Digit at h; omega

theorem digit_semi (base : Nat) : digit base 59 = none := by simp [digit]

def horner (base : Nat) (ds : Text) : Nat := ds.foldl (fun a r => a * base + (digit base r).getD 0) 0

theorem Numeral.horner {base : Nat} (hb : base ≤ 16) {ds : Text} {n : Nat} (h : Numeral base ds n) :
    horner base ds = n ∧ ds ≠ [] ∧ ∀ r ∈ ds, (digit base r).isSome = true := by
  induction h with
  | one hd =>
    have := (digit_iff hb _ _).2 hd
    simp [Xml.horner, this]
  | more h hd ih =>
    have := (digit_iff hb _ _).2 hd
    obtain ⟨h1, h2, h3⟩ := ih
    refine ⟨?_, by simp, fun r hr => ?_⟩
    · unfold Xml.horner at h1 ⊢
      rw [List.foldl_append, h1]
      simp [this]
    · rcases List.mem_append.1 hr with hr | hr
      · exact h3 r hr
      · simp only [List.mem_singleton] at hr
        rw [hr, this]; rfl

theorem numeral_of {base : Nat} (hb : base ≤ 16) (n : Nat) : ∀ ds : Text, ds.length = n → ds ≠ [] →
    (∀ r ∈ ds, (digit base r).isSome = true) → Numeral base ds (horner base ds) := by
  induction n with
  | zero => intro ds h hne; exact absurd (List.length_eq_zero_iff.1 h) hne
  | succ n ih =>
    intro ds hl hne hall
    have hsplit := List.dropLast_concat_getLast hne
    generalize ds.getLast hne = c at hsplit
    obtain ⟨d, hd⟩ := Option.isSome_iff_exists.1 (hall c (by rw [← hsplit]; simp))
    by_cases hn : ds.dropLast = []
    · rw [hn] at hsplit
      rw [← hsplit]
      simp only [List.nil_append, horner, List.foldl_cons, List.foldl_nil, hd, Option.getD_some, Nat.zero_mul,
        Nat.zero_add]
      exact .one ((digit_iff hb _ _).1 hd)
    · have := ih ds.dropLast (by simp [hl]) hn (fun r hr => hall r (List.dropLast_subset _ hr))
      rw [← hsplit]
      have hh : horner base (ds.dropLast ++ [c]) = horner base ds.dropLast * base + d := by
        simp [horner, List.foldl_append, hd]
      rw [hh]
      exact .more this ((digit_iff hb _ _).1 hd)

theorem atoi_eq {base : Nat} (hb : base ≤ 16) {ds s : Text} {n : Nat} (h : Numeral base ds n) :
    atoi base (ds ++ 59 :: s) = some (n, 59 :: s) := by
  obtain ⟨h1, h2, h3⟩ := Numeral.horner hb h
  have ht := (takeWhile_append_stop (p := fun r => (digit base r).isSome) (a := ds) (s := 59 :: s) h3
    (by intro c cs hc; cases hc; simp [digit_semi])).1
  simp only [atoi, ht]
  rw [if_neg (by simpa using h2)]
  simp only [List.drop_left]
  have : List.foldl (fun a r => a * base + (digit base r).getD 0) 0 ds = n := h1
  rw [this]

theorem atoi_some {base : Nat} (hb : base ≤ 16) {s rest : Text} {n : Nat} (h : atoi base s = some (n, rest)) :
    ∃ ds, s = ds ++ rest ∧ Numeral base ds n := by
  unfold atoi at h
  simp only at h
  split at h
  · cases h
  · rename_i hne
    simp only [Option.some.injEq, Prod.mk.injEq] at h
    obtain ⟨rfl, rfl⟩ := h
    refine ⟨s.takeWhile fun r => (digit base r).isSome, ?_, ?_⟩
    · have := List.takeWhile_append_dropWhile (p := fun r => (digit base r).isSome) (l := s)
      have h2 : s.drop (s.takeWhile fun r => (digit base r).isSome).length
          = s.dropWhile fun r => (digit base r).isSome := by
        have h3 := List.drop_left (l₁ := s.takeWhile fun r => (digit base r).isSome)
          (l₂ := s.dropWhile fun r => (digit base r).isSome)
        rwa [this] at h3
      rw [h2, this]
    · exact numeral_of hb _ _ rfl (by simpa using hne) (takeWhile_all _ _)

/-! ## References -/

theorem ends_of_not {c : Rune} {s : Text} (h : isNameChar c = false) : Ends (c :: s) := by
  intro c' cs hc
  simp only [List.cons.injEq] at hc
  rw [← hc.1]; exact h

theorem entity_any {e : String} {r : Rune} (h : (e, r) ∈ entities) : AnyName (u e) := by
  simp only [entities, List.mem_cons, Prod.mk.injEq, List.not_mem_nil, or_false] at h
  rcases h with ⟨rfl, _⟩ | ⟨rfl, _⟩ | ⟨rfl, _⟩ | ⟨rfl, _⟩ | ⟨rfl, _⟩ | ⟨rfl, _⟩ <;>
    (refine ⟨⟨_, _, rfl, .inl ?_⟩, fun r hr => .inl (.inl ?_)⟩
     · unfold NameStart; decide
     · revert r; unfold NameStart; decide)

theorem parseEntity_table {e : String} {r : Rune} (h : (e, r) ∈ entities) (s : Text) :
    parseEntityRef (38 :: (u e ++ 59 :: s)) = some (r, s) := by
  have hn := parseName_eq (s := 59 :: s) (entity_any h) (ends_of_not (by decide))
  have h1 : skip (u "&") (38 :: (u e ++ 59 :: s)) = some (u e ++ 59 :: s) := by
    rw [u_amp]; simp [skip_cons, skip]
  have h2 : skip (u ";") (59 :: s) = some s := by rw [u_semi]; simp [skip]
  simp only [parseEntityRef, h1, hn, h2]
  simp only [entities, List.mem_cons, Prod.mk.injEq, List.not_mem_nil, or_false] at h
  rcases h with ⟨rfl, rfl⟩ | ⟨rfl, rfl⟩ | ⟨rfl, rfl⟩ | ⟨rfl, rfl⟩ | ⟨rfl, rfl⟩ | ⟨rfl, rfl⟩ <;> simp (decide := true)

theorem parseReference_eq {m : Mode} {src s : Text} {r : Rune} (h : RefText m src r) :
    parseReference (src ++ s) = some (r, s) := by
  have h2 : skip (u ";") (59 :: s) = some s := by rw [u_semi]; simp [skip]
  cases h with
  | @dec ds _ hn _ =>
    have e : u "&#" ++ ds ++ u ";" ++ s = u "&#" ++ (ds ++ 59 :: s) := by simp [u_semi]
    rw [e]
    have hx : skip (u "x") (ds ++ 59 :: s) = none := by
      rw [u_x]
      have hne := (Numeral.horner (by decide) hn).2.1
      have hds := (Numeral.horner (by decide) hn).2.2
      cases ds with
      | nil => exact absurd rfl hne
      | cons c cs =>
        obtain ⟨d, hd⟩ := Option.isSome_iff_exists.1 (hds c (List.mem_cons_self ..))
        exact skip_one_ne (Digit.ne_mark ((digit_iff (by decide) _ _).1 hd)).2
    simp only [parseReference, parseCharRef, skip_append, hx, atoi_eq (by decide) hn, h2, Option.map_some]
  | @hex ds _ hn _ =>
    have e : u "&#x" ++ ds ++ u ";" ++ s = u "&#" ++ (u "x" ++ (ds ++ 59 :: s)) := by
      simp [u_semi, u_x, u_ampn, show u "&#x" = [38, 35, 120] from rfl]
    rw [e]
    simp only [parseReference, parseCharRef, skip_append, atoi_eq (by decide) hn, h2, Option.map_some]
  | @entity e _ he =>
    have e1 : u "&" ++ u e ++ u ";" ++ s = 38 :: (u e ++ 59 :: s) := by simp [u_amp, u_semi]
    rw [e1]
    have h3 : parseCharRef (38 :: (u e ++ 59 :: s)) = none := by
      obtain ⟨c, cs, hc, hs⟩ := (entity_any he).1
      have : c ≠ 35 := by
        rintro rfl
        unfold NameStart at hs
        omega
      have hk : skip (u "&#") (38 :: (u e ++ 59 :: s)) = none := by
        rw [hc, u_ampn, skip_cons]
        exact skip_one_ne this
      simp only [parseCharRef, hk]
    simp only [parseReference, h3, parseEntity_table he]

theorem parseCharRef_some {s rest : Text} {r : Rune} (h : parseCharRef s = some (r, rest)) :
    ∃ src, s = src ++ rest ∧ RefText .loose src r := by
  unfold parseCharRef at h
  split at h
  · cases h
  rename_i s1 h1
  rw [skip_some] at h1
  simp only at h
  cases hx : skip (u "x") s1 with
  | some s2 =>
    rw [hx] at h
    simp only at h
    rw [skip_some] at hx
    cases ha : atoi 16 s2 with
    | none => rw [ha] at h; cases h
    | some p =>
      obtain ⟨n, s3⟩ := p
      rw [ha] at h
      simp only at h
      cases hs : skip (u ";") s3 with
      | none => rw [hs] at h; cases h
      | some s4 =>
        rw [hs] at h
        simp only [Option.map_some, Option.some.injEq, Prod.mk.injEq] at h
        obtain ⟨rfl, rfl⟩ := h
        rw [skip_some] at hs
        obtain ⟨ds, hd, hn⟩ := atoi_some (by decide) ha
        refine ⟨_, ?_, .hex hn (by simp)⟩
        rw [h1, hx, hd, hs]
        simp [u_semi, u_x, u_ampn, show u "&#x" = [38, 35, 120] from rfl]
  | none =>
    rw [hx] at h
    simp only at h
    cases ha : atoi 10 s1 with
    | none => rw [ha] at h; cases h
    | some p =>
      obtain ⟨n, s3⟩ := p
      rw [ha] at h
      simp only at h
      cases hs : skip (u ";") s3 with
      | none => rw [hs] at h; cases h
      | some s4 =>
        rw [hs] at h
        simp only [Option.map_some, Option.some.injEq, Prod.mk.injEq] at h
        obtain ⟨rfl, rfl⟩ := h
        rw [skip_some] at hs
        obtain ⟨ds, hd, hn⟩ := atoi_some (by decide) ha
        refine ⟨_, ?_, .dec hn (by simp)⟩
        rw [h1, hd, hs]
        simp

theorem parseEntityRef_some {s rest : Text} {r : Rune} (h : parseEntityRef s = some (r, rest)) :
    ∃ src, s = src ++ rest ∧ RefText .loose src r := by
  unfold parseEntityRef at h
  split at h
  · cases h
  rename_i s1 h1
  rw [skip_some] at h1
  split at h
  · cases h
  rename_i name s2 h2
  obtain ⟨h2, -, -⟩ := parseName_some h2
  split at h
  · cases h
  rename_i s3 h3
  rw [skip_some] at h3
  have key : ∀ e : String, name = u e → (e, r) ∈ entities → rest = s3 →
      ∃ src, s = src ++ rest ∧ RefText .loose src r := by
    rintro e rfl he rfl
    exact ⟨_, by rw [h1, h2, h3]; simp, .entity he⟩
  repeat' split at h
  all_goals first
    | (cases h; done)
    | (simp only [Option.some.injEq, Prod.mk.injEq] at h
       obtain ⟨rfl, rfl⟩ := h
       first
         | exact key "lt" (by assumption) (by decide) rfl
         | exact key "gt" (by assumption) (by decide) rfl
         | exact key "amp" (by assumption) (by decide) rfl
         | exact key "apos" (by assumption) (by decide) rfl
         | exact key "quot" (by assumption) (by decide) rfl
         | exact key "nbsp" (by assumption) (by decide) rfl)

theorem parseReference_some {s rest : Text} {r : Rune} (h : parseReference s = some (r, rest)) :
    ∃ src, s = src ++ rest ∧ RefText .loose src r := by
  unfold parseReference at h
  split at h
  · rename_i p hp
    simp only [Option.some.injEq] at h
    subst h
    exact parseCharRef_some hp
  · exact parseEntityRef_some h

theorem parseReference_none {c : Rune} {s : Text} (h : c ≠ 38) : parseReference (c :: s) = none := by
  simp only [parseReference, parseCharRef, parseEntityRef, u_ampn, u_amp, skip_head_ne h]

theorem parseReference_nil : parseReference [] = none := by decide

theorem Spec.RefText.head {m : Mode} {src : Text} {r : Rune} (h : RefText m src r) :
    ∃ t, src = 38 :: t := by
  cases h with
  | dec => exact ⟨_, rfl⟩
  | hex => exact ⟨_, rfl⟩
  | entity => exact ⟨_, rfl⟩

/-! ## Text -/

theorem charData_stop {s : Text} (h : ∀ c cs, s = c :: cs → c = 60 ∨ c = 38 ∨ (u "]]>").isPrefixOf s = true) :
    charData s = ([], s) := by
  cases s with
  | nil => rfl
  | cons c cs =>
    rw [charData]
    rw [if_neg]
    rintro ⟨h1, h2, h3⟩
    rcases h c cs rfl with h | h | h
    · exact h1 h
    · exact h2 h
    · exact h3 h

theorem charData_plain {r : Rune} {s : Text} (h1 : r ≠ 60) (h2 : r ≠ 38) (h3 : ∀ more, r :: s ≠ u "]]>" ++ more) :
    charData (r :: s) = (r :: (charData s).1, (charData s).2) := by
  have : ¬ (u "]]>").isPrefixOf (r :: s) = true := by
    intro h
    obtain ⟨t, ht⟩ := List.isPrefixOf_iff_prefix.1 h
    exact h3 t ht.symm
  rw [charData, if_pos ⟨h1, h2, this⟩]

/-- The text is over, or begins like markup that is not a CDATA section. -/
def Stop (rest : Text) : Prop := rest = [] ∨ ∃ cs, rest = 60 :: cs ∧ ∀ more, rest ≠ u "<![CDATA[" ++ more

theorem Stop.item {rest : Text} (h : Stop rest) : parseTextItem rest = none := by
  rcases h with rfl | ⟨cs, rfl, hn⟩
  · decide
  have h1 : parseCharData (60 :: cs) = none := by
    simp only [parseCharData, charData_stop (s := 60 :: cs) (by intro c' cs' hc; left; exact (List.cons.inj hc).1.symm)]
    rfl
  have h2 : parseCDSect (60 :: cs) = none := by
    simp only [parseCDSect, skip_none.2 hn]
  simp only [parseTextItem, h1, h2, parseReference_none (show (60 : Rune) ≠ 38 by decide), Option.map_none]

theorem textLoop_plain {rest : Text} {r : Rune} {s t : Text} (h1 : r ≠ 60) (h2 : r ≠ 38)
    (h3 : ∀ more, r :: s ≠ u "]]>" ++ more)
    (ih : ∀ fuel sb, textLoop fuel s sb = .out ∨ textLoop fuel s sb = .ok (sb ++ t) rest) (fuel : Nat) (sb : Text) :
    textLoop fuel (r :: s) sb = .out ∨ textLoop fuel (r :: s) sb = .ok (sb ++ r :: t) rest := by
  cases fuel with
  | zero => exact .inl rfl
  | succ fuel =>
    have hc := charData_plain h1 h2 h3
    have hi : parseTextItem (r :: s) = some (r :: (charData s).1, (charData s).2) := by
      simp only [parseTextItem, parseCharData, hc]
      rfl
    have e : textLoop (fuel + 1) (r :: s) sb = textLoop fuel (charData s).2 (sb ++ r :: (charData s).1) := by
      rw [textLoop, hi]
    rw [e]
    by_cases ha : (charData s).1 = []
    · have hb : (charData s).2 = s := by
        have : ∀ s : Text, s = (charData s).1 ++ (charData s).2 := by
          intro s
          induction s with
          | nil => rfl
          | cons c cs ih =>
            rw [charData]
            split
            · simpa using ih
            · rfl
        have h := this s
        rw [ha] at h
        simpa using h.symm
      rw [ha, hb]
      simpa using ih fuel (sb ++ [r])
    · have hi' : parseTextItem s = some ((charData s).1, (charData s).2) := by
        have : (charData s).1.isEmpty = false := by simpa using ha
        simp [parseTextItem, parseCharData, this]
      have e' : textLoop (fuel + 1) s (sb ++ [r]) = textLoop fuel (charData s).2 (sb ++ r :: (charData s).1) := by
        rw [textLoop, hi']
        simp
      rw [← e']
      simpa using ih (fuel + 1) (sb ++ [r])

theorem charData_amp (s : Text) : parseCharData (38 :: s) = none := by
  simp only [parseCharData, charData_stop (s := 38 :: s) (by intro c' cs' hc; right; left; exact (List.cons.inj hc).1.symm)]
  rfl

theorem charData_lt (s : Text) : parseCharData (60 :: s) = none := by
  simp only [parseCharData, charData_stop (s := 60 :: s) (by intro c' cs' hc; left; exact (List.cons.inj hc).1.symm)]
  rfl

theorem cdata_mark {d rest : Text} (h : Without (u "]]>") d) :
    until_ (u "]]>") (fun _ => true) (d ++ u "]]>" ++ rest) = some (d, rest) :=
  until_eq (by simp) (first_mark [93, 93] rfl (by decide) h)

theorem textLoop_eq {m : Mode} {src t rest : Text} (h : CharText m src t) (hr : Stop rest) :
    ∀ fuel sb, textLoop fuel (src ++ rest) sb = .out ∨ textLoop fuel (src ++ rest) sb = .ok (sb ++ t) rest := by
  induction h with
  | nil =>
    intro fuel sb
    cases fuel with
    | zero => exact .inl rfl
    | succ fuel =>
      right
      rw [textLoop, List.nil_append, hr.item]
      simp
  | @plain r src t h1 h2 h3 _ _ ih =>
    refine textLoop_plain h1 h2 ?_ ih
    intro more hm
    -- the three runes cannot reach into `rest`, which begins with `<`
    rcases hr with rfl | ⟨cs, rfl, -⟩
    · replace hm : r :: (src ++ []) = u "]]>" ++ more := hm
      rw [List.append_nil] at hm
      exact h3 more hm
    match src with
    | [] => simp [u_cde] at hm
    | [a] => simp [u_cde] at hm
    | a :: b :: src =>
      replace hm : r :: a :: b :: (src ++ 60 :: cs) = 93 :: 93 :: 62 :: more := hm
      simp only [List.cons.injEq] at hm
      exact h3 src (by simp [u_cde, hm])
  | @ref ref r src t hre _ ih =>
    intro fuel sb
    cases fuel with
    | zero => exact .inl rfl
    | succ fuel =>
      obtain ⟨m, hm⟩ := hre.head
      have hi : parseTextItem (ref ++ (src ++ rest)) = some ([r], src ++ rest) := by
        have hp := parseReference_eq (s := src ++ rest) hre
        rw [hm] at hp ⊢
        rw [List.cons_append] at hp ⊢
        have hc : parseCDSect (38 :: (m ++ (src ++ rest))) = none := by
          simp only [parseCDSect, u_cd, skip_head_ne (show (38 : Rune) ≠ 60 by decide)]
        simp only [parseTextItem, charData_amp, hc, hp, Option.map_some]
      rw [List.append_assoc, textLoop, hi]
      simpa using ih fuel (sb ++ [r])
  | @cdata d src t hd _ _ ih =>
    intro fuel sb
    cases fuel with
    | zero => exact .inl rfl
    | succ fuel =>
      have e : u "<![CDATA[" ++ d ++ u "]]>" ++ src ++ rest = u "<![CDATA[" ++ (d ++ u "]]>" ++ (src ++ rest)) := by
        simp
      have hi : parseTextItem (u "<![CDATA[" ++ (d ++ u "]]>" ++ (src ++ rest))) = some (d, src ++ rest) := by
        have h0 : parseCharData (u "<![CDATA[" ++ (d ++ u "]]>" ++ (src ++ rest))) = none := charData_lt _
        simp only [parseTextItem, h0, parseCDSect, skip_append, cdata_mark hd]
      rw [e, textLoop, hi]
      simpa using ih fuel (sb ++ d)

theorem charData_some (s : Text) : ∀ a b, charData s = (a, b) → s = a ++ b ∧
    ∀ src t rest, b = src ++ rest → CharText .loose src t → CharText .loose (a ++ src) (a ++ t) := by
  induction s with
  | nil =>
    intro a b h
    simp only [charData, Prod.mk.injEq] at h
    obtain ⟨rfl, rfl⟩ := h
    exact ⟨rfl, fun src t rest _ h => h⟩
  | cons c cs ih =>
    intro a b h
    rw [charData] at h
    split at h
    · rename_i hc
      simp only [Prod.mk.injEq] at h
      obtain ⟨rfl, rfl⟩ := h
      obtain ⟨h1, h2⟩ := ih _ _ rfl
      refine ⟨by rw [List.cons_append, ← h1], fun src t rest hb ht => ?_⟩
      refine .plain hc.1 hc.2.1 ?_ (by simp) (h2 src t rest hb ht)
      intro more hm
      refine hc.2.2 ?_
      rw [List.isPrefixOf_iff_prefix]
      refine ⟨more ++ rest, ?_⟩
      replace hm : c :: ((charData cs).1 ++ src) = u "]]>" ++ more := hm
      rw [← List.append_assoc, ← hm, List.cons_append, List.append_assoc, ← hb, ← h1]
    · simp only [Prod.mk.injEq] at h
      obtain ⟨rfl, rfl⟩ := h
      exact ⟨rfl, fun src t rest _ h => h⟩

theorem textItem_some {s t' rest' : Text} (h : parseTextItem s = some (t', rest')) :
    ∃ src', s = src' ++ rest' ∧ src' ≠ [] ∧
    ∀ src t rest, rest' = src ++ rest → CharText .loose src t → CharText .loose (src' ++ src) (t' ++ t) := by
  unfold parseTextItem at h
  split at h
  · rename_i p hp
    simp only [Option.some.injEq] at h
    subst h
    unfold parseCharData at hp
    simp only at hp
    split at hp
    · cases hp
    · rename_i hne
      simp only [Option.some.injEq] at hp
      obtain ⟨h1, h2⟩ := charData_some s _ _ hp
      rw [hp] at hne
      exact ⟨t', h1, by simpa using hne, h2⟩
  · split at h
    · rename_i p hp
      simp only [Option.some.injEq] at h
      subst h
      unfold parseCDSect at hp
      split at hp
      · cases hp
      · rename_i s1 h1
        rw [skip_some] at h1
        obtain ⟨h2, -, h3⟩ := until_some (by decide) hp
        refine ⟨u "<![CDATA[" ++ t' ++ u "]]>", by rw [h1, h2]; simp, by simp [u_cd], fun src t rest _ ht => ?_⟩
        exact .cdata (without_of_first h3 (by decide)) (by simp) ht
    · cases hr : parseReference s with
      | none => rw [hr] at h; cases h
      | some p =>
        obtain ⟨r, rest⟩ := p
        rw [hr] at h
        simp only [Option.map_some, Option.some.injEq, Prod.mk.injEq] at h
        obtain ⟨rfl, rfl⟩ := h
        obtain ⟨src', h1, h2⟩ := parseReference_some hr
        obtain ⟨m, hm⟩ := h2.head
        exact ⟨src', h1, by simp [hm], fun src t rest _ ht => .ref h2 ht⟩

theorem textLoop_ok {fuel : Nat} : ∀ {s sb t rest : Text}, textLoop fuel s sb = .ok t rest →
    ∃ src t', s = src ++ rest ∧ t = sb ++ t' ∧ CharText .loose src t' := by
  induction fuel with
  | zero => intro s sb t rest h; cases h
  | succ fuel ih =>
    intro s sb t rest h
    rw [textLoop] at h
    split at h
    · rename_i t1 s1 h1
      obtain ⟨src, t', h2, h3, h4⟩ := ih h
      obtain ⟨src', h5, -, h6⟩ := textItem_some h1
      exact ⟨src' ++ src, t1 ++ t', by rw [h5, h2]; simp, by rw [h3]; simp, h6 src t' rest h2 h4⟩
    · simp only [R.ok.injEq] at h
      obtain ⟨rfl, rfl⟩ := h
      exact ⟨[], [], rfl, by simp, .nil⟩

theorem textLoop_not_err {fuel : Nat} : ∀ {s sb : Text}, textLoop fuel s sb ≠ .err := by
  induction fuel with
  | zero => intro s sb h; cases h
  | succ fuel ih =>
    intro s sb h
    rw [textLoop] at h
    split at h
    · exact ih h
    · cases h

/-! ## Attribute values -/

theorem attValueLoop_eq {m : Mode} [Clean m] {q : Rune} {src v rest : Text} (h : ValueText m q src v) (hq : q ≠ 38) :
    ∀ fuel sb, attValueLoop q fuel (src ++ q :: rest) sb = .out ∨
      attValueLoop q fuel (src ++ q :: rest) sb = .ok (sb ++ v) rest := by
  induction h with
  | nil =>
    intro fuel sb
    cases fuel with
    | zero => exact .inl rfl
    | succ fuel => right; simp [attValueLoop]
  | @plain r src v h1 h2 _ _ ih =>
    intro fuel sb
    cases fuel with
    | zero => exact .inl rfl
    | succ fuel =>
      rw [List.cons_append, attValueLoop]
      simp only [if_neg h1, parseReference_none (h2 Clean.ne)]
      simpa using ih fuel (sb ++ [r])
  | @ref ref r src v hre _ ih =>
    intro fuel sb
    cases fuel with
    | zero => exact .inl rfl
    | succ fuel =>
      obtain ⟨m, hm⟩ := hre.head
      have hp := parseReference_eq (s := src ++ q :: rest) hre
      rw [List.append_assoc]
      rw [hm, List.cons_append] at hp ⊢
      rw [attValueLoop]
      simp only [if_neg (Ne.symm hq), hp]
      simpa using ih fuel (sb ++ [r])

theorem attValueLoop_ok {q : Rune} {fuel : Nat} : ∀ {s sb v rest : Text}, attValueLoop q fuel s sb = .ok v rest →
    ∃ src v', s = src ++ q :: rest ∧ v = sb ++ v' ∧ ValueText .loose q src v' := by
  induction fuel with
  | zero => intro s sb v rest h; cases h
  | succ fuel ih =>
    intro s sb v rest h
    unfold attValueLoop at h
    split at h
    · cases h
    rename_i c cs
    split at h
    · rename_i hc
      simp only [R.ok.injEq] at h
      obtain ⟨rfl, rfl⟩ := h
      exact ⟨[], [], by simp [hc], by simp, .nil⟩
    · rename_i hc
      split at h
      · rename_i r s1 h1
        obtain ⟨src, v', h2, h3, h4⟩ := ih h
        obtain ⟨src', h5, h6⟩ := parseReference_some h1
        exact ⟨src' ++ src, r :: v', by rw [h5, h2]; simp, by rw [h3]; simp, .ref h6 h4⟩
      · obtain ⟨src, v', h2, h3, h4⟩ := ih h
        exact ⟨c :: src, c :: v', by rw [h2]; simp, by rw [h3]; simp, .plain hc (by simp) (by simp) h4⟩

theorem parseAttValue_eq {m : Mode} [Clean m] {q : Rune} {src v rest : Text} (h : ValueText m q src v) (hq : q = 34 ∨ q = 39)
    (fuel : Nat) : parseAttValue fuel ([q] ++ src ++ [q] ++ rest) = .out ∨
      parseAttValue fuel ([q] ++ src ++ [q] ++ rest) = .ok v rest := by
  have e : [q] ++ src ++ [q] ++ rest = q :: (src ++ q :: rest) := by simp
  rw [e]
  simp only [parseAttValue]
  rw [if_neg (by omega)]
  simpa using attValueLoop_eq (rest := rest) h (by omega) fuel []

theorem parseAttValue_ok {fuel : Nat} {s v rest : Text} (h : parseAttValue fuel s = .ok v rest) :
    ∃ q src, (q = 34 ∨ q = 39) ∧ s = [q] ++ src ++ [q] ++ rest ∧ ValueText .loose q src v := by
  unfold parseAttValue at h
  split at h
  · cases h
  rename_i q cs
  split at h
  · cases h
  rename_i hq
  obtain ⟨src, v', h1, h2, h3⟩ := attValueLoop_ok h
  refine ⟨q, src, by omega, by rw [h1]; simp, ?_⟩
  rw [h2]; simpa using h3

end Verif.Xml
