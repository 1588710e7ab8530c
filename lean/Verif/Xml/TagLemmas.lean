import Verif.Xml.TextLemmas

/-! # Namespaces, attributes and tags: helper lemmas -/
namespace Verif.Xml
open Spec

/-! ## Namespaces -/

/-- The context resolves names as the scope does. -/
structure Agree (c : Context) (sc : Scope) : Prop where
  def_ : c.default_ = defaultNs sc
  pre : ∀ p, c.lookup p = prefixNs sc p

/-- The context after a tag's attributes. -/
def seeAll (c : Context) (as : Written) : Context := as.foldl (fun c a => c.see a.1 a.2) c

theorem lastOf_nil (n : Name) : lastOf [] n = none := rfl

theorem lastOf_cons (a : Name × Text) (as : Written) (n : Name) :
    lastOf (a :: as) n = (lastOf as n).or (if a.1 = n then some a.2 else none) := by
  simp only [lastOf, List.reverse_cons, List.find?_append]
  cases h : as.reverse.find? fun a => a.1 = n with
  | some b => simp
  | none =>
    by_cases hn : a.1 = n
    · simp [hn]
    · simp [hn]

theorem see_default (c : Context) (n : Name) (v : Text) :
    (c.see n v).default_ = (if n = ⟨none, u "xmlns"⟩ then some v else none).or c.default_ := by
  unfold Context.see
  obtain ⟨p, l⟩ := n
  simp only [Name.mk.injEq]
  split
  · simp [*]
  · split
    · unfold Context.declare
      split <;> rfl
    · rfl

theorem find_filter_ne {p k : Text} (hp : p ≠ k) (l : List (Text × Text)) :
    (l.filter (fun kv => decide (kv.1 ≠ p))).find? (fun kv => decide (kv.1 = k)) =
      l.find? (fun kv => decide (kv.1 = k)) := by
  induction l with
  | nil => rfl
  | cons kv l ih =>
    by_cases h1 : kv.1 = p
    · have h2 : kv.1 ≠ k := fun h => hp (h1 ▸ h)
      rw [List.filter_cons_of_neg (by simpa using h1), List.find?_cons_of_neg (by simpa using h2), ih]
    · rw [List.filter_cons_of_pos (by simpa using h1), List.find?_cons, List.find?_cons, ih]

theorem lookup_declare (c : Context) (p ns k : Text) (hk : k ≠ u "xml") (hk' : k ≠ u "xmlns") :
    (c.declare p ns).lookup k = (if p = k then some ns else none).or (c.lookup k) := by
  unfold Context.declare
  split
  · rename_i h
    have : p ≠ k := by
      rintro rfl
      rcases h with h | h
      · exact hk h
      · exact hk' h
    simp [this]
  · simp only [Context.lookup, List.find?_cons]
    by_cases hp : p = k
    · simp [hp]
    · have e : decide (p = k) = false := by simp [hp]
      simp only [e, if_neg hp, Option.none_or]
      rw [find_filter_ne hp]

theorem see_lookup (c : Context) (n : Name) (v k : Text) (hk : k ≠ u "xml") (hk' : k ≠ u "xmlns") :
    (c.see n v).lookup k = (if n = ⟨some (u "xmlns"), k⟩ then some v else none).or (c.lookup k) := by
  unfold Context.see
  obtain ⟨p, l⟩ := n
  simp only [Name.mk.injEq]
  split
  · rename_i h
    simp [h.1, Context.lookup]
  · split
    · rename_i h
      rw [lookup_declare _ _ _ _ hk hk']
      simp [h]
    · rename_i h
      simp [h]

theorem see_fixed (c : Context) (n : Name) (v k : Text) (hk : k = u "xml" ∨ k = u "xmlns") :
    (c.see n v).lookup k = c.lookup k := by
  unfold Context.see
  split
  · rfl
  · split
    · unfold Context.declare
      split
      · rfl
      · rename_i h
        have hp : n.localName ≠ k := by
          rintro rfl
          exact h hk
        have e : decide (n.localName = k) = false := by simp [hp]
        simp only [Context.lookup, List.find?_cons, e]
        rw [find_filter_ne hp]
    · rfl

theorem seeAll_default (as : Written) : ∀ c : Context,
    (seeAll c as).default_ = (lastOf as ⟨none, u "xmlns"⟩).or c.default_ := by
  induction as with
  | nil => intro c; rfl
  | cons a as ih =>
    intro c
    show (seeAll (c.see a.1 a.2) as).default_ = _
    rw [ih, see_default, lastOf_cons, Option.or_assoc]

theorem seeAll_lookup (as : Written) (k : Text) (hk : k ≠ u "xml") (hk' : k ≠ u "xmlns") : ∀ c : Context,
    (seeAll c as).lookup k = (lastOf as ⟨some (u "xmlns"), k⟩).or (c.lookup k) := by
  induction as with
  | nil => intro c; rfl
  | cons a as ih =>
    intro c
    show (seeAll (c.see a.1 a.2) as).lookup k = _
    rw [ih, see_lookup _ _ _ _ hk hk', lastOf_cons, Option.or_assoc]

theorem seeAll_fixed (as : Written) (k : Text) (hk : k = u "xml" ∨ k = u "xmlns") : ∀ c : Context,
    (seeAll c as).lookup k = c.lookup k := by
  induction as with
  | nil => intro c; rfl
  | cons a as ih =>
    intro c
    show (seeAll (c.see a.1 a.2) as).lookup k = _
    rw [ih, see_fixed _ _ _ _ hk]

theorem Agree.make (ns : Option Text) : Agree (.make ns) ⟨ns, []⟩ := by
  refine ⟨by simp [Context.make, defaultNs], fun p => ?_⟩
  simp only [Context.make, Context.lookup, prefixNs, List.find?_cons, List.find?_nil]
  by_cases h1 : p = u "xml"
  · simp [h1, xmlNs]
  · by_cases h2 : p = u "xmlns"
    · subst h2
      simp (decide := true) [xmlnsNs]
    · simp [h1, h2, Ne.symm h1, Ne.symm h2]

theorem Agree.see {c : Context} {sc : Scope} (h : Agree c sc) (as : Written) :
    Agree (seeAll c as) ⟨sc.outer, as :: sc.tags⟩ := by
  refine ⟨?_, fun p => ?_⟩
  · rw [seeAll_default, h.def_]
    simp only [defaultNs, List.findSome?_cons]
    cases lastOf as ⟨none, u "xmlns"⟩ <;> simp
  · by_cases h1 : p = u "xml"
    · rw [seeAll_fixed _ _ (.inl h1), h.pre]
      simp [prefixNs, h1]
    · by_cases h2 : p = u "xmlns"
      · rw [seeAll_fixed _ _ (.inr h2), h.pre]
        simp only [prefixNs, if_neg h1, if_pos h2]
      · rw [seeAll_lookup _ _ h1 h2, h.pre]
        simp only [prefixNs, if_neg h1, if_neg h2, List.findSome?_cons]
        cases lastOf as ⟨some (u "xmlns"), p⟩ <;> simp

theorem Agree.element {c : Context} {sc : Scope} (h : Agree c sc) (n : Name) (q : QName) :
    c.element n = some q ↔ ElementName sc n q := by
  obtain ⟨p, l⟩ := n
  cases p with
  | none =>
    simp only [Context.element, h.def_, Option.some.injEq]
    constructor
    · rintro rfl; exact .plain
    · rintro ⟨⟩; rfl
  | some p =>
    simp only [Context.element, h.pre, Option.map_eq_some_iff]
    constructor
    · rintro ⟨ns, h1, rfl⟩; exact .prefixed h1
    · rintro ⟨⟩; exact ⟨_, by assumption, rfl⟩

theorem Agree.attribute {c : Context} {sc : Scope} (h : Agree c sc) (n : Name) (q : QName) :
    c.attribute n = some q ↔ AttrName sc n q := by
  obtain ⟨p, l⟩ := n
  cases p with
  | none =>
    simp only [Context.attribute, Option.some.injEq]
    constructor
    · rintro rfl; exact .plain
    · rintro ⟨⟩; rfl
  | some p =>
    simp only [Context.attribute, h.pre, Option.map_eq_some_iff]
    constructor
    · rintro ⟨ns, h1, rfl⟩; exact .prefixed h1
    · rintro ⟨⟩; exact ⟨_, by assumption, rfl⟩

/-! ## The attributes an element gets -/

theorem snoc_ind {α : Type} {P : List α → Prop} (nil : P []) (snoc : ∀ l a, P l → P (l ++ [a])) : ∀ l, P l := by
  intro l
  have : ∀ l : List α, P l.reverse := by
    intro l
    induction l with
    | nil => exact nil
    | cons a l ih => rw [List.reverse_cons]; exact snoc _ _ ih
  rw [← List.reverse_reverse l]
  exact this _

def keysOf (as : Attrs) : List QName :=
  (as.map Prod.fst).foldl (fun seen q => if q ∈ seen then seen else seen ++ [q]) []

theorem keysOf_snoc (as : Attrs) (q : QName) (v : Text) :
    keysOf (as ++ [(q, v)]) = if q ∈ keysOf as then keysOf as else keysOf as ++ [q] := by
  simp only [keysOf, List.map_append, List.map_cons, List.map_nil, List.foldl_append, List.foldl_cons, List.foldl_nil]
  rfl

theorem lastWins_snoc (as : Attrs) (q : QName) (v : Text) :
    lastWins (as ++ [(q, v)]) = setAttribute (lastWins as) q v := by
  have hv : ∀ q', (((as ++ [(q, v)]).reverse.find? fun a => a.1 = q').map Prod.snd).getD []
      = if q = q' then v else ((as.reverse.find? fun a => a.1 = q').map Prod.snd).getD [] := by
    intro q'
    rw [List.reverse_append]
    simp only [List.reverse_cons, List.reverse_nil, List.nil_append, List.cons_append, List.find?_cons]
    by_cases h : q = q' <;> simp [h]
  have e1 : lastWins (as ++ [(q, v)]) = (keysOf (as ++ [(q, v)])).map fun q' =>
      (q', if q = q' then v else ((as.reverse.find? fun a => a.1 = q').map Prod.snd).getD []) := by
    simp only [lastWins, ← hv]
    rfl
  have e2 : lastWins as = (keysOf as).map fun q' => (q', ((as.reverse.find? fun a => a.1 = q').map Prod.snd).getD []) := rfl
  rw [e1, e2, keysOf_snoc]
  unfold setAttribute
  have hany : ((keysOf as).map fun q' => (q', ((as.reverse.find? fun a => a.1 = q').map Prod.snd).getD [])).any
      (fun a => decide (a.1 = q)) = decide (q ∈ keysOf as) := by
    rw [Bool.eq_iff_iff]
    simp
  rw [hany]
  by_cases h : q ∈ keysOf as
  · simp only [h, if_true, decide_true, List.map_map]
    apply List.map_congr_left
    intro q' _
    simp only [Function.comp]
    by_cases hq : q = q'
    · simp [hq]
    · rw [if_neg hq, if_neg (fun e => hq e.symm)]
  · simp only [h, if_false, decide_false, List.map_append, List.map_cons, List.map_nil, if_true, Bool.false_eq_true]
    congr 1
    apply List.map_congr_left
    intro q' hq'
    have : q ≠ q' := fun e => h (e ▸ hq')
    simp [this]

theorem lastWins_eq (as : Attrs) : lastWins as = as.foldl (fun acc a => setAttribute acc a.1 a.2) [] := by
  induction as using snoc_ind with
  | nil => rfl
  | snoc l a ih =>
    rw [List.foldl_append, ← ih]
    exact lastWins_snoc l a.1 a.2

/-- With no name repeated, an element gets the attributes as they are. -/
theorem lastWins_nodup {as : Attrs} (h : (as.map Prod.fst).Nodup) : lastWins as = as := by
  induction as using snoc_ind with
  | nil => rfl
  | snoc l a ih =>
    obtain ⟨q, v⟩ := a
    rw [List.map_append, List.nodup_append] at h
    rw [lastWins_snoc, ih h.1]
    unfold setAttribute
    rw [if_neg]
    rw [List.any_eq_true]
    rintro ⟨x, hx, he⟩
    exact h.2.2 x.1 (List.mem_map_of_mem hx) q (by simp) (by simpa using he)

/-! ## One attribute -/

theorem ends_eq (s : Text) : Ends (61 :: s) := ends_of_not (by decide)

theorem parseNameValue_eq {m : Mode} [Clean m] {name src rest : Text} {n : Name} {q : Rune} {v : Text} (hn : NameText m name n)
    (hq : q = 34 ∨ q = 39) (hv : ValueText m q src v) (fuel : Nat) :
    parseNameValue fuel (name ++ u "=" ++ [q] ++ src ++ [q] ++ rest) = .out ∨
    parseNameValue fuel (name ++ u "=" ++ [q] ++ src ++ [q] ++ rest) = .ok (n, v) rest := by
  have e : name ++ u "=" ++ [q] ++ src ++ [q] ++ rest = name ++ (u "=" ++ ([q] ++ src ++ [q] ++ rest)) := by simp
  rw [e]
  have h1 := parseQName_eq (s := u "=" ++ ([q] ++ src ++ [q] ++ rest)) hn (ends_eq _)
  unfold parseNameValue
  rw [h1]
  simp only [skip_append]
  rcases parseAttValue_eq (rest := rest) hv hq fuel with h | h
  · left; rw [h]
  · right; rw [h]

theorem parseNameValue_ok {fuel : Nat} {s rest v : Text} {n : Name} (h : parseNameValue fuel s = .ok (n, v) rest) :
    ∃ name q src, NameText .loose name n ∧ (q = 34 ∨ q = 39) ∧ ValueText .loose q src v ∧
      s = name ++ u "=" ++ [q] ++ src ++ [q] ++ rest := by
  unfold parseNameValue at h
  split at h
  · cases h
  rename_i n' s1 h1
  split at h
  · cases h
  rename_i s2 h2
  split at h
  · rename_i v' s3 h3
    simp only [R.ok.injEq, Prod.mk.injEq] at h
    obtain ⟨⟨rfl, rfl⟩, rfl⟩ := h
    obtain ⟨name, h4, h5, -⟩ := parseQName_some h1
    obtain ⟨q, src, h6, h7, h8⟩ := parseAttValue_ok h3
    rw [skip_some] at h2
    exact ⟨name, q, src, h5, h6, h8, by rw [h4, h2, h7]; simp⟩
  · cases h
  · cases h

theorem parseNameValue_bad {c : Rune} {s : Text} (h : isNameStart c = false) (fuel : Nat) :
    parseNameValue fuel (c :: s) = .err := by
  simp only [parseNameValue, parseQName_none h]

/-! ## The attributes of a tag -/

/-- The end of a tag. -/
def Close (close : Text) : Prop := close = u ">" ∨ close = u "/>"

theorem Close.head {close : Text} (h : Close close) :
    ∃ c cs, close = c :: cs ∧ isS c = false ∧ isNameStart c = false ∧ isNameChar c = false := by
  rcases h with rfl | rfl
  · exact ⟨62, [], rfl, by decide, by decide, by decide⟩
  · exact ⟨47, [62], rfl, by decide, by decide, by decide⟩

theorem parseS_tail {w close rest : Text} (hw : Spaces w) (hc : Close close) :
    parseS (w ++ (close ++ rest)) = close ++ rest := by
  obtain ⟨c, cs, rfl, h1, -, -⟩ := hc.head
  refine parseS_append hw ?_
  intro c' cs' h
  simp only [List.cons_append, List.cons.injEq] at h
  rw [← h.1]; exact h1

theorem not_start_space {c : Rune} (h : isNameStart c = true) : isS c = false := by
  cases hs : isS c with
  | false => rfl
  | true =>
    rw [isS_iff] at hs
    rw [isNameStart_iff] at h
    unfold Space NameStart at *
    omega

theorem not_start_close {c : Rune} (h : isNameStart c = true) : c ≠ 62 ∧ c ≠ 47 := by
  constructor <;> (rintro rfl; revert h; decide)

theorem parseS_name {w name rest : Text} {m : Mode} {n : Name} (hw : Spaces w) (hn : NameText m name n) :
    parseS (w ++ (name ++ rest)) = name ++ rest := by
  obtain ⟨c, cs, rfl, h1⟩ := hn.ne_nil
  refine parseS_append hw ?_
  intro c' cs' h
  simp only [List.cons_append, List.cons.injEq] at h
  rw [← h.1]; exact not_start_space h1

theorem not_close {c : Rune} {cs close : Text} (h : isNameStart c = true) (hc : Close close) :
    skip close (c :: cs) = none := by
  obtain ⟨h1, h2⟩ := not_start_close h
  rcases hc with rfl | rfl
  · exact skip_head_ne h1
  · exact skip_head_ne h2

theorem parseNs_eq {m : Mode} [Clean m] {src close rest : Text} {as : Written} (h : AttrsText m src as) (hc : Close close) :
    ∀ fuel c, parseNs fuel c (parseS (src ++ (close ++ rest))) = .out ∨
      ∃ s', parseNs fuel c (parseS (src ++ (close ++ rest))) = .ok (seeAll c as) s' := by
  induction h with
  | @nil w hw =>
    intro fuel c
    cases fuel with
    | zero => exact .inl rfl
    | succ fuel =>
      right
      rw [parseS_tail hw hc, parseNs]
      rw [if_pos]
      · exact ⟨_, rfl⟩
      · rcases hc with rfl | rfl
        · left; simp [u_gt, List.isPrefixOf]
        · right; left; simp [u_egt, List.isPrefixOf]
  | @cons w name n q src v rest' as hw _ hn hq hv _ ih =>
    intro fuel c
    have e : w ++ name ++ u "=" ++ [q] ++ src ++ [q] ++ rest' ++ (close ++ rest)
        = w ++ (name ++ (u "=" ++ [q] ++ src ++ [q] ++ (rest' ++ (close ++ rest)))) := by simp
    rw [e, parseS_name hw hn]
    cases fuel with
    | zero => exact .inl rfl
    | succ fuel =>
      obtain ⟨x, xs, hx, h1⟩ := hn.ne_nil
      have hno : ¬ ((u ">").isPrefixOf (name ++ (u "=" ++ [q] ++ src ++ [q] ++ (rest' ++ (close ++ rest)))) = true ∨
          (u "/>").isPrefixOf (name ++ (u "=" ++ [q] ++ src ++ [q] ++ (rest' ++ (close ++ rest)))) = true ∨
          name ++ (u "=" ++ [q] ++ src ++ [q] ++ (rest' ++ (close ++ rest))) = []) := by
        obtain ⟨h2, h3⟩ := not_start_close h1
        rw [hx]
        simp [u_gt, u_egt, List.isPrefixOf, Ne.symm h2, Ne.symm h3]
      rw [parseNs, if_neg hno]
      have e2 : name ++ (u "=" ++ [q] ++ src ++ [q] ++ (rest' ++ (close ++ rest)))
          = name ++ u "=" ++ [q] ++ src ++ [q] ++ (rest' ++ (close ++ rest)) := by simp
      rw [e2]
      rcases parseNameValue_eq (rest := rest' ++ (close ++ rest)) hn hq hv fuel with h | h
      · left; rw [h]
      · rw [h]
        exact ih fuel (c.see n v)

theorem attrsLoop_eq {m : Mode} [Clean m] {src close rest : Text} {as : Written} {bs : Attrs} {sc : Scope} {c : Context}
    (h : AttrsText m src as) (hc : Close close) (ha : Agree c sc) (hb : AttrNames sc as bs) :
    ∀ fuel acc, attrsLoop close c fuel acc (parseS (src ++ (close ++ rest))) = .out ∨
      attrsLoop close c fuel acc (parseS (src ++ (close ++ rest))) =
        .ok (bs.foldl (fun acc a => setAttribute acc a.1 a.2) acc) rest := by
  induction h generalizing bs with
  | @nil w hw =>
    cases hb
    intro fuel acc
    cases fuel with
    | zero => exact .inl rfl
    | succ fuel =>
      right
      rw [parseS_tail hw hc, attrsLoop, skip_append]
      rfl
  | @cons w name n q src v rest' as hw _ hn hq hv _ ih =>
    cases hb with
    | @cons _ qn _ _ bs hq' hbs =>
      intro fuel acc
      have e : w ++ name ++ u "=" ++ [q] ++ src ++ [q] ++ rest' ++ (close ++ rest)
          = w ++ (name ++ (u "=" ++ [q] ++ src ++ [q] ++ (rest' ++ (close ++ rest)))) := by simp
      rw [e, parseS_name hw hn]
      cases fuel with
      | zero => exact .inl rfl
      | succ fuel =>
        obtain ⟨x, xs, hx, h1⟩ := hn.ne_nil
        have hno : skip close (name ++ (u "=" ++ [q] ++ src ++ [q] ++ (rest' ++ (close ++ rest)))) = none := by
          rw [hx]; exact not_close h1 hc
        have hne : name ++ (u "=" ++ [q] ++ src ++ [q] ++ (rest' ++ (close ++ rest))) ≠ [] := by
          rw [hx]; simp
        rw [attrsLoop, hno]
        simp only [if_neg hne]
        have e2 : name ++ (u "=" ++ [q] ++ src ++ [q] ++ (rest' ++ (close ++ rest)))
            = name ++ u "=" ++ [q] ++ src ++ [q] ++ (rest' ++ (close ++ rest)) := by simp
        rw [e2]
        rcases parseNameValue_eq (rest := rest' ++ (close ++ rest)) hn hq hv fuel with h | h
        · left; rw [h]
        · rw [h]
          simp only [(ha.attribute n qn).2 hq']
          exact ih hbs fuel (setAttribute acc qn v)

/-- Reading a start tag as an empty-element tag, or the other way round, fails. -/
theorem attrsLoop_wrong {m : Mode} [Clean m] {src close other rest : Text} {as : Written} {c : Context}
    (h : AttrsText m src as) (hc : Close close) (ho : Close other) (hne : close ≠ other) :
    ∀ fuel acc, attrsLoop other c fuel acc (parseS (src ++ (close ++ rest))) = .out ∨
      attrsLoop other c fuel acc (parseS (src ++ (close ++ rest))) = .err := by
  induction h with
  | @nil w hw =>
    intro fuel acc
    cases fuel with
    | zero => exact .inl rfl
    | succ fuel =>
      right
      rw [parseS_tail hw hc, attrsLoop]
      have hs : skip other (close ++ rest) = none := by
        rcases hc with rfl | rfl <;> rcases ho with rfl | rfl
        · exact absurd rfl hne
        · exact skip_head_ne (by decide)
        · exact skip_head_ne (by decide)
        · exact absurd rfl hne
      obtain ⟨x, xs, rfl, -, hx, -⟩ := hc.head
      rw [hs]
      simp only [List.cons_append, parseNameValue_bad hx]
      simp
  | @cons w name n q src v rest' as hw _ hn hq hv _ ih =>
    intro fuel acc
    have e : w ++ name ++ u "=" ++ [q] ++ src ++ [q] ++ rest' ++ (close ++ rest)
        = w ++ (name ++ (u "=" ++ [q] ++ src ++ [q] ++ (rest' ++ (close ++ rest)))) := by simp
    rw [e, parseS_name hw hn]
    cases fuel with
    | zero => exact .inl rfl
    | succ fuel =>
      obtain ⟨x, xs, hx, h1⟩ := hn.ne_nil
      have hno : skip other (name ++ (u "=" ++ [q] ++ src ++ [q] ++ (rest' ++ (close ++ rest)))) = none := by
        rw [hx]; exact not_close h1 ho
      have hne' : name ++ (u "=" ++ [q] ++ src ++ [q] ++ (rest' ++ (close ++ rest))) ≠ [] := by
        rw [hx]; simp
      rw [attrsLoop, hno]
      simp only [if_neg hne']
      have e2 : name ++ (u "=" ++ [q] ++ src ++ [q] ++ (rest' ++ (close ++ rest)))
          = name ++ u "=" ++ [q] ++ src ++ [q] ++ (rest' ++ (close ++ rest)) := by simp
      rw [e2]
      rcases parseNameValue_eq (rest := rest' ++ (close ++ rest)) hn hq hv fuel with h | h
      · left; rw [h]
      · rw [h]
        cases hq' : c.attribute n with
        | none => right; simp only [hq']
        | some qn =>
          simp only [hq']
          exact ih fuel (setAttribute acc qn v)

/-! ## Tags -/

theorem Spec.AttrsText.ends {m : Mode} [Clean m] {src close rest : Text} {as : Written} (h : AttrsText m src as) (hc : Close close) :
    Ends (src ++ (close ++ rest)) := by
  have hspace : ∀ r, Space r → isNameChar r = false := by
    intro r hr
    cases hn : isNameChar r with
    | false => rfl
    | true =>
      rw [isNameChar_iff] at hn
      unfold Space NamePart NameStart at *
      omega
  have key : ∀ w s, Spaces w → (w ≠ [] ∨ Ends s) → Ends (w ++ s) := by
    intro w s hw h
    cases w with
    | nil =>
      rcases h with h | h
      · exact absurd rfl h
      · exact h
    | cons c w => exact ends_of_not (hspace c (hw c (List.mem_cons_self ..)))
  cases h with
  | nil hw =>
    refine key _ _ hw (.inr ?_)
    obtain ⟨x, xs, rfl, -, -, hx⟩ := hc.head
    exact ends_of_not hx
  | @cons w _ _ _ _ _ _ _ hw hne _ _ _ _ =>
    simp only [List.append_assoc]
    exact key _ _ hw (.inl (hne Clean.ne))

theorem parseTag_eq {m : Mode} [Clean m] {src close rest : Text} {as : Written} {q : QName} {bs : Attrs} {sc : Scope} {c : Context}
    (h : TagText m ⟨sc.outer, as :: sc.tags⟩ as src q bs) (hc : Close close) (ha : Agree c sc) (fuel : Nat) :
    parseTag close fuel c (src ++ close ++ rest) = .out ∨
    parseTag close fuel c (src ++ close ++ rest) = .ok (q, bs, seeAll c as) rest := by
  cases h with
  | @mk name n _ asrc bs hn hsrc _ hen han _ =>
    have e : u "<" ++ name ++ asrc ++ close ++ rest = u "<" ++ (name ++ (asrc ++ (close ++ rest))) := by simp
    rw [e]
    unfold parseTag
    simp only [skip_append, parseQName_eq hn (hsrc.ends hc)]
    rcases parseNs_eq (rest := rest) hsrc hc fuel c with h | ⟨s', h⟩
    · left; rw [h]
    · rw [h]
      simp only [((ha.see as).element n q).2 hen]
      rcases attrsLoop_eq (rest := rest) hsrc hc (ha.see as) han fuel [] with h | h
      · left; rw [h]
      · right; rw [h, lastWins_eq]

theorem parseTag_wrong {m : Mode} [Clean m] {src close other rest : Text} {as : Written} {q : QName} {bs : Attrs} {sc' : Scope}
    {c : Context} (h : TagText m sc' as src q bs) (hc : Close close) (ho : Close other)
    (hne : close ≠ other) (fuel : Nat) :
    parseTag other fuel c (src ++ close ++ rest) = .out ∨
    parseTag other fuel c (src ++ close ++ rest) = .err := by
  cases h with
  | @mk name n _ asrc bs hn hsrc _ hen han _ =>
    have e : u "<" ++ name ++ asrc ++ close ++ rest = u "<" ++ (name ++ (asrc ++ (close ++ rest))) := by simp
    rw [e]
    unfold parseTag
    simp only [skip_append, parseQName_eq hn (hsrc.ends hc)]
    rcases parseNs_eq (rest := rest) hsrc hc fuel c with h | ⟨s', h⟩
    · left; rw [h]
    · rw [h]
      simp only
      cases hq : (seeAll c as).element n with
      | none => right; rfl
      | some q' =>
        simp only
        rcases attrsLoop_wrong (rest := rest) (c := seeAll c as) hsrc hc ho hne fuel [] with h | h
        · left; rw [h]
        · right; rw [h]

/-! ## What an accepted tag looks like -/

theorem Spec.AttrsText.spaces {w src : Text} {as : Written} (hw : Spaces w) (h : AttrsText .loose src as) :
    AttrsText .loose (w ++ src) as := by
  have app : ∀ {a b : Text}, Spaces a → Spaces b → Spaces (a ++ b) := by
    intro a b ha hb r hr
    rcases List.mem_append.1 hr with h | h
    · exact ha r h
    · exact hb r h
  cases h with
  | nil h => exact .nil (app hw h)
  | cons hw' _ hn hq hv hr =>
    simp only [← List.append_assoc]
    exact .cons (app hw hw') (by simp) hn hq hv hr

theorem tag_loops {close : Text} (hc : Close close) {ctx : Context} {fuel : Nat} :
    ∀ {c c' : Context} {s s' rest : Text} {acc as : Attrs},
    parseNs fuel c s = .ok c' s' → attrsLoop close ctx fuel acc s = .ok as rest →
    ∃ src tail written bs, s = src ++ tail ∧ (tail = close ++ rest ∨ (tail = [] ∧ rest = [])) ∧
      AttrsText .loose src written ∧ c' = seeAll c written ∧
      (∀ sc, Agree ctx sc → AttrNames sc written bs) ∧
      as = bs.foldl (fun acc a => setAttribute acc a.1 a.2) acc := by
  induction fuel with
  | zero => intro c c' s s' rest acc as h; cases h
  | succ fuel ih =>
    intro c c' s s' rest acc as h1 h2
    rw [parseNs] at h1
    rw [attrsLoop] at h2
    split at h2
    · -- the end of the tag
      rename_i s1 hs
      simp only [R.ok.injEq] at h2
      obtain ⟨rfl, rfl⟩ := h2
      rw [skip_some] at hs
      refine ⟨[], s, [], [], rfl, .inl hs, .nil (by simp [Spaces]), ?_, fun sc _ => .nil, rfl⟩
      rw [if_pos] at h1
      · simp only [R.ok.injEq] at h1
        exact h1.1.symm
      · rcases hc with rfl | rfl
        · left; rw [hs]; simp [u_gt, List.isPrefixOf]
        · right; left; rw [hs]; simp [u_egt, List.isPrefixOf]
    · split at h2
      · -- the end of the text
        rename_i hs
        simp only [R.ok.injEq] at h2
        obtain ⟨rfl, rfl⟩ := h2
        refine ⟨[], [], [], [], hs, .inr ⟨rfl, rfl⟩, .nil (by simp [Spaces]), ?_, fun sc _ => .nil, rfl⟩
        rw [if_pos (.inr (.inr hs))] at h1
        simp only [R.ok.injEq] at h1
        exact h1.1.symm
      · rename_i hs
        cases hp : parseNameValue fuel s with
        | err => rw [hp] at h2; cases h2
        | out => rw [hp] at h2; cases h2
        | ok nv s1 =>
          obtain ⟨n, v⟩ := nv
          rw [hp] at h1 h2
          simp only at h2
          cases hq : ctx.attribute n with
          | none => rw [hq] at h2; cases h2
          | some q =>
            rw [hq] at h2
            simp only at h2
            obtain ⟨name, qt, vsrc, hn, hqt, hv, hs1⟩ := parseNameValue_ok hp
            split at h1
            · rename_i hstop
              exfalso
              obtain ⟨x, xs, hx, hxs⟩ := hn.ne_nil
              obtain ⟨g1, g2⟩ := not_start_close hxs
              rw [hs1, hx] at hstop
              simp [u_gt, u_egt, List.isPrefixOf, Ne.symm g1, Ne.symm g2] at hstop
            · simp only at h1
              obtain ⟨src, tail, written, bs, e1, e2, e3, e4, e5, e6⟩ := ih h1 h2
              obtain ⟨w, hw, hws⟩ := parseS_split s1
              refine ⟨name ++ u "=" ++ [qt] ++ vsrc ++ [qt] ++ (w ++ src), tail, (n, v) :: written, (q, v) :: bs,
                ?_, e2, ?_, e4, fun sc hsc => .cons ((hsc.attribute n q).1 hq) (e5 sc hsc), e6⟩
              · rw [hs1]
                simp only [List.append_assoc]
                rw [← e1, ← hws]
              · have := AttrsText.cons (m := .loose) (w := []) (by simp [Spaces]) (by simp) hn hqt hv
                  (Spec.AttrsText.spaces hw e3)
                simpa using this

theorem parseTag_ok {close : Text} (hc : Close close) {fuel : Nat} {c child : Context} {s rest : Text} {q : QName}
    {bs : Attrs} (h : parseTag close fuel c s = .ok (q, bs, child) rest) :
    ∃ src tail as, s = src ++ tail ∧ (tail = close ++ rest ∨ (tail = [] ∧ rest = [])) ∧ child = seeAll c as ∧
      src ≠ [] ∧ ∀ sc, Agree c sc → TagText .loose ⟨sc.outer, as :: sc.tags⟩ as src q bs := by
  unfold parseTag at h
  split at h
  · cases h
  rename_i s1 h1
  rw [skip_some] at h1
  split at h
  · cases h
  rename_i n s2 h2
  obtain ⟨name, h3, hn, -⟩ := parseQName_some h2
  simp only at h
  split at h
  · cases h
  · cases h
  rename_i child' s3 h4
  split at h
  · cases h
  rename_i q' h5
  split at h
  · cases h
  · cases h
  rename_i bs' s4 h6
  simp only [R.ok.injEq, Prod.mk.injEq] at h
  obtain ⟨⟨rfl, rfl, rfl⟩, rfl⟩ := h
  obtain ⟨src, tail, written, bs, e1, e2, e3, e4, e5, e6⟩ := tag_loops hc h4 h6
  obtain ⟨w, hw, hws⟩ := parseS_split s2
  refine ⟨u "<" ++ name ++ (w ++ src), tail, written, ?_, e2, e4, by simp [u_lt], fun sc hsc => ?_⟩
  · rw [h1, h3]
    simp only [List.append_assoc]
    rw [← e1, ← hws]
  · have hag := hsc.see written
    rw [← e4] at hag
    have := TagText.mk (m := .loose) (sc := ⟨sc.outer, written :: sc.tags⟩) hn (Spec.AttrsText.spaces hw e3) (by simp)
      ((hag.element n q').1 h5) (e5 _ hag) (by simp)
    rw [lastWins_eq, ← e6] at this
    exact this

end Verif.Xml
