import Verif.Xml.TagLemmas

/-! # Elements and documents: helper lemmas -/
namespace Verif.Xml
open Spec

/-! ## Comments and processing instructions -/

theorem parseComment_eq {src d : Text} (h : CommentText src d) (rest : Text) :
    parseComment (src ++ rest) = some (d, rest) := by
  cases h with
  | mk h1 h2 =>
    have e : u "<!--" ++ d ++ u "-->" ++ rest = u "<!--" ++ (d ++ u "-->" ++ rest) := by simp
    rw [e]
    simp only [parseComment, skip_append]
    exact until_eq (fun r hr => (isChar_iff r).2 (h2 r hr)) (first_mark [45, 45] rfl (by decide) h1)

theorem parseComment_some {s d rest : Text} (h : parseComment s = some (d, rest)) :
    ∃ src, s = src ++ rest ∧ CommentText src d := by
  unfold parseComment at h
  split at h
  · cases h
  rename_i s1 h1
  rw [skip_some] at h1
  obtain ⟨h2, h3, h4⟩ := until_some (by decide) h
  exact ⟨_, by rw [h1, h2]; simp, .mk (without_of_first h4 (by decide)) fun r hr => (isChar_iff r).1 (h3 r hr)⟩

theorem lower_xml {n : Text} : n.map lower = u "xml" ↔
    ∃ a b c, n = [a, b, c] ∧ (a = 0x78 ∨ a = 0x58) ∧ (b = 0x6D ∨ b = 0x4D) ∧ (c = 0x6C ∨ c = 0x4C) := by
  have hl : ∀ a k : Rune, 97 ≤ k → k ≤ 122 → (lower a = k ↔ a = k ∨ a = k - 32) := by
    intro a k h1 h2
    unfold lower
    split <;> omega
  have hu : u "xml" = [0x78, 0x6D, 0x6C] := rfl
  rw [hu]
  constructor
  · intro h
    match n, h with
    | [a, b, c], h =>
      simp only [List.map_cons, List.map_nil, List.cons.injEq, and_true] at h
      rw [hl _ _ (by decide) (by decide), hl _ _ (by decide) (by decide), hl _ _ (by decide) (by decide)] at h
      exact ⟨a, b, c, rfl, h⟩
    | [], h => simp at h
    | [_], h => simp at h
    | [_, _], h => simp at h
    | _ :: _ :: _ :: _ :: _, h => simp at h
  · rintro ⟨a, b, c, rfl, h⟩
    simp only [List.map_cons, List.map_nil, List.cons.injEq, and_true]
    rw [hl _ _ (by decide) (by decide), hl _ _ (by decide) (by decide), hl _ _ (by decide) (by decide)]
    exact h

theorem space_not_name {r : Rune} (hr : Space r) : isNameChar r = false := by
  cases hn : isNameChar r with
  | false => rfl
  | true =>
    rw [isNameChar_iff] at hn
    unfold Space NamePart NameStart at *
    omega

theorem parsePi_eq {m : Mode} [Clean m] {src : Text} (h : PiText m src) (rest : Text) : parsePi (src ++ rest) = some ((), rest) := by
  cases h with
  | @mk n d hn hx hw hch hsp =>
    have e : u "<?" ++ n ++ d ++ u "?>" ++ rest = u "<?" ++ (n ++ (d ++ u "?>" ++ rest)) := by simp
    rw [e]
    have hends : Ends (d ++ u "?>" ++ rest) := by
      rcases hsp Clean.ne with rfl | ⟨c, cs, rfl, hc⟩
      · exact ends_of_not (by decide)
      · exact ends_of_not (space_not_name hc)
    have hx' : ¬ n.map lower = u "xml" := by
      rw [lower_xml]
      rintro ⟨a, b, c, h1, h2⟩
      exact hx a b c h1 h2
    simp only [parsePi, skip_append, parseName_eq hn hends, if_neg hx']
    rw [until_eq (fun r hr => (isChar_iff r).2 (hch r hr)) (first_mark (mark := u "?>") [63] rfl (by decide) hw)]
    rfl

theorem parsePi_some {s rest : Text} {x : Unit} (h : parsePi s = some (x, rest)) :
    ∃ src, s = src ++ rest ∧ PiText .loose src := by
  unfold parsePi at h
  split at h
  · cases h
  rename_i s1 h1
  rw [skip_some] at h1
  split at h
  · cases h
  rename_i n s2 h2
  obtain ⟨h3, h4, -⟩ := parseName_some h2
  split at h
  · cases h
  rename_i hx
  cases hu : until_ (u "?>") isChar s2 with
  | none => rw [hu] at h; cases h
  | some p =>
    obtain ⟨d, r⟩ := p
    rw [hu] at h
    simp only [Option.map_some, Option.some.injEq, Prod.mk.injEq] at h
    obtain ⟨-, rfl⟩ := h
    obtain ⟨h5, h6, h7⟩ := until_some (by decide) hu
    refine ⟨u "<?" ++ n ++ d ++ u "?>", by rw [h1, h3, h5]; simp, .mk h4 ?_ (without_of_first h7 (by decide))
      (fun r hr => (isChar_iff r).1 (h6 r hr)) (by simp)⟩
    intro a b c hn hh
    exact hx (lower_xml.2 ⟨a, b, c, hn, hh⟩)

theorem Spec.CommentText.head {src d : Text} (h : CommentText src d) : ∃ t, src = 60 :: 33 :: 45 :: 45 :: t := by
  cases h with
  | mk => exact ⟨_, rfl⟩

theorem Spec.PiText.head {m : Mode} {src : Text} (h : PiText m src) : ∃ t, src = 60 :: 63 :: t := by
  cases h with
  | mk => exact ⟨_, rfl⟩

theorem Spec.TagText.head {m : Mode} {sc : Scope} {as : Written} {src : Text} {q : QName} {bs : Attrs}
    (h : TagText m sc as src q bs) : ∃ c t, src = 60 :: c :: t ∧ isNameStart c = true := by
  cases h with
  | mk hn =>
    obtain ⟨c, cs, rfl, hc⟩ := hn.ne_nil
    exact ⟨c, _, rfl, hc⟩

/-! ## What is not an element, a processing instruction or a comment -/

theorem parseTag_bad {close s : Text} {c : Rune} (h : isNameStart c = false) (fuel : Nat) (ctx : Context) :
    parseTag close fuel ctx (60 :: c :: s) = .err := by
  have : skip (u "<") (60 :: c :: s) = some (c :: s) := by simp [u_lt, skip]
  simp only [parseTag, this, parseQName_none h]

theorem parseElement_bad {s : Text} {c : Rune} (h : isNameStart c = false) (fuel : Nat) (ctx : Context) :
    parseElement fuel ctx (60 :: c :: s) = .out ∨ parseElement fuel ctx (60 :: c :: s) = .err := by
  cases fuel with
  | zero => left; rw [parseElement]
  | succ fuel => right; rw [parseElement, parseTag_bad h]; simp only [parseTag_bad h]

theorem parsePi_bad {s : Text} {c : Rune} (h : c ≠ 63) : parsePi (60 :: c :: s) = none := by
  have : skip (u "<?") (60 :: c :: s) = none := by rw [u_pi, skip_cons]; exact skip_one_ne h
  simp only [parsePi, this]

theorem parseComment_bad {s : Text} {c : Rune} (h : c ≠ 33) : parseComment (60 :: c :: s) = none := by
  have : skip (u "<!--") (60 :: c :: s) = none := by rw [u_com, skip_cons]; exact skip_head_ne h
  simp only [parseComment, this]

theorem stop_of {c : Rune} {s : Text} (h : c ≠ 33) : Stop (60 :: c :: s) := by
  refine .inr ⟨_, rfl, fun more hm => ?_⟩
  simp only [u_cd, List.cons_append, List.cons.injEq] at hm
  exact h hm.2.1

theorem stop_comment {s : Text} : Stop (60 :: 33 :: 45 :: s) := by
  refine .inr ⟨_, rfl, fun more hm => ?_⟩
  simp [u_cd] at hm

theorem nameStart_ne {c : Rune} (h : isNameStart c = true) : c ≠ 33 ∧ c ≠ 63 ∧ c ≠ 47 := by
  refine ⟨?_, ?_, ?_⟩ <;> (rintro rfl; revert h; decide)

theorem some_eq (t : Text) : some_ t = textNode t := by
  cases t <;> rfl

/-! ## Reading a well-formed element -/

/-- The text and what follows it: the body of `_parseContent`'s loop. -/
def afterText (fuel : Nat) (c : Context) (s : Text) (acc : List Node) : R (List Node) :=
  match textLoop fuel s [] with
  | .ok t s => contentLoop fuel c s (acc ++ textNode t)
  | .err => .err
  | .out => .out

theorem afterText_eq {m : Mode} [Clean m] {src t s : Text} (h : CharText m src t) (hs : Stop s) (fuel : Nat) (c : Context)
    (acc : List Node) : afterText fuel c (src ++ s) acc = .out ∨
      afterText fuel c (src ++ s) acc = contentLoop fuel c s (acc ++ textNode t) := by
  unfold afterText
  rcases textLoop_eq h hs fuel [] with h | h
  · left; rw [h]
  · right; rw [h]; rfl

theorem Spec.ElementText.head {m : Mode} {sc : Scope} {src : Text} {n : Node} (h : ElementText m sc src n) :
    ∃ c t, src = 60 :: c :: t ∧ isNameStart c = true := by
  cases h with
  | empty ht =>
    obtain ⟨c, t, rfl, hc⟩ := ht.head
    exact ⟨c, _, rfl, hc⟩
  | @full _ as src q bs body kids name n w ht =>
    obtain ⟨c, t, rfl, hc⟩ := ht.head
    exact ⟨c, t ++ (u ">" ++ (body ++ (u "</" ++ (name ++ (w ++ u ">"))))), by simp, hc⟩

theorem Spec.ItemText.stop {m : Mode} [Clean m] {sc : Scope} {src : Text} {ns : List Node} (h : ItemText m sc src ns) (s : Text) :
    Stop (src ++ s) := by
  cases h with
  | element h =>
    obtain ⟨c, t, rfl, hc⟩ := h.head
    exact stop_of (nameStart_ne hc).1
  | comment h =>
    obtain ⟨t, rfl⟩ := h.head
    exact stop_comment
  | pi h =>
    obtain ⟨t, rfl⟩ := h.head
    exact stop_of (by decide)

/-- The content of an element ends at the end tag. -/
theorem contentLoop_end {s : Text} (fuel : Nat) (c : Context) (acc : List Node) :
    contentLoop fuel c (u "</" ++ s) acc = .out ∨ contentLoop fuel c (u "</" ++ s) acc = .ok acc (u "</" ++ s) := by
  have e : u "</" ++ s = 60 :: 47 :: s := rfl
  rw [e]
  cases fuel with
  | zero => left; rw [contentLoop]
  | succ fuel =>
    rw [contentLoop]
    rcases parseElement_bad (s := s) (show isNameStart 47 = false by decide) fuel c with h | h
    · left; rw [h]
    · right
      rw [h]
      simp only [parsePi_bad (show (47 : Rune) ≠ 63 by decide), parseComment_bad (show (47 : Rune) ≠ 33 by decide)]

theorem parseEndTag_eq {m : Mode} [Clean m] {c : Context} {sc : Scope} {name w rest : Text} {n : Name} {q : QName} (ha : Agree c sc)
    (hn : NameText m name n) (hq : ElementName sc n q) (hw : Spaces w) :
    parseEndTag c q (u "</" ++ (name ++ (w ++ (u ">" ++ rest)))) = some rest := by
  have hends : Ends (w ++ (u ">" ++ rest)) := by
    cases w with
    | nil => exact ends_of_not (by decide)
    | cons c w => exact ends_of_not (space_not_name (hw c (List.mem_cons_self ..)))
  have hp : parseS (w ++ (u ">" ++ rest)) = u ">" ++ rest := parseS_tail hw (.inl rfl)
  simp only [parseEndTag, skip_append, parseQName_eq hn hends, (ha.element n q).2 hq, if_true, hp]

def Reads {α : Type} (r : R α) (a : α) (rest : Text) : Prop := r = .out ∨ r = .ok a rest

mutual
theorem parseElement_eq {m : Mode} [Clean m] {sc : Scope} {src : Text} {n : Node} (h : ElementText m sc src n) :
    ∀ {c : Context}, Agree c sc → ∀ rest fuel, Reads (parseElement fuel c (src ++ rest)) n rest := by
  intro c ha rest fuel
  cases fuel with
  | zero => left; rw [parseElement]
  | succ fuel =>
    match h with
    | .empty ht =>
      rw [parseElement]
      rcases parseTag_eq (rest := rest) ht (.inr rfl) ha fuel with h | h
      · left; rw [h]
      · right; rw [h]
    | @ElementText.full _ _ as src q bs body kids name n w ht hb hn hq hw =>
      rw [parseElement]
      have e : src ++ u ">" ++ body ++ u "</" ++ name ++ w ++ u ">" ++ rest
          = src ++ u ">" ++ (body ++ (u "</" ++ (name ++ (w ++ (u ">" ++ rest))))) := by simp
      rw [e]
      rcases parseTag_wrong (c := c) (rest := body ++ (u "</" ++ (name ++ (w ++ (u ">" ++ rest))))) ht (.inl rfl)
        (.inr rfl) (by decide) fuel with h | h
      · left; rw [h]
      rw [h]
      simp only
      rcases parseTag_eq (rest := body ++ (u "</" ++ (name ++ (w ++ (u ">" ++ rest))))) ht (.inl rfl) ha fuel with h | h
      · left; rw [h]
      rw [h]
      simp only
      have hc := parseContent_eq hb (ha.see as) (name ++ (w ++ (u ">" ++ rest))) fuel []
      unfold afterText at hc
      cases htl : textLoop fuel (body ++ (u "</" ++ (name ++ (w ++ (u ">" ++ rest))))) [] with
      | out => left; rfl
      | err => exact absurd htl textLoop_not_err
      | ok t s =>
        rw [htl] at hc
        simp only [List.nil_append] at hc ⊢
        rcases hc with h | h
        · left; rw [h]
        · rw [h]
          simp only [parseEndTag_eq (ha.see as) hn hq hw]
          right; trivial

theorem parseContent_eq {m : Mode} [Clean m] {sc : Scope} {src : Text} {kids : List Node} (h : ContentText m sc src kids) :
    ∀ {c : Context}, Agree c sc → ∀ rest fuel acc,
      Reads (afterText fuel c (src ++ (u "</" ++ rest)) acc) (acc ++ kids) (u "</" ++ rest) := by
  intro c ha rest fuel acc
  match h with
  | .last ht =>
    rcases afterText_eq ht (stop_of (s := rest) (show (47 : Rune) ≠ 33 by decide)) fuel c acc with h | h
    · left; exact h
    · have e : u "</" ++ rest = 60 :: 47 :: rest := rfl
      rw [some_eq]
      unfold Reads
      rw [e, h]
      exact contentLoop_end fuel c _
  | @ContentText.item _ _ src t isrc ns more ks ht hi hm =>
    have e : src ++ isrc ++ more ++ (u "</" ++ rest) = src ++ (isrc ++ (more ++ (u "</" ++ rest))) := by simp
    rw [e]
    rcases afterText_eq ht (hi.stop (more ++ (u "</" ++ rest))) fuel c acc with h | h
    · left; exact h
    · rw [h]
      have hks := fun f acc => parseContent_eq hm ha rest f acc
      have := parseItem_eq hi ha (more ++ (u "</" ++ rest)) (u "</" ++ rest) ks hks fuel (acc ++ textNode t)
      rw [some_eq]
      simpa using this

theorem parseItem_eq {m : Mode} [Clean m] {sc : Scope} {src : Text} {ns : List Node} (h : ItemText m sc src ns) :
    ∀ {c : Context}, Agree c sc → ∀ s rest ks,
      (∀ fuel acc, Reads (afterText fuel c s acc) (acc ++ ks) rest) →
      ∀ fuel acc, Reads (contentLoop fuel c (src ++ s) acc) (acc ++ ns ++ ks) rest := by
  intro c ha s rest ks hks fuel acc
  cases fuel with
  | zero => left; rw [contentLoop]
  | succ fuel =>
    rw [contentLoop]
    match h with
    | .element he =>
      rename_i n
      rcases parseElement_eq he ha s fuel with h | h
      · left; rw [h]
      · rw [h]
        have := hks fuel (acc ++ [n])
        unfold afterText at this
        exact this
    | .comment hc =>
      obtain ⟨t, ht⟩ := hc.head
      have hp := parseComment_eq hc s
      rw [ht] at hp ⊢
      rcases parseElement_bad (s := 45 :: 45 :: t ++ s) (show isNameStart 33 = false by decide) fuel c with h | h
      · left
        show (match parseElement fuel c (60 :: 33 :: (45 :: 45 :: t ++ s)) with
          | .out => _ | .ok _ _ => _ | .err => _) = _
        rw [h]
      · rename_i d
        have e : parsePi (60 :: 33 :: 45 :: 45 :: t ++ s) = none := parsePi_bad (by decide)
        have e' : parseElement fuel c (60 :: 33 :: 45 :: 45 :: t ++ s) = .err := h
        rw [e', e, hp]
        have := hks fuel (acc ++ [.comment d])
        unfold afterText at this
        exact this
    | .pi hp =>
      obtain ⟨t, ht⟩ := hp.head
      have hp := parsePi_eq hp s
      rw [ht] at hp ⊢
      rcases parseElement_bad (s := t ++ s) (show isNameStart 63 = false by decide) fuel c with h | h
      · have e' : parseElement fuel c (60 :: 63 :: t ++ s) = .out := h
        left; rw [e']
      · have e' : parseElement fuel c (60 :: 63 :: t ++ s) = .err := h
        rw [e', hp]
        have := hks fuel acc
        unfold afterText at this
        rw [List.append_nil]
        exact this
end

/-! ## What an accepted element looks like -/

theorem parseEndTag_some {c : Context} {sc : Scope} {q : QName} {s rest : Text} (ha : Agree c sc)
    (h : parseEndTag c q s = some rest) :
    ∃ name n w, s = u "</" ++ name ++ w ++ u ">" ++ rest ∧ NameText .loose name n ∧ ElementName sc n q ∧ Spaces w := by
  unfold parseEndTag at h
  split at h
  · cases h
  rename_i s1 h1
  rw [skip_some] at h1
  split at h
  · cases h
  rename_i n s2 h2
  obtain ⟨name, h3, hn, -⟩ := parseQName_some h2
  split at h
  · rename_i hq
    rw [skip_some] at h
    obtain ⟨w, hw, hws⟩ := parseS_split s2
    refine ⟨name, n, w, ?_, hn, (ha.element n q).1 hq, hw⟩
    rw [h1, h3]
    simp only [List.append_assoc]
    rw [← h, ← hws]
  · cases h

theorem parseTag_nil {close : Text} (fuel : Nat) (c : Context) : parseTag close fuel c [] = .err := by
  simp [parseTag, u_lt, skip_nil]

theorem parseElement_nil (fuel : Nat) (c : Context) :
    parseElement fuel c [] = .out ∨ parseElement fuel c [] = .err := by
  cases fuel with
  | zero => left; rw [parseElement]
  | succ fuel => right; rw [parseElement, parseTag_nil]; simp only [parseTag_nil]

theorem textItem_nil : parseTextItem [] = none := by decide

theorem textLoop_nil (fuel : Nat) (sb : Text) : textLoop fuel [] sb = .out ∨ textLoop fuel [] sb = .ok sb [] := by
  cases fuel with
  | zero => left; rfl
  | succ fuel => right; rw [textLoop, textItem_nil]

theorem contentLoop_nil (fuel : Nat) (c : Context) (acc : List Node) :
    contentLoop fuel c [] acc = .out ∨ contentLoop fuel c [] acc = .ok acc [] := by
  cases fuel with
  | zero => left; rw [contentLoop]
  | succ fuel =>
    rw [contentLoop]
    rcases parseElement_nil fuel c with h | h
    · left; rw [h]
    · right
      rw [h]
      have h1 : parsePi [] = none := by decide
      have h2 : parseComment [] = none := by decide
      rw [h1, h2]

theorem afterText_nil (fuel : Nat) (c : Context) (acc : List Node) {kids : List Node} {rest : Text}
    (h : afterText fuel c [] acc = .ok kids rest) : rest = [] := by
  unfold afterText at h
  rcases textLoop_nil fuel [] with h1 | h1
  · rw [h1] at h; cases h
  · rw [h1] at h
    simp only at h
    rcases contentLoop_nil fuel c (acc ++ textNode []) with h2 | h2
    · rw [h2] at h; cases h
    · rw [h2] at h
      simp only [R.ok.injEq] at h
      exact h.2.symm

theorem parseEndTag_nil (c : Context) (q : QName) : parseEndTag c q [] = none := by
  simp [parseEndTag, u_lts, skip_nil]

/-- The text ends inside the first tag, which is read as an element without content. -/
def Cut (sc : Scope) (s : Text) (n : Node) : Prop :=
  ∃ as q bs, TagText .loose ⟨sc.outer, as :: sc.tags⟩ as s q bs ∧ n = .element q bs []

theorem element_sound (fuel : Nat) :
    (∀ {c : Context} {sc : Scope} {s rest : Text} {n : Node}, Agree c sc → parseElement fuel c s = .ok n rest →
      (∃ src, s = src ++ rest ∧ ElementText .loose sc src n) ∨ (rest = [] ∧ Cut sc s n)) ∧
    (∀ {c : Context} {sc : Scope} {s rest : Text} {acc kids : List Node}, Agree c sc →
      contentLoop fuel c s acc = .ok kids rest →
      rest = [] ∨ ∃ src ks, s = src ++ rest ∧ kids = acc ++ ks ∧
        ∀ s0 t0, CharText .loose s0 t0 → ContentText .loose sc (s0 ++ src) (some_ t0 ++ ks)) := by
  induction fuel with
  | zero =>
    refine ⟨fun _ h => ?_, fun _ h => ?_⟩
    · rw [parseElement] at h; cases h
    · rw [contentLoop] at h; cases h
  | succ fuel ih =>
    obtain ⟨ihe, ihc⟩ := ih
    -- text followed by content
    have hafter : ∀ {c : Context} {sc : Scope} {s rest : Text} {acc kids : List Node}, Agree c sc →
        afterText fuel c s acc = .ok kids rest →
        rest = [] ∨ ∃ src ks, s = src ++ rest ∧ kids = acc ++ ks ∧ ContentText .loose sc src ks := by
      intro c sc s rest acc kids ha h
      unfold afterText at h
      split at h
      · rename_i t s1 ht
        obtain ⟨src0, t0, h1, h2, h3⟩ := textLoop_ok ht
        rcases ihc ha h with h4 | ⟨src, ks, h4, h5, h6⟩
        · exact .inl h4
        · refine .inr ⟨src0 ++ src, some_ t0 ++ ks, by rw [h1, h4]; simp, ?_, h6 _ _ h3⟩
          rw [h5, h2, some_eq]
          simp
      · cases h
      · cases h
    refine ⟨?_, ?_⟩
    · intro c sc s rest n ha h
      rw [parseElement] at h
      split at h
      · cases h
      · -- an empty-element tag
        rename_i q bs child s1 ht
        simp only [R.ok.injEq] at h
        obtain ⟨rfl, rfl⟩ := h
        obtain ⟨src, tail, as, h1, h2, h3, h4, h5⟩ := parseTag_ok (.inr rfl) ht
        rcases h2 with rfl | ⟨rfl, h2⟩
        · exact .inl ⟨src ++ u "/>", by rw [h1]; simp, .empty (h5 sc ha)⟩
        · refine .inr ⟨h2, as, q, bs, ?_, rfl⟩
          rw [h1, List.append_nil]
          exact h5 sc ha
      · rename_i herr
        split at h
        · cases h
        · cases h
        rename_i q bs child s1 ht
        obtain ⟨src, tail, as, h1, h2, h3, h4, h5⟩ := parseTag_ok (.inl rfl) ht
        subst h3
        have hcont : ∀ {kids : List Node} {s3 : Text}, afterText fuel (seeAll c as) s1 [] = .ok kids s3 →
            (match parseEndTag (seeAll c as) q s3 with
             | none => (R.err : R Node)
             | some s => .ok (.element q bs kids) s) = .ok n rest →
            (∃ src, s = src ++ rest ∧ ElementText .loose sc src n) := by
          intro kids s3 hk he
          cases hend : parseEndTag (seeAll c as) q s3 with
          | none => rw [hend] at he; cases he
          | some s4 =>
            rw [hend] at he
            simp only [R.ok.injEq] at he
            obtain ⟨rfl, rfl⟩ := he
            rcases hafter (ha.see as) hk with h6 | ⟨body, ks, h6, h7, h8⟩
            · rw [h6, parseEndTag_nil] at hend; cases hend
            · rcases h2 with rfl | ⟨rfl, h2⟩
              · obtain ⟨name, nm, w, h9, h10, h11, h12⟩ := parseEndTag_some (ha.see as) hend
                refine ⟨src ++ u ">" ++ body ++ u "</" ++ name ++ w ++ u ">", ?_, ?_⟩
                · rw [h1, h6, h9]; simp
                · rw [h7]
                  exact .full (h5 sc ha) h8 h10 h11 h12
              · exfalso
                rw [h2] at hk
                have := afterText_nil _ _ _ hk
                rw [this, parseEndTag_nil] at hend
                cases hend
        cases htl : textLoop fuel s1 [] with
        | out => rw [htl] at h; cases h
        | err => rw [htl] at h; cases h
        | ok t s2 =>
          rw [htl] at h
          simp only at h
          cases hcl : contentLoop fuel (seeAll c as) s2 (textNode t) with
          | out => rw [hcl] at h; cases h
          | err => rw [hcl] at h; cases h
          | ok kids s3 =>
            rw [hcl] at h
            simp only at h
            refine .inl (hcont (kids := kids) (s3 := s3) ?_ h)
            unfold afterText
            rw [htl]
            simpa using hcl
    · intro c sc s rest acc kids ha h
      rw [contentLoop] at h
      split at h
      · cases h
      · -- an element
        rename_i n s1 he
        have h' : afterText fuel c s1 (acc ++ [n]) = .ok kids rest := h
        rcases ihe ha he with ⟨src, h1, h2⟩ | ⟨h1, -⟩
        · rcases hafter ha h' with h3 | ⟨src', ks, h3, h4, h5⟩
          · exact .inl h3
          · refine .inr ⟨src ++ src', [n] ++ ks, by rw [h1, h3]; simp, by rw [h4]; simp, fun s0 t0 h0 => ?_⟩
            rw [← List.append_assoc, ← List.append_assoc]
            exact .item h0 (.element h2) h5
        · subst h1
          exact .inl (afterText_nil _ _ _ h')
      · split at h
        · -- a processing instruction
          rename_i x s1 hp
          have h' : afterText fuel c s1 acc = .ok kids rest := h
          obtain ⟨src, h1, h2⟩ := parsePi_some hp
          rcases hafter ha h' with h3 | ⟨src', ks, h3, h4, h5⟩
          · exact .inl h3
          · refine .inr ⟨src ++ src', ks, by rw [h1, h3]; simp, h4, fun s0 t0 h0 => ?_⟩
            rw [← List.append_assoc]
            have := ContentText.item h0 (.pi h2) h5
            simpa using this
        · split at h
          · -- a comment
            rename_i d s1 hp
            have h' : afterText fuel c s1 (acc ++ [.comment d]) = .ok kids rest := h
            obtain ⟨src, h1, h2⟩ := parseComment_some hp
            rcases hafter ha h' with h3 | ⟨src', ks, h3, h4, h5⟩
            · exact .inl h3
            · refine .inr ⟨src ++ src', [.comment d] ++ ks, by rw [h1, h3]; simp, by rw [h4]; simp, fun s0 t0 h0 => ?_⟩
              rw [← List.append_assoc, ← List.append_assoc]
              exact .item h0 (.comment h2) h5
          · simp only [R.ok.injEq] at h
            obtain ⟨rfl, rfl⟩ := h
            refine .inr ⟨[], [], rfl, by simp, fun s0 t0 h0 => ?_⟩
            simpa using ContentText.last h0

end Verif.Xml
