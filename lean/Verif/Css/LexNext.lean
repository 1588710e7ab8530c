import Verif.Css.LexNum
/-!
# Each written token is read back: helper lemmas
-/
namespace Verif.Css
open LexSpec

/-- The stages of `next` behind the comment. -/
def late (c : Nat) (r : Text) : Tok × Text :=
  match mNumber (c :: r) with
  | some r' =>
    match mIdent r' with
    | some r'' => (⟨.dimension, span (c :: r) r''⟩, r'')
    | none =>
      match r' with
      | 37 :: r'' => (⟨.percentage, span (c :: r) r''⟩, r'')
      | _ => (⟨.number, span (c :: r) r'⟩, r')
  | none =>
    match mIdent (c :: r) with
    | some r' => nextIdent (c :: r) r'
    | none =>
      match mAt (c :: r) with
      | some r' => (⟨.atKeyword, span (c :: r) r'⟩, r')
      | none =>
        if c = 34 ∨ c = 39 then stringLoop c r.length [] r
        else (⟨.delim, [c]⟩, r)

theorem next_late {c : Nat} {r : Text} (h1 : ¬White c) (h2 : single c = none) (h3 : mHash (c :: r) = none)
    (h4 : mWord (u "<!--") (c :: r) = none) (h5 : mWord (u "-->") (c :: r) = none)
    (h6 : mWord (u "/*") (c :: r) = none) : next (c :: r) = late c r := by
  unfold next
  dsimp only
  rw [neg_of (isSpace_iff c) h1, if_neg (by simp), h2]
  dsimp only
  rw [h3]
  dsimp only
  rw [h4]
  dsimp only
  rw [h5]
  dsimp only
  rw [h6]
  rfl

theorem mWord_none {w s : Text} (h : ∀ t, s ≠ w ++ t) : mWord w s = none := by
  unfold mWord
  rw [if_neg]
  intro k
  rw [List.isPrefixOf_iff_prefix] at k
  obtain ⟨t, e⟩ := k
  exact h t e.symm

theorem mWord_some (w t : Text) : mWord w (w ++ t) = some t := by
  unfold mWord
  rw [if_pos]
  · simp
  · rw [List.isPrefixOf_iff_prefix]
    exact List.prefix_append w t

theorem mWord_head {a : Nat} {w : Text} {c : Nat} {r : Text} (h : c ≠ a) : mWord (a :: w) (c :: r) = none := by
  apply mWord_none
  intro t e
  injection e with e _
  exact h e

theorem mHash_head {c : Nat} {r : Text} (h : c ≠ 35) : mHash (c :: r) = none := by
  unfold mHash
  split
  · rename_i e; injection e with e _; exact absurd e h
  · rfl

/-- The first character opens none of the early tokens. -/
structure Late (c : Nat) : Prop where
  white : ¬White c
  single : single c = none
  hash : c ≠ 35
  lt : c ≠ 60
  slash : c ≠ 47

theorem single_none {c : Nat} (h : c ∉ [123, 125, 91, 93, 40, 41, 59, 58, 44]) : single c = none := by
  simp only [List.mem_cons, not_or] at h
  unfold single
  obtain ⟨h1, h2, h3, h4, h5, h6, h7, h8, h9, _⟩ := h
  rw [if_neg h1, if_neg h2, if_neg h3, if_neg h4, if_neg h5, if_neg h6, if_neg h7, if_neg h8, if_neg h9]

theorem Late.next {c : Nat} {r : Text} (h : Late c) (h5 : mWord (u "-->") (c :: r) = none) : next (c :: r) = late c r :=
  next_late h.white h.single (mHash_head h.hash) (mWord_head h.lt) h5 (mWord_head h.slash)

/-- A character of these ranges. -/
theorem Late.of {c : Nat} (h : c = 34 ∨ c = 39 ∨ c = 43 ∨ c = 45 ∨ c = 46 ∨ c = 64 ∨ c = 92 ∨ Digit c ∨ Start c) : Late c := by
  unfold Digit Start at h
  refine ⟨?_, single_none ?_, ?_, ?_, ?_⟩
  · unfold White Newline; omega
  · simp only [List.mem_cons, List.not_mem_nil, or_false]; omega
  · omega
  · omega
  · omega

theorem Num.first {r w : Text} (h : Num r w) : ∃ c t, w = c :: t ∧ (c = 43 ∨ c = 45 ∨ c = 46 ∨ Digit c) ∧
    ∀ x, c :: (t ++ r) ≠ u "-->" ++ x := by
  have key : ∀ sg y : Text, Sign sg → ∀ c t, y = c :: t → (c = 46 ∨ Digit c) →
      ∃ c t, sg ++ y = c :: t ∧ (c = 43 ∨ c = 45 ∨ c = 46 ∨ Digit c) ∧ ∀ x, c :: (t ++ r) ≠ u "-->" ++ x := by
    intro sg y hs c t e hc
    subst e
    have hn : c ≠ 45 := by unfold Digit at hc; omega
    rcases hs with rfl | rfl | rfl
    · refine ⟨c, t, rfl, by grind, ?_⟩
      intro x k
      injection k with k _
      exact hn k
    · refine ⟨43, c :: t, rfl, by omega, ?_⟩
      intro x k
      injection k with k _
      cases k
    · refine ⟨45, c :: t, rfl, by omega, ?_⟩
      intro x k
      injection k with _ k
      injection k with k _
      exact hn k
  have dig : ∀ d y : Text, Digits d → ∃ c t, d ++ y = c :: t ∧ (c = 46 ∨ Digit c) := by
    intro d y ⟨h0, hd⟩
    cases d with
    | nil => exact absurd rfl h0
    | cons c d => exact ⟨c, _, rfl, Or.inr (hd c (List.mem_cons_self ..))⟩
  have dfr : ∀ d f y : Text, (d = [] ∨ Digits d) → Fraction f → ∃ c t, d ++ (f ++ y) = c :: t ∧ (c = 46 ∨ Digit c) := by
    intro d f y hd ⟨d', hf, _⟩
    rcases hd with rfl | hd
    · exact ⟨46, d' ++ y, by rw [hf]; rfl, Or.inl rfl⟩
    · exact dig d _ hd
  cases h with
  | int hs hd =>
    rename_i sg d _ _ _
    obtain ⟨c, t, e, hc⟩ := dig d [] hd
    exact key sg d hs c t (by simpa using e) hc
  | frac hs hd hf =>
    rename_i sg d f _ _
    obtain ⟨c, t, e, hc⟩ := dfr d f [] hd hf
    rw [List.append_assoc]
    exact key sg _ hs c t (by simpa using e) hc
  | intExp hs hd he =>
    rename_i sg d e' _
    obtain ⟨c, t, e, hc⟩ := dig d e' hd
    rw [List.append_assoc]
    exact key sg _ hs c t e hc
  | fracExp hs hd hf he =>
    rename_i sg d f e' _
    obtain ⟨c, t, e, hc⟩ := dfr d f e' hd hf
    rw [List.append_assoc, List.append_assoc]
    exact key sg _ hs c t e hc

theorem next_num {r w : Text} (h : Num r w) : next (w ++ r) =
    match mIdent r with
    | some r'' => (⟨.dimension, span (w ++ r) r''⟩, r'')
    | none =>
      match (generalizing := false) r with
      | 37 :: r'' => (⟨.percentage, span (w ++ r) r''⟩, r'')
      | _ => (⟨.number, w⟩, r) := by
  have hm := mNumber_num h
  have hs := span_append w r
  obtain ⟨c, t, rfl, hc, hx⟩ := Num.first h
  rw [List.cons_append] at hm hs ⊢
  rw [(Late.of (by grind)).next (mWord_none hx)]
  unfold late
  rw [hm]
  dsimp only
  clear h hx hm hc
  cases mIdent r with
  | some r'' => rfl
  | none =>
    dsimp only
    split
    · rfl
    · rw [hs]

theorem Ident.first {s : Bool} {r w : Text} (h : Ident s r w) : ∃ c t, w = c :: t ∧ (c = 45 ∨ c = 92 ∨ Start c) := by
  cases h with
  | dashes => exact ⟨_, _, rfl, Or.inl rfl⟩
  | start k => exact ⟨_, _, rfl, Or.inr (Or.inr k)⟩
  | dashStart => exact ⟨_, _, rfl, Or.inl rfl⟩
  | escape => exact ⟨_, _, rfl, Or.inr (Or.inl rfl)⟩
  | dashEscape => exact ⟨_, _, rfl, Or.inl rfl⟩

theorem Ident.notNum {s : Bool} {r w : Text} (h : Ident s r w) : ¬StartsNum (w ++ r) := by
  intro ⟨sg, y, e, hs, hy⟩
  have hc : ∃ c t, y = c :: t ∧ (c = 46 ∨ Digit c) := by
    rcases hy with hy | ⟨r', rfl, _⟩
    · cases y with
      | nil => exact hy.elim
      | cons c t => exact ⟨c, t, rfl, Or.inr hy⟩
    · exact ⟨46, r', rfl, Or.inl rfl⟩
  obtain ⟨c, t, rfl, hc⟩ := hc
  have st : ∀ x, Start x → x ≠ 43 ∧ x ≠ 45 ∧ x ≠ c := by
    intro x hx
    unfold Start at hx
    unfold Digit at hc
    omega
  unfold Digit at hc
  cases h with
  | dashes =>
    rcases hs with rfl | rfl | rfl
    · injection e with e _; omega
    · injection e with e _; cases e
    · injection e with _ e; injection e with e _; omega
  | start k =>
    have := st _ k
    rcases hs with rfl | rfl | rfl
    · injection e with e _; omega
    · injection e with e _; omega
    · injection e with e _; omega
  | dashStart k =>
    have := st _ k
    rcases hs with rfl | rfl | rfl
    · injection e with e _; omega
    · injection e with e _; omega
    · injection e with _ e; injection e with e _; omega
  | escape =>
    rcases hs with rfl | rfl | rfl
    · injection e with e _; omega
    · injection e with e _; omega
    · injection e with e _; omega
  | dashEscape =>
    rcases hs with rfl | rfl | rfl
    · injection e with e _; omega
    · injection e with e _; omega
    · injection e with _ e; injection e with e _; omega

theorem Ident.notCdc {s : Bool} {r w : Text} (h : Ident s r w) (h' : w = [45, 45] → ¬Begins (· = 62) r) :
    ∀ t, w ++ r ≠ u "-->" ++ t := by
  intro t e
  have : w ++ r = 45 :: 45 :: 62 :: t := e
  cases h with
  | dashes k =>
    injection this with _ e
    injection e with _ e
    cases k with
    | nil => exact h' rfl (by rw [show r = 62 :: t from e]; exact rfl)
    | plain a =>
      injection e with e _
      subst e
      unfold NameChar Start Digit at a
      omega
    | hex => injection e with e _; cases e
    | charThen => injection e with e _; cases e
    | char => injection e with e _; cases e
  | start k => injection this with e _; subst e; unfold Start at k; omega
  | dashStart k => injection this with _ e; injection e with e _; subst e; unfold Start at k; omega
  | escape => injection this with e _; cases e
  | dashEscape => injection this with _ e; injection e with e _; cases e

theorem next_ident {r w : Text} (h : Ident true r w) (hr : NameEnds r) (hc : w = [45, 45] → ¬Begins (· = 62) r) :
    next (w ++ r) = nextIdent (w ++ r) r := by
  have hm := mIdent_ident h hr
  have hn := mNumber_none (Ident.notNum h)
  have hx := Ident.notCdc h hc
  obtain ⟨c, t, rfl, hf⟩ := Ident.first h
  rw [List.cons_append] at hm hn hx ⊢
  rw [(Late.of (by grind)).next (mWord_none hx)]
  unfold late
  rw [hn]
  dsimp only
  rw [hm]

theorem single_punct {c : Nat} {t : TT} (h : (c, t) ∈ punct) : single c = some t ∧ ¬White c := by
  simp only [punct, List.mem_cons, Prod.mk.injEq, List.not_mem_nil, or_false] at h
  rcases h with ⟨rfl, rfl⟩ | ⟨rfl, rfl⟩ | ⟨rfl, rfl⟩ | ⟨rfl, rfl⟩ | ⟨rfl, rfl⟩ | ⟨rfl, rfl⟩ | ⟨rfl, rfl⟩ | ⟨rfl, rfl⟩ | ⟨rfl, rfl⟩ <;>
    exact ⟨rfl, by unfold White Newline; omega⟩

theorem mCommentEnd_read : ∀ (w r : Text), (∀ a b, w ++ [42] ≠ a ++ 42 :: 47 :: b) →
    mCommentEnd (w ++ 42 :: 47 :: r) = some r
  | [], r, _ => rfl
  | c :: w, r, h => by
    rw [List.cons_append]
    unfold mCommentEnd
    split
    · rename_i r' e
      injection e with e1 e2
      subst e1
      cases w with
      | nil => cases e2
      | cons d w =>
        injection e2 with e2 _
        subst e2
        exact absurd rfl (h [] (w ++ [42]))
    · rename_i e
      injection e with e1 e2
      subst e2
      apply mCommentEnd_read w r
      intro a b k
      exact h (c :: a) b (by rw [List.cons_append, k]; rfl)
    · rename_i e; cases e

theorem IsUrl.eq {w : Text} (h : IsUrl w) : eqCi (w ++ [40]) (u "url(") = true := by
  obtain ⟨a, b, c, rfl, ha, hb, hc⟩ := h
  rcases ha with rfl | rfl <;> rcases hb with rfl | rfl <;> rcases hc with rfl | rfl <;> rfl

theorem lower_eq {x y : Nat} (hy : 97 ≤ y ∧ y ≤ 122) (h : lower x = y) : x = y ∨ x + 32 = y := by
  unfold lower at h
  split at h <;> omega

theorem IsUrl.ne {w : Text} (h : ¬IsUrl w) : eqCi (w ++ [40]) (u "url(") = false := by
  rw [Bool.eq_false_iff]
  intro k
  unfold eqCi at k
  rw [beq_iff_eq] at k
  have e : (w ++ [40]).map lower = [117, 114, 108, 40] := k
  rw [List.map_append] at e
  have hl : w.length = 3 := by
    have := congrArg List.length e
    simp at this
    omega
  match w, hl with
  | [a, b, c], _ =>
    injection e with e1 e
    injection e with e2 e
    injection e with e3 e
    have h1 := lower_eq (by omega) e1
    have h2 := lower_eq (by omega) e2
    have h3 := lower_eq (by omega) e3
    exact h ⟨a, b, c, rfl, by omega, by omega, by omega⟩

theorem nameEnds_paren (r : Text) : NameEnds (40 :: r) := by
  constructor
  · show ¬NameChar 40
    unfold NameChar Start Digit
    omega
  · intro h; exact h

theorem IsUrl.ident {w r : Text} (h : IsUrl w) : Ident true r w := by
  obtain ⟨a, b, c, rfl, ha, hb, hc⟩ := h
  refine .start ?_ (.plain (Or.inl ?_) (.plain (Or.inl ?_) .nil)) <;> unfold Start <;> omega

theorem next_func {w r : Text} (h : Ident true (40 :: r) w) : next (w ++ 40 :: r) =
    if eqCi (w ++ [40]) (u "url(") then
      match r.dropWhile isSpace with
      | 34 :: _ => (⟨.func, w ++ [40]⟩, r)
      | 39 :: _ => (⟨.func, w ++ [40]⟩, r)
      | _ => (⟨.url, span (w ++ 40 :: r) ((mUrl r).getD r)⟩, (mUrl r).getD r)
    else (⟨.func, w ++ [40]⟩, r) := by
  rw [next_ident h (nameEnds_paren r) (fun _ => by show ¬(40 = 62); omega)]
  have : span (w ++ 40 :: r) r = w ++ [40] := by
    rw [show w ++ 40 :: r = (w ++ [40]) ++ r by simp]
    exact span_append _ _
  show (if eqCi (span (w ++ 40 :: r) r) _ then _ else _) = _
  rw [this]
  split
  · split
    · rename_i e; rw [e]; rfl
    · rename_i e; rw [e]; rfl
    · rename_i k1 k2
      split
      · rename_i e; exact absurd e (k1 _)
      · rename_i e; exact absurd e (k2 _)
      · rfl
  · rfl

theorem eatUrl_body : ∀ (n : Nat) (b : Text) (e : Nat) (t : Text), (∀ c ∈ b, UrlChar c) → (White e ∨ e = 41) → b.length < n →
    eatUrl n (b ++ e :: t) = e :: t
  | 0, _, _, _, _, _, h => by omega
  | n + 1, [], e, t, _, he, _ => by
    have h92 : e ≠ 92 := by unfold White Newline at he; omega
    show (match mEscape (e :: t) with | some r' => _ | none => _) = _
    rw [mEscape_other h92]
    show (if isUrl e then _ else _) = _
    rw [if_neg]
    unfold isUrl
    rcases he with he | rfl
    · rw [(isSpace_iff e).2 he]; simp
    · decide
  | n + 1, c :: b, e, t, hb, he, hl => by
    have hc := hb c (List.mem_cons_self ..)
    show (match mEscape (c :: (b ++ e :: t)) with | some r' => _ | none => _) = _
    rw [mEscape_other hc.2.2.2.2.2.2]
    show (if isUrl c then _ else _) = _
    rw [if_pos]
    · exact eatUrl_body n b e t (fun x hx => hb x (List.mem_cons_of_mem _ hx)) he (by simp at hl; omega)
    · unfold UrlChar at hc
      unfold isUrl isSpace isNewline
      simp
      omega

theorem UrlChar.not_white {c : Nat} (h : UrlChar c) : ¬White c := by
  unfold UrlChar at h
  unfold White Newline
  omega

theorem dropWhile_white {sp : Text} (h : ∀ c ∈ sp, White c) (r : Text) : (sp ++ r).dropWhile isSpace = r.dropWhile isSpace :=
  dropWhile_all (fun c hc => (isSpace_iff c).2 (h c hc)) r

theorem dropWhile_head {c : Nat} {r : Text} (h : ¬White c) : (c :: r).dropWhile isSpace = c :: r := by
  simp [List.dropWhile, neg_of (isSpace_iff c) h]

theorem not_white_41 : ¬White 41 := by unfold White Newline; omega

theorem url_tail {b sp' r : Text} (hb : ∀ c ∈ b, UrlChar c) (hs : ∀ c ∈ sp', White c) :
    (eatUrl (b ++ (sp' ++ 41 :: r)).length (b ++ (sp' ++ 41 :: r))).dropWhile isSpace = 41 :: r := by
  have : ∃ e t, sp' ++ 41 :: r = e :: t ∧ (White e ∨ e = 41) := by
    cases sp' with
    | nil => exact ⟨41, r, rfl, Or.inr rfl⟩
    | cons e t => exact ⟨e, _, rfl, Or.inl (hs e (List.mem_cons_self ..))⟩
  obtain ⟨e, t, k, he⟩ := this
  rw [k, eatUrl_body _ b e t hb he (by simp), ← k, dropWhile_white hs, dropWhile_head not_white_41]

theorem url_drop {b sp' r : Text} (hb : ∀ c ∈ b, UrlChar c) (hs : ∀ c ∈ sp', White c) {sp : Text} (hsp : ∀ c ∈ sp, White c) :
    ∃ b' sp'', (sp ++ (b ++ (sp' ++ 41 :: r))).dropWhile isSpace = b' ++ (sp'' ++ 41 :: r) ∧ (∀ c ∈ b', UrlChar c) ∧
      (∀ c ∈ sp'', White c) := by
  rw [dropWhile_white hsp]
  cases b with
  | nil =>
    rw [List.nil_append, dropWhile_white hs, dropWhile_head not_white_41]
    exact ⟨[], [], rfl, by simp, by simp⟩
  | cons c b =>
    rw [List.cons_append, dropWhile_head (UrlChar.not_white (hb c (List.mem_cons_self ..)))]
    exact ⟨c :: b, sp', rfl, hb, hs⟩

theorem mUrl_read {sp b sp' r : Text} (hsp : ∀ c ∈ sp, White c) (hb : ∀ c ∈ b, UrlChar c) (hs : ∀ c ∈ sp', White c) :
    mUrl (sp ++ (b ++ (sp' ++ 41 :: r))) = some r := by
  obtain ⟨b', sp'', e, h1, h2⟩ := url_drop (r := r) hb hs hsp
  unfold mUrl
  dsimp only
  rw [e, url_tail h1 h2]
  rfl

/-- The body of a URL does not begin with a quote. -/
theorem url_no_quote {sp b sp' r : Text} (hsp : ∀ c ∈ sp, White c) (hb : ∀ c ∈ b, UrlChar c) (hs : ∀ c ∈ sp', White c)
    (q : Nat) (hq : q = 34 ∨ q = 39) (t : Text) : (sp ++ (b ++ (sp' ++ 41 :: r))).dropWhile isSpace ≠ q :: t := by
  rw [dropWhile_white hsp]
  cases b with
  | nil =>
    rw [List.nil_append, dropWhile_white hs, dropWhile_head not_white_41]
    intro e
    injection e with e _
    omega
  | cons c b =>
    have hc := hb c (List.mem_cons_self ..)
    rw [List.cons_append, dropWhile_head (UrlChar.not_white hc)]
    intro e
    injection e with e _
    unfold UrlChar at hc
    omega

theorem next_written {t : Tok} {w r : Text} (h : Written true t w r) : next (w ++ r) = (t, r) := by
  cases h with
  | ws h0 h1 h2 =>
    cases w with
    | nil => exact absurd rfl h0
    | cons c w =>
      have e : (w ++ r).dropWhile isSpace = r := by
        rw [dropWhile_white fun x hx => h1 x (List.mem_cons_of_mem _ hx)]
        cases r with
        | nil => rfl
        | cons x r => exact dropWhile_head h2
      show (if isSpace c then ((⟨.ws, span (c :: (w ++ r)) ((w ++ r).dropWhile isSpace)⟩, (w ++ r).dropWhile isSpace) : Tok × Text) else _) = _
      rw [if_pos ((isSpace_iff c).2 (h1 c (List.mem_cons_self ..))), e]
      rw [show c :: (w ++ r) = c :: w ++ r from rfl, span_append]
  | punct h =>
    rename_i c t
    obtain ⟨h1, h2⟩ := single_punct h
    show (if isSpace c then _ else match single c with | some t => _ | none => _) = _
    rw [neg_of (isSpace_iff c) h2, if_neg (by simp), h1]
    rfl
  | hash h0 h1 h2 =>
    rename_i w
    have e := eatName_name h2 _ w h1 (Nat.le_refl _)
    have hl := List.length_pos_iff.2 h0
    have : mHash (35 :: (w ++ r)) = some r := by
      show (if (eatName (w ++ r).length (w ++ r)).length = (w ++ r).length then none else some (eatName (w ++ r).length (w ++ r))) = _
      rw [e, if_neg]
      simp
      omega
    rw [List.cons_append]
    unfold next
    dsimp only
    rw [if_neg (by decide), show single 35 = none from rfl]
    dsimp only
    rw [this]
    dsimp only
    rw [show 35 :: (w ++ r) = 35 :: w ++ r from rfl, span_append]
  | cdo =>
    show (_, _) = _
    show ((⟨.cdo, span (u "<!--" ++ r) r⟩, r) : Tok × Text) = _
    rw [span_append]
  | cdc =>
    show ((⟨.cdc, span (u "-->" ++ r) r⟩, r) : Tok × Text) = _
    rw [span_append]
  | comment h =>
    rename_i w
    have e := mCommentEnd_read w r h
    have hw : 47 :: 42 :: (w ++ [42, 47]) ++ r = 47 :: 42 :: (w ++ 42 :: 47 :: r) := by simp
    have hs := span_append (47 :: 42 :: (w ++ [42, 47])) r
    rw [hw] at hs ⊢
    show ((⟨.comment, span (47 :: 42 :: (w ++ 42 :: 47 :: r)) ((mCommentEnd (w ++ 42 :: 47 :: r)).getD _)⟩,
      (mCommentEnd (w ++ 42 :: 47 :: r)).getD _) : Tok × Text) = _
    rw [e]
    dsimp only [Option.getD]
    rw [hs]
  | number h1 h2 h3 =>
    rw [next_num h1, mIdent_none h2]
    dsimp only
    split
    · exact absurd rfl h3
    · rfl
  | percentage h =>
    rename_i w
    have : ¬StartsIdent (37 :: r) := by
      intro k
      rcases k with k | k
      · exact k
      · have : Start 37 := k
        unfold Start at this
        omega
    rw [List.append_assoc]
    show next (w ++ 37 :: r) = _
    rw [next_num h, mIdent_none this]
    show ((⟨.percentage, span (w ++ 37 :: r) r⟩, r) : Tok × Text) = _
    rw [show w ++ 37 :: r = (w ++ [37]) ++ r by simp, span_append]
  | dimension h1 h2 h3 =>
    rename_i n w
    rw [List.append_assoc, next_num h1, mIdent_ident h2 h3]
    dsimp only
    rw [← List.append_assoc, span_append]
  | ident h1 h2 h3 h4 =>
    rw [next_ident h1 h2 h4]
    unfold nextIdent
    split
    · exact absurd rfl h3
    · rw [span_append]
  | func h1 h2 h3 =>
    rename_i w
    rw [List.append_assoc]
    show next (w ++ 40 :: r) = _
    rw [next_func h1, IsUrl.ne h3]
    rfl
  | urlFunc h1 h2 h3 =>
    rename_i w sp q r
    have hq : ¬White q := by unfold White Newline; omega
    rw [List.append_assoc]
    show next (w ++ 40 :: (sp ++ q :: r)) = _
    rw [next_func (IsUrl.ident h1), IsUrl.eq h1, if_pos rfl, dropWhile_white h2, dropWhile_head hq]
    rcases h3 with rfl | rfl <;> rfl
  | url h1 h2 h3 h4 =>
    rename_i w sp b sp'
    have hw : w ++ 40 :: (sp ++ b ++ sp' ++ [41]) ++ r = w ++ 40 :: (sp ++ (b ++ (sp' ++ 41 :: r))) := by simp
    have hs := span_append (w ++ 40 :: (sp ++ b ++ sp' ++ [41])) r
    rw [hw] at hs ⊢
    rw [next_func (IsUrl.ident h1), IsUrl.eq h1, if_pos rfl]
    split
    · rename_i e; exact absurd e (url_no_quote h2 h3 h4 34 (Or.inl rfl) _)
    · rename_i e; exact absurd e (url_no_quote h2 h3 h4 39 (Or.inr rfl) _)
    · rw [mUrl_read h2 h3 h4]
      dsimp only [Option.getD]
      rw [hs]
  | atKeyword h1 h2 =>
    rename_i w
    have hn : mNumber (64 :: (w ++ r)) = none := rfl
    have hi : mIdent (64 :: (w ++ r)) = none := rfl
    have ha : mAt (64 :: (w ++ r)) = some r := mIdent_ident h1 h2
    rw [List.cons_append, (Late.of (c := 64) (by omega)).next (mWord_head (a := 45) (w := [45, 62]) (by omega))]
    unfold late
    rw [hn]
    dsimp only
    rw [hi]
    dsimp only
    rw [ha]
    dsimp only
    rw [show 64 :: (w ++ r) = 64 :: w ++ r from rfl, span_append]
  | string hq h =>
    rename_i q b v
    have hw : q :: (b ++ [q]) ++ r = q :: (b ++ q :: r) := by simp
    have hn : mNumber (q :: (b ++ q :: r)) = none := by rcases hq with rfl | rfl <;> rfl
    have hi : mIdent (q :: (b ++ q :: r)) = none := by rcases hq with rfl | rfl <;> rfl
    have ha : mAt (q :: (b ++ q :: r)) = none := by rcases hq with rfl | rfl <;> rfl
    rw [hw, (Late.of (c := q) (by omega)).next (mWord_head (a := 45) (w := [45, 62]) (by omega))]
    unfold late
    rw [hn]
    dsimp only
    rw [hi]
    dsimp only
    rw [ha]
    dsimp only
    rw [if_pos hq, stringLoop_body hq h _ _ _ (by simp)]
    rfl
  | delim h1 h2 h3 h4 h5 h6 h7 h8 h9 h10 h11 =>
    rename_i c
    have hp : single c = none := by
      apply single_none
      intro k
      simp only [List.mem_cons, List.not_mem_nil, or_false] at k
      have := h2
      unfold LexSpec.punct at this
      rcases k with rfl | rfl | rfl | rfl | rfl | rfl | rfl | rfl | rfl
      · exact h2 .lcurly (by decide)
      · exact h2 .rcurly (by decide)
      · exact h2 .lsquare (by decide)
      · exact h2 .rsquare (by decide)
      · exact h2 .lpar (by decide)
      · exact h2 .rpar (by decide)
      · exact h2 .semi (by decide)
      · exact h2 .colon (by decide)
      · exact h2 .comma (by decide)
    have hh : mHash (c :: r) = none := by
      by_cases k : c = 35
      · subst k
        show (if (eatName r.length r).length = r.length then none else _) = _
        rw [eatName_end (h7 rfl), if_pos rfl]
      · exact mHash_head k
    have h60 : mWord (u "<!--") (c :: r) = none := by
      by_cases k : c = 60
      · apply mWord_none
        intro t e
        injection e with _ e
        exact h9 k t e
      · exact mWord_head k
    have h45 : mWord (u "-->") (c :: r) = none := by
      by_cases k : c = 45
      · apply mWord_none
        intro t e
        injection e with _ e
        exact h10 k t e
      · exact mWord_head k
    have h47 : mWord (u "/*") (c :: r) = none := by
      by_cases k : c = 47
      · apply mWord_none
        intro t e
        injection e with _ e
        exact h11 k (by rw [e]; exact rfl)
      · exact mWord_head k
    have ha : mAt (c :: r) = none := by
      unfold mAt
      split
      · rename_i e
        injection e with e1 e2
        subst e1 e2
        exact mIdent_none (h8 rfl)
      · rfl
    show next (c :: r) = _
    rw [next_late h1 hp hh h60 h45 h47]
    unfold late
    rw [mNumber_none h5]
    dsimp only
    rw [mIdent_none h6]
    dsimp only
    rw [ha]
    dsimp only
    rw [if_neg (by omega)]

theorem written_ne {s : Bool} {t : Tok} {w r : Text} (h : Written s t w r) : w ≠ [] := by
  cases h with
  | ws h => exact h
  | number h => obtain ⟨c, t, e, _⟩ := Num.first h; rw [e]; simp
  | dimension h => obtain ⟨c, t, e, _⟩ := Num.first h; rw [e]; simp
  | ident h => obtain ⟨c, t, e, _⟩ := Ident.first h; rw [e]; simp
  | cdo => decide
  | cdc => decide
  | _ => simp

theorem lexAll_spelled {ts : List Tok} {s : Text} (h : Spelled true ts s) : ∀ n, s.length < n → lexAll n s = some ts := by
  induction h with
  | nil => intro n hn; cases n with
    | zero => omega
    | succ n => rfl
  | cons hw _ ih =>
    intro n hn
    rename_i t w r ts _
    cases n with
    | zero => omega
    | succ n =>
      have e := next_written hw
      have h0 := written_ne hw
      cases w with
      | nil => exact absurd rfl h0
      | cons c w =>
        rw [List.cons_append] at e hn ⊢
        unfold lexAll
        rw [e]
        dsimp only
        rw [ih n (by simp at hn; omega)]
        rfl

end Verif.Css
