import Verif.Html.Refs
/-
Named references, and the `&name=` of query strings.
-/
namespace Verif.Html
open Spec

/-! ### The table -/

theorem part_iff {E : Env} (hE : E.ents = entities) {t : Str} :
    hasPart E ('&' :: t) = true ↔ ∃ r ∈ rows, ∃ c q, r.key = t ++ c :: q := by
  rw [hasPart_iff, hE]
  constructor
  · rintro ⟨e, he, c, q, hn⟩
    obtain ⟨r, hr, rfl⟩ := mem_entities.mp he
    simp only [List.cons_append, List.cons.injEq, true_and] at hn
    exact ⟨r, hr, c, q, hn⟩
  · rintro ⟨r, hr, c, q, hn⟩
    exact ⟨_, mem_entities.mpr ⟨r, hr, rfl⟩, c, q, by simp [hn]⟩

theorem yes_iff {E : Env} (hE : E.ents = entities) {t : Str} :
    hasYes E ('&' :: t) = true ↔ ∃ r ∈ rows, r.key = t := by
  rw [hasYes_iff, hE]
  constructor
  · rintro ⟨e, he, hn⟩
    obtain ⟨r, hr, rfl⟩ := mem_entities.mp he
    simp only [List.cons.injEq, true_and] at hn
    exact ⟨r, hr, hn⟩
  · rintro ⟨r, hr, hn⟩
    exact ⟨_, mem_entities.mpr ⟨r, hr, rfl⟩, by simp [hn]⟩

theorem expand_row {E : Env} (hE : E.ents = entities) {r : Row} (hr : r ∈ rows) :
    expand E ('&' :: r.key) = some (r.points.map Char.ofNat) := by
  unfold expand
  rw [hE]
  cases hf : entities.find? (fun e => e.name == '&' :: r.key) with
  | none =>
    have := List.find?_eq_none.mp hf _ (mem_entities.mpr ⟨r, hr, rfl⟩)
    simp at this
  | some e =>
    have h1 := List.find?_some hf
    obtain ⟨q, hq, rfl⟩ := mem_entities.mp (List.mem_of_find?_eq_some hf)
    simp only [beq_iff_eq, List.cons.injEq, true_and] at h1
    rw [rows_inj hq hr h1]
    rfl

theorem alnum_ne_semi {c : Char} (h : isAlphaNum c = true) : c ≠ ';' := by
  intro e; subst e; exact absurd h (by decide)

theorem semi_last {r : Row} (hr : r ∈ rows) {a b : Str} (h : r.key = a ++ ';' :: b) : b = [] := by
  cases b with
  | nil => rfl
  | cons x xs =>
    have := (rows_chars hr).2.1 ';' (by rw [h, List.dropLast_append_of_ne_nil (by simp)]; simp)
    exact absurd this (by decide)

theorem no_part {E : Env} (hE : E.ents = entities) {t : Str} {c : Char}
    (hc : ¬ AlphaNum c) (hs : c ≠ ';') : hasPart E ('&' :: t ++ [c]) = false := by
  cases h : hasPart E ('&' :: t ++ [c]) with
  | false => rfl
  | true =>
    obtain ⟨r, hr, x, q, e⟩ := (part_iff hE).mp h
    rcases (rows_chars hr).2.2 c (by rw [e]; simp) with g | g
    · exact absurd ((alphaNum_iff c).mp g) hc
    · exact absurd g hs

theorem no_yes {E : Env} (hE : E.ents = entities) {t : Str} {c : Char}
    (hc : ¬ AlphaNum c) (hs : c ≠ ';') : hasYes E ('&' :: t ++ [c]) = false := by
  cases h : hasYes E ('&' :: t ++ [c]) with
  | false => rfl
  | true =>
    obtain ⟨r, hr, e⟩ := (yes_iff hE).mp h
    rcases (rows_chars hr).2.2 c (by rw [e]; simp) with g | g
    · exact absurd ((alphaNum_iff c).mp g) hc
    · exact absurd g hs

/-- A letter or digit never completes a name that could not go on. -/
theorem yes_part {E : Env} (hE : E.ents = entities) {t : Str} {c : Char}
    (hc : isAlphaNum c = true) (h : hasYes E ('&' :: t ++ [c]) = true) :
    hasPart E ('&' :: t ++ [c]) = true := by
  obtain ⟨r, hr, e⟩ := (yes_iff hE).mp h
  obtain ⟨b, hb, e'⟩ := twins_mem rows_twins r hr (by
    rw [e]; simpa using alnum_ne_semi hc)
  exact (part_iff hE).mpr ⟨b, hb, ';', [], by rw [e', e]⟩

/-! ### Reading a character again -/

theorem consumeN_succ (E : Env) (n : Nat) (s : Lex) (c : Char) (eof : Bool) :
    consumeN E (n + 1) s c eof =
      if (step E s c eof).2 then consumeN E n (step E s c eof).1 c eof else (step E s c eof).1 := rfl

theorem amb_fuel (E : Env) {s : Lex} (hs : s.state = .ambiguousAmpersand) (hr : Calm s.ret)
    (c : Char) (eof : Bool) (k : Nat) : consumeN E (k + 2) s c eof = consume E s c eof := by
  have hst : step E s c eof = onAmbiguous E s c eof := by unfold step; rw [hs]
  show consumeN E ((k + 1) + 1) s c eof = consumeN E (11 + 1) s c eof
  rw [consumeN_succ E (k + 1), consumeN_succ E 11, hst]
  unfold onAmbiguous
  split
  · simp [stay]
  · have hc : Calm (again s.ret s).1.state := hr
    rw [if_pos (by rfl), if_pos (by rfl), consumeN_calm E hc, consumeN_calm E hc]

theorem flush_ret (E : Env) (s : Lex) : (flush E s).ret = s.ret := by
  unfold flush
  split
  · rfl
  · rw [emitChars_full]

theorem named_fuel (E : Env) {s : Lex} (hs : s.state = .namedReference) (hr : Calm s.ret)
    (c : Char) (eof : Bool) (k : Nat) : consumeN E (k + 3) s c eof = consume E s c eof := by
  have hst : step E s c eof = onNamed E s c eof := by unfold step; rw [hs]
  show consumeN E ((k + 2) + 1) s c eof = consumeN E (11 + 1) s c eof
  rw [consumeN_succ E (k + 2), consumeN_succ E 11, hst]
  unfold onNamed
  split
  · simp [stay]
  split
  · split <;> simp [stay]
  split
  · rw [if_pos (by rfl), if_pos (by rfl)]
    have hx : Calm (again .ambiguousAmpersand (flush E s)).1.ret := by
      show Calm (flush E s).ret
      rw [flush_ret]; exact hr
    rw [amb_fuel E rfl hx, amb_fuel E rfl hx]
  · split
    · simp [stay]
    · unfold onLegacy
      split
      · rw [if_pos (by rfl), if_pos (by rfl)]
        rw [consumeN_calm E (s := (again s.ret _).1) hr, consumeN_calm E (s := (again s.ret _).1) hr]
      split
      · rw [if_pos (by rfl), if_pos (by rfl)]
        rw [consumeN_calm E (s := (again s.ret _).1) hr, consumeN_calm E (s := (again s.ret _).1) hr]
      · rw [if_pos (by rfl), if_pos (by rfl)]
        rw [consumeN_calm E (s := (again s.ret _).1) hr, consumeN_calm E (s := (again s.ret _).1) hr]

theorem mid_named (E : Env) {s : Lex} (h : Calm s.state) {c : Char} (w : Str)
    (hc : isAlphaNum c = true) :
    fin E s ('&' :: c :: w) =
      fin E (mid s .namedReference ['&'] s.cur s.matched) (c :: w) := by
  rw [mid_amp E h, fin_cons, fin_cons]
  congr 1
  have hst : step E (mid s .characterReference s.temp s.cur s.matched) c false =
      (mid s .namedReference ['&'] s.cur s.matched, true) := by
    show onCharacterReference E _ c false = _
    unfold onCharacterReference
    rw [if_pos hc]
    rfl
  show consumeN E 12 _ _ _ = _
  rw [consumeN, hst, if_pos rfl]
  exact named_fuel E rfl h c false 8

/-! ### A name of the table -/

theorem named_part (E : Env) {s : Lex} {t : Str} {n : Nat} {m : Option Nat} {c : Char} (w : Str)
    (hp : hasPart E ('&' :: t ++ [c]) = true) :
    fin E (mid s .namedReference ('&' :: t) n m) (c :: w) =
      fin E (mid s .namedReference ('&' :: (t ++ [c])) n
        (if hasYes E ('&' :: t ++ [c]) then some (('&' :: t).length + 1) else m)) w := by
  apply fin_stay
  show onNamed E _ c false = _
  unfold onNamed
  show (if hasPart E ('&' :: t ++ [c]) then _ else _) = _
  rw [if_pos hp]
  rfl

theorem named_fin {E : Env} (hE : E.ents = entities) {s : Lex} {r : Row}
    (hr : r ∈ rows) (hl : r.key.getLast? = some ';') (n : Nat) (w : Str) :
    ∀ (rest t : Str) (m : Option Nat), rest ≠ [] → r.key = t ++ rest →
      ∃ m', fin E (mid s .namedReference ('&' :: t) n m) (rest ++ w) =
        fin E (after E s (r.points.map Char.ofNat) n m') w
  | [], _, _, h, _ => absurd rfl h
  | [c], t, m, _, hk => by
    refine ⟨none, ?_⟩
    have hc : c = ';' := by rw [hk] at hl; simpa using hl
    subst hc
    show fin E _ (';' :: w) = _
    apply fin_stay
    show onNamed E _ ';' false = _
    have hp : hasPart E ('&' :: t ++ [';']) = false := by
      cases h : hasPart E ('&' :: t ++ [';']) with
      | false => rfl
      | true =>
        obtain ⟨q, hq, x, z, e⟩ := (part_iff hE).mp h
        have := semi_last hq (a := t) (b := x :: z) (by rw [e]; simp)
        cases this
    have hy : hasYes E ('&' :: t ++ [';']) = true := (yes_iff hE).mpr ⟨r, hr, by rw [hk]; rfl⟩
    unfold onNamed
    show (if hasPart E ('&' :: t ++ [';']) then _ else if hasYes E ('&' :: t ++ [';']) then _ else _) = _
    rw [if_neg (by rw [hp]; decide), if_pos hy, if_neg (by decide)]
    show stay (go s.state (flush E (mid s .namedReference ((expand E ('&' :: t ++ [';'])).getD _) n none))) = _
    rw [show '&' :: t ++ [';'] = '&' :: r.key by rw [hk]; rfl, expand_row hE hr, go_flush]
    rfl
  | c :: d :: q, t, m, _, hk => by
    have hp : hasPart E ('&' :: t ++ [c]) = true :=
      (part_iff hE).mpr ⟨r, hr, d, q, by rw [hk]; simp⟩
    obtain ⟨m', e⟩ := named_fin hE (s := s) hr hl n w (d :: q) (t ++ [c])
      (if hasYes E ('&' :: t ++ [c]) then some (('&' :: t).length + 1) else m) (by simp) (by rw [hk]; simp)
    refine ⟨m', ?_⟩
    rw [← e]
    exact named_part E _ hp

theorem first_char {r : Row} (hr : r ∈ rows) :
    ∃ c q, r.key = c :: q ∧ isAlphaNum c = true := by
  have h := rows_chars hr
  cases hk : r.key with
  | nil => rw [hk] at h; exact absurd rfl h.1
  | cons c q =>
    refine ⟨c, q, rfl, ?_⟩
    cases q with
    | nil => rw [hk] at h; exact absurd rfl h.1
    | cons d q => exact h.2.1 c (by rw [hk]; simp)

theorem named_ref {E : Env} (hE : E.ents = entities) {s : Lex} (h : Calm s.state) {r : Row}
    (hr : r ∈ rows) (hl : r.key.getLast? = some ';') (w : Str) :
    ∃ n m, fin E s ('&' :: r.key ++ w) = fin E (after E s (r.points.map Char.ofNat) n m) w := by
  obtain ⟨c, q, hk, hc⟩ := first_char hr
  obtain ⟨m, e⟩ := named_fin hE (s := s) hr hl s.cur w r.key [] s.matched (by rw [hk]; simp) rfl
  refine ⟨s.cur, m, ?_⟩
  rw [← e, hk]
  exact mid_named E h _ hc

/-! ### An old name without a semicolon -/

theorem legacy_fin {E : Env} (hE : E.ents = entities) {s : Lex} {r : Row} (hr : r ∈ rows)
    (hl : r.key.getLast? ≠ some ';') (n : Nat) (w : Str) :
    ∀ (rest t : Str) (m : Option Nat), rest ≠ [] → r.key = t ++ rest →
      fin E (mid s .namedReference ('&' :: t) n m) (rest ++ w) =
        fin E (mid s .namedReference ('&' :: r.key) n (some (r.key.length + 1))) w
  | [], _, _, h, _ => absurd rfl h
  | [c], t, m, _, hk => by
    obtain ⟨b, hb, e⟩ := twins_mem rows_twins r hr hl
    have hp : hasPart E ('&' :: t ++ [c]) = true :=
      (part_iff hE).mpr ⟨b, hb, ';', [], by rw [e, hk]; rfl⟩
    have hy : hasYes E ('&' :: t ++ [c]) = true := (yes_iff hE).mpr ⟨r, hr, by rw [hk]; rfl⟩
    show fin E _ (c :: w) = _
    rw [named_part E _ hp, if_pos hy, hk]
    simp
  | c :: d :: q, t, m, _, hk => by
    have hp : hasPart E ('&' :: t ++ [c]) = true :=
      (part_iff hE).mpr ⟨r, hr, d, q, by rw [hk]; simp⟩
    show fin E _ (c :: (d :: q ++ w)) = _
    rw [named_part E _ hp]
    exact legacy_fin hE hr hl n w (d :: q) (t ++ [c]) _ (by simp) (by rw [hk]; simp)

theorem legacy_ref {E : Env} (hE : E.ents = entities) {s : Lex}
    (h : s.state = .data ∨ s.state = .rcdata) {r : Row} (hr : r ∈ rows)
    (hl : r.key.getLast? ≠ some ';') {c : Char} (hc : ¬ AlphaNum c) (hs : c ≠ ';') (w : Str) :
    ∃ n m, fin E s ('&' :: r.key ++ c :: w) =
      fin E (after E s (r.points.map Char.ofNat) n m) (c :: w) := by
  have hcalm : Calm s.state := by rcases h with h | h <;> simp [Calm, h]
  obtain ⟨x, q, hk, hx⟩ := first_char hr
  refine ⟨s.cur, none, ?_⟩
  have e1 : fin E s ('&' :: r.key ++ c :: w) =
      fin E (mid s .namedReference ['&'] s.cur s.matched) (r.key ++ c :: w) := by
    rw [hk]; exact mid_named E hcalm _ hx
  rw [e1, legacy_fin hE hr hl s.cur (c :: w) r.key [] s.matched (by rw [hk]; simp) rfl]
  apply fin_again
  · show onNamed E _ c false = _
    have hin : inAttribute (mid s .namedReference ('&' :: r.key) s.cur (some (r.key.length + 1))) = false := by
      rcases h with h | h <;> simp [inAttribute, mid, h]
    unfold onNamed
    show (if hasPart E ('&' :: r.key ++ [c]) then _ else if hasYes E ('&' :: r.key ++ [c]) then _ else _) = _
    rw [if_neg (by rw [no_part hE hc hs]; decide), if_neg (by rw [no_yes hE hc hs]; decide)]
    show (if (c == ';' && inAttribute _) = true then _ else onLegacy E _ _ c) = _
    rw [hin, Bool.and_false, if_neg (by decide)]
    unfold onLegacy
    rw [hin, Bool.false_and, if_neg (by decide)]
    show (if (('&' :: r.key).length < r.key.length + 1) then _ else _) = _
    rw [if_neg (by simp)]
    show (go s.state (flush E (mid s .namedReference (expandFirst E _ ('&' :: r.key)) s.cur none)), true) = _
    rw [go_flush]
    have : expandFirst E (r.key.length + 1) ('&' :: r.key) = r.points.map Char.ofNat := by
      unfold expandFirst
      rw [show List.take (r.key.length + 1) ('&' :: r.key) = '&' :: r.key by simp, expand_row hE hr]
      simp
    rw [this]
  · exact hcalm

/-! ### Query strings -/

theorem stops_eq {p : Place} {st : State} (hs : Placed p st) (hp : p.inTag = true) :
    ¬ p.stops '=' := by
  cases hs <;> simp [Place.stops, Place.inTag, Space] at *

theorem stops_alnum {p : Place} {st : State} (hs : Placed p st) {c : Char} (hc : AlphaNum c) :
    ¬ p.stops c := by
  have ne : ∀ d : Char, isAlphaNum d = false → c ≠ d := by
    intro d hd e
    rw [← e, (alphaNum_iff c).mpr hc] at hd
    cases hd
  have h1 := ne '&' (by decide)
  have h2 := ne '<' (by decide)
  have h3 := ne '\x00' (by decide)
  have h4 := ne '"' (by decide)
  have h5 := ne '\'' (by decide)
  have h6 := ne '>' (by decide)
  have h7 := ne '\t' (by decide)
  have h8 := ne '\n' (by decide)
  have h9 := ne '\x0c' (by decide)
  have h10 := ne ' ' (by decide)
  cases hs <;> simp only [Place.stops, Space, not_or] <;> simp only [ne_eq] at * <;>
    simp only [*, not_false_eq_true, and_self]

theorem query_plain (E : Env) {p : Place} (hp : p.inTag = true) :
    ∀ (v : Str) {s : Lex} (rest : Str), Placed p s.state → (∀ c ∈ v, AlphaNum c) →
      fin E s (v ++ '=' :: rest) = fin E (put E (v ++ ['=']) s) rest
  | [], s, rest, hs, _ => fin_stay E rest (plain_step E hs (stops_eq hs hp))
  | c :: v, s, rest, hs, hv => by
    have h1 : fin E s (c :: (v ++ '=' :: rest)) = fin E (put E [c] s) (v ++ '=' :: rest) :=
      fin_stay E _ (plain_step E hs (stops_alnum hs (hv c (by simp))))
    show fin E s (c :: (v ++ '=' :: rest)) = _
    rw [h1, query_plain E hp v rest (by rw [put_state]; exact hs) (fun x hx => hv x (by simp [hx])),
      ← put_append]
    rfl

theorem placed_in {p : Place} {s : Lex} (hp : p.inTag = true) (hs : Placed p s.state) :
    ¬ (s.state = .data ∨ s.state = .rcdata) := by
  generalize s.state = st at hs
  intro h
  cases hs <;> simp_all [Place.inTag]

theorem query_amb (E : Env) {p : Place} (hp : p.inTag = true) :
    ∀ (v : Str) {s t : Lex} (rest : Str), Placed p s.state → (∀ c ∈ v, AlphaNum c) →
      Traces s t → t.ret = s.state →
      ∃ u, fin E { t with state := .ambiguousAmpersand } (v ++ '=' :: rest) = fin E u rest ∧
        Traces (put E (v ++ ['=']) s) u
  | [], s, t, rest, hs, _, ht, hr => by
    refine ⟨put E ['='] t, ?_, put_traces ht⟩
    have h1 : fin E { t with state := .ambiguousAmpersand } ('=' :: rest) =
        fin E { t with state := t.ret } ('=' :: rest) := by
      apply fin_again
      · show onAmbiguous E _ '=' false = _
        unfold onAmbiguous
        rw [if_neg (by decide)]
        rfl
      · show Calm t.ret; rw [hr]; exact hs.calm
    have h2 : ({ t with state := t.ret } : Lex) = t := by
      have e : t.ret = t.state := by rw [hr, ht.state]
      clear h1
      cases t; simp only at e; subst e; rfl
    rw [List.nil_append, h1, h2]
    exact query_plain E hp [] rest (by rw [ht.state]; exact hs) (by simp)
  | c :: v, s, t, rest, hs, hv, ht, hr => by
    have hc := hv c (by simp)
    have hin : inAttribute { t with state := .ambiguousAmpersand } = true := by
      show (t.ret == .valueDoubleQuoted || t.ret == .valueSingleQuoted || t.ret == .valueUnquoted) = true
      rw [hr]
      have := placed_in hp hs
      rcases hs.calm with h | h | h | h | h <;> rw [h] at this ⊢ <;> first | rfl | simp at this
    have h1 : fin E { t with state := .ambiguousAmpersand } (c :: (v ++ '=' :: rest)) =
        fin E { appends [c] t with state := .ambiguousAmpersand } (v ++ '=' :: rest) := by
      apply fin_stay
      show onAmbiguous E _ c false = _
      unfold onAmbiguous
      rw [if_pos ((alphaNum_iff c).mpr hc), if_pos hin]
      rfl
    have hput : put E [c] s = appends [c] s := put_value (placed_in hp hs) [c]
    obtain ⟨u, e, hu⟩ := query_amb E hp v (s := appends [c] s) (t := appends [c] t) rest hs
      (fun x hx => hv x (by simp [hx]))
      (by obtain ⟨a, b, n, m, rfl⟩ := ht; exact ⟨a, b, n, m, rfl⟩) hr
    refine ⟨u, ?_, ?_⟩
    · show fin E _ (c :: (v ++ '=' :: rest)) = _
      rw [h1, e]
    · rw [List.cons_append, show c :: (v ++ ['=']) = [c] ++ (v ++ ['=']) by rfl, put_append, hput]
      exact hu

theorem after_ret (E : Env) (s : Lex) (temp : Str) (n : Nat) (m : Option Nat) :
    (after E s temp n m).ret = s.state := by
  unfold after go
  simp only [flush_ret]
  rfl

theorem query_fin {E : Env} (hE : E.ents = entities) {p : Place} (hp : p.inTag = true) :
    ∀ (v : Str) {s : Lex} (t : Str) (n : Nat) (m : Option Nat) (rest : Str), Placed p s.state →
      (∀ c ∈ v, AlphaNum c) →
      ∃ u, fin E (mid s .namedReference ('&' :: t) n m) (v ++ '=' :: rest) = fin E u rest ∧
        Traces (put E ('&' :: t ++ v ++ ['=']) s) u
  | v, s, t, n, m, rest, hs, hv => by
    have hin : inAttribute (mid s .namedReference ('&' :: t) n m) = true := by
      show (s.state == .valueDoubleQuoted || s.state == .valueSingleQuoted || s.state == .valueUnquoted) = true
      have := placed_in hp hs
      rcases hs.calm with h | h | h | h | h <;> rw [h] at this ⊢ <;> first | rfl | simp at this
    -- A character that is no continuation of a name ends it, and everything is literal.
    have stop : ∀ (c : Char) (v' : Str) (rest' : Str), c ≠ ';' → (c = '=' ∨ isAlphaNum c = true) →
        hasPart E ('&' :: t ++ [c]) = false → hasYes E ('&' :: t ++ [c]) = false →
        (∃ v, c :: v' = v ++ '=' :: rest' ∧ ∀ x ∈ v, AlphaNum x) →
        ∃ u, fin E (mid s .namedReference ('&' :: t) n m) (c :: v') = fin E u rest' ∧
          ∀ v, c :: v' = v ++ '=' :: rest' → Traces (put E ('&' :: t ++ v ++ ['=']) s) u := by
      intro c v' rest' hc1 hc2 h1 h2 ⟨v, hv1, hv2⟩
      have hT := after_traces E hs.calm ('&' :: t) n m
      have hplace : Placed p (after E s ('&' :: t) n m).state := hs
      have uniq : ∀ v2, c :: v' = v2 ++ '=' :: rest' → v2 = v := by
        intro v2 e
        rw [hv1] at e
        exact (List.append_cancel_right e).symm
      cases m with
      | none =>
        have hst : step E (mid s .namedReference ('&' :: t) n none) c false =
            ({ after E s ('&' :: t) n none with state := .ambiguousAmpersand }, true) := by
          show onNamed E _ c false = _
          unfold onNamed
          show (if hasPart E ('&' :: t ++ [c]) then _ else if hasYes E ('&' :: t ++ [c]) then _ else _) = _
          rw [if_neg (by rw [h1]; decide), if_neg (by rw [h2]; decide)]
          show again .ambiguousAmpersand (flush E (mid s .namedReference ('&' :: t) n none)) = _
          unfold again
          rw [← go_flush E (s := s) .namedReference]
          rfl
        have hf : fin E (mid s .namedReference ('&' :: t) n none) (c :: v') =
            fin E { after E s ('&' :: t) n none with state := .ambiguousAmpersand } (c :: v') := by
          rw [fin_cons, fin_cons]
          congr 1
          show consumeN E 12 _ c false = _
          rw [consumeN, hst, if_pos rfl]
          exact amb_fuel E rfl (by show Calm (after E s ('&' :: t) n none).ret; rw [after_ret]; exact hs.calm) c false 9
        obtain ⟨u, e, hu⟩ := query_amb E hp v (s := put E ('&' :: t) s) (t := after E s ('&' :: t) n none) rest'
          (by rw [put_state]; exact hs) hv2 hT (by rw [after_ret, put_state])
        refine ⟨u, by rw [hf, hv1, e], ?_⟩
        intro v2 e2
        rw [uniq v2 e2, List.append_assoc, put_append]
        exact hu
      | some k =>
        have hf : fin E (mid s .namedReference ('&' :: t) n (some k)) (c :: v') =
            fin E (after E s ('&' :: t) n (some k)) (c :: v') := by
          apply fin_again
          · show onNamed E _ c false = _
            unfold onNamed
            show (if hasPart E ('&' :: t ++ [c]) then _ else if hasYes E ('&' :: t ++ [c]) then _ else _) = _
            rw [if_neg (by rw [h1]; decide), if_neg (by rw [h2]; decide)]
            show (if (c == ';' && inAttribute _) = true then _ else onLegacy E k _ c) = _
            rw [if_neg (by simp [hc1])]
            unfold onLegacy
            rw [hin, if_pos (by rcases hc2 with h | h <;> simp [h])]
            show (go s.state (flush E (mid s .namedReference ('&' :: t) n (some k))), true) = _
            rw [go_flush]
          · exact hs.calm
        refine ⟨put E (v ++ ['=']) (after E s ('&' :: t) n (some k)), ?_, ?_⟩
        · rw [hf, hv1]
          exact query_plain E hp v rest' hplace hv2
        · intro v2 e2
          rw [uniq v2 e2, List.append_assoc, put_append]
          exact put_traces hT
    cases v with
    | nil =>
      obtain ⟨u, e, hu⟩ := stop '=' rest rest (by decide) (Or.inl rfl)
        (no_part hE (by unfold AlphaNum Upper Lower Digit; decide) (by decide))
        (no_yes hE (by unfold AlphaNum Upper Lower Digit; decide) (by decide)) ⟨[], rfl, by simp⟩
      exact ⟨u, e, hu [] rfl⟩
    | cons c v =>
      have hc := (alphaNum_iff c).mpr (hv c (by simp))
      by_cases h1 : hasPart E ('&' :: t ++ [c]) = true
      · obtain ⟨u, e, hu⟩ := query_fin hE hp v (s := s) (t ++ [c]) n
          (if hasYes E ('&' :: t ++ [c]) then some (('&' :: t).length + 1) else m) rest hs
          (fun x hx => hv x (by simp [hx]))
        refine ⟨u, ?_, ?_⟩
        · rw [← e]; exact named_part E _ h1
        · simpa using hu
      · have h2 : hasYes E ('&' :: t ++ [c]) = false := by
          cases h : hasYes E ('&' :: t ++ [c]) with
          | false => rfl
          | true => exact absurd (yes_part hE hc h) h1
        obtain ⟨u, e, hu⟩ := stop c (v ++ '=' :: rest) rest (alnum_ne_semi hc) (Or.inr hc)
          (by simpa using h1) h2 ⟨c :: v, rfl, hv⟩
        exact ⟨u, e, hu (c :: v) rfl⟩

/-! ### Pieces -/

theorem Traces.refl (s : Lex) : Traces s s := ⟨s.ret, s.temp, s.cur, s.matched, rfl⟩

theorem after_placed {E : Env} {p : Place} {s : Lex} (hs : Placed p s.state) (t : Str) (n : Nat)
    (m : Option Nat) : Placed p (after E s t n m).state := hs

theorem piece_fin {E : Env} (hE : E.ents = entities) {p : Place} {s : Lex}
    (hs : Placed p s.state) {q : Piece} (hq : q.Ok p) (w : Str) :
    ∃ t, fin E s (q.src ++ w) = fin E t w ∧ Traces (put E q.means s) t := by
  cases q with
  | char c => exact ⟨_, fin_stay E w (plain_step E hs hq), put_traces (Traces.refl s)⟩
  | amp c =>
    have hT := after_traces E hs.calm ['&'] s.cur s.matched
    refine ⟨put E [c] (after E s ['&'] s.cur s.matched), ?_, ?_⟩
    · rw [show (Piece.amp c).src ++ w = '&' :: c :: w by rfl, lone_fin E hs.calm w hq.2.1 hq.2.2]
      exact fin_stay E w (plain_step E (after_placed hs _ _ _) hq.1)
    · rw [show (Piece.amp c).means = ['&'] ++ [c] by rfl, put_append]
      exact put_traces hT
  | dec ds =>
    obtain ⟨n, m, e⟩ := dec_ref E hs.calm w hq.1 hq.2
    refine ⟨_, Eq.trans ?_ e, after_traces E hs.calm _ n m⟩
    simp [Piece.src]
  | hex x ds =>
    obtain ⟨n, m, e⟩ := hex_ref E hs.calm w hq.1 hq.2.1 hq.2.2
    refine ⟨_, Eq.trans ?_ e, after_traces E hs.calm _ n m⟩
    simp [Piece.src]
  | named r =>
    obtain ⟨n, m, e⟩ := named_ref hE hs.calm hq.1 hq.2 w
    exact ⟨_, e, after_traces E hs.calm _ n m⟩
  | legacy r c =>
    obtain ⟨h1, h2, h3, h4, h5, h6⟩ := hq
    have hd : s.state = .data ∨ s.state = .rcdata := by
      have hs' := hs
      generalize s.state = st at hs'
      cases hs' <;> simp_all [Place.inTag]
    obtain ⟨n, m, e⟩ := legacy_ref hE hd h2 h3 h5 h6 w
    have hT := after_traces E hs.calm (r.points.map Char.ofNat) n m
    refine ⟨put E [c] (after E s (r.points.map Char.ofNat) n m), ?_, ?_⟩
    · rw [show (Piece.legacy r c).src ++ w = '&' :: r.key ++ c :: w by simp [Piece.src], e]
      exact fin_stay E w (plain_step E (after_placed hs _ _ _) h4)
    · rw [show (Piece.legacy r c).means = r.points.map Char.ofNat ++ [c] by rfl, put_append]
      exact put_traces hT
  | query v =>
    obtain ⟨h1, h2, h3⟩ := hq
    cases v with
    | nil => exact absurd rfl h2
    | cons c v =>
      obtain ⟨u, e, hu⟩ := query_fin hE h1 (c :: v) (s := s) [] s.cur s.matched w hs h3
      refine ⟨u, ?_, ?_⟩
      · rw [← e]
        have := mid_named E hs.calm (v ++ '=' :: w) ((alphaNum_iff c).mpr (h3 c (by simp)))
        refine Eq.trans ?_ this
        simp [Piece.src]
      · simpa [Piece.means] using hu

end Verif.Html
