import Verif.Css.LexNext
import Verif.Css.ParserProps
/-!
# Properties of the CSS lexer

C44 (escapes), C67 (tokens cut the text), C68 (names with escapes), C69 (strings), C70 (tokens are
read as written), and C22 and C62 again, now from the text.
-/
namespace Verif.Css
open LexSpec

/-! ## C44: escapes -/

/-- **C44**: whatever follows a backslash in a string, what it decodes to is a Unicode scalar value. -/
theorem C44_scalar (s : Text) (h : ∀ c ∈ s, Scalar c) : Scalar (escapeCode s).1 := by
  have fffd : Scalar 0xFFFD := by unfold Scalar; omega
  unfold escapeCode
  dsimp only
  split
  · split
    · exact fffd
    · exact h _ (List.mem_cons_self ..)
  · split
    · exact fffd
    · split
      · exact fffd
      · show Scalar (hexValue _)
        unfold Scalar
        omega

example : Scalar (escapeCode (u "d800 x")).1 := C44_scalar _ (by unfold Scalar; decide)

/-- **C44**, as far as it holds: up to five hexadecimal digits decode to the number they write, or to
U+FFFD when that is zero, a surrogate or out of range; one white space behind them belongs to the
escape. Missing: six digits (`C44_six_digits_fails`), and escapes in names (`C44_name_fails`). -/
theorem C44_hex_partial {ds sp r : Text} (h0 : ds ≠ []) (h1 : ds.length ≤ 5) (hd : ∀ d ∈ ds, Hex d)
    (he : HexEnd true (ds.length = 6) sp r) : escapeCode (ds ++ sp ++ r) = (decoded (value ds), r) :=
  escapeCode_hex h0 h1 hd he

example : escapeCode (u "e9" ++ u " " ++ u "f") = (0xE9, u "f") :=
  C44_hex_partial (ds := u "e9") (by decide) (by decide) (by unfold Hex; decide)
    (.inl ⟨32, rfl, .inl rfl, by omega⟩)

/-- Any other character decodes to itself. -/
theorem C44_char {c : Nat} {r : Text} (h : ¬Hex c) : escapeCode (c :: r) = (c, r) := escapeCode_char h

example : escapeCode (u "\"x") = (34, u "x") := C44_char (by unfold Hex; decide)

/-- **C44** fails for six digits: U+1F600 written `\01F600` is read as U+1F60 and a zero. -/
theorem C44_six_digits_fails : decoded (value (u "01F600")) = 0x1F600 ∧ escapeCode (u "01F600") = (0x1F60, u "0") := by
  decide +kernel

/-- **C44** fails in names, for every escape: the token keeps the escape as it was written. (`\66oo`
and `foo` are the same name; the selectors `.\66oo` and `.foo` are not the same to the code, which
compares the text of tokens.) -/
theorem C44_name_fails {r : Text} {w : Text} (h : Name true r (92 :: w)) (hr : NameEnds r) (hp : ¬Begins (· = 40) r) :
    next (92 :: w ++ r) = (⟨.ident, 92 :: w⟩, r) :=
  next_written (.ident (.escape h) hr hp (by intro e; injection e with e; cases e))

theorem C44_name_fails_sample : next (u "\\66oo {") = (⟨.ident, u "\\66oo"⟩, u " {") ∧ u "\\66oo" ≠ u "foo" := by decide +kernel

/-! ## C67: tokens cut the text -/

/-- **C67**: every text is read to its end; the tokens cut it into pieces without gap or overlap, none
empty, and each token but a string carries exactly its piece of the text. -/
theorem C67_tokens_tile (s : Text) : ∃ ts, lexAll (s.length + 1) s = some ts ∧ Tiles ts s :=
  lexAll_tiles _ s (Nat.lt_succ_self _)

example : ∃ ts, lexAll ((u "a\\\n\"b@#").length + 1) (u "a\\\n\"b@#") = some ts ∧ Tiles ts (u "a\\\n\"b@#") := C67_tokens_tile _

/-- So a text has at most as many tokens as characters. -/
theorem C67_length {ts : List Tok} {s : Text} (h : lexAll (s.length + 1) s = some ts) : ts.length ≤ s.length := by
  obtain ⟨ts', h', ht⟩ := C67_tokens_tile s
  rw [h] at h'
  cases h'
  clear h
  induction ht with
  | nil => exact Nat.le_refl _
  | cons hw _ _ _ ih =>
    have := List.length_pos_iff.2 hw
    simp
    omega

example : ∀ ts, lexAll ((u "a:b").length + 1) (u "a:b") = some ts → ts.length ≤ 3 := fun _ h => C67_length (s := u "a:b") h

/-- White space, punctuation, numbers and names put together from their texts give the text back. -/
theorem C67_text_back {ts : List Tok} {s : Text} (h : lexAll (s.length + 1) s = some ts)
    (hs : ∀ t ∈ ts, t.type ≠ .string ∧ t.type ≠ .badString) : ts.flatMap (·.data) = s := by
  obtain ⟨ts', h', ht⟩ := C67_tokens_tile s
  rw [h] at h'
  cases h'
  clear h
  induction ht with
  | nil => rfl
  | cons _ _ hd _ ih =>
    have k := hs _ (List.mem_cons_self ..)
    rw [List.flatMap_cons, hd k.1 k.2, ih fun t ht => hs t (List.mem_cons_of_mem _ ht)]

example : ∀ ts, lexAll ((u "a:b").length + 1) (u "a:b") = some ts → (∀ t ∈ ts, t.type ≠ .string ∧ t.type ≠ .badString) → ts.flatMap (·.data) = u "a:b" :=
  fun _ h => C67_text_back (s := u "a:b") h

/-! ## C70: tokens are read as written -/

/-- **C70**, as far as it holds: a token written as CSS says is read as that token, whatever follows
that cannot be a part of it. `strict` leaves out what the code gets wrong. -/
theorem C70_token_read_partial {t : Tok} {w r : Text} (h : Written true t w r) : next (w ++ r) = (t, r) := next_written h

example : next (u "-1.5e+3px" ++ u " x") = (⟨.dimension, u "-1.5e+3px"⟩, u " x") := by
  refine C70_token_read_partial (.dimension (n := u "-1.5e+3") (w := u "px") ?_ ?_ ?_)
  · refine .fracExp (sg := u "-") (d := u "1") (f := u ".5") (e := u "e+3") (.inr (.inr rfl)) (.inr ⟨by decide, ?_⟩)
      ⟨u "5", rfl, by decide, ?_⟩ ⟨101, u "+", u "3", rfl, .inl rfl, .inr (.inl rfl), by decide, ?_⟩ ?_
    · unfold Digit; decide
    · unfold Digit; decide
    · unfold Digit; decide
    · show ¬Digit 112; unfold Digit; omega
  · exact .start (.inl (by decide)) (.plain (.inl (.inl (by decide))) .nil)
  · exact ⟨by show ¬NameChar 32; unfold NameChar Start Digit; omega, fun h => h⟩

/-- The same for a whole text. -/
theorem C70_text_read_partial {ts : List Tok} {s : Text} (h : Spelled true ts s) : lexAll (s.length + 1) s = some ts :=
  lexAll_spelled h _ (Nat.lt_succ_self _)

/-- No text can be read in two ways by the grammar. -/
theorem C70_unambiguous {ts ts' : List Tok} {s : Text} (h : Spelled true ts s) (h' : Spelled true ts' s) : ts = ts' := by
  have := C70_text_read_partial h
  rw [C70_text_read_partial h'] at this
  exact (Option.some.inj this).symm

/-- A name of ASCII letters. -/
theorem letters_name {r : Text} : ∀ {w : Text}, (∀ c ∈ w, Start c) → Name true r w
  | [], _ => .nil
  | c :: w, h => .plain (.inl (h c (List.mem_cons_self ..))) (letters_name fun x hx => h x (List.mem_cons_of_mem _ hx))

theorem sample_text : Spelled true [tIdent "a", tOpen, tIdent "b", tColon, tIdent "c", tClose] (u "a{b:c}") := by
  have id : ∀ (c x : Nat) (r : Text), Start c → (x = 123 ∨ x = 58 ∨ x = 125) → Written true ⟨.ident, [c]⟩ [c] (x :: r) := by
    intro c x r hc hx
    refine .ident (.start hc .nil) ⟨?_, ?_⟩ ?_ (by intro e; cases e)
    · show ¬NameChar x; unfold NameChar Start Digit; omega
    · rcases hx with rfl | rfl | rfl <;> exact fun h => h
    · show ¬(x = 40); omega
  have st : Start 97 ∧ Start 98 ∧ Start 99 := by unfold Start; omega
  exact .cons (w := [97]) (id 97 123 _ st.1 (by omega)) <|
    .cons (w := [123]) (.punct (by decide)) <| .cons (w := [98]) (id 98 58 _ st.2.1 (by omega)) <|
    .cons (w := [58]) (.punct (by decide)) <| .cons (w := [99]) (id 99 125 _ st.2.2 (by omega)) <|
    .cons (w := [125]) (.punct (by decide)) .nil

example : lexAll ((u "a{b:c}").length + 1) (u "a{b:c}") = some [tIdent "a", tOpen, tIdent "b", tColon, tIdent "c", tClose] :=
  C70_text_read_partial sample_text

/-! ## C68: names with escapes -/

/-- **C68**, as far as it holds: a name with escapes ends where it should, provided that behind the
escape of a character comes a hexadecimal digit, with only ordinary characters of a name between. -/
theorem C68_name_ends_partial {w r : Text} (h : Ident true r w) (hr : NameEnds r) (hp : ¬Begins (· = 40) r)
    (hc : w = [45, 45] → ¬Begins (· = 62) r) : next (w ++ r) = (⟨.ident, w⟩, r) :=
  next_written (.ident h hr hp hc)

/-- `md\:block` then a brace. -/
example : next (u "md\\:block" ++ u " {") = (⟨.ident, u "md\\:block"⟩, u " {") := by
  refine C68_name_ends_partial (.start (.inl (by decide)) (.plain (.inl (.inl (by decide)))
    (.charThen (c := 58) (m := []) (h := 98) (w := u "lock") ?_ ?_ (by intro x h; cases h) ?_ ?_))) ⟨?_, fun h => h⟩ ?_
    (fun h => absurd h (by decide))
  · unfold Newline; omega
  · unfold Hex; decide
  · unfold Hex; decide
  · exact letters_name (by unfold Start; decide)
  · show ¬NameChar 32; unfold NameChar Start Digit; omega
  · show ¬(32 = 40); omega

/-- An escape of a character takes everything up to the next hexadecimal digit or line end, whatever
it is. -/
theorem C68_swallows {c : Nat} {m r : Text} (h1 : ¬Newline c) (h2 : ¬Hex c) (hm : ∀ x ∈ m, ¬Hex x ∧ ¬Newline x)
    (hr : r = [] ∨ ∃ x t, r = x :: t ∧ Newline x) : next (92 :: c :: (m ++ r)) = (⟨.ident, 92 :: c :: m⟩, r) := by
  have hp : ∀ x ∈ m, (!(isHex x || isNewline x)) = true := fun x hx => by
    rw [neg_of (isHex_iff x) (hm x hx).1, neg_of (isNewline_iff x) (hm x hx).2]; rfl
  have e : mEscape (92 :: c :: (m ++ r)) = some r := by
    rw [mEscape_cons, if_neg (by rw [isNewline_iff]; exact h1), if_neg (by rw [isHex_iff]; exact h2), dropWhile_all hp]
    rcases hr with rfl | ⟨x, t, rfl, hx⟩
    · rfl
    · simp [List.dropWhile, (isNewline_iff x).2 hx]
  have ends : NameEnds r := by
    rcases hr with rfl | ⟨x, t, rfl, hx⟩
    · exact ⟨fun h => h, fun h => h⟩
    · refine ⟨fun h => h.not_newline hx, ?_⟩
      intro h
      have h92 : x ≠ 92 := by unfold Newline at hx; omega
      unfold Escape at h
      split at h
      · rename_i e; injection e with e _; exact h92 e
      · exact h
  have hi : mIdent (92 :: c :: (m ++ r)) = some r := mIdent_of (mIdentStart_escape e) (eatName_end ends _)
  have hn : mNumber (92 :: c :: (m ++ r)) = none := rfl
  rw [(Late.of (c := 92) (by omega)).next (mWord_head (a := 45) (w := [45, 62]) (by omega))]
  unfold late
  rw [hn]
  dsimp only
  rw [hi]
  dsimp only
  unfold nextIdent
  split
  · rename_i e
    rcases hr with k | ⟨x, t, k, hx⟩
    · cases k
    · injection k with k _; subst k; unfold Newline at hx; omega
  · rw [show 92 :: c :: (m ++ r) = 92 :: c :: m ++ r from rfl, span_append]

/-- **C68** fails: in `sm\:p { }` the white space and the braces are read as a part of the name. -/
theorem C68_name_ends_fails : ¬ ∀ (w r : Text), Ident false r w → NameEnds r → ¬Begins (· = 40) r →
    (w = [45, 45] → ¬Begins (· = 62) r) → next (w ++ r) = (⟨.ident, w⟩, r) := by
  intro h
  have := h (u "sm\\:p") (u " { }") (.start (.inl (by decide)) (.plain (.inl (.inl (by decide)))
      (.char rfl (by unfold Newline; decide) (by unfold Hex; decide) (.plain (.inl (.inl (by decide))) .nil))))
    ⟨by show ¬NameChar 32; unfold NameChar Start Digit; omega, fun h => h⟩ (by show ¬(32 = 40); omega) (fun h => absurd h (by decide))
  exact absurd this (by decide +kernel)

/-! ## C69: strings -/

/-- **C69**, as far as it holds: a string is read as the text it stands for. Missing: escapes of six
digits and escaped line ends of two characters (`C69_crlf_fails`). -/
theorem C69_string_read_partial {q : Nat} {b v r : Text} (hq : q = 34 ∨ q = 39) (h : Body true q b v) :
    next (q :: (b ++ q :: r)) = (⟨.string, v⟩, r) := by
  have := next_written (.string (r := r) hq h)
  rw [show q :: (b ++ [q]) ++ r = q :: (b ++ q :: r) by simp] at this
  exact this

theorem hexText_props (c : Nat) (h : c < 256) : hexText c ≠ [] ∧ (hexText c).length ≤ 2 ∧ (∀ d ∈ hexText c, Hex d) ∧
    value (hexText c) = c := by
  have : ∀ c : Fin 256, hexText c.1 ≠ [] ∧ (hexText c.1).length ≤ 2 ∧ (∀ d ∈ hexText c.1, (nibble d).isSome = true) ∧
      value (hexText c.1) = c.1 := by decide +kernel
  exact this ⟨c, h⟩

theorem quoted_body : ∀ (v : Text), 0 ∉ v → Body true 34 (v.flatMap fun c =>
    if c < 32 ∨ c = 127 then 92 :: (hexText c ++ [32])
    else if c = 34 ∨ c = 92 then [92, c]
    else [c]) v
  | [], _ => .nil
  | c :: v, h => by
    have ih := quoted_body v fun k => h (List.mem_cons_of_mem _ k)
    have h0 : c ≠ 0 := fun k => h (by rw [k]; exact List.mem_cons_self ..)
    rw [List.flatMap_cons]
    split
    · rename_i hc
      obtain ⟨a, b, d, e⟩ := hexText_props c (by omega)
      have hdec : decoded (value (hexText c)) = c := by
        rw [e]; unfold decoded; rw [if_pos (by omega)]
      have := Body.hex (strict := true) (q := 34) (sp := [32]) a (by omega) (fun _ => by omega) d
        (.inl ⟨32, rfl, .inl rfl, by omega⟩) ih
      rw [hdec] at this
      simpa using this
    · split
      · rename_i hc
        refine .char ?_ ?_ ih
        · unfold Newline; omega
        · rcases hc with rfl | rfl <;> · unfold Hex; decide
      · refine .plain (by omega) ?_ (by omega) ih
        unfold Newline; omega

/-- **C69**: any text, written as a string the way CSSOM prescribes, is read back as that text. -/
theorem C69_quoted_read_back (v r : Text) (h : 0 ∉ v) : next (quoted v ++ r) = (⟨.string, v⟩, r) := by
  have := C69_string_read_partial (r := r) (.inl rfl) (quoted_body v h)
  unfold quoted
  rw [List.cons_append, List.cons_append, List.append_assoc]
  exact this

example : next (quoted (u "a\"\\\n😀") ++ u ";") = (⟨.string, u "a\"\\\n😀"⟩, u ";") := C69_quoted_read_back _ _ (by decide +kernel)

/-- **C69** fails for an escaped line end of two characters. -/
theorem C69_crlf_fails : ¬ ∀ (q : Nat) (b v r : Text), (q = 34 ∨ q = 39) → Body false q b v →
    next (q :: (b ++ q :: r)) = (⟨.string, v⟩, r) := by
  intro h
  have := h 34 (92 :: 13 :: 10 :: []) [] [] (.inl rfl) (.crlf rfl .nil)
  exact absurd this (by decide +kernel)

/-! ## C22, C62: from the text -/

/-- The text of `<!--` and `-->`. -/
theorem next_cd {c : Nat} {r : Text} (h : (next (c :: r)).1.type = .cdo ∨ (next (c :: r)).1.type = .cdc) :
    (∃ t, c :: r = u "<!--" ++ t) ∨ ∃ t, c :: r = u "-->" ++ t := by
  apply Classical.byContradiction
  intro k
  rw [not_or] at k
  have k1 : mWord (u "<!--") (c :: r) = none := mWord_none fun t e => k.1 ⟨t, e⟩
  have k2 : mWord (u "-->") (c :: r) = none := mWord_none fun t e => k.2 ⟨t, e⟩
  unfold next at h
  dsimp only at h
  split at h
  · simp at h
  split at h
  · rename_i t ht
    have : t ≠ .cdo ∧ t ≠ .cdc := by
      unfold single at ht
      repeat' (split at ht)
      all_goals (first | (cases ht; decide) | cases ht)
    rcases h with h | h
    · exact this.1 h
    · exact this.2 h
  split at h
  · simp at h
  rw [k1] at h
  dsimp only at h
  rw [k2] at h
  dsimp only at h
  split at h
  · simp at h
  split at h
  · split at h
    · simp at h
    · split at h <;> simp at h
  split at h
  · unfold nextIdent at h
    split at h
    · split at h
      · split at h <;> simp at h
      · simp at h
    · simp at h
  split at h
  · simp at h
  split at h
  · rcases stringLoop_type c r.length [] r with e | e <;> rw [e] at h <;> simp at h
  · simp at h

theorem no_cd : ∀ (n : Nat) (s : Text), (∀ a b, s ≠ a ++ (u "<!--" ++ b)) → (∀ a b, s ≠ a ++ (u "-->" ++ b)) → ∀ ts, lexAll n s = some ts →
    ∀ t ∈ ts, t.type ≠ .cdo ∧ t.type ≠ .cdc
  | 0, _, _, _, _, h => by cases h
  | _ + 1, [], _, _, _, h => by cases h; intro t ht; cases ht
  | n + 1, c :: r, h1, h2, ts, h => by
    unfold lexAll at h
    obtain ⟨ts', h', rfl⟩ := Option.map_eq_some_iff.1 h
    obtain ⟨w, _, e⟩ := (next_piece c r).1
    intro t ht
    rcases List.mem_cons.1 ht with rfl | ht
    · have : ¬((next (c :: r)).1.type = .cdo ∨ (next (c :: r)).1.type = .cdc) := by
        intro k
        rcases next_cd k with ⟨t, e⟩ | ⟨t, e⟩
        · exact h1 [] t e
        · exact h2 [] t e
      exact not_or.1 this
    · refine no_cd n _ ?_ ?_ ts' h' t ht
      · intro a b k
        exact h1 (w ++ a) b (by rw [e, k]; simp)
      · intro a b k
        exact h2 (w ++ a) b (by rw [e, k]; simp)

theorem no_eof {ts : List Tok} {s : Text} (h : Tiles ts s) : ∀ t ∈ ts, t.type ≠ .eof := by
  induction h with
  | nil => intro t ht; cases ht
  | cons _ he _ _ ih =>
    intro t ht
    rcases List.mem_cons.1 ht with rfl | ht
    · exact he
    · exact ih t ht

/-- **C22**, from the text, as far as it holds: every text, well formed or not, in which neither `<!--`
nor `-->` occurs is read to the end as a style sheet. -/
theorem C22_text_ends_partial (s : Text) (h1 : ∀ a b, s ≠ a ++ (u "<!--" ++ b)) (h2 : ∀ a b, s ≠ a ++ (u "-->" ++ b)) :
    ∃ ts l, lexAll (s.length + 1) s = some ts ∧ sheet (4 * s.length + 3) ts = some (l, []) := by
  obtain ⟨ts, e, ht⟩ := C67_tokens_tile s
  have hl := C67_length e
  obtain ⟨l, k⟩ := C22_sheet_ends_partial ts (fun t m => ⟨(no_cd _ s h1 h2 ts e t m).1, (no_cd _ s h1 h2 ts e t m).2, no_eof ht t m⟩)
    (4 * s.length + 3) (by unfold enough; omega)
  exact ⟨ts, l, e, k⟩

theorem no_infix {s w : Text} (h : ¬ w <:+: s) : ∀ a b, s ≠ a ++ (w ++ b) := by
  intro a b e
  exact h ⟨a, b, by rw [e]; simp⟩

example : ∃ ts l, lexAll ((u "a{b:\"c\n} ]}x").length + 1) (u "a{b:\"c\n} ]}x") = some ts ∧ sheet (4 * (u "a{b:\"c\n} ]}x").length + 3) ts = some (l, []) :=
  C22_text_ends_partial (u "a{b:\"c\n} ]}x") (no_infix (by decide +kernel)) (no_infix (by decide +kernel))

/-- **C62**, from the text, as far as it holds: a well-formed sheet whose tokens are written as CSS says
is read, from its text, as the rules written in it. -/
theorem C62_text_read_partial {ts : List Tok} {s : Text} {l : List Sst} (hs : Spelled true ts s) (h : Spec.SheetText true ts l) (n : Nat)
    (hn : enough ts ≤ n) : (lexAll (s.length + 1) s).bind (sheet n) = some (l, []) := by
  rw [C70_text_read_partial hs]
  exact C62_sheet_read_partial h n hn

/-- From `a{b:c}` to its rule. -/
example : (lexAll ((u "a{b:c}").length + 1) (u "a{b:c}")).bind (sheet 100) =
    some ([.rule ⟨.nil, []⟩ [.tok (tIdent "a")] [.decl (tIdent "b") [.tok (tIdent "c")] false]], []) := by
  refine C62_text_read_partial sample_text ?_ 100 (by decide)
  refine .rule (t := tIdent "a") (r := [tOpen, tIdent "b", tColon, tIdent "c", tClose]) (c := [])
    (.mk (p := [tIdent "a"]) (o := tOpen) (c := [tIdent "b", tColon, tIdent "c"]) (e := tClose) ?_ rfl ?_ rfl) (by decide) .nil
  · exact .cons (v := []) (.tok (by decide)) (by decide) .nil
  · refine .last (.mk (w₁ := []) (w₂ := []) (v := [tIdent "c"]) (i := []) rfl (by decide) (by intro t h; cases h) rfl
      (by intro t h; cases h) ?_ .none)
    exact .cons (v := []) (w := []) (c := []) (.tok (by decide)) (by decide) (by decide) (by rintro ⟨h, _⟩; cases h)
      (by intro t h; cases h) .nil

end Verif.Css
