import Verif.Css.Token
/-!
# How CSS tokens are written: specification

From CSS Syntax 3 §4. The character classes, escapes and numbers are spelled out here and share
nothing with the model of the lexer.

`Written strict t w r` says that the text `w`, followed by `r`, spells the token `t`. The argument
`strict` leaves out the spellings the code gets wrong:

* an escape of a character (`\:`) in a name, unless the rest of the name has a hexadecimal digit
  and only ordinary characters of a name stand between;
* a hexadecimal escape of six digits in a string;
* a carriage return followed by a line feed as one line end.

Unterminated strings, URLs and comments and functions with escapes in their names are not covered, and in names an escape does not stand for
its character: the token has the text as written (see `C44_name_fails`).
-/
namespace Verif.Css.LexSpec

/-- The value of a hexadecimal digit. -/
def nibble (c : Nat) : Option Nat :=
  if 48 ≤ c ∧ c ≤ 57 then some (c - 48)
  else if 97 ≤ c ∧ c ≤ 102 then some (c - 97 + 10)
  else if 65 ≤ c ∧ c ≤ 70 then some (c - 65 + 10)
  else none

def Hex (c : Nat) : Prop := (nibble c).isSome

/-- The number digits write. -/
def value : Text → Nat
  | [] => 0
  | d :: ds => (nibble d).getD 0 * 16 ^ ds.length + value ds

/-- A Unicode scalar value. -/
def Scalar (c : Nat) : Prop := c < 0xD800 ∨ (0xDFFF < c ∧ c < 0x110000)

/-- What an escaped number stands for. -/
def decoded (v : Nat) : Nat :=
  if 0 < v ∧ (v < 0xD800 ∨ (0xDFFF < v ∧ v < 0x110000)) then v else 0xFFFD

def Newline (c : Nat) : Prop := c = 10 ∨ c = 12 ∨ c = 13
def White (c : Nat) : Prop := c = 32 ∨ c = 9 ∨ Newline c
def Digit (c : Nat) : Prop := 48 ≤ c ∧ c ≤ 57
def Start (c : Nat) : Prop := (97 ≤ c ∧ c ≤ 122) ∨ (65 ≤ c ∧ c ≤ 90) ∨ c = 95 ∨ 128 ≤ c
def NameChar (c : Nat) : Prop := Start c ∨ Digit c ∨ c = 45

/-- The text begins with a character of this kind. -/
def Begins (p : Nat → Prop) : Text → Prop
  | c :: _ => p c
  | [] => False

/-- What may follow the digits of an escape: one white space, which belongs to it, or, when there
are fewer than six digits, nothing that could be taken for more of it. -/
def HexEnd (strict : Bool) (full : Prop) (sp r : Text) : Prop :=
  (∃ c, sp = [c] ∧ White c ∧ ¬(c = 13 ∧ Begins (· = 10) r)) ∨
  (strict = false ∧ sp = [13, 10]) ∨
  (sp = [] ∧ ¬Begins White r ∧ (full ∨ ¬Begins Hex r))

/-- The body of a string between quotes `q` and the value it stands for. `After` is what follows
the body. -/
inductive Body (strict : Bool) (q : Nat) : Text → Text → Prop
  | nil : Body strict q [] []
  | plain {c w v} : c ≠ q → ¬Newline c → c ≠ 92 → Body strict q w v → Body strict q (c :: w) (c :: v)
  | char {c w v} : ¬Newline c → ¬Hex c → Body strict q w v → Body strict q (92 :: c :: w) (c :: v)
  | hex {ds sp w v} : ds ≠ [] → ds.length ≤ 6 → (strict = true → ds.length ≤ 5) → (∀ d ∈ ds, Hex d) →
      HexEnd strict (ds.length = 6) sp (w ++ [q]) → Body strict q w v →
      Body strict q (92 :: (ds ++ sp ++ w)) (decoded (value ds) :: v)
  | line {c w v} : Newline c → ¬(c = 13 ∧ Begins (· = 10) w) → Body strict q w v →
      Body strict q (92 :: c :: w) v
  | crlf {w v} : strict = false → Body strict q w v → Body strict q (92 :: 13 :: 10 :: w) v

/-- A text that begins with a valid escape. -/
def Escape : Text → Prop
  | 92 :: c :: _ => ¬Newline c
  | _ => False

/-- A text whose first character cannot continue a name. -/
def NameEnds (r : Text) : Prop := ¬Begins NameChar r ∧ ¬Escape r

/-- The characters of a name, when `r` follows it. -/
inductive Name (strict : Bool) (r : Text) : Text → Prop
  | nil : Name strict r []
  | plain {c w} : NameChar c → Name strict r w → Name strict r (c :: w)
  | hex {ds sp w} : ds ≠ [] → ds.length ≤ 6 → (∀ d ∈ ds, Hex d) → HexEnd strict (ds.length = 6) sp (w ++ r) →
      Name strict r w → Name strict r (92 :: (ds ++ sp ++ w))
  | charThen {c m h w} : ¬Newline c → ¬Hex c → (∀ x ∈ m, NameChar x ∧ ¬Hex x) → Hex h → Name strict r (h :: w) →
      Name strict r (92 :: c :: (m ++ h :: w))
  | char {c w} : strict = false → ¬Newline c → ¬Hex c → Name strict r w → Name strict r (92 :: c :: w)

/-- An identifier, when `r` follows it. -/
inductive Ident (strict : Bool) (r : Text) : Text → Prop
  | dashes {w} : Name strict r w → Ident strict r (45 :: 45 :: w)
  | start {c w} : Start c → Name strict r w → Ident strict r (c :: w)
  | dashStart {c w} : Start c → Name strict r w → Ident strict r (45 :: c :: w)
  | escape {w} : Name strict r (92 :: w) → Ident strict r (92 :: w)
  | dashEscape {w} : Name strict r (92 :: w) → Ident strict r (45 :: 92 :: w)

/-- A text that would be read as the beginning of an identifier. -/
def StartsIdent (s : Text) : Prop :=
  Escape s ∨ match s with
    | 45 :: c :: r => c = 45 ∨ Start c ∨ Escape (c :: r)
    | c :: _ => Start c
    | [] => False

/-- An optional sign. -/
def Sign (s : Text) : Prop := s = [] ∨ s = [43] ∨ s = [45]

/-- One or more digits. -/
def Digits (s : Text) : Prop := s ≠ [] ∧ ∀ c ∈ s, Digit c

/-- A point and digits. -/
def Fraction (s : Text) : Prop := ∃ d, s = 46 :: d ∧ Digits d

/-- `e`, a sign, digits. -/
def Exponent (s : Text) : Prop := ∃ e sg d, s = e :: (sg ++ d) ∧ (e = 101 ∨ e = 69) ∧ Sign sg ∧ Digits d

/-- A number, when `r` follows it. -/
inductive Num (r : Text) : Text → Prop
  | int {sg d} : Sign sg → Digits d → ¬Begins Digit r → (∀ f r', r = f ++ r' → ¬Fraction f) →
      (∀ e r', r = e ++ r' → ¬Exponent e) → Num r (sg ++ d)
  | frac {sg d f} : Sign sg → (d = [] ∨ Digits d) → Fraction f → ¬Begins Digit r →
      (∀ e r', r = e ++ r' → ¬Exponent e) → Num r (sg ++ d ++ f)
  | intExp {sg d e} : Sign sg → Digits d → Exponent e → ¬Begins Digit r → Num r (sg ++ d ++ e)
  | fracExp {sg d f e} : Sign sg → (d = [] ∨ Digits d) → Fraction f → Exponent e → ¬Begins Digit r →
      Num r (sg ++ d ++ f ++ e)

/-- The text begins with a number. -/
def StartsNum (s : Text) : Prop :=
  ∃ sg r, s = sg ++ r ∧ Sign sg ∧ (Begins Digit r ∨ ∃ r', r = 46 :: r' ∧ Begins Digit r')

/-- `url(`, in any case. -/
def IsUrl (w : Text) : Prop := ∃ a b c, w = [a, b, c] ∧ (a = 117 ∨ a = 85) ∧ (b = 114 ∨ b = 82) ∧ (c = 108 ∨ c = 76)

/-- A character of an unquoted URL. -/
def UrlChar (c : Nat) : Prop :=
  32 < c ∧ c ≠ 127 ∧ c ≠ 34 ∧ c ≠ 39 ∧ c ≠ 40 ∧ c ≠ 41 ∧ c ≠ 92

def punct : List (Nat × TT) :=
  [(123, .lcurly), (125, .rcurly), (91, .lsquare), (93, .rsquare), (40, .lpar), (41, .rpar), (59, .semi),
   (58, .colon), (44, .comma)]

/-- The text `w`, followed by `r`, spells the token. -/
inductive Written (strict : Bool) : Tok → Text → Text → Prop
  | ws {w r} : w ≠ [] → (∀ c ∈ w, White c) → ¬Begins White r → Written strict ⟨.ws, w⟩ w r
  | punct {c t r} : (c, t) ∈ punct → Written strict ⟨t, [c]⟩ [c] r
  | hash {w r} : w ≠ [] → Name strict r w → NameEnds r → Written strict ⟨.hash, 35 :: w⟩ (35 :: w) r
  | cdo {r} : Written strict ⟨.cdo, u "<!--"⟩ (u "<!--") r
  | cdc {r} : Written strict ⟨.cdc, u "-->"⟩ (u "-->") r
  | comment {w r} : (∀ a b, w ++ [42] ≠ a ++ 42 :: 47 :: b) →
      Written strict ⟨.comment, 47 :: 42 :: (w ++ [42, 47])⟩ (47 :: 42 :: (w ++ [42, 47])) r
  | number {w r} : Num r w → ¬StartsIdent r → ¬Begins (· = 37) r → Written strict ⟨.number, w⟩ w r
  | percentage {w r} : Num (37 :: r) w → Written strict ⟨.percentage, w ++ [37]⟩ (w ++ [37]) r
  | dimension {n w r} : Num (w ++ r) n → Ident strict r w → NameEnds r →
      Written strict ⟨.dimension, n ++ w⟩ (n ++ w) r
  | ident {w r} : Ident strict r w → NameEnds r → ¬Begins (· = 40) r →
      (w = [45, 45] → ¬Begins (· = 62) r) → Written strict ⟨.ident, w⟩ w r
  | func {w r} : Ident strict (40 :: r) w → 92 ∉ w → ¬IsUrl w → Written strict ⟨.func, w ++ [40]⟩ (w ++ [40]) r
  | urlFunc {w sp q r} : IsUrl w → (∀ c ∈ sp, White c) → (q = 34 ∨ q = 39) →
      Written strict ⟨.func, w ++ [40]⟩ (w ++ [40]) (sp ++ q :: r)
  | url {w sp b sp' r} : IsUrl w → (∀ c ∈ sp, White c) → (∀ c ∈ b, UrlChar c) → (∀ c ∈ sp', White c) →
      Written strict ⟨.url, w ++ 40 :: (sp ++ b ++ sp' ++ [41])⟩ (w ++ 40 :: (sp ++ b ++ sp' ++ [41])) r
  | atKeyword {w r} : Ident strict r w → NameEnds r → Written strict ⟨.atKeyword, 64 :: w⟩ (64 :: w) r
  | string {q b v r} : (q = 34 ∨ q = 39) → Body strict q b v → Written strict ⟨.string, v⟩ (q :: (b ++ [q])) r
  | delim {c r} : ¬White c → (∀ t, (c, t) ∉ LexSpec.punct) → c ≠ 34 → c ≠ 39 → ¬StartsNum (c :: r) →
      ¬StartsIdent (c :: r) → (c = 35 → NameEnds r) → (c = 64 → ¬StartsIdent r) →
      (c = 60 → ∀ r', r ≠ u "!--" ++ r') → (c = 45 → ∀ r', r ≠ u "->" ++ r') →
      (c = 47 → ¬Begins (· = 42) r) → Written strict ⟨.delim, [c]⟩ [c] r

/-- A text and the tokens it is written as. -/
inductive Spelled (strict : Bool) : List Tok → Text → Prop
  | nil : Spelled strict [] []
  | cons {t w r ts} : Written strict t w r → Spelled strict ts r → Spelled strict (t :: ts) (w ++ r)

/-- The tokens cut the text into pieces, none of them empty, and each one but a string is the piece
it was cut from. -/
inductive Tiles : List Tok → Text → Prop
  | nil : Tiles [] []
  | cons {t w r ts} : w ≠ [] → t.type ≠ .eof → (t.type ≠ .string → t.type ≠ .badString → t.data = w) → Tiles ts r →
      Tiles (t :: ts) (w ++ r)

/-- Two hexadecimal digits at most, without leading zero. -/
def hexText (c : Nat) : Text :=
  let dig (d : Nat) : Nat := if d < 10 then 48 + d else 87 + d
  if c < 16 then [dig c] else [dig (c / 16), dig (c % 16)]

/-- A text as a string (CSSOM, "serialize a string"): control characters as numbers, quotes and
backslashes behind a backslash. -/
def quoted (v : Text) : Text :=
  34 :: (v.flatMap fun c =>
    if c < 32 ∨ c = 127 then 92 :: (hexText c ++ [32])
    else if c = 34 ∨ c = 92 then [92, c]
    else [c]) ++ [34]

end Verif.Css.LexSpec
