import Verif.Css.Token
/-!
# The CSS lexer: model

`/repo/src/vaev-engine/css/lexer.cpp` lines 89–404.

* A text is a list of code points; what is left of it stands for the position of the scanner.
* The expressions `Re::…` belong to Karm. They are taken to match greedily and without going
  back: `either` takes the first alternative that matches, `zeroOrOne` and the loops take what
  they can and never give it up, a failed `skip` leaves the scanner where it was, `negate` matches
  one character at which its argument does not match. `Re::space`, `Re::digit`, `Re::xdigit`,
  `Re::alpha` and `Re::alnum` are the ASCII classes; `Re::space` is taken to add nothing to the
  white space of CSS (whether it takes U+000B is not known here). `Re::nOrN(1, 5, …)` is one to
  five times.
* A matcher gives what is left behind the match, or `none`.
* `_checkValidEscape` is not used by the code and is left out. Spans are left out.
-/
namespace Verif.Css

def isDigit (c : Nat) : Bool := 48 ≤ c && c ≤ 57
def isHex (c : Nat) : Bool := isDigit c || (65 ≤ c && c ≤ 70) || (97 ≤ c && c ≤ 102)
def isAlpha (c : Nat) : Bool := (65 ≤ c && c ≤ 90) || (97 ≤ c && c ≤ 122)

/-- One character of `RE_NEWLINE`, lexer.cpp line 100. The alternative `"\r\n"` comes second and
is never reached. -/
def isNewline (c : Nat) : Bool := c == 10 || c == 13 || c == 12

/-- `RE_WHITESPACE`, lexer.cpp line 102. -/
def isSpace (c : Nat) : Bool := c == 32 || c == 9 || isNewline c

/-- The characters of a name that need no escape, lexer.cpp lines 147–151. -/
def isName (c : Nat) : Bool := isAlpha c || isDigit c || c == 95 || c == 45 || 127 < c

/-- Those that may begin one, lexer.cpp lines 135–139. -/
def isStart (c : Nat) : Bool := isAlpha c || c == 95 || 127 < c

abbrev Matcher := Text → Option Text

/-- At most `n` hexadecimal digits. -/
def eatHex : Nat → Text → Text
  | n + 1, c :: r => if isHex c then eatHex n r else c :: r
  | _, r => r

/-- `RE_ESCAPE`, lexer.cpp lines 105–122. -/
def mEscape : Matcher
  | 92 :: c :: r =>
    if isNewline c then none
    else if isHex c then
      match eatHex 5 r with
      | w :: r' => if isSpace w then some r' else some (w :: r')
      | [] => some []
    else some (r.dropWhile fun c => !(isHex c || isNewline c))
  | _ => none

/-- The loop over the characters of a name, lexer.cpp lines 143–154; `n` bounds the turns. -/
def eatName : Nat → Text → Text
  | n + 1, c :: r =>
    match mEscape (c :: r) with
    | some r' => eatName n r'
    | none => if isName c then eatName n r else c :: r
  | _, r => r

/-- The beginning of an identifier, lexer.cpp lines 127–142. -/
def mIdentStart : Matcher
  | 45 :: 45 :: r => some r
  | 45 :: c :: r =>
    match mEscape (c :: r) with
    | some r' => some r'
    | none => if isStart c then some r else none
  | c :: r =>
    match mEscape (c :: r) with
    | some r' => some r'
    | none => if isStart c then some r else none
  | [] => none

/-- `RE_IDENTIFIER`, lexer.cpp lines 126–155. -/
def mIdent : Matcher := fun s => (mIdentStart s).map fun r => eatName r.length r

/-- `RE_HASH`, lexer.cpp lines 178–190. -/
def mHash : Matcher
  | 35 :: r =>
    let r' := eatName r.length r
    if r'.length = r.length then none else some r'
  | _ => none

/-- `RE_AT_KEYWORD`, lexer.cpp line 159. -/
def mAt : Matcher
  | 64 :: r => mIdent r
  | _ => none

/-- `RE_DIGIT`, lexer.cpp line 157. -/
def mDigits : Matcher
  | c :: r => if isDigit c then some (r.dropWhile isDigit) else none
  | [] => none

/-- `RE_OPERATOR`, lexer.cpp line 158. -/
def eatSign : Text → Text
  | c :: r => if c == 45 || c == 43 then r else c :: r
  | [] => []

/-- The part after the point, lexer.cpp lines 197 and 199. -/
def mFraction : Matcher
  | 46 :: r => mDigits r
  | _ => none

/-- The exponent, lexer.cpp lines 202–208. -/
def mExponent : Matcher
  | c :: r => if c == 101 || c == 69 then mDigits (eatSign r) else none
  | [] => none

/-- `RE_NUMBER`, lexer.cpp lines 193–210. -/
def mNumber : Matcher := fun s =>
  let s := eatSign s
  let m := match mDigits s with
    | some r => some ((mFraction r).getD r)
    | none => mFraction s
  m.map fun r => (mExponent r).getD r

/-- The characters that may stand in an unquoted URL, lexer.cpp lines 167–171. -/
def isUrl (c : Nat) : Bool :=
  !(c == 34 || c == 39 || c == 40 || c == 41 || c == 92 || c == 127 || c == 11 || isSpace c || c ≤ 8 || (14 ≤ c && c ≤ 31))

/-- The loop of `RE_URL`, lexer.cpp lines 164–173; `n` bounds the turns. -/
def eatUrl : Nat → Text → Text
  | n + 1, c :: r =>
    match mEscape (c :: r) with
    | some r' => eatUrl n r'
    | none => if isUrl c then eatUrl n r else c :: r
  | _, r => r

/-- `RE_URL`, lexer.cpp lines 162–176. -/
def mUrl : Matcher := fun s =>
  let s := s.dropWhile isSpace
  match (eatUrl s.length s).dropWhile isSpace with
  | 41 :: r => some r
  | _ => none

/-- `Re::untilAndConsume(Re::word("*/"))`, lexer.cpp line 366: up to and with the end of the
comment; nothing when there is none. -/
def mCommentEnd : Matcher
  | 42 :: 47 :: r => some r
  | _ :: r => mCommentEnd r
  | [] => none

/-- The value of hexadecimal digits (`Io::atou`, Karm). -/
def hexDigit (c : Nat) : Nat := if isDigit c then c - 48 else if c ≤ 70 then c - 55 else c - 87
def hexValue (t : Text) : Nat := t.foldl (fun v c => 16 * v + hexDigit c) 0

/-- What was consumed between two positions (`SScan::end`). -/
def span (s rest : Text) : Text := s.take (s.length - rest.length)

/-- `_consumeEscapeCodepoint`, lexer.cpp lines 252–285, behind the backslash. -/
def escapeCode (s : Text) : Nat × Text :=
  let r := eatHex 5 s
  if r.length = s.length then
    match s with
    | [] => (0xFFFD, [])
    | c :: r => (c, r)
  else
    let num := hexValue (span s r)
    let r := match r with
      | w :: r' => if isSpace w then r' else w :: r'
      | [] => []
    if 0xD800 ≤ num ∧ num ≤ 0xDFFF then (0xFFFD, r)
    else if num = 0 ∨ num > 0x10FFFF then (0xFFFD, r)
    else (num, r)

/-- The loop of `_consumeStringToken`, lexer.cpp lines 295–331, behind the opening quote `q`; `n`
bounds the turns, `acc` is `sb`. -/
def stringLoop (q : Nat) : Nat → Text → Text → Tok × Text
  | n + 1, acc, c :: r =>
    if c = q then (⟨.string, acc⟩, r)
    else if isNewline c then (⟨.badString, acc⟩, c :: r)
    else if c = 92 then
      match r with
      | [] => stringLoop q n acc []
      | d :: r' =>
        if isNewline d then stringLoop q n acc r'
        else stringLoop q n (acc ++ [(escapeCode (d :: r')).1]) (escapeCode (d :: r')).2
    else stringLoop q n (acc ++ [c]) r
  | _, acc, r => (⟨.string, acc⟩, r)

/-- `_nextIdent`, lexer.cpp lines 222–235: `s` is the text, `r` what follows the identifier. -/
def nextIdent (s r : Text) : Tok × Text :=
  match r with
  | 40 :: r' =>
    if eqCi (span s r') (u "url(") then
      match r'.dropWhile isSpace with
      | 34 :: _ => (⟨.func, span s r'⟩, r')
      | 39 :: _ => (⟨.func, span s r'⟩, r')
      | _ =>
        let r'' := (mUrl r').getD r'
        (⟨.url, span s r''⟩, r'')
    else (⟨.func, span s r'⟩, r')
  | _ => (⟨.ident, span s r⟩, r)

/-- The tokens that are one character, lexer.cpp lines 340–357. -/
def single (c : Nat) : Option TT :=
  if c = 123 then some .lcurly
  else if c = 125 then some .rcurly
  else if c = 91 then some .lsquare
  else if c = 93 then some .rsquare
  else if c = 40 then some .lpar
  else if c = 41 then some .rpar
  else if c = 59 then some .semi
  else if c = 58 then some .colon
  else if c = 44 then some .comma
  else none

/-- A literal at the beginning of the text. -/
def mWord (w s : Text) : Option Text := if w.isPrefixOf s then some (s.drop w.length) else none

/-- `_next`, lexer.cpp lines 334–387. -/
def next (s : Text) : Tok × Text :=
  match s with
  | [] => (⟨.eof, []⟩, [])
  | c :: r =>
    if isSpace c then (⟨.ws, span s (r.dropWhile isSpace)⟩, r.dropWhile isSpace)
    else
      match single c with
      | some t => (⟨t, [c]⟩, r)
      | none =>
        match mHash s with
        | some r' => (⟨.hash, span s r'⟩, r')
        | none =>
          match mWord (u "<!--") s with
          | some r' => (⟨.cdo, span s r'⟩, r')
          | none =>
            match mWord (u "-->") s with
            | some r' => (⟨.cdc, span s r'⟩, r')
            | none =>
              match mWord (u "/*") s with
              | some r' =>
                let r'' := (mCommentEnd r').getD r'
                (⟨.comment, span s r''⟩, r'')
              | none =>
                match mNumber s with
                | some r' =>
                  match mIdent r' with
                  | some r'' => (⟨.dimension, span s r''⟩, r'')
                  | none =>
                    match r' with
                    | 37 :: r'' => (⟨.percentage, span s r''⟩, r'')
                    | _ => (⟨.number, span s r'⟩, r')
                | none =>
                  match mIdent s with
                  | some r' => nextIdent s r'
                  | none =>
                    match mAt s with
                    | some r' => (⟨.atKeyword, span s r'⟩, r')
                    | none =>
                      if c = 34 ∨ c = 39 then stringLoop c r.length [] r
                      else (⟨.delim, [c]⟩, r)

/-- All the tokens of a text; `n` bounds their number (`next`, lexer.cpp lines 389–394, until
`END_OF_FILE`). -/
def lexAll : Nat → Text → Option (List Tok)
  | 0, _ => none
  | _ + 1, [] => some []
  | n + 1, c :: r => (lexAll n (next (c :: r)).2).map ((next (c :: r)).1 :: ·)

end Verif.Css
