import Verif.Css.Parser

/-!
# The CSS parser: what is meant

The grammar of CSS Syntax 3, section 5, over tokens, with the tree each text stands for.
Comments stand for nothing. White space between the parts of a declaration's value is not
kept. With `strict` the grammar is cut down to what the code reads as meant.
-/
namespace Verif.Css.Spec

/-- White space tokens only. -/
def BlankT (w : List Tok) : Prop := ∀ t ∈ w, t.type = .ws

/-- The bracket that closes a bracket. -/
def closes : TT → Option TT
  | .lpar => some .rpar
  | .lsquare => some .rsquare
  | .lcurly => some .rcurly
  | _ => none

/-- A token that is a component value on its own. -/
def plain (t : TT) : Prop :=
  t ∉ [TT.lpar, .lsquare, .lcurly, .func, .rpar, .rsquare, .rcurly, .eof, .comment]

mutual
/-- A component value: a token, a bracketed block or a function. -/
inductive ValueText (strict : Bool) : List Tok → Sst → Prop
  | tok {t} : plain t.type → ValueText strict [t] (.tok t)
  | block {o c e l} : closes o.type = some e.type → ItemsText strict false c l →
      ValueText strict (o :: (c ++ [e])) (.block l)
  | func {f c e l} : f.type = .func → e.type = .rpar → ItemsText strict true c l →
      ValueText strict (f :: (c ++ [e])) (.func f l)

/-- What stands between brackets; `inFunc` tells whether these are a function's. -/
inductive ItemsText (strict : Bool) : Bool → List Tok → List Sst → Prop
  | nil {inFunc} : ItemsText strict inFunc [] []
  | cons {inFunc v s c l} : ValueText strict v s → ItemsText strict inFunc c l →
      ItemsText strict inFunc (v ++ c) (s :: l)
  | comment {inFunc k c l} : (strict = true → inFunc = true) → k.type = .comment → ItemsText strict inFunc c l →
      ItemsText strict inFunc (k :: c) l
end

/-- Component values in a row, none beginning with a token that is not `ok`. -/
inductive SeqText (strict : Bool) (ok : Tok → Prop) : List Tok → List Sst → Prop
  | nil : SeqText strict ok [] []
  | cons {t v s c l} : ValueText strict (t :: v) s → ok t → SeqText strict ok c l →
      SeqText strict ok (t :: v ++ c) (s :: l)
  | comment {k c l} : strict = false → k.type = .comment → SeqText strict ok c l → SeqText strict ok (k :: c) l

def bang (t : Tok) : Prop := t.type = .delim ∧ t.data = u "!"

/-- The value of a declaration, up to `!important`. -/
inductive DeclValue (strict : Bool) : List Tok → List Sst → Prop
  | nil : DeclValue strict [] []
  | cons {t v s w c l} : ValueText strict (t :: v) s → t.type ≠ .ws → t.type ≠ .semi → ¬ bang t → BlankT w →
      DeclValue strict c l → DeclValue strict (t :: v ++ (w ++ c)) (s :: l)
  | comment {k w c l} : strict = false → k.type = .comment → BlankT w → DeclValue strict c l →
      DeclValue strict (k :: (w ++ c)) l

/-- `!important`, or nothing. -/
inductive ImpText : List Tok → Bool → Prop
  | none : ImpText [] false
  | some {b w₁ i w₂} : bang b → BlankT w₁ → i.type = .ident → i.data.map lower = u "important" → BlankT w₂ →
      ImpText (b :: (w₁ ++ i :: w₂)) true

/-- A declaration. -/
inductive DeclText (strict : Bool) : List Tok → Sst → Prop
  | mk {n w₁ k w₂ v i l b} : n.type = .ident → n.data ≠ u "&" → BlankT w₁ → k.type = .colon → BlankT w₂ →
      DeclValue strict v l → ImpText i b → DeclText strict (n :: (w₁ ++ k :: (w₂ ++ (v ++ i)))) (.decl n l b)

mutual
/-- What stands between the braces of a rule. -/
inductive BlockText (strict : Bool) : List Tok → List Sst → Prop
  | nil : BlockText strict [] []
  | skip {t c l} : t.type = .ws ∨ t.type = .semi ∨ t.type = .comment → BlockText strict c l → BlockText strict (t :: c) l
  | last {d s} : DeclText strict d s → BlockText strict d [s]
  | decl {d s e c l} : DeclText strict d s → e.type = .semi → BlockText strict c l →
      BlockText strict (d ++ e :: c) (s :: l)
  | at {a s c l} : AtText strict a s → BlockText strict c l → BlockText strict (a ++ c) (s :: l)
  | rule {t r s c l} : RuleText strict (t :: r) s →
      t.type ∉ [TT.ws, .semi, .comment, .atKeyword, .rcurly] →
      (strict = true → t.type = .ident → ∀ w k r', r = w ++ k :: r' → BlankT w → k.type ≠ .colon) → BlockText strict c l →
      BlockText strict (t :: r ++ c) (s :: l)
  /-- Something that is no declaration, up to the next semicolon: it stands for nothing. -/
  | bad {b x e c l} : strict = false → SeqText strict (fun t => t.type ≠ .semi ∧ t.type ≠ .lcurly ∧ t.type ≠ .atKeyword) b x →
      (∀ s, ¬ DeclText strict b s) → e.type = .semi → BlockText strict c l → BlockText strict (b ++ e :: c) l

/-- An at-rule. -/
inductive AtText (strict : Bool) : List Tok → Sst → Prop
  | semi {kw p l e} : kw.type = .atKeyword → SeqText strict (fun t => t.type ≠ .semi ∧ t.type ≠ .lcurly) p l →
      e.type = .semi → AtText strict (kw :: (p ++ [e])) (.rule kw l [])
  | block {kw p l o c m e} : kw.type = .atKeyword → SeqText strict (fun t => t.type ≠ .semi ∧ t.type ≠ .lcurly) p l →
      o.type = .lcurly → BlockText strict c m → e.type = .rcurly →
      AtText strict (kw :: (p ++ o :: (c ++ [e]))) (.rule kw l m)

/-- A rule. -/
inductive RuleText (strict : Bool) : List Tok → Sst → Prop
  | mk {p l o c m e} : SeqText strict (fun t => t.type ≠ .lcurly) p l → o.type = .lcurly → BlockText strict c m →
      e.type = .rcurly → RuleText strict (p ++ o :: (c ++ [e])) (.rule ⟨.nil, []⟩ l m)
end

/-- A style sheet. -/
inductive SheetText (strict : Bool) : List Tok → List Sst → Prop
  | nil : SheetText strict [] []
  | skip {t c l} : t.type = .ws ∨ t.type = .comment → SheetText strict c l → SheetText strict (t :: c) l
  | cd {t c l} : strict = false → t.type = .cdo ∨ t.type = .cdc → SheetText strict c l → SheetText strict (t :: c) l
  | at {a s c l} : AtText strict a s → SheetText strict c l → SheetText strict (a ++ c) (s :: l)
  | rule {t r s c l} : RuleText strict (t :: r) s → t.type ∉ [TT.ws, .comment, .atKeyword, .cdo, .cdc] →
      SheetText strict c l → SheetText strict (t :: r ++ c) (s :: l)

/-- The tokens without the comments. -/
def strip (ts : List Tok) : List Tok := ts.filter fun t => t.type ≠ .comment

end Verif.Css.Spec
