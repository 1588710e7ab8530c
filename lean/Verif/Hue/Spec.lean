import Verif.Hue.Model
import Verif.Values.ColorProps
import Verif.Short.FontProps
/-
# What `hsl()` and `color-mix()` are to mean (CSS Color 4 and 5)
-/

namespace Verif.Hue

open Verif.Values Verif.Short

/-- A hue in degrees, as it is written: a number, an angle in one of the four units in any case of
    letters, or `none`. -/
inductive HueTok (pi : Rat) : Tok → Rat → Prop
  | number (n : Lit) : HueTok pi (.number n.text) n.value
  | deg (n : Lit) {w : List Char} (h : Cased w "deg".toList) : HueTok pi (.dim (n.text ++ w)) n.value
  | grad (n : Lit) {w : List Char} (h : Cased w "grad".toList) :
      HueTok pi (.dim (n.text ++ w)) (n.value * 360 / 400)
  | rad (n : Lit) {w : List Char} (h : Cased w "rad".toList) :
      HueTok pi (.dim (n.text ++ w)) (n.value * 360 / (2 * pi))
  | turn (n : Lit) {w : List Char} (h : Cased w "turn".toList) :
      HueTok pi (.dim (n.text ++ w)) (n.value * 360)
  | none {w : List Char} (h : Cased w "none".toList) : HueTok pi (.ident w) 0

/-- A saturation or lightness as a percentage. -/
inductive PercTok : Tok → Rat → Prop
  | percent (n : Lit) : PercTok (.percent (n.text ++ ['%'])) (n.value / 100)

/-- The contents of `hsl()` with an opacity or without, in the modern and in the older way, with any
    white space. The last argument is the opacity; 1 if there is none. -/
inductive HslText (pi : Rat) : List Tok → Rat → Rat → Rat → Rat → Prop
  | modern {th ts tl : Tok} {h s l : Rat} (hh : HueTok pi th h) (hs : PercTok ts s) (hl : PercTok tl l)
      (i j k m : Nat) : HslText pi (gap i ++ th :: (gap j ++ ts :: (gap k ++ tl :: gap m))) h s l 1
  | modernAlpha {th ts tl ta : Tok} {h s l a : Rat} (hh : HueTok pi th h) (hs : PercTok ts s)
      (hl : PercTok tl l) (ha : Writes 1 ta a) (i j k m p q : Nat) :
      HslText pi (gap i ++ th :: (gap j ++ ts :: (gap k ++ tl :: (gap m ++ .delim ['/'] ::
        (gap p ++ ta :: gap q))))) h s l a
  | legacy {th ts tl : Tok} {h s l : Rat} (hh : HueTok pi th h) (hs : PercTok ts s) (hl : PercTok tl l)
      (i j j' k k' m : Nat) :
      HslText pi (gap i ++ th :: (gap j ++ .comma :: (gap j' ++ ts :: (gap k ++ .comma ::
        (gap k' ++ tl :: gap m))))) h s l 1
  | legacyAlpha {th ts tl ta : Tok} {h s l a : Rat} (hh : HueTok pi th h) (hs : PercTok ts s)
      (hl : PercTok tl l) (ha : Writes 1 ta a) (i j j' k k' m m' q : Nat) :
      HslText pi (gap i ++ th :: (gap j ++ .comma :: (gap j' ++ ts :: (gap k ++ .comma ::
        (gap k' ++ tl :: (gap m ++ .comma :: (gap m' ++ ta :: gap q))))))) h s l a

/-- What a document has for colours: how the engine makes and mixes them. -/
structure Paints (K : Type) where
  rgba : Rgba → K
  hsla : Hsla → K
  sys : List Char → K
  mix : K → K → Rat → K
  fade : K → Rat → K

/-- One side of a mixture: the colour alone, or with its percentage before or behind it. -/
inductive SideText (t : Tok) : Option Rat → List Tok → Prop
  | alone : SideText t none [t]
  | before (n : Lit) (i : Nat) : SideText t (some n.value) (.percent (n.text ++ ['%']) :: (gap i ++ [t]))
  | behind (n : Lit) (i : Nat) : SideText t (some n.value) (t :: (gap i ++ [.percent (n.text ++ ['%'])]))

/-- The colour a value means where the colour of the text is `cur`. -/
inductive Means {K : Type} (e : Env) (x : Paints K) (cur : K) : Tok → K → Prop
  | current {w : List Char} (h : Cased w "currentcolor".toList) : Means e x cur (.ident w) cur
  | transparent {w : List Char} (h : Cased w "transparent".toList) :
      Means e x cur (.ident w) (x.rgba ⟨0, 0, 0, 0⟩)
  | named {w : List Char} {c : Rgba} (h1 : ¬ Cased w "currentcolor".toList)
      (h2 : ¬ Cased w "transparent".toList) (h : e.named (w.map Char.toLower) = some c) :
      Means e x cur (.ident w) (x.rgba c)
  | hsl {w : List Char} (hw : Cased w "hsl(".toList ∨ Cased w "hsla(".toList) {content : List Tok}
      {h s l a : Rat} (ht : HslText e.pi content h s l a) (ha : 0 ≤ a ∧ a ≤ 1) {n : Nat}
      (hn : (n : Int) = e.round (a * 255)) : Means e x cur (.func w content) (x.hsla ⟨h, s, l, n⟩)
  | mix {w win : List Char} (hw : Cased w "color-mix(".toList) (hin : Cased win "in".toList)
      {ta tb : Tok} {a b : K} (ha : Means e x cur ta a) (hb : Means e x cur tb b)
      {lp rp : Option Rat} {sa sb : List Tok} (hsa : SideText ta lp sa) (hsb : SideText tb rp sb)
      {p q t : Rat} (hpq : percentages lp rp = (p, q)) (hp : 0 ≤ p ∧ p ≤ 100) (hq : 0 ≤ q ∧ q ≤ 100)
      (hz : 0 < p + q) (ht : t * (p + q) = q) (i j k m m' o : Nat) :
      Means e x cur
        (.func w (gap i ++ .ident win :: (gap (j + 1) ++ .ident "srgb".toList :: (gap k ++ .comma ::
          (gap m ++ sa ++ (gap m' ++ .comma :: (gap o ++ sb)))))))
        (if p + q < 100 then x.fade (x.mix a b t) ((p + q) / 100) else x.mix a b t)

end Verif.Hue
